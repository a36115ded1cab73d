import Verif.Proof.Text
import Verif.Spec.Tree
namespace Mes
open Res Spec

variable {s s' : St} {P : Int → Prop}

theorem Spec.AtomAt.valid {p : Int} {a : Atom} (h : AtomAt s p a) : s.Valid p := by
  cases h with
  | num h => exact IsNum.valid h
  | chr h => exact IsChar.valid h
  | kw h _ => exact h.valid
  | obj h => exact h

theorem Spec.AtomAt.ext {p : Int} {a : Atom} (h : AtomAt s p a) (hf : Ext s s') : AtomAt s' p a := by
  have e := hf.same p h.valid.2 id
  cases h with
  | num h => exact .num (h.ext hf)
  | chr h => exact .chr (h.ext hf)
  | kw h ht => exact .kw (h.ext hf) (by rw [e]; exact ht)
  | obj h h1 h2 h3 => exact .obj (hf.valid h) (by rwa [e]) (by rwa [e]) (by rwa [e])

theorem Spec.Rep.valid {p : Int} {t : Tree} (h : Rep s p t) : s.Valid p := by
  cases h with
  | atom h => exact h.valid
  | str h => exact h.valid
  | pair h => exact h
  | vec h => exact h

theorem target_ext {p : Int} (hv : s.Valid p) (hf : Ext s s') : target s' p = target s p := by
  unfold target; rw [hf.same p hv.2 id]

theorem Spec.Rep.ext {p : Int} {t : Tree} (h : Rep s p t) (hf : Ext s s') : Rep s' p t := by
  induction h with
  | atom h h1 h2 h3 h4 =>
    have e := hf.same _ h.valid.2 id
    exact .atom (h.ext hf) (by rwa [e]) (by rwa [e]) (by rwa [e]) (by rwa [e])
  | str h => exact .str (h.ext hf)
  | @pair p a d hv ht _ _ iha ihd =>
    have e := hf.same p hv.2 id
    exact .pair (hf.valid hv) (by rwa [e]) (by rwa [e]) (by rwa [e])
  | @vec p es hv ht hl he _ ih =>
    have e := hf.same p hv.2 id
    refine .vec (hf.valid hv) (by rwa [e]) (by rwa [e]) (fun i hi => ?_) (fun i hi => ?_)
    · rw [e]; exact hf.valid (he i hi)
    · rw [e, target_ext (he i hi) hf]; exact ih i hi

theorem atomAt_inj {p : Int} {a b : Atom} (h : AtomAt s p a) (h' : AtomAt s p b) : a = b := by
  cases h with
  | num h =>
    cases h' with
    | num h' => rw [← h.value, ← h'.value]
    | chr h' => have := h.tag; rw [h'.tag] at this; cases this
    | kw _ h' => have := h.tag; rw [h'] at this; cases this
    | obj _ h' => exact absurd h.tag h'
  | chr h =>
    cases h' with
    | chr h' => rw [← h.value, ← h'.value]
    | num h' => have := h.tag; rw [h'.tag] at this; cases this
    | kw _ h' => have := h.tag; rw [h'] at this; cases this
    | obj _ _ h' => exact absurd h.tag h'
  | kw h ht =>
    cases h' with
    | kw h' _ => rw [h.inj h']
    | num h' => rw [h'.tag] at ht; cases ht
    | chr h' => rw [h'.tag] at ht; cases ht
    | obj _ _ _ h' => exact absurd ht h'
  | obj h h1 h2 h3 =>
    cases h' with
    | kw _ h' => exact absurd h' h3
    | num h' => exact absurd h'.tag h1
    | chr h' => exact absurd h'.tag h2
    | obj _ _ _ h' => rfl

theorem rep_inj {p : Int} {t : Tree} (h : Rep s p t) : ∀ {u : Tree}, Rep s p u → t = u := by
  induction h with
  | atom h h1 h2 h3 h4 =>
    intro u h'
    cases h' with
    | atom h' => rw [atomAt_inj h h']
    | str h' => exact absurd h'.tag h2
    | pair _ h' => exact absurd h' h1
    | vec _ h' => exact absurd h' h3
  | str h =>
    intro u h'
    cases h' with
    | atom _ _ h2 => exact absurd h.tag h2
    | str h' => rw [h.toHasText.inj h'.toHasText]
    | pair _ h' => have := h.tag; rw [h'] at this; cases this
    | vec _ h' => have := h.tag; rw [h'] at this; cases this
  | pair hv ht _ _ iha ihd =>
    intro u h'
    cases h' with
    | atom _ h1 => exact absurd ht h1
    | str h' => have := h'.tag; rw [ht] at this; cases this
    | pair _ _ ha hd => rw [iha ha, ihd hd]
    | vec _ h' => rw [ht] at h'; cases h'
  | @vec p es hv ht hl he _ ih =>
    intro u h'
    cases h' with
    | atom _ _ _ h3 => exact absurd ht h3
    | str h' => have := h'.tag; rw [ht] at this; cases this
    | pair _ h' => rw [ht] at h'; cases h'
    | @vec _ es' _ _ hl' _ h' =>
      congr 1
      have hlen : es.length = es'.length := by have := hl.symm.trans hl'; omega
      exact List.ext_getElem hlen (fun i h1 h2 => ih i h1 (h' i h2))

/-- `eq_p` on atoms. -/
theorem eqP_ok {x y : Int} {a b : Atom} (hx : AtomAt s x a) (hy : AtomAt s y b) :
    eqP s x y = ok (if a = b then c_t else c_f) := by
  by_cases hxy : x = y
  · subst hxy; rw [eqP, if_pos rfl, if_pos (atomAt_inj hx hy)]
  simp only [eqP, if_neg hxy, St.rd_ok hx.valid, St.rd_ok hy.valid, ok_bind]
  cases hx with
  | num hx =>
    cases hy with
    | num hy => simp [hx.tag, hy.tag, hx.value, hy.value]; split <;> rfl
    | chr hy => simp [hx.tag, hy.tag]
    | kw _ hy => simp [hx.tag, hy]
    | obj _ hy => simp [hx.tag, hy]
  | chr hx =>
    cases hy with
    | num hy => simp [hx.tag, hy.tag]
    | chr hy => simp [hx.tag, hy.tag, hx.value, hy.value]; split <;> rfl
    | kw _ hy => simp [hx.tag, hy]
    | obj _ _ hy => simp [hx.tag, hy]
  | kw hx ht =>
    cases hy with
    | num hy => simp [ht, hy.tag]
    | chr hy => simp [ht, hy.tag]
    | kw hy hy' =>
      simp only [ht, hy', if_true, stringEqual_ok hx hy (.inr (.inl ht)), Atom.kw.injEq]
    | obj _ _ _ hy => simp [ht, hy]
  | obj _ h1 h2 h3 =>
    cases hy with
    | num hy => simp [h1, h2, h3]
    | chr hy => simp [h1, h2, h3]
    | kw _ hy => simp [h1, h2, h3]
    | obj _ _ _ hy => simp [h1, h2, h3, hxy]

/-- `eq_p` on data that are not both atoms, at different addresses. -/
theorem eqP_ne {x y : Int} (hx : s.Valid x) (hy : s.Valid y) (hne : x ≠ y)
    (h : ((s.cell x).tag ≠ .number ∧ (s.cell x).tag ≠ .char ∧ (s.cell x).tag ≠ .keyword) ∨
      ((s.cell y).tag ≠ .number ∧ (s.cell y).tag ≠ .char ∧ (s.cell y).tag ≠ .keyword)) : eqP s x y = ok c_f := by
  simp only [eqP, if_neg hne, St.rd_ok hx, St.rd_ok hy, ok_bind]
  rcases h with ⟨h1, h2, h3⟩ | ⟨h1, h2, h3⟩
  · simp [h1, h2, h3]
  · simp [h1, h2, h3]

/-- Comparing does not change with more fuel; what `equal2` computes. -/
def Cmp (p : Prop) (r : Res Int) : Prop := (p → r = ok c_t) ∧ (¬ p → r = ok c_f)

theorem size_pos (t : Tree) : 1 ≤ t.size := by cases t <;> simp only [Tree.size] <;> omega
theorem sizes_pos (t : List Tree) : 1 ≤ sizes t := by cases t <;> simp only [sizes] <;> omega

theorem deref_target {p : Int} (hv : s.Valid p) : deref s p = ok (target s p) := by
  unfold deref target
  rw [St.rd_ok hv, ok_bind]
  split <;> rfl

theorem equal2Vec_ok : ∀ {es us : List Tree} {fuel : Nat} {v w : Int}, es.length = us.length → sizes es ≤ fuel →
    (∀ i : Nat, i < es.length → s.Valid (v + i)) → (∀ i : Nat, i < us.length → s.Valid (w + i)) →
    (∀ (i : Nat) (hi : i < us.length), Rep s (target s (w + i)) us[i]) →
    (∀ (i : Nat) (hi : i < es.length) (fuel : Nat) (b : Int) (u : Tree), Rep s b u → es[i].size ≤ fuel →
      Cmp (es[i] = u) (equal2 s fuel (target s (v + i)) b)) →
    Cmp (es = us) (equal2Vec s fuel v w es.length)
  | [], us, fuel, v, w, hl, hs, _, _, _, _ => by
    obtain ⟨fuel, rfl⟩ : ∃ f, fuel = f + 1 := ⟨fuel - 1, by simp [sizes] at hs; omega⟩
    have : us = [] := List.eq_nil_of_length_eq_zero (by simpa using hl.symm)
    subst this
    exact ⟨fun _ => by simp [equal2Vec], fun h => absurd rfl h⟩
  | e :: es, us, fuel, v, w, hl, hs, hv, hw, hr, ih => by
    cases us with
    | nil => simp at hl
    | cons u us =>
      simp only [sizes] at hs
      obtain ⟨fuel, rfl⟩ : ∃ f, fuel = f + 1 := ⟨fuel - 1, by omega⟩
      have h0 := ih 0 (by simp) fuel (target s w) u (by have := hr 0 (by simp); simpa only [Int.natCast_zero, Int.add_zero, List.getElem_cons_zero] using this) (by simp; omega)
      simp only [Int.natCast_zero, Int.add_zero, List.getElem_cons_zero] at h0
      have hv0 : s.Valid v := by simpa using hv 0 (by simp)
      have hw0 : s.Valid w := by simpa using hw 0 (by simp)
      have hrec := equal2Vec_ok (es := es) (us := us) (fuel := fuel) (v := v + 1) (w := w + 1)
        (by simpa using hl) (by omega)
        (fun i hi => by
          have := hv (i + 1) (by simpa using hi)
          rwa [show v + ((i + 1 : Nat) : Int) = v + 1 + (i : Int) by omega] at this)
        (fun i hi => by
          have := hw (i + 1) (by simpa using hi)
          rwa [show w + ((i + 1 : Nat) : Int) = w + 1 + (i : Int) by omega] at this)
        (fun i hi => by
          have := hr (i + 1) (by simpa using hi)
          rwa [show w + ((i + 1 : Nat) : Int) = w + 1 + (i : Int) by omega] at this)
        (fun i hi fuel b u hb hf => by
          have := ih (i + 1) (by simpa using hi) fuel b u hb hf
          rwa [show v + ((i + 1 : Nat) : Int) = v + 1 + (i : Int) by omega] at this)
      simp only [List.length_cons, equal2Vec, deref_target hv0, deref_target hw0, ok_bind]
      by_cases he : e = u
      · rw [h0.1 he]
        simp only [ok_bind, if_neg (by decide : ¬ c_t = c_f)]
        subst he
        exact ⟨fun h => hrec.1 (by simpa using h), fun h => hrec.2 (fun hh => h (by rw [hh]))⟩
      · rw [h0.2 he]
        simp only [ok_bind, if_true]
        refine ⟨fun h => ?_, fun _ => rfl⟩
        simp only [List.cons.injEq] at h
        exact absurd h.1 he

theorem equal2_ok {a : Int} {t : Tree} (h : Rep s a t) : ∀ (fuel : Nat) (b : Int) (u : Tree), Rep s b u →
    t.size ≤ fuel → Cmp (t = u) (equal2 s fuel a b) := by
  induction h with
  | @atom p x hx h1 h2 h3 h4 =>
    intro fuel b u hb hf
    simp only [Tree.size] at hf
    obtain ⟨fuel, rfl⟩ : ∃ f, fuel = f + 1 := ⟨fuel - 1, by omega⟩
    by_cases hpb : p = b
    · subst hpb
      exact ⟨fun _ => by simp [equal2], fun hne => absurd (rep_inj (.atom hx h1 h2 h3 h4) hb) hne⟩
    simp only [equal2, if_neg hpb, St.rd_ok hx.valid, St.rd_ok hb.valid, ok_bind, h1, h2, h3, false_and, if_false]
    cases hb with
    | atom hb =>
      rw [eqP_ok hx hb]
      exact ⟨fun h => by rw [if_pos (by simpa using h)], fun h => by rw [if_neg (by simpa using h)]⟩
    | str hb => exact ⟨nofun, fun _ => eqP_ne hx.valid hb.valid hpb (.inr (by simp [hb.tag]))⟩
    | pair hv ht => exact ⟨nofun, fun _ => eqP_ne hx.valid hv hpb (.inr (by simp [ht]))⟩
    | vec hv ht => exact ⟨nofun, fun _ => eqP_ne hx.valid hv hpb (.inr (by simp [ht]))⟩
  | @str p bs hx =>
    intro fuel b u hb hf
    simp only [Tree.size] at hf
    obtain ⟨fuel, rfl⟩ : ∃ f, fuel = f + 1 := ⟨fuel - 1, by omega⟩
    by_cases hpb : p = b
    · subst hpb
      exact ⟨fun _ => by simp [equal2], fun hne => absurd (rep_inj (.str hx) hb) hne⟩
    have hns : (s.cell p).tag ≠ .number ∧ (s.cell p).tag ≠ .char ∧ (s.cell p).tag ≠ .keyword := by simp [hx.tag]
    simp only [equal2, if_neg hpb, St.rd_ok hx.valid, St.rd_ok hb.valid, ok_bind, hx.tag]
    cases hb with
    | str hb =>
      simp only [hb.tag]
      simp only [reduceCtorEq, and_self, if_false, if_true]
      rw [stringEqual_ok hx.toHasText hb.toHasText (.inl ⟨hx.tag, hb.tag⟩)]
      exact ⟨fun h => by rw [if_pos (by simpa using h)], fun h => by rw [if_neg (by simpa using h)]⟩
    | atom hb g1 g2 g3 =>
      simp only [g2, g3, and_false, if_false, reduceCtorEq, false_and]
      exact ⟨nofun, fun _ => eqP_ne hx.valid hb.valid hpb (.inl hns)⟩
    | pair hv ht =>
      simp only [ht, and_false, if_false, reduceCtorEq, false_and]
      exact ⟨nofun, fun _ => eqP_ne hx.valid hv hpb (.inl hns)⟩
    | vec hv ht =>
      simp only [ht, and_false, if_false, reduceCtorEq, false_and]
      exact ⟨nofun, fun _ => eqP_ne hx.valid hv hpb (.inl hns)⟩
  | @pair p x y hv ht hrx hry ihx ihy =>
    intro fuel b u hb hf
    simp only [Tree.size] at hf
    have := size_pos x
    obtain ⟨fuel, rfl⟩ : ∃ f, fuel = f + 1 := ⟨fuel - 1, by omega⟩
    by_cases hpb : p = b
    · subst hpb
      exact ⟨fun _ => by simp [equal2], fun hne => absurd (rep_inj (.pair hv ht hrx hry) hb) hne⟩
    have hns : (s.cell p).tag ≠ .number ∧ (s.cell p).tag ≠ .char ∧ (s.cell p).tag ≠ .keyword := by simp [ht]
    simp only [equal2, if_neg hpb, St.rd_ok hv, St.rd_ok hb.valid, ok_bind, ht]
    cases hb with
    | @pair _ x' y' hv' ht' hrx' hry' =>
      simp only [ht', and_self, if_true]
      have cx := ihx fuel _ _ hrx' (by omega)
      have cy := ihy fuel _ _ hry' (by omega)
      by_cases hxx : x = x'
      · rw [cx.1 hxx]
        simp only [ok_bind, if_true]
        subst hxx
        exact ⟨fun h => cy.1 (by simpa using h), fun h => cy.2 (fun hh => h (by rw [hh]))⟩
      · rw [cx.2 hxx]
        simp only [ok_bind, if_neg (by decide : ¬ c_f = c_t)]
        exact ⟨fun h => by simp only [Tree.pair.injEq] at h; exact absurd h.1 hxx, fun _ => rfl⟩
    | str hb =>
      simp only [hb.tag, and_false, if_false, reduceCtorEq, false_and]
      exact ⟨nofun, fun _ => eqP_ne hv hb.valid hpb (.inl hns)⟩
    | atom hb g1 g2 g3 =>
      simp only [g1, and_false, if_false, reduceCtorEq, false_and]
      exact ⟨nofun, fun _ => eqP_ne hv hb.valid hpb (.inl hns)⟩
    | vec hv' ht' =>
      simp only [ht', and_false, if_false, reduceCtorEq, false_and]
      exact ⟨nofun, fun _ => eqP_ne hv hv' hpb (.inl hns)⟩
  | @vec p es hv ht hl he hr ih =>
    intro fuel b u hb hf
    simp only [Tree.size] at hf
    have := sizes_pos es
    obtain ⟨fuel, rfl⟩ : ∃ f, fuel = f + 1 := ⟨fuel - 1, by omega⟩
    by_cases hpb : p = b
    · subst hpb
      exact ⟨fun _ => by simp [equal2], fun hne => absurd (rep_inj (.vec hv ht hl he hr) hb) hne⟩
    have hns : (s.cell p).tag ≠ .number ∧ (s.cell p).tag ≠ .char ∧ (s.cell p).tag ≠ .keyword := by simp [ht]
    simp only [equal2, if_neg hpb, St.rd_ok hv, St.rd_ok hb.valid, ok_bind, ht]
    cases hb with
    | @vec _ us hv' ht' hl' he' hr' =>
      simp only [ht', reduceCtorEq, and_self, if_false, if_true, hl, hl']
      by_cases hlen : es.length = us.length
      · rw [if_neg (by omega)]
        simp only [Int.toNat_natCast]
        have := equal2Vec_ok hlen (fuel := fuel) (by omega) he he' hr' (fun i hi fuel b u hb hf => ih i hi fuel b u hb hf)
        exact ⟨fun h => this.1 (by simpa using h), fun h => this.2 (fun hh => h (by rw [hh]))⟩
      · rw [if_pos (by omega)]
        exact ⟨fun h => by simp only [Tree.vec.injEq] at h; exact absurd (congrArg List.length h) hlen, fun _ => rfl⟩
    | str hb =>
      simp only [hb.tag, and_false, if_false, reduceCtorEq, false_and]
      exact ⟨nofun, fun _ => eqP_ne hv hb.valid hpb (.inl hns)⟩
    | atom hb g1 g2 g3 =>
      simp only [g3, and_false, if_false, reduceCtorEq, false_and]
      exact ⟨nofun, fun _ => eqP_ne hv hb.valid hpb (.inl hns)⟩
    | pair hv' ht' =>
      simp only [ht', and_false, if_false, reduceCtorEq, false_and]
      exact ⟨nofun, fun _ => eqP_ne hv hv' hpb (.inl hns)⟩

end Mes
