import Verif.Spec.Load
import Verif.Proof.EvalSim
/-
`expand_variable` keeps the meaning of programs.
-/
namespace Mes
open Res Spec

variable {s s' s'' s1 : St} {W W' W'' W1 : Ghost} {mes : Bool} {σ : Store} {N : Idents} {ρ : Locals}

/-! ### What changes -/

theorem Spec.Expands.le {L : List Int} {k : Nat} (h : Expands s L s' k) : s.free ≤ s'.free := h.frame.le

theorem Spec.Expands.ext (h : Ext s s') {k : Nat} (hk : s'.free ≤ s.free + k) : Expands s [] s' k where
  frame := h.frame
  tags := fun a ha => by rw [h.grow.same a ha]
  cars := fun a ha => .inl (by rw [h.grow.same a ha])
  cdrs := fun a ha => by rw [h.grow.same a ha]
  free := hk

theorem Spec.Expands.trans {L L' : List Int} {k k' : Nat} (h : Expands s L s' k) (h' : Expands s' L' s'' k') :
    Expands s (L ++ L') s'' (k + k') := by
  have hle := h.frame.le
  refine ⟨?_, fun a ha => ?_, fun a ha => ?_, fun a ha => ?_, by have := h.free; have := h'.free; omega⟩
  · exact (h.frame.mono (Q := (· ∈ L ++ L')) fun a _ ha => List.mem_append_left _ ha).trans' h'.frame fun a _ ha => List.mem_append_right _ ha
  · rw [h'.tags a (by omega), h.tags a ha]
  · rcases h'.cars a (by omega) with e | e
    · rw [e]; exact h.cars a ha
    · exact .inr (by omega)
  · rw [h'.cdrs a (by omega), h.cdrs a ha]

theorem Spec.Expands.mono {L : List Int} {k k' : Nat} (h : Expands s L s' k) (hk : k ≤ k') : Expands s L s' k' :=
  { h with free := by have := h.free; omega }

theorem Spec.Expands.sub {L L' : List Int} {k : Nat} (h : Expands s L s' k) (hL : ∀ a ∈ L, a ∈ L') : Expands s L' s' k :=
  { h with frame := h.frame.mono fun a _ ha => hL a ha }

/-- Only the pair `p` gets another car. -/
theorem Spec.Expands.one {p : Int} {k : Nat} (hf : Frame (· = p) s s')
    (htag : (s'.cell p).tag = (s.cell p).tag) (hcar : (s'.cell p).car = (s.cell p).car ∨ s.free ≤ (s'.cell p).car) (hcdr : (s'.cell p).cdr = (s.cell p).cdr)
    (hk : s'.free ≤ s.free + k) : Expands s [p] s' k := by
  have hsame : ∀ a, a < s.free → a ≠ p → s'.cell a = s.cell a := fun a ha h => hf.same a ha h
  refine ⟨hf.mono fun a _ h => by simp [h], fun a ha => ?_, fun a ha => ?_, fun a ha => ?_, hk⟩
  · by_cases h : a = p
    · rw [h]; exact htag
    · rw [hsame a ha h]
  · by_cases h : a = p
    · rw [h]; exact hcar
    · rw [hsame a ha h]; exact .inl rfl
  · by_cases h : a = p
    · rw [h]; exact hcdr
    · rw [hsame a ha h]

theorem Spec.Expands.later {L : List Int} {k : Nat} (h : Expands s L s' k) (hw : World s W mes σ) (hL : ∀ a ∈ L, W.src a ∧ W.cur a) : Later W s W s' where
  le := h.frame.le
  same := fun a ha hc => h.frame.same a ha fun hm => hc (hw.source _ (hL a hm).1)
  tag := h.tags
  car := fun a ha _ hs => by rw [h.frame.same a ha fun hm => hs (hL a hm).1]
  count := Nat.le_refl _
  loc := fun _ _ => rfl
  chg := fun a _ h => h
  still := fun a _ h _ => h
  name := rfl
  kept := fun a ha _ hc => h.frame.same a ha fun hm => hc (hL a hm).2
  src := fun a _ h => h
  glob := fun _ _ h => h
  rest := fun a _ h _ => h
  cur := rfl

theorem Spec.Expands.world {L : List Int} {k : Nat} (h : Expands s L s' k) (hw : World s W mes σ) (hL : ∀ a ∈ L, W.src a ∧ W.cur a)
    (hp : ∀ a ∈ L, (s.cell a).tag = .pair) : World s' W mes σ := by
  have hl := h.later hw hL
  obtain ⟨m1, m2, m3, m4, m5, m6, m7⟩ := hw.module
  have e1 := hl.keep m1 m4
  have e2 := hl.keep m5 m7
  have hm := h.frame.consts.m0
  refine ⟨Int.le_trans hw.base h.le, hw.tags.later hw.base hl, ?_, hw.count, fun a ha => Int.lt_of_lt_of_le (hw.below a ha) h.le,
    hw.chg, hw.inj, ?_, ?_, ?_, ?_, hw.global, hw.glob, hw.source, hw.lsrc⟩
  · rw [h.frame.same _ (by have := hw.base; simp only [c_symbol_max, c_symbol_begin] at *; omega), hw.begin]
    intro e
    have hpt := hp _ e
    rw [hw.tags _ (by decide) (by decide)] at hpt
    simp [c_symbol_begin] at hpt
  · intro l hlt
    obtain ⟨h1, h2⟩ := hw.pair l hlt
    exact ⟨hl.valid h1, by rw [hl.tag _ h1.2]; exact h2⟩
  · intro l v hv
    have hlt : l < W.count := by rw [hw.count]; exact (List.getElem?_eq_some_iff.1 hv).1
    rw [h.frame.same _ (hw.pair l hlt).1.2 fun e => hw.lsrc l hlt (hL _ e).1]
    exact (hw.holds l v hv).later hl
  · rw [hm, e1, e2]
    exact ⟨hl.valid m1, m2, m3, m4, hl.valid m5, m6, m7⟩
  · obtain ⟨n, H, g1, g2⟩ := hw.table
    refine ⟨n, H, ?_, g2⟩
    rw [hm, e1, e2]
    exact g1.later hl fun i hi => h.frame.same _ (g1.bvalid i hi).2 (fun e => g1.bsrc i hi (hL _ e).1)

/-! ### Programs that do not change -/

theorem Spec.SrcPair.later {p : Int} (hp : SrcPair s W p) (h : Later W s W' s') (hs : W'.src p) : SrcPair s' W' p :=
  ⟨hp.ne, h.valid hp.valid, by rw [h.tag p hp.valid.2]; exact hp.tag, hs⟩

theorem Spec.IsTarget.valid {c x : Int} (h : IsTarget s W N c x) : s.Valid c := by
  cases h with
  | name h => exact h.text.valid
  | global h => exact h.valid

theorem Spec.IsSource.valid {c : Int} {e : Expr} {L : List Int} (h : IsSource s W mes N c e L) : s.Valid c := by
  cases h with
  | const h => exact h.valid
  | quote h => exact h.valid
  | var h => exact h.text.valid
  | global h => exact h.valid
  | ite h => exact h.valid
  | ifOnly h => exact h.valid
  | lam h => exact h.valid
  | app h => exact h.valid
  | begin h => exact h.valid
  | set h => exact h.valid

mutual
theorem Spec.IsSource.bound {N : Idents} {c : Int} {e : Expr} {L : List Int} : IsSource s W mes N c e L → ∀ a ∈ L, SrcPair s W a
  | .const .. => nofun
  | .quote .. => nofun
  | .var .. => nofun
  | .global .. => nofun
  | .ite hc _ h | .ifOnly hc _ h | .begin hc _ h _ => fun a ha => by
    rcases List.mem_cons.1 ha with rfl | ha
    · exact hc
    · exact h.bound a ha
  | .lam hc _ h1 _ h _ | .set hc _ h1 _ _ h => fun a ha => by
    rcases List.mem_cons.1 ha with rfl | ha
    · exact hc
    rcases List.mem_cons.1 ha with rfl | ha
    · exact h1
    · exact h.bound a ha
  | .app hc _ hf ha _ => fun a h => by
    rcases List.mem_cons.1 h with rfl | h
    · exact hc
    rcases List.mem_append.1 h with h | h
    · exact hf.bound a h
    · exact ha.bound a h
theorem Spec.IsSources.bound {N : Idents} {p : Int} {es : List Expr} {L : List Int} : IsSources s W mes N p es L → ∀ a ∈ L, SrcPair s W a
  | .nil => nofun
  | .cons hc he _ ht => fun a h => by
    rcases List.mem_cons.1 h with rfl | h
    · exact hc
    rcases List.mem_append.1 h with h | h
    · exact he.bound a h
    · exact ht.bound a h
end

mutual
/-- A program stays when its pairs do. -/
theorem Spec.IsSource.later {N : Idents} {c : Int} {e : Expr} {L : List Int} (h : Later W s W' s') :
    IsSource s W mes N c e L → (∀ a ∈ L, W'.src a ∧ s'.cell a = s.cell a) → IsSource s' W' mes N c e L
  | .const hd ht hm, _ => .const (hd.later h) (by rw [h.tag _ hd.valid.2]; exact ht) (h.fixed hd.valid hm)
  | .quote hc hh h1 hd, _ => by
    refine .quote (hc.later h) (by rw [hc.cell_eq h]; exact hh) (by rw [hc.cell_eq h]; exact h1.later h) ?_
    rw [hc.cell_eq h, h1.cell_eq h]; exact hd.later h
  | .var hx hn hr hk hs, _ => .var (hx.later h) hn hr hk hs
  | .global hg, _ => .global (hg.later h)
  | .ite hc hh hs, hL => by
    obtain ⟨h1, h2⟩ := hL _ (List.mem_cons_self ..)
    exact .ite (hc.later h h1) (by rw [h2]; exact hh) (by rw [h2]; exact hs.later h fun a ha => hL a (List.mem_cons_of_mem _ ha))
  | .ifOnly hc hh hs, hL => by
    obtain ⟨h1, h2⟩ := hL _ (List.mem_cons_self ..)
    exact .ifOnly (hc.later h h1) (by rw [h2]; exact hh) (by rw [h2]; exact hs.later h fun a ha => hL a (List.mem_cons_of_mem _ ha))
  | .lam hc hh h1 hf hb hn, hL => by
    obtain ⟨g1, g2⟩ := hL _ (List.mem_cons_self ..)
    obtain ⟨g3, g4⟩ := hL _ (List.mem_cons_of_mem _ (List.mem_cons_self ..))
    rw [← g2]
    refine .lam (hc.later h g1) (by rw [g2]; exact hh) (by rw [g2]; exact h1.later h g3) (by rw [g2, g4]; exact hf.later h) ?_ hn
    rw [g2, g4]
    exact hb.later h fun a ha => hL a (List.mem_cons_of_mem _ (List.mem_cons_of_mem _ ha))
  | .app hc hh hf ha hs, hL => by
    obtain ⟨h1, h2⟩ := hL _ (List.mem_cons_self ..)
    exact .app (hc.later h h1) (by rw [h2]; exact hh) (by rw [h2]; exact hf.later h fun a ha => hL a (List.mem_cons_of_mem _ (List.mem_append_left _ ha)))
      (by rw [h2]; exact ha.later h fun a ha => hL a (List.mem_cons_of_mem _ (List.mem_append_right _ ha))) hs
  | .begin hc hh hs hn, hL => by
    obtain ⟨h1, h2⟩ := hL _ (List.mem_cons_self ..)
    exact .begin (hc.later h h1) (by rw [h2]; exact hh) (by rw [h2]; exact hs.later h fun a ha => hL a (List.mem_cons_of_mem _ ha)) hn
  | .set hc hh h1 hx hk hs, hL => by
    obtain ⟨g1, g2⟩ := hL _ (List.mem_cons_self ..)
    obtain ⟨g3, g4⟩ := hL _ (List.mem_cons_of_mem _ (List.mem_cons_self ..))
    rw [← g2]
    refine .set (hc.later h g1) (by rw [g2]; exact hh) (by rw [g2]; exact h1.later h g3) (by rw [g2, g4]; exact hx.later h) hk ?_
    rw [g2, g4]
    exact hs.later h fun a ha => hL a (List.mem_cons_of_mem _ (List.mem_cons_of_mem _ ha))
theorem Spec.IsSources.later {N : Idents} {p : Int} {es : List Expr} {L : List Int} (h : Later W s W' s') :
    IsSources s W mes N p es L → (∀ a ∈ L, W'.src a ∧ s'.cell a = s.cell a) → IsSources s' W' mes N p es L
  | .nil, _ => .nil
  | .cons hp he hl ht, hL => by
    obtain ⟨h1, h2⟩ := hL _ (List.mem_cons_self ..)
    have hL1 := fun a ha => hL a (List.mem_cons_of_mem _ (List.mem_append_left _ ha))
    refine .cons (hp.later h h1) (by rw [h2]; exact he.later h hL1) ?_
      (by rw [h2]; exact ht.later h fun a ha => hL a (List.mem_cons_of_mem _ (List.mem_append_right _ ha)))
    rw [h2]
    cases he with
    | const hd _ hm => rw [h.keep hd.valid hm]; exact hl
    | quote hc => rw [hc.cell_eq h]; exact hl
    | var hx => rw [h.keep hx.text.valid hx.fixed]; exact hl
    | global hg => rw [h.keep hg.valid hg.fixed]; exact hl
    | ite hc | ifOnly hc | lam hc | app hc | begin hc | set hc => rw [(hL1 _ (List.mem_cons_self ..)).2]; exact hl
end

/-- The expansion of other parts of the program. -/
theorem Spec.Expands.source {L L' : List Int} {k : Nat} {c : Int} {e : Expr} (h : Expands s L s' k) (hw : World s W mes σ)
    (hL : ∀ a ∈ L, W.src a ∧ W.cur a) (hs : IsSource s W mes N c e L') (hd : ∀ a ∈ L, a ∉ L') : IsSource s' W mes N c e L' :=
  hs.later (h.later hw hL) fun a ha => ⟨(hs.bound a ha).src, h.frame.same a (hs.bound a ha).valid.2 fun hc => hd a hc ha⟩

theorem Spec.Expands.sources {L L' : List Int} {k : Nat} {p : Int} {es : List Expr} (h : Expands s L s' k) (hw : World s W mes σ)
    (hL : ∀ a ∈ L, W.src a ∧ W.cur a) (hs : IsSources s W mes N p es L') (hd : ∀ a ∈ L, a ∉ L') : IsSources s' W mes N p es L' :=
  hs.later (h.later hw hL) fun a ha => ⟨(hs.bound a ha).src, h.frame.same a (hs.bound a ha).valid.2 fun hc => hd a hc ha⟩

/-! ### Parameters in scope -/

theorem addFormals_from {s0 : St} {f fm : Int} {fs X : List Int} {r q : Option Int} (hf : IsFormals s0 W.chg f fs r) (hg : Grow s0 s)
    (hm : IsFormals s W.chg fm X q) (hw : World s W mes σ) (hr : Room s (fs.length + 1)) :
    ∃ F s' fm' X', (∀ fuel, F ≤ fuel → addFormals fuel s fm f = ok (fm', s')) ∧ Ext s s' ∧ s'.free ≤ s.free + (fs.length + 1 : Nat) ∧
      IsFormals s' W.chg fm' X' q ∧ ∀ x, x ∈ fs ++ r.toList ∨ x ∈ X → x ∈ X' := by
  induction hf generalizing s fm X with
  | nil =>
    have hn := World.nil hw
    refine ⟨1, s, fm, X, fun fuel hfu => ?_, .refl .., by simp; omega, hm, by simp⟩
    obtain ⟨fuel, rfl⟩ : ∃ f, fuel = f + 1 := ⟨fuel - 1, by omega⟩
    simp [addFormals, St.rd_ok hn.1, hn.2]
  | @rest x hv ht hmx =>
    have e1 := push_ext s { tag := .pair, car := x, cdr := fm }
    have hc : (s.push { tag := .pair, car := x, cdr := fm }).cell s.free = { tag := .pair, car := x, cdr := fm } := by simp
    have hv' := hg.valid hv
    have ht' : (s.cell x).tag = .symbol := by rw [hg.same _ hv.2]; exact ht
    refine ⟨1, _, s.free, x :: X, fun fuel hfu => ?_, e1, by simp, ?_, by simp⟩
    · obtain ⟨fuel, rfl⟩ : ∃ f, fuel = f + 1 := ⟨fuel - 1, by omega⟩
      simp only [addFormals, St.rd_ok hv', ok_bind, ht', reduceCtorEq, if_false, if_true]
      rw [cons_ok (hr.mono (by simp))]
    · have hl := e1.grow.later W
      have := IsFormals.cons (xs := X) (r := q) (fresh_pair (s' := s.push { tag := .pair, car := x, cdr := fm }) (p := s.free) hw (Int.le_refl _) (by simp; omega) (by rw [hc])) (by rw [hc]; exact hl.valid hv')
        (by rw [hc]; show ((s.push _).cell x).tag = _; rw [hl.tag _ hv'.2]; exact ht') (by rw [hc]; exact hm.later hl)
      rw [hc] at this
      exact this
  | @cons p xs r hp hv hx _ ih =>
    have ep := hg.same _ hp.valid.2
    have e1 := push_ext s { tag := .pair, car := (s0.cell p).car, cdr := fm }
    have hc : (s.push { tag := .pair, car := (s0.cell p).car, cdr := fm }).cell s.free = { tag := .pair, car := (s0.cell p).car, cdr := fm } := by simp
    have hf1 : (s.push { tag := .pair, car := (s0.cell p).car, cdr := fm }).free = s.free + 1 := by simp
    have hk := cons_ok (hr.mono (l := 1) (by simp; omega)) (s0.cell p).car fm
    have hl := e1.grow.later W
    have hv' := hg.valid hv
    have hr1 : Room (s.push { tag := .pair, car := (s0.cell p).car, cdr := fm }) (xs.length + 1) := hr.step e1 (by simp; omega)
    generalize s.push { tag := .pair, car := (s0.cell p).car, cdr := fm } = s1 at *
    have hm1 := IsFormals.cons (xs := X) (r := q) (fresh_pair (s' := s1) (p := s.free) hw (Int.le_refl _) (by omega) (by rw [hc])) (by rw [hc]; exact hl.valid hv')
        (by rw [hc]; simp only; rw [hl.tag _ hv'.2, hg.same _ hv.2]; exact hx) (by rw [hc]; exact hm.later hl)
    rw [hc] at hm1
    obtain ⟨F, s', fm', X', h1, h2, h3, h4, h5⟩ := ih (hg.trans e1.grow) hm1 (e1.world hw) hr1
    refine ⟨F + 1, s', fm', X', fun fuel hfu => ?_, e1.trans h2, by simp at *; omega, h4, fun x hx => h5 x ?_⟩
    · obtain ⟨fuel, rfl⟩ : ∃ f, fuel = f + 1 := ⟨fuel - 1, by omega⟩
      simp only [addFormals, St.rd_ok (hg.valid hp.valid), ok_bind, ep, hp.tag, if_true, hk]
      exact h1 fuel (by omega)
    · simp only [List.cons_append, List.mem_cons] at hx ⊢
      rcases hx with (hx | hx) | hx
      · exact .inr (.inl hx)
      · exact .inl hx
      · exact .inr (.inr hx)

theorem addFormals_ok {f fm : Int} {fs X : List Int} {r q : Option Int} (hf : IsFormals s W.chg f fs r)
    (hm : IsFormals s W.chg fm X q) (hw : World s W mes σ) (hr : Room s (fs.length + 1)) :
    ∃ F s' fm' X', (∀ fuel, F ≤ fuel → addFormals fuel s fm f = ok (fm', s')) ∧ Ext s s' ∧ s'.free ≤ s.free + (fs.length + 1 : Nat) ∧
      IsFormals s' W.chg fm' X' q ∧ ∀ x, x ∈ fs ++ r.toList ∨ x ∈ X → x ∈ X' := addFormals_from hf (.refl s) hm hw hr

theorem formalP_ok {x fm : Int} {X : List Int} {q : Option Int} (hm : IsFormals s W.chg fm X q) (hw : World s W mes σ) :
    ∃ F, ∀ fuel, F ≤ fuel → formalP s x fuel fm = ok (decide (x ∈ X ++ q.toList)) := by
  induction hm with
  | nil =>
    have hn := World.nil hw
    refine ⟨1, fun fuel hfu => ?_⟩
    obtain ⟨fuel, rfl⟩ : ∃ f, fuel = f + 1 := ⟨fuel - 1, by omega⟩
    simp [formalP, St.rd_ok hn.1, hn.2]
  | @rest y hv ht hmx =>
    refine ⟨1, fun fuel hfu => ?_⟩
    obtain ⟨fuel, rfl⟩ : ∃ f, fuel = f + 1 := ⟨fuel - 1, by omega⟩
    simp [formalP, St.rd_ok hv, ht]
  | @cons p xs r hp hv hx _ ih =>
    obtain ⟨F, ih⟩ := ih
    refine ⟨F + 1, fun fuel hfu => ?_⟩
    obtain ⟨fuel, rfl⟩ : ∃ f, fuel = f + 1 := ⟨fuel - 1, by omega⟩
    simp only [formalP, St.rd_ok hp.valid, ok_bind, hp.tag, reduceCtorEq, if_false, if_true]
    by_cases h : (s.cell p).car = x
    · simp [h]
    · rw [if_neg h, ih fuel (by omega)]
      simp [Ne.symm h]

/-! ### Elements of lists -/

theorem St.setCar_ok' {x : Int} (h : s.Valid x) (v : Int) : s.setCar x v = ok (s.upd x { s.cell x with car := v }) := by
  simp [St.setCar, St.rd_ok h, St.put_ok _ h]

/-- A name in a list. -/
theorem walk_name {p x fm : Int} {X : List Int} {q : Option Int} (hw : World s W mes σ) (hgl : W.glob = σ.globals) (he : IsEnv s W N s.r0 fun _ => none)
    (hp : SrcPair s W p) (hcur : W.cur p) (hc : (s.cell p).car = x) (hx : IsName s W x) (hn : N x) (hk : ¬ Keyword x)
    (hm : IsFormals s W.chg fm X q) (hfree : ∀ x, x ∉ X ++ q.toList → N.free x) (hr : Room s 2) :
    ∃ F s', (∀ fuel, F ≤ fuel → ∀ top, expandVariable (fuel + 1) s p fm top = expandVariable fuel s' (s.cell p).cdr fm false) ∧
      Expands s [p] s' 2 ∧ IsTarget s' W N (s'.cell p).car x ∧ (σ.globals x = none → (s'.cell p).car = x) := by
  simp only [Keyword, not_or] at hk
  obtain ⟨k1, k2, k3, k4⟩ := hk
  obtain ⟨F1, h1⟩ := formalP_ok (x := x) hm hw
  have hcur' : ∀ a ∈ [p], W.src a ∧ W.cur a := fun a ha => by rw [List.mem_singleton.1 ha]; exact ⟨hp.src, hcur⟩
  have hstart : ∀ fuel top, expandVariable (fuel + 1) s p fm top = (do
      let fp ← if x ≠ c_symbol_boot_module ∧ x ≠ c_symbol_current_module ∧ x ≠ c_symbol_primitive_load then formalP s x fuel fm else ok true
      let s ← if fp = false then do
            let (v, s) ← moduleVariable s fuel s.r0 x
            if v ≠ c_f then do
              let (w, s) ← makeVariable s v
              s.setCar p w
            else ok s
          else ok s
      let d ← s.cdr p
      expandVariable fuel s d fm false) := by
    intro fuel top
    simp only [expandVariable, St.rd_ok hp.valid, ok_bind, hp.tag, hc, St.rd_ok hx.text.valid, hx.tag, k1, k2, k3, k4, reduceCtorEq,
      ne_eq, not_true, if_false, or_self, true_and]
  by_cases hb : x ≠ c_symbol_boot_module ∧ x ≠ c_symbol_current_module ∧ x ≠ c_symbol_primitive_load ∧ x ∉ X ++ q.toList
  · have hb' : x ≠ c_symbol_boot_module ∧ x ≠ c_symbol_current_module ∧ x ≠ c_symbol_primitive_load := ⟨hb.1, hb.2.1, hb.2.2.1⟩
    obtain ⟨F2, s1, e1, e2, e3⟩ := moduleVariable_ok hw he hx hn (hr.mono (by omega))
    have hfind : σ.find (fun _ => none) x = σ.globals x := by simp [Store.find]
    rw [hfind] at e3
    have hp1 := e1.grow.valid hp.valid
    have hcell1 := e1.grow.same _ hp.valid.2
    cases hg : σ.globals x with
    | none =>
      rw [hg] at e3
      have hE : Expands s [p] s1 2 := (Expands.ext (k := 2) e1 (by omega)).sub nofun
      refine ⟨max F1 F2, s1, fun fuel hfu top => ?_, hE, ?_, fun _ => by rw [hcell1]; exact hc⟩
      · rw [hstart]
        simp [hb', h1 fuel (by omega), hb.2.2.2, e3 fuel (by omega), St.cdr_ok hp1, hcell1]
      · rw [hcell1, hc]
        exact .name (hx.later (e1.grow.later W)) hn
    | some l =>
      rw [hg] at e3
      simp only [Option.map_some, Option.getD_some] at e3
      have hlt := hw.global x l hg
      have hloc := hw.pair l hlt
      have hfl := World.false_ hw
      have hne : W.loc l ≠ c_f := by intro e; rw [e, hfl.2] at hloc; cases hloc.2
      have hroom : Room s1 1 := hr.step e1 (by omega)
      have e4 := push_ext s1 { tag := .variable, car := W.loc l, cdr := 0 }
      have hfree2 : (s1.push { tag := .variable, car := W.loc l, cdr := 0 }).free = s1.free + 1 := by simp
      have hcell2 : (s1.push { tag := .variable, car := W.loc l, cdr := 0 }).cell s1.free = { tag := .variable, car := W.loc l, cdr := 0 } := by simp
      have hmk : makeVariable s1 (W.loc l) = ok (s1.free, s1.push { tag := .variable, car := W.loc l, cdr := 0 }) := makeCell_ok hroom ..
      generalize s1.push { tag := .variable, car := W.loc l, cdr := 0 } = s2 at *
      have hp2 := e4.grow.valid hp1
      have hcellp : s2.cell p = s.cell p := by rw [e4.grow.same _ hp1.2, hcell1]
      have e12 := e1.trans e4
      have hf3 := upd_frame s2 p { s2.cell p with car := s1.free }
      have hset := St.setCar_ok' hp2 s1.free
      have hc3 : (s2.upd p { s2.cell p with car := s1.free }).cell p = { s2.cell p with car := s1.free } := by simp
      have hw3 : (s2.upd p { s2.cell p with car := s1.free }).cell s1.free = s2.cell s1.free :=
        St.upd_cell_ne _ (by have := hp1.2; omega)
      have hfree3 : (s2.upd p { s2.cell p with car := s1.free }).free ≤ s2.free := Int.le_refl _
      generalize s2.upd p { s2.cell p with car := s1.free } = s3 at *
      have hle := e1.le
      have hle3 := hf3.le
      have hE : Expands s [p] s3 2 := .one (Frame.trans' (P := (· = p)) (Ext.frame e12) hf3 fun _ _ h => h) (by rw [hc3, hcellp])
        (.inr (by rw [hc3]; omega)) (by rw [hc3, hcellp]) (by omega)
      refine ⟨max F1 F2, s3, fun fuel hfu top => ?_, hE, ?_, fun h => by cases h⟩
      · rw [hstart]
        simp [hb', h1 fuel (by omega), hb.2.2.2, e3 fuel (by omega), hne, hmk, hset, St.cdr_ok (hf3.valid hp2), hc3, hcellp]
      · rw [hc3]
        have hb2 := hw.below
        refine .global ⟨⟨by have := hw.base; simp only [c_symbol_max] at this; show 1 ≤ s1.free; omega, by show s1.free < s3.free; omega⟩,
          by rw [hw3, hcell2], fun hcg => ?_, hfree x hb.2.2.2, l, by rw [hgl]; exact hg, hlt, by rw [hw3, hcell2]⟩
        have : s1.free < s.free := hb2 _ hcg
        omega
  · have hE : Expands s [p] s 2 := .one (.refl ..) rfl (.inl rfl) rfl (by omega)
    refine ⟨F1, s, fun fuel hfu top => ?_, hE, ?_, fun _ => hc⟩
    · rw [hstart]
      by_cases h : x ≠ c_symbol_boot_module ∧ x ≠ c_symbol_current_module ∧ x ≠ c_symbol_primitive_load
      · have : x ∈ X ++ q.toList := Classical.byContradiction fun hh => hb ⟨h.1, h.2.1, h.2.2, hh⟩
        simp [h, h1 fuel hfu, this, St.cdr_ok hp.valid]
      · simp [h, St.cdr_ok hp.valid]
    · rw [hc]
      exact .name hx hn

theorem Spec.ExpandPre.next {L L1 L2 : List Int} {fm fm' : Int} {X X' : List Int} {q : Option Int} {k k1 k2 : Nat} (h : ExpandPre mes σ W s N L fm X q k)
    (e : Expands s L1 s' k1) (h1 : ∀ a ∈ L1, SrcPair s W a ∧ W.cur a) (hf : IsFormals s' W.chg fm' X' q) (hX : ∀ x ∈ X, x ∈ X') (hn : L2.Nodup)
    (hc : ∀ a ∈ L2, W.cur a) (hk : k1 + k2 ≤ k) : ExpandPre mes σ W s' N L2 fm' X' q k2 :=
  have hL : ∀ a ∈ L1, W.src a ∧ W.cur a := fun a ha => ⟨(h1 a ha).1.src, (h1 a ha).2⟩
  { world := e.world h.world hL fun a ha => (h1 a ha).1.tag
    glob := h.glob
    env := by rw [e.frame.r0]; exact h.env.later (e.later h.world hL)
    formals := hf
    free := fun x hx => h.free x fun hc => hx (by
      rcases List.mem_append.1 hc with hc | hc
      · exact List.mem_append_left _ (hX x hc)
      · exact List.mem_append_right _ hc)
    forms := fun x hx => ⟨(h.forms x hx).1.later (e.later h.world hL), (h.forms x hx).2⟩
    nodup := hn
    cur := hc
    room := h.room.step e.frame (by have := e.free; omega) }

theorem Spec.ExpandPre.mono {L L2 : List Int} {fm : Int} {X : List Int} {q : Option Int} {k k2 : Nat} (h : ExpandPre mes σ W s N L fm X q k)
    (hn : L2.Nodup) (hs : ∀ a ∈ L2, a ∈ L) (hk : k2 ≤ k) : ExpandPre mes σ W s N L2 fm X q k2 :=
  { h with nodup := hn, room := h.room.mono (by omega), cur := fun a ha => h.cur a (hs a ha) }

/-- The outcome for a part of a program. -/
def ExpandsTo (s : St) (L : List Int) (c fm : Int) (k : Nat) (P : St → Prop) : Prop :=
  ∃ F s', (∀ fuel, F ≤ fuel → ∀ top, expandVariable fuel s c fm top = ok s') ∧ Expands s L s' k ∧ P s'

/-- The head of a special form. -/
theorem walk_head {L : List Int} {p x fm : Int} {X : List Int} {q : Option Int} {k : Nat} (h : ExpandPre mes σ W s N L fm X q k) (hk : 2 ≤ k)
    (hp : SrcPair s W p) (hcur : W.cur p) (hc : (s.cell p).car = x) (hx : x ∈ formNames) :
    ∃ F s', (∀ fuel, F ≤ fuel → ∀ top, expandVariable (fuel + 1) s p fm top = expandVariable fuel s' (s.cell p).cdr fm false) ∧
      Expands s [p] s' 2 ∧ (s'.cell p).car = x := by
  obtain ⟨h1, h2, h3⟩ := h.forms x hx
  have hkw : ¬ Keyword x := by
    simp only [formNames, List.mem_cons, List.not_mem_nil, or_false] at hx
    rcases hx with rfl | rfl | rfl <;> (unfold Keyword; decide)
  obtain ⟨F, s', e1, e2, e3, e4⟩ := walk_name h.world h.glob h.env hp hcur hc h1 h2 hkw h.formals h.free (h.room.mono (by omega))
  exact ⟨F, s', e1, e2, e4 h3⟩

theorem fixed_tag_symbol (hw : World s W mes σ) {x : Int} (h : Keyword x) : (s.cell x).tag = .symbol := by
  rcases h with rfl | rfl | rfl | rfl <;> (rw [hw.tags _ (by decide) (by decide)]; decide)

theorem Spec.IsSource.not_keyword {c : Int} {e : Expr} {L : List Int} (h : IsSource s W mes N c e L) (hw : World s W mes σ) : ¬ Keyword c := by
  intro hk
  have ht := fixed_tag_symbol hw hk
  cases h with
  | const _ h => exact h.2.1 ht
  | var _ _ _ h _ => exact h hk
  | global h => rw [h.tag] at ht; cases ht
  | quote h => rw [h.tag] at ht; cases ht
  | ite h | ifOnly h | lam h | app h | begin h | set h => rw [h.tag] at ht; cases ht

/-- The step at an element that is a list, but not a lambda expression or a quotation. -/
theorem step_pair {p a : Int} (hp : SrcPair s W p) (ha : (s.cell p).car = a) (hv : s.Valid a) (ht : (s.cell a).tag = .pair)
    (hk : ¬ Keyword (s.cell a).car) (fuel : Nat) (fm : Int) (top : Bool) : expandVariable (fuel + 1) s p fm top = (do
      let s ← expandVariable fuel s a fm false
      let d ← s.cdr p
      expandVariable fuel s d fm false) := by
  simp only [Keyword, not_or] at hk
  simp [expandVariable, St.rd_ok hp.valid, hp.tag, ha, St.rd_ok hv, ht, hk]

/-- The step at an element that is neither a list nor a symbol. -/
theorem step_other {p a : Int} (hp : SrcPair s W p) (ha : (s.cell p).car = a) (hv : s.Valid a) (ht : (s.cell a).tag ≠ .pair ∧ (s.cell a).tag ≠ .symbol)
    (hk : ¬ Keyword a) (fuel : Nat) (fm : Int) (top : Bool) : expandVariable (fuel + 1) s p fm top = expandVariable fuel s (s.cell p).cdr fm false := by
  simp only [Keyword, not_or] at hk
  simp [expandVariable, St.rd_ok hp.valid, hp.tag, ha, St.rd_ok hv, ht, hk, St.cdr_ok hp.valid]

/-- An element that is a list, but not a lambda expression or a quotation. -/
theorem walk_pair {L : List Int} {p a fm : Int} {e : Expr} {X : List Int} {q : Option Int} {k : Nat}
    (h : ExpandPre mes σ W s N (p :: L) fm X q k) (hk : expandCells e ≤ k) (hp : SrcPair s W p) (ha : (s.cell p).car = a)
    (he : IsSource s W mes N a e L) (hv : s.Valid a) (ht : (s.cell a).tag = .pair) (hkw : ¬ Keyword (s.cell a).car)
    (ih : ∀ {s fm X}, IsSource s W mes N a e L → ExpandPre mes σ W s N L fm X q (expandCells e) →
      ExpandsTo s L a fm (expandCells e) fun s' => IsSource s' W mes N a e L) :
    ∃ F s' fm' X', (∀ fuel, F ≤ fuel → ∀ top, expandVariable (fuel + 1) s p fm top = expandVariable fuel s' (s.cell p).cdr fm' false) ∧
      Expands s (p :: L) s' (expandCells e) ∧ IsSource s' W mes N (s'.cell p).car e L ∧
      IsFormals s' W.chg fm' X' q ∧ (∀ x ∈ X, x ∈ X') ∧
      ((s.cell a).car ≠ c_symbol_primitive_load → (s'.cell (s'.cell p).car).car ≠ c_symbol_primitive_load) := by
  have hnd := List.nodup_cons.1 h.nodup
  have hb := fun x hx => (he.bound x hx)
  obtain ⟨F, s', e1, e2, e3⟩ := ih he (h.mono hnd.2 (fun _ => List.mem_cons_of_mem _) hk)
  have hL : ∀ x ∈ L, W.src x ∧ W.cur x := fun x hx => ⟨(hb x hx).src, h.cur x (List.mem_cons_of_mem _ hx)⟩
  have hl := e2.later h.world hL
  have hcell : s'.cell p = s.cell p := e2.frame.same p hp.valid.2 hnd.1
  refine ⟨F, s', fm, X, fun fuel hfu top => ?_, e2.sub fun _ => List.mem_cons_of_mem _, by rw [hcell, ha]; exact e3,
    h.formals.later hl, fun _ h => h, fun hl' => ?_⟩
  · rw [step_pair hp ha hv ht hkw, e1 fuel hfu, ok_bind, St.cdr_ok (hl.valid hp.valid), hcell]
    rfl
  · rw [hcell, ha]
    rcases e2.cars a hv.2 with hc | hc
    · rw [hc]; exact hl'
    · intro hcc
      rw [hcc] at hc
      have := h.world.base
      simp only [c_symbol_max, c_symbol_primitive_load] at *
      omega

theorem not_load (hw : World s W mes σ) {c x : Int} (hg : IsGlobal s W N c x) : (s.cell c).car ≠ c_symbol_primitive_load := by
  obtain ⟨l, hl1, hl2, hl3⟩ := hg.loc
  rw [hl3]
  intro hc
  have h3 := (hw.pair l hl2).2
  rw [hc, hw.tags _ (by decide) (by decide)] at h3
  exact absurd h3 (by decide)

/-- An element of a list. -/
theorem walk_elem {L : List Int} {p a fm : Int} {e : Expr} {X : List Int} {q : Option Int} {k : Nat}
    (h : ExpandPre mes σ W s N (p :: L) fm X q k) (hk : extraCells e + expandCells e ≤ k) (hp : SrcPair s W p) (hac : (s.cell p).car = a)
    (he : IsSource s W mes N a e L)
    (ih : ∀ {s fm X}, IsSource s W mes N a e L → ExpandPre mes σ W s N L fm X q (expandCells e) →
      ExpandsTo s L a fm (expandCells e) fun s' => IsSource s' W mes N a e L) :
    ∃ F s' fm' X', (∀ fuel, F ≤ fuel → ∀ top, expandVariable (fuel + 1) s p fm top = expandVariable fuel s' (s.cell p).cdr fm' false) ∧
      Expands s (p :: L) s' (extraCells e + expandCells e) ∧ IsSource s' W mes N (s'.cell p).car e L ∧
      IsFormals s' W.chg fm' X' q ∧ (∀ x ∈ X, x ∈ X') ∧
      ((s.cell a).car ≠ c_symbol_primitive_load → (s'.cell (s'.cell p).car).car ≠ c_symbol_primitive_load) := by
  have hkeep := he
  have ho : ∀ {k}, Expands s (p :: L) s k := .sub (.ext (.refl ..) (by omega)) nofun
  have hcp := h.cur p (List.mem_cons_self ..)
  have hcur : ∀ a ∈ [p], W.src a ∧ W.cur a := fun a ha => by rw [List.mem_singleton.1 ha]; exact ⟨hp.src, hcp⟩
  cases he with
  | const hd ht hm =>
    exact ⟨0, s, fm, X, fun fuel _ top => step_other hp hac hd.valid ⟨ht.1, ht.2.1⟩ (hkeep.not_keyword h.world) .., ho, by rw [hac]; exact hkeep,
      h.formals, fun _ h => h, fun hl => by rw [hac]; exact hl⟩
  | global hg =>
    exact ⟨0, s, fm, X, fun fuel _ top => step_other hp hac hg.valid (by rw [hg.tag]; decide) (hkeep.not_keyword h.world) .., ho, by rw [hac]; exact hkeep,
      h.formals, fun _ h => h, fun hl => by rw [hac]; exact hl⟩
  | quote hc hh h1 hd =>
    refine ⟨1, s, fm, X, fun fuel _ top => ?_, ho, by rw [hac]; exact hkeep, h.formals, fun _ h => h, fun hl => by rw [hac]; exact hl⟩
    simp [expandVariable, St.rd_ok hp.valid, hp.tag, hac, St.rd_ok hc.valid, hc.tag, hh, St.cdr_ok hp.valid, c_symbol_quote, c_symbol_lambda,
      c_symbol_define, c_symbol_define_macro]
  | var hx hn hr hkw hsx =>
    obtain ⟨F, s', e1, e2, e3, e4⟩ := walk_name h.world h.glob h.env hp hcp hac hx hn hkw h.formals h.free (h.room.mono (by simp [extraCells, expandCells] at hk; omega))
    have hl := e2.later h.world hcur
    refine ⟨F, s', fm, X, e1, e2, ?_, h.formals.later hl, fun _ h => h, fun hlo => ?_⟩
    · cases e3 with
      | name h1 h2 => exact .var h1 h2 hr hkw hsx
      | global hg => exact .global hg
    · cases e3 with
      | name h1 h2 => rw [hl.keep hx.text.valid hx.fixed]; exact hlo
      | global hg => exact not_load (e2.world h.world hcur fun a ha => by rw [List.mem_singleton.1 ha]; exact hp.tag) hg
  | @lam _ _ fs r b L0 hc hh h1 hf hb hn =>
    have hnd := List.nodup_cons.1 h.nodup
    have hbd := fun x hx => (hkeep.bound x hx)
    have hkl : extraCells (.lam fs r b) = fs.length + 1 := rfl
    have hkk : expandCells (.lam fs r b) = fs.length + 1 + expandCellsSeq b := by rw [expandCells]
    obtain ⟨F1, s1, fm1, X1, a1, a2, a3, a4, a5⟩ := addFormals_ok hf h.formals h.world (h.room.mono (by omega))
    have hx1 := Expands.ext (k := fs.length + 1) a2 a3
    have he' := hx1.source h.world nofun hkeep nofun
    have hpre' := h.next (L2 := a :: (s.cell a).cdr :: L0) (k2 := expandCells (.lam fs r b)) hx1 nofun a4 (fun x hx => a5 x (.inr hx)) hnd.2
      (fun x hx => h.cur x (List.mem_cons_of_mem _ hx)) (by omega)
    obtain ⟨F, s', e1, e2, e3⟩ := ih he' hpre'
    have hL : ∀ x ∈ a :: (s.cell a).cdr :: L0, W.src x ∧ W.cur x := fun x hx => ⟨(hbd x hx).src, h.cur x (List.mem_cons_of_mem _ hx)⟩
    have hl := e2.later hpre'.world hL
    have hcell : s'.cell p = s.cell p := by rw [e2.frame.same p (a2.grow.valid hp.valid).2 hnd.1, a2.grow.same _ hp.valid.2]
    refine ⟨max F F1, s', fm1, X1, fun fuel hfu top => ?_, (hx1.trans e2).sub fun x hx => List.mem_cons_of_mem _ hx, by rw [hcell, hac]; exact e3,
      a4.later hl, fun x hx => a5 x (.inr hx), fun _ => ?_⟩
    · simp [expandVariable, St.rd_ok hp.valid, hp.tag, hac, St.rd_ok hc.valid, hc.tag, hh, St.car_ok h1.valid, a1 fuel (by omega),
        e1 fuel (by omega), St.cdr_ok (hl.valid (a2.grow.valid hp.valid)), hcell, c_symbol_quote, c_symbol_lambda]
    · rw [hcell, hac]
      have : (s'.cell a).car = c_symbol_lambda := by
        generalize a :: (s.cell a).cdr :: L0 = L' at e3
        cases e3 with
        | lam _ hh' => exact hh'
      rw [this]; decide
  | ite hc hh | ifOnly hc hh | begin hc hh | set hc hh =>
    obtain ⟨F, s', fm', X', e1, e2, e3⟩ := walk_pair h (by omega) hp hac hkeep hc.valid hc.tag (by rw [hh]; unfold Keyword; decide) ih
    exact ⟨F, s', fm', X', e1, e2.mono (by omega), e3⟩
  | app hc hh hf =>
    obtain ⟨F, s', fm', X', e1, e2, e3⟩ := walk_pair h (by omega) hp hac hkeep hc.valid hc.tag (hf.not_keyword h.world) ih
    exact ⟨F, s', fm', X', e1, e2.mono (by omega), e3⟩

/-! ### Expressions and lists of expressions -/

/-- The first element of a list, and then the others. -/
theorem ExpandsTo.step {c fm fm1 d : Int} {L1 L : List Int} {k1 k : Nat} {F1 : Nat} {P Q : St → Prop}
    (h1 : ∀ fuel, F1 ≤ fuel → ∀ top, expandVariable (fuel + 1) s c fm top = expandVariable fuel s1 d fm1 false)
    (e1 : Expands s L1 s1 k1) (h2 : ExpandsTo s1 L d fm1 k P)
    (hq : ∀ s', Expands s (L1 ++ L) s' (k1 + k) → Expands s1 L s' k → P s' → Q s') : ExpandsTo s (L1 ++ L) c fm (k1 + k) Q := by
  obtain ⟨F, s', f1, e2, p⟩ := h2
  refine ⟨max F F1 + 1, s', fun fuel hfu top => ?_, e1.trans e2, hq s' (e1.trans e2) e2 p⟩
  obtain ⟨fuel, rfl⟩ : ∃ f, fuel = f + 1 := ⟨fuel - 1, by omega⟩
  rw [h1 fuel (by omega), f1 fuel (by omega)]

theorem Spec.ExpandPre.under {L : List Int} {fm : Int} {X fs : List Int} {q r : Option Int} {k : Nat} (h : ExpandPre mes σ W s N L fm X q k)
    (hX : ∀ x, x ∈ fs ++ r.toList → x ∈ X) : ExpandPre mes σ W s (N.under fs r) L fm X q k :=
  { h with free := fun x hx => ⟨h.free x hx, fun hc => hx (List.mem_append_left _ (hX x hc))⟩ }

/-- Expressions of fewer than `n` pairs. -/
def ExprGoal (mes : Bool) (σ : Store) (n : Nat) : Prop :=
  ∀ {W s N c e L fm X q}, L.length < n → IsSource s W mes N c e L → ExpandPre mes σ W s N L fm X q (expandCells e) →
    ExpandsTo s L c fm (expandCells e) fun s' => IsSource s' W mes N c e L

/-- Lists of expressions of fewer than `n` pairs. -/
def SeqGoal (mes : Bool) (σ : Store) (n : Nat) : Prop :=
  ∀ {W s N p es L fm X q}, L.length < n → IsSources s W mes N p es L → ExpandPre mes σ W s N L fm X q (expandCellsSeq es) →
    ExpandsTo s L p fm (expandCellsSeq es) fun s' => IsSources s' W mes N p es L

theorem expand_stop {c fm : Int} {k : Nat} {P : St → Prop}
    (h : ∀ fuel top, expandVariable (fuel + 1) s c fm top = ok s) (hp : P s) : ExpandsTo s [] c fm k P := by
  refine ⟨1, s, fun fuel hfu top => ?_, .ext (.refl ..) (by omega), hp⟩
  obtain ⟨fuel, rfl⟩ : ∃ f, fuel = f + 1 := ⟨fuel - 1, by omega⟩
  exact h fuel top

theorem nodup_append {L L' : List Int} (h : (L ++ L').Nodup) : L.Nodup ∧ L'.Nodup ∧ ∀ a ∈ L, a ∉ L' := by
  obtain ⟨h1, h2, h3⟩ := List.nodup_append.1 h
  exact ⟨h1, h2, fun a ha hb => h3 a ha a hb rfl⟩

theorem seq_step {n : Nat} (hE : ExprGoal mes σ n) (hS : SeqGoal mes σ n) : SeqGoal mes σ (n + 1) := by
  intro W s N p es L fm X q hn h hpre
  have hbd := h.bound
  cases h with
  | nil =>
    have hnil := World.nil hpre.world
    exact expand_stop (fun fuel top => by simp [expandVariable, St.rd_ok hnil.1, hnil.2]) .nil
  | @cons _ _ e es L0 L' hp he hl ht =>
    simp only [List.length_cons, List.length_append] at hn
    have hnd : ((p :: L0) ++ L').Nodup := hpre.nodup
    obtain ⟨hnd1, hnd2, hnd3⟩ := nodup_append hnd
    have hin1 : ∀ a ∈ p :: L0, a ∈ p :: (L0 ++ L') := fun a ha => List.mem_append_left (as := p :: L0) L' ha
    have hin2 : ∀ a ∈ L', a ∈ p :: (L0 ++ L') := fun a ha => List.mem_append_right (p :: L0) ha
    simp only [expandCellsSeq] at hpre ⊢
    obtain ⟨F, s1, fm1, X1, e1, e2, e3, e4, e5, e6⟩ := walk_elem (hpre.mono hnd1 hin1 (Nat.le_refl _)) (Nat.le_add_right _ _) hp rfl he
      fun h1 h2 => hE (by omega) h1 h2
    have hL1 : ∀ a ∈ p :: L0, W.src a ∧ W.cur a := fun a ha => ⟨(hbd a (hin1 a ha)).src, hpre.cur a (hin1 a ha)⟩
    have hpre1 := hpre.next (L2 := L') (k2 := expandCellsSeq es) e2 (fun a ha => ⟨hbd a (hin1 a ha), hpre.cur a (hin1 a ha)⟩) e4 e5 hnd2
      (fun a ha => hpre.cur a (hin2 a ha)) (Nat.le_refl _)
    have ht' := e2.sources hpre.world hL1 ht hnd3
    refine ExpandsTo.step e1 e2 (hS (by omega) ht' hpre1) ?_
    intro s' g1 g2 g3
    have hL2 : ∀ a ∈ L', W.src a ∧ W.cur a := fun a ha => ⟨(hbd a (hin2 a ha)).src, hpre.cur a (hin2 a ha)⟩
    have hcell : s'.cell p = s1.cell p := g2.frame.same p (by have := hp.valid.2; have := e2.le; omega) (hnd3 p (by simp))
    have hd : ∀ a ∈ L', a ∉ L0 := fun a ha hc => hnd3 a (List.mem_cons_of_mem _ hc) ha
    have hlat := (e2.later hpre.world hL1).trans (g2.later hpre1.world hL2)
    refine .cons (hp.later hlat hp.src) (by rw [hcell]; exact g2.source hpre1.world hL2 e3 hd) ?_ (by rw [hcell, e2.cdrs p hp.valid.2]; exact g3)
    rw [hcell]
    have hsame : s'.cell (s1.cell p).car = s1.cell (s1.cell p).car := by
      refine g2.frame.same _ e3.valid.2 fun hc => ?_
      generalize (s1.cell p).car = a at e3 hc
      have hpt := (hbd a (hin2 a hc))
      cases e3 with
      | const hd' _ hm => exact hm (hpre.world.source _ hpt.src)
      | quote hc' => exact hc'.fixed (hpre.world.source _ hpt.src)
      | var hx => exact hx.fixed (hpre.world.source _ hpt.src)
      | global hg => exact hg.fixed (hpre.world.source _ hpt.src)
      | ite | ifOnly | lam | app | begin | set => exact hd a hc (List.mem_cons_self ..)
    rw [hsame]
    exact e6 hl

theorem special_lt {x : Int} (h : SpecialForm x) : x < c_symbol_max := by
  rcases h with rfl | rfl | rfl | rfl | rfl | rfl | rfl | rfl | rfl | rfl <;> decide

/-- A special form whose parts are expressions. -/
theorem form_step {n : Nat} (hS : SeqGoal mes σ n) {c x fm : Int} {es : List Expr} {e : Expr} {L : List Int} {X : List Int} {q : Option Int}
    (hn : L.length < n) (hpre : ExpandPre mes σ W s N (c :: L) fm X q (expandCells e)) (hk : expandCells e = 2 + expandCellsSeq es)
    (hc : SrcPair s W c) (hh : (s.cell c).car = x) (hx : x ∈ formNames) (hs : IsSources s W mes N (s.cell c).cdr es L) {P : St → Prop}
    (hP : ∀ s', SrcPair s' W c → (s'.cell c).car = x → IsSources s' W mes N (s'.cell c).cdr es L → P s') :
    ExpandsTo s (c :: L) c fm (expandCells e) P := by
  have hbs := hs.bound
  obtain ⟨hn1, hnd⟩ := List.nodup_cons.1 hpre.nodup
  rw [hk] at hpre ⊢
  have hcc := hpre.cur c (List.mem_cons_self ..)
  have hL1 : ∀ a ∈ [c], SrcPair s W a ∧ W.cur a := fun a ha => by rw [List.mem_singleton.1 ha]; exact ⟨hc, hcc⟩
  have hL2 : ∀ a ∈ L, W.src a ∧ W.cur a := fun a ha => ⟨(hbs a ha).src, hpre.cur a (List.mem_cons_of_mem _ ha)⟩
  obtain ⟨F1, s1, a1, a2, a3⟩ := walk_head hpre (by omega) hc hcc hh hx
  have hl1 := a2.later hpre.world fun a ha => ⟨(hL1 a ha).1.src, (hL1 a ha).2⟩
  have hs' := a2.sources hpre.world (fun a ha => ⟨(hL1 a ha).1.src, (hL1 a ha).2⟩) hs fun a ha => by rw [List.mem_singleton.1 ha]; exact hn1
  have hpre1 := hpre.next (L2 := L) (k2 := expandCellsSeq es) a2 hL1 (hpre.formals.later hl1) (fun _ h => h) hnd (fun a ha => (hL2 a ha).2) (Nat.le_refl _)
  refine ExpandsTo.step a1 a2 (hS hn hs' hpre1) ?_
  intro s' g1 g2 g3
  have hcell : s'.cell c = s1.cell c := g2.frame.same c (hl1.valid hc.valid).2 hn1
  exact hP s' (hc.later (hl1.trans (g2.later hpre1.world hL2)) hc.src) (by rw [hcell]; exact a3) (by rw [g1.cdrs c hc.valid.2]; exact g3)

theorem expr_step {n : Nat} (hE : ExprGoal mes σ n) (hS : SeqGoal mes σ n) : ExprGoal mes σ (n + 1) := by
  intro W s N c e L fm X q hn h hpre
  have hbd := h.bound
  have hkeep := h
  cases h with
  | const hd ht hm => exact expand_stop (fun fuel top => by simp [expandVariable, St.rd_ok hd.valid, ht.1]) hkeep
  | quote hc hh h1 hd =>
    refine expand_stop (fun fuel top => ?_) hkeep
    have hq := fixed_tag_symbol hpre.world (x := c_symbol_quote) (by unfold Keyword; decide)
    have hv : s.Valid c_symbol_quote := by
      have := hpre.world.base
      constructor <;> simp only [c_symbol_quote, c_symbol_max] at * <;> omega
    simp [expandVariable, St.rd_ok hc.valid, hc.tag, hh, St.rd_ok hv, hq, c_symbol_lambda, c_symbol_define, c_symbol_define_macro, c_symbol_quote]
  | var hx => exact expand_stop (fun fuel top => by simp [expandVariable, St.rd_ok hx.text.valid, hx.tag]) hkeep
  | global hg => exact expand_stop (fun fuel top => by simp [expandVariable, St.rd_ok hg.valid, hg.tag]) hkeep
  | @ite _ _ a b d L hc hh hs =>
    exact form_step hS (by simpa using hn) hpre (by simp [expandCells, expandCellsSeq]; omega) hc hh (by decide) hs fun s' g1 g2 g3 => .ite g1 g2 g3
  | @ifOnly _ _ a b L hc hh hs =>
    exact form_step hS (by simpa using hn) hpre (by simp [expandCells, expandCellsSeq]; omega) hc hh (by decide) hs fun s' g1 g2 g3 => .ifOnly g1 g2 g3
  | @begin _ _ es L hc hh hs hne =>
    exact form_step hS (by simpa using hn) hpre (by simp [expandCells]) hc hh (by decide) hs fun s' g1 g2 g3 => .begin g1 g2 g3 hne
  | @lam _ _ fs r b L hc hh h1 hf hb hne =>
    simp only [List.length_cons] at hn
    have hbs := hb.bound
    obtain ⟨hn1, hnd⟩ := List.nodup_cons.1 hpre.nodup
    obtain ⟨hn2, hnd⟩ := List.nodup_cons.1 hnd
    simp only [List.mem_cons, not_or] at hn1
    have hcl : expandCells (.lam fs r b) = fs.length + 1 + expandCellsSeq b := by rw [expandCells]
    rw [hcl] at hpre ⊢
    have hL2 : ∀ a ∈ L, W.src a ∧ W.cur a := fun a ha => ⟨(hbs a ha).src, hpre.cur a (List.mem_cons_of_mem _ (List.mem_cons_of_mem _ ha))⟩
    obtain ⟨F1, s1, fm1, X1, a1, a2, a3, a4, a5⟩ := addFormals_ok hf hpre.formals hpre.world (hpre.room.mono (by omega))
    have hx1 : Expands s [c, (s.cell c).cdr] s1 (fs.length + 1) := (Expands.ext a2 a3).sub nofun
    have hx0 : Expands s [] s1 (fs.length + 1) := Expands.ext a2 a3
    have hb' := hx0.sources hpre.world nofun hb nofun
    have hpre0 := hpre.next (L2 := L) (k2 := expandCellsSeq b) hx0 nofun a4 (fun x hx => a5 x (.inr hx)) hnd (fun a ha => (hL2 a ha).2) (by omega)
    have hpre' := hpre0.under (fs := fs) (r := r) fun x hx => a5 x (.inl hx)
    refine ExpandsTo.step (F1 := F1) (fun fuel hfu top => ?_) hx1 (hS (by omega) hb' hpre') ?_
    · have hv : s.Valid c_symbol_lambda := by
        have := hpre.world.base
        constructor <;> simp only [c_symbol_lambda, c_symbol_max] at * <;> omega
      have hq := fixed_tag_symbol hpre.world (x := c_symbol_lambda) (by unfold Keyword; decide)
      simp [expandVariable, St.rd_ok hc.valid, hc.tag, hh, St.rd_ok hv, hq, St.car_ok h1.valid, a1 fuel hfu, St.cdr_ok (a2.grow.valid h1.valid),
        a2.grow.same _ h1.valid.2]
    · intro s' g1 g2 g3
      have hcell : ∀ a, a < s.free → a ∉ L → s'.cell a = s.cell a := fun a ha hm => by
        rw [g2.frame.same a (by have := a2.le; omega) hm, a2.grow.same a ha]
      have hlat := (a2.grow.later W).trans (g2.later hpre'.world hL2)
      have e1 := hcell c hc.valid.2 hn1.2
      have e2 := hcell _ h1.valid.2 hn2
      rw [← e1]
      refine .lam (hc.later hlat hc.src) (by rw [e1]; exact hh) (by rw [e1]; exact h1.later hlat h1.src) ?_ (by rw [e1, e2]; exact g3) hne
      rw [e1, e2]
      exact hf.later hlat
  | @app _ _ f args L L' hc hh hf ha hs =>
    simp only [List.length_cons, List.length_append] at hn
    have hnd : ((c :: L) ++ L').Nodup := hpre.nodup
    obtain ⟨hnd1, hnd2, hnd3⟩ := nodup_append hnd
    have hin1 : ∀ a ∈ c :: L, a ∈ c :: (L ++ L') := fun a ha => List.mem_append_left (as := c :: L) L' ha
    have hin2 : ∀ a ∈ L', a ∈ c :: (L ++ L') := fun a ha => List.mem_append_right (c :: L) ha
    simp only [expandCells] at hpre ⊢
    obtain ⟨F, s1, fm1, X1, e1, e2, e3, e4, e5, e6⟩ := walk_elem (hpre.mono hnd1 hin1 (Nat.le_refl _)) (Nat.le_add_right _ _) hc rfl hf
      fun h1 h2 => hE (by omega) h1 h2
    have hL1 : ∀ a ∈ c :: L, W.src a ∧ W.cur a := fun a ha => ⟨(hbd a (hin1 a ha)).src, hpre.cur a (hin1 a ha)⟩
    have hL2 : ∀ a ∈ L', W.src a ∧ W.cur a := fun a ha => ⟨(hbd a (hin2 a ha)).src, hpre.cur a (hin2 a ha)⟩
    have hpre1 := hpre.next (L2 := L') (k2 := expandCellsSeq args) e2 (fun a ha => ⟨hbd a (hin1 a ha), hpre.cur a (hin1 a ha)⟩) e4 e5 hnd2
      (fun a ha => hpre.cur a (hin2 a ha)) (Nat.le_refl _)
    refine ExpandsTo.step e1 e2 (hS (by omega) (e2.sources hpre.world hL1 ha hnd3) hpre1) ?_
    intro s' g1 g2 g3
    have hcell : s'.cell c = s1.cell c := g2.frame.same c (by have := hc.valid.2; have := e2.le; omega) (hnd3 c (by simp))
    have hd : ∀ a ∈ L', a ∉ L := fun a ha hc => hnd3 a (List.mem_cons_of_mem _ hc) ha
    have hlat := (e2.later hpre.world hL1).trans (g2.later hpre1.world hL2)
    refine .app (hc.later hlat hc.src) ?_ (by rw [hcell]; exact g2.source hpre1.world hL2 e3 hd) (by rw [hcell, e2.cdrs c hc.valid.2]; exact g3) hs
    rcases g1.cars c hc.valid.2 with h | h
    · rw [h]; exact hh
    · intro hsp
      have := special_lt hsp
      have := hpre.world.base
      omega
  | @set _ _ x e L hc hh h1 hx hk hs =>
    simp only [List.length_cons] at hn
    have hbs := hs.bound
    obtain ⟨hn1, hnd⟩ := List.nodup_cons.1 hpre.nodup
    obtain ⟨hn2, hnd⟩ := List.nodup_cons.1 hnd
    simp only [List.mem_cons, not_or] at hn1
    have hcl : expandCells (.set x e) = 2 + (2 + expandCellsSeq [e]) := by simp [expandCells, expandCellsSeq]; omega
    rw [hcl] at hpre ⊢
    have hcc := hpre.cur c (List.mem_cons_self ..)
    have hcd := hpre.cur (s.cell c).cdr (List.mem_cons_of_mem _ (List.mem_cons_self ..))
    have hL1 : ∀ a ∈ [c], SrcPair s W a ∧ W.cur a := fun a ha => by rw [List.mem_singleton.1 ha]; exact ⟨hc, hcc⟩
    have hL1' : ∀ a ∈ [c], W.src a ∧ W.cur a := fun a ha => ⟨(hL1 a ha).1.src, (hL1 a ha).2⟩
    have hL2 : ∀ a ∈ L, W.src a ∧ W.cur a := fun a ha => ⟨(hbs a ha).src, hpre.cur a (List.mem_cons_of_mem _ (List.mem_cons_of_mem _ ha))⟩
    have hL3 : ∀ a ∈ [(s.cell c).cdr], W.src a ∧ W.cur a := fun a ha => by rw [List.mem_singleton.1 ha]; exact ⟨h1.src, hcd⟩
    obtain ⟨F1, s1, a1, a2, a3⟩ := walk_head hpre (by omega) hc hcc hh (by decide)
    have hl1 := a2.later hpre.world hL1'
    have h1' := h1.later hl1 h1.src
    have h1c : s1.cell (s.cell c).cdr = s.cell (s.cell c).cdr := a2.frame.same _ h1.valid.2 (by simpa using Ne.symm hn1.1)
    have hpre1 : ExpandPre mes σ W s1 N ((s.cell c).cdr :: L) fm X q (2 + expandCellsSeq [e]) :=
      hpre.next a2 hL1 (hpre.formals.later hl1) (fun _ h => h) (List.nodup_cons.2 ⟨hn2, hnd⟩) (fun a ha => hpre.cur a (List.mem_cons_of_mem _ ha)) (Nat.le_refl _)
    have hwn : ∃ F2 s2, (∀ fuel, F2 ≤ fuel → ∀ top, expandVariable (fuel + 1) s1 (s.cell c).cdr fm top = expandVariable fuel s2 (s1.cell (s.cell c).cdr).cdr fm false) ∧
        Expands s1 [(s.cell c).cdr] s2 2 ∧ IsTarget s2 W N (s2.cell (s.cell c).cdr).car x := by
      have hx1 := hx.later hl1
      generalize hy : (s.cell (s.cell c).cdr).car = y at hx1
      cases hx1 with
      | name hx1 hnx =>
        obtain ⟨F2, s2, b1, b2, b3, b4⟩ := walk_name hpre1.world hpre1.glob hpre1.env h1' hcd (by rw [h1c]; exact hy) hx1 hnx hk hpre1.formals hpre1.free
          (hpre1.room.mono (by omega))
        exact ⟨F2, s2, b1, b2, b3⟩
      | global hg =>
        have hnk : ¬ Keyword y := fun hkw => by have := fixed_tag_symbol hpre1.world hkw; rw [hg.tag] at this; cases this
        refine ⟨0, s1, fun fuel _ top => step_other h1' (by rw [h1c]; exact hy) hg.valid (by rw [hg.tag]; decide) hnk .., .sub (.ext (.refl ..) (by omega)) nofun, ?_⟩
        rw [h1c, hy]
        exact .global hg
    obtain ⟨F2, s2, b1, b2, b3⟩ := hwn
    have hl2 := b2.later hpre1.world hL3
    have hs1 := a2.sources hpre.world hL1' hs fun a ha => by rw [List.mem_singleton.1 ha]; exact hn1.2
    have hs2 := b2.sources hpre1.world hL3 hs1 fun a ha => by rw [List.mem_singleton.1 ha]; exact hn2
    have hpre2 := hpre1.next (L2 := L) (k2 := expandCellsSeq [e]) b2 (fun a ha => ⟨by rw [List.mem_singleton.1 ha]; exact h1', (hL3 a ha).2⟩)
      (hpre1.formals.later hl2) (fun _ h => h) hnd (fun a ha => (hL2 a ha).2) (Nat.le_refl _)
    rw [h1c] at b1
    refine ExpandsTo.step a1 a2 (L := [(s.cell c).cdr] ++ L) (ExpandsTo.step (Q := fun s' =>
      IsTarget s' W N (s'.cell (s.cell c).cdr).car x ∧ (s'.cell (s.cell c).cdr).cdr = (s.cell (s.cell c).cdr).cdr ∧
      IsSources s' W mes N (s.cell (s.cell c).cdr).cdr [e] L) b1 b2 (hS (by omega) hs2 hpre2) ?_) ?_
    · intro s' g1 g2 g3
      have hcell := g2.frame.same _ (hl2.valid h1'.valid).2 hn2
      refine ⟨?_, by rw [hcell, b2.cdrs _ h1'.valid.2, h1c], g3⟩
      rw [hcell]
      exact b3.later (g2.later hpre2.world hL2)
    · intro s' g1 g2 ⟨g4, g5, g6⟩
      have hcell : s'.cell c = s1.cell c := g2.frame.same c (hl1.valid hc.valid).2 (by simp [hn1])
      have hcd : (s'.cell c).cdr = (s.cell c).cdr := g1.cdrs c hc.valid.2
      have hlat := hl1.trans (g2.later hpre1.world fun a ha => by
        rcases List.mem_append.1 ha with ha | ha
        · exact hL3 a ha
        · exact hL2 a ha)
      rw [← hcd]
      exact .set (hc.later hlat hc.src) (by rw [hcell]; exact a3) (by rw [hcd]; exact h1.later hlat h1.src) (by rw [hcd]; exact g4) hk (by rw [hcd, g5]; exact g6)

theorem expand_all (mes : Bool) (σ : Store) : ∀ n, ExprGoal mes σ n ∧ SeqGoal mes σ n
  | n + 1 => have := expand_all mes σ n; ⟨expr_step this.1 this.2, seq_step this.1 this.2⟩
  | 0 => ⟨fun h => absurd h (Nat.not_lt_zero _), fun h => absurd h (Nat.not_lt_zero _)⟩

theorem expand_expr {c fm : Int} {e : Expr} {L X : List Int} {q : Option Int} (h : IsSource s W mes N c e L)
    (hp : ExpandPre mes σ W s N L fm X q (expandCells e)) : ExpandsTo s L c fm (expandCells e) fun s' => IsSource s' W mes N c e L :=
  (expand_all mes σ (L.length + 1)).1 (Nat.lt_succ_self _) h hp

theorem expand_seq {p fm : Int} {es : List Expr} {L X : List Int} {q : Option Int} (h : IsSources s W mes N p es L)
    (hp : ExpandPre mes σ W s N L fm X q (expandCellsSeq es)) : ExpandsTo s L p fm (expandCellsSeq es) fun s' => IsSources s' W mes N p es L :=
  (expand_all mes σ (L.length + 1)).2 (Nat.lt_succ_self _) h hp

end Mes
