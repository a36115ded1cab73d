import Verif.Proof.Lists
import Verif.Spec.Array
namespace Mes
open Res Spec

variable {s s' : St} {t : Tag}

/-- Cells with identity keep a type with identity. -/
def Keeps (s s' : St) : Prop := ∀ a, s.Valid a → Solid (s.cell a).tag → s'.Valid a ∧ Solid (s'.cell a).tag

theorem Keeps.of_frame {P : Int → Prop} (hf : Frame P s s')
    (hp : ∀ a, s.Valid a → P a → Solid (s.cell a).tag → Solid (s'.cell a).tag) : Keeps s s' := by
  intro a hv hs
  refine ⟨hf.valid hv, ?_⟩
  by_cases h : P a
  · exact hp a hv h hs
  · rw [hf.same a hv.2 h]; exact hs

theorem Spec.Frame.keeps_ext (hf : Ext s s') : Keeps s s' := .of_frame hf (fun _ _ h => h.elim)

theorem Spec.EntryAt.keep {p : Int} {v : Val} (h : EntryAt s p v) (hv : s.Valid p → s'.Valid p) (hc : s'.cell p = s.cell p)
    (hk : Keeps s s') : EntryAt s' p v := by
  cases v with
  | num n => exact ⟨hv h.valid, by rw [hc]; exact h.tag, by rw [hc]; exact h.value⟩
  | chr n => exact ⟨⟨hv h.1.valid, by rw [hc]; exact h.1.tag, by rw [hc]; exact h.1.value⟩, h.2⟩
  | obj a => obtain ⟨h1, h2, h3, h4, h5⟩ := h
             exact ⟨hv h1, by rw [hc]; exact h2, by rw [hc]; exact h3, hk a h4 h5⟩

theorem Spec.EntryAt.valid {p : Int} {v : Val} (h : EntryAt s p v) : s.Valid p := by
  cases v with
  | num n => exact IsNum.valid h
  | chr n => exact h.1.valid
  | obj a => exact h.1

theorem Spec.EntryAt.not_solid {p : Int} {v : Val} (h : EntryAt s p v) : ¬ Solid (s.cell p).tag := by
  intro hs
  cases v with
  | num n => exact hs.1 h.tag
  | chr n => exact hs.2.1 h.1.tag
  | obj a => exact hs.2.2 h.2.1

theorem Spec.ValAt.valid {p : Int} {v : Val} (h : ValAt s p v) : s.Valid p := by
  cases v with
  | num n => exact IsNum.valid h
  | chr n => exact h.1.valid
  | obj a => obtain ⟨rfl, h⟩ := h; exact h.1

theorem Spec.ValAt.ext {p : Int} {v : Val} (h : ValAt s p v) (hf : Ext s s') : ValAt s' p v := by
  cases v with
  | num n => exact IsNum.ext h hf
  | chr n => exact ⟨h.1.ext hf, h.2⟩
  | obj a => obtain ⟨h1, h2, h3⟩ := h; exact ⟨h1, hf.valid h2, by rw [hf.same a h2.2 id]; exact h3⟩

/-- A value that is not stored in a changed cell keeps its meaning. -/
theorem Spec.ValAt.keep {p : Int} {v : Val} (h : ValAt s p v) (hv : s.Valid p → s'.Valid p)
    (hc : ¬ Solid (s.cell p).tag → s'.cell p = s.cell p) (hk : Keeps s s') : ValAt s' p v := by
  cases v with
  | num n =>
    have hc := hc (fun hs => hs.1 h.tag)
    exact ⟨hv h.valid, by rw [hc]; exact h.tag, by rw [hc]; exact h.value⟩
  | chr n =>
    have hc := hc (fun hs => hs.2.1 h.1.tag)
    exact ⟨⟨hv h.1.valid, by rw [hc]; exact h.1.tag, by rw [hc]; exact h.1.value⟩, h.2⟩
  | obj a => obtain ⟨h1, h2, h3⟩ := h; exact ⟨h1, hk a h2 h3⟩

/-- The contents of an element cell. -/
def Holds (c : Cell) : Val → Prop
  | .num n => c.tag = .number ∧ c.cdr = n
  | .chr n => (c.tag = .char ∧ c.cdr = n) ∧ -2147483648 ≤ n ∧ n ≤ 2147483647
  | .obj a => c.tag = .ref ∧ c.car = a

theorem Holds.not_solid {c : Cell} {v : Val} (h : Holds c v) : ¬ Solid c.tag := by
  intro hs
  cases v with
  | num n => exact hs.1 h.1
  | chr n => exact hs.2.1 h.1.1
  | obj a => exact hs.2.2 h.1

/-- The objects a value refers to exist. -/
def Live (s : St) : Val → Prop
  | .obj a => s.Valid a ∧ Solid (s.cell a).tag
  | _ => True

theorem entryAt_iff {p : Int} {v : Val} : EntryAt s p v ↔ s.Valid p ∧ Holds (s.cell p) v ∧ Live s v := by
  cases v with
  | num n => exact ⟨fun h => ⟨h.valid, ⟨h.tag, h.value⟩, trivial⟩, fun h => ⟨h.1, h.2.1.1, h.2.1.2⟩⟩
  | chr n => exact ⟨fun h => ⟨h.1.valid, ⟨⟨h.1.tag, h.1.value⟩, h.2⟩, trivial⟩,
      fun h => ⟨⟨h.1, h.2.1.1.1, h.2.1.1.2⟩, h.2.1.2⟩⟩
  | obj a => exact ⟨fun h => ⟨h.1, ⟨h.2.1, h.2.2.1⟩, h.2.2.2⟩, fun h => ⟨h.1, h.2.1.1, h.2.1.2, h.2.2⟩⟩

theorem Spec.ValAt.live {p : Int} {v : Val} (h : ValAt s p v) : Live s v := by
  cases v with
  | num n => trivial
  | chr n => trivial
  | obj a => exact h.2

theorem Live.keep {v : Val} (h : Live s v) (hk : Keeps s s') : Live s' v := by
  cases v with
  | num n => trivial
  | chr n => trivial
  | obj a => exact hk a h.1 h.2

/-- Storing an element: the cell written holds the value, everything else is unchanged. -/
theorem setEntry_raw {p e : Int} {v : Val} (hr : Room s 1) (hp : s.Valid p) (he : ValAt s e v) :
    ∃ s', setEntry s p e = ok s' ∧ Frame (· = p) s s' ∧ Holds (s'.cell p) v ∧ s'.free ≤ s.free + 1 := by
  cases v with
  | num n =>
    refine ⟨s.upd p { s.cell e with bytes := [] }, ?_, upd_frame .., ⟨by simp [he.tag], by simp [he.value]⟩,
      by simp; omega⟩
    simp only [setEntry, vectorEntry, St.rd_ok he.valid, ok_bind, St.copyCell]
    simp [St.rd_ok he.valid, hp, he.tag]
  | chr n =>
    refine ⟨s.upd p { s.cell e with bytes := [] }, ?_, upd_frame .., ⟨⟨by simp [he.1.tag], by simp [he.1.value]⟩,
      he.2⟩, by simp; omega⟩
    simp only [setEntry, vectorEntry, St.rd_ok he.1.valid, ok_bind, St.copyCell]
    simp [St.rd_ok he.1.valid, hp, he.1.tag]
  | obj a =>
    obtain ⟨rfl, hv, hs⟩ := he
    have hx := push_ext s { tag := .ref, car := e, cdr := 0 }
    refine ⟨(s.push { tag := .ref, car := e, cdr := 0 }).upd p { tag := .ref, car := e, cdr := 0 }, ?_,
      hx.frame.trans (upd_frame ..), ⟨by simp, by simp⟩, by simp⟩
    have h1 : (s.cell e).tag ≠ .char ∧ (s.cell e).tag ≠ .number := ⟨hs.2.1, hs.1⟩
    simp only [setEntry, vectorEntry, St.rd_ok hv, ok_bind, if_pos h1, makeRef_ok hr, St.copyCell,
      St.rd_ok (hr.free_valid _), St.push_cell_free, St.put_ok _ (hx.valid hp)]

theorem setEntry_ok {p e : Int} {v : Val} (hr : Room s 1) (hp : s.Valid p) (hns : ¬ Solid (s.cell p).tag)
    (he : ValAt s e v) :
    ∃ s', setEntry s p e = ok s' ∧ Frame (· = p) s s' ∧ EntryAt s' p v ∧ Keeps s s' ∧ s'.free ≤ s.free + 1 := by
  obtain ⟨s', h1, h2, h3, h4⟩ := setEntry_raw hr hp he
  have hk : Keeps s s' := .of_frame h2 (fun a _ hap hs => by subst hap; exact absurd hs hns)
  exact ⟨s', h1, h2, entryAt_iff.2 ⟨h2.valid hp, h3, he.live.keep hk⟩, hk, h4⟩

/-- Reading an element. -/
theorem fetch_ok {p : Int} {v : Val} (hr : Room s 1) (h : EntryAt s p v) :
    ∃ r s', fetch s p = ok (r, s') ∧ ValAt s' r v ∧ Ext s s' ∧ s'.free ≤ s.free + 1 ∧
      (s.free ≤ r ∨ Solid (s'.cell r).tag) := by
  cases v with
  | num n =>
    refine ⟨_, _, ?_, hr.push_isNum n, push_ext .., by simp, .inl (Int.le_refl _)⟩
    simp only [fetch, deref, St.rd_ok h.valid, h.tag, ok_bind]
    simp [St.rd_ok h.valid, h.tag, h.value, makeNumber_ok hr]
  | chr n =>
    obtain ⟨h, h1, h2⟩ := h
    refine ⟨_, _, ?_, ⟨⟨hr.free_valid _, ?_, ?_⟩, h1, h2⟩, push_ext s { tag := .char, car := 0, cdr := n }, by simp,
      .inl (Int.le_refl _)⟩
    · simp only [fetch, deref, St.rd_ok h.valid, h.tag, ok_bind]
      simp [St.rd_ok h.valid, h.tag, h.value, makeChar_ok hr, toInt32_id h1 h2]
    · simp
    · simp
  | obj a =>
    obtain ⟨h1, h2, h3, h4, h5⟩ := h
    refine ⟨a, s, ?_, ⟨rfl, h4, h5⟩, Frame.refl .., by omega, .inr h5⟩
    simp [fetch, deref, h1, h2, h3, h4, h5.1, h5.2.1]

theorem Spec.IsArr.keep {x : Int} {vs : List Val} (h : IsArr t s x vs) (hx : s'.cell x = s.cell x)
    (hv : ∀ a, s.Valid a → s'.Valid a)
    (hc : ∀ i : Nat, i < vs.length → s'.cell ((s.cell x).cdr + i) = s.cell ((s.cell x).cdr + i)) (hk : Keeps s s') :
    IsArr t s' x vs := by
  refine ⟨hv x h.valid, by rw [hx]; exact h.tag, by rw [hx]; exact h.length, fun i v hi => ?_⟩
  have hl : i < vs.length := by
    rcases Nat.lt_or_ge i vs.length with h | h
    · exact h
    · rw [List.getElem?_eq_none h] at hi; cases hi
  rw [hx]
  exact (h.entry i v hi).keep (hv _) (hc i hl) hk

theorem Spec.IsArr.ext {x : Int} {vs : List Val} (h : IsArr t s x vs) (hf : Ext s s') : IsArr t s' x vs :=
  h.keep (hf.same x h.valid.2 id) (fun _ => hf.valid)
    (fun i hi => hf.same _ ((h.entry i vs[i] (by simp [hi])).valid).2 id) hf.keeps_ext

/-- The element cells from `v` on hold the values `vs`. -/
def Entries (s : St) (v : Int) (vs : List Val) : Prop := ∀ (i : Nat) w, vs[i]? = some w → EntryAt s (v + i) w

theorem Entries.nil {v : Int} : Entries s v [] := by intro i w h; simp at h

theorem Entries.cons {v : Int} {w : Val} {vs : List Val} (h : EntryAt s v w) (h' : Entries s (v + 1) vs) :
    Entries s v (w :: vs) := by
  intro i u hu
  cases i with
  | zero => simp at hu; subst hu; simpa using h
  | succ i =>
    have := h' i u (by simpa using hu)
    rwa [show v + 1 + (i : Int) = v + ((i + 1 : Nat) : Int) by omega] at this


theorem Entries.keep {v : Int} {vs : List Val} (h : Entries s v vs) (hv : ∀ a, s.Valid a → s'.Valid a)
    (hc : ∀ i : Nat, i < vs.length → s'.cell (v + i) = s.cell (v + i)) (hk : Keeps s s') : Entries s' v vs := by
  intro i w hi
  have hl : i < vs.length := by
    rcases Nat.lt_or_ge i vs.length with h | h
    · exact h
    · rw [List.getElem?_eq_none h] at hi; cases hi
  exact (h i w hi).keep (hv _) (hc i hl) hk

/-- The cell range `[v, v + n)`. -/
def Range (v : Int) (n : Nat) (a : Int) : Prop := v ≤ a ∧ a < v + n

theorem Room.after {k l : Int} {P : Int → Prop} (h : Room s k) (hf : Frame P s s') (hl : s'.free + l ≤ s.free + k) :
    Room s' l := h.step hf hl

/-- Filling fresh element cells with one value. -/
theorem fillVector_ok {s0 s : St} {n : Nat} {v e : Int} {w : Val} (hr : Room s n) (hx : Ext s0 s)
    (hv : ∀ i : Nat, i < n → s.Valid (v + i)) (h0 : s0.free ≤ v) (he : ValAt s0 e w) :
    ∃ s', fillVector n s v e = ok s' ∧ Frame (Range v n) s s' ∧ (∀ i : Nat, i < n → Holds (s'.cell (v + i)) w) ∧
      s'.free ≤ s.free + n := by
  induction n generalizing s v with
  | zero => exact ⟨s, rfl, Frame.refl .., fun i h => by omega, by omega⟩
  | succ n ih =>
    have hp : s.Valid v := by simpa using hv 0 (by omega)
    obtain ⟨s1, h1, h2, h3, h4⟩ := setEntry_raw (hr.mono (by omega)) hp (he.ext hx)
    have hx1 : Ext s0 s1 := hx.trans' h2 (fun a ha e => by omega)
    obtain ⟨s2, g1, g2, g3, g4⟩ := ih (s := s1) (v := v + 1) (hr.step h2 (by omega)) hx1
      (fun i hi => h2.valid (by have := hv (i + 1) (by omega); rwa [show v + 1 + (i : Int) = v + ((i + 1 : Nat) : Int) by omega]))
      (by omega)
    refine ⟨s2, by simp only [fillVector, h1, ok_bind, g1], ?_, ?_, by omega⟩
    · exact (h2.mono (fun a _ e => by unfold Range; omega)).trans
        (g2.mono (fun a _ e => by unfold Range at *; omega))
    · intro i hi
      cases i with
      | zero =>
        have := g2.same (v + (0 : Nat)) (h2.valid (by simpa using hp)).2 (by unfold Range; omega)
        rw [this]; simpa using h3
      | succ i => have := g3 i (by omega); rwa [show v + 1 + (i : Int) = v + ((i + 1 : Nat) : Int) by omega] at this

/-- Filling fresh element cells from a list. -/
theorem fillFromList_ok {s0 s : St} {fuel : Nat} {v x : Int} {ws : List Val} (hr : Room s ws.length) (hx : Ext s0 s)
    (hf : ws.length < fuel) (hv : ∀ i : Nat, i < ws.length → s.Valid (v + i)) (h0 : s0.free ≤ v)
    (h : ListOf s0 (ValAt s0) x ws) :
    ∃ s', fillFromList fuel s v x = ok s' ∧ Frame (Range v ws.length) s s' ∧
      (∀ (i : Nat) w, ws[i]? = some w → Holds (s'.cell (v + i)) w) ∧ s'.free ≤ s.free + ws.length := by
  induction h generalizing s v fuel with
  | nil =>
    obtain ⟨fuel, rfl⟩ : ∃ f, fuel = f + 1 := ⟨fuel - 1, by simp at hf; omega⟩
    exact ⟨s, by simp [fillFromList], Frame.refl .., by simp, by simp⟩
  | @cons p w ws hne hpv ht hw _ ih =>
    obtain ⟨fuel, rfl⟩ : ∃ f, fuel = f + 1 := ⟨fuel - 1, by simp at hf; omega⟩
    simp only [List.length_cons, Int.natCast_add, Int.cast_ofNat_Int] at hr hv hf ⊢
    have hp : s.Valid v := by simpa using hv 0 (by omega)
    have hcell : s.cell p = s0.cell p := hx.same p hpv.2 id
    obtain ⟨s1, h1, h2, h3, h4⟩ := setEntry_raw (hr.mono (by omega)) hp (hw.ext hx)
    have hx1 : Ext s0 s1 := hx.trans' h2 (fun a ha e => by omega)
    have hcell1 : s1.cell p = s0.cell p := hx1.same p hpv.2 id
    obtain ⟨s2, g1, g2, g3, g4⟩ := ih (s := s1) (v := v + 1) (hr.step h2 (by omega)) hx1 (fuel := fuel) (by omega)
      (fun i hi => h2.valid (by have := hv (i + 1) (by omega); rwa [show v + 1 + (i : Int) = v + ((i + 1 : Nat) : Int) by omega]))
      (by omega)
    refine ⟨s2, ?_, ?_, ?_, by omega⟩
    · simp only [fillFromList, if_neg hne, carP_pair (hx.valid hpv) (hcell ▸ ht), hcell, ok_bind, h1,
        cdrP_pair (hx1.valid hpv) (hcell1 ▸ ht), hcell1, g1]
    · exact (h2.mono (fun a _ e => by unfold Range; omega)).trans
        (g2.mono (fun a _ e => by unfold Range at *; omega))
    · intro i u hi
      cases i with
      | zero =>
        have := g2.same (v + (0 : Nat)) (h2.valid (by simpa using hp)).2 (by unfold Range; omega)
        rw [this]; simp at hi; subst hi; simpa using h3
      | succ i =>
        have := g3 i u (by simpa using hi)
        rwa [show v + 1 + (i : Int) = v + ((i + 1 : Nat) : Int) by omega] at this

/-- Filling the fields of a fresh struct. -/
theorem fillStruct_ok {s0 s : St} {v x : Int} {ws : List Val} (hr : Room s ws.length) (hx : Ext s0 s)
    (hv : ∀ i : Nat, i < ws.length → s.Valid (v + i)) (h0 : s0.free ≤ v)
    (h : ListOf s0 (ValAt s0) x ws) :
    ∃ s', fillStruct ws.length s v x = ok s' ∧ Frame (Range v ws.length) s s' ∧
      (∀ (i : Nat) w, ws[i]? = some w → Holds (s'.cell (v + i)) w) ∧ s'.free ≤ s.free + ws.length := by
  induction h generalizing s v with
  | nil => exact ⟨s, rfl, Frame.refl .., by simp, by simp⟩
  | @cons p w ws hne hpv ht hw _ ih =>
    simp only [List.length_cons, Int.natCast_add, Int.cast_ofNat_Int] at hr hv ⊢
    have hp : s.Valid v := by simpa using hv 0 (by omega)
    have hcell : s.cell p = s0.cell p := hx.same p hpv.2 id
    obtain ⟨s1, h1, h2, h3, h4⟩ := setEntry_raw (hr.mono (by omega)) hp (hw.ext hx)
    have hx1 : Ext s0 s1 := hx.trans' h2 (fun a ha e => by omega)
    obtain ⟨s2, g1, g2, g3, g4⟩ := ih (s := s1) (v := v + 1) (hr.step h2 (by omega)) hx1
      (fun i hi => h2.valid (by have := hv (i + 1) (by omega); rwa [show v + 1 + (i : Int) = v + ((i + 1 : Nat) : Int) by omega]))
      (by omega)
    refine ⟨s2, ?_, ?_, ?_, by omega⟩
    · simp only [fillStruct, if_neg hne, St.rd_ok (hx.valid hpv), hcell, ok_bind, h1, g1]
    · exact (h2.mono (fun a _ e => by unfold Range; omega)).trans
        (g2.mono (fun a _ e => by unfold Range at *; omega))
    · intro i u hi
      cases i with
      | zero =>
        have := g2.same (v + (0 : Nat)) (h2.valid (by simpa using hp)).2 (by unfold Range; omega)
        rw [this]; simp at hi; subst hi; simpa using h3
      | succ i =>
        have := g3 i u (by simpa using hi)
        rwa [show v + 1 + (i : Int) = v + ((i + 1 : Nat) : Int) by omega] at this

/-- Allocation of `n` cells. -/
theorem alloc_ok {n : Int} (h : Room s n) (hn : 0 ≤ n) : alloc s n = ok (s.free, { s with free := s.free + n }) := by
  have h1 := h.base; have h2 := h.room
  simp only [c_symbol_max, g_cells] at h1 h2
  unfold alloc
  simp only [g_cells]
  rw [if_neg (by omega)]

theorem alloc_ext (s : St) {n : Int} (hn : 0 ≤ n) : Ext s { s with free := s.free + n } :=
  ⟨by simp; omega, fun _ _ _ => rfl, rfl⟩

/-- The common part of make-vector and make-struct: a header cell and `n` element cells. -/
theorem header_ok {s : St} {n : Nat} (t : Tag) (hr : Room s (n + 1)) :
    ∃ s1, Ext s s1 ∧ s1.free = s.free + n + 1 ∧ s1.cell s.free = { tag := t, car := (n : Int), cdr := s.free + 1 } ∧
      ∀ {β : Type} (f : Int → Int → St → Res β),
        (do let (x, s) ← alloc s 1
            let (v, s) ← alloc s (n : Int)
            let s ← s.put x { tag := t, car := (n : Int), cdr := v }
            f x v s) = f s.free (s.free + 1) s1 := by
  have e1 := alloc_ext s (n := 1) (by omega)
  have r1 : Room { s with free := s.free + 1 } (n : Int) := hr.step e1 (by simp; omega)
  have e2 := alloc_ext { s with free := s.free + 1 } (n := (n : Int)) (by omega)
  have hv : ({ s with free := s.free + 1 + (n : Int) } : St).Valid s.free :=
    ⟨by have := hr.base; simp only [c_symbol_max] at this; omega, by simp; omega⟩
  refine ⟨({ s with free := s.free + 1 + (n : Int) } : St).upd s.free { tag := t, car := (n : Int), cdr := s.free + 1 },
    (e1.trans e2).trans' (upd_frame ..) (fun a ha e => by omega), by simp; omega, by simp, fun f => ?_⟩
  rw [alloc_ok (hr.mono (by omega)) (by omega)]
  simp only [ok_bind]
  rw [alloc_ok r1 (by omega)]
  simp only [ok_bind, St.put_ok _ hv]


theorem makeVector_ok {s : St} {k : Nat} {e : Int} {w : Val} (hr : Room s (2 * k + 1)) (he : ValAt s e w) :
    ∃ x s', makeVector s k e = ok (x, s') ∧ IsArr .vector s' x (List.replicate k w) ∧ Ext s s' ∧ s.free ≤ x ∧
      (s'.cell x).cdr = x + 1 ∧ s'.free ≤ s.free + 2 * k + 1 := by
  obtain ⟨s1, h1, h2, h3, h4⟩ := header_ok (n := k) .vector (hr.mono (by omega))
  have hvalid : ∀ i : Nat, i < k → s1.Valid (s.free + 1 + i) := fun i hi =>
    ⟨by have := hr.base; simp only [c_symbol_max] at this; omega, by omega⟩
  obtain ⟨s2, g1, g2, g3, g4⟩ := fillVector_ok (s := s1) (n := k) (v := s.free + 1) (hr.step h1 (by omega)) h1
    hvalid (by omega) he
  have hx : Ext s s2 := h1.trans' g2 (fun a ha e => by unfold Range at e; omega)
  have hxv : s1.Valid s.free := ⟨by have := hr.base; simp only [c_symbol_max] at this; omega, by omega⟩
  have hc : s2.cell s.free = { tag := .vector, car := (k : Int), cdr := s.free + 1 } := by
    rw [g2.same s.free hxv.2 (by unfold Range; omega), h3]
  refine ⟨s.free, s2, ?_, ⟨g2.valid hxv, by rw [hc], by rw [hc]; simp, fun i v hi => ?_⟩, hx, by omega, by rw [hc],
    by omega⟩
  · refine Eq.trans (h4 (fun x v s => do let s ← fillVector (k : Int).toNat s v e; ok (x, s))) ?_
    simp only [Int.toNat_natCast, g1, ok_bind]
  · rw [hc]
    rw [List.getElem?_replicate] at hi
    split at hi
    · next hk =>
      simp at hi; subst hi
      exact entryAt_iff.2 ⟨g2.valid (hvalid i hk), g3 i hk, he.live.keep hx.keeps_ext⟩
    · cases hi

/-- Contents of the element cells of a new array, from the contents of the cells. -/
theorem isArr_of {s0 s' : St} {x : Int} {vs : List Val} (hx : s'.Valid x)
    (hc : s'.cell x = { tag := t, car := (vs.length : Int), cdr := x + 1 })
    (hv : ∀ i : Nat, i < vs.length → s'.Valid (x + 1 + i))
    (hh : ∀ (i : Nat) w, vs[i]? = some w → Holds (s'.cell (x + 1 + i)) w) (hl : ∀ w ∈ vs, Live s' w) :
    IsArr t s' x vs := by
  refine ⟨hx, by rw [hc], by rw [hc], fun i v hi => ?_⟩
  rw [hc]
  have hi' : i < vs.length := by
    rcases Nat.lt_or_ge i vs.length with h | h
    · exact h
    · rw [List.getElem?_eq_none h] at hi; cases hi
  exact entryAt_iff.2 ⟨hv i hi', hh i v hi, hl v (List.mem_of_getElem? hi)⟩

theorem Spec.ListOf.forall {α : Type} {R : Int → α → Prop} {p : Int} {xs : List α} (h : ListOf s R p xs) :
    ∀ x ∈ xs, ∃ a, R a x := by
  induction h with
  | nil => simp
  | cons hne hv ht hx _ ih =>
    intro y hy
    rcases List.mem_cons.1 hy with rfl | hy
    · exact ⟨_, hx⟩
    · exact ih y hy

theorem listToVector_ok {s : St} {fuel : Nat} {x : Int} {ws : List Val} (hr : Room s (3 * ws.length + 1))
    (hu : ValAt s c_unspecified (.obj c_unspecified)) (h : ListOf s (ValAt s) x ws) (hf : ws.length < fuel) :
    ∃ v s', listToVector s fuel x = ok (v, s') ∧ IsArr .vector s' v ws ∧ Ext s s' ∧ s.free ≤ v ∧
      (s'.cell v).cdr = v + 1 ∧ s'.free ≤ s.free + 3 * ws.length + 1 := by
  obtain ⟨v, s1, h1, h2, h3, h4, h5, h6⟩ := makeVector_ok (k := ws.length) (hr.mono (by omega)) hu
  have hvalid : ∀ i : Nat, i < ws.length → s1.Valid (v + 1 + i) := fun i hi => by
    have := (h2.entry i (.obj c_unspecified) (by simp [hi])).valid
    rwa [h5] at this
  obtain ⟨s2, g1, g2, g3, g4⟩ := fillFromList_ok (s := s1) (fuel := fuel) (v := v + 1) (hr.step h3 (by omega)) h3 hf
    hvalid (by omega) h
  have hx : Ext s s2 := h3.trans' g2 (fun a ha e => by unfold Range at e; omega)
  have hc : s2.cell v = s1.cell v := g2.same v h2.valid.2 (by unfold Range; omega)
  refine ⟨v, s2, ?_, ⟨g2.valid h2.valid, by rw [hc]; exact h2.tag, by rw [hc]; simpa using h2.length, fun i w hi => ?_⟩,
    hx, h4, by rw [hc]; exact h5, by omega⟩
  · simp only [listToVector, length_ok h hf, ok_bind, h1, St.cdr_ok h2.valid, h5, g1]
  · rw [hc, h5]
    have hi' : i < ws.length := by
      rcases Nat.lt_or_ge i ws.length with h | h
      · exact h
      · rw [List.getElem?_eq_none h] at hi; cases hi
    obtain ⟨a, ha⟩ := h.forall w (List.mem_of_getElem? hi)
    exact entryAt_iff.2 ⟨g2.valid (hvalid i hi'), g3 i w hi, ha.live.keep hx.keeps_ext⟩

/-- A value read straight from its element cell. -/
theorem deref_ok {p : Int} {v : Val} (h : EntryAt s p v) : ∃ r, deref s p = ok r ∧ ValAt s r v := by
  cases v with
  | num n => exact ⟨p, by simp [deref, h.valid, IsNum.tag h], h⟩
  | chr n => exact ⟨p, by simp [deref, h.valid, h.1.tag], h⟩
  | obj a =>
    obtain ⟨h1, h2, h3, h4, h5⟩ := h
    exact ⟨a, by simp [deref, h1, h2, h3], ⟨rfl, h4, h5⟩⟩

theorem vectorToListLoop_ok {s : St} {n : Nat} {v x : Int} {ws us : List Val} (hr : Room s n) (hn : ws.length = n)
    (he : Entries s v ws) (hl : ListOf s (ValAt s) x us) :
    ∃ r s', vectorToListLoop n s v x = ok (r, s') ∧ ListOf s' (ValAt s') r (ws ++ us) ∧ Ext s s' ∧
      s'.free = s.free + n := by
  induction n generalizing s x ws us with
  | zero =>
    obtain rfl : ws = [] := List.length_eq_zero_iff.1 hn
    exact ⟨x, s, rfl, by simpa using hl, Frame.refl .., by simp⟩
  | succ n ih =>
    obtain ⟨ws', w, rfl⟩ : ∃ ws' w, ws = ws' ++ [w] := by
      refine ⟨ws.dropLast, ws.getLast (by intro h; simp [h] at hn), (List.dropLast_concat_getLast _).symm⟩
    have hlen : ws'.length = n := by simpa using hn
    have hent := he n w (by simp [← hlen])
    obtain ⟨e, d1, d2⟩ := deref_ok hent
    have hx := push_ext s { tag := .pair, car := e, cdr := x }
    have hb := hr.base
    simp only [c_symbol_max] at hb
    have hl' : ListOf (s.push { tag := .pair, car := e, cdr := x }) (ValAt (s.push { tag := .pair, car := e, cdr := x }))
        s.free (w :: us) := by
      refine .cons (by simp only [c_nil]; omega) (hr.free_valid _) (by simp) ?_ ?_
      · simp; exact d2.ext hx
      · simp; exact hl.ext hx (fun a v h => h.ext hx)
    obtain ⟨r, s', g1, g2, g3, g4⟩ := ih (s := s.push { tag := .pair, car := e, cdr := x }) (ws := ws') (hr.push _) hlen
      (fun i u hi => by
        have hi' : i < ws'.length := by
          rcases Nat.lt_or_ge i ws'.length with h | h
          · exact h
          · rw [List.getElem?_eq_none h] at hi; cases hi
        have := he i u (by rw [List.getElem?_append_left hi']; exact hi)
        exact this.keep hx.valid (hx.same _ this.valid.2 id) hx.keeps_ext) hl'
    refine ⟨r, s', ?_, by simpa using g2, hx.trans g3, ?_⟩
    · simp only [vectorToListLoop, d1, ok_bind, cons_ok (hr.mono (show 1 ≤ ((n + 1 : Nat) : Int) by omega)), g1]
    · rw [g4]; simp; omega

theorem vectorToList_ok {s : St} {v : Int} {ws : List Val} (hr : Room s ws.length) (h : IsArr .vector s v ws) :
    ∃ r s', vectorToList s v = ok (r, s') ∧ ListOf s' (ValAt s') r ws ∧ Ext s s' ∧ s'.free = s.free + ws.length := by
  obtain ⟨r, s', h1, h2, h3, h4⟩ := vectorToListLoop_ok hr rfl h.entry (x := c_nil) .nil
  refine ⟨r, s', ?_, by simpa using h2, h3, h4⟩
  simp only [vectorToList, St.rd_ok h.valid, ok_bind, h.length, ubUnless_true (show (0 : Int) ≤ ws.length by omega),
    Int.toNat_natCast, h1]

theorem makeStruct_ok {s : St} {fuel : Nat} {ty fields pr : Int} {ws : List Val} {tv pv : Val}
    (hr : Room s (2 * ws.length + 5)) (ht : ValAt s ty tv) (hp : ValAt s pr pv) (h : ListOf s (ValAt s) fields ws)
    (hf : ws.length < fuel) :
    ∃ x s', makeStruct s fuel ty fields pr = ok (x, s') ∧ IsArr .struct s' x (tv :: pv :: ws) ∧ Ext s s' ∧ s.free ≤ x ∧
      (s'.cell x).cdr = x + 1 ∧ s'.free ≤ s.free + 2 * ws.length + 5 := by
  obtain ⟨s1, h1, h2, h3, h4⟩ := header_ok (s := s) (n := 2 + ws.length) .struct (hr.mono (by omega))
  have hb := hr.base
  simp only [c_symbol_max] at hb
  have hvalid : ∀ a, s.free ≤ a → a < s1.free → s1.Valid a := fun a ha hb => ⟨by omega, hb⟩
  have hv1 : s1.Valid (s.free + 1) := hvalid _ (by omega) (by omega)
  have hv2 : s1.Valid (s.free + 1 + 1) := hvalid _ (by omega) (by omega)
  obtain ⟨s2, a1, a2, a3, a4⟩ := setEntry_raw (s := s1) (p := s.free + 1) (hr.step h1 (by omega)) hv1 (ht.ext h1)
  have x2 : Ext s s2 := h1.trans' a2 (fun a ha e => by omega)
  obtain ⟨s3, b1, b2, b3, b4⟩ := setEntry_raw (s := s2) (p := s.free + 1 + 1) (hr.step x2 (by omega)) (a2.valid hv2)
    (hp.ext x2)
  have x3 : Ext s s3 := x2.trans' b2 (fun a ha e => by omega)
  obtain ⟨s4, c1, c2, c3, c4⟩ := fillStruct_ok (s0 := s) (s := s3) (v := s.free + 1 + 2) (x := fields) (ws := ws)
    (hr.step x3 (by omega)) x3 (fun i hi => b2.valid (a2.valid (hvalid _ (by omega) (by omega)))) (by omega) h
  have x4 : Ext s s4 := x3.trans' c2 (fun a ha e => by unfold Range at e; omega)
  have w0 : s1.Valid s.free := hvalid _ (by omega) (by omega)
  have hc : s4.cell s.free = { tag := .struct, car := ((2 + ws.length : Nat) : Int), cdr := s.free + 1 } := by
    rw [c2.same s.free (b2.valid (a2.valid w0)).2 (by unfold Range; omega), b2.same s.free (a2.valid w0).2 (by omega),
      a2.same s.free w0.2 (by omega), h3]
  refine ⟨s.free, s4, ?_, isArr_of (s0 := s) (c2.valid (b2.valid (a2.valid w0))) ?_ ?_ ?_ ?_, x4, by omega, by rw [hc], by omega⟩
  · simp only [makeStruct, length_ok h hf, ok_bind]
    have e := h4 (fun x v s => do
      let s ← setEntry s v ty
      let s ← setEntry s (v + 1) pr
      let s ← fillStruct ((2 : Int) + ws.length - 2).toNat s (v + 2) fields
      ok (x, s))
    rw [show ((2 + ws.length : Nat) : Int) = 2 + (ws.length : Int) by omega] at e
    refine e.trans ?_
    simp only [a1, ok_bind, b1, show ((2 : Int) + ws.length - 2).toNat = ws.length by omega, c1]
  · rw [hc]; simp; omega
  · intro i hi
    simp at hi
    exact c2.valid (b2.valid (a2.valid (hvalid _ (by omega) (by omega))))
  · intro i w hi
    match i with
    | 0 =>
      simp at hi; subst hi
      rw [c2.same _ (b2.valid (a2.valid (hvalid _ (by omega) (by omega)))).2 (by unfold Range; omega),
        b2.same _ (a2.valid (hvalid _ (by omega) (by omega))).2 (by omega)]
      simpa using a3
    | 1 =>
      simp at hi; subst hi
      rw [c2.same _ (b2.valid (a2.valid (hvalid _ (by omega) (by omega)))).2 (by unfold Range; omega)]
      exact b3
    | i + 2 =>
      have := c3 i w (by simpa using hi)
      rwa [show s.free + 1 + 2 + (i : Int) = s.free + 1 + ((i + 2 : Nat) : Int) by omega] at this
  · intro w hw
    simp only [List.mem_cons] at hw
    rcases hw with rfl | rfl | hw
    · exact ht.live.keep x4.keeps_ext
    · exact hp.live.keep x4.keeps_ext
    · obtain ⟨a, ha⟩ := h.forall w hw
      exact ha.live.keep x4.keeps_ext

end Mes
