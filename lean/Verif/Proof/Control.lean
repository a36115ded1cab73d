import Verif.Proof.EvalFrame
import Verif.Props.Vector
import Verif.Spec.Control
/-
Saving the stack in a continuation and restoring it.
-/
namespace Mes
open Res Spec

variable {s s' t : St}

theorem Spec.Frame.stackSize {P : Int → Prop} (h : Frame P s s') : s'.stackSize = s.stackSize := by
  have := congrArg St.stackSize h.rest; simpa using this

/-- Saving entries of the stack in fresh element cells. -/
theorem saveStack_ok {s0 s : St} {n i L : Nat} {x base : Int} {vs : List Val} (hr : Room s n) (hx : Ext s0 s) (hxv : s.Valid x)
    (hc : (s.cell x).tag = .vector ∧ (s.cell x).car = (L : Int) ∧ (s.cell x).cdr = x + 1) (hL : i + n = L) (h0 : s0.free ≤ x)
    (hv : ∀ j : Nat, j < n → s.Valid (x + 1 + (i + j : Nat))) (hn : vs.length = n)
    (hs : ∀ (j : Nat) v, vs[j]? = some v → ValAt s0 (s0.stack (base + (i + j : Nat))) v)
    (hb : 0 ≤ base ∧ base + L ≤ s0.stackSize) :
    ∃ s', saveStack n s x i base = ok s' ∧ Frame (Range (x + 1 + i) n) s s' ∧
      (∀ (j : Nat) w, vs[j]? = some w → Holds (s'.cell (x + 1 + (i + j : Nat))) w) ∧ s'.free ≤ s.free + n := by
  induction n generalizing s i vs with
  | zero => 
    cases vs with
    | nil => exact ⟨s, rfl, Frame.refl .., fun j w h => by simp at h, by omega⟩
    | cons v vs => simp at hn
  | succ n ih =>
    obtain ⟨v, vs, rfl⟩ : ∃ v vs', vs = v :: vs' := by
      cases vs with
      | nil => simp at hn
      | cons v vs => exact ⟨v, vs, rfl⟩
    have hp : s.Valid (x + 1 + i) := by simpa using hv 0 (by omega)
    have he : ValAt s (s.stack (base + i)) v := by
      have := (hs 0 v rfl).ext hx
      rw [hx.stack]; simpa using this
    obtain ⟨s1, h1, h2, h3, h4⟩ := setEntry_raw (hr.mono (by omega)) hp he
    have hx1 : Ext s0 s1 := hx.trans' h2 (fun a ha e => by omega)
    have hc1 : s1.cell x = s.cell x := h2.same x hxv.2 (by omega)
    obtain ⟨s2, g1, g2, g3, g4⟩ := ih (s := s1) (i := i + 1) (vs := vs) (hr.step h2 (by omega)) hx1 (h2.valid hxv) (by rw [hc1]; exact hc) (by omega)
      (fun j hj => h2.valid (by have := hv (j + 1) (by omega); rwa [show (i + 1 + j : Nat) = i + (j + 1) by omega]))
      (by simpa using hn)
      (fun j w hj => by rw [show (i + 1 + j : Nat) = i + (j + 1) by omega]; exact hs (j + 1) w (by simpa using hj))
    refine ⟨s2, ?_, ?_, ?_, by omega⟩
    · simp only [saveStack, St.getStack]
      rw [if_pos ⟨by omega, by rw [hx.stackSize]; omega⟩]
      simp only [ok_bind, vectorSet, St.rd_ok hxv, hc.1, hc.2.1, hc.2.2, assert_true]
      rw [assert_true (show (i : Int) < L by omega)]
      simp only [ok_bind, h1]
      exact g1
    · exact (h2.mono (fun a _ e => by unfold Range; omega)).trans (g2.mono (fun a _ e => by unfold Range at *; omega))
    · intro j w hj
      cases j with
      | zero =>
        have := g2.same (x + 1 + (i + 0 : Nat)) (h2.valid (by simpa using hp)).2 (by unfold Range; omega)
        rw [this]
        simp at hj; subst hj; simpa using h3
      | succ j => have := g3 j w (by simpa using hj); rwa [show (i + 1 + j : Nat) = i + (j + 1) by omega] at this

/-- The vector with the contents of the stack. -/
theorem stackVector_ok {vs : List Val} (hr : Room s (3 * vs.length + 1)) (hs : StackIs s vs)
    (hu : ValAt s c_unspecified (.obj c_unspecified)) :
    ∃ v s', stackVector s = ok (v, s') ∧ Ext s s' ∧ IsArr .vector s' v vs ∧ s.free ≤ v ∧ s'.free ≤ s.free + (3 * vs.length + 1) := by
  obtain ⟨x, s1, h1, h2, h3, h4, h5, h6⟩ := makeVector_ok (k := vs.length) (hr.mono (by omega)) hu
  have hlen := h2.length
  simp only [List.length_replicate] at hlen
  have hval : ∀ j : Nat, j < vs.length → s1.Valid (x + 1 + (j : Nat)) := fun j hj => by
    have := (h2.entry j (.obj c_unspecified) (by simp [hj])).valid
    rwa [h5] at this
  have hsz := hs.size
  have hb := hs.base
  obtain ⟨s2, g1, g2, g3, g4⟩ := saveStack_ok (s0 := s) (s := s1) (n := vs.length) (i := 0) (L := vs.length) (x := x) (base := s.sp) (vs := vs)
    (hr.step h3 (by omega)) h3 h2.valid ⟨h2.tag, hlen, h5⟩ (by omega) h4 (fun j hj => by simpa using hval j hj) rfl
    (fun j v hj => by simpa using hs.entry j v hj) ⟨hb, by omega⟩
  have hx : Ext s s2 := h3.trans' g2 (fun a ha e => by unfold Range at e; omega)
  have hc : s2.cell x = s1.cell x := g2.same x h2.valid.2 (by unfold Range; omega)
  refine ⟨x, s2, ?_, hx, ⟨g2.valid h2.valid, by rw [hc]; exact h2.tag, by rw [hc]; exact hlen, fun i v hi => ?_⟩, h4, by omega⟩
  · simp only [stackVector]
    rw [hsz, h1]
    simp only [ok_bind]
    rw [h3.stackSize, h3.sp, hsz]
    rw [show ((vs.length : Int)).toNat = vs.length from rfl, show (0 : Int) = ((0 : Nat) : Int) from rfl, g1]
    rfl
  · rw [hc, h5]
    have hi' : i < vs.length := by
      rcases Nat.lt_or_ge i vs.length with h | h
      · exact h
      · rw [List.getElem?_eq_none h] at hi; cases hi
    refine entryAt_iff.2 ⟨g2.valid (hval i hi'), by simpa using g3 i v hi, ?_⟩
    exact (hs.entry i v hi).live.keep hx.keeps_ext

theorem Spec.Later'.refl (s : St) : Later' s s := ⟨Int.le_refl _, fun _ _ => rfl, rfl, rfl⟩
theorem Spec.Later'.trans {s s' s'' : St} (h : Later' s s') (h' : Later' s' s'') : Later' s s'' :=
  ⟨Int.le_trans h.le h'.le, fun a ha => by rw [h'.same a (Int.lt_of_lt_of_le ha h.le), h.same a ha], h'.arena.trans h.arena,
    h'.stackSize.trans h.stackSize⟩
theorem Spec.Frame.later' (h : Ext s s') : Later' s s' := ⟨h.le, fun a ha => h.same a ha id, h.arena, h.stackSize⟩
theorem Spec.Later'.valid (h : Later' s s') {a : Int} (hv : s.Valid a) : s'.Valid a := ⟨hv.1, Int.lt_of_lt_of_le hv.2 h.le⟩
theorem Spec.Later'.keeps (h : Later' s s') : Keeps s s' := fun a hv hs => ⟨h.valid hv, by rw [h.same a hv.2]; exact hs⟩
theorem Spec.ValAt.later' {p : Int} {v : Val} (h : ValAt s p v) (hl : Later' s s') : ValAt s' p v :=
  h.keep hl.valid (fun _ => hl.same _ h.valid.2) hl.keeps
theorem Spec.IsArr.later' {tg : Tag} {x : Int} {vs : List Val} (h : IsArr tg s x vs) (hl : Later' s s') : IsArr tg s' x vs :=
  h.keep (hl.same x h.valid.2) (fun _ => hl.valid) (fun i hi => hl.same _ ((h.entry i vs[i] (by simp [hi])).valid).2) hl.keeps
theorem Spec.IsCont.later' {k : Int} {vs : List Val} (h : IsCont s k vs) (hl : Later' s s') : IsCont s' k vs := by
  have e := hl.same k h.valid.2
  exact ⟨hl.valid h.valid, by rw [e]; exact h.tag, by rw [e]; exact h.vec.later' hl⟩
theorem Spec.Room.later' {k l : Int} (h : Room s k) (hl : Later' s s') (he : s'.free + l ≤ s.free + k) : Room s' l :=
  ⟨Int.le_trans h.base hl.le, by have := h.room; rw [hl.arena]; omega⟩

/-- Restoring the stack from a vector. -/
theorem restoreStack_ok {n i : Nat} {v base : Int} {vs : List Val} (hr : Room s n) (h : IsArr .vector s v vs) (hn : i + n = vs.length)
    (hb : 0 ≤ base ∧ base + vs.length ≤ s.stackSize) :
    ∃ s', restoreStack n s v i base = ok s' ∧ Later' s s' ∧ s'.free ≤ s.free + n ∧ s'.r1 = s.r1 ∧
      (∀ (j : Nat) w, i ≤ j → vs[j]? = some w → ValAt s' (s'.stack (base + j)) w) ∧ ∀ j : Int, j < base + i → s'.stack j = s.stack j := by
  induction n generalizing s i with
  | zero =>
    refine ⟨s, rfl, .refl s, by omega, rfl, fun j w hij hj => ?_, fun _ _ => rfl⟩
    rw [List.getElem?_eq_none (by omega)] at hj; cases hj
  | succ n ih =>
    obtain ⟨w, hw⟩ : ∃ w, vs[i]? = some w := ⟨vs[i], by simp⟩
    obtain ⟨r, s1, h1, h2, h3, h4⟩ := Props.vectorRef_val (hr.mono (by omega)) h hw
    have hf : s1.free ≤ s.free + 1 := by
      obtain ⟨r', s1', g1, -, -, g4, -⟩ := fetch_ok (hr.mono (by omega)) (h.entry i w hw)
      simp only [vectorRef, St.rd_ok h.valid, ok_bind, assert_true h.tag, h.length,
        assert_true (show (i : Int) < vs.length by omega), g1] at h1
      cases h1; exact g4
    let s2 : St := { s1 with stack := fun j => if j = base + i then r else s1.stack j }
    have l2 : Later' s s2 := h3.later'.trans ⟨Int.le_refl _, fun _ _ => rfl, rfl, rfl⟩
    obtain ⟨s3, g1, g2, g3, g4, g5, g6⟩ := ih (s := s2) (i := i + 1) (hr.later' l2 (by show s1.free + _ ≤ _; omega)) (h.later' l2) (by omega)
      ⟨hb.1, by rw [l2.stackSize]; exact hb.2⟩
    refine ⟨s3, ?_, l2.trans g2, by have : s2.free = s1.free := rfl; omega, by rw [g4]; exact h3.r1, fun j u hij hj => ?_, fun j hj => ?_⟩
    · simp only [restoreStack, h1, ok_bind, St.setStack]
      rw [if_pos ⟨by omega, by rw [h3.stackSize]; omega⟩]
      exact g1
    · rcases Nat.lt_or_ge i j with hlt | hge
      · exact g5 j u hlt hj
      · have : j = i := by omega
        subst this
        rw [hw] at hj; cases hj
        rw [g6 _ (by omega)]
        show ValAt s3 (if base + (j : Int) = base + j then r else _) w
        rw [if_pos rfl]
        exact ValAt.later' (s := s2) (h2.later' ⟨Int.le_refl _, fun _ _ => rfl, rfl, rfl⟩) g2
    · rw [g6 j (by omega)]
      show (if j = base + i then r else s1.stack j) = _
      rw [if_neg (by omega), h3.stack]

/-- The state after `gc_push_frame`. -/
def St.saved (s : St) : St :=
  { s with
    stack := fun j => if j = s.sp - 5 then s.r3 else if j = s.sp - 4 then s.r2 else if j = s.sp - 3 then s.r1
      else if j = s.sp - 2 then s.r0 else if j = s.sp - 1 then c_f else s.stack j
    sp := s.sp - 5 }

theorem gcPushFrame_ok (h1 : 5 ≤ s.sp) (h2 : s.sp ≤ s.stackSize) : gcPushFrame s = ok s.saved := by
  simp only [gcPushFrame, gcFrameSize]
  rw [assert_true (by simpa using h1)]
  simp only [St.setStack, ok_bind]
  rw [if_pos (by omega)]
  simp only [ok_bind]
  rw [if_pos (by omega)]
  simp only [ok_bind]
  rw [if_pos (by omega)]
  simp only [ok_bind]
  rw [if_pos (by omega)]
  simp only [ok_bind]
  rw [if_pos (by omega)]
  rfl

theorem saved_later (s : St) : Later' s s.saved := ⟨Int.le_refl _, fun _ _ => rfl, rfl, rfl⟩

theorem Spec.StackIs.later' {vs : List Val} (h : StackIs s vs) (hl : Later' s s') (h1 : s'.sp = s.sp) (h2 : s'.stack = s.stack) : StackIs s' vs :=
  ⟨by rw [h1]; exact h.base, by rw [hl.stackSize, h1]; exact h.size, fun i v hi => by rw [h1, h2]; exact (h.entry i v hi).later' hl⟩

theorem saved_stack {v0 v1 v2 v3 : Val} {vs : List Val} (hs : HasControl s v0 v2 v3 vs) (h1 : ValAt s s.r1 v1) (hf : ValAt s c_f (.obj c_f))
    (hsp : 5 ≤ s.sp) : StackIs s.saved ([v3, v2, v1, v0, .obj c_f] ++ vs) := by
  have hb := hs.stack.base
  have hsz := hs.stack.size
  have hl := saved_later s
  refine ⟨by show 0 ≤ s.sp - 5; omega, by show s.stackSize - (s.sp - 5) = _; simp; omega, fun i v hi => ?_⟩
  rw [show s.saved.sp = s.sp - 5 from rfl]
  match i with
  | 0 => cases hi; simpa [St.saved] using hs.r3.later' hl
  | 1 => cases hi
         have : s.saved.stack (s.sp - 5 + (1 : Nat)) = s.r2 := by
           show (if _ then _ else _) = _
           rw [if_neg (by omega), if_pos (by omega)]
         rw [this]; exact hs.r2.later' hl
  | 2 => cases hi
         have : s.saved.stack (s.sp - 5 + (2 : Nat)) = s.r1 := by
           show (if _ then _ else _) = _
           rw [if_neg (by omega), if_neg (by omega), if_pos (by omega)]
         rw [this]; exact h1.later' hl
  | 3 => cases hi
         have : s.saved.stack (s.sp - 5 + (3 : Nat)) = s.r0 := by
           show (if _ then _ else _) = _
           rw [if_neg (by omega), if_neg (by omega), if_neg (by omega), if_pos (by omega)]
         rw [this]; exact hs.r0.later' hl
  | 4 => cases hi
         have : s.saved.stack (s.sp - 5 + (4 : Nat)) = c_f := by
           show (if _ then _ else _) = _
           rw [if_neg (by omega), if_neg (by omega), if_neg (by omega), if_neg (by omega), if_pos (by omega)]
         rw [this]; exact hf.later' hl
  | i + 5 =>
    have : s.saved.stack (s.sp - 5 + (i + 5 : Nat)) = s.stack (s.sp + i) := by
      show (if _ then _ else _) = _
      rw [if_neg (by omega), if_neg (by omega), if_neg (by omega), if_neg (by omega), if_neg (by omega)]
      congr 1; omega
    rw [this]; exact (hs.stack.entry i v (by simpa using hi)).later' hl

/-- Popping a frame. -/
theorem popped_control {v0 v1 v2 v3 vp : Val} {vs : List Val} (h : StackIs s ([v3, v2, v1, v0, vp] ++ vs)) (r : Int) :
    HasControl { s.popped with r1 := r } v0 v2 v3 vs := by
  have hl : Later' s { s.popped with r1 := r } := ⟨Int.le_refl _, fun _ _ => rfl, rfl, rfl⟩
  have hsz := h.size
  simp only [List.length_append, List.length_cons, List.length_nil] at hsz
  refine ⟨?_, ?_, ?_, by show 0 ≤ s.sp + 5; have := h.base; omega, by show s.stackSize - (s.sp + 5) = _; omega, fun i v hi => ?_⟩
  · exact (h.entry 3 v0 rfl).later' hl
  · exact (h.entry 1 v2 rfl).later' hl
  · have := (h.entry 0 v3 rfl).later' hl
    rw [show s.sp + ((0 : Nat) : Int) = s.sp by omega] at this
    exact this
  · have := (h.entry (i + 5) v (by simpa using hi)).later' hl
    rw [show s.sp + (i + 5 : Nat) = s.sp + 5 + i by omega] at this
    exact this

theorem Spec.StackIs.pop {v0 v1 v2 v3 vp : Val} {vs : List Val} (h : StackIs s ([v3, v2, v1, v0, vp] ++ vs)) : gcPopFrame s = ok s.popped := by
  have hsz := h.size
  simp only [List.length_append, List.length_cons, List.length_nil] at hsz
  exact gcPopFrame_ok h.base (by omega)

theorem pushed_0 (s : St) (p1 p2 a c : Int) : (s.pushed p1 p2 a c).stack (s.sp - 5) = c := if_pos rfl
theorem pushed_1 (s : St) (p1 p2 a c : Int) : (s.pushed p1 p2 a c).stack (s.sp - 5 + 1) = p2 := by
  show (if _ then _ else _) = _
  rw [if_neg (by omega), if_pos (by omega)]
theorem pushed_3 (s : St) (p1 p2 a c : Int) : (s.pushed p1 p2 a c).stack (s.sp - 5 + 3) = s.r0 := by
  show (if _ then _ else _) = _
  rw [if_neg (by omega), if_neg (by omega), if_neg (by omega), if_pos (by omega)]
theorem pushed_ge (s : St) (p1 p2 a c : Int) {i : Int} (hi : s.sp ≤ i) : (s.pushed p1 p2 a c).stack i = s.stack i := by
  show (if _ then _ else _) = _
  rw [if_neg (by omega), if_neg (by omega), if_neg (by omega), if_neg (by omega), if_neg (by omega)]

/-- Storing the vector in the continuation. -/
theorem setCont {k vec : Int} {vs : List Val} (hk : s.Valid k) (ht : (s.cell k).tag = .continuation) (h : IsArr .vector s vec vs) :
    IsCont (s.upd k { s.cell k with cdr := vec }) k vs := by
  have e : (s.upd k { s.cell k with cdr := vec }).cell k = { s.cell k with cdr := vec } := St.upd_cell_same ..
  have so : Solid (s.cell k).tag := by rw [ht]; decide
  refine ⟨hk, by rw [e]; exact ht, ?_⟩
  rw [e]
  refine h.keep (St.upd_cell_ne _ fun he => ?_) (fun _ h => h) (fun i hi => St.upd_cell_ne _ fun he => ?_)
    (.of_frame (upd_frame ..) fun a _ ha hs => ?_)
  · have := h.tag; rw [he, ht] at this; cases this
  · exact (h.entry i vs[i] (by simp [hi])).not_solid (he ▸ so)
  · subst ha; rw [e]; exact hs

end Mes
