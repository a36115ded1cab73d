import Verif.Proof.EvalEnv
import Verif.Spec.Machine
/-
The machine: sequences of steps and the stack of frames.
-/
namespace Mes
open Res Spec

variable {K : Calls} {s s' s'' s1 : St} {W W' W1 : Ghost} {mes : Bool} {σ : Store} {N : Idents} {ρ : Locals} {a : Int}

/-! ### Steps -/

theorem run_add (fuel n m : Nat) (v : Vm) : run K fuel (n + m) v = (do let w ← run K fuel n v; run K fuel m w) := by
  induction n generalizing v with
  | zero => rw [Nat.zero_add]; rfl
  | succ n ih =>
    rw [Nat.add_right_comm]
    simp only [run]
    cases step K fuel v with
    | ok w => exact ih w
    | _ => rfl

theorem Spec.Steps.refl (v : Vm) : Steps K v v := ⟨0, 0, fun _ _ => rfl⟩

theorem Spec.Steps.trans {v v' v'' : Vm} (h : Steps K v v') (h' : Steps K v' v'') : Steps K v v'' := by
  obtain ⟨n, F, h⟩ := h
  obtain ⟨m, F', h'⟩ := h'
  refine ⟨n + m, max F F', fun fuel hf => ?_⟩
  rw [run_add, h fuel (by omega), ok_bind, h' fuel (by omega)]

theorem Spec.Steps.fuel {v v' : Vm} (F : Nat) (h : ∀ fuel, F ≤ fuel → step K fuel v = ok v') : Steps K v v' :=
  ⟨1, F, fun fuel hf => by simp only [run, h fuel hf, ok_bind]⟩

theorem Spec.Steps.one {v v' : Vm} (h : ∀ fuel, step K fuel v = ok v') : Steps K v v' := .fuel 0 fun fuel _ => h fuel

theorem Spec.Steps.dispatch {x : Int} {gp mp : Option Bool} {l : Label} (h : labelOf s.r3 = some l) :
    Steps K ⟨.dispatch, s, x, gp, mp⟩ ⟨l, s, x, gp, mp⟩ := .one fun fuel => by simp only [step, h]

/-! ### Frames -/

/-- The state after `pushCc`. -/
def St.pushed (s : St) (p1 p2 a c : Int) : St :=
  { s with
    stack := fun j => if j = s.sp - 5 then c else if j = s.sp - 4 then p2 else if j = s.sp - 3 then s.r1
      else if j = s.sp - 2 then s.r0 else if j = s.sp - 1 then c_f else s.stack j
    sp := s.sp - 5, r0 := a, r1 := p1, r2 := p2 }

theorem pushCc_ok {p1 p2 a c : Int} (h1 : 5 ≤ s.sp) (h2 : s.sp ≤ s.stackSize) : pushCc s p1 p2 a c = ok (s.pushed p1 p2 a c) := by
  simp only [pushCc, gcPushFrame, gcFrameSize]
  rw [assert_true (by simpa using h1)]
  simp only [St.setStack, ok_bind]
  rw [if_pos (by omega)]
  simp only [ok_bind]
  rw [if_pos (by omega)]
  simp only [ok_bind]
  rw [if_pos (by omega)]
  simp only [ok_bind]
  rw [if_pos (by omega)]
  simp only [ok_bind]
  rw [if_pos (by omega)]
  rfl

/-- The state after `gcPopFrame`. -/
def St.popped (s : St) : St :=
  { s with r0 := s.stack (s.sp + 3), r1 := s.stack (s.sp + 2), r2 := s.stack (s.sp + 1), r3 := s.stack s.sp, sp := s.sp + 5 }

theorem gcPopFrame_ok (h1 : 0 ≤ s.sp) (h2 : s.sp + 5 ≤ s.stackSize) : gcPopFrame s = ok s.popped := by
  simp only [gcPopFrame, gcPeekFrame, St.getStack]
  rw [if_pos (by omega)]
  simp only [ok_bind]
  rw [if_pos (by omega)]
  simp only [ok_bind]
  rw [if_pos (by omega)]
  simp only [ok_bind]
  rw [if_pos (by omega)]
  simp only [ok_bind]
  rw [if_pos (by omega)]
  rfl

theorem Spec.Consts.refl (s : St) : Consts s s := ⟨rfl, rfl, rfl, rfl, rfl⟩
theorem Spec.Consts.trans (h : Consts s s') (h' : Consts s' s'') : Consts s s'' :=
  ⟨h'.m0.trans h.m0, h'.arena.trans h.arena, h'.safety.trans h.safety, h'.size.trans h.size, h'.macros.trans h.macros⟩

theorem Spec.SameStack.refl (s : St) : SameStack s s := ⟨.refl s, rfl, fun _ _ _ => rfl⟩
theorem Spec.SameStack.trans (h : SameStack s s') (h' : SameStack s' s'') : SameStack s s'' :=
  ⟨h.consts.trans h'.consts, h'.sp.trans h.sp, fun i h1 h2 => by
    rw [h'.stack i (by rw [h.sp]; exact h1) (by rw [h.sp]; exact h2), h.stack i h1 h2]⟩

theorem Spec.Frame.consts {P : Int → Prop} (h : Frame P s s') : Consts s s' := by
  have := h.rest
  exact ⟨by rw [← this], by rw [← this], by rw [← this], by rw [← this], by rw [← this]⟩

theorem Spec.Frame.keeps {P : Int → Prop} (h : Frame P s s') : SameStack s s' := by
  refine ⟨h.consts, h.sp, fun i _ _ => by rw [h.stack]⟩

theorem Spec.Frame.r0 {P : Int → Prop} (h : Frame P s s') : s'.r0 = s.r0 := by
  have := h.rest; rw [← this]
theorem Spec.Frame.r1 {P : Int → Prop} (h : Frame P s s') : s'.r1 = s.r1 := by
  have := h.rest; rw [← this]
theorem Spec.Frame.r2 {P : Int → Prop} (h : Frame P s s') : s'.r2 = s.r2 := by
  have := h.rest; rw [← this]
theorem Spec.Frame.r3 {P : Int → Prop} (h : Frame P s s') : s'.r3 = s.r3 := by
  have := h.rest; rw [← this]

theorem Spec.SameStack.popped (h : SameStack s s1) (h' : Popped s1 s') : Popped s s' := by
  have e := h.sp
  refine ⟨h.consts.trans h'.consts, by rw [h'.sp, e], ?_, ?_, ?_, fun i hi => ?_⟩
  · rw [h'.r0, e, h.stack _ (by omega) (by omega)]
  · rw [h'.r2, e, h.stack _ (by omega) (by omega)]
  · rw [h'.r3, e, h.stack _ (by omega) (by omega)]
  · rw [h'.stack i (by omega), h.stack i (by omega) (by omega)]

/-- A frame was pushed, with `p2` and the continuation `c`, and popped. -/
structure Back (s : St) (p2 c : Int) (s' : St) : Prop where
  keeps : SameStack s s'
  r0 : s'.r0 = s.r0
  r2 : s'.r2 = p2
  r3 : s'.r3 = c

theorem Spec.Popped.back {p1 p2 a c : Int} (h : Popped (s.pushed p1 p2 a c) s') : Back s p2 c s' := by
  have esp : (s.pushed p1 p2 a c).sp = s.sp - 5 := rfl
  have est : ∀ j, (s.pushed p1 p2 a c).stack j = if j = s.sp - 5 then c else if j = s.sp - 4 then p2
    else if j = s.sp - 3 then s.r1 else if j = s.sp - 2 then s.r0 else if j = s.sp - 1 then c_f else s.stack j := fun _ => rfl
  refine ⟨⟨⟨h.consts.m0, h.consts.arena, h.consts.safety, h.consts.size, h.consts.macros⟩, by rw [h.sp, esp]; omega, fun i h1 _ => ?_⟩, ?_, ?_, ?_⟩
  · rw [h.stack i (by omega), est, if_neg (by omega), if_neg (by omega), if_neg (by omega), if_neg (by omega), if_neg (by omega)]
  · rw [h.r0, est, esp, if_neg (by omega), if_neg (by omega), if_neg (by omega), if_pos (by omega)]
  · rw [h.r2, est, esp, if_neg (by omega), if_pos (by omega)]
  · rw [h.r3, est, esp, if_pos (by omega)]

theorem Spec.Ready.room {k d : Nat} (h : Ready s k d) : Room s k := ⟨h.base, by
  have := h.slack; have := h.safe; simp only [g_cells]; omega⟩

theorem Spec.Ready.mono {k d k' d' : Nat} (h : Ready s k d) (hk : k' ≤ k) (hd : d' ≤ d) : Ready s k' d' :=
  ⟨h.base, h.safe, by have := h.slack; omega, by have := h.deep; omega, h.top⟩

theorem Spec.Ready.gcCheck {k d : Nat} (h : Ready s k d) (fuel : Nat) : gcCheck s fuel = ok s := by
  have := h.slack; have := h.safe
  simp only [Mes.gcCheck, g_cells]
  rw [if_neg (by omega)]

theorem Spec.Ready.keeps {k d j k' : Nat} (h : Ready s k d) (hk : SameStack s s') (hle : s.free ≤ s'.free) (hj : s'.free ≤ s.free + j)
    (he : j + k' ≤ k) : Ready s' k' d := by
  refine ⟨Int.le_trans h.base hle, by rw [hk.consts.safety]; exact h.safe, ?_, by rw [hk.sp]; exact h.deep,
    by rw [hk.sp, hk.consts.size]; exact h.top⟩
  rw [hk.consts.safety, hk.consts.arena]
  have := h.slack
  omega

theorem Spec.Ready.pushed {k d : Nat} (h : Ready s k (d + 1)) (p1 p2 a c : Int) : Ready (s.pushed p1 p2 a c) k d := by
  have := h.deep; have := h.top
  exact ⟨h.base, h.safe, h.slack, by show 5 * (d : Int) ≤ s.sp - 5; omega, by show s.sp - 5 + 5 ≤ s.stackSize; omega⟩

theorem Spec.Ready.pushCc {k d : Nat} (h : Ready s k (d + 1)) (p1 p2 a c : Int) : pushCc s p1 p2 a c = ok (s.pushed p1 p2 a c) := by
  have := h.deep; have := h.top
  exact pushCc_ok (by omega) (by omega)

theorem Spec.Ready.pop {k d : Nat} (h : Ready s k d) : gcPopFrame s = ok s.popped := by
  have := h.deep
  exact gcPopFrame_ok (by omega) h.top

theorem popped_popped (r : Int) : Popped s { s.popped with r1 := r } :=
  ⟨⟨rfl, rfl, rfl, rfl, rfl⟩, rfl, rfl, rfl, rfl, fun _ _ => rfl⟩

theorem grow_pushed (s : St) (p1 p2 a c : Int) : Grow s (s.pushed p1 p2 a c) := ⟨Int.le_refl _, fun _ _ => rfl⟩

/-- Returning from the machine's procedure. -/
theorem Spec.Steps.ret {k d : Nat} {x : Int} {gp mp : Option Bool} (h : Ready s k d) :
    Steps K ⟨.vmReturn, s, x, gp, mp⟩ ⟨.dispatch, { s.popped with r1 := s.r1 }, x, gp, mp⟩ :=
  .one fun fuel => by simp only [step, vmReturn, h.pop, ok_bind]

theorem Spec.Frame.world (h : Ext s s') (hw : World s W mes σ) : World s' W mes σ := hw.grow h.grow h.consts.m0

theorem Spec.IsVal.tag_ne {a : Int} {v : Value} (h : IsVal s W mes a v) :
    (s.cell a).tag ≠ .values ∧ (s.cell a).tag ≠ .brokenHeart := by
  cases h with
  | int h => rw [h.tag]; decide
  | char h => rw [h.tag]; decide
  | pair h => rw [h.tag]; decide
  | obj _ ht => constructor <;> intro e <;> rw [e] at ht <;> simp at ht
  | prim h => rw [h.tag]; decide
  | clo _ ht => rw [ht]; decide


/-! ### `append2` -/

theorem revOnto_mono {fuel fuel' : Nat} {x r : Int} {a : Int × St} (h : revOnto fuel s x r = ok a) (hf : fuel ≤ fuel') :
    revOnto fuel' s x r = ok a := by
  induction fuel generalizing fuel' s x r with
  | zero => simp [revOnto] at h
  | succ fuel ih =>
    obtain ⟨fuel', rfl⟩ : ∃ f, fuel' = f + 1 := ⟨fuel' - 1, by omega⟩
    rw [revOnto] at h ⊢
    split at h
    · rename_i hx; rw [if_pos hx]; exact h
    · rename_i hx
      rw [if_neg hx]
      cases h1 : s.rd x with
      | ok c =>
        simp only [h1, ok_bind] at h ⊢
        cases h2 : cons s c.car r with
        | ok q =>
          simp only [h2, ok_bind] at h ⊢
          cases h3 : q.2.cdr x with
          | ok d => simp only [h3, ok_bind] at h ⊢; exact ih h (by omega)
          | _ => rw [h3] at h; cases h
        | _ => rw [h2] at h; cases h
      | _ => rw [h1] at h; cases h

theorem reverseXLoop_mono {fuel fuel' : Nat} {x r : Int} {a : Int × St} (h : reverseXLoop fuel s x r = ok a) (hf : fuel ≤ fuel') :
    reverseXLoop fuel' s x r = ok a := by
  induction fuel generalizing fuel' s x r with
  | zero => simp [reverseXLoop] at h
  | succ fuel ih =>
    obtain ⟨fuel', rfl⟩ : ∃ f, fuel' = f + 1 := ⟨fuel' - 1, by omega⟩
    rw [reverseXLoop] at h ⊢
    split at h
    · rename_i hx; rw [if_pos hx]; exact h
    · rename_i hx
      rw [if_neg hx]
      cases h1 : s.cdr x with
      | ok c =>
        simp only [h1, ok_bind] at h ⊢
        cases h2 : s.setCdr x r with
        | ok q => simp only [h2, ok_bind] at h ⊢; exact ih h (by omega)
        | _ => rw [h2] at h; cases h
      | _ => rw [h1] at h; cases h

/-- `append2` copies the first list in front of the second argument. -/
theorem append2_copy {x y : Int} {as : List Int} (hc : Chain s x as c_nil) (hr : Room s as.length) :
    ∃ r s' bs, (∀ fuel, as.length < fuel → append2 s fuel x y = ok (r, s')) ∧ Ext s s' ∧ s'.free = s.free + as.length ∧
      Chain s' r bs y ∧ cars s' bs = cars s as ∧ ∀ b ∈ bs, s.free ≤ b := by
  cases hc with
  | nil => exact ⟨y, s, [], fun _ _ => by simp [append2], Frame.refl .., by simp, .nil _, rfl, by simp⟩
  | @cons _ _ as' hne hv ht hc =>
    obtain ⟨r', s', bs, h1, h2, h3, h4, h5, h6⟩ := revOnto_ok (r := c_nil) (.cons hne hv ht hc) (Nat.lt_succ_self _) hr
    have hlen : bs.length = (x :: as').length := by
      have := congrArg List.length h4; simpa using this
    obtain ⟨r2, s2, g1, g2, g3, g4, g5⟩ := reverseXLoop_ok (r := y) h3 h3.nodup (Nat.lt_succ_self _)
    refine ⟨r2, s2, bs.reverse, fun fuel hf => ?_, h2.trans' g2 (fun a ha hb => ?_), by rw [g5, h6], g3, ?_, ?_⟩
    · have g1' := reverseXLoop_mono g1 (fuel' := fuel) (by rw [hlen]; exact hf)
      cases h3 with
      | nil => simp at hlen
      | cons hne2 hv2 ht2 _ =>
        simp only [append2, if_neg hne, St.rd_ok hv, ok_bind, ht, ne_eq, not_true_eq_false, if_false, revOnto_mono h1 hf, reverseX,
          if_pos hne2, St.rd_ok hv2, ht2, g1']
    · have := h5 a hb; omega
    · have e1 : cars s2 bs.reverse = cars s' bs.reverse := List.map_congr_left fun a _ => (g4 a).1
      have e2 : cars s' bs.reverse = (cars s' bs).reverse := by simp [cars]
      rw [e1, e2, h4, List.reverse_reverse]
    · intro b hb; exact h5 b (by simpa using hb)

/-! ### Procedures -/

/-- The state with the procedure in the topmost frame. -/
def St.proc (s : St) (f : Int) : St := { s with stack := fun j => if j = s.sp + 4 then f else s.stack j }

theorem Spec.Ready.proc {k d : Nat} (h : Ready s k d) (f : Int) : s.setStack (s.sp + 4) f = ok (s.proc f) := by
  have := h.deep; have := h.top
  simp only [St.setStack]
  rw [if_pos (by omega)]
  rfl

theorem builtinP_no {x : Int} (hv : s.Valid x) (ht : (s.cell x).tag ≠ .struct) : builtinP s x = ok (false, s) := by
  simp only [builtinP, St.rd_ok hv, ok_bind, if_neg ht]

theorem Spec.IsBuiltin.isBuiltin {a n id : Int} {M : Int → Prop} (h : IsBuiltin s M a n id)
    (hb : s.Valid c_symbol_builtin ∧ (s.cell c_symbol_builtin).tag = .symbol) : builtinP s a = ok (true, s) := by
  have e : structRef s a 2 = ok (c_symbol_builtin, s) := by
    simp only [structRef, St.rd_ok h.valid, ok_bind, assert_true h.tag, h.length, assert_true (show (2 : Int) < 6 by decide)]
    exact fetch_ref h.kvalid h.ktag h.kind hb.1 (by rw [hb.2]; decide)
  simp only [builtinP, St.rd_ok h.valid, ok_bind, if_pos h.tag, e]
  rfl

theorem Spec.IsBuiltin.arity_ok {a n id : Int} {M : Int → Prop} (h : IsBuiltin s M a n id) (hr : Room s 1) :
    builtinArity s a = ok (s.free, s.push { tag := .number, car := 0, cdr := n }) := by
  simp only [builtinArity, structRef, St.rd_ok h.valid, ok_bind, assert_true h.tag, h.length, assert_true (show (4 : Int) < 6 by decide),
    fetch_num hr h.arity]

theorem Spec.IsBuiltin.function_ok {a n id : Int} {M : Int → Prop} (h : IsBuiltin s M a n id) (hr : Room s 1) :
    builtinFunction s a = ok (id, s.push { tag := .number, car := 0, cdr := id }) := by
  have hv := hr.free_valid { tag := .number, car := 0, cdr := id }
  have hc : (s.push { tag := .number, car := 0, cdr := id }).cell s.free = { tag := .number, car := 0, cdr := id } := by simp
  simp only [builtinFunction, structRef, St.rd_ok h.valid, ok_bind, assert_true h.tag, h.length, assert_true (show (5 : Int) < 6 by decide),
    fetch_num hr h.function, St.cdr_ok hv, hc]

/-- No argument is a multiple value. -/
theorem firstValue_ok {n a : Int} {vs : List Value} (h : IsVals s W mes a vs) : firstValue s n a = ok (a, s) := by
  unfold firstValue
  split
  · rename_i hc
    cases h with
    | nil => exact absurd rfl hc.2
    | cons hp hv _ => simp only [St.rd_ok hp.valid, ok_bind, St.rd_ok hv.valid, if_neg hv.tag_ne.1]
  · rfl

theorem secondValue_ok {n a : Int} {vs : List Value} (h : IsVals s W mes a vs) (hw : World s W mes σ) : secondValue s n a = ok (a, s) := by
  unfold secondValue
  split
  · rename_i hc
    cases h with
    | nil => exact absurd rfl hc.2
    | cons hp hv h =>
      rename_i v vs
      simp only [St.rd_ok hp.valid, ok_bind]
      have hd : s.Valid (s.cell a).cdr ∧ ((s.cell (s.cell a).cdr).tag = .pair → s.Valid (s.cell (s.cell a).cdr).car ∧
          (s.cell (s.cell (s.cell a).cdr).car).tag ≠ .values) := by
        clear hc
        generalize (s.cell a).cdr = q at h ⊢
        cases h with
        | nil => exact ⟨(World.nil hw).1, fun ht => by rw [(World.nil hw).2] at ht; cases ht⟩
        | cons hq hv _ => exact ⟨hq.valid, fun _ => ⟨hv.valid, hv.tag_ne.1⟩⟩
      simp only [St.rd_ok hd.1, ok_bind]
      split
      · rename_i ht
        obtain ⟨h1, h2⟩ := hd.2 ht
        simp only [St.rd_ok h1, ok_bind, if_neg h2]
      · rfl
  · rfl

/-- The arguments in registers. -/
theorem Spec.IsVals.args {a : Int} {vs : List Value} (h : IsVals s W mes a vs) : ∃ us, Args s W mes us vs ∧
    (∀ u0, us = [u0] → s.Valid a ∧ u0 = (s.cell a).car) ∧
    (∀ u0 u1, us = [u0, u1] → s.Valid a ∧ s.Valid (s.cell a).cdr ∧ u0 = (s.cell a).car ∧ u1 = (s.cell (s.cell a).cdr).car) ∧
    (∀ u0 u1 u2, us = [u0, u1, u2] → s.Valid a ∧ s.Valid (s.cell a).cdr ∧ s.Valid (s.cell (s.cell a).cdr).cdr ∧ u0 = (s.cell a).car ∧
      u1 = (s.cell (s.cell a).cdr).car ∧ u2 = (s.cell (s.cell (s.cell a).cdr).cdr).car) := by
  induction h with
  | nil => exact ⟨[], .nil, by simp, by simp, by simp⟩
  | cons hp hv _ ih =>
    obtain ⟨us, h1, h2, h3, h4⟩ := ih
    refine ⟨_ :: us, .cons hv h1, fun u0 e => ?_, fun u0 u1 e => ?_, fun u0 u1 u2 e => ?_⟩
    · injection e with e1 e2; exact ⟨hp.valid, e1.symm⟩
    · injection e with e1 e2
      obtain ⟨i1, i2⟩ := h2 u1 e2
      exact ⟨hp.valid, i1, e1.symm, i2⟩
    · injection e with e1 e2
      obtain ⟨i1, i2, i3, i4⟩ := h3 u1 u2 e2
      exact ⟨hp.valid, i1, i2, e1.symm, i3, i4⟩

theorem vals_length {p : Int} {vs : List Value} (h : IsVals s W mes p vs) :
    ∃ F, ∀ fuel, F ≤ fuel → ∀ n, lengthLoop s fuel n p = ok (n + vs.length) := by
  induction h with
  | nil =>
    refine ⟨1, fun fuel hf n => ?_⟩
    obtain ⟨fuel, rfl⟩ : ∃ f, fuel = f + 1 := ⟨fuel - 1, by omega⟩
    simp [lengthLoop]
  | cons hp _ _ ih =>
    obtain ⟨F, hF⟩ := ih
    refine ⟨F + 1, fun fuel hf n => ?_⟩
    obtain ⟨fuel, rfl⟩ : ∃ f, fuel = f + 1 := ⟨fuel - 1, by omega⟩
    simp only [lengthLoop, if_neg hp.ne, St.rd_ok hp.valid, ok_bind, hp.tag, ne_eq, not_true, if_false]
    rw [hF fuel (by omega)]
    simp only [List.length_cons]; congr 1; omega

end Mes
