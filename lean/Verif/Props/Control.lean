import Verif.Props.Apply
import Verif.Proof.Control
/-
Properties C32, C38: continuations (/repo/src/eval-apply.c:466-481, 946-962) and the evaluation stack (/repo/src/gc.c:694-722).

Values on the stack are compared as a program can tell them (`Val`): a continuation holds its stack in a vector, which copies numbers and
characters.
-/
namespace Mes.Props
open Res Spec

variable {K : Calls} {fuel : Nat} {x : Int} {gp mp : Option Bool} {s t : St} {k w : Int} {v0 v1 v2 v3 vp : Val} {vs : List Val}

/-! ### C32 -/

/-- C32: a continuation that is applied, during or after the call of call/cc, goes on as the return from call/cc does. -/
def C32_full : Prop :=
  ∀ fuel n s x gp mp V₁ V₂ V₃ s', step builtins fuel ⟨.callCc, s, x, gp, mp⟩ = ok V₁ → run builtins fuel n V₁ = ok V₂ → V₂.pc = .apply →
    (V₂.s.cell V₂.s.r1).car = V₁.s.r2 → step builtins fuel V₂ = ok V₃ → vmReturn s = ok s' →
    V₃.pc = .dispatch ∧ V₃.s.sp = s'.sp ∧ V₃.s.r1 = (V₂.s.cell (V₂.s.cell V₂.s.r1).cdr).car ∧
      ∀ r0 r2 r3 vs, HasControl s' r0 r2 r3 vs → HasControl V₃.s r0 r2 r3 vs

/-- `(call-with-current-continuation (lambda (n) (n 5)))` -/
def ccCode : List Cell :=
  [pair c_symbol_call_with_current_continuation 199, pair 200 c_nil, pair c_symbol_lambda 201, pair 202 203, pair y_n c_nil, pair 204 c_nil,
   pair y_n 205, pair 206 c_nil, num 5]

/-- The result is there and passes the test. -/
def okAnd {α : Type} (r : Res α) (p : α → Bool) : Bool := match r with
  | .ok a => p a
  | _ => false

theorem okAnd_true {α : Type} {r : Res α} {p : α → Bool} (h : okAnd r p = true) : ∃ a, r = ok a ∧ p a = true := by
  cases r with
  | ok a => exact ⟨a, rfl, h⟩
  | _ => cases h

theorem cc_run : okAnd (run builtins 100 19 (entry (prog ccCode 198))) (fun V₀ => decide (V₀.pc = .callCc) &&
    okAnd (step builtins 100 V₀) (fun V₁ => okAnd (run builtins 100 27 V₁) fun V₂ =>
      decide (V₂.pc = .apply ∧ (V₂.s.cell V₂.s.r1).car = V₁.s.r2) && okAnd (step builtins 100 V₂) fun V₃ =>
        okAnd (vmReturn V₀.s) fun s' => decide (V₃.s.sp ≠ s'.sp ∧ V₃.s.r3 = c_vm_eval2 ∧ (V₃.s.cell V₃.s.r1).cdr = 5))) = true := by
  decide +kernel

/-- C32 does not hold during the call: the frame that call/cc pushes (/repo/src/eval-apply.c:947) is part of the continuation, and it is
the one that is popped.  The machine goes on after the operands of the call of call/cc, with the value in place of the operands. -/
theorem C32_false : ¬ C32_full := by
  intro full
  obtain ⟨V₀, -, h⟩ := okAnd_true cc_run
  simp only [Bool.and_eq_true, decide_eq_true_eq] at h
  obtain ⟨e0, h⟩ := h
  obtain ⟨V₁, h1, h⟩ := okAnd_true h
  obtain ⟨V₂, h2, h⟩ := okAnd_true h
  simp only [Bool.and_eq_true, decide_eq_true_eq] at h
  obtain ⟨⟨e1, e2⟩, h⟩ := h
  obtain ⟨V₃, h3, h⟩ := okAnd_true h
  obtain ⟨s', h4, hne⟩ := okAnd_true h
  have hne := of_decide_eq_true hne
  obtain ⟨pc, s, x, gp, mp⟩ := V₀
  simp only at e0 h4
  subst e0
  exact hne.1 (full _ _ _ _ _ _ _ _ _ _ h1 h2 e1 e2 h3 h4).2.1

/-- What call/cc does: the procedure is called with the continuation `k`, which holds the stack with one more frame, of the registers at
the call. -/
theorem C32_capture (hr : Room s (3 * (vs.length + 5) + 4)) (hu : ValAt s c_unspecified (.obj c_unspecified)) (hf : ValAt s c_f (.obj c_f))
    (hs : HasControl s v0 v2 v3 vs) (h1 : ValAt s s.r1 v1) (hsp : 5 ≤ s.sp) :
    ∃ s', step K fuel ⟨.callCc, s, x, gp, mp⟩ = ok ⟨.apply, s', x, gp, mp⟩ ∧ Later' s s' ∧ IsCont s' s.free ([v3, v2, v1, v0, .obj c_f] ++ vs) ∧
      (s'.cell s'.r1).tag = .pair ∧ (s'.cell s'.r1).car = (s.cell s.r1).car ∧
      s'.cell (s'.cell s'.r1).cdr = { tag := .pair, car := s.free, cdr := c_nil } ∧
      s'.r2 = s.free ∧ s'.r0 = s.r0 ∧ s'.sp = s.sp - 5 ∧ s'.stack s'.sp = c_vm_call_with_current_continuation2 ∧
      s'.stack (s'.sp + 1) = s.free ∧ s'.stack (s'.sp + 3) = s.r0 ∧ ∀ i, s.sp ≤ i → s'.stack i = s.stack i := by
  have hb := hs.stack.base
  have hsz := hs.stack.size
  let c : Cell := { tag := .continuation, car := s.continuations, cdr := s.sp - 5 }
  let s1 : St := { s.saved.push c with continuations := s.continuations + 1 }
  have hr0 : Room s.saved (3 * (vs.length + 5) + 4) := ⟨hr.base, hr.room⟩
  have l1 : Later' s.saved s1 := (push_ext s.saved c).later'.trans ⟨Int.le_refl _, fun _ _ => rfl, rfl, rfl⟩
  have hl := (saved_later s).trans l1
  have hf1 : s1.free = s.free + 1 := rfl
  obtain ⟨vec, s2, g1, g2, g3, g4, g5⟩ := stackVector_ok (s := s1) (vs := [v3, v2, v1, v0, .obj c_f] ++ vs)
    (hr.later' hl (by rw [hf1]; simp; omega)) ((saved_stack hs h1 hf hsp).later' l1 rfl rfl) (hu.later' hl)
  have hkv : s2.Valid s.free := g2.valid ⟨by have := hr.base; simp only [c_symbol_max] at this; omega, by rw [hf1]; omega⟩
  have hkc : s2.cell s.free = c := by rw [g2.same s.free (by rw [hf1]; omega) id]; exact St.push_cell_free (s := s.saved) c
  have k3 := setCont hkv (by rw [hkc]) g3
  generalize e3 : s2.upd s.free { s2.cell s.free with cdr := vec } = s3 at k3
  have f3 : s3.free = s2.free := by rw [← e3]; rfl
  have l3 : Later' s s3 := by
    refine ⟨by rw [f3]; exact Int.le_trans hl.le g2.le, fun a ha => ?_, ?_, ?_⟩
    · rw [← e3, St.upd_cell_ne _ (by omega), g2.same a (by rw [hf1]; omega) id, hl.same a ha]
    · rw [← e3]; exact g2.arena.trans hl.arena
    · rw [← e3]; exact g2.stackSize.trans hl.stackSize
  have p2 : s3.sp = s.sp - 5 := by rw [← e3]; exact g2.sp
  have t2 : s3.stack = s.saved.stack := by rw [← e3]; exact g2.stack
  have pop : gcPopFrame s3 = ok s3.popped := gcPopFrame_ok (by rw [p2]; omega) (by rw [p2, l3.stackSize]; omega)
  have r0 : s3.popped.r0 = s.r0 := by
    show s3.stack (s3.sp + 3) = _
    rw [t2, p2]; show (if _ then _ else _) = _
    rw [if_neg (by omega), if_neg (by omega), if_neg (by omega), if_pos (by omega)]
  have r1 : s3.popped.r1 = s.r1 := by
    show s3.stack (s3.sp + 2) = _
    rw [t2, p2]; show (if _ then _ else _) = _
    rw [if_neg (by omega), if_neg (by omega), if_pos (by omega)]
  have lp : Later' s3 s3.popped := ⟨Int.le_refl _, fun _ _ => rfl, rfl, rfl⟩
  generalize e4 : s3.popped = s4 at pop r0 r1 lp
  have sp4 : s4.sp = s.sp := by rw [← e4]; show s3.sp + 5 = _; omega
  have t4 : s4.stack = s.saved.stack := by rw [← e4]; exact t2
  have f4 : s4.free = s2.free := by rw [← e4]; exact f3
  have l4 := l3.trans lp
  simp only [List.length_append, List.length_cons, List.length_nil] at g5
  have hr4 : Room s4 2 := hr.later' l4 (by rw [f4]; omega)
  let s5 := s4.push { tag := .pair, car := s.free, cdr := c_nil }
  let s6 := s5.push { tag := .pair, car := (s.cell s.r1).car, cdr := s4.free }
  have l6 : Later' s4 s6 := (push_ext s4 _).later'.trans (push_ext s5 _).later'
  have hcar : s4.cell s.r1 = s.cell s.r1 := l4.same _ h1.valid.2
  refine ⟨s6.pushed s5.free s.free s.r0 c_vm_call_with_current_continuation2, ?_, ?_, ?_, ?_, ?_, ?_, rfl, rfl, ?_, ?_, ?_, ?_, fun i hi => ?_⟩
  · simp only [step, gcPushFrame_ok hsp (show s.sp ≤ s.stackSize by omega), ok_bind, makeContinuation]
    have mk : makeCell s.saved .continuation s.saved.continuations s.saved.sp = ok (s.free, s.saved.push c) :=
      makeCell_ok (hr0.mono (by omega)) ..
    simp only [mk, ok_bind]
    have sv : stackVector { s.saved.push c with continuations := (s.saved.push c).continuations + 1 } = ok (vec, s2) := g1
    simp only [sv, ok_bind, St.setCdr, St.rd_ok hkv, St.put_ok _ hkv, e3, pop]
    simp only [r1, St.car_ok (l4.valid h1.valid), hcar, ok_bind, cons_ok (hr4.mono (l := 1) (by omega))]
    have hr5 : Room s5 1 := hr4.push _
    have c5 : cons (s4.push { tag := .pair, car := s.free, cdr := c_nil }) (s.cell s.r1).car s4.free = ok (s5.free, s6) := cons_ok hr5 ..
    have pc : pushCc s6 s5.free s.free s6.r0 c_vm_call_with_current_continuation2 =
        ok (s6.pushed s5.free s.free s6.r0 c_vm_call_with_current_continuation2) :=
      pushCc_ok (by show 5 ≤ s4.sp; omega) (by show s4.sp ≤ s4.stackSize; rw [l4.stackSize]; omega)
    have e0 : s6.r0 = s.r0 := r0
    rw [e0] at pc
    simp only [c5, ok_bind, e0, pc]
  · exact (l4.trans l6).trans ⟨Int.le_refl _, fun _ _ => rfl, rfl, rfl⟩
  · exact (k3.later' lp).later' (l6.trans ⟨Int.le_refl _, fun _ _ => rfl, rfl, rfl⟩)
  · show (s6.cell s5.free).tag = _
    rw [show s6.cell s5.free = _ from St.push_cell_free ..]
  · show (s6.cell s5.free).car = _
    rw [show s6.cell s5.free = _ from St.push_cell_free ..]
  · show s6.cell (s6.cell s5.free).cdr = _
    rw [show s6.cell s5.free = _ from St.push_cell_free ..]
    show s6.cell s4.free = _
    rw [St.push_cell_lt _ (show s4.free < s5.free by show s4.free < s4.free + 1; omega)]
    exact St.push_cell_free ..
  · show s4.sp - 5 = _; omega
  · exact pushed_0 ..
  · exact pushed_1 ..
  · exact (pushed_3 ..).trans r0
  · refine (pushed_ge s6 _ _ _ _ (by show s4.sp ≤ i; omega)).trans ?_
    show s4.stack i = _
    rw [t4]; show (if _ then _ else _) = _
    rw [if_neg (by omega), if_neg (by omega), if_neg (by omega), if_neg (by omega), if_neg (by omega)]

/-- What happens when the procedure returns: the continuation gets the stack as it is now, and call/cc returns. -/
theorem C32_return (hr : Room s (3 * (vs.length + 5) + 1)) (hu : ValAt s c_unspecified (.obj c_unspecified))
    (hs : StackIs s ([v3, v2, v1, v0, vp] ++ vs)) (hk : s.Valid s.r2) (ht : (s.cell s.r2).tag = .continuation) :
    ∃ s', run K fuel 2 ⟨.callCc2, s, x, gp, mp⟩ = ok ⟨.dispatch, s', x, gp, mp⟩ ∧ IsCont s' s.r2 ([v3, v2, v1, v0, vp] ++ vs) ∧
      HasControl s' v0 v2 v3 vs ∧ s'.r1 = s.r1 ∧ s'.sp = s.sp + 5 := by
  obtain ⟨vec, s2, g1, g2, g3, g4, g5⟩ := stackVector_ok (hr.mono (by simp; omega)) hs hu
  have hkv := g2.valid hk
  have hkc := g2.same _ hk.2 id
  have k3 := setCont hkv (by rw [hkc]; exact ht) g3
  generalize e3 : s2.upd s.r2 { s2.cell s.r2 with cdr := vec } = s3 at k3
  have hkeep : Keeps s s3 := by
    intro a ha hso
    have := g2.keeps_ext a ha hso
    refine ⟨by rw [← e3]; exact this.1, ?_⟩
    rw [← e3]
    by_cases h : a = s.r2
    · subst h; rw [St.upd_cell_same]; exact this.2
    · rw [St.upd_cell_ne _ h]; exact this.2
  have hst : StackIs s3 ([v3, v2, v1, v0, vp] ++ vs) := by
    have e1 : s3.sp = s.sp := by rw [← e3]; exact g2.sp
    have e2 : s3.stack = s.stack := by rw [← e3]; exact g2.stack
    have e4 : s3.stackSize = s.stackSize := by rw [← e3]; exact g2.stackSize
    refine ⟨by rw [e1]; exact hs.base, by rw [e1, e4]; exact hs.size, fun i v hi => ?_⟩
    rw [e1, e2]
    refine (hs.entry i v hi).keep (fun h => by rw [← e3]; exact g2.valid h) (fun hns => ?_) hkeep
    rw [← e3, St.upd_cell_ne, g2.same _ (hs.entry i v hi).valid.2 id]
    intro he
    exact hns (by rw [he, ht]; decide)
  have hp : s3.sp = s.sp := by rw [← e3]; exact g2.sp
  have h1 : s3.r1 = s.r1 := by rw [← e3]; exact g2.r1
  have h2 : s2.r2 = s.r2 := g2.r2
  refine ⟨{ s3.popped with r1 := s.r1 }, ?_, k3.later' ⟨Int.le_refl _, fun _ _ => rfl, rfl, rfl⟩, popped_control hst _, rfl, by show s3.sp + 5 = _; omega⟩
  simp only [run, step, g1, ok_bind, St.setCdr, h2, St.rd_ok hkv, St.put_ok _ hkv, e3, vmReturn, hst.pop, h1]

/-- What the application of a continuation does. -/
theorem C32_apply (hc : IsCont t k ([v3, v2, v1, v0, vp] ++ vs)) (hr : Room t (vs.length + 5)) (hl : vs.length + 5 ≤ t.stackSize)
    (hsp : 0 ≤ t.sp + 4 ∧ t.sp + 4 < t.stackSize) (h1 : t.Valid t.r1) (ha : (t.cell t.r1).car = k) (h2 : t.Valid (t.cell t.r1).cdr) :
    ∃ t', step K fuel ⟨.apply, t, x, gp, mp⟩ = ok ⟨.dispatch, t', x, gp, mp⟩ ∧ HasControl t' v0 v2 v3 vs ∧
      t'.r1 = (t.cell (t.cell t.r1).cdr).car ∧ Later' t t' := by
  subst ha
  let t0 : St := { t with stack := fun j => if j = t.sp + 4 then (t.cell t.r1).car else t.stack j }
  have l0 : Later' t t0 := ⟨Int.le_refl _, fun _ _ => rfl, rfl, rfl⟩
  have hn : ([v3, v2, v1, v0, vp] ++ vs).length = vs.length + 5 := by simp
  have hvl := hc.vec.length
  rw [hn] at hvl
  obtain ⟨t1, g1, g2, g3, g4, g5, -⟩ := restoreStack_ok (s := t0) (n := vs.length + 5) (i := 0) (v := (t.cell (t.cell t.r1).car).cdr)
    (base := t.stackSize - (vs.length + 5 : Nat)) ⟨hr.base, hr.room⟩ (hc.vec.later' l0) (by rw [hn]; omega)
    ⟨by omega, by rw [hn]; show _ ≤ t.stackSize; omega⟩
  have hlt := l0.trans g2
  let t2 : St := { t1 with sp := t1.stackSize - (vs.length + 5 : Nat) }
  have l2 : Later' t1 t2 := ⟨Int.le_refl _, fun _ _ => rfl, rfl, rfl⟩
  have hst : StackIs t2 ([v3, v2, v1, v0, vp] ++ vs) := by
    have e := hlt.stackSize
    refine ⟨by show 0 ≤ t1.stackSize - _; omega, ?_, fun i v hi => ?_⟩
    · show t1.stackSize - (t1.stackSize - _) = _
      rw [hn]; omega
    · show ValAt t2 (t1.stack (t1.stackSize - _ + _)) v
      rw [e]; exact (g5 i v (Nat.zero_le _) hi).later' l2
  have h1' : t2.popped.Valid t.r1 := hlt.valid h1
  have e1 : t1.cell t.r1 = t.cell t.r1 := hlt.same _ h1.2
  have e2 : t1.cell (t.cell t.r1).cdr = t.cell (t.cell t.r1).cdr := hlt.same _ h2.2
  refine ⟨{ t2.popped with r1 := (t.cell (t.cell t.r1).cdr).car }, ?_, popped_control hst _, rfl,
    hlt.trans ⟨Int.le_refl _, fun _ _ => rfl, rfl, rfl⟩⟩
  have hcd : t2.popped.cdr t.r1 = ok (t.cell t.r1).cdr := by rw [St.cdr_ok h1']; show ok (t1.cell t.r1).cdr = _; rw [e1]
  have hca : t2.popped.car (t.cell t.r1).cdr = ok (t.cell (t.cell t.r1).cdr).car := by
    rw [St.car_ok (show t2.popped.Valid _ from hlt.valid h2)]; show ok (t1.cell _).car = _; rw [e2]
  have hk : t0.Valid (t.cell t.r1).car := hc.valid
  have hb : builtinP t0 (t.cell t.r1).car = ok (false, t0) := by
    simp only [builtinP, St.rd_ok hk, ok_bind]
    rw [if_neg (by show ¬ (t.cell (t.cell t.r1).car).tag = _; rw [hc.tag]; decide)]
  have ha : applyContinuation t0 (t.cell t.r1).car = ok { t2.popped with r1 := (t.cell (t.cell t.r1).cdr).car } := by
    have hcc : t0.cdr (t.cell t.r1).car = ok (t.cell (t.cell t.r1).car).cdr := St.cdr_ok hk
    have hvv : t0.car (t.cell (t.cell t.r1).car).cdr = ok ((vs.length + 5 : Nat) : Int) := by
      rw [St.car_ok (show t0.Valid _ from hc.vec.valid)]; exact congrArg ok hvl
    simp only [applyContinuation, hcc, hvv, ok_bind]
    rw [if_pos (by omega)]
    have g1' : restoreStack ((vs.length + 5 : Nat) : Int).toNat t0 (t.cell (t.cell t.r1).car).cdr 0 (t0.stackSize - (vs.length + 5 : Nat)) = ok t1 := g1
    have e5 : t1.r1 = t.r1 := g4
    have hp : gcPopFrame t2 = ok t2.popped := hst.pop
    simp only [g1', ok_bind]
    show (gcPopFrame t2 >>= _) = _
    rw [hp]
    simp only [ok_bind]
    rw [e5, hcd]
    simp only [ok_bind]
    rw [hca]
    rfl
  simp only [step, St.rd_ok h1, ok_bind, St.setStack]
  rw [if_pos hsp]
  have htag : (t.cell (t.cell t.r1).car).tag = .continuation := hc.tag
  have hrd : t0.rd (t.cell t.r1).car = ok (t.cell (t.cell t.r1).car) := St.rd_ok hk
  simp only [t0] at hrd hb ha
  simp only [ok_bind, hrd, hb, htag, ha]
  rfl

/-- C32 after the call: when the procedure has returned and call/cc returns with the control state `v0`, `v2`, `v3`, `vs`, then the
application of the continuation to `w`, in every later state `t` in which the continuation is still there, goes on with the same
control state and `w` as the value.  Missing: the application during the call, which is false, and garbage collections between. -/
theorem C32_after_partial (hr : Room s (3 * (vs.length + 5) + 1)) (hu : ValAt s c_unspecified (.obj c_unspecified))
    (hs : StackIs s ([v3, v2, v1, v0, vp] ++ vs)) (hk : s.Valid s.r2) (ht : (s.cell s.r2).tag = .continuation) :
    ∃ s', run K fuel 2 ⟨.callCc2, s, x, gp, mp⟩ = ok ⟨.dispatch, s', x, gp, mp⟩ ∧ HasControl s' v0 v2 v3 vs ∧ s'.r1 = s.r1 ∧
      ∀ t, (∀ us, IsCont s' s.r2 us → IsCont t s.r2 us) → t.stackSize = s.stackSize → Room t (vs.length + 5) → 0 ≤ t.sp + 4 ∧ t.sp + 4 < t.stackSize →
        t.Valid t.r1 → (t.cell t.r1).car = s.r2 → t.Valid (t.cell t.r1).cdr →
        ∀ fuel y gp mp, ∃ t', step K fuel ⟨.apply, t, y, gp, mp⟩ = ok ⟨.dispatch, t', y, gp, mp⟩ ∧ HasControl t' v0 v2 v3 vs ∧
          t'.r1 = (t.cell (t.cell t.r1).cdr).car := by
  obtain ⟨s', h1, h2, h3, h4, -⟩ := C32_return (K := K) (fuel := fuel) (x := x) (gp := gp) (mp := mp) hr hu hs hk ht
  refine ⟨s', h1, h3, h4, fun t c1 c2 c3 c4 c5 c6 c7 fuel y gp mp => ?_⟩
  have hsz := hs.size
  have hb := hs.base
  simp only [List.length_append, List.length_cons, List.length_nil] at hsz
  obtain ⟨t', g1, g2, g3, -⟩ := C32_apply (K := K) (fuel := fuel) (x := y) (gp := gp) (mp := mp) (c1 _ h2) c3 (by omega) c4 c5 c6 c7
  exact ⟨t', g1, g2, g3⟩

/-- During the call: the application of the continuation goes on with the control state in which call/cc was called: the dispatch is on
`R3` of then (`v3`), with the value in place of the operands. -/
theorem C32_during_partial (hr : Room s (3 * (vs.length + 5) + 4)) (hu : ValAt s c_unspecified (.obj c_unspecified)) (hf : ValAt s c_f (.obj c_f))
    (hs : HasControl s v0 v2 v3 vs) (h1 : ValAt s s.r1 v1) (hsp : 5 ≤ s.sp) :
    ∃ s', step K fuel ⟨.callCc, s, x, gp, mp⟩ = ok ⟨.apply, s', x, gp, mp⟩ ∧
      ∀ t, (∀ us, IsCont s' s'.r2 us → IsCont t s'.r2 us) → t.stackSize = s.stackSize → Room t (vs.length + 5) →
        0 ≤ t.sp + 4 ∧ t.sp + 4 < t.stackSize → t.Valid t.r1 → (t.cell t.r1).car = s'.r2 → t.Valid (t.cell t.r1).cdr →
        ∀ fuel y gp mp, ∃ t', step K fuel ⟨.apply, t, y, gp, mp⟩ = ok ⟨.dispatch, t', y, gp, mp⟩ ∧ HasControl t' v0 v2 v3 vs ∧
          t'.r1 = (t.cell (t.cell t.r1).cdr).car := by
  obtain ⟨s', g1, -, g3, -, -, -, g7, -⟩ := C32_capture (K := K) (fuel := fuel) (x := x) (gp := gp) (mp := mp) hr hu hf hs h1 hsp
  refine ⟨s', g1, fun t c1 c2 c3 c4 c5 c6 c7 fuel y gp mp => ?_⟩
  have hsz := hs.stack.size
  rw [g7] at c1 c6
  obtain ⟨t', k1, k2, k3, -⟩ := C32_apply (K := K) (fuel := fuel) (x := y) (gp := gp) (mp := mp) (c1 _ g3) c3 (by omega) c4 c5 c6 c7
  exact ⟨t', k1, k2, k3⟩

/-- The continuation is still there when cells were allocated and registers and the stack changed. -/
theorem C32_later {us : List Val} (h : IsCont s k us) (hl : Later' s t) : IsCont t k us := h.later' hl

/-- The hypotheses hold for the call of call/cc in the expression above, and for the return from it with the value at 206. -/
def ccCall : St := { prog ccCode 198 with r1 := 199, r2 := 198, r3 := c_vm_eval2 }
def ccReturn : St :=
  { prog (ccCode ++ [{ tag := .continuation, car := 0, cdr := c_nil }]) 198 with sp := 990, r1 := 206, r2 := 207, r3 := c_vm_call_with_current_continuation2 }

theorem cc_stack {c : List Cell} {n : Nat} {t : St} (hs : t.stack = (prog c 198).stack) (hz : t.stackSize = 1000) (hp : t.sp = 1000 - n) (hn : n ≤ 1000)
    (hu : ValAt t c_unspecified (.obj c_unspecified)) : StackIs t (List.replicate n (.obj c_unspecified)) := by
  refine ⟨by omega, by rw [hz, hp]; simp; omega, fun i v hi => ?_⟩
  rw [List.getElem?_replicate] at hi
  split at hi
  · cases hi
    rw [hs]; exact hu
  · cases hi

example : Room ccCall (3 * (5 + 5) + 4) ∧ ValAt ccCall c_unspecified (.obj c_unspecified) ∧ ValAt ccCall c_f (.obj c_f) ∧
    HasControl ccCall (.obj 176) (.obj 198) (.obj c_vm_eval2) (List.replicate 5 (.obj c_unspecified)) ∧ ValAt ccCall ccCall.r1 (.obj 199) ∧
    5 ≤ ccCall.sp := by
  have hu : ValAt ccCall c_unspecified (.obj c_unspecified) := ⟨rfl, by decide, by decide⟩
  exact ⟨⟨by decide, by decide⟩, hu, ⟨rfl, by decide, by decide⟩,
    ⟨⟨rfl, by decide, by decide⟩, ⟨rfl, by decide, by decide⟩, ⟨rfl, by decide, by decide⟩, cc_stack (c := ccCode) (n := 5) rfl rfl rfl (by decide) hu⟩,
    ⟨rfl, by decide, by decide⟩, by decide⟩

example : Room ccReturn (3 * (5 + 5) + 1) ∧ ValAt ccReturn c_unspecified (.obj c_unspecified) ∧
    StackIs ccReturn ([.obj c_unspecified, .obj c_unspecified, .obj c_unspecified, .obj c_unspecified, .obj c_unspecified] ++ List.replicate 5 (.obj c_unspecified)) ∧
    ccReturn.Valid ccReturn.r2 ∧ (ccReturn.cell ccReturn.r2).tag = .continuation := by
  have hu : ValAt ccReturn c_unspecified (.obj c_unspecified) := ⟨rfl, by decide, by decide⟩
  exact ⟨⟨by decide, by decide⟩, hu, cc_stack (c := ccCode) (n := 10) rfl rfl rfl (by decide) hu, by decide, rfl⟩

/-! ### C38 -/

/-- C38: a frame is pushed or the program stops with a diagnostic; a frame is popped or this is rejected; and popping a frame that was
just pushed gives the registers back. -/
def C38_full : Prop :=
  ∀ s : St, 0 ≤ s.sp → s.sp ≤ s.stackSize → (s.sp < 5 → gcPushFrame s = abort) ∧
    (5 ≤ s.sp → ∃ s', gcPushFrame s = ok s' ∧ ∃ s'', gcPopFrame s' = ok s'' ∧ { s'' with stack := s.stack } = s ∧ ∀ i, s.sp ≤ i → s''.stack i = s.stack i) ∧
    (s.stackSize < s.sp + 5 → gcPopFrame s = abort ∨ ∃ key, gcPopFrame s = err key)

/-- C38 does not hold: popping the empty stack reads outside of the array (/repo/src/gc.c:707-722). -/
theorem C38_false : ¬ C38_full := by
  intro h
  have := (h { sample [] with sp := 10, stackSize := 10 } (by decide) (by decide)).2.2 (by decide)
  rcases this with h | ⟨key, h⟩ <;> revert h <;> simp [gcPopFrame, gcPeekFrame, St.getStack]

/-- A full stack stops the program. -/
theorem C38_push_full_partial (h : s.sp < 5) : gcPushFrame s = abort ∧ ∀ p1 p2 a c, pushCc s p1 p2 a c = abort := by
  have : ∀ s : St, s.sp < 5 → gcPushFrame s = abort := fun s h => by
    simp only [gcPushFrame, gcFrameSize]
    rw [assert_false (by omega)]
    rfl
  refine ⟨this s h, fun p1 p2 a c => ?_⟩
  simp only [pushCc]
  rw [this { s with r3 := c, r2 := p2 } h]
  rfl

/-- Popping the frame just pushed restores all registers and leaves the rest of the stack alone; nothing else changes. -/
theorem C38_push_pop_partial (h1 : 5 ≤ s.sp) (h2 : s.sp ≤ s.stackSize) :
    ∃ s', gcPushFrame s = ok s' ∧ s'.sp = s.sp - 5 ∧ ∃ s'', gcPopFrame s' = ok s'' ∧ { s'' with stack := s.stack } = s ∧
      ∀ i, s.sp ≤ i → s''.stack i = s.stack i := by
  refine ⟨s.saved, gcPushFrame_ok h1 h2, rfl, s.saved.popped, gcPopFrame_ok (by show 0 ≤ s.sp - 5; omega) (by show s.sp - 5 + 5 ≤ s.stackSize; omega), ?_, ?_⟩
  · have e0 : s.saved.popped.r0 = s.r0 := by
      show (if _ then _ else _) = _
      rw [if_neg (by show s.sp - 5 + 3 ≠ _; omega), if_neg (by show s.sp - 5 + 3 ≠ _; omega), if_neg (by show s.sp - 5 + 3 ≠ _; omega),
        if_pos (by show s.sp - 5 + 3 = _; omega)]
    have e1 : s.saved.popped.r1 = s.r1 := by
      show (if _ then _ else _) = _
      rw [if_neg (by show s.sp - 5 + 2 ≠ _; omega), if_neg (by show s.sp - 5 + 2 ≠ _; omega), if_pos (by show s.sp - 5 + 2 = _; omega)]
    have e2 : s.saved.popped.r2 = s.r2 := by
      show (if _ then _ else _) = _
      rw [if_neg (by show s.sp - 5 + 1 ≠ _; omega), if_pos (by show s.sp - 5 + 1 = _; omega)]
    have e3 : s.saved.popped.r3 = s.r3 := by
      show (if _ then _ else _) = _
      rw [if_pos (by rfl)]
    have e4 : s.saved.popped.sp = s.sp := by show s.sp - 5 + 5 = _; omega
    cases s
    simp only [St.saved, St.popped] at *
    simp only [e0, e1, e2, e3, e4]
  · intro i hi
    show (if _ then _ else _) = _
    rw [if_neg (by omega), if_neg (by omega), if_neg (by omega), if_neg (by omega), if_neg (by omega)]

/-- The same for the frames of the evaluator: returning from one gives the environment, `R2` and the label it was pushed with, and the
value; the rest of the stack is as before. -/
theorem C38_return_partial {p1 p2 a c : Int} (h1 : 5 ≤ s.sp) (h2 : s.sp ≤ s.stackSize) :
    ∃ s', pushCc s p1 p2 a c = ok s' ∧ s'.r1 = p1 ∧ s'.r0 = a ∧ s'.sp = s.sp - 5 ∧
      ∀ t : St, t.sp = s'.sp → t.stackSize = s.stackSize → (∀ i, t.sp ≤ i → i ≠ t.sp + 4 → t.stack i = s'.stack i) →
        ∃ t', vmReturn t = ok t' ∧ t'.r1 = t.r1 ∧ t'.r0 = s.r0 ∧ t'.r2 = p2 ∧ t'.r3 = c ∧ t'.sp = s.sp ∧ ∀ i, s.sp ≤ i → t'.stack i = s.stack i := by
  refine ⟨_, pushCc_ok h1 h2, rfl, rfl, rfl, fun t e1 e2 e3 => ?_⟩
  have e1 : t.sp = s.sp - 5 := e1
  refine ⟨{ t.popped with r1 := t.r1 }, ?_, rfl, ?_, ?_, ?_, ?_, fun i hi => ?_⟩
  · simp only [vmReturn, gcPopFrame_ok (s := t) (by omega) (by omega), ok_bind]
  · show t.stack (t.sp + 3) = _
    rw [e3 _ (by omega) (by omega), e1]; exact pushed_3 ..
  · show t.stack (t.sp + 1) = _
    rw [e3 _ (by omega) (by omega), e1]; exact pushed_1 ..
  · show t.stack t.sp = _
    rw [e3 _ (by omega) (by omega), e1]; exact pushed_0 ..
  · show t.sp + 5 = _; omega
  · show t.stack i = _
    rw [e3 _ (by omega) (by omega)]; exact pushed_ge _ _ _ _ _ hi

example : 5 ≤ (prog ccCode 198).sp ∧ (prog ccCode 198).sp ≤ (prog ccCode 198).stackSize := by decide

end Mes.Props
