import Verif.Spec.Collected
import Verif.Proof.MovesPrim
import Verif.Proof.EvalRun
/-
A call of `eval_apply` in a memory of any size follows the same call in a memory without limits.
-/
namespace Mes.Gc
open Res Spec
variable {M : Mode} {P : Int → Prop} {f : Int → Int} {s s' t t' : St} {K : Calls} {W : Ghost} {mes : Bool} {σ : Store}

/-- The same memory with an arena of size `a` and `D` more words of stack. -/
def unlimited (a D : Int) (s : St) : St :=
  { s with arena := a, safety := 0, sp := s.sp + D, stackSize := s.stackSize + D, stack := fun i => s.stack (i - D) }

theorem unlimited_data {g : Int → Int} (h : Iso g t s) {a D : Int} : Data D (Reach t) g (unlimited a D t) s :=
  ⟨h.cell, h.element, h.inj, h.fixed, h.symbols, h.macros, h.ports, h.m0, h.r0, h.r1, h.r2, h.r3, by show t.sp + D = _; rw [h.sp],
    by show t.stackSize + D = _; rw [h.stackSize], fun i h1 h2 => by
      show s.stack i = g (t.stack (i + D - D))
      rw [Int.add_sub_cancel]
      exact h.stack i (by rw [← h.sp]; exact h1) (by rw [← h.stackSize]; exact h2), h.maxString, h.continuations⟩

theorem unlimited_root {a D : Int} {b : Int} (hb : Root (unlimited a D s) b) : Root s b := by
  cases hb with
  | fixed h h' => exact .fixed h h'
  | @stack i h h' =>
    have h : s.sp + D ≤ i := h
    have h' : i < s.stackSize + D := h'
    exact .stack (s := s) (i := i - D) (by omega) (by omega)
  | symbols => exact .symbols (s := s)
  | macros => exact .macros (s := s)
  | ports => exact .ports (s := s)
  | m0 => exact .m0 (s := s)
  | r0 => exact .r0 (s := s)
  | r1 => exact .r1 (s := s)
  | r2 => exact .r2 (s := s)
  | r3 => exact .r3 (s := s)

theorem rel_unlimited {g : Int → Int} (hi : Iso g t s) (hs : Sound t) (h : Collectable s) {a D : Int} (hD : 0 ≤ D) :
    Rel ⟨False, s.arena, D⟩ (Reach t) g (unlimited a D t) s := by
  have hc := closed_reach t
  have : Img (Reach t) g = Reach s := funext fun y => propext ⟨by rintro ⟨a, ha, rfl⟩; exact hi.reach ha, fun h => by
    obtain ⟨b, hb, rfl⟩ := hi.reach_inv h
    exact ⟨b, hb, rfl⟩⟩
  refine ⟨⟨fun b hb => .root (unlimited_root hb), hc.car, hc.cdr, hc.element⟩, by rw [this]; exact closed_reach s, ?_,
    by rw [this]; exact h.sound, unlimited_data hi, rfl, h.room, h.copy, hD, fun h => h.elim⟩
  exact ⟨hs.base, hs.fixed, hs.inside, hs.disjoint, hs.head, hs.length, hs.plain, hs.bytes, hs.blank, hs.whole,
    by have := hs.sp; exact ⟨by show 0 ≤ t.sp + D; omega, by show t.sp + D ≤ t.stackSize + D; omega⟩⟩

theorem unlimited_grow (a D : Int) (s : St) : Grow s (unlimited a D s) := ⟨Int.le_refl _, fun _ _ => rfl⟩

theorem unlimited_ready {k d : Nat} (h : Sound s) (hf : HasFrame s) : Ready (unlimited (s.free + k) (5 * d) s) k d := by
  have := h.sp
  refine ⟨h.base, Int.le_refl _, by show s.free + k + 0 ≤ s.free + k; omega, ?_, ?_⟩
  · show 5 * (d : Int) ≤ s.sp + 5 * d; omega
  · show s.sp + 5 * d + 5 ≤ s.stackSize + 5 * d
    unfold HasFrame at hf
    omega

theorem unlimited_called {c a D : Int} (h : Called c s) : Called c (unlimited a D s) :=
  ⟨h.label, by show s.stack (s.sp + D - D) = _; rw [Int.add_sub_cancel]; exact h.frame⟩

theorem Rel.collectable (h : Rel M P f t s) : Collectable s := ⟨h.sound_reach', h.room, h.cfg⟩

/-- A value can be read in the corresponding memory. -/
theorem Rel.shows (h : Rel M P f t s) {a : Int} {v : Value} (ha : P a) (hv : IsVal t W mes a v) (hp : PlainVal v) : HasDatum s (f a) v := by
  induction hv with
  | int hn =>
    have := h.iso.cell _ ha
    refine .int ⟨h.valid' ha, this.tag.trans hn.tag, ?_⟩
    rw [this.cdr (by rw [hn.tag]; rfl) (by rw [hn.tag]; nofun), if_neg (by rw [hn.tag]; nofun), hn.value]
  | char hn =>
    have := h.iso.cell _ ha
    refine .char ⟨h.valid' ha, this.tag.trans hn.tag, ?_⟩
    rw [this.cdr (by rw [hn.tag]; rfl) (by rw [hn.tag]; nofun), if_neg (by rw [hn.tag]; nofun), hn.value]
  | pair hpr _ _ ih1 ih2 =>
    have p := h.pairs ⟨ha, rfl⟩ hpr.tag
    cases hp with
    | pair p1 p2 =>
      refine .pair (h.valid' ha) p.tag' ?_ ?_
      · rw [p.car.2]; exact ih1 p.car.1 p1
      · rw [p.cdr.2]; exact ih2 p.cdr.1 p2
  | obj =>
    cases hp with
    | fixed h1 h2 => rw [(h.fixed h1 h2).2]; exact .fixed h1 h2
  | prim => cases hp
  | clo => cases hp

theorem Rel.resultMoved {a D : Int} {v : Value} {σ' : Store} {g : Int → Int} (hi : Iso g t s) (h : Rel ⟨False, s.arena, D⟩ P f t' s')
    (hr : Result (unlimited a D t) mes v σ' t') : ResultMoved t mes v σ' s' := by
  refine ⟨⟨level D t' s', f, ?_, ?_, IsoOn.mono h.iso.level fun b hb => h.closed.reach (h.iso.reach_level.1 hb)⟩, h.collectable, fun hp => ?_⟩
  · obtain ⟨hp, W', hw, hv⟩ := hr
    have hg : Grow t' (level D t' s') := ⟨Int.le_refl _, fun _ _ => rfl⟩
    have e1 := hp.sp
    have e2 := h.iso.sp
    have e3 := hp.consts.size
    have e4 := h.iso.stackSize
    simp only [unlimited] at e1 e3
    dsimp only at e2 e4
    have hst : ∀ j, t.sp ≤ j → (unlimited a D t).stack ((unlimited a D t).sp + (j - t.sp)) = t.stack j := fun j hj => by
      show t.stack (t.sp + D + (j - t.sp) - D) = _
      congr 1
      omega
    refine ⟨⟨⟨hp.consts.m0, h.arena.trans hi.arena, rfl, ?_, hp.consts.macros⟩, ?_, ?_, ?_, ?_, fun i hi => ?_⟩, W', hw.grow hg rfl, hv.later (hg.later W')⟩
    · show s'.stackSize = t.stackSize; omega
    · show s'.sp = t.sp + 5; omega
    · show t'.r0 = t.stack (t.sp + 3)
      rw [hp.r0, ← hst (t.sp + 3) (by omega)]; congr 2; omega
    · show t'.r2 = t.stack (t.sp + 1)
      rw [hp.r2, ← hst (t.sp + 1) (by omega)]; congr 2; omega
    · show t'.r3 = t.stack t.sp
      rw [hp.r3, ← hst t.sp (by omega)]; congr 2; omega
    · show t'.stack (i + D) = t.stack i
      have hi : t.sp + 5 ≤ i := hi
      rw [hp.stack (i + D) (by show t.sp + D + 5 ≤ _; omega)]
      show t.stack (i + D - D) = t.stack i
      congr 1; omega
  · have hs := h.sound_reach
    have e2 := h.iso.sp
    have e4 := h.iso.stackSize
    have e5 := h.sound_reach'.sp
    refine SoundOn.mono (P := Reach t') ?_ (fun b hb => h.iso.reach_level.1 hb)
    exact ⟨hs.base, hs.fixed, hs.inside, hs.disjoint, hs.head, hs.length, hs.plain, hs.bytes, hs.blank, hs.whole, e5⟩
  · obtain ⟨-, W', -, hv⟩ := hr
    have := h.at1
    rw [this.2]
    exact h.shows this.1 hv hp

/-- A call that stops because the memory is full does not return and raises no error. -/
theorem _root_.Mes.Spec.Exhausts.not_returns (h : Exhausts K s) : ¬ Returns K s s' := fun h' => by
  obtain ⟨n, F, h⟩ := h
  obtain ⟨x, gp, mp, n', F', h'⟩ := h'
  have a := run_over (h (F + F') (by omega)) (by intro w hw; cases hw) n'
  have b := run_over (h' (F + F') (by omega)) (by intro w hw; cases hw; rfl) n
  rw [Nat.add_comm n' n, a] at b
  cases b

theorem _root_.Mes.Spec.Exhausts.not_errs {key : Key} (h : Exhausts K s) : ¬ Errs K s key := fun h' => by
  obtain ⟨n, F, h⟩ := h
  obtain ⟨n', F', h'⟩ := h'
  have a := run_over (h (F + F') (by omega)) (by intro w hw; cases hw) n'
  have b := run_over (h' (F + F') (by omega)) (by intro w hw; cases hw) n
  rw [Nat.add_comm n' n, a] at b
  cases b

/-- What a call that is a walk in the unlimited memory does in a limited one. -/
theorem walk_call (hK : K.Fuel) {a D : Int} {x : Int} {gp mp : Option Bool} {g : Int → Int} (hD : 0 ≤ D) (hi : Iso g t s) (hs : Sound t) (hc : Collectable s) {t' : St}
    (h : Walk True K (entry (unlimited a D t)) ⟨.done, t', x, gp, mp⟩) :
    Exhausts K s ∨ ∃ s', Returns K s s' ∧ ∃ P f, Rel ⟨False, s.arena, D⟩ P f t' s' := by
  obtain ⟨n, F, h⟩ := h
  have hr : RelVm ⟨False, s.arena, D⟩ (Reach t) g (entry (unlimited a D t)) (entry s) :=
    ⟨rfl, rfl, rfl, rel_unlimited hi hs hc hD, nofun, id⟩
  obtain ⟨-, h2⟩ := h (F + (s.arena + 3).toNat) (by omega)
  have h3 := h2 trivial _ _ _ _ hr (by show s.arena + 2 < _; omega)
  have hmono : ∀ fuel, F + (s.arena + 3).toNat ≤ fuel → ∀ r, run K (F + (s.arena + 3).toNat) n (entry s) = r → r ≠ loop →
      run K fuel n (entry s) = r := fun fuel hf r e hr => by
    have := run_fuel hf hK n (entry s)
    rw [e] at this
    exact this.eq hr
  rcases h3 with h3 | ⟨P, f, u, h3, h4⟩
  · exact .inl ⟨n, _, fun fuel hf => hmono fuel hf _ h3 nofun⟩
  · right
    obtain ⟨pc, s', x', gp', mp'⟩ := u
    have e := h4.pc
    dsimp only at e
    subst e
    exact ⟨s', ⟨x', gp', mp', n, _, fun fuel hf => hmono fuel hf _ h3 nofun⟩, P, f, h4.rel⟩

theorem fall_call (hK : K.Fuel) {a D : Int} {key : Key} {g : Int → Int} (hD : 0 ≤ D) (hi : Iso g t s) (hs : Sound t) (hc : Collectable s)
    (h : Falls True K (entry (unlimited a D t)) key) : Exhausts K s ∨ Errs K s key := by
  obtain ⟨n, F, h⟩ := h
  have hr : RelVm ⟨False, s.arena, D⟩ (Reach t) g (entry (unlimited a D t)) (entry s) :=
    ⟨rfl, rfl, rfl, rel_unlimited hi hs hc hD, nofun, id⟩
  obtain ⟨-, h2⟩ := h (F + (s.arena + 3).toNat) (by omega)
  have h3 := h2 trivial _ _ _ _ hr (by show s.arena + 2 < _; omega)
  have hmono : ∀ fuel, F + (s.arena + 3).toNat ≤ fuel → ∀ r, run K (F + (s.arena + 3).toNat) n (entry s) = r → r ≠ loop →
      run K fuel n (entry s) = r := fun fuel hf r e hr => by
    have := run_fuel hf hK n (entry s)
    rw [e] at this
    exact this.eq hr
  rcases h3 with h3 | h3
  · exact .inl ⟨n, _, fun fuel hf => hmono fuel hf _ h3 nofun⟩
  · exact .inr ⟨n, _, fun fuel hf => hmono fuel hf _ h3 nofun⟩

/-- What a call of the evaluator has to be in an unlimited memory. -/
theorem top_call (hK : K.Fuel) {a : Int} {D : Nat} {c x : Int} {gp mp : Option Bool} {l : Label} {σ' : Store} {v : Value} {g : Int → Int}
    (hi : Iso g t s) (hs : Sound t) (hc : Collectable s) (ha : Called c t) (hl : labelOf c = some l)
    (h1 : Walk True K ⟨l, unlimited a D t, 0, none, none⟩ ⟨.dispatch, t', x, gp, mp⟩) (hr : Result (unlimited a D t) mes v σ' t') :
    Exhausts K s ∨ Evaluates K s (ResultMoved t mes v σ') := by
  have hw : Walk True K (entry (unlimited a D t)) ⟨.done, t', x, gp, mp⟩ :=
    .trans (v' := ⟨l, unlimited a D t, 0, none, none⟩) (.dispatch (by rw [(unlimited_called ha).label]; exact hl))
      (h1.trans (.dispatch (by rw [hr.1.r3, (unlimited_called ha).frame]; rfl)))
  refine (walk_call hK (by omega) hi hs hc hw).imp_right ?_
  rintro ⟨s', h7, P, f, h8⟩
  exact ⟨s', h7, h8.resultMoved hi hr⟩

theorem sub_call (hK : K.Fuel) {a : Int} {D k : Nat} {c : Int} {l : Label} {σ' : Store} {v : Value} {g : Int → Int}
    (hi : Iso g t s) (hs : Sound t) (hc : Collectable s) (ha : Called c t)
    (hl : labelOf c = some l) (h : Sub True K mes l k σ' (Gives mes v) W (unlimited a D t)) :
    Exhausts K s ∨ Evaluates K s (ResultMoved t mes v σ') := by
  obtain ⟨W', t, x, h1, h2, -, h4, -, h6⟩ := h 0 none none
  exact top_call hK hi hs hc ha hl h1 ⟨h2, W', h4, h6⟩

theorem fails_call (hK : K.Fuel) {a : Int} {D : Nat} {c : Int} {l : Label} {key : Key} {g : Int → Int} (hi : Iso g t s) (hs : Sound t)
    (hc : Collectable s) (ha : Called c t) (hl : labelOf c = some l) (h : FailsAt True K l (unlimited a D t) key) :
    Exhausts K s ∨ Errs K s key :=
  fall_call hK (by omega) hi hs hc (Walk.falls (.dispatch (by rw [(unlimited_called ha).label]; exact hl)) (h 0 none none))

theorem unlimited_code {N : Idents} {ρ : Locals} {e : Expr} (a D : Int) (h : AtCode s W mes N ρ σ e) : AtCode (unlimited a D s) W mes N ρ σ e :=
  have g := unlimited_grow a D s
  ⟨unlimited_called h.called, h.world.grow g rfl, h.code.later (g.later W), h.scope.later (g.later W)⟩

theorem _root_.Mes.Spec.IsForm.later {N : Idents} {c : Int} {e : Toplevel} {W' : Ghost} (h : Later W s W' s')
    (hc : IsForm s W mes N c e) : IsForm s' W' mes N c e := by
  cases hc with
  | expr hc => exact .expr (hc.later h)
  | define hc hh h1 hx hi hn h2 he =>
    have e0 := hc.cell_eq h
    have e1 := h1.cell_eq h
    have e2 := h2.cell_eq h
    refine .define (hc.later h) (by rw [e0]; exact hh) (by rw [e0]; exact h1.later h) (by rw [e0, e1]; exact hx) (hi.later h) hn
      (by rw [e0, e1]; exact h2.later h) ?_
    rw [e0, e1, e2]
    exact he.imp (fun ⟨q, r⟩ => ⟨q, r.later h⟩) fun r => r.later h

theorem unlimited_form {N : Idents} {e : Toplevel} (a D : Int) (h : AtForm s W mes N σ e) : AtForm (unlimited a D s) W mes N σ e :=
  have g := unlimited_grow a D s
  ⟨unlimited_called h.called, h.world.grow g rfl, h.form.later (g.later W), h.scope.later (g.later W), h.top⟩

theorem unlimited_call {fv : Value} {vs : List Value} (a D : Int) (h : AtCall s W mes σ fv vs) : AtCall (unlimited a D s) W mes σ fv vs :=
  have g := unlimited_grow a D s
  ⟨unlimited_called h.called, h.world.grow g rfl, h.pair.later (g.later W), h.proc.later (g.later W), h.args.later (g.later W)⟩

theorem unlimited_strings {T : Int → Prop} (a D : Int) (h : Strings s W T) : Strings (unlimited a D s) W T :=
  h.later ((unlimited_grow a D s).later W)

end Mes.Gc
