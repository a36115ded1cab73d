import Verif.Proof.EvalFail
import Verif.Proof.Fuel
/-
Calls of `eval_apply`: the outcome is unique, and one computation with enough fuel determines it.
-/
namespace Mes
open Res Spec

variable {K : Calls} {s s' s'' : St} {key key' : Key}

theorem run_done (fuel n : Nat) (s : St) (x : Int) (gp mp : Option Bool) :
    run K fuel n ⟨.done, s, x, gp, mp⟩ = ok ⟨.done, s, x, gp, mp⟩ := by
  induction n with
  | zero => rfl
  | succ n ih => exact ih

/-- A run that is over does not depend on the number of steps. -/
theorem run_over {fuel n : Nat} {v : Vm} {r : Res Vm} (h : run K fuel n v = r) (hr : ∀ w, r = ok w → w.pc = .done) (m : Nat) :
    run K fuel (n + m) v = r := by
  rw [run_add, h]
  cases r with
  | ok w =>
    obtain ⟨pc, s, x, gp, mp⟩ := w
    cases hr _ rfl
    exact run_done ..
  | _ => rfl

theorem Spec.Returns.unique (h : Returns K s s') (h' : Returns K s s'') : s' = s'' := by
  obtain ⟨x, gp, mp, n, F, h⟩ := h
  obtain ⟨x', gp', mp', n', F', h'⟩ := h'
  have a := run_over (h (F + F') (by omega)) (by intro w hw; cases hw; rfl) n'
  have b := run_over (h' (F + F') (by omega)) (by intro w hw; cases hw; rfl) n
  rw [Nat.add_comm n' n, a] at b
  cases b
  rfl

theorem Spec.Returns.not_errs (h : Returns K s s') (h' : Errs K s key) : False := by
  obtain ⟨x, gp, mp, n, F, h⟩ := h
  obtain ⟨n', F', h'⟩ := h'
  have a := run_over (h (F + F') (by omega)) (by intro w hw; cases hw; rfl) n'
  have b := run_over (h' (F + F') (by omega)) (by intro w hw; cases hw) n
  rw [Nat.add_comm n' n, a] at b
  cases b

theorem Spec.Errs.unique (h : Errs K s key) (h' : Errs K s key') : key = key' := by
  obtain ⟨n, F, h⟩ := h
  obtain ⟨n', F', h'⟩ := h'
  have a := run_over (h (F + F') (by omega)) (by intro w hw; cases hw) n'
  have b := run_over (h' (F + F') (by omega)) (by intro w hw; cases hw) n
  rw [Nat.add_comm n' n, a] at b
  cases b
  rfl

/-- What returns gives only that. -/
theorem Spec.Evaluates.only {P : St → Prop} (h : Evaluates K s P) : OnlyGives K s P := by
  obtain ⟨s', h1, h2⟩ := h
  refine ⟨fun s'' h => ?_, fun key h => h1.not_errs h⟩
  rw [← h1.unique h]
  exact h2

theorem Spec.Errs.only (h : Errs K s key) : OnlyRaises K s key := ⟨fun _ h' => h'.not_errs h, fun _ h' => h'.unique h⟩

theorem evaluates_of {l : Label} {c x : Int} {gp mp : Option Bool} {P : St → Prop} (hc : Called c s) (hl : labelOf c = some l)
    {mv : Prop} (h : Gc.Walk mv K ⟨l, s, 0, none, none⟩ ⟨.dispatch, s', x, gp, mp⟩) (hp : Popped s s') (h' : P s') : Evaluates K s P :=
  ⟨s', ⟨x, gp, mp, .trans (v' := ⟨l, s, 0, none, none⟩) (.dispatch (by rw [hc.label]; exact hl))
    (h.steps.trans (.dispatch (by rw [hp.r3, hc.frame]; rfl)))⟩, h'⟩

theorem errs_of {l : Label} {c : Int} (hc : Called c s) (hl : labelOf c = some l) (h : FailsAt False K l s key) :
    Errs K s key :=
  (Gc.Walk.falls (.dispatch (by rw [hc.label]; exact hl)) (h 0 none none)).fails

/-! ### Computed runs -/

theorem returns_of_run (hK : K.Fuel) (n F : Nat) {v : Vm} (h : run K F n (entry s) = ok v) (hd : v.pc = .done) : Returns K s v.s := by
  obtain ⟨pc, s', x, gp, mp⟩ := v
  cases hd
  refine ⟨x, gp, mp, n, F, fun fuel hf => ?_⟩
  have := run_fuel hf hK n (entry s)
  rw [h] at this
  exact this.eq nofun

theorem errs_of_run (hK : K.Fuel) (n F : Nat) (h : run K F n (entry s) = err key) : Errs K s key := by
  refine ⟨n, F, fun fuel hf => ?_⟩
  have := run_fuel hf hK n (entry s)
  rw [h] at this
  exact this.eq nofun

/-- `eval_apply`, computed with the given number of steps and fuel, returns with `P`. -/
def computes (K : Calls) (n F : Nat) (s : St) (P : St → Bool) : Bool :=
  match run K F n (entry s) with
  | ok v => decide (v.pc = .done) && P v.s
  | _ => false

theorem returns_of_computes (hK : K.Fuel) {n F : Nat} {P : St → Bool} (h : computes K n F s P = true) : ∃ s', Returns K s s' ∧ P s' = true := by
  unfold computes at h
  generalize hr : run K F n (entry s) = r at h
  cases r with
  | ok v =>
    simp only [Bool.and_eq_true, decide_eq_true_eq] at h
    exact ⟨v.s, returns_of_run hK n F hr h.1, h.2⟩
  | _ => simp at h

/-- `eval_apply`, computed with the given number of steps and fuel, raises the error. -/
def raises (K : Calls) (n F : Nat) (s : St) (key : Key) : Bool :=
  match run K F n (entry s) with
  | err k => decide (k = key)
  | _ => false

theorem errs_of_raises (hK : K.Fuel) {n F : Nat} (h : raises K n F s key = true) : Errs K s key := by
  unfold raises at h
  generalize hr : run K F n (entry s) = r at h
  cases r with
  | err k =>
    simp only [decide_eq_true_eq] at h
    exact errs_of_run hK n F (by rw [hr, h])
  | _ => simp at h

end Mes
