import Verif.Spec.Eval
import Verif.Model.Eval
/-
Runs of the machine: the number of steps and the fuel are as large as needed.
-/
namespace Mes.Spec
open Mes Res

/-- The machine comes from `v` to `v'`. -/
def Steps (K : Calls) (v v' : Vm) : Prop := ∃ n F, ∀ fuel, F ≤ fuel → run K fuel n v = ok v'

/-- From `v` on the machine raises the error `key`. -/
def Fails (K : Calls) (v : Vm) (key : Key) : Prop := ∃ n F, ∀ fuel, F ≤ fuel → run K fuel n v = err key

/-! ### Calls of `eval_apply` -/

/-- C calls `eval_apply` (/repo/src/eval-apply.c:331-356). -/
def entry (s : St) : Vm := ⟨.dispatch, s, 0, none, none⟩

/-- Before the call: `R3` says where to begin, and the topmost frame says that the machine then returns to C, as `apply`
(/repo/src/eval-apply.c:980-986) prepares it. -/
structure Called (l : Int) (s : St) : Prop where
  label : s.r3 = l
  frame : s.stack s.sp = c_unspecified

/-- Called in the state `s`, `eval_apply` returns in the state `s'`; its value is in `R1`. -/
def Returns (K : Calls) (s s' : St) : Prop := ∃ x gp mp, Steps K (entry s) ⟨.done, s', x, gp, mp⟩

/-- Called in the state `s`, `eval_apply` raises the error `key`. -/
def Errs (K : Calls) (s : St) (key : Key) : Prop := Fails K (entry s) key

/-- `eval_apply` returns, in a state with `P`. -/
def Evaluates (K : Calls) (s : St) (P : St → Prop) : Prop := ∃ s', Returns K s s' ∧ P s'

/-- `eval_apply` does not return in another state than one with `P`, and raises no error.  (It may stop because the memory or
the stack is full.) -/
def OnlyGives (K : Calls) (s : St) (P : St → Prop) : Prop := (∀ s', Returns K s s' → P s') ∧ ∀ key, ¬ Errs K s key

/-- `eval_apply` does not return, and raises no other error than `key`. -/
def OnlyRaises (K : Calls) (s : St) (key : Key) : Prop := (∀ s', ¬ Returns K s s') ∧ ∀ key', Errs K s key' → key' = key

/-- The stack is as before the frame of this call was pushed, the memory holds the store `σ'`, and the result is `v`. -/
def Result (s : St) (mes : Bool) (v : Value) (σ' : Store) (s' : St) : Prop :=
  Popped s s' ∧ ∃ W', World s' W' mes σ' ∧ IsVal s' W' mes s'.r1 v

/-- C calls the evaluator for the expression `e`, with the local variables `ρ` and the store `σ`. -/
structure AtCode (s : St) (W : Ghost) (mes : Bool) (N : Idents) (ρ : Locals) (σ : Store) (e : Expr) : Prop where
  called : Called c_vm_eval s
  world : World s W mes σ
  code : IsCode s W mes N s.r1 e
  scope : IsScope s W N s.r0 ρ

/-- C calls the evaluator for the top level form `f`. -/
structure AtForm (s : St) (W : Ghost) (mes : Bool) (N : Idents) (σ : Store) (f : Toplevel) : Prop where
  called : Called c_vm_eval s
  world : World s W mes σ
  form : IsForm s W mes N s.r1 f
  scope : IsScope s W N s.r0 fun _ => none
  top : (s.cell (s.cell s.r0).car).car ≠ c_closure

/-- C calls the evaluator to apply the procedure `fv` to `vs`, as the function `apply` does. -/
structure AtCall (s : St) (W : Ghost) (mes : Bool) (σ : Store) (fv : Value) (vs : List Value) : Prop where
  called : Called c_vm_apply s
  world : World s W mes σ
  pair : FixedPair s W.chg s.r1
  proc : IsVal s W mes (s.cell s.r1).car fv
  args : IsVals s W mes (s.cell s.r1).cdr vs

end Mes.Spec
