/-
Outcomes of modelled C code.

`ok a`   : the function returned normally with result `a`.
`err`    : a Scheme error was raised (`error ()`, /repo/src/core.c:149-162), with the key that was thrown.
`abort`  : the program stopped with a diagnostic (`assert_msg`, `__assert_fail`, `exit (1)`).
`ub`     : C undefined behaviour (access outside an object, signed overflow, NULL dereference).
`loop`   : the fuel of the model ran out; it is never identified with a normal result.
-/
namespace Mes

/-- Keys thrown by `error ()` in the C sources: /repo/src/symbol.c:157-163 (`cell_symbol_*` error keys). -/
inductive Key where
  | wrongTypeArg | wrongNumberOfArgs | unboundVariable | notAPair | notANumber | systemError | userError
  /-- `divide-by-zero`: /repo/src/math.c:175, 197 -/
  | divideByZero
  deriving DecidableEq, Repr

inductive Res (α : Type) where
  | ok (a : α)
  | err (k : Key)
  | abort
  | ub
  | loop
  deriving DecidableEq, Repr

namespace Res

protected def bind {α β : Type} : Res α → (α → Res β) → Res β
  | ok a, f => f a
  | err k, _ => err k
  | abort, _ => abort
  | ub, _ => ub
  | loop, _ => loop

instance : Monad Res where
  pure := ok
  bind := Res.bind

/-- A partial read: `none` is a read outside the object, i.e. undefined behaviour. -/
def ofRead {α : Type} : Option α → Res α
  | some a => ok a
  | none => ub

/-- Fail with undefined behaviour unless `p` holds. -/
def ubUnless (p : Prop) [Decidable p] : Res Unit := if p then ok () else ub

/-- `assert_msg (p, ...)` (/repo/lib/mes/assert_msg.c:23-30). -/
def assert (p : Prop) [Decidable p] : Res Unit := if p then ok () else abort

variable {α β : Type}

@[simp] theorem pure_eq (a : α) : (pure a : Res α) = ok a := rfl
@[simp] theorem ok_bind (a : α) (f : α → Res β) : (ok a >>= f) = f a := rfl
@[simp] theorem err_bind (k : Key) (f : α → Res β) : ((err k : Res α) >>= f) = err k := rfl
@[simp] theorem abort_bind (f : α → Res β) : ((abort : Res α) >>= f) = abort := rfl
@[simp] theorem ub_bind (f : α → Res β) : ((ub : Res α) >>= f) = ub := rfl
@[simp] theorem loop_bind (f : α → Res β) : ((loop : Res α) >>= f) = loop := rfl
@[simp] theorem ofRead_some (a : α) : ofRead (some a) = ok a := rfl
@[simp] theorem ofRead_none : ofRead (none : Option α) = ub := rfl
@[simp] theorem ubUnless_true {p : Prop} [Decidable p] (h : p) : ubUnless p = ok () := by simp [ubUnless, h]
@[simp] theorem ubUnless_false {p : Prop} [Decidable p] (h : ¬p) : ubUnless p = ub := by simp [ubUnless, h]
@[simp] theorem assert_true {p : Prop} [Decidable p] (h : p) : assert p = ok () := by simp [assert, h]
@[simp] theorem assert_false {p : Prop} [Decidable p] (h : ¬p) : assert p = abort := by simp [assert, h]

theorem bind_assoc' {γ : Type} (x : Res α) (f : α → Res β) (g : β → Res γ) :
    ((x >>= f) >>= g) = (x >>= fun a => f a >>= g) := by
  cases x <;> rfl

theorem bind_eq_ok {x : Res α} {f : α → Res β} {b : β} :
    (x >>= f) = ok b ↔ ∃ a, x = ok a ∧ f a = ok b := by
  cases x <;> simp

end Res
end Mes
