import Verif.Spec.Eval
/-
Arguments of builtins.
-/
namespace Mes.Spec

/-- What an argument stands for: multiple values count as the first of them. -/
def oneValue (s : St) (y : Int) : Int := if (s.cell y).tag = .values then (s.cell (s.cell y).cdr).car else y

/-- An argument; multiple values (`values`, /repo/src/core.c:115-120) are at least one. -/
structure IsArg (s : St) (y : Int) : Prop where
  valid : s.Valid y
  values : (s.cell y).tag = .values → s.Valid (s.cell y).cdr ∧ (s.cell (s.cell y).cdr).tag = .pair

/-- What the C function with `n` parameters (all arguments as one list if `n` is -1) receives for the arguments `ys`. -/
def Receives (s : St) (n : Int) (us ys : List Int) : Prop := if n = -1 then ∃ p, us = [p] ∧ IsList s p ys else us = ys

end Mes.Spec
