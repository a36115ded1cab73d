import Verif.Model.Eval
import Verif.Model.Math
/-
The table of builtins (/repo/src/builtins.c:112-282), for those whose C function is modelled elsewhere and that only read and
allocate.  The number of a builtin is its line in that file; it stands for the address of the C function.  Calling a C function
with another number of arguments than it has, or a function outside this table, is `ub` here.
-/
namespace Mes
open Res

/-- `pair_p`: /repo/src/lib.c:157-163. -/
def pairP (s : St) (x : Int) : Res Int := do
  let c ← s.rd x
  ok (bool (decide (c.tag = .pair)))

/-- `char_to_integer`: /repo/src/lib.c:165-169. -/
def charToInteger (s : St) (x : Int) : Res (Int × St) := do
  let n ← s.cdr x
  makeNumber s n

/-- `integer_to_char`: /repo/src/lib.c:171-175. -/
def integerToChar (s : St) (x : Int) : Res (Int × St) := do
  let n ← s.cdr x
  makeChar s n

/-- The result of a function that does not allocate. -/
def same (s : St) (r : Res Int) : Res (Int × St) := do
  let x ← r
  ok (x, s)

/-- The C functions with one argument: /repo/src/builtins.c:141-203, /repo/src/cc.c:30-34.  Those registered with arity −1 get
the list of the arguments. -/
def function1 (s : St) (fuel : Nat) (id x : Int) : Res (Int × St) :=
  if id = 141 then same s (carP s x)
  else if id = 142 then same s (cdrP s x)
  else if id = 143 then same s (ok x)
  else if id = 144 then same s (ok (nullP x))
  else if id = 148 then lengthP s fuel x
  else if id = 192 then same s (pairP s x)
  else if id = 193 then charToInteger s x
  else if id = 194 then integerToChar s x
  else if id = 196 then same s (greaterP s fuel x)
  else if id = 197 then same s (lessP s fuel x)
  else if id = 198 then same s (isP s fuel x)
  else if id = 199 then minus s fuel x
  else if id = 200 then plus s fuel x
  else if id = 201 then divide s fuel x
  else if id = 203 then multiply s fuel x
  else ub

/-- The C functions with two arguments: /repo/src/builtins.c:145-202, /repo/src/cc.c:36-40. -/
def function2 (s : St) (fuel : Nat) (id x y : Int) : Res (Int × St) :=
  if id = 145 then same s (eqP s x y)
  else if id = 150 then append2 s fuel x y
  else if id = 171 then cons s x y
  else if id = 202 then modulo s fuel x y
  else ub

/-- The C functions with three arguments: /repo/src/builtins.c:147, /repo/src/cc.c:42-46. -/
def function3 (s : St) (id x y z : Int) : Res (Int × St) := if id = 147 then acons s x y z else ub

/-- The table. -/
def builtins : Calls where
  builtin fuel id args s :=
    match args with
    | [x] => function1 s fuel id x
    | [x, y] => function2 s fuel id x y
    | [x, y, z] => function3 s id x y z
    | _ => ub
  load _ _ _ := ub

end Mes
