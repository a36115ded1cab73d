import Verif.Spec.Port
import Verif.Spec.Syntax
/-
The state of the interpreter while it reads: the symbol table, the predefined names, and the text that is still to come.
-/
namespace Mes.Spec

/-- The constants of a run of the reader: the size of the largest text of the string port, the
longest name or string, the fuel of the list and table
primitives, the number of buckets of the symbol table, the address of the string port and that of the first bucket. -/
structure Env where
  m : Nat
  mx : Nat
  k : Nat
  n : Nat
  p : Int
  b : Int

namespace Env

/-- The cells the reader may change: the string port and the buckets. -/
def touch (E : Env) (a : Int) : Prop := (a = E.p ∧ 0 < a) ∨ (E.b ≤ a ∧ a < E.b + E.n)

/-- The number of cells that a character takes. -/
def u (E : Env) : Int := stringCells E.m

end Env

/-- The names the reader relies on. -/
structure Names (s : St) (H : List (List Byte × Int)) : Prop where
  fixed : Fixed s
  base : c_symbol_max ≤ s.free
  fls : HasText s c_f [35, 102]
  dot : HasText s c_dot [46]
  quotes : ∀ q ∈ quotes, lookup q.2.1 H = some q.2.2

/-- The text `bs` is still to be read. -/
structure Reading (E : Env) (s : St) (w : In) (H : List (List Byte × Int)) (bs : List Byte) (clear : Bool) : Prop where
  sym : SymTable s E.n H
  buckets : (s.cell (bucketsOf s s.symbols)).cdr = E.b
  input : Input E.m E.k E.p s w bs clear
  names : Names s H
  mx : E.mx ≤ s.maxString

/-- Room for `A + B * u` cells. -/
def RoomFor (E : Env) (s : St) (A B : Nat) : Prop := Room s (A + B * E.u)

end Mes.Spec
