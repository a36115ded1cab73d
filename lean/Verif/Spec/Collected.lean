import Verif.Spec.Gc
import Verif.Spec.Machine
/-
What a call of `eval_apply` does in a memory of any size, where the collector may have moved everything when it returns.
-/
namespace Mes.Spec
open Mes Res

/-- Called in the state `s`, `eval_apply` stops because the memory or the stack is full. -/
def Exhausts (K : Calls) (s : St) : Prop := ∃ n F, ∀ fuel, F ≤ fuel → run K fuel n (entry s) = abort

/-- The memory `s` holds the data of a sound memory with `Q`: every object has its counterpart in `s`, maybe at another address. -/
def Moved (Q : St → Prop) (s : St) : Prop := ∃ t f, Q t ∧ Sound t ∧ Iso f t s

/-- The memory `s` can be used by the collector: it is sound, not overfull, and there is room for the copies. -/
structure Collectable (s : St) : Prop where
  sound : Sound s
  room : s.free ≤ s.arena + 2
  copy : 2 * (s.arena + 2) ≤ s.limit + 1

/-- The memory has at the address `a` the value `v`: a number, a character, a predefined object, or a structure of these. -/
inductive HasDatum (s : St) : Int → Value → Prop
  | int {a n : Int} (h : IsNum s a n) : HasDatum s a (.int n)
  | char {a n : Int} (h : IsChar s a n) : HasDatum s a (.char n)
  | pair {a : Int} {v w : Value} (hv : s.Valid a) (ht : (s.cell a).tag = .pair) (h1 : HasDatum s (s.cell a).car v)
      (h2 : HasDatum s (s.cell a).cdr w) : HasDatum s a (.pair v w)
  | fixed {a : Int} (h1 : c_nil ≤ a) (h2 : a < c_symbol_max) : HasDatum s a (.obj a)

/-- Values of this kind. -/
inductive PlainVal : Value → Prop
  | int (n : Int) : PlainVal (.int n)
  | char (n : Int) : PlainVal (.char n)
  | pair {v w : Value} (h1 : PlainVal v) (h2 : PlainVal w) : PlainVal (.pair v w)
  | fixed {c : Int} (h1 : c_nil ≤ c) (h2 : c < c_symbol_max) : PlainVal (.obj c)

/-- As `Result`, for a call that may have collected garbage and that was made in a memory with the data of `t`: up to the addresses of
the objects, the memory is one with the result; and the next call finds what it needs.  (`safety` only says when to collect.)  A
number, a character or a structure of these can be read at the address in `R1`. -/
def ResultMoved (t : St) (mes : Bool) (v : Value) (σ' : Store) (s' : St) : Prop :=
  Moved (Result { t with safety := s'.safety } mes v σ') s' ∧ Collectable s' ∧ (PlainVal v → HasDatum s' s'.r1 v)

/-- There is a frame on the stack. -/
def HasFrame (s : St) : Prop := s.sp + 5 ≤ s.stackSize

end Mes.Spec
