import Verif.Spec.Heap
/-
Vectors and structs in memory as sequences of values.
-/
namespace Mes.Spec

/-- A Scheme value as a program can tell it: numbers and characters by value, everything else by identity. -/
inductive Val where
  | num (n : Int)
  | chr (c : Int)
  | obj (a : Int)
  deriving DecidableEq

/-- A type whose values have identity (not a number, not a character; TREF is not a value at all). -/
def Solid (t : Tag) : Prop := t ≠ .number ∧ t ≠ .char ∧ t ≠ .ref

instance (t : Tag) : Decidable (Solid t) := by unfold Solid; infer_instance

/-- The address `p` denotes the value. -/
def ValAt (s : St) (p : Int) : Val → Prop
  | .num n => IsNum s p n
  | .chr c => IsChar s p c ∧ -2147483648 ≤ c ∧ c ≤ 2147483647
  | .obj a => p = a ∧ s.Valid a ∧ Solid (s.cell a).tag

/-- The element cell at `p` holds the value: numbers and characters inline, other values by a TREF. -/
def EntryAt (s : St) (p : Int) : Val → Prop
  | .num n => IsNum s p n
  | .chr c => IsChar s p c ∧ -2147483648 ≤ c ∧ c ≤ 2147483647
  | .obj a => s.Valid p ∧ (s.cell p).tag = .ref ∧ (s.cell p).car = a ∧ s.Valid a ∧ Solid (s.cell a).tag

/-- The vector (`t = .vector`) or struct (`t = .struct`) at `x` has the elements `vs`. -/
structure IsArr (t : Tag) (s : St) (x : Int) (vs : List Val) : Prop where
  valid : s.Valid x
  tag : (s.cell x).tag = t
  length : (s.cell x).car = vs.length
  entry : ∀ (i : Nat) v, vs[i]? = some v → EntryAt s ((s.cell x).cdr + i) v

/-- The element cells of two arrays of `m` and `n` elements do not overlap. -/
def Apart (s : St) (x : Int) (m : Nat) (y : Int) (n : Nat) : Prop :=
  (s.cell x).cdr + m ≤ (s.cell y).cdr ∨ (s.cell y).cdr + n ≤ (s.cell x).cdr ∨ m = 0 ∨ n = 0

end Mes.Spec
