import Verif.Model.Heap
/-
Texts on which the reader comes to an end.
-/
namespace Mes.Spec

/-- Every `#|` and `#!` is followed by `|#` or `!#`, wherever it is. -/
def Closed (t : List Byte) : Prop :=
  ∀ u v : List Byte, ∀ x : Byte, x = 33 ∨ x = 124 → t = u ++ 35 :: x :: v → ∃ a b, v = a ++ x :: 35 :: b

/-- A character that may follow a dot in a name. -/
def Inner (c : Byte) : Prop := 32 < c.toNat ∧ c.toNat ≤ 126 ∧ c ≠ 34 ∧ c ≠ 59 ∧ c ≠ 40 ∧ c ≠ 41

/-- No dot stands alone. -/
def NoDot (t : List Byte) : Prop := ∀ u v : List Byte, t = u ++ 46 :: v → ∃ c v', v = c :: v' ∧ Inner c

/-- There is no `#(`. -/
def NoVector (t : List Byte) : Prop := ∀ u v : List Byte, t ≠ u ++ 35 :: 40 :: v

/-- An ASCII text with closed block comments that has no vectors, or (`dots = false`) no dots that stand alone. -/
structure PlainText (dots : Bool) (t : List Byte) : Prop where
  ascii : ∀ b ∈ t, b.toNat < 128
  closed : Closed t
  rest : if dots then NoVector t else NoDot t

end Mes.Spec
