/-
Independent arithmetic vocabulary for the properties of the number primitives.
-/
namespace Mes.Spec

/-- Bit `k` of the two's-complement representation of `n`. -/
def bit (n : Int) (k : Nat) : Prop := n / 2 ^ k % 2 = 1

instance (n : Int) (k : Nat) : Decidable (bit n k) := by unfold bit; infer_instance

/-- The product of a list. -/
def product (ns : List Int) : Int := ns.foldr (· * ·) 1

/-- Neighbouring elements are related by `R`. -/
def Neighbours (R : Int → Int → Prop) (ns : List Int) : Prop :=
  ∀ i a b, ns[i]? = some a → ns[i + 1]? = some b → R a b

/-- The machine words. -/
def Word (n : Int) : Prop := -2 ^ 63 ≤ n ∧ n < 2 ^ 63

end Mes.Spec
