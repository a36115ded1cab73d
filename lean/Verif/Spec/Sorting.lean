import Verif.Spec.Bytes
/-
Arrays of elements in a byte memory, and their order.
-/
namespace Mes.Spec

/-- From `base` on the memory holds the elements `xs`, of `size` bytes each. -/
structure Elements (m : List UInt8) (base size : Nat) (xs : List (List UInt8)) : Prop where
  sizes : ∀ x ∈ xs, x.length = size
  bytes : ∀ k x, xs[k]? = some x → ∀ r, r < size → m[base + k * size + r]? = x[r]?

/-- Only the `n` bytes from `base` on may differ. -/
def OnlyIn (base n : Nat) (m m' : List UInt8) : Prop :=
  m'.length = m.length ∧ ∀ a, a < base ∨ base + n ≤ a → m'[a]? = m[a]?

/-- A comparison function that belongs to an order of all elements; different elements may be equal in the order. -/
structure Consistent (compare : List UInt8 → List UInt8 → Int) : Prop where
  opposite : ∀ x y, compare x y < 0 ↔ 0 < compare y x
  trans : ∀ x y z, compare x y ≤ 0 → compare y z ≤ 0 → compare x z ≤ 0

/-- No element is greater than a later one. -/
def InOrder (compare : List UInt8 → List UInt8 → Int) (xs : List (List UInt8)) : Prop := xs.Pairwise fun x y => compare x y ≤ 0

/-- No two elements are equal in the order. -/
def AllDifferent (compare : List UInt8 → List UInt8 → Int) (xs : List (List UInt8)) : Prop := xs.Pairwise fun x y => compare x y ≠ 0

end Mes.Spec
