/-
Specification vocabulary for byte memories, independent of the model: slices, patches and C strings.
-/
namespace Mes.Spec

/-- The `n` bytes of `m` starting at address `a`. -/
def slice (m : List UInt8) (a n : Nat) : List UInt8 := (m.drop a).take n

/-- The memory `m` with the bytes from address `a` on replaced by `l`; everything else is unchanged. -/
def patch (m : List UInt8) (a : Nat) (l : List UInt8) : List UInt8 := m.take a ++ l ++ m.drop (a + l.length)

/-- The bytes `l` are stored in `m` at address `a`. -/
def At (m : List UInt8) (a : Nat) (l : List UInt8) : Prop := ∀ i, i < l.length → m[a + i]? = l[i]?

/-- `m` holds the C string `s` at address `a`: the bytes of `s`, none of them NUL, followed by a NUL. -/
def CStr (m : List UInt8) (a : Nat) (s : List UInt8) : Prop := At m a (s ++ [0]) ∧ ∀ b ∈ s, b ≠ 0

instance (m : List UInt8) (a : Nat) (l : List UInt8) : Decidable (At m a l) := Nat.decidableBallLT _ _
instance (m : List UInt8) (a : Nat) (s : List UInt8) : Decidable (CStr m a s) := by unfold CStr; infer_instance

/-- The ranges `[a, a+n)` and `[b, b+k)` do not meet. -/
def Disjoint (a n b k : Nat) : Prop := a + n ≤ b ∨ b + k ≤ a

end Mes.Spec

namespace Mes.Spec

/-- Index of the first occurrence of `needle` in `hay`. -/
def firstMatch (hay needle : List UInt8) : Option Nat :=
  (List.range (hay.length + 1)).find? (fun i => needle.isPrefixOf (hay.drop i))

/-- Index `i` holds the last `b` of `l`. -/
def IsLast (l : List UInt8) (b : UInt8) (i : Nat) : Prop :=
  l[i]? = some b ∧ ∀ j, i < j → l[j]? ≠ some b

/-- The bytes of an argz vector: each string followed by a NUL. -/
def argzBytes (strs : List (List UInt8)) : List UInt8 := (strs.map (· ++ [0])).flatten

/-- The start addresses of the strings of an argz vector stored at `a`. -/
def argzAddrs (a : Nat) : List (List UInt8) → List Nat
  | [] => []
  | s :: rest => a :: argzAddrs (a + s.length + 1) rest

end Mes.Spec
