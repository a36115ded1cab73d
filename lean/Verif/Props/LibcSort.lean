import Verif.Proof.Sort
/-
Property C46: qsort (/repo/lib/stdlib/qsort.c).
-/
namespace Mes.Props
open Res Spec C

/-- C46: the array holds the same elements as before, in order, and all other memory is unchanged. -/
def C46_full : Prop :=
  ∀ compare m base size xs fuel, Consistent compare → 0 < size → Elements m base size xs → xs.length < 2 ^ 31 → 2 * xs.length + 1 ≤ fuel →
    ∃ m' ys, qsort compare fuel m base xs.length size = ok m' ∧ Elements m' base size ys ∧ OnlyIn base (xs.length * size) m m' ∧ ys.Perm xs ∧
      InOrder compare ys

/-- Compare the first bytes. -/
def byteCompare : Compare := fun x y => (x.headD 0).toNat - (y.headD 0).toNat

theorem byte_consistent : Consistent byteCompare :=
  ⟨fun x y => by unfold byteCompare; omega, fun x y z => by unfold byteCompare; omega⟩

/-- The elements of an array of bytes. -/
theorem byte_elements (l : List Byte) : Elements l 0 1 (l.map fun b => [b]) := by
  refine ⟨by simp, fun k x hk r hr => ?_⟩
  rw [List.getElem?_map] at hk
  obtain rfl : r = 0 := by omega
  simp only [Nat.zero_add, Nat.mul_one, Nat.add_zero]
  cases h : l[k]? with
  | none => rw [h] at hk; cases hk
  | some b => rw [h] at hk; cases hk; rfl

/-- C46 does not hold when elements are equal: an element that is equal to the pivot moves the border on without being exchanged
(/repo/lib/stdlib/qsort.c:57-58), so that 5 3 3 stays as it is. -/
theorem C46_false : ¬ C46_full := by
  intro h
  obtain ⟨m', ys, h1, h2, -, h4, h5⟩ := h byteCompare [5, 3, 3] 0 1 ([5, 3, 3].map fun b => [b]) 7 byte_consistent (by decide) (byte_elements _) (by decide) (by decide)
  have e : qsort byteCompare 7 [5, 3, 3] 0 3 1 = ok [5, 3, 3] := by decide +kernel
  simp only [List.map, List.length] at h1
  rw [e] at h1
  cases h1
  have hl := h4.length_eq
  simp only [List.map, List.length_cons, List.length_nil] at hl
  match ys, hl with
  | [a, b, c], _ =>
    have ha := h2.sizes a (by simp)
    have hb := h2.sizes b (by simp)
    match a, b, ha, hb with
    | [a], [b], _, _ =>
      have h6 := h2.bytes 0 [a] rfl 0 (by decide)
      have h7 := h2.bytes 1 [b] rfl 0 (by decide)
      simp at h6 h7
      have := (List.pairwise_cons.1 h5).1 [b] (by simp)
      rw [← h6, ← h7] at this
      revert this
      decide

/-- For every order qsort ends, the array holds the same elements as before, and all other memory is unchanged. -/
theorem C46_permutation {compare : Compare} {m : Mem} {base size fuel : Nat} {xs : List (List Byte)} (hc : Consistent compare) (hs : 0 < size)
    (h : Elements m base size xs) (hn : xs.length < 2 ^ 31) (hf : 2 * xs.length + 1 ≤ fuel) :
    ∃ m' ys, qsort compare fuel m base xs.length size = ok m' ∧ Elements m' base size ys ∧ OnlyIn base (xs.length * size) m m' ∧ ys.Perm xs := by
  obtain ⟨m', ys, h1, h2, h3, h4, -⟩ := sorts hc hs _ (Nat.le_refl _) h hn hf
  exact ⟨m', ys, h1, h2, h3, h4⟩

/-- C46 for arrays whose elements are all different in the order. -/
theorem C46_partial {compare : Compare} {m : Mem} {base size fuel : Nat} {xs : List (List Byte)} (hc : Consistent compare) (hs : 0 < size)
    (h : Elements m base size xs) (hn : xs.length < 2 ^ 31) (hd : AllDifferent compare xs) (hf : 2 * xs.length + 1 ≤ fuel) :
    ∃ m' ys, qsort compare fuel m base xs.length size = ok m' ∧ Elements m' base size ys ∧ OnlyIn base (xs.length * size) m m' ∧ ys.Perm xs ∧
      InOrder compare ys := by
  obtain ⟨m', ys, h1, h2, h3, h4, h5⟩ := sorts hc hs _ (Nat.le_refl _) h hn hf
  exact ⟨m', ys, h1, h2, h3, h4, h5 hd⟩

/-- The hypotheses hold for the array 7 2 9 4. -/
example : Consistent byteCompare ∧ Elements [7, 2, 9, 4] 0 1 ([7, 2, 9, 4].map fun b => [b]) ∧
    AllDifferent byteCompare ([7, 2, 9, 4].map fun b => [b]) ∧ qsort byteCompare 9 [7, 2, 9, 4] 0 4 1 = ok [2, 4, 7, 9] :=
  ⟨byte_consistent, byte_elements _, by simp [AllDifferent, byteCompare], by decide +kernel⟩

/-- An element of two bytes, compared by the first one: the second one moves with it. -/
example : qsort byteCompare 9 [0, 7, 1, 2, 2, 4, 3, 0] 1 3 2 = ok [0, 2, 2, 4, 3, 7, 1, 0] := by decide +kernel

end Mes.Props
