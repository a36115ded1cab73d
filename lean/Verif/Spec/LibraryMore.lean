import Verif.Spec.Library
/-
What the procedures of the list library compute for three lists, and `filter-map` for two.
-/
namespace Mes.Spec

section
variable {S : Type} (P : S → List Value → Value → S → Prop)

/-- The elements of three lists and the result so far, from the first elements on, until one of the lists ends. -/
inductive Folds3 : S → Value → List Value → List Value → List Value → Value → S → Prop
  | done {s a xs ys zs} (h : xs = [] ∨ ys = [] ∨ zs = []) : Folds3 s a xs ys zs a s
  | cons {s s₁ s₂ a b c x xs y ys z zs} (h : P s [x, y, z, a] b s₁) (hs : Folds3 s₁ b xs ys zs c s₂) :
      Folds3 s a (x :: xs) (y :: ys) (z :: zs) c s₂

/-- The elements of three lists and the result of the rest, beginning where one of the lists ends. -/
inductive FoldsRight3 : S → Value → List Value → List Value → List Value → Value → S → Prop
  | done {s a xs ys zs} (h : xs = [] ∨ ys = [] ∨ zs = []) : FoldsRight3 s a xs ys zs a s
  | cons {s s₁ s₂ a b c x xs y ys z zs} (hs : FoldsRight3 s a xs ys zs b s₁) (h : P s₁ [x, y, z, b] c s₂) :
      FoldsRight3 s a (x :: xs) (y :: ys) (z :: zs) c s₂

/-- The true values for the elements of two lists, until one of them ends. -/
inductive FilterMaps2 : S → List Value → List Value → List Value → S → Prop
  | done {s xs ys} (h : xs = [] ∨ ys = []) : FilterMaps2 s xs ys [] s
  | keep {s s₁ s₂ x xs y ys z zs} (h : P s [x, y] z s₁) (hz : True' z) (hs : FilterMaps2 s₁ xs ys zs s₂) : FilterMaps2 s (x :: xs) (y :: ys) (z :: zs) s₂
  | drop {s s₁ s₂ x xs y ys zs} (h : P s [x, y] (.obj c_f) s₁) (hs : FilterMaps2 s₁ xs ys zs s₂) : FilterMaps2 s (x :: xs) (y :: ys) zs s₂

/-- The elements of three lists are passed to the procedure, until one of the lists ends; the results. -/
inductive Maps3 : S → List Value → List Value → List Value → List Value → S → Prop
  | done {s xs ys zs} (h : xs = [] ∨ ys = [] ∨ zs = []) : Maps3 s xs ys zs [] s
  | cons {s s₁ s₂ x xs y ys z zs u us} (h : P s [x, y, z] u s₁) (hs : Maps3 s₁ xs ys zs us s₂) : Maps3 s (x :: xs) (y :: ys) (z :: zs) (u :: us) s₂

/-- The same for four lists. -/
inductive Maps4 : S → List Value → List Value → List Value → List Value → List Value → S → Prop
  | done {s xs ys zs ws} (h : xs = [] ∨ ys = [] ∨ zs = [] ∨ ws = []) : Maps4 s xs ys zs ws [] s
  | cons {s s₁ s₂ x xs y ys z zs w ws u us} (h : P s [x, y, z, w] u s₁) (hs : Maps4 s₁ xs ys zs ws us s₂) :
      Maps4 s (x :: xs) (y :: ys) (z :: zs) (w :: ws) (u :: us) s₂

end

end Mes.Spec
