import Verif.Spec.Builtins
/-
What the procedures of the list library compute, given what the procedure argument does.

A procedure argument can be any procedure, also one with side effects and one that is not defined for all arguments: `P s vs v s'` says
that in the state `s` it can be called with the arguments `vs`, and then has the value `v` and leaves the state `s'`.  The states are abstract;
`Behaves` says how they lie in the store.
-/
namespace Mes.Spec

/-- The store with new locations. -/
def Store.push (σ : Store) (vs : List Value) : Store := { σ with vals := σ.vals ++ vs }

/-- From `σ` to `σ'` only locations in `F` changed and new ones were added; `F'` has no other locations than those of `F` and new ones. -/
structure Step (F : Nat → Prop) (σ : Store) (F' : Nat → Prop) (σ' : Store) : Prop where
  globals : σ'.globals = σ.globals
  len : σ.vals.length ≤ σ'.vals.length
  same : ∀ l, l < σ.vals.length → ¬ F l → σ'.vals[l]? = σ.vals[l]?
  sub : ∀ l, F' l → F l ∨ σ.vals.length ≤ l
  below : ∀ l, F' l → l < σ'.vals.length

/-- The behaviour of a procedure.  `R s F σ`: the store `σ` holds the state `s`, and the procedure may change the locations in `F`. -/
structure Behaves {S : Type} (mes : Bool) (δ : Int → Int → List Value → Value → Prop) (d : Nat) (p : Value)
    (P : S → List Value → Value → S → Prop) (R : S → (Nat → Prop) → Store → Prop) : Prop where
  /-- a call with these arguments has this value, changes only what it may, and needs at most `d` frames -/
  call : ∀ {s s' vs v F σ}, P s vs v s' → R s F σ → ∃ σ' F', Call mes δ d σ p vs v σ' ∧ R s' F' σ' ∧ Step F σ F' σ'
  /-- new locations do not matter -/
  push : ∀ {s F σ} (vs : List Value), R s F σ → R s F (σ.push vs)
  below : ∀ {s F σ}, R s F σ → ∀ l, F l → l < σ.vals.length

/-- A value that counts as true. -/
def True' (v : Value) : Prop := v ≠ .obj c_f

section
variable {S : Type} (P : S → List Value → Value → S → Prop)

/-- The elements are passed to the procedure one after the other, from the first to the last; the results. -/
inductive Maps : S → List Value → List Value → S → Prop
  | nil {s} : Maps s [] [] s
  | cons {s s₁ s₂ x xs y ys} (h : P s [x] y s₁) (hs : Maps s₁ xs ys s₂) : Maps s (x :: xs) (y :: ys) s₂

/-- The same for two lists, until one of them ends. -/
inductive Maps2 : S → List Value → List Value → List Value → S → Prop
  | nil1 {s ys} : Maps2 s [] ys [] s
  | nil2 {s xs} : Maps2 s xs [] [] s
  | cons {s s₁ s₂ x xs y ys z zs} (h : P s [x, y] z s₁) (hs : Maps2 s₁ xs ys zs s₂) : Maps2 s (x :: xs) (y :: ys) (z :: zs) s₂

/-- The elements for which the value is true, in order. -/
inductive Filters : S → List Value → List Value → S → Prop
  | nil {s} : Filters s [] [] s
  | keep {s s₁ s₂ x xs y ys} (h : P s [x] y s₁) (hy : True' y) (hs : Filters s₁ xs ys s₂) : Filters s (x :: xs) (x :: ys) s₂
  | drop {s s₁ s₂ x xs ys} (h : P s [x] (.obj c_f) s₁) (hs : Filters s₁ xs ys s₂) : Filters s (x :: xs) ys s₂

/-- The elements for which the value is false, in order. -/
inductive Removes : S → List Value → List Value → S → Prop
  | nil {s} : Removes s [] [] s
  | keep {s s₁ s₂ x xs ys} (h : P s [x] (.obj c_f) s₁) (hs : Removes s₁ xs ys s₂) : Removes s (x :: xs) (x :: ys) s₂
  | drop {s s₁ s₂ x xs y ys} (h : P s [x] y s₁) (hy : True' y) (hs : Removes s₁ xs ys s₂) : Removes s (x :: xs) ys s₂

/-- The values that are true, in order. -/
inductive FilterMaps : S → List Value → List Value → S → Prop
  | nil {s} : FilterMaps s [] [] s
  | keep {s s₁ s₂ x xs y ys} (h : P s [x] y s₁) (hy : True' y) (hs : FilterMaps s₁ xs ys s₂) : FilterMaps s (x :: xs) (y :: ys) s₂
  | drop {s s₁ s₂ x xs ys} (h : P s [x] (.obj c_f) s₁) (hs : FilterMaps s₁ xs ys s₂) : FilterMaps s (x :: xs) ys s₂

/-- Each element and the result so far, from the first element to the last. -/
inductive Folds : S → Value → List Value → Value → S → Prop
  | nil {s a} : Folds s a [] a s
  | cons {s s₁ s₂ a b c x xs} (h : P s [x, a] b s₁) (hs : Folds s₁ b xs c s₂) : Folds s a (x :: xs) c s₂

/-- The same for two lists, until one of them ends. -/
inductive Folds2 : S → Value → List Value → List Value → Value → S → Prop
  | nil1 {s a ys} : Folds2 s a [] ys a s
  | nil2 {s a xs} : Folds2 s a xs [] a s
  | cons {s s₁ s₂ a b c x xs y ys} (h : P s [x, y, a] b s₁) (hs : Folds2 s₁ b xs ys c s₂) : Folds2 s a (x :: xs) (y :: ys) c s₂

/-- Each element and the result of the rest, from the last element to the first. -/
inductive FoldsRight : S → Value → List Value → Value → S → Prop
  | nil {s a} : FoldsRight s a [] a s
  | cons {s s₁ s₂ a b c x xs} (hs : FoldsRight s a xs b s₁) (h : P s₁ [x, b] c s₂) : FoldsRight s a (x :: xs) c s₂

/-- The same for two lists, beginning where one of them ends. -/
inductive FoldsRight2 : S → Value → List Value → List Value → Value → S → Prop
  | nil1 {s a ys} : FoldsRight2 s a [] ys a s
  | nil2 {s a xs} : FoldsRight2 s a xs [] a s
  | cons {s s₁ s₂ a b c x xs y ys} (hs : FoldsRight2 s a xs ys b s₁) (h : P s₁ [x, y, b] c s₂) : FoldsRight2 s a (x :: xs) (y :: ys) c s₂

/-- The first element for which the value is true, or `#f`; the ones behind it are not looked at. -/
inductive Finds : S → List Value → Value → S → Prop
  | nil {s} : Finds s [] (.obj c_f) s
  | here {s s₁ x xs y} (h : P s [x] y s₁) (hy : True' y) : Finds s (x :: xs) x s₁
  | next {s s₁ s₂ x xs z} (h : P s [x] (.obj c_f) s₁) (hs : Finds s₁ xs z s₂) : Finds s (x :: xs) z s₂

/-- The position of the first element for which the value is true. -/
inductive Indexes : S → List Value → Option Nat → S → Prop
  | nil {s} : Indexes s [] none s
  | here {s s₁ x xs y} (h : P s [x] y s₁) (hy : True' y) : Indexes s (x :: xs) (some 0) s₁
  | next {s s₁ s₂ x xs i} (h : P s [x] (.obj c_f) s₁) (hs : Indexes s₁ xs i s₂) : Indexes s (x :: xs) (i.map (· + 1)) s₂

/-- The elements before the first one for which the value is false. -/
inductive TakesWhile : S → List Value → List Value → S → Prop
  | nil {s} : TakesWhile s [] [] s
  | keep {s s₁ s₂ x xs y ys} (h : P s [x] y s₁) (hy : True' y) (hs : TakesWhile s₁ xs ys s₂) : TakesWhile s (x :: xs) (x :: ys) s₂
  | stop {s s₁ x xs} (h : P s [x] (.obj c_f) s₁) : TakesWhile s (x :: xs) [] s₁

/-- The first true value, or `#f`. -/
inductive Anys : S → List Value → Value → S → Prop
  | nil {s} : Anys s [] (.obj c_f) s
  | here {s s₁ x xs y} (h : P s [x] y s₁) (hy : True' y) : Anys s (x :: xs) y s₁
  | next {s s₁ s₂ x xs z} (h : P s [x] (.obj c_f) s₁) (hs : Anys s₁ xs z s₂) : Anys s (x :: xs) z s₂

/-- `#f` at the first false value, or else the last value, `#t` for the empty list. -/
inductive Everys : S → List Value → Value → S → Prop
  | nil {s} : Everys s [] (.obj c_t) s
  | last {s s₁ x y} (h : P s [x] y s₁) : Everys s [x] y s₁
  | stop {s s₁ x xs} (h : P s [x] (.obj c_f) s₁) : Everys s (x :: xs) (.obj c_f) s₁
  | next {s s₁ s₂ x y z xs w} (h : P s [x] y s₁) (hy : True' y) (hs : Everys s₁ (z :: xs) w s₂) : Everys s (x :: z :: xs) w s₂

/-- The list from the first element on that is equal to `x`, where `P` compares. -/
inductive MembersBy (x : Value) : S → List Value → Option (List Value) → S → Prop
  | nil {s} : MembersBy x s [] none s
  | here {s s₁ z zs y} (h : P s [x, z] y s₁) (hy : True' y) : MembersBy x s (z :: zs) (some (z :: zs)) s₁
  | next {s s₁ s₂ z zs o} (h : P s [x, z] (.obj c_f) s₁) (hs : MembersBy x s₁ zs o s₂) : MembersBy x s (z :: zs) o s₂

/-- Of elements that are equal according to `P`, the last one is kept. -/
inductive DeletesBy : S → List Value → List Value → S → Prop
  | nil {s} : DeletesBy s [] [] s
  | drop {s s₁ s₂ x xs ys zs} (h : MembersBy P x s xs (some zs) s₁) (hs : DeletesBy s₁ xs ys s₂) : DeletesBy s (x :: xs) ys s₂
  | keep {s s₁ s₂ x xs ys} (h : MembersBy P x s xs none s₁) (hs : DeletesBy s₁ xs ys s₂) : DeletesBy s (x :: xs) (x :: ys) s₂

end

end Mes.Spec
