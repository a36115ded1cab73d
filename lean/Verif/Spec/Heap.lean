import Verif.Model.Heap
/-
What a piece of the interpreter's memory means: which addresses are numbers, characters, lists, strings and vectors.
Only the memory itself is used here, none of the interpreter's functions.
-/
namespace Mes.Spec

/-- The cell at `p` is a number with value `n`. -/
structure IsNum (s : St) (p n : Int) : Prop where
  valid : s.Valid p
  tag : (s.cell p).tag = .number
  value : (s.cell p).cdr = n

/-- The cell at `p` is a character with code `n`. -/
structure IsChar (s : St) (p n : Int) : Prop where
  valid : s.Valid p
  tag : (s.cell p).tag = .char
  value : (s.cell p).cdr = n

/-- The chain of pairs starting at `p` and ending in `()`, whose cars are related to the elements `xs` by `R`. -/
inductive ListOf (s : St) {α : Type} (R : Int → α → Prop) : Int → List α → Prop
  | nil : ListOf s R c_nil []
  | cons {p : Int} {x : α} {xs : List α} (hne : p ≠ c_nil) (hv : s.Valid p) (ht : (s.cell p).tag = .pair)
      (hx : R (s.cell p).car x) (h : ListOf s R (s.cell p).cdr xs) : ListOf s R p (x :: xs)

/-- The proper list at `p` has exactly the elements (addresses) `xs`. -/
abbrev IsList (s : St) (p : Int) (xs : List Int) : Prop := ListOf s Eq p xs

/-- The list of numbers `ns` is at `p`. -/
abbrev Numbers (s : St) (p : Int) (ns : List Int) : Prop := ListOf s (IsNum s) p ns

/-- The list of characters with codes `ns` is at `p`. -/
abbrev Chars (s : St) (p : Int) (ns : List Int) : Prop := ListOf s (IsChar s) p ns

/-- The chain of pairs starting at `p` with the cars `xs` that ends in the value `q`. -/
inductive Seg (s : St) : Int → List Int → Int → Prop
  | nil (p : Int) : Seg s p [] p
  | cons {p q : Int} {xs : List Int} (hne : p ≠ c_nil) (hv : s.Valid p) (ht : (s.cell p).tag = .pair)
      (h : Seg s (s.cell p).cdr xs q) : Seg s p ((s.cell p).car :: xs) q

/-- `a` is the address of one of the pairs of the list at `p`. -/
inductive PairOf (s : St) : Int → Int → Prop
  | here {p : Int} (hne : p ≠ c_nil) : PairOf s p p
  | next {p a : Int} (hne : p ≠ c_nil) (h : PairOf s (s.cell p).cdr a) : PairOf s p a

/-- The chain of pairs at `p` with the cars `xs` ends in something that is neither a pair nor `()`. -/
inductive IsImproper (s : St) : Int → List Int → Prop
  | nil {p : Int} (hne : p ≠ c_nil) (hv : s.Valid p) (ht : (s.cell p).tag ≠ .pair) : IsImproper s p []
  | cons {p : Int} {xs : List Int} (hne : p ≠ c_nil) (hv : s.Valid p) (ht : (s.cell p).tag = .pair)
      (h : IsImproper s (s.cell p).cdr xs) : IsImproper s p ((s.cell p).car :: xs)

/-- `s'` comes from `s` by allocating cells and changing some cells in `P` only: every other cell allocated in `s` has
its contents, and nothing but the heap changed. -/
structure Frame (P : Int → Prop) (s s' : St) : Prop where
  le : s.free ≤ s'.free
  same : ∀ a, a < s.free → ¬ P a → s'.cell a = s.cell a
  rest : { s' with cell := s.cell, free := s.free } = s

/-- `s'` comes from `s` by allocating cells only. -/
abbrev Ext (s s' : St) : Prop := Frame (fun _ => False) s s'

/-- The predefined cells exist and there is room for `k` more cells. -/
structure Room (s : St) (k : Int) : Prop where
  base : c_symbol_max ≤ s.free
  room : s.free + k - g_cells ≤ s.arena

/-- The predefined cells have their types (/repo/src/symbol.c:58-175): specials up to `cell_vm_return`, then symbols. -/
def Fixed (s : St) : Prop := ∀ a, c_nil ≤ a → a < c_symbol_max → (s.cell a).tag = if a < 46 then .special else .symbol

end Mes.Spec
