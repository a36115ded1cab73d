import Verif.Spec.Heap
/-
Concrete memories for the non-vacuity examples and the counterexamples.
-/
namespace Mes.Spec

/-- Type of the predefined cells: /repo/src/symbol.c:58-175; those up to `cell_vm_return` are TSPECIAL, the others symbols. -/
def sampleFixed (a : Int) : Cell := { tag := if a < 46 then .special else .symbol, car := 0, cdr := 0 }

/-- A memory with the predefined cells and then the given ones, from address 116 on, in an arena of `n` cells. -/
def sampleN (n : Int) (cells : List Cell) : St where
  cell a := if a < c_symbol_max then sampleFixed a else cells.getD (a - c_symbol_max).toNat default
  free := c_symbol_max + cells.length
  arena := n
  jam := 100
  safety := 100
  limit := n + 100
  maxString := 8
  stackSize := 50
  stack _ := 0
  sp := 50
  r0 := c_nil
  r1 := c_nil
  r2 := c_nil
  r3 := c_nil
  m0 := c_nil
  symbols := 0
  macros := 0
  ports := c_nil
  continuations := 0

def sample (cells : List Cell) : St := sampleN 1000 cells

def num (n : Int) : Cell := { tag := .number, car := 0, cdr := n }
def chr (n : Int) : Cell := { tag := .char, car := 0, cdr := n }
def pair (a d : Int) : Cell := { tag := .pair, car := a, cdr := d }

/-- A run that is known to end in a state with `n` as the free address. -/
theorem ok_of_free {m : Res (Int × St)} {n : Int} (h : (m >>= fun p => Res.ok p.2.free) = .ok n) :
    ∃ r s', m = .ok (r, s') ∧ s'.free = n := by
  cases m with
  | ok p => exact ⟨p.1, p.2, rfl, by simpa using h⟩
  | _ => cases h

end Mes.Spec
