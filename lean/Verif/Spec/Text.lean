import Verif.Spec.Heap
/-
Strings, symbols and keywords in memory as byte sequences.
-/
namespace Mes.Spec

/-- The string-like cell at `x` has the text `bs`: its length word is the number of bytes and it points at a byte
object with these bytes and a NUL behind them. -/
structure HasText (s : St) (x : Int) (bs : List Byte) : Prop where
  valid : s.Valid x
  length : (s.cell x).car = bs.length
  bvalid : s.Valid (s.cell x).cdr
  btag : (s.cell (s.cell x).cdr).tag = .bytes
  bytes : (s.cell (s.cell x).cdr).bytes = bs ++ [0]

/-- The string `bs` is at `x`. -/
structure IsString (s : St) (x : Int) (bs : List Byte) : Prop extends HasText s x bs where
  tag : (s.cell x).tag = .string

/-- Character code of a byte: 0 to 255. -/
def code (b : Byte) : Int := b.toNat

/-- The number of cells a string of `n` bytes takes (more than enough). -/
def stringCells (n : Nat) : Int := n / 8 + 5

end Mes.Spec
