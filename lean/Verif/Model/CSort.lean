import Verif.Model.CMem
import Verif.Model.Heap
/-
Model of /repo/lib/stdlib/qsort.c over the flat byte memory.

Simplified: the comparison function gets the bytes of the two elements (`size` bytes from the address that C passes) and does
nothing but return an `int`; addresses do not wrap around.
-/
namespace Mes.C
open Res

/-- A function that compares two elements, given by their bytes. -/
abbrev Compare := List Byte → List Byte → Int

/-- The element at the address. -/
def element (m : Mem) : (size a : Nat) → Res (List Byte)
  | 0, _ => ok []
  | size + 1, a => do
    let b ← m.rd a
    let bs ← element m size (a + 1)
    ok (b :: bs)

/-- The loop of `qswap`: /repo/lib/stdlib/qsort.c:30-35. -/
def qswapLoop : (n : Nat) → (m : Mem) → (a b : Nat) → Res Mem
  | 0, m, _, _ => ok m
  | n + 1, m, a, b => do
    let tmp ← m.rd a
    let x ← m.rd b
    let m ← m.wr a x
    let m ← m.wr b tmp
    qswapLoop n m (a + 1) (b + 1)

/-- `qswap`: /repo/lib/stdlib/qsort.c:25-36; the loop runs at least once, and for size 0 the counter wraps around. -/
def qswap (m : Mem) (a b size : Nat) : Res Mem := qswapLoop (if size = 0 then 2 ^ 64 else size) m a b

/-- The loop of `qpart`, from `j` on, `n` rounds left: /repo/lib/stdlib/qsort.c:43-59. -/
def qpartLoop (compare : Compare) (base size p : Nat) : (n : Nat) → (m : Mem) → (i j : Nat) → Res (Mem × Nat)
  | 0, m, i, _ => ok (m, i)
  | n + 1, m, i, j => do
    let x ← element m size (base + j * size)
    let y ← element m size p
    let c := compare x y
    if c < 0 then do
      let m ← qswap m (base + i * size) (base + j * size) size
      qpartLoop compare base size p n m (i + 1) (j + 1)
    else if c = 0 then qpartLoop compare base size p n m (i + 1) (j + 1)
    else qpartLoop compare base size p n m i (j + 1)

/-- `qpart`: /repo/lib/stdlib/qsort.c:38-63. -/
def qpart (compare : Compare) (m : Mem) (base count size : Nat) : Res (Mem × Nat) := do
  let (m, i) ← qpartLoop compare base size (base + count * size) count m 0 0
  let x ← element m size (base + count * size)
  let y ← element m size (base + i * size)
  let m ← if compare x y < 0 then qswap m (base + i * size) (base + count * size) size else ok m
  ok (m, i)

/-- Conversion to `size_t`. -/
def toSize (n : Int) : Nat := (n % 2 ^ 64).toNat

/-- `qsort`: /repo/lib/stdlib/qsort.c:65-80; `p` is an `int`. -/
def qsort (compare : Compare) : (fuel : Nat) → (m : Mem) → (base count size : Nat) → Res Mem
  | 0, _, _, _, _ => loop
  | fuel + 1, m, base, count, size =>
    if count > 1 then do
      let (m, i) ← qpart compare m base (count - 1) size
      let p := toInt32 i
      let m ← qsort compare fuel m base (toSize p) size
      qsort compare fuel m (base + toSize p * size) (toSize (count - p)) size
    else ok m

end Mes.C
