import Verif.Model.CRead
import Verif.Model.CNum
/-
Output functions of the C library, on one descriptor of a regular file as in `CRead`.  A stream is its descriptor.  `w` is the number of bits of a
`size_t`.  The messages of `__mes_debug` are left out.
-/
namespace Mes.C
open Res

/-- The bytes that the kernel reads in the memory of the program. -/
def getBytes (m : Mem) (a n : Nat) : Res (List Byte) := if a + n ≤ m.length then ok ((m.drop a).take n) else ub

/-- `fdputc`: /repo/lib/mes/fdputc.c:24-30, and `fputc`, `putc`, `putchar` (/repo/lib/stdio/fputc.c:23-27, putc.c, putchar.c): the byte at the address of
the `int` is its lowest. -/
def fdputc (g : Chunks) (f : Fd) (c : Int) : Int × Fd := (0, (write g f [toByte c]).2)

/-- `fdputs`: /repo/lib/mes/fdputs.c:25-31, and `fputs`, `oputs` (/repo/lib/stdio/fputs.c:23-27, /repo/lib/mes/oputs.c:25-31). -/
def fdputs (g : Chunks) (f : Fd) (m : Mem) (s : Nat) : Res (Int × Fd) := do
  let i ← strlen m s
  let bs ← getBytes m s i
  ok (0, (write g f bs).2)

/-- `puts`: /repo/lib/stdlib/puts.c:23-28.  The text "\n" is written directly. -/
def puts (g : Chunks) (f : Fd) (m : Mem) (s : Nat) : Res (Int × Fd) := do
  let (_, f) ← fdputs g f m s
  ok (0, (write g f [10]).2)

/-- The conversion of a `ssize_t` to `int`. -/
def intOf (n : Int) : Int := (n + 2147483648) % 4294967296 - 2147483648

/-- `fwrite`: /repo/lib/stdio/fwrite.c:25-53. -/
def fwrite (w : Nat) (g : Chunks) (f : Fd) (m : Mem) (data size count : Nat) : Res (Int × Fd) :=
  if size = 0 ∨ count = 0 then ok (0, f)
  else do
    let bs ← getBytes m data (size * count % 2 ^ w)
    let (r, f) := write g f bs
    let bytes := intOf r
    if bytes > 0 then ok (bytes / size, f) else ok (0, f)

/-- A call of an output function. -/
inductive OutCall where
  | char (c : Int)
  | text (s : Nat)
  | line (s : Nat)
  | block (data size count : Nat)

def OutCall.run (w : Nat) (g : Chunks) (f : Fd) (m : Mem) : OutCall → Res (Int × Fd)
  | .char c => ok (fdputc g f c)
  | .text s => fdputs g f m s
  | .line s => puts g f m s
  | .block d n k => fwrite w g f m d n k

/-- A program that calls output functions: the values and the descriptor. -/
def runOut (w : Nat) (g : Chunks) (f : Fd) (m : Mem) : List OutCall → Res (List Int × Fd)
  | [] => ok ([], f)
  | c :: cs => do
    let (r, f) ← c.run w g f m
    let (rs, f) ← runOut w g f m cs
    ok (r :: rs, f)

end Mes.C
