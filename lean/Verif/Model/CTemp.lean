import Verif.Model.CString
/- `mktemp` of the C library.  The value of a pointer is the address in the memory. -/
namespace Mes.C
open Res

/-- `int q = (long) template`: the low 32 bits, signed: /repo/lib/posix/mktemp.c:28. -/
def lowInt (a : Nat) : Int := if a % 4294967296 < 2147483648 then ((a % 4294967296 : Nat) : Int) else ((a % 4294967296 : Nat) : Int) - 4294967296

/-- `((unsigned char) (q >> k)) % 26 + 'a'` for `d` = 2 to the power `k`. -/
def tempLetter (q : Int) (d : Int) : Byte := UInt8.ofNat ((q / d % 256).toNat % 26 + 97)

/-- `*--p = b`: a pointer before the memory is undefined behaviour. -/
def putBefore (m : Mem) (p : Nat) (b : Byte) : Res (Mem × Nat) :=
  if p = 0 then ub
  else do
    let m ← m.wr (p - 1) b
    ok (m, p - 1)

/-- The six assignments: /repo/lib/posix/mktemp.c:29-34, for the list of the divisors. -/
def putLetters (q : Int) : List Int → Mem → Nat → Res Mem
  | [], m, _ => ok m
  | d :: ds, m, p => do
    let (m, p) ← putBefore m p (tempLetter q d)
    putLetters q ds m p

/-- `mktemp`: /repo/lib/posix/mktemp.c:24-36. -/
def mktemp (m : Mem) (template : Nat) : Res (Mem × Nat) := do
  let p ← strchr m template 0
  match p with
  | none => ub
  | some p => do
    let m ← putLetters (lowInt template) [16, 256, 4096, 65536, 1048576, 16777216] m p
    ok (m, template)

end Mes.C
