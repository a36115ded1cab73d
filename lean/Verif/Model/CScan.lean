import Verif.Model.CNum
/-
`vsscanf` of the C library.  The arguments are addresses.  Floating point numbers are left to a function `flt` that stands for `strtod` and the
store; `eputs` and `eputc` write to the standard error and have no other effect.
-/
namespace Mes.C
open Res

/-- Store of an `int`: four bytes, the least first. -/
def storeInt (m : Mem) (a : Nat) (v : Int) : Res Mem := do
  let m ← m.wr a (toByte v)
  let m ← m.wr (a + 1) (toByte (v / 256))
  let m ← m.wr (a + 2) (toByte (v / 65536))
  m.wr (a + 3) (toByte (v / 16777216))

/-- `va_arg` -/
def nextPointer : List Nat → Res (Nat × List Nat)
  | [] => ub
  | a :: as => ok (a, as)

/-- The letter of a conversion and its place: /repo/lib/stdio/vsscanf.c:42-44. -/
def scanLetter (m : Mem) (t : Nat) : Res (Byte × Nat) := do
  let c ← m.rd t
  if c = 108 then do
    let c ← m.rd (t + 1)
    ok (c, t + 1)
  else ok (c, t)

/-- The loop of `vsscanf`: /repo/lib/stdio/vsscanf.c:33-88. -/
def scanLoop (flt : Mem → Nat → Nat → Res (Mem × Nat)) : (fuel : Nat) → Mem → (p t : Nat) → List Nat → (count : Int) → Res (Int × Mem)
  | 0, _, _, _, _, _ => loop
  | fuel + 1, m, p, t, args, count => do
    let c ← m.rd t
    if c = 0 then ok (count, m)
    else do
      let b ← m.rd p
      if b = 0 then ok (count, m)
      else if c ≠ 37 then scanLoop flt fuel m (p + 1) (t + 1) args count
      else do
        let (c, t) ← scanLetter m (t + 1)
        if c = 37 then scanLoop flt fuel m (p + 1) (t + 1) args count
        else if c = 99 then do
          let (a, args) ← nextPointer args
          let b ← m.rd p
          let m ← m.wr a b
          let count ← int32 (count + 1)
          scanLoop flt fuel m (p + 1) (t + 1) args count
        else if c = 100 ∨ c = 105 ∨ c = 117 then do
          let (a, args) ← nextPointer args
          let (v, p) ← abtol m p 10
          let m ← storeInt m a v
          let count ← int32 (count + 1)
          scanLoop flt fuel m p (t + 1) args count
        else if c = 101 ∨ c = 102 ∨ c = 103 ∨ c = 69 ∨ c = 71 then do
          let (a, args) ← nextPointer args
          let (m, p) ← flt m p a
          let count ← int32 (count + 1)
          scanLoop flt fuel m p (t + 1) args count
        else scanLoop flt fuel m (p + 1) (t + 2) args count

/-- `vsscanf`: /repo/lib/stdio/vsscanf.c:27-91; `sscanf` (/repo/lib/stdio/sscanf.c:25-33) is the same. -/
def vsscanf (flt : Mem → Nat → Nat → Res (Mem × Nat)) (m : Mem) (s template : Nat) (args : List Nat) : Res (Int × Mem) :=
  scanLoop flt (m.length + 1) m s template args 0

end Mes.C
