import Verif.Model.Mescc
import Verif.Model.X64Defines
/-
The functions of MesCC for x86_64 that write constants into the text, /repo/module/mescc/x86_64/as.scm, and what M1 makes of their lines,
/repo/module/mescc/M1.scm.  `mesc` is whether the compiler of MesCC was "mesc" (/repo/module/mescc/M1.scm:91).  M1 puts the numbers behind "!" and "%"
into one and four bytes, the least byte first, and drops what does not fit.
-/
namespace Mes.Mescc
open X86 (Byte8)

/-- The constants of an instruction: `#:immediate1`, `#:immediate`, `#:immediate8`. -/
inductive Arg64
  | imm1 (v : Int)
  | imm4 (v : Int)
  | imm8 (v : Int)
deriving DecidableEq, Repr

/-- A line of the text; `bad` is something else than a list, for which M1.scm has no text. -/
inductive Line64
  | ins (name : String) (args : List Arg64)
  | bad
deriving DecidableEq, Repr

/-- `x86_64:value->r`: /repo/module/mescc/x86_64/as.scm:80-86. -/
def valueToR64 (i : Info) (v : Int) : List Line64 :=
  if 0 ≤ v ∧ v < 0xffffffff then [.ins ("mov____$i32,%" ++ getR i) [.imm4 v]] else [.ins ("mov____$i64,%" ++ getR i) [.imm8 v]]

/-- `x86_64:local-ptr->r`: /repo/module/mescc/x86_64/as.scm:190-195. -/
def localPtrToR64 (i : Info) (id : Int) : List Line64 :=
  [.ins ("mov____%rbp,%" ++ getR i) [],
   if (0 - 8 * id).natAbs < 0x80 then .ins ("add____$i8,%" ++ getR i) [.imm1 (0 - 8 * id)] else .ins ("add____$i32,%" ++ getR i) [.imm4 (0 - 8 * id)]]

/-- `x86_64:r+value`: /repo/module/mescc/x86_64/as.scm:484-493. -/
def rAddValue64 (i : Info) (v : Int) : List Line64 :=
  if v.natAbs < 0x80 then [.ins ("add____$i8,%" ++ getR i) [.imm1 v]]
  else if v.natAbs < 0x80000000 then [.ins ("add____$i32,%" ++ getR i) [.imm4 v]]
  else [.ins "mov____$i64,%r15" [.imm8 v], .ins ("add____%r15,%" ++ getR i) []]

/-- `x86_64:r-cmp-value`: /repo/module/mescc/x86_64/as.scm:517-526.  In the last case the parentheses around the lines are missing. -/
def rCmpValue64 (i : Info) (v : Int) : List Line64 :=
  if v.natAbs < 0x80 then [.ins ("cmp____$i8,%" ++ getR i) [.imm1 v]]
  else if 0 ≤ v ∧ v < 0xffffffff then [.ins ("cmp____$i32,%" ++ getR i) [.imm4 v]]
  else [.bad, .bad, .bad]

/-- `x86_64:r0+value`: /repo/module/mescc/x86_64/as.scm:597-600. -/
def r0AddValue64 (i : Info) (v : Int) : List Line64 :=
  [if v.natAbs < 0x80 then .ins ("add____$i8,%" ++ getR0 i) [.imm1 v] else .ins ("add____$i32,%" ++ getR0 i) [.imm4 v]]

/-- `x86_64:value->r0`: /repo/module/mescc/x86_64/as.scm:602-604. -/
def valueToR064 (i : Info) (v : Int) : List Line64 := [.ins ("mov____$i32,%" ++ getR0 i) [.imm4 v]]

/-- `x86_64:r-and`: /repo/module/mescc/x86_64/as.scm:639-645. -/
def rAnd64 (i : Info) (v : Int) : List Line64 :=
  if 0 ≤ v ∧ v < 0xffffffff then [.ins ("and____$i32,%" ++ getR i) [.imm4 v]]
  else [.ins "mov____$i64,%r15" [.imm8 v], .ins ("and____%r15,%" ++ getR i) []]

/-- `hex2:immediate8`: /repo/module/mescc/M1.scm:93-101, the two numbers. -/
def immediate8 (mesc : Bool) (o : Int) : Int × Int :=
  (if mesc then 0 else o % 0x100000000, if o < 0 then -1 else if mesc then o else o / 0x100000000)

/-- The bytes of a constant: /repo/module/mescc/M1.scm:75-101. -/
def Arg64.bytes (mesc : Bool) : Arg64 → List Byte8
  | .imm1 v => [BitVec.ofInt 8 v]
  | .imm4 v => le4 (BitVec.ofInt 32 v)
  | .imm8 v => le4 (BitVec.ofInt 32 (immediate8 mesc v).1) ++ le4 (BitVec.ofInt 32 (immediate8 mesc v).2)

/-- The bytes of a line; `none` if the mnemonic is not defined. -/
def Line64.bytes (mesc : Bool) : Line64 → Option (List Byte8)
  | .ins name args => (defines64.lookup name).map fun bs => bs ++ args.flatMap (Arg64.bytes mesc)
  | .bad => none

/-- The bytes of a text. -/
def assemble64 (mesc : Bool) : List Line64 → Option (List Byte8)
  | [] => some []
  | l :: ls => (l.bytes mesc).bind fun bs => (assemble64 mesc ls).map fun cs => bs ++ cs

end Mes.Mescc
