import Verif.Spec.X64Run
import Verif.Spec.X64Fns
import Verif.Model.X64As
/- What C81 says the functions of the x86_64 back end do with registers. -/
namespace Mes.X64
open Mes.Mescc

/-- The lines of the function can be assembled, and their code goes from `s` to `s'`. -/
def Code (mesc : Bool) (i : Alloc) (f : Fn64) (s s' : Regs) : Prop :=
  ∃ bs, assemble64 mesc ((f.lines i.allocated i.registers).map (.ins · [])) = some bs ∧ Runs bs s s'

/-- All registers but these are as before. -/
def Regs.Same (ks : List Nat) (s s' : Regs) : Prop := ∀ k, k ∉ ks → s'.reg k = s.reg k

/-- The operations on `r0` and `r1`, and the other registers that are changed: `%rcx` by shifts, `%rdx` by the multiplication. -/
def binary : Fn64 → Option ((Quad → Quad → Quad) × List Nat)
  | .r0AddR1 => some (fun x y => x + y, [])
  | .r0SubR1 => some (fun x y => x - y, [])
  | .r0AndR1 => some (fun x y => x &&& y, [])
  | .r0OrR1 => some (fun x y => x ||| y, [])
  | .r0XorR1 => some (fun x y => x ^^^ y, [])
  | .r0MulR1 => some (fun x y => x * y, [2])
  | .r0ShlR1 => some (fun x y => x <<< (y.toNat % 64), [1])
  | .r0ShrR1 => some (fun x y => x >>> (y.toNat % 64), [1])
  | .r1ToR0 => some (fun _ y => y, [])
  | _ => none

/-- The operations on `r`: the complement, the double, and the extension of the lower part without and with its sign. -/
def unary : Fn64 → Option (Quad → Quad)
  | .notR => some fun x => ~~~ x
  | .rAddR => some fun x => 2 * x
  | .byteR => some fun x => BitVec.ofNat 64 (x.toNat % 2 ^ 8)
  | .wordR => some fun x => BitVec.ofNat 64 (x.toNat % 2 ^ 16)
  | .longR => some fun x => BitVec.ofNat 64 (x.toNat % 2 ^ 32)
  | .byteSignedR => some fun x => BitVec.ofInt 64 (x.toInt.bmod (2 ^ 8))
  | .wordSignedR => some fun x => BitVec.ofInt 64 (x.toInt.bmod (2 ^ 16))
  | .longSignedR => some fun x => BitVec.ofInt 64 (x.toInt.bmod (2 ^ 32))
  | _ => none

/-- The conditions. -/
def truth : Fn64 → Option (Quad → Quad → Prop)
  | .zfToR | .rNegate => some fun x y => x = y
  | .aToR => some fun x y => y.toNat < x.toNat
  | .aeToR => some fun x y => y.toNat ≤ x.toNat
  | .bToR => some fun x y => x.toNat < y.toNat
  | .beToR => some fun x y => x.toNat ≤ y.toNat
  | .gToR => some fun x y => y.toInt < x.toInt
  | .geToR => some fun x y => y.toInt ≤ x.toInt
  | .lToR => some fun x y => x.toInt < y.toInt
  | .leToR => some fun x y => x.toInt ≤ y.toInt
  | _ => none

/-- The number of the register `r`. -/
def current (i : Alloc) : Nat := if i.allocated.length = 2 then 7 else 0

end Mes.X64
