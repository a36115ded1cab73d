import Verif.Spec.X64
/- What instructions of x86_64 with registers and constants do. -/
namespace Mes.X64
open X86 (Byte8 word4)

abbrev Quad := BitVec 64

/-- The registers, and the operands of the last comparison, which say what the flags are. -/
structure Regs where
  reg : Nat → Quad
  compared : Option (Quad × Quad)

def Regs.put (s : Regs) (n : Nat) (v : Quad) : Regs := { s with reg := fun k => if k = n then v else s.reg k }

/-- A constant of less than eight bytes is extended with its sign. -/
def immValue : List Byte8 → Quad
  | [b] => b.signExtend 64
  | [b0, b1, b2, b3] => (word4 b0 b1 b2 b3).signExtend 64
  | [b0, b1, b2, b3, b4, b5, b6, b7] => word4 b4 b5 b6 b7 ++ word4 b0 b1 b2 b3
  | _ => 0

/-- The value of a source. -/
def source (s : Regs) (ib : List Byte8) : Opd → Option Quad
  | .reg .q n => some (s.reg n)
  | .imm _ => some (immValue ib)
  | _ => none

/-- The conditions, for the operands of a comparison: without sign `b`, `ae`, `be`, `a`, with sign `l`, `ge`, `le`, `g`. -/
def condition (c : Nat) (x y : Quad) : Option Bool :=
  match c with
  | 2 => some (decide (x.toNat < y.toNat))
  | 3 => some (decide (y.toNat ≤ x.toNat))
  | 4 => some (decide (x = y))
  | 5 => some (decide (x ≠ y))
  | 6 => some (decide (x.toNat ≤ y.toNat))
  | 7 => some (decide (y.toNat < x.toNat))
  | 12 => some (decide (x.toInt < y.toInt))
  | 13 => some (decide (y.toInt ≤ x.toInt))
  | 14 => some (decide (x.toInt ≤ y.toInt))
  | 15 => some (decide (y.toInt < x.toInt))
  | _ => none

/-- The lowest byte of a register. -/
def Regs.putByte (s : Regs) (n : Nat) (v : BitVec 8) : Regs := s.put n ((s.reg n).extractLsb' 8 56 ++ v)

/-- `%rdx:%rax` divided; there is an exception if the divisor is 0 or the quotient too big. -/
def divide (s : Regs) (d : Quad) : Option Regs :=
  let x := (s.reg 2).toNat * 2 ^ 64 + (s.reg 0).toNat
  if d.toNat = 0 ∨ 2 ^ 64 ≤ x / d.toNat then none
  else some { (s.put 0 (BitVec.ofNat 64 (x / d.toNat))).put 2 (BitVec.ofNat 64 (x % d.toNat)) with compared := none }

def divideSigned (s : Regs) (d : Quad) : Option Regs :=
  let x := (s.reg 2).toInt * 2 ^ 64 + (s.reg 0).toNat
  if d.toInt = 0 ∨ x.tdiv d.toInt < - 2 ^ 63 ∨ 2 ^ 63 ≤ x.tdiv d.toInt then none
  else some { (s.put 0 (BitVec.ofInt 64 (x.tdiv d.toInt))).put 2 (BitVec.ofInt 64 (x.tmod d.toInt)) with compared := none }

/-- One instruction.  Flags are represented after a comparison, a subtraction and a test, which compares the conjunction with 0; other instructions that
change them leave no comparison. -/
def exec (i : Instr) (ib : List Byte8) (s : Regs) : Option Regs :=
  match i with
  | ⟨.mov, .q, [x, .reg .q n]⟩ => (source s ib x).map fun v => s.put n v
  | ⟨.alu 0, .q, [x, .reg .q n]⟩ => (source s ib x).map fun v => { s.put n (s.reg n + v) with compared := none }
  | ⟨.alu 1, .q, [x, .reg .q n]⟩ => (source s ib x).map fun v => { s.put n (s.reg n ||| v) with compared := none }
  | ⟨.alu 4, .q, [x, .reg .q n]⟩ => (source s ib x).map fun v => { s.put n (s.reg n &&& v) with compared := none }
  | ⟨.alu 5, .q, [x, .reg .q n]⟩ => (source s ib x).map fun v => { s.put n (s.reg n - v) with compared := some (s.reg n, v) }
  | ⟨.alu 6, .q, [x, .reg .q n]⟩ => (source s ib x).map fun v => { s.put n (s.reg n ^^^ v) with compared := none }
  | ⟨.alu 7, .q, [x, .reg .q n]⟩ => (source s ib x).map fun v => { s with compared := some (s.reg n, v) }
  | ⟨.test, .q, [x, .reg .q n]⟩ => (source s ib x).map fun v => { s with compared := some (s.reg n &&& v, 0) }
  | ⟨.xchg, .q, [.reg .q m, .reg .q n]⟩ => some ((s.put m (s.reg n)).put n (s.reg m))
  | ⟨.not, .q, [.reg .q n]⟩ => some (s.put n (~~~ s.reg n))
  | ⟨.shl, .q, [.reg .b 1, .reg .q n]⟩ => some { s.put n (s.reg n <<< ((s.reg 1).toNat % 256 % 64)) with compared := none }
  | ⟨.shr, .q, [.reg .b 1, .reg .q n]⟩ => some { s.put n (s.reg n >>> ((s.reg 1).toNat % 256 % 64)) with compared := none }
  | ⟨.mul, .q, [.reg .q n]⟩ =>
    some { (s.put 0 (BitVec.ofNat 64 ((s.reg 0).toNat * (s.reg n).toNat))).put 2 (BitVec.ofNat 64 ((s.reg 0).toNat * (s.reg n).toNat / 2 ^ 64)) with compared := none }
  | ⟨.convert, .q, []⟩ => some (s.put 2 (if (s.reg 0).msb then BitVec.allOnes 64 else 0))
  | ⟨.div, .q, [.reg .q n]⟩ => divide s (s.reg n)
  | ⟨.idiv, .q, [.reg .q n]⟩ => divideSigned s (s.reg n)
  | ⟨.movzx .b, .q, [.reg .b m, .reg .q n]⟩ => some (s.put n (((s.reg m).setWidth 8).setWidth 64))
  | ⟨.movzx .w, .q, [.reg .w m, .reg .q n]⟩ => some (s.put n (((s.reg m).setWidth 16).setWidth 64))
  | ⟨.mov, .l, [.reg .l m, .reg .l n]⟩ => some (s.put n (((s.reg m).setWidth 32).setWidth 64))
  | ⟨.movsx .b, .q, [.reg .b m, .reg .q n]⟩ => some (s.put n (((s.reg m).setWidth 8).signExtend 64))
  | ⟨.movsx .w, .q, [.reg .w m, .reg .q n]⟩ => some (s.put n (((s.reg m).setWidth 16).signExtend 64))
  | ⟨.movsx .l, .q, [.reg .l m, .reg .q n]⟩ => some (s.put n (((s.reg m).setWidth 32).signExtend 64))
  | ⟨.set c, .b, [.reg .b n]⟩ => s.compared.bind fun (x, y) => (condition c x y).map fun b => s.putByte n (if b then 1 else 0)
  | _ => none

/-- The bytes, run to their end. -/
inductive Runs : List Byte8 → Regs → Regs → Prop
  | done {s : Regs} : Runs [] s s
  | step {bs db ib rest : List Byte8} {i : Instr} {s s1 s2 : Regs} : decode bs = some (i, db, ib, rest) → exec i ib s = some s1 → Runs rest s1 s2 → Runs bs s s2

/-- All registers but `n` and the scratch register `%r15` are as before. -/
def Regs.Kept (n : Nat) (s s' : Regs) : Prop := ∀ k, k ≠ n → k ≠ 15 → s'.reg k = s.reg k

end Mes.X64
