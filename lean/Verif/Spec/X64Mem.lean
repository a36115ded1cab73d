import Verif.Spec.X64Run
/- Moves of 64 bits between registers and memory. -/
namespace Mes.X64
open X86 (Byte8)

structure Machine where
  reg : Nat → Quad
  mem : Quad → Byte8

/-- Byte `k` of a number, the least first. -/
def byteAt (v : Quad) (k : Nat) : Byte8 := BitVec.ofNat 8 (v.toNat / 256 ^ k)

/-- The memory with `v` in the eight bytes from `a`. -/
def store8 (mem : Quad → Byte8) (a v : Quad) : Quad → Byte8 := fun x => if (x - a).toNat < 8 then byteAt v (x - a).toNat else mem x

/-- The number in the eight bytes from `a`. -/
def load8 (mem : Quad → Byte8) (a : Quad) : Quad :=
  let b (k : Nat) : Nat := (mem (a + BitVec.ofNat 64 k)).toNat
  BitVec.ofNat 64 (b 0 + b 1 * 256 + b 2 * 65536 + b 3 * 16777216 + b 4 * 4294967296 + b 5 * 1099511627776 + b 6 * 281474976710656 + b 7 * 72057594037927936)

/-- One instruction with its displacement. -/
def move (i : Instr) (db : List Byte8) (m : Machine) : Option Machine :=
  match i with
  | ⟨.mov, .q, [.reg .q n, .mem (.reg b) _]⟩ => some { m with mem := store8 m.mem (m.reg b + immValue db) (m.reg n) }
  | ⟨.mov, .q, [.mem (.reg b) _, .reg .q n]⟩ => some { m with reg := fun k => if k = n then load8 m.mem (m.reg b + immValue db) else m.reg k }
  | _ => none

/-- The bytes are one instruction, which goes from `m` to `m'`. -/
def Moves (bs : List Byte8) (m m' : Machine) : Prop := ∃ i db, decode bs = some (i, db, [], []) ∧ move i db m = some m'

/-- The address of a local variable: `%rbp` is register 5. -/
def slot (m : Machine) (id : Int) : Quad := m.reg 5 - BitVec.ofInt 64 (8 * id)

/-- The displacement fits into four bytes. -/
def Near (o : Int) : Prop := -2147483648 ≤ o ∧ o < 2147483648

end Mes.X64
