import Verif.Model.Res
/-
Byte memory for the C library functions of /repo/lib.

Simplification: one flat finite memory; an address is an index, and an access outside the memory is undefined
behaviour.  Objects are sub-ranges; that a function stays inside *its* objects is part of the theorems ("nothing else
changes"), not of the memory model.  `char` is signed, as on x86 and x86_64.
-/
namespace Mes

abbrev Byte := UInt8
abbrev Mem := List Byte

namespace Mem

/-- Read one byte. -/
def rd (m : Mem) (a : Nat) : Res Byte := Res.ofRead m[a]?

/-- Write one byte. -/
def wr (m : Mem) (a : Nat) (b : Byte) : Res Mem := if a < m.length then Res.ok (m.set a b) else Res.ub

end Mem

/-- Value of a `char` holding byte `b` when promoted to `int` (signed `char`). -/
def sc (b : Byte) : Int := if b.toNat < 128 then (b.toNat : Int) else (b.toNat : Int) - 256

/-- Value of an `unsigned char` holding byte `b`. -/
def uc (b : Byte) : Int := (b.toNat : Int)

/-- Conversion of an `int` to `char` on assignment: the low eight bits. -/
def toByte (c : Int) : Byte := UInt8.ofNat (c % 256).toNat

/-- INT_MAX for 32-bit `int`. -/
def INT_MAX : Nat := 2147483647

end Mes
