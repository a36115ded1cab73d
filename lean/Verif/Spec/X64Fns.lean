import Verif.Model.X64Fns
import Verif.Model.X64Defines
/- What C80 says about the functions of the x86_64 back end. -/
namespace Mes.X64
open Mes.Mescc

/-- The registers as they can be while a function is compiled: at first all are free, and then they are allocated, freed, and all are freed for a call.
After the call they are as before, which is one of the states before. -/
inductive Reach : Alloc → Prop
  | start : Reach ⟨[], registers64, 0⟩
  | allocate {i j} : Reach i → i.allocate = some j → Reach j
  | free {i j} : Reach i → i.free = some j → Reach j
  | call {i} : Reach i → Reach i.call

/-- The assembler knows the mnemonic. -/
def Known (name : String) : Prop := ∃ bs, (name, bs) ∈ defines64

/-- The function can be used with these registers, and writes a line with this mnemonic. -/
def Writes (i : Alloc) (f : Fn64) (name : String) : Prop := f.needs ≤ i.allocated.length ∧ name ∈ f.lines i.allocated i.registers

end Mes.X64
