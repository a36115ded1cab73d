import Verif.Spec.MesccFits
import Verif.Model.Mescc

/-
A call of a function on the i386: what the caller provides, and what it gets.
-/
namespace Mes.X86
open Mes.Mescc Mes.CLang

/-- The labels of a text. -/
def labelsOf (ls : List Line) : List String := ls.filterMap fun l => match l with | .label x => some x | _ => none

/-- The addresses that a call may write to: `n` arguments and the return address at `sp`, the saved `%ebp` and 1045 words for variables below,
and `room` words for values. -/
def OnStack (sp : Word) (room n : Nat) (x : Word) : Prop :=
  (x - (sp - BitVec.ofNat 32 (4 * (room + 1046)))).toNat < 4 * (room + 1047 + n)

instance (sp : Word) (room n : Nat) (x : Word) : Decidable (OnStack sp room n x) := inferInstanceAs (Decidable (_ < _))

/-- The machine at the first instruction of a function: its code is in memory apart from the stack, `%esp` points to the return address,
and the arguments follow. -/
structure Called (base : Word) (bs : List Byte8) (vs : List Int) (room : Nat) (m : Mach) : Prop where
  eip : m.eip = base
  code : ∀ i (h : i < bs.length), m.mem (base + BitVec.ofNat 32 i) = bs[i] ∧ ¬ OnStack (m.reg .esp) room vs.length (base + BitVec.ofNat 32 i)
  args : ∀ k (h : k < vs.length), read32 m (m.reg .esp + BitVec.ofNat 32 (4 * (k + 1))) = BitVec.ofInt 32 vs[k]
  size : 4 * (room + 1047 + vs.length) ≤ 2 ^ 32

/-- The machine comes back to the caller, with the value in `%eax`; `%esp` has gone past the return address, `%ebp` and the memory outside the
stack are what they were. -/
def Returns (m : Mach) (room n : Nat) (v : Int) : Prop :=
  ∃ m', Steps m m' ∧ m'.eip = read32 m (m.reg .esp) ∧ m'.reg .eax = BitVec.ofInt 32 v ∧ m'.reg .esp = m.reg .esp + 4 ∧ m'.reg .ebp = m.reg .ebp ∧
    ∀ x, ¬ OnStack (m.reg .esp) room n x → m'.mem x = m.mem x

/-- A function within the bounds: its types exist, its parts are where the grammar has them, it has no more variables than there is space
for, and its expressions need no more values than there is room for. -/
structure Sized (f : Function) (room : Nat) : Prop where
  params : ∀ p ∈ f.params, p.2.Ok
  formed : f.body.Formed
  decls : CLang.decls f.body ≤ 1045
  depth : depthS f.body ≤ room + 2

end Mes.X86
