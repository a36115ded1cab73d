import Verif.Proof.Mnemonic

/-
C65: the definitions of /repo/lib/x86-mes/x86.M1 are the instructions their mnemonics name.
-/
namespace Mes.Props
open Mes.X86

/-- C65, as one would want it: the bytes of every definition, followed by whatever displacement and constant, are the instruction
that the mnemonic names. -/
def C65_full : Prop := ∀ e ∈ Mescc.defines, Defined e.1 e.2

/-- It holds for all definitions but eight. -/
theorem C65_partial : ∀ e ∈ Mescc.defines, e.1 ∉ wrongNames → Defined e.1 e.2 := defined_all

/-- Each of these eight is defined, and as something else: `cmp____$i8,%ebx` takes four bytes, `addw___$i8,…` two,
`mov____$i8,%eax` sets `%al` only, `mov____%cl,(%ebx)` and `mov____%cx,(%ebx)` are loads from `(%eax)`, and the two subtractions of
bytes are exchanged. -/
theorem C65_wrong : ∀ n ∈ wrongNames, ∃ bs, (n, bs) ∈ Mescc.defines ∧ ¬ Defined n bs := by
  refine List.forall_mem_cons.2 ⟨⟨[0x66, 0x81, 0x00], by decide +kernel, ?_⟩, ?_⟩
  · exact differs.not (db := []) (ib := [1]) (by decide +kernel)
  refine List.forall_mem_cons.2 ⟨⟨[0x66, 0x81, 0x03], by decide +kernel, ?_⟩, ?_⟩
  · exact differs.not (db := []) (ib := [1]) (by decide +kernel)
  refine List.forall_mem_cons.2 ⟨⟨[0x81, 0xfb], by decide +kernel, ?_⟩, ?_⟩
  · exact differs.not (db := []) (ib := [1]) (by decide +kernel)
  refine List.forall_mem_cons.2 ⟨⟨[0xb0], by decide +kernel, ?_⟩, ?_⟩
  · exact differs.not (db := []) (ib := [1]) (by decide +kernel)
  refine List.forall_mem_cons.2 ⟨⟨[0x8a, 0x08], by decide +kernel, ?_⟩, ?_⟩
  · exact differs.not (db := []) (ib := []) (by decide +kernel)
  refine List.forall_mem_cons.2 ⟨⟨[0x66, 0x8b, 0x08], by decide +kernel, ?_⟩, ?_⟩
  · exact differs.not (db := []) (ib := []) (by decide +kernel)
  refine List.forall_mem_cons.2 ⟨⟨[0x28, 0xd0], by decide +kernel, ?_⟩, ?_⟩
  · exact differs.not (db := []) (ib := []) (by decide +kernel)
  refine List.forall_mem_cons.2 ⟨⟨[0x28, 0xc2], by decide +kernel, ?_⟩, ?_⟩
  · exact differs.not (db := []) (ib := []) (by decide +kernel)
  exact fun _ h => nomatch h

theorem C65_false : ¬ C65_full := fun h => by
  obtain ⟨bs, hm, hn⟩ := C65_wrong "mov____%cl,(%ebx)" (by decide +kernel)
  exact hn (h _ hm)

/-- A definition with a displacement and a constant: `add____$i8,0x8(%ebp)` with displacement -4 and constant 7. -/
example : ("add____$i8,0x8(%ebp)", [0x83, 0x45]) ∈ Mescc.defines ∧ "add____$i8,0x8(%ebp)" ∉ wrongNames ∧
    decode ([0x83, 0x45] ++ ([0xfc] ++ ([0x07] ++ [0x90]))) = some (.alu .add .l (.mem (some .ebp) (-4)) (.imm 7), [0x90]) := by
  refine ⟨by decide +kernel, by decide +kernel, by decide +kernel⟩

end Mes.Props
