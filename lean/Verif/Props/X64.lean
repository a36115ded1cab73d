import Verif.Proof.X64
/- C78: the definitions of /repo/lib/x86_64-mes/x86_64.M1 are the instructions their mnemonics name. -/
namespace Mes.Props
open Mes.X64

/-- C78, as one would want it: the bytes of every definition, followed by whatever displacement and constant, are the instruction that the mnemonic
names. -/
def C78_full : Prop := ∀ e ∈ Mescc.defines64, Defined e.1 e.2

/-- It holds for all definitions but twelve. -/
theorem C78_partial : ∀ e ∈ Mescc.defines64, e.1 ∉ wrongNames → Defined e.1 e.2 := by
  intro e he hn
  have := List.all_eq_true.1 agrees_all e he
  rw [Bool.or_eq_true] at this
  rcases this with h | h
  · exact absurd (List.contains_iff_mem.1 h) hn
  · exact agrees.defined h

/-- Each of these twelve is defined, and as something else: five additions to memory and a move of a constant to memory have 32 bits instead of 64,
`addw___$i8,…` takes two bytes, `mov____$i8,%rax` sets `%al` only, `mov____%eax,%rax`, `mov____%edi,%rdi` and `movz___(%rax),%rax` name no instruction. -/
theorem C78_wrong : ∀ n ∈ wrongNames, ∃ bs, (n, bs) ∈ Mescc.defines64 ∧ ¬ Defined n bs := by
  intro n hn
  have := List.all_eq_true.1 disagrees_all n hn
  obtain ⟨e, he, h⟩ := List.any_eq_true.1 this
  rw [Bool.and_eq_true] at h
  have hx : e.1 = n := by simpa using h.1
  subst hx
  exact ⟨e.2, he, disagrees.not h.2⟩

theorem C78_false : ¬ C78_full := fun h => by
  obtain ⟨bs, hm, hn⟩ := C78_wrong "add____$i8,(%rax)" (by decide +kernel)
  exact hn (h _ hm)

/-- No mnemonic is defined twice. -/
theorem C78_once : (Mescc.defines64.map (·.1)).Nodup := by decide +kernel

/-- The addition of a constant to `(%rax)` changes the lower 32 bits only: it is the same instruction as `addl___$i8,(%rax)`. -/
theorem C78_add : ("add____$i8,(%rax)", [0x83, 0x00]) ∈ Mescc.defines64 ∧ ("addl___$i8,(%rax)", [0x83, 0x00]) ∈ Mescc.defines64 ∧
    ∀ b rest, decode ([0x83, 0x00] ++ ([] ++ ([b] ++ rest))) = some (⟨.alu 0, .l, [.imm 1, .mem (.reg 0) 0]⟩, [], [b], rest) :=
  ⟨by decide +kernel, by decide +kernel, fun b rest => decode_head (by decide +kernel) [] [b] rest rfl rfl⟩

/-- A definition with a displacement: `mov____%rax,0x8(%rbp)` with displacement -8. -/
example : ("mov____%rax,0x8(%rbp)", [0x48, 0x89, 0x45]) ∈ Mescc.defines64 ∧ "mov____%rax,0x8(%rbp)" ∉ wrongNames ∧
    decode [0x48, 0x89, 0x45, 0xf8, 0xc3] = some (⟨.mov, .q, [.reg .q 0, .mem (.reg 5) 1]⟩, [0xf8], [], [0xc3]) := by
  refine ⟨by decide +kernel, by decide +kernel, by decide +kernel⟩

end Mes.Props
