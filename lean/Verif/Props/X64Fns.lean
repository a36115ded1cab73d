import Verif.Proof.X64Fns
import Verif.Proof.X64
/- C80: the lines of the x86_64 back end (/repo/module/mescc/x86_64/as.scm) have mnemonics that /repo/lib/x86_64-mes/x86_64.M1 defines. -/
namespace Mes.Props
open Mes.X64 Mes.Mescc

/-- C80, as one would want it: whatever registers are allocated, each line of each function has a mnemonic that the assembler knows. -/
def C80_full : Prop := ∀ i, Reach i → ∀ f name, Writes i f name → Known name

/-- It holds for all mnemonics but nineteen, for all constants. -/
theorem C80_partial (i : Alloc) (h : Reach i) (f : Fn64) (name : String) (hw : Writes i f name) (hm : name ∉ missing) : Known name :=
  ((good.known (List.all_eq_true.1 (lines_good h.three f hw.1) name hw.2)).resolve_left hm)

/-- And then its definition is the instruction that the mnemonic names, except for the twelve definitions of C78. -/
theorem C80_defined (i : Alloc) (h : Reach i) (f : Fn64) (name : String) (hw : Writes i f name) (hm : name ∉ missing) (hx : name ∉ wrongNames) :
    ∃ bs, (name, bs) ∈ defines64 ∧ Defined name bs := by
  obtain ⟨bs, hb⟩ := C80_partial i h f name hw hm
  refine ⟨bs, hb, ?_⟩
  have := List.all_eq_true.1 agrees_all _ hb
  rw [Bool.or_eq_true] at this
  rcases this with h | h
  · exact absurd (List.contains_iff_mem.1 h) hx
  · exact agrees.defined h

/-- At most two registers are allocated, and always the same. -/
theorem C80_registers (i : Alloc) (h : Reach i) : i.allocated = [] ∨ i.allocated = ["rax"] ∨ i.allocated = ["rdi", "rax"] := by
  rcases h.three with h | h | h
  · exact .inl h.1
  · exact .inr (.inl h.1)
  · exact .inr (.inr h.1)

/-- With one register and with two. -/
theorem C80_one : Reach ⟨["rax"], registers64.drop 1, 0⟩ := .allocate .start rfl
theorem C80_two : Reach ⟨["rdi", "rax"], registers64.drop 2, 0⟩ := .allocate C80_one rfl

/-- Each of the nineteen is written by some function, and is not defined. -/
theorem C80_missing : ∀ name ∈ missing, ¬ Known name ∧ ∃ i f, Reach i ∧ Writes i f name := by
  intro name hn
  refine ⟨fun ⟨bs, hb⟩ => ?_, ?_⟩
  · have := List.all_eq_true.1 missing_unknown name hn
    rw [List.contains_iff_mem.2 (List.mem_map.2 ⟨_, hb, rfl⟩)] at this
    exact absurd this (by decide)
  · simp only [missing, List.mem_cons, List.not_mem_nil, or_false] at hn
    rcases hn with rfl | rfl | rfl | rfl | rfl | rfl | rfl | rfl | rfl | rfl | rfl | rfl | rfl | rfl | rfl | rfl | rfl | rfl | rfl
    · exact ⟨_, .wordRToLocal 100 0, C80_one, by decide, by decide +kernel⟩
    · exact ⟨_, .labelMemAdd 1, C80_one, by decide, by decide +kernel⟩
    · exact ⟨_, .labelMemAdd 1000, C80_one, by decide, by decide +kernel⟩
    · exact ⟨_, .rAddValue 0x80000000, C80_one, by decide, by decide +kernel⟩
    · exact ⟨_, .rToByteLabel, C80_one, by decide, by decide +kernel⟩
    · exact ⟨_, .rAnd 255, C80_one, by decide, by decide +kernel⟩
    · exact ⟨_, .rCmpValue (-1000), C80_one, by decide, by decide +kernel⟩
    · exact ⟨_, .byteRToLocal 1 0, C80_two, by decide, by decide +kernel⟩
    · exact ⟨_, .byteRToLocal 100 0, C80_two, by decide, by decide +kernel⟩
    · exact ⟨_, .wordRToLocal 1 0, C80_two, by decide, by decide +kernel⟩
    · exact ⟨_, .wordRToLocal 100 0, C80_two, by decide, by decide +kernel⟩
    · exact ⟨_, .byteR0MemToR1Mem, C80_two, by decide, by decide +kernel⟩
    · exact ⟨_, .byteR0MemToR1Mem, C80_two, by decide, by decide +kernel⟩
    · exact ⟨_, .wordR0MemToR1Mem, C80_two, by decide, by decide +kernel⟩
    · exact ⟨_, .wordR0MemToR1Mem, C80_two, by decide, by decide +kernel⟩
    · exact ⟨_, .rAddValue 0x80000000, C80_two, by decide, by decide +kernel⟩
    · exact ⟨_, .rToByteLabel, C80_two, by decide, by decide +kernel⟩
    · exact ⟨_, .rMemAdd 1000, C80_two, by decide, by decide +kernel⟩
    · exact ⟨_, .rCmpValue 1000, C80_two, by decide, by decide +kernel⟩

theorem C80_false : ¬ C80_full := fun h => by
  obtain ⟨hk, i, f, hr, hw⟩ := C80_missing "movb___%al,0x32" (by decide +kernel)
  exact hk (h i hr f _ hw)

/-- The sum of two registers: two are allocated, after a call and after one was allocated in vain. -/
example : ∃ i, Reach i ∧ i.pushed = 1 ∧ Writes i .r0AddR1 "add____%rdi,%rax" ∧ "add____%rdi,%rax" ∉ missing ∧ "add____%rdi,%rax" ∉ wrongNames :=
  ⟨_, .allocate (.allocate (.allocate (.call C80_two) rfl) rfl) rfl, rfl, ⟨by decide, by decide +kernel⟩, by decide +kernel, by decide +kernel⟩

end Mes.Props
