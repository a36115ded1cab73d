import Verif.Spec.X64Fns
/- The registers that are allocated. -/
namespace Mes.X64
open Mes.Mescc

def Three (al rs : List String) : Prop :=
  (al = [] ∧ rs = registers64) ∨ (al = ["rax"] ∧ rs = registers64.drop 1) ∨ (al = ["rdi", "rax"] ∧ rs = registers64.drop 2)

theorem Reach.three {i : Alloc} (h : Reach i) : Three i.allocated i.registers := by
  induction h with
  | start => exact .inl ⟨rfl, rfl⟩
  | @allocate i j _ hj ih =>
    obtain ⟨al, rs, p⟩ := i
    rcases ih with ⟨ha, hr⟩ | ⟨ha, hr⟩ | ⟨ha, hr⟩ <;> simp only at ha hr <;> subst ha hr <;> simp [Alloc.allocate, registers64] at hj <;> subst hj
    · exact .inr (.inl ⟨rfl, rfl⟩)
    · exact .inr (.inr ⟨rfl, rfl⟩)
    · exact .inr (.inr ⟨rfl, rfl⟩)
  | @free i j _ hj ih =>
    obtain ⟨al, rs, p⟩ := i
    rcases ih with ⟨ha, hr⟩ | ⟨ha, hr⟩ | ⟨ha, hr⟩ <;> simp only at ha hr <;> subst ha hr <;> simp only [Alloc.free] at hj <;> split at hj <;>
      first | (simp at hj; done) | (cases hj)
    · exact .inl ⟨rfl, rfl⟩
    · exact .inl ⟨rfl, rfl⟩
    · exact .inr (.inl ⟨rfl, rfl⟩)
    · exact .inr (.inl ⟨rfl, rfl⟩)
    · exact .inr (.inr ⟨rfl, rfl⟩)
  | @call i _ ih =>
    obtain ⟨al, rs, p⟩ := i
    rcases ih with ⟨ha, hr⟩ | ⟨ha, hr⟩ | ⟨ha, hr⟩ <;> simp only at ha hr <;> subst ha hr <;> exact .inl ⟨rfl, rfl⟩

end Mes.X64
