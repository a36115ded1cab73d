import Verif.Proof.X64Alloc
/- The functions of the x86_64 back end, and which mnemonics are defined. -/
namespace Mes.X64
open Mes.Mescc

/-- The mnemonics that are written and not defined; the empty one is the line of `r-cmp-value` that is no list. -/
def missing : List String :=
  ["mov____%ax,0x32(%rbp)", "add____$i8,0x32", "add____$i32,0x32", "add____%r15,%rax", "movb___%al,0x32", "and____$i32,%rax", "",
   "mov____%dil,0x8(%rbp)", "mov____%dil,0x32(%rbp)", "mov____%di,0x8(%rbp)", "mov____%di,0x32(%rbp)", "mov____(%rax),%sil", "mov____%sil,(%rdi)",
   "mov____(%rax),%si", "mov____%si,(%rdi)", "add____%r15,%rdi", "movb___%dil,0x32", "add____$i32,(%rdi)", "cmp____$i32,%rdi"]

def good (name : String) : Bool := missing.contains name || (defines64.map (·.1)).contains name

theorem good.known {name : String} (h : good name = true) : name ∈ missing ∨ Known name := by
  rw [good, Bool.or_eq_true] at h
  rcases h with h | h
  · exact .inl (List.contains_iff_mem.1 h)
  · obtain ⟨e, he, rfl⟩ := List.mem_map.1 (List.contains_iff_mem.1 h)
    exact .inr ⟨e.2, he⟩

theorem names_none (f : Fn64) (hn : f.needs ≤ 0) : (f.names "rax" "" "" "rax").all good = true := by
  cases f <;>
    first
    | exact absurd hn (Nat.not_succ_le_zero _)
    | decide +kernel
    | (rename_i b; cases b <;> decide +kernel)
    | (simp only [Fn64.names]; split <;> decide +kernel)
    | (simp only [Fn64.names]; split <;> first | decide +kernel | (split <;> decide +kernel))

theorem names_one (f : Fn64) (hn : f.needs ≤ 1) : (f.names "rax" "" "rax" "rdi").all good = true := by
  cases f <;>
    first
    | exact absurd hn (show ¬ 2 ≤ 1 by decide)
    | decide +kernel
    | (rename_i b; cases b <;> decide +kernel)
    | (simp only [Fn64.names]; split <;> decide +kernel)
    | (simp only [Fn64.names]; split <;> first | decide +kernel | (split <;> decide +kernel))

set_option maxHeartbeats 800000 in
theorem names_two (f : Fn64) : (f.names "rdi" "rax" "rdi" "rsi").all good = true := by
  cases f <;>
    first
    | decide +kernel
    | (rename_i b; cases b <;> decide +kernel)
    | (simp only [Fn64.names]; split <;> decide +kernel)
    | (simp only [Fn64.names]; split <;> first | decide +kernel | (split <;> decide +kernel))

theorem lines_good {al rs : List String} (h : Three al rs) (f : Fn64) (hn : f.needs ≤ al.length) : (f.lines al rs).all good = true := by
  rcases h with ⟨rfl, rfl⟩ | ⟨rfl, rfl⟩ | ⟨rfl, rfl⟩
  · exact names_none f hn
  · exact names_one f hn
  · exact names_two f

theorem missing_unknown : missing.all (fun n => !(defines64.map (·.1)).contains n) = true := by decide +kernel

end Mes.X64
