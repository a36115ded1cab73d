import Verif.Proof.X64Mem
/- C82: local variables in the code that MesCC writes for x86_64, /repo/module/mescc/x86_64/as.scm. -/
namespace Mes.Props
open Mes.X64 Mes.Mescc

/-- `r->local` puts the register into the slot of the variable, and changes nothing else. -/
theorem C82_store (mesc : Bool) (i : Info) (n : Nat) (hu : Used (getR i) n) (id : Int) (h : Near (-8 * id)) (m : Machine) :
    ∃ bs m', assemble64 mesc (rToLocal64 i id) = some bs ∧ Moves bs m m' ∧ m'.reg = m.reg ∧ load8 m'.mem (slot m id) = m.reg n ∧
      ∀ a, 8 ≤ (a - slot m id).toNat → m'.mem a = m.mem a := by
  obtain ⟨bs, h1, h2⟩ := gives_store mesc hu (o := 0 - 8 * id) (by unfold Near at *; omega) m
  rw [slot_eq] at h2
  exact ⟨bs, _, h1, h2, rfl, load_store_same _ _ _, fun a ha => if_neg (by omega)⟩

/-- `local->r` loads the register from it, and changes nothing else. -/
theorem C82_load (mesc : Bool) (i : Info) (n : Nat) (hu : Used (getR i) n) (id : Int) (h : Near (-8 * id)) (m : Machine) :
    ∃ bs m', assemble64 mesc (localToR64 i id) = some bs ∧ Moves bs m m' ∧ m'.mem = m.mem ∧ m'.reg n = load8 m.mem (slot m id) ∧
      ∀ k, k ≠ n → m'.reg k = m.reg k := by
  obtain ⟨bs, h1, h2⟩ := gives_load mesc hu (o := 0 - 8 * id) (by unfold Near at *; omega) m
  rw [slot_eq] at h2
  exact ⟨bs, _, h1, h2, rfl, if_pos rfl, fun k hk => if_neg hk⟩

/-- `r->local+n` puts the register `n` bytes after the beginning of the slot. -/
theorem C82_offset (mesc : Bool) (i : Info) (n : Nat) (hu : Used (getR i) n) (id o : Int) (h : Near (-8 * id + o)) (m : Machine) :
    ∃ bs m', assemble64 mesc (rToLocalN64 i id o) = some bs ∧ Moves bs m m' ∧ m'.reg = m.reg ∧
      load8 m'.mem (slot m id + BitVec.ofInt 64 o) = m.reg n ∧ ∀ a, 8 ≤ (a - (slot m id + BitVec.ofInt 64 o)).toNat → m'.mem a = m.mem a := by
  obtain ⟨bs, h1, h2⟩ := gives_store mesc hu (o := 0 - 8 * id + o) (by unfold Near at *; omega) m
  rw [BitVec.ofInt_add, ← BitVec.add_assoc, slot_eq] at h2
  exact ⟨bs, _, h1, h2, rfl, load_store_same _ _ _, fun a ha => if_neg (by omega)⟩

/-- A variable that was stored is loaded again, into either register, and another variable has the value it had. -/
theorem C82_variables (mesc : Bool) (i j : Info) (n k : Nat) (hi : Used (getR i) n) (hj : Used (getR j) k) (id id' : Int) (h : Near (-8 * id))
    (h' : Near (-8 * id')) (m : Machine) :
    ∃ bs cs m' m'', assemble64 mesc (rToLocal64 i id) = some bs ∧ Moves bs m m' ∧ assemble64 mesc (localToR64 j id') = some cs ∧ Moves cs m' m'' ∧
      (id' = id → m''.reg k = m.reg n) ∧ (id' ≠ id → m''.reg k = load8 m.mem (slot m id')) := by
  obtain ⟨bs, m', h1, h2, hr, hv, ho⟩ := C82_store mesc i n hi id h m
  obtain ⟨cs, m'', h3, h4, _, hl, _⟩ := C82_load mesc j k hj id' h' m'
  have hs : slot m' id' = slot m id' := by rw [slot, slot, hr]
  rw [hs] at hl
  refine ⟨bs, cs, m', m'', h1, h2, h3, h4, fun e => by rw [hl, e, hv], fun hne => ?_⟩
  rw [hl]
  have key : ∀ q, q < 8 → m'.mem (slot m id' + BitVec.ofNat 64 q) = m.mem (slot m id' + BitVec.ofNat 64 q) := fun q hq =>
    ho _ (slots_apart (m.reg 5) (x := id) (y := id') (by unfold Near at *; omega) (by unfold Near at *; omega) (fun e => hne e.symm) q hq)
  simp only [load8, key 0 (by decide), key 1 (by decide), key 2 (by decide), key 3 (by decide), key 4 (by decide), key 5 (by decide), key 6 (by decide),
    key 7 (by decide)]

/-- Beyond four bytes it is another place: the variable 2^28 + 1 is written above the frame. -/
theorem C82_far (mesc : Bool) (i : Info) (n : Nat) (hu : Used (getR i) n) (m : Machine) :
    ∃ bs m', assemble64 mesc (rToLocal64 i 268435457) = some bs ∧ Moves bs m m' ∧ load8 m'.mem (m.reg 5 + BitVec.ofInt 64 2147483640) = m.reg n ∧
      load8 m'.mem (slot m 268435457) = load8 m.mem (slot m 268435457) := by
  obtain ⟨bs, h1, h2⟩ := gives_store mesc hu (o := 2147483640) (by unfold Near; omega) m
  refine ⟨bs, _, h1, h2, load_store_same _ _ _, load_store_apart _ _ _ _ fun k hk => ?_⟩
  have := slots_apart (m.reg 5) (x := -268435455) (y := 268435457) (by omega) (by omega) (by omega) k hk
  have e : m.reg 5 - BitVec.ofInt 64 (8 * -268435455) = m.reg 5 + BitVec.ofInt 64 2147483640 := (slot_eq m (-268435455)).symm
  rw [e] at this
  exact this

/-- The variables 1 and 20, of which the second needs four bytes, with `%rax` and `%rdi`. -/
example : ∃ (i j : Info), Used (getR i) 0 ∧ Used (getR j) 7 ∧ Near (-8 * 1) ∧ Near (-8 * 20) ∧
    rToLocal64 i 1 = [.ins "mov____%rax,0x8(%rbp)" [.imm1 (-8)]] ∧ localToR64 j 20 = [.ins "mov____0x32(%rbp),%rdi" [.imm4 (-160)]] :=
  ⟨⟨[], "", [], [], [], [], ["rax"], 0⟩, ⟨[], "", [], [], [], [], ["rdi"], 0⟩, .inl ⟨rfl, rfl⟩, .inr ⟨rfl, rfl⟩, by unfold Near; omega, by unfold Near; omega, by decide +kernel, by decide +kernel⟩

end Mes.Props
