import Verif.Proof.X86Ins

/-
The instructions with conditions: shifts, divisions, jumps, flags.
-/
namespace Mes.X86
open Mes.Mescc

variable {X : Frame} {m : Mach} {ls : List Line}

theorem i_shl (h : Here X m (.ins "shl____%cl,%eax" [] :: ls)) :
    ∃ m', Next X m m' (.ins "shl____%cl,%eax" []) ls ∧
      m'.reg = upd m.reg .eax (m.reg .eax <<< (((m.reg .ecx).extractLsb' 0 8).toNat % 32)) ∧ m'.mem = m.mem := by
  have hc : (get { m with eip := m.eip + BitVec.ofNat 32 (Line.ins "shl____%cl,%eax" []).size } .b (.reg 1)).toNat =
      ((m.reg .ecx).extractLsb' 0 8).toNat := by
    show (((m.reg .ecx).extractLsb' 0 8).setWidth 32).toNat = _
    rw [BitVec.toNat_setWidth_of_le (by omega)]
  by_cases h0 : ((m.reg .ecx).extractLsb' 0 8).toNat % 32 = 0
  · obtain ⟨m', hn, h1, h2, -⟩ := ins_of (m' := { m with eip := m.eip + BitVec.ofNat 32 (Line.ins "shl____%cl,%eax" []).size }) h (by rfl)
      (fun _ => by rfl) (by decide +kernel) (by show (if _ then _ else _) = _; rw [hc, if_pos h0]) rfl
    refine ⟨m', hn, h1.trans ?_, h2⟩
    rw [h0]
    funext r
    unfold upd
    split
    · subst r; simp
    · rfl
  · obtain ⟨m', hn, h1, h2, -⟩ := ins_of h (by rfl) (fun _ => by rfl) (by decide +kernel)
      (by show (if _ then _ else _) = _; rw [hc, if_neg h0]; rfl) rfl
    exact ⟨m', hn, h1, h2⟩

theorem i_shr (h : Here X m (.ins "shr____%cl,%eax" [] :: ls)) :
    ∃ m', Next X m m' (.ins "shr____%cl,%eax" []) ls ∧
      m'.reg = upd m.reg .eax (m.reg .eax >>> (((m.reg .ecx).extractLsb' 0 8).toNat % 32)) ∧ m'.mem = m.mem := by
  have hc : (get { m with eip := m.eip + BitVec.ofNat 32 (Line.ins "shr____%cl,%eax" []).size } .b (.reg 1)).toNat =
      ((m.reg .ecx).extractLsb' 0 8).toNat := by
    show (((m.reg .ecx).extractLsb' 0 8).setWidth 32).toNat = _
    rw [BitVec.toNat_setWidth_of_le (by omega)]
  by_cases h0 : ((m.reg .ecx).extractLsb' 0 8).toNat % 32 = 0
  · obtain ⟨m', hn, h1, h2, -⟩ := ins_of (m' := { m with eip := m.eip + BitVec.ofNat 32 (Line.ins "shr____%cl,%eax" []).size }) h (by rfl)
      (fun _ => by rfl) (by decide +kernel) (by show (if _ then _ else _) = _; rw [hc, if_pos h0]) rfl
    refine ⟨m', hn, h1.trans ?_, h2⟩
    rw [h0]
    funext r
    unfold upd
    split
    · subst r; simp
    · rfl
  · obtain ⟨m', hn, h1, h2, -⟩ := ins_of h (by rfl) (fun _ => by rfl) (by decide +kernel)
      (by show (if _ then _ else _) = _; rw [hc, if_neg h0]; rfl) rfl
    exact ⟨m', hn, h1, h2⟩

theorem i_idiv (h : Here X m (.ins "idiv___%ebx" [] :: ls)) (h0 : (m.reg .ebx).toInt ≠ 0)
    (hq : -2 ^ 31 ≤ (m.reg .edx ++ m.reg .eax).toInt.tdiv (m.reg .ebx).toInt ∧ (m.reg .edx ++ m.reg .eax).toInt.tdiv (m.reg .ebx).toInt < 2 ^ 31) :
    ∃ m', Next X m m' (.ins "idiv___%ebx" []) ls ∧
      m'.reg = upd (upd m.reg .eax (BitVec.ofInt 32 ((m.reg .edx ++ m.reg .eax).toInt.tdiv (m.reg .ebx).toInt))) .edx
        (BitVec.ofInt 32 ((m.reg .edx ++ m.reg .eax).toInt.tmod (m.reg .ebx).toInt)) ∧ m'.mem = m.mem := by
  obtain ⟨m', hn, h1, h2, -⟩ := ins_of h (by rfl) (fun _ => by rfl) (by decide +kernel)
    (by
      show (if (m.reg .ebx).toInt = 0 then _ else if (m.reg .edx ++ m.reg .eax).toInt.tdiv (m.reg .ebx).toInt < -2 ^ 31 ∨
        2 ^ 31 ≤ (m.reg .edx ++ m.reg .eax).toInt.tdiv (m.reg .ebx).toInt then _ else _) = _
      rw [if_neg h0, if_neg (by omega)]) rfl
  exact ⟨m', hn, h1, h2⟩

theorem i_div (h : Here X m (.ins "div___%ebx" [] :: ls)) (h0 : (m.reg .ebx).toNat ≠ 0) (hz : m.reg .edx = 0) :
    ∃ m', Next X m m' (.ins "div___%ebx" []) ls ∧
      m'.reg = upd (upd m.reg .eax (BitVec.ofNat 32 ((m.reg .eax).toNat / (m.reg .ebx).toNat))) .edx
        (BitVec.ofNat 32 ((m.reg .eax).toNat % (m.reg .ebx).toNat)) ∧ m'.mem = m.mem := by
  have hn0 : (m.reg .edx).toNat * 2 ^ 32 + (m.reg .eax).toNat = (m.reg .eax).toNat := by rw [hz]; simp
  have hlt : (m.reg .eax).toNat / (m.reg .ebx).toNat < 2 ^ 32 := Nat.lt_of_le_of_lt (Nat.div_le_self _ _) (m.reg .eax).isLt
  have hlt' : ((m.reg .edx).toNat * 2 ^ 32 + (m.reg .eax).toNat) / (m.reg .ebx).toNat < 2 ^ 32 := by rw [hn0]; exact hlt
  obtain ⟨m', hn, h1, h2, -⟩ := ins_of h (by rfl) (fun _ => by rfl) (by decide +kernel)
    (by
      show (if (m.reg .ebx).toNat = 0 then _ else if 2 ^ 32 ≤ ((m.reg .edx).toNat * 2 ^ 32 + (m.reg .eax).toNat) / (m.reg .ebx).toNat then _ else _) = _
      rw [if_neg h0]
      exact if_neg (Nat.not_le.2 hlt')) rfl
  refine ⟨m', hn, h1.trans ?_, h2⟩
  show upd (upd m.reg .eax (BitVec.ofNat 32 (((m.reg .edx).toNat * 2 ^ 32 + (m.reg .eax).toNat) / (m.reg .ebx).toNat))) .edx
        (BitVec.ofNat 32 (((m.reg .edx).toNat * 2 ^ 32 + (m.reg .eax).toNat) % (m.reg .ebx).toNat)) = _
  rw [hn0]

/-- `xor $0x40,%ah` -/
theorem i_xor_ah (h : Here X m (.ins "xor____$i8,%ah" [.imm1 0x40] :: ls)) :
    ∃ m', Next X m m' (.ins "xor____$i8,%ah" [.imm1 0x40]) ls ∧
      m'.reg = upd m.reg .eax ((m.reg .eax).extractLsb' 16 16 ++
        ((((((m.reg .eax).extractLsb' 8 8).setWidth 32).setWidth 8 ^^^ (0x40 : Byte8)).setWidth 32).extractLsb' 0 8) ++ (m.reg .eax).extractLsb' 0 8) ∧
      m'.mem = m.mem := by
  obtain ⟨m', hn, h1, h2, -⟩ := ins_of h (by rfl) (fun _ => by rfl) (by decide +kernel) (by rfl) rfl
  exact ⟨m', hn, h1, h2⟩

theorem i_sahf (h : Here X m (.ins "sahf" [] :: ls)) :
    ∃ m', Next X m m' (.ins "sahf" []) ls ∧ m'.reg = m.reg ∧ m'.mem = m.mem ∧ m'.flags.zf = (((m.reg .eax).extractLsb' 8 8).setWidth 32).getLsbD 6 := by
  obtain ⟨m', hn, h1, h2, h3⟩ := ins_of h (by rfl) (fun _ => by rfl) (by decide +kernel) (by rfl) rfl
  exact ⟨m', hn, h1, h2, by rw [h3]; rfl⟩

/-- A jump to a label: its address. -/
theorem rel_eq (e a : Word) (k : Nat) : a + BitVec.ofNat 32 (k + 4) + word4 ((e - (a + BitVec.ofNat 32 k + 4)).extractLsb' 0 8)
    ((e - (a + BitVec.ofNat 32 k + 4)).extractLsb' 8 8) ((e - (a + BitVec.ofNat 32 k + 4)).extractLsb' 16 8)
    ((e - (a + BitVec.ofNat 32 k + 4)).extractLsb' 24 8) = e := by
  rw [word4_bytes, BitVec.ofNat_add, ← BitVec.add_assoc]
  show a + BitVec.ofNat 32 k + 4 + (e - (a + BitVec.ofNat 32 k + 4)) = e
  rw [BitVec.add_comm, BitVec.sub_add_cancel]

theorem i_jmp {l : String} (h : Here X m (.ins "jmp32" [.offset l] :: ls)) :
    ∃ m', Steps m m' ∧ m'.eip = X.env l ∧ m'.reg = m.reg ∧ m'.mem = m.mem ∧ m'.flags = m.flags := by
  obtain ⟨m', hs, h0, h1, h2, h3⟩ := jump_of h (by rfl) (fun _ => by rfl) (Nat.le_of_ble_eq_true (by rfl)) (by rfl)
  exact ⟨m', hs, h0.trans (rel_eq (X.env l) m.eip 1), h1, h2, h3⟩

theorem i_je_taken {l : String} (h : Here X m (.ins "je32" [.offset l] :: ls)) (hz : m.flags.zf = true) :
    ∃ m', Steps m m' ∧ m'.eip = X.env l ∧ m'.reg = m.reg ∧ m'.mem = m.mem ∧ m'.flags = m.flags := by
  obtain ⟨m', hs, h0, h1, h2, h3⟩ := jump_of h (by rfl) (fun _ => by rfl) (Nat.le_of_ble_eq_true (by rfl))
    (by show some (if m.flags.zf then _ else _) = _; rw [hz])
  exact ⟨m', hs, h0.trans (rel_eq (X.env l) m.eip 2), h1, h2, h3⟩

theorem i_je_not {l : String} (h : Here X m (.ins "je32" [.offset l] :: ls)) (hz : m.flags.zf = false) :
    ∃ m', Next X m m' (.ins "je32" [.offset l]) ls ∧ m'.reg = m.reg ∧ m'.mem = m.mem ∧ m'.flags = m.flags :=
  ins_of (m' := { m with eip := m.eip + BitVec.ofNat 32 (Line.ins "je32" [.offset l]).size }) h (by rfl) (fun _ => by rfl)
    (Nat.le_of_ble_eq_true (by rfl)) (by show some (if m.flags.zf then _ else _) = _; rw [hz]; rfl) rfl

theorem i_jne_taken {l : String} (h : Here X m (.ins "jne32" [.offset l] :: ls)) (hz : m.flags.zf = false) :
    ∃ m', Steps m m' ∧ m'.eip = X.env l ∧ m'.reg = m.reg ∧ m'.mem = m.mem ∧ m'.flags = m.flags := by
  obtain ⟨m', hs, h0, h1, h2, h3⟩ := jump_of h (by rfl) (fun _ => by rfl) (Nat.le_of_ble_eq_true (by rfl))
    (by show some (if !m.flags.zf then _ else _) = _; rw [hz])
  exact ⟨m', hs, h0.trans (rel_eq (X.env l) m.eip 2), h1, h2, h3⟩

theorem i_jne_not {l : String} (h : Here X m (.ins "jne32" [.offset l] :: ls)) (hz : m.flags.zf = true) :
    ∃ m', Next X m m' (.ins "jne32" [.offset l]) ls ∧ m'.reg = m.reg ∧ m'.mem = m.mem ∧ m'.flags = m.flags :=
  ins_of (m' := { m with eip := m.eip + BitVec.ofNat 32 (Line.ins "jne32" [.offset l]).size }) h (by rfl) (fun _ => by rfl)
    (Nat.le_of_ble_eq_true (by rfl)) (by show some (if !m.flags.zf then _ else _) = _; rw [hz]; rfl) rfl

theorem i_ret (h : Here X m (.ins "ret" [] :: ls)) :
    ∃ m', Steps m m' ∧ m'.eip = word m.mem (m.reg .esp) ∧ m'.reg = upd m.reg .esp (m.reg .esp + 4) ∧ m'.mem = m.mem ∧ m'.flags = m.flags :=
  jump_of h (by rfl) (fun _ => by rfl) (by decide +kernel) (by rfl)

end Mes.X86
