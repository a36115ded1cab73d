import Verif.Proof.X86Steps

/-
The instructions that MesCC uses, one by one: what a step does when the text is in memory.
-/
namespace Mes.X86
open Mes.Mescc

def upd (r : Reg → Word) (k : Reg) (v : Word) : Reg → Word := fun r' => if r' = k then v else r r'

theorem upd_same (r : Reg → Word) (k : Reg) (v : Word) : upd r k v k = v := if_pos rfl

theorem upd_other (r : Reg → Word) {k k' : Reg} (v : Word) (h : k' ≠ k) : upd r k v k' = r k' := if_neg h

/-- The text is in memory at `eip`. -/
structure Here (X : Frame) (m : Mach) (ls : List Line) : Prop where
  code : CodeAt X m.eip ls
  prot : ∀ x, ¬ X.Inside x → m.mem x = X.M x

/-- One step further, behind the first line. -/
structure Next (X : Frame) (m m' : Mach) (l : Line) (ls : List Line) : Prop where
  steps : Steps m m'
  eip : m'.eip = m.eip + BitVec.ofNat 32 l.size
  code : CodeAt X m'.eip ls

theorem Here.skip {X : Frame} {m : Mach} {l : Line} {ls : List Line} (h : Here X m (l :: ls)) (hl : l.size = 0) : Here X m ls := by
  refine ⟨?_, h.prot⟩
  have := h.code.2.2
  rw [hl] at this
  simpa using this

theorem Next.here {X : Frame} {m m' : Mach} {l : Line} {ls : List Line} (h : Next X m m' l ls)
    (hp : ∀ x, ¬ X.Inside x → m'.mem x = X.M x) : Here X m' ls := ⟨h.code, hp⟩

theorem ins_of {X : Frame} {m : Mach} {name : String} {args : List Arg} {ls : List Line} {bs : List Byte8} {i : Instr} {m' : Mach}
    (h : Here X m (.ins name args :: ls)) (hl : defines.lookup name = some bs)
    (hd : ∀ rest, decode (bs ++ (Arg.bytesAll X.env (m.eip + BitVec.ofNat 32 bs.length) args ++ rest)) = some (i, rest))
    (hn : (Line.ins name args).size ≤ 16)
    (hx : exec { m with eip := m.eip + BitVec.ofNat 32 (Line.ins name args).size } i = some m')
    (he : m'.eip = m.eip + BitVec.ofNat 32 (Line.ins name args).size) :
    ∃ m1, Next X m m1 (.ins name args) ls ∧ m1.reg = m'.reg ∧ m1.mem = m'.mem ∧ m1.flags = m'.flags := by
  refine ⟨{ m' with time := m'.time + 1 }, ⟨.one (step_ins h.code h.prot hl hd hn hx), he, ?_⟩, rfl, rfl, rfl⟩
  show CodeAt X m'.eip ls
  rw [he]
  exact h.code.2.2

/-- A jump. -/
theorem jump_of {X : Frame} {m : Mach} {name : String} {args : List Arg} {ls : List Line} {bs : List Byte8} {i : Instr} {m' : Mach}
    (h : Here X m (.ins name args :: ls)) (hl : defines.lookup name = some bs)
    (hd : ∀ rest, decode (bs ++ (Arg.bytesAll X.env (m.eip + BitVec.ofNat 32 bs.length) args ++ rest)) = some (i, rest))
    (hn : (Line.ins name args).size ≤ 16)
    (hx : exec { m with eip := m.eip + BitVec.ofNat 32 (Line.ins name args).size } i = some m') :
    ∃ m1, Steps m m1 ∧ m1.eip = m'.eip ∧ m1.reg = m'.reg ∧ m1.mem = m'.mem ∧ m1.flags = m'.flags :=
  ⟨{ m' with time := m'.time + 1 }, .one (step_ins h.code h.prot hl hd hn hx), rfl, rfl, rfl, rfl⟩

theorem sext8 (v : Int) (h : v.natAbs < 128) : (BitVec.ofInt 8 v).signExtend 32 = BitVec.ofInt 32 v := by
  apply BitVec.eq_of_toInt_eq
  rw [BitVec.toInt_signExtend_of_le (by omega), BitVec.toInt_ofInt, BitVec.toInt_ofInt]
  rw [Int.bmod_eq_of_le (by omega) (by omega), Int.bmod_eq_of_le (by omega) (by omega)]

theorem lo8 (v : Word) : ((v.extractLsb' 0 8).setWidth 32).setWidth 8 = v.setWidth 8 := by
  apply BitVec.eq_of_getLsbD_eq
  intro i hi
  simp only [BitVec.getLsbD_setWidth, BitVec.getLsbD_extractLsb']
  simp [hi]; omega

theorem lo16 (v : Word) : ((v.extractLsb' 0 16).setWidth 32).setWidth 16 = v.setWidth 16 := by
  apply BitVec.eq_of_getLsbD_eq
  intro i hi
  simp only [BitVec.getLsbD_setWidth, BitVec.getLsbD_extractLsb']
  simp [hi]; omega

variable {X : Frame} {m : Mach} {ls : List Line}

theorem i_mov_ebx_eax (h : Here X m (.ins "mov____%ebx,%eax" [] :: ls)) :
    ∃ m', Next X m m' (.ins "mov____%ebx,%eax" []) ls ∧ m'.reg = upd m.reg .eax (m.reg .ebx) ∧ m'.mem = m.mem ∧ m'.flags = m.flags := by
  exact ins_of h (by rfl) (fun _ => by rfl) (by decide +kernel) (by rfl) rfl

theorem i_mov_eax_ebx (h : Here X m (.ins "mov____%eax,%ebx" [] :: ls)) :
    ∃ m', Next X m m' (.ins "mov____%eax,%ebx" []) ls ∧ m'.reg = upd m.reg .ebx (m.reg .eax) ∧ m'.mem = m.mem ∧ m'.flags = m.flags := by
  exact ins_of h (by rfl) (fun _ => by rfl) (by decide +kernel) (by rfl) rfl

theorem i_mov_ebx_ecx (h : Here X m (.ins "mov____%ebx,%ecx" [] :: ls)) :
    ∃ m', Next X m m' (.ins "mov____%ebx,%ecx" []) ls ∧ m'.reg = upd m.reg .ecx (m.reg .ebx) ∧ m'.mem = m.mem ∧ m'.flags = m.flags := by
  exact ins_of h (by rfl) (fun _ => by rfl) (by decide +kernel) (by rfl) rfl

theorem i_mov_edx_eax (h : Here X m (.ins "mov____%edx,%eax" [] :: ls)) :
    ∃ m', Next X m m' (.ins "mov____%edx,%eax" []) ls ∧ m'.reg = upd m.reg .eax (m.reg .edx) ∧ m'.mem = m.mem ∧ m'.flags = m.flags := by
  exact ins_of h (by rfl) (fun _ => by rfl) (by decide +kernel) (by rfl) rfl

theorem i_cltd (h : Here X m (.ins "cltd" [] :: ls)) :
    ∃ m', Next X m m' (.ins "cltd" []) ls ∧ m'.reg = upd m.reg .edx (if (m.reg .eax).msb then -1 else 0) ∧ m'.mem = m.mem ∧ m'.flags = m.flags := by
  exact ins_of h (by rfl) (fun _ => by rfl) (by decide +kernel) (by rfl) rfl

theorem i_xchg (h : Here X m (.ins "xchg___%eax,%ebx" [] :: ls)) :
    ∃ m', Next X m m' (.ins "xchg___%eax,%ebx" []) ls ∧ m'.reg = upd (upd m.reg .ebx (m.reg .eax)) .eax (m.reg .ebx) ∧ m'.mem = m.mem ∧ m'.flags = m.flags := by
  exact ins_of h (by rfl) (fun _ => by rfl) (by decide +kernel) (by rfl) rfl

theorem i_not_eax (h : Here X m (.ins "not____%eax" [] :: ls)) :
    ∃ m', Next X m m' (.ins "not____%eax" []) ls ∧ m'.reg = upd m.reg .eax (~~~ m.reg .eax) ∧ m'.mem = m.mem ∧ m'.flags = m.flags := by
  exact ins_of h (by rfl) (fun _ => by rfl) (by decide +kernel) (by rfl) rfl

theorem i_movsbl_eax (h : Here X m (.ins "movsbl_%al,%eax" [] :: ls)) :
    ∃ m', Next X m m' (.ins "movsbl_%al,%eax" []) ls ∧ m'.reg = upd m.reg .eax (((m.reg .eax).setWidth 8).signExtend 32) ∧ m'.mem = m.mem ∧ m'.flags = m.flags := by
  rw [← lo8]
  exact ins_of h (by rfl) (fun _ => by rfl) (by decide +kernel) (by rfl) rfl

theorem i_movzbl_eax (h : Here X m (.ins "movzbl_%al,%eax" [] :: ls)) :
    ∃ m', Next X m m' (.ins "movzbl_%al,%eax" []) ls ∧ m'.reg = upd m.reg .eax (((m.reg .eax).setWidth 8).setWidth 32) ∧ m'.mem = m.mem ∧ m'.flags = m.flags := by
  rw [← lo8]
  exact ins_of h (by rfl) (fun _ => by rfl) (by decide +kernel) (by rfl) rfl

theorem i_movswl_eax (h : Here X m (.ins "movswl_%ax,%eax" [] :: ls)) :
    ∃ m', Next X m m' (.ins "movswl_%ax,%eax" []) ls ∧ m'.reg = upd m.reg .eax (((m.reg .eax).setWidth 16).signExtend 32) ∧ m'.mem = m.mem ∧ m'.flags = m.flags := by
  rw [← lo16]
  exact ins_of h (by rfl) (fun _ => by rfl) (by decide +kernel) (by rfl) rfl

theorem i_movzwl_eax (h : Here X m (.ins "movzwl_%ax,%eax" [] :: ls)) :
    ∃ m', Next X m m' (.ins "movzwl_%ax,%eax" []) ls ∧ m'.reg = upd m.reg .eax (((m.reg .eax).setWidth 16).setWidth 32) ∧ m'.mem = m.mem ∧ m'.flags = m.flags := by
  rw [← lo16]
  exact ins_of h (by rfl) (fun _ => by rfl) (by decide +kernel) (by rfl) rfl

theorem i_movi_eax {v : Int} (h : Here X m (.ins "mov____$i32,%eax" [.imm4 v] :: ls)) :
    ∃ m', Next X m m' (.ins "mov____$i32,%eax" [.imm4 v]) ls ∧ m'.reg = upd m.reg .eax (BitVec.ofInt 32 v) ∧ m'.mem = m.mem ∧ m'.flags = m.flags := by
  obtain ⟨m', h0, h1, h2, h3⟩ := ins_of h (by rfl) (fun _ => by rfl) (Nat.le_of_ble_eq_true (by rfl)) (by rfl) rfl
  refine ⟨m', h0, h1.trans ?_, h2, h3⟩
  show upd m.reg _ (((word4 _ _ _ _).setWidth 32).setWidth 32) = _
  simp only [BitVec.setWidth_eq]
  rw [word4_bytes]
  rfl

theorem i_load8_eax {n : Int} (h : Here X m (.ins "mov____0x8(%ebp),%eax" [.imm1 n] :: ls)) (hn : n.natAbs < 128) :
    ∃ m', Next X m m' (.ins "mov____0x8(%ebp),%eax" [.imm1 n]) ls ∧ m'.reg = upd m.reg .eax (word m.mem (m.reg .ebp + BitVec.ofInt 32 n)) ∧ m'.mem = m.mem ∧ m'.flags = m.flags := by
  rw [← sext8 n hn]
  exact ins_of h (by rfl) (fun _ => by rfl) (Nat.le_of_ble_eq_true (by rfl)) (by rfl) rfl

theorem i_load32_eax {n : Int} (h : Here X m (.ins "mov____0x32(%ebp),%eax" [.imm4 n] :: ls)) :
    ∃ m', Next X m m' (.ins "mov____0x32(%ebp),%eax" [.imm4 n]) ls ∧ m'.reg = upd m.reg .eax (word m.mem (m.reg .ebp + BitVec.ofInt 32 n)) ∧ m'.mem = m.mem ∧ m'.flags = m.flags := by
  obtain ⟨m', h0, h1, h2, h3⟩ := ins_of h (by rfl) (fun _ => by rfl) (Nat.le_of_ble_eq_true (by rfl)) (by rfl) rfl
  refine ⟨m', h0, h1.trans ?_, h2, h3⟩
  show upd m.reg _ (word m.mem (m.reg .ebp + word4 _ _ _ _)) = _
  rw [word4_bytes]
  rfl

theorem i_test_eax (h : Here X m (.ins "test___%eax,%eax" [] :: ls)) :
    ∃ m', Next X m m' (.ins "test___%eax,%eax" []) ls ∧ m'.reg = m.reg ∧ m'.mem = m.mem ∧ m'.flags = logicFlags (m.oracle m.time) (m.reg .eax) := by
  obtain ⟨m', h0, h1, h2, h3⟩ := ins_of h (by rfl) (fun _ => by rfl) (by decide +kernel) (by rfl) rfl
  refine ⟨m', h0, h1, h2, h3.trans ?_⟩
  show logicFlags _ ((m.reg .eax).setWidth 32 &&& (m.reg .eax).setWidth 32) = _
  rw [BitVec.setWidth_eq, BitVec.and_self]

theorem i_addi8_eax {v : Int} (h : Here X m (.ins "add____$i8,%eax" [.imm1 v] :: ls)) (hv : v.natAbs < 128) :
    ∃ m', Next X m m' (.ins "add____$i8,%eax" [.imm1 v]) ls ∧ m'.reg = upd m.reg .eax (m.reg .eax + BitVec.ofInt 32 v) ∧ m'.mem = m.mem := by
  obtain ⟨m', h0, h1, h2, h3⟩ := ins_of h (by rfl) (fun _ => by rfl) (Nat.le_of_ble_eq_true (by rfl)) (by rfl) rfl
  refine ⟨m', h0, h1.trans ?_, h2⟩
  show upd m.reg .eax (((m.reg .eax).setWidth 32 + ((((BitVec.ofInt 8 v).signExtend 32).setWidth 32).setWidth 32).setWidth 32).setWidth 32) = _
  simp only [BitVec.setWidth_eq, sext8 v hv]

theorem i_addi32_eax {v : Int} (h : Here X m (.ins "add____$i32,%eax" [.imm4 v] :: ls)) :
    ∃ m', Next X m m' (.ins "add____$i32,%eax" [.imm4 v]) ls ∧ m'.reg = upd m.reg .eax (m.reg .eax + BitVec.ofInt 32 v) ∧ m'.mem = m.mem := by
  obtain ⟨m', h0, h1, h2, h3⟩ := ins_of h (by rfl) (fun _ => by rfl) (Nat.le_of_ble_eq_true (by rfl)) (by rfl) rfl
  refine ⟨m', h0, h1.trans ?_, h2⟩
  show upd m.reg .eax (((m.reg .eax).setWidth 32 + (((word4 _ _ _ _).setWidth 32).setWidth 32).setWidth 32).setWidth 32) = _
  simp only [BitVec.setWidth_eq]
  rw [word4_bytes]

theorem i_sete_eax (h : Here X m (.ins "sete___%al" [] :: ls)) :
    ∃ m', Next X m m' (.ins "sete___%al" []) ls ∧ m'.reg = upd m.reg .eax ((m.reg .eax).extractLsb' 8 24 ++ (if CC.holds m.flags .e then 1 else 0 : Word).extractLsb' 0 8) ∧ m'.mem = m.mem ∧ m'.flags = m.flags := by
  exact ins_of h (by rfl) (fun _ => by rfl) (by decide +kernel) (by rfl) rfl

theorem i_seta_eax (h : Here X m (.ins "seta___%al" [] :: ls)) :
    ∃ m', Next X m m' (.ins "seta___%al" []) ls ∧ m'.reg = upd m.reg .eax ((m.reg .eax).extractLsb' 8 24 ++ (if CC.holds m.flags .a then 1 else 0 : Word).extractLsb' 0 8) ∧ m'.mem = m.mem ∧ m'.flags = m.flags := by
  exact ins_of h (by rfl) (fun _ => by rfl) (by decide +kernel) (by rfl) rfl

theorem i_setae_eax (h : Here X m (.ins "setae__%al" [] :: ls)) :
    ∃ m', Next X m m' (.ins "setae__%al" []) ls ∧ m'.reg = upd m.reg .eax ((m.reg .eax).extractLsb' 8 24 ++ (if CC.holds m.flags .ae then 1 else 0 : Word).extractLsb' 0 8) ∧ m'.mem = m.mem ∧ m'.flags = m.flags := by
  exact ins_of h (by rfl) (fun _ => by rfl) (by decide +kernel) (by rfl) rfl

theorem i_setb_eax (h : Here X m (.ins "setb___%al" [] :: ls)) :
    ∃ m', Next X m m' (.ins "setb___%al" []) ls ∧ m'.reg = upd m.reg .eax ((m.reg .eax).extractLsb' 8 24 ++ (if CC.holds m.flags .b then 1 else 0 : Word).extractLsb' 0 8) ∧ m'.mem = m.mem ∧ m'.flags = m.flags := by
  exact ins_of h (by rfl) (fun _ => by rfl) (by decide +kernel) (by rfl) rfl

theorem i_setbe_eax (h : Here X m (.ins "setbe__%al" [] :: ls)) :
    ∃ m', Next X m m' (.ins "setbe__%al" []) ls ∧ m'.reg = upd m.reg .eax ((m.reg .eax).extractLsb' 8 24 ++ (if CC.holds m.flags .be then 1 else 0 : Word).extractLsb' 0 8) ∧ m'.mem = m.mem ∧ m'.flags = m.flags := by
  exact ins_of h (by rfl) (fun _ => by rfl) (by decide +kernel) (by rfl) rfl

theorem i_setg_eax (h : Here X m (.ins "setg___%al" [] :: ls)) :
    ∃ m', Next X m m' (.ins "setg___%al" []) ls ∧ m'.reg = upd m.reg .eax ((m.reg .eax).extractLsb' 8 24 ++ (if CC.holds m.flags .g then 1 else 0 : Word).extractLsb' 0 8) ∧ m'.mem = m.mem ∧ m'.flags = m.flags := by
  exact ins_of h (by rfl) (fun _ => by rfl) (by decide +kernel) (by rfl) rfl

theorem i_setge_eax (h : Here X m (.ins "setge__%al" [] :: ls)) :
    ∃ m', Next X m m' (.ins "setge__%al" []) ls ∧ m'.reg = upd m.reg .eax ((m.reg .eax).extractLsb' 8 24 ++ (if CC.holds m.flags .ge then 1 else 0 : Word).extractLsb' 0 8) ∧ m'.mem = m.mem ∧ m'.flags = m.flags := by
  exact ins_of h (by rfl) (fun _ => by rfl) (by decide +kernel) (by rfl) rfl

theorem i_setl_eax (h : Here X m (.ins "setl___%al" [] :: ls)) :
    ∃ m', Next X m m' (.ins "setl___%al" []) ls ∧ m'.reg = upd m.reg .eax ((m.reg .eax).extractLsb' 8 24 ++ (if CC.holds m.flags .l then 1 else 0 : Word).extractLsb' 0 8) ∧ m'.mem = m.mem ∧ m'.flags = m.flags := by
  exact ins_of h (by rfl) (fun _ => by rfl) (by decide +kernel) (by rfl) rfl

theorem i_setle_eax (h : Here X m (.ins "setle__%al" [] :: ls)) :
    ∃ m', Next X m m' (.ins "setle__%al" []) ls ∧ m'.reg = upd m.reg .eax ((m.reg .eax).extractLsb' 8 24 ++ (if CC.holds m.flags .le then 1 else 0 : Word).extractLsb' 0 8) ∧ m'.mem = m.mem ∧ m'.flags = m.flags := by
  exact ins_of h (by rfl) (fun _ => by rfl) (by decide +kernel) (by rfl) rfl

theorem i_not_ebx (h : Here X m (.ins "not____%ebx" [] :: ls)) :
    ∃ m', Next X m m' (.ins "not____%ebx" []) ls ∧ m'.reg = upd m.reg .ebx (~~~ m.reg .ebx) ∧ m'.mem = m.mem ∧ m'.flags = m.flags := by
  exact ins_of h (by rfl) (fun _ => by rfl) (by decide +kernel) (by rfl) rfl

theorem i_movsbl_ebx (h : Here X m (.ins "movsbl_%bl,%ebx" [] :: ls)) :
    ∃ m', Next X m m' (.ins "movsbl_%bl,%ebx" []) ls ∧ m'.reg = upd m.reg .ebx (((m.reg .ebx).setWidth 8).signExtend 32) ∧ m'.mem = m.mem ∧ m'.flags = m.flags := by
  rw [← lo8]
  exact ins_of h (by rfl) (fun _ => by rfl) (by decide +kernel) (by rfl) rfl

theorem i_movzbl_ebx (h : Here X m (.ins "movzbl_%bl,%ebx" [] :: ls)) :
    ∃ m', Next X m m' (.ins "movzbl_%bl,%ebx" []) ls ∧ m'.reg = upd m.reg .ebx (((m.reg .ebx).setWidth 8).setWidth 32) ∧ m'.mem = m.mem ∧ m'.flags = m.flags := by
  rw [← lo8]
  exact ins_of h (by rfl) (fun _ => by rfl) (by decide +kernel) (by rfl) rfl

theorem i_movswl_ebx (h : Here X m (.ins "movswl_%bx,%ebx" [] :: ls)) :
    ∃ m', Next X m m' (.ins "movswl_%bx,%ebx" []) ls ∧ m'.reg = upd m.reg .ebx (((m.reg .ebx).setWidth 16).signExtend 32) ∧ m'.mem = m.mem ∧ m'.flags = m.flags := by
  rw [← lo16]
  exact ins_of h (by rfl) (fun _ => by rfl) (by decide +kernel) (by rfl) rfl

theorem i_movzwl_ebx (h : Here X m (.ins "movzwl_%bx,%ebx" [] :: ls)) :
    ∃ m', Next X m m' (.ins "movzwl_%bx,%ebx" []) ls ∧ m'.reg = upd m.reg .ebx (((m.reg .ebx).setWidth 16).setWidth 32) ∧ m'.mem = m.mem ∧ m'.flags = m.flags := by
  rw [← lo16]
  exact ins_of h (by rfl) (fun _ => by rfl) (by decide +kernel) (by rfl) rfl

theorem i_movi_ebx {v : Int} (h : Here X m (.ins "mov____$i32,%ebx" [.imm4 v] :: ls)) :
    ∃ m', Next X m m' (.ins "mov____$i32,%ebx" [.imm4 v]) ls ∧ m'.reg = upd m.reg .ebx (BitVec.ofInt 32 v) ∧ m'.mem = m.mem ∧ m'.flags = m.flags := by
  obtain ⟨m', h0, h1, h2, h3⟩ := ins_of h (by rfl) (fun _ => by rfl) (Nat.le_of_ble_eq_true (by rfl)) (by rfl) rfl
  refine ⟨m', h0, h1.trans ?_, h2, h3⟩
  show upd m.reg _ (((word4 _ _ _ _).setWidth 32).setWidth 32) = _
  simp only [BitVec.setWidth_eq]
  rw [word4_bytes]
  rfl

theorem i_load8_ebx {n : Int} (h : Here X m (.ins "mov____0x8(%ebp),%ebx" [.imm1 n] :: ls)) (hn : n.natAbs < 128) :
    ∃ m', Next X m m' (.ins "mov____0x8(%ebp),%ebx" [.imm1 n]) ls ∧ m'.reg = upd m.reg .ebx (word m.mem (m.reg .ebp + BitVec.ofInt 32 n)) ∧ m'.mem = m.mem ∧ m'.flags = m.flags := by
  rw [← sext8 n hn]
  exact ins_of h (by rfl) (fun _ => by rfl) (Nat.le_of_ble_eq_true (by rfl)) (by rfl) rfl

theorem i_load32_ebx {n : Int} (h : Here X m (.ins "mov____0x32(%ebp),%ebx" [.imm4 n] :: ls)) :
    ∃ m', Next X m m' (.ins "mov____0x32(%ebp),%ebx" [.imm4 n]) ls ∧ m'.reg = upd m.reg .ebx (word m.mem (m.reg .ebp + BitVec.ofInt 32 n)) ∧ m'.mem = m.mem ∧ m'.flags = m.flags := by
  obtain ⟨m', h0, h1, h2, h3⟩ := ins_of h (by rfl) (fun _ => by rfl) (Nat.le_of_ble_eq_true (by rfl)) (by rfl) rfl
  refine ⟨m', h0, h1.trans ?_, h2, h3⟩
  show upd m.reg _ (word m.mem (m.reg .ebp + word4 _ _ _ _)) = _
  rw [word4_bytes]
  rfl

theorem i_test_ebx (h : Here X m (.ins "test___%ebx,%ebx" [] :: ls)) :
    ∃ m', Next X m m' (.ins "test___%ebx,%ebx" []) ls ∧ m'.reg = m.reg ∧ m'.mem = m.mem ∧ m'.flags = logicFlags (m.oracle m.time) (m.reg .ebx) := by
  obtain ⟨m', h0, h1, h2, h3⟩ := ins_of h (by rfl) (fun _ => by rfl) (by decide +kernel) (by rfl) rfl
  refine ⟨m', h0, h1, h2, h3.trans ?_⟩
  show logicFlags _ ((m.reg .ebx).setWidth 32 &&& (m.reg .ebx).setWidth 32) = _
  rw [BitVec.setWidth_eq, BitVec.and_self]

theorem i_addi8_ebx {v : Int} (h : Here X m (.ins "add____$i8,%ebx" [.imm1 v] :: ls)) (hv : v.natAbs < 128) :
    ∃ m', Next X m m' (.ins "add____$i8,%ebx" [.imm1 v]) ls ∧ m'.reg = upd m.reg .ebx (m.reg .ebx + BitVec.ofInt 32 v) ∧ m'.mem = m.mem := by
  obtain ⟨m', h0, h1, h2, h3⟩ := ins_of h (by rfl) (fun _ => by rfl) (Nat.le_of_ble_eq_true (by rfl)) (by rfl) rfl
  refine ⟨m', h0, h1.trans ?_, h2⟩
  show upd m.reg .ebx (((m.reg .ebx).setWidth 32 + ((((BitVec.ofInt 8 v).signExtend 32).setWidth 32).setWidth 32).setWidth 32).setWidth 32) = _
  simp only [BitVec.setWidth_eq, sext8 v hv]

theorem i_addi32_ebx {v : Int} (h : Here X m (.ins "add____$i32,%ebx" [.imm4 v] :: ls)) :
    ∃ m', Next X m m' (.ins "add____$i32,%ebx" [.imm4 v]) ls ∧ m'.reg = upd m.reg .ebx (m.reg .ebx + BitVec.ofInt 32 v) ∧ m'.mem = m.mem := by
  obtain ⟨m', h0, h1, h2, h3⟩ := ins_of h (by rfl) (fun _ => by rfl) (Nat.le_of_ble_eq_true (by rfl)) (by rfl) rfl
  refine ⟨m', h0, h1.trans ?_, h2⟩
  show upd m.reg .ebx (((m.reg .ebx).setWidth 32 + (((word4 _ _ _ _).setWidth 32).setWidth 32).setWidth 32).setWidth 32) = _
  simp only [BitVec.setWidth_eq]
  rw [word4_bytes]

theorem i_sete_ebx (h : Here X m (.ins "sete___%bl" [] :: ls)) :
    ∃ m', Next X m m' (.ins "sete___%bl" []) ls ∧ m'.reg = upd m.reg .ebx ((m.reg .ebx).extractLsb' 8 24 ++ (if CC.holds m.flags .e then 1 else 0 : Word).extractLsb' 0 8) ∧ m'.mem = m.mem ∧ m'.flags = m.flags := by
  exact ins_of h (by rfl) (fun _ => by rfl) (by decide +kernel) (by rfl) rfl

theorem i_seta_ebx (h : Here X m (.ins "seta___%bl" [] :: ls)) :
    ∃ m', Next X m m' (.ins "seta___%bl" []) ls ∧ m'.reg = upd m.reg .ebx ((m.reg .ebx).extractLsb' 8 24 ++ (if CC.holds m.flags .a then 1 else 0 : Word).extractLsb' 0 8) ∧ m'.mem = m.mem ∧ m'.flags = m.flags := by
  exact ins_of h (by rfl) (fun _ => by rfl) (by decide +kernel) (by rfl) rfl

theorem i_setae_ebx (h : Here X m (.ins "setae__%bl" [] :: ls)) :
    ∃ m', Next X m m' (.ins "setae__%bl" []) ls ∧ m'.reg = upd m.reg .ebx ((m.reg .ebx).extractLsb' 8 24 ++ (if CC.holds m.flags .ae then 1 else 0 : Word).extractLsb' 0 8) ∧ m'.mem = m.mem ∧ m'.flags = m.flags := by
  exact ins_of h (by rfl) (fun _ => by rfl) (by decide +kernel) (by rfl) rfl

theorem i_setb_ebx (h : Here X m (.ins "setb___%bl" [] :: ls)) :
    ∃ m', Next X m m' (.ins "setb___%bl" []) ls ∧ m'.reg = upd m.reg .ebx ((m.reg .ebx).extractLsb' 8 24 ++ (if CC.holds m.flags .b then 1 else 0 : Word).extractLsb' 0 8) ∧ m'.mem = m.mem ∧ m'.flags = m.flags := by
  exact ins_of h (by rfl) (fun _ => by rfl) (by decide +kernel) (by rfl) rfl

theorem i_setbe_ebx (h : Here X m (.ins "setbe__%bl" [] :: ls)) :
    ∃ m', Next X m m' (.ins "setbe__%bl" []) ls ∧ m'.reg = upd m.reg .ebx ((m.reg .ebx).extractLsb' 8 24 ++ (if CC.holds m.flags .be then 1 else 0 : Word).extractLsb' 0 8) ∧ m'.mem = m.mem ∧ m'.flags = m.flags := by
  exact ins_of h (by rfl) (fun _ => by rfl) (by decide +kernel) (by rfl) rfl

theorem i_setg_ebx (h : Here X m (.ins "setg___%bl" [] :: ls)) :
    ∃ m', Next X m m' (.ins "setg___%bl" []) ls ∧ m'.reg = upd m.reg .ebx ((m.reg .ebx).extractLsb' 8 24 ++ (if CC.holds m.flags .g then 1 else 0 : Word).extractLsb' 0 8) ∧ m'.mem = m.mem ∧ m'.flags = m.flags := by
  exact ins_of h (by rfl) (fun _ => by rfl) (by decide +kernel) (by rfl) rfl

theorem i_setge_ebx (h : Here X m (.ins "setge__%bl" [] :: ls)) :
    ∃ m', Next X m m' (.ins "setge__%bl" []) ls ∧ m'.reg = upd m.reg .ebx ((m.reg .ebx).extractLsb' 8 24 ++ (if CC.holds m.flags .ge then 1 else 0 : Word).extractLsb' 0 8) ∧ m'.mem = m.mem ∧ m'.flags = m.flags := by
  exact ins_of h (by rfl) (fun _ => by rfl) (by decide +kernel) (by rfl) rfl

theorem i_setl_ebx (h : Here X m (.ins "setl___%bl" [] :: ls)) :
    ∃ m', Next X m m' (.ins "setl___%bl" []) ls ∧ m'.reg = upd m.reg .ebx ((m.reg .ebx).extractLsb' 8 24 ++ (if CC.holds m.flags .l then 1 else 0 : Word).extractLsb' 0 8) ∧ m'.mem = m.mem ∧ m'.flags = m.flags := by
  exact ins_of h (by rfl) (fun _ => by rfl) (by decide +kernel) (by rfl) rfl

theorem i_setle_ebx (h : Here X m (.ins "setle__%bl" [] :: ls)) :
    ∃ m', Next X m m' (.ins "setle__%bl" []) ls ∧ m'.reg = upd m.reg .ebx ((m.reg .ebx).extractLsb' 8 24 ++ (if CC.holds m.flags .le then 1 else 0 : Word).extractLsb' 0 8) ∧ m'.mem = m.mem ∧ m'.flags = m.flags := by
  exact ins_of h (by rfl) (fun _ => by rfl) (by decide +kernel) (by rfl) rfl

theorem i_add (h : Here X m (.ins "add____%ebx,%eax" [] :: ls)) :
    ∃ m', Next X m m' (.ins "add____%ebx,%eax" []) ls ∧ m'.reg = upd m.reg .eax (m.reg .eax + m.reg .ebx) ∧ m'.mem = m.mem := by
  obtain ⟨m', h0, h1, h2, h3⟩ := ins_of h (by rfl) (fun _ => by rfl) (by decide +kernel) (by rfl) rfl
  refine ⟨m', h0, h1.trans ?_, h2⟩
  show upd m.reg .eax (((m.reg .eax).setWidth 32 + (m.reg .ebx).setWidth 32).setWidth 32) = _
  simp only [BitVec.setWidth_eq]

theorem i_and (h : Here X m (.ins "and____%ebx,%eax" [] :: ls)) :
    ∃ m', Next X m m' (.ins "and____%ebx,%eax" []) ls ∧ m'.reg = upd m.reg .eax (m.reg .eax &&& m.reg .ebx) ∧ m'.mem = m.mem := by
  obtain ⟨m', h0, h1, h2, h3⟩ := ins_of h (by rfl) (fun _ => by rfl) (by decide +kernel) (by rfl) rfl
  refine ⟨m', h0, h1.trans ?_, h2⟩
  show upd m.reg .eax (((m.reg .eax).setWidth 32 &&& (m.reg .ebx).setWidth 32).setWidth 32) = _
  simp only [BitVec.setWidth_eq]

theorem i_or (h : Here X m (.ins "or_____%ebx,%eax" [] :: ls)) :
    ∃ m', Next X m m' (.ins "or_____%ebx,%eax" []) ls ∧ m'.reg = upd m.reg .eax (m.reg .eax ||| m.reg .ebx) ∧ m'.mem = m.mem := by
  obtain ⟨m', h0, h1, h2, h3⟩ := ins_of h (by rfl) (fun _ => by rfl) (by decide +kernel) (by rfl) rfl
  refine ⟨m', h0, h1.trans ?_, h2⟩
  show upd m.reg .eax (((m.reg .eax).setWidth 32 ||| (m.reg .ebx).setWidth 32).setWidth 32) = _
  simp only [BitVec.setWidth_eq]

theorem i_xor (h : Here X m (.ins "xor____%ebx,%eax" [] :: ls)) :
    ∃ m', Next X m m' (.ins "xor____%ebx,%eax" []) ls ∧ m'.reg = upd m.reg .eax (m.reg .eax ^^^ m.reg .ebx) ∧ m'.mem = m.mem := by
  obtain ⟨m', h0, h1, h2, h3⟩ := ins_of h (by rfl) (fun _ => by rfl) (by decide +kernel) (by rfl) rfl
  refine ⟨m', h0, h1.trans ?_, h2⟩
  show upd m.reg .eax (((m.reg .eax).setWidth 32 ^^^ (m.reg .ebx).setWidth 32).setWidth 32) = _
  simp only [BitVec.setWidth_eq]

theorem i_sub (h : Here X m (.ins "sub____%ebx,%eax" [] :: ls)) :
    ∃ m', Next X m m' (.ins "sub____%ebx,%eax" []) ls ∧ m'.reg = upd m.reg .eax (m.reg .eax - m.reg .ebx) ∧ m'.mem = m.mem ∧ m'.flags = subFlags (m.reg .eax) (m.reg .ebx) := by
  obtain ⟨m', h0, h1, h2, h3⟩ := ins_of h (by rfl) (fun _ => by rfl) (by decide +kernel) (by rfl) rfl
  refine ⟨m', h0, h1.trans ?_, h2, h3.trans ?_⟩
  · show upd m.reg .eax (((m.reg .eax).setWidth 32 - (m.reg .ebx).setWidth 32).setWidth 32) = _
    simp only [BitVec.setWidth_eq]
  · show subFlags ((m.reg .eax).setWidth 32) ((m.reg .ebx).setWidth 32) = _
    simp only [BitVec.setWidth_eq]

theorem i_xor_edx (h : Here X m (.ins "xor____%edx,%edx" [] :: ls)) :
    ∃ m', Next X m m' (.ins "xor____%edx,%edx" []) ls ∧ m'.reg = upd m.reg .edx 0 ∧ m'.mem = m.mem := by
  obtain ⟨m', h0, h1, h2, h3⟩ := ins_of h (by rfl) (fun _ => by rfl) (by decide +kernel) (by rfl) rfl
  refine ⟨m', h0, h1.trans ?_, h2⟩
  show upd m.reg .edx (((m.reg .edx).setWidth 32 ^^^ (m.reg .edx).setWidth 32).setWidth 32) = _
  simp

theorem i_mul (h : Here X m (.ins "mul____%ebx" [] :: ls)) :
    ∃ m', Next X m m' (.ins "mul____%ebx" []) ls ∧ m'.reg = upd (upd m.reg .eax (BitVec.ofNat 32 ((m.reg .eax).toNat * (m.reg .ebx).toNat))) .edx (BitVec.ofNat 32 ((m.reg .eax).toNat * (m.reg .ebx).toNat / 2 ^ 32)) ∧ m'.mem = m.mem := by
  obtain ⟨m', h0, h1, h2, -⟩ := ins_of h (by rfl) (fun _ => by rfl) (by decide +kernel) (by rfl) rfl
  exact ⟨m', h0, h1, h2⟩

theorem i_push_eax (h : Here X m (.ins "push___%eax" [] :: ls)) :
    ∃ m', Next X m m' (.ins "push___%eax" []) ls ∧ m'.reg = upd m.reg .esp (m.reg .esp - 4) ∧ m'.mem = poke m.mem (m.reg .esp - 4) (m.reg .eax) ∧ m'.flags = m.flags := by
  exact ins_of h (by rfl) (fun _ => by rfl) (by decide +kernel) (by rfl) rfl

theorem i_pop_eax (h : Here X m (.ins "pop____%eax" [] :: ls)) :
    ∃ m', Next X m m' (.ins "pop____%eax" []) ls ∧ m'.reg = upd (upd m.reg .esp (m.reg .esp + 4)) .eax (word m.mem (m.reg .esp)) ∧ m'.mem = m.mem ∧ m'.flags = m.flags := by
  exact ins_of h (by rfl) (fun _ => by rfl) (by decide +kernel) (by rfl) rfl

theorem i_leave (h : Here X m (.ins "leave" [] :: ls)) :
    ∃ m', Next X m m' (.ins "leave" []) ls ∧ m'.reg = upd (upd (upd m.reg .esp (m.reg .ebp)) .esp (m.reg .ebp + 4)) .ebp (word m.mem (m.reg .ebp)) ∧ m'.mem = m.mem ∧ m'.flags = m.flags := by
  exact ins_of h (by rfl) (fun _ => by rfl) (by decide +kernel) (by rfl) rfl

theorem i_push_ebp (h : Here X m (.ins "push___%ebp" [] :: ls)) :
    ∃ m', Next X m m' (.ins "push___%ebp" []) ls ∧ m'.reg = upd m.reg .esp (m.reg .esp - 4) ∧ m'.mem = poke m.mem (m.reg .esp - 4) (m.reg .ebp) ∧ m'.flags = m.flags := by
  exact ins_of h (by rfl) (fun _ => by rfl) (by decide +kernel) (by rfl) rfl

theorem i_mov_esp_ebp (h : Here X m (.ins "mov____%esp,%ebp" [] :: ls)) :
    ∃ m', Next X m m' (.ins "mov____%esp,%ebp" []) ls ∧ m'.reg = upd m.reg .ebp (m.reg .esp) ∧ m'.mem = m.mem ∧ m'.flags = m.flags := by
  exact ins_of h (by rfl) (fun _ => by rfl) (by decide +kernel) (by rfl) rfl

theorem i_subi_esp {v : Int} (h : Here X m (.ins "sub____$i32,%esp" [.imm4 v] :: ls)) :
    ∃ m', Next X m m' (.ins "sub____$i32,%esp" [.imm4 v]) ls ∧ m'.reg = upd m.reg .esp (m.reg .esp - BitVec.ofInt 32 v) ∧ m'.mem = m.mem := by
  obtain ⟨m', h0, h1, h2, h3⟩ := ins_of h (by rfl) (fun _ => by rfl) (Nat.le_of_ble_eq_true (by rfl)) (by rfl) rfl
  refine ⟨m', h0, h1.trans ?_, h2⟩
  show upd m.reg .esp (((m.reg .esp).setWidth 32 - (((word4 _ _ _ _).setWidth 32).setWidth 32).setWidth 32).setWidth 32) = _
  simp only [BitVec.setWidth_eq]
  rw [word4_bytes]

theorem i_lahf (h : Here X m (.ins "lahf" [] :: ls)) :
    ∃ m', Next X m m' (.ins "lahf" []) ls ∧ m'.reg = upd m.reg .eax ((m.reg .eax).extractLsb' 16 16 ++ ((flagByte m.flags).setWidth 32).extractLsb' 0 8 ++ (m.reg .eax).extractLsb' 0 8) ∧ m'.mem = m.mem ∧ m'.flags = m.flags := by
  exact ins_of h (by rfl) (fun _ => by rfl) (by decide +kernel) (by rfl) rfl

theorem i_store8_eax {n : Int} (h : Here X m (.ins "mov____%eax,0x8(%ebp)" [.imm1 n] :: ls)) (hn : n.natAbs < 128) :
    ∃ m', Next X m m' (.ins "mov____%eax,0x8(%ebp)" [.imm1 n]) ls ∧ m'.reg = m.reg ∧ m'.mem = poke m.mem (m.reg .ebp + BitVec.ofInt 32 n) (m.reg .eax) ∧ m'.flags = m.flags := by
  rw [← sext8 n hn]
  exact ins_of h (by rfl) (fun _ => by rfl) (Nat.le_of_ble_eq_true (by rfl)) (by rfl) rfl

theorem i_store8_al {n : Int} (h : Here X m (.ins "mov____%al,0x8(%ebp)" [.imm1 n] :: ls)) (hn : n.natAbs < 128) :
    ∃ m', Next X m m' (.ins "mov____%al,0x8(%ebp)" [.imm1 n]) ls ∧ m'.reg = m.reg ∧ m'.mem = (fun x => if x = m.reg .ebp + BitVec.ofInt 32 n then (((m.reg .eax).extractLsb' 0 8).setWidth 32).extractLsb' 0 8 else m.mem x) ∧ m'.flags = m.flags := by
  rw [← sext8 n hn]
  exact ins_of h (by rfl) (fun _ => by rfl) (Nat.le_of_ble_eq_true (by rfl)) (by rfl) rfl

theorem i_store8_ax {n : Int} (h : Here X m (.ins "mov____%ax,0x8(%ebp)" [.imm1 n] :: ls)) (hn : n.natAbs < 128) :
    ∃ m', Next X m m' (.ins "mov____%ax,0x8(%ebp)" [.imm1 n]) ls ∧ m'.reg = m.reg ∧ m'.mem = (fun x => if x = m.reg .ebp + BitVec.ofInt 32 n + 1 then (((m.reg .eax).extractLsb' 0 16).setWidth 32).extractLsb' 8 8 else if x = m.reg .ebp + BitVec.ofInt 32 n then (((m.reg .eax).extractLsb' 0 16).setWidth 32).extractLsb' 0 8 else m.mem x) ∧ m'.flags = m.flags := by
  rw [← sext8 n hn]
  exact ins_of h (by rfl) (fun _ => by rfl) (Nat.le_of_ble_eq_true (by rfl)) (by rfl) rfl

theorem i_store32_eax {n : Int} (h : Here X m (.ins "mov____%eax,0x32(%ebp)" [.imm4 n] :: ls)) :
    ∃ m', Next X m m' (.ins "mov____%eax,0x32(%ebp)" [.imm4 n]) ls ∧ m'.reg = m.reg ∧ m'.mem = poke m.mem (m.reg .ebp + BitVec.ofInt 32 n) (m.reg .eax) ∧ m'.flags = m.flags := by
  obtain ⟨m', h0, h1, h2, h3⟩ := ins_of h (by rfl) (fun _ => by rfl) (Nat.le_of_ble_eq_true (by rfl)) (by rfl) rfl
  refine ⟨m', h0, h1, h2.trans ?_, h3⟩
  show poke m.mem (m.reg .ebp + word4 _ _ _ _) _ = _
  rw [word4_bytes]
  rfl

end Mes.X86
