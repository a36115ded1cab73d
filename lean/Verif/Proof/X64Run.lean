import Verif.Proof.X64
import Verif.Spec.X64Run
import Verif.Model.X64As
import Verif.Proof.X86Steps
/- Lemmas for C79. -/
namespace Mes.X64
open X86 (Byte8 word4)
open Mescc

theorem Runs.one {bs ib rest : List Byte8} {i : Instr} {s s1 s2 : Regs} (h : head bs = some (i, [])) (hd : i.dispSize = 0) (hi : ib.length = i.immSize)
    (he : exec i ib s = some s1) (hr : Runs rest s1 s2) : Runs (bs ++ ib ++ rest) s s2 := by
  have := decode_head h [] ib rest (by simp [hd]) hi
  rw [List.nil_append, ← List.append_assoc] at this
  exact .step this he hr

theorem Runs.det {bs : List Byte8} {s s1 : Regs} (h : Runs bs s s1) : ∀ {s2 : Regs}, Runs bs s s2 → s1 = s2 := by
  induction h with
  | done =>
    intro s2 g
    cases g with
    | done => rfl
    | step d _ _ => exact nomatch d
  | step d e _ ih =>
    intro s2 g
    cases g with
    | done => exact nomatch d
    | step d' e' r =>
      rw [d] at d'
      cases d'
      rw [e] at e'
      cases e'
      exact ih r

theorem immValue_le4 (w : X86.Word) : immValue (le4 w) = w.signExtend 64 := by
  show (word4 _ _ _ _).signExtend 64 = _
  rw [X86.word4_bytes]

theorem immValue_le8 (lo hi : X86.Word) : immValue (le4 lo ++ le4 hi) = hi ++ lo := by
  simp only [le4, List.cons_append, List.nil_append, immValue, X86.word4_bytes]

theorem signExtend_ofInt4 {v : Int} (h1 : -2147483648 ≤ v) (h2 : v < 2147483648) : (BitVec.ofInt 32 v).signExtend 64 = BitVec.ofInt 64 v := by
  unfold BitVec.signExtend
  rw [BitVec.toInt_ofInt_eq_self (by decide) (by simpa using h1) (by simpa using h2)]

theorem signExtend_ofInt1 {v : Int} (h1 : -128 ≤ v) (h2 : v < 128) : (BitVec.ofInt 8 v).signExtend 64 = BitVec.ofInt 64 v := by
  unfold BitVec.signExtend
  rw [BitVec.toInt_ofInt_eq_self (by decide) (by simpa using h1) (by simpa using h2)]

theorem append_ofInt (v : Int) : (BitVec.ofInt 32 (v / 4294967296) ++ BitVec.ofInt 32 (v % 4294967296) : BitVec 64) = BitVec.ofInt 64 v := by
  apply BitVec.eq_of_toNat_eq
  rw [BitVec.toNat_append, ← Nat.shiftLeft_add_eq_or_of_lt (BitVec.isLt _), Nat.shiftLeft_eq, BitVec.toNat_ofInt, BitVec.toNat_ofInt, BitVec.toNat_ofInt]
  omega

/-- The text can be assembled, and running it gives `f s`. -/
def Gives (mesc : Bool) (text : List Line64) (f : Regs → Regs) : Prop := ∃ bs, assemble64 mesc text = some bs ∧ ∀ s, Runs bs s (f s)

theorem gives_nil (mesc : Bool) : Gives mesc [] id := ⟨[], rfl, fun _ => .done⟩

theorem gives_cons {mesc : Bool} {name : String} {args : List Arg64} {bs : List Byte8} {i : Instr} {f g : Regs → Regs} {ls : List Line64}
    (hl : defines64.lookup name = some bs) (hh : head bs = some (i, [])) (hd : i.dispSize = 0) (hi : (args.flatMap (Arg64.bytes mesc)).length = i.immSize)
    (he : ∀ s, exec i (args.flatMap (Arg64.bytes mesc)) s = some (f s)) (h : Gives mesc ls g) : Gives mesc (.ins name args :: ls) (fun s => g (f s)) := by
  obtain ⟨cs, h1, h2⟩ := h
  refine ⟨bs ++ args.flatMap (Arg64.bytes mesc) ++ cs, ?_, fun s => Runs.one hh hd hi (he s) (h2 _)⟩
  simp [assemble64, Line64.bytes, hl, h1]

theorem gives_one {mesc : Bool} {name : String} {args : List Arg64} {bs : List Byte8} {i : Instr} {f : Regs → Regs}
    (hl : defines64.lookup name = some bs) (hh : head bs = some (i, [])) (hd : i.dispSize = 0) (hi : (args.flatMap (Arg64.bytes mesc)).length = i.immSize)
    (he : ∀ s, exec i (args.flatMap (Arg64.bytes mesc)) s = some (f s)) : Gives mesc [.ins name args] f :=
  gives_cons (f := f) (g := id) hl hh hd hi he (gives_nil mesc)

/-- The two registers that MesCC uses for x86_64 when it is given a reduced number of them, and their numbers. -/
def Used (r : String) (n : Nat) : Prop := r = "rax" ∧ n = 0 ∨ r = "rdi" ∧ n = 7

/-- The constant of four bytes in a register. -/
theorem gives_mov4 (mesc : Bool) {r : String} {n : Nat} (h : Used r n) (v : Int) :
    Gives mesc [.ins ("mov____$i32,%" ++ r) [.imm4 v]] (fun s => s.put n ((BitVec.ofInt 32 v).signExtend 64)) := by
  have e : immValue (le4 (BitVec.ofInt 32 v)) = (BitVec.ofInt 32 v).signExtend 64 := immValue_le4 _
  rcases h with ⟨rfl, rfl⟩ | ⟨rfl, rfl⟩
  · refine gives_one (bs := [0x48, 0xc7, 0xc0]) (i := ⟨.mov, .q, [.imm 4, .reg .q 0]⟩) (by decide +kernel) (by decide +kernel) rfl rfl fun s => ?_
    rw [← e]
    rfl
  · refine gives_one (bs := [0x48, 0xc7, 0xc7]) (i := ⟨.mov, .q, [.imm 4, .reg .q 7]⟩) (by decide +kernel) (by decide +kernel) rfl rfl fun s => ?_
    rw [← e]
    rfl

/-- The value of the two numbers for a constant of eight bytes. -/
def quadOf (mesc : Bool) (v : Int) : Quad := BitVec.ofInt 32 (immediate8 mesc v).2 ++ BitVec.ofInt 32 (immediate8 mesc v).1

theorem quadOf_eq {v : Int} (h : -4294967296 ≤ v) : quadOf false v = BitVec.ofInt 64 v := by
  rw [← append_ofInt]
  unfold quadOf immediate8
  simp only [Bool.false_eq_true, if_false]
  split
  · have : v / 4294967296 = -1 := by omega
    rw [this]
  · rfl

theorem gives_mov8 (mesc : Bool) {r : String} {n : Nat} (h : Used r n ∨ r = "r15" ∧ n = 15) (v : Int) {ls : List Line64} {g : Regs → Regs} (hg : Gives mesc ls g) :
    Gives mesc (.ins ("mov____$i64,%" ++ r) [.imm8 v] :: ls) (fun s => g (s.put n (quadOf mesc v))) := by
  have e : immValue ([Arg64.imm8 v].flatMap (Arg64.bytes mesc)) = quadOf mesc v := immValue_le8 _ _
  rcases h with (⟨rfl, rfl⟩ | ⟨rfl, rfl⟩) | ⟨rfl, rfl⟩
  · refine gives_cons (bs := [0x48, 0xb8]) (i := ⟨.mov, .q, [.imm 8, .reg .q 0]⟩) (f := fun s => s.put 0 (quadOf mesc v)) (by decide +kernel) (by decide +kernel) rfl rfl
      (fun s => ?_) hg
    rw [← e]
    rfl
  · refine gives_cons (bs := [0x48, 0xbf]) (i := ⟨.mov, .q, [.imm 8, .reg .q 7]⟩) (f := fun s => s.put 7 (quadOf mesc v)) (by decide +kernel) (by decide +kernel) rfl rfl
      (fun s => ?_) hg
    rw [← e]
    rfl
  · refine gives_cons (bs := [0x49, 0xbf]) (i := ⟨.mov, .q, [.imm 8, .reg .q 15]⟩) (f := fun s => s.put 15 (quadOf mesc v)) (by decide +kernel) (by decide +kernel) rfl rfl
      (fun s => ?_) hg
    rw [← e]
    rfl

def Regs.add (s : Regs) (n : Nat) (v : Quad) : Regs := { s.put n (s.reg n + v) with compared := none }
def Regs.and (s : Regs) (n : Nat) (v : Quad) : Regs := { s.put n (s.reg n &&& v) with compared := none }
def Regs.cmp (s : Regs) (n : Nat) (v : Quad) : Regs := { s with compared := some (s.reg n, v) }

theorem gives_add1 (mesc : Bool) {r : String} {n : Nat} (h : Used r n) (v : Int) :
    Gives mesc [.ins ("add____$i8,%" ++ r) [.imm1 v]] (fun s => s.add n ((BitVec.ofInt 8 v).signExtend 64)) := by
  rcases h with ⟨rfl, rfl⟩ | ⟨rfl, rfl⟩
  · exact gives_one (bs := [0x48, 0x83, 0xc0]) (i := ⟨.alu 0, .q, [.imm 1, .reg .q 0]⟩) (by decide +kernel) (by decide +kernel) rfl rfl fun s => rfl
  · exact gives_one (bs := [0x48, 0x83, 0xc7]) (i := ⟨.alu 0, .q, [.imm 1, .reg .q 7]⟩) (by decide +kernel) (by decide +kernel) rfl rfl fun s => rfl

theorem gives_add4 (mesc : Bool) {r : String} {n : Nat} (h : Used r n) (v : Int) :
    Gives mesc [.ins ("add____$i32,%" ++ r) [.imm4 v]] (fun s => s.add n ((BitVec.ofInt 32 v).signExtend 64)) := by
  have e : immValue (le4 (BitVec.ofInt 32 v)) = (BitVec.ofInt 32 v).signExtend 64 := immValue_le4 _
  rcases h with ⟨rfl, rfl⟩ | ⟨rfl, rfl⟩
  · refine gives_one (bs := [0x48, 0x05]) (i := ⟨.alu 0, .q, [.imm 4, .reg .q 0]⟩) (by decide +kernel) (by decide +kernel) rfl rfl fun s => ?_
    rw [← e]
    rfl
  · refine gives_one (bs := [0x48, 0x81, 0xc7]) (i := ⟨.alu 0, .q, [.imm 4, .reg .q 7]⟩) (by decide +kernel) (by decide +kernel) rfl rfl fun s => ?_
    rw [← e]
    rfl

theorem gives_frame (mesc : Bool) {r : String} {n : Nat} (h : Used r n) {ls : List Line64} {g : Regs → Regs} (hg : Gives mesc ls g) :
    Gives mesc (.ins ("mov____%rbp,%" ++ r) [] :: ls) (fun s => g (s.put n (s.reg 5))) := by
  rcases h with ⟨rfl, rfl⟩ | ⟨rfl, rfl⟩
  · exact gives_cons (bs := [0x48, 0x89, 0xe8]) (i := ⟨.mov, .q, [.reg .q 5, .reg .q 0]⟩) (f := fun s => s.put 0 (s.reg 5)) (by decide +kernel) (by decide +kernel) rfl rfl
      (fun s => rfl) hg
  · exact gives_cons (bs := [0x48, 0x89, 0xef]) (i := ⟨.mov, .q, [.reg .q 5, .reg .q 7]⟩) (f := fun s => s.put 7 (s.reg 5)) (by decide +kernel) (by decide +kernel) rfl rfl
      (fun s => rfl) hg

theorem gives_cmp1 (mesc : Bool) {r : String} {n : Nat} (h : Used r n) (v : Int) :
    Gives mesc [.ins ("cmp____$i8,%" ++ r) [.imm1 v]] (fun s => s.cmp n ((BitVec.ofInt 8 v).signExtend 64)) := by
  rcases h with ⟨rfl, rfl⟩ | ⟨rfl, rfl⟩
  · exact gives_one (bs := [0x48, 0x83, 0xf8]) (i := ⟨.alu 7, .q, [.imm 1, .reg .q 0]⟩) (by decide +kernel) (by decide +kernel) rfl rfl fun s => rfl
  · exact gives_one (bs := [0x48, 0x83, 0xff]) (i := ⟨.alu 7, .q, [.imm 1, .reg .q 7]⟩) (by decide +kernel) (by decide +kernel) rfl rfl fun s => rfl

theorem gives_cmp4 (mesc : Bool) (v : Int) :
    Gives mesc [.ins ("cmp____$i32,%" ++ "rax") [.imm4 v]] (fun s => s.cmp 0 ((BitVec.ofInt 32 v).signExtend 64)) := by
  have e : immValue (le4 (BitVec.ofInt 32 v)) = (BitVec.ofInt 32 v).signExtend 64 := immValue_le4 _
  refine gives_one (bs := [0x48, 0x3d]) (i := ⟨.alu 7, .q, [.imm 4, .reg .q 0]⟩) (by decide +kernel) (by decide +kernel) rfl rfl fun s => ?_
  rw [← e]
  rfl

theorem gives_and4 (mesc : Bool) (v : Int) :
    Gives mesc [.ins ("and____$i32,%" ++ "rdi") [.imm4 v]] (fun s => s.and 7 ((BitVec.ofInt 32 v).signExtend 64)) := by
  have e : immValue (le4 (BitVec.ofInt 32 v)) = (BitVec.ofInt 32 v).signExtend 64 := immValue_le4 _
  refine gives_one (bs := [0x48, 0x81, 0xe7]) (i := ⟨.alu 4, .q, [.imm 4, .reg .q 7]⟩) (by decide +kernel) (by decide +kernel) rfl rfl fun s => ?_
  rw [← e]
  rfl

theorem gives_and15 (mesc : Bool) {r : String} {n : Nat} (h : Used r n) : Gives mesc [.ins ("and____%r15,%" ++ r) []] (fun s => s.and n (s.reg 15)) := by
  rcases h with ⟨rfl, rfl⟩ | ⟨rfl, rfl⟩
  · exact gives_one (bs := [0x4c, 0x21, 0xf8]) (i := ⟨.alu 4, .q, [.reg .q 15, .reg .q 0]⟩) (by decide +kernel) (by decide +kernel) rfl rfl fun s => rfl
  · exact gives_one (bs := [0x4c, 0x21, 0xff]) (i := ⟨.alu 4, .q, [.reg .q 15, .reg .q 7]⟩) (by decide +kernel) (by decide +kernel) rfl rfl fun s => rfl

theorem bytes_unknown {mesc : Bool} {name : String} (h : defines64.lookup name = none) (args : List Arg64) (ls : List Line64) :
    assemble64 mesc (.ins name args :: ls) = none := by
  simp [assemble64, Line64.bytes, h]

end Mes.X64
