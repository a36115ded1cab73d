import Verif.Spec.X64Mem
import Verif.Model.X64Local
import Verif.Proof.X64Run
/- Lemmas for C82. -/
namespace Mes.X64
open X86 (Byte8)
open Mes.Mescc

theorem load_store_same (mem : Quad → Byte8) (a v : Quad) : load8 (store8 mem a v) a = v := by
  have key : ∀ k, k < 8 → (store8 mem a v (a + BitVec.ofNat 64 k)).toNat = v.toNat / 256 ^ k % 256 := by
    intro k hk
    have : a + BitVec.ofNat 64 k - a = BitVec.ofNat 64 k := by rw [BitVec.add_comm, BitVec.add_sub_cancel]
    have e : (a + BitVec.ofNat 64 k - a).toNat = k := by
      rw [this, BitVec.toNat_ofNat]
      omega
    rw [store8, e, if_pos hk, byteAt, BitVec.toNat_ofNat]
  simp only [load8, key 0 (by decide), key 1 (by decide), key 2 (by decide), key 3 (by decide), key 4 (by decide), key 5 (by decide), key 6 (by decide),
    key 7 (by decide)]
  apply BitVec.eq_of_toNat_eq
  rw [BitVec.toNat_ofNat]
  have := v.isLt
  simp only [Nat.reducePow, Nat.div_one]
  omega

theorem load_store_apart (mem : Quad → Byte8) (a b v : Quad) (h : ∀ k, k < 8 → 8 ≤ (b + BitVec.ofNat 64 k - a).toNat) :
    load8 (store8 mem a v) b = load8 mem b := by
  have key : ∀ k, k < 8 → store8 mem a v (b + BitVec.ofNat 64 k) = mem (b + BitVec.ofNat 64 k) := by
    intro k hk
    rw [store8, if_neg (by have := h k hk; omega)]
  simp only [load8, key 0 (by decide), key 1 (by decide), key 2 (by decide), key 3 (by decide), key 4 (by decide), key 5 (by decide), key 6 (by decide),
    key 7 (by decide)]

/-- Slots of different variables are apart. -/
theorem slots_apart (p : Quad) {x y : Int} (hx : -4294967296 ≤ x ∧ x < 4294967296) (hy : -4294967296 ≤ y ∧ y < 4294967296) (hne : x ≠ y) (k : Nat) (hk : k < 8) :
    8 ≤ (p - BitVec.ofInt 64 (8 * y) + BitVec.ofNat 64 k - (p - BitVec.ofInt 64 (8 * x))).toNat := by
  have e : (p - BitVec.ofInt 64 (8 * y) + BitVec.ofNat 64 k - (p - BitVec.ofInt 64 (8 * x))) = BitVec.ofInt 64 (8 * x - 8 * y + k) := by
    apply BitVec.eq_of_toNat_eq
    simp only [BitVec.toNat_sub, BitVec.toNat_add, BitVec.toNat_ofInt, BitVec.toNat_ofNat]
    have := p.isLt
    omega
  rw [e, BitVec.toNat_ofInt]
  omega

theorem disp1 {v : Int} (h : v.natAbs < 128) : immValue [BitVec.ofInt 8 v] = BitVec.ofInt 64 v := signExtend_ofInt1 (by omega) (by omega)
theorem disp4 {v : Int} (h : Near v) : immValue (le4 (BitVec.ofInt 32 v)) = BitVec.ofInt 64 v := (immValue_le4 _).trans (signExtend_ofInt4 h.1 h.2)

theorem moves_one {mesc : Bool} {name : String} {a : Arg64} {bs : List Byte8} {i : Instr} {m m' : Machine} (hl : defines64.lookup name = some bs)
    (hh : head bs = some (i, [])) (hd : (a.bytes mesc).length = i.dispSize) (hi : i.immSize = 0) (hm : move i (a.bytes mesc) m = some m') :
    ∃ cs, assemble64 mesc [.ins name [a]] = some cs ∧ Moves cs m m' := by
  refine ⟨bs ++ a.bytes mesc, by simp [assemble64, Line64.bytes, hl], i, a.bytes mesc, ?_, hm⟩
  have := decode_head hh (a.bytes mesc) [] [] hd (by simp [hi])
  simpa using this

/-- The register goes to the address. -/
theorem gives_store (mesc : Bool) {r : String} {n : Nat} (h : Used r n) {o : Int} (ho : Near o) (m : Machine) :
    ∃ cs, assemble64 mesc [if o.natAbs < 0x80 then .ins ("mov____%" ++ r ++ ",0x8(%rbp)") [.imm1 o] else .ins ("mov____%" ++ r ++ ",0x32(%rbp)") [.imm4 o]] = some cs ∧
      Moves cs m { m with mem := store8 m.mem (m.reg 5 + BitVec.ofInt 64 o) (m.reg n) } := by
  split
  · rename_i hs
    rw [← disp1 hs]
    rcases h with ⟨rfl, rfl⟩ | ⟨rfl, rfl⟩
    · exact moves_one (bs := [0x48, 0x89, 0x45]) (i := ⟨.mov, .q, [.reg .q 0, .mem (.reg 5) 1]⟩) (by decide +kernel) (by decide +kernel) rfl rfl rfl
    · exact moves_one (bs := [0x48, 0x89, 0x7d]) (i := ⟨.mov, .q, [.reg .q 7, .mem (.reg 5) 1]⟩) (by decide +kernel) (by decide +kernel) rfl rfl rfl
  · rw [← disp4 ho]
    rcases h with ⟨rfl, rfl⟩ | ⟨rfl, rfl⟩
    · exact moves_one (bs := [0x48, 0x89, 0x85]) (i := ⟨.mov, .q, [.reg .q 0, .mem (.reg 5) 4]⟩) (by decide +kernel) (by decide +kernel) rfl rfl rfl
    · exact moves_one (bs := [0x48, 0x89, 0xbd]) (i := ⟨.mov, .q, [.reg .q 7, .mem (.reg 5) 4]⟩) (by decide +kernel) (by decide +kernel) rfl rfl rfl

/-- The number at the address goes to the register. -/
theorem gives_load (mesc : Bool) {r : String} {n : Nat} (h : Used r n) {o : Int} (ho : Near o) (m : Machine) :
    ∃ cs, assemble64 mesc [if o.natAbs < 0x80 then .ins ("mov____0x8(%rbp),%" ++ r) [.imm1 o] else .ins ("mov____0x32(%rbp),%" ++ r) [.imm4 o]] = some cs ∧
      Moves cs m { m with reg := fun k => if k = n then load8 m.mem (m.reg 5 + BitVec.ofInt 64 o) else m.reg k } := by
  split
  · rename_i hs
    rw [← disp1 hs]
    rcases h with ⟨rfl, rfl⟩ | ⟨rfl, rfl⟩
    · exact moves_one (bs := [0x48, 0x8b, 0x45]) (i := ⟨.mov, .q, [.mem (.reg 5) 1, .reg .q 0]⟩) (by decide +kernel) (by decide +kernel) rfl rfl rfl
    · exact moves_one (bs := [0x48, 0x8b, 0x7d]) (i := ⟨.mov, .q, [.mem (.reg 5) 1, .reg .q 7]⟩) (by decide +kernel) (by decide +kernel) rfl rfl rfl
  · rw [← disp4 ho]
    rcases h with ⟨rfl, rfl⟩ | ⟨rfl, rfl⟩
    · exact moves_one (bs := [0x48, 0x8b, 0x85]) (i := ⟨.mov, .q, [.mem (.reg 5) 4, .reg .q 0]⟩) (by decide +kernel) (by decide +kernel) rfl rfl rfl
    · exact moves_one (bs := [0x48, 0x8b, 0xbd]) (i := ⟨.mov, .q, [.mem (.reg 5) 4, .reg .q 7]⟩) (by decide +kernel) (by decide +kernel) rfl rfl rfl

theorem slot_eq (m : Machine) (id : Int) : m.reg 5 + BitVec.ofInt 64 (0 - 8 * id) = slot m id := by
  rw [slot, Int.zero_sub, BitVec.ofInt_neg, BitVec.sub_eq_add_neg]

end Mes.X64
