import Verif.Proof.X86Ops

/-
The arithmetic of C on the words of the processor.
-/
namespace Mes.X86
open Mes.Mescc Mes.CLang

/-- A conversion to a type, in a register. -/
def conv (t : Ty) (w : Word) : Word :=
  if t.size = 1 ∧ t.signed then (w.setWidth 8).signExtend 32
  else if t.size = 1 then (w.setWidth 8).setWidth 32
  else if t.size = 2 ∧ t.signed then (w.setWidth 16).signExtend 32
  else if t.size = 2 then (w.setWidth 16).setWidth 32
  else w

theorem setWidth_ofInt (n : Nat) (hn : n ≤ 32) (v : Int) : (BitVec.ofInt 32 v).setWidth n = BitVec.ofInt n v := by
  apply BitVec.eq_of_toNat_eq
  rw [BitVec.toNat_setWidth, BitVec.toNat_ofInt, BitVec.toNat_ofInt]
  have h2 : (0 : Int) ≤ v % (2 ^ 32 : Nat) := Int.emod_nonneg _ (by simp)
  have h3 : (0 : Int) ≤ v % (2 ^ n : Nat) := Int.emod_nonneg _ (by have : 0 < 2 ^ n := Nat.pow_pos (by omega); omega)
  have : ((2 ^ n : Nat) : Int) ∣ ((2 ^ 32 : Nat) : Int) := by
    exact_mod_cast Nat.pow_dvd_pow 2 hn
  apply Int.ofNat_inj.1
  rw [Int.natCast_emod, Int.toNat_of_nonneg h2, Int.toNat_of_nonneg h3]
  exact Int.emod_emod_of_dvd v this

theorem conv_ofInt {t : Ty} (ht : t.Ok) (v : Int) : conv t (BitVec.ofInt 32 v) = BitVec.ofInt 32 (wrap t v) := by
  obtain ⟨s, n⟩ := t
  have hs : ∀ n, n ≤ 32 → 0 < n → ((BitVec.ofInt 32 v).setWidth n).signExtend 32 = BitVec.ofInt 32 (v.bmod (2 ^ n)) := by
    intro n hn h0
    rw [setWidth_ofInt n hn]
    apply BitVec.eq_of_toInt_eq
    rw [BitVec.toInt_signExtend_of_le hn, BitVec.toInt_ofInt, BitVec.toInt_ofInt]
    have hp : (2 ^ n : Nat) ≤ 2 ^ 32 := Nat.pow_le_pow_right (by omega) hn
    have h1 := Int.bmod_lt (x := v) (m := 2 ^ n) (Nat.pow_pos (by omega))
    have h2 := Int.le_bmod (x := v) (m := 2 ^ n) (Nat.pow_pos (by omega))
    refine (Int.bmod_eq_of_le ?_ ?_).symm <;> omega
  have hz : ∀ n, n ≤ 32 → ((BitVec.ofInt 32 v).setWidth n).setWidth 32 = BitVec.ofInt 32 (v % (2 ^ n : Nat)) := by
    intro n hn
    rw [setWidth_ofInt n hn]
    apply BitVec.eq_of_toNat_eq
    rw [BitVec.toNat_setWidth_of_le hn, BitVec.toNat_ofInt, BitVec.toNat_ofInt]
    congr 1
    have hp : (2 ^ n : Nat) ≤ 2 ^ 32 := Nat.pow_le_pow_right (by omega) hn
    have hpos : 0 < (2 ^ n : Nat) := Nat.pow_pos (by omega)
    have h1 := Int.emod_lt_of_pos v (b := (2 ^ n : Nat)) (by omega)
    have h2 := Int.emod_nonneg v (b := (2 ^ n : Nat)) (by omega)
    exact (Int.emod_eq_of_lt h2 (by omega)).symm
  rcases ht with h | h | h <;> simp only at h <;> subst h <;> cases s
  · exact hz 8 (by omega)
  · exact hs 8 (by omega) (by omega)
  · exact hz 16 (by omega)
  · exact hs 16 (by omega) (by omega)
  · have := hz 32 (by omega)
    simp only [BitVec.setWidth_eq] at this
    exact this
  · have := hs 32 (by omega) (by omega)
    simp only [BitVec.setWidth_eq, BitVec.signExtend_eq] at this
    exact this

theorem wrap_int (v : Int) : wrap .int v = (BitVec.ofInt 32 v).toInt := (BitVec.toInt_ofInt ..).symm

theorem wrap_uint (v : Int) : wrap .uint v = (BitVec.ofInt 32 v).toNat := by
  rw [BitVec.toNat_ofInt, Int.toNat_of_nonneg (Int.emod_nonneg _ (by simp))]
  rfl

theorem ofInt_wrap_int (v : Int) : BitVec.ofInt 32 (wrap .int v) = BitVec.ofInt 32 v := by
  rw [wrap_int, BitVec.ofInt_toInt]

theorem ofInt_natCast (n : Nat) : BitVec.ofInt 32 (n : Int) = BitVec.ofNat 32 n := by
  simp

theorem ofInt_wrap_uint (v : Int) : BitVec.ofInt 32 (wrap .uint v) = BitVec.ofInt 32 v := by
  rw [wrap_uint, ofInt_natCast, BitVec.ofNat_toNat, BitVec.setWidth_eq]

theorem common_cases (a b : Ty) : common a b = .int ∨ common a b = .uint := by
  unfold common
  split
  · exact .inl rfl
  · exact .inr rfl

theorem ofInt_wrap_common (a b : Ty) (v : Int) : BitVec.ofInt 32 (wrap (common a b) v) = BitVec.ofInt 32 v := by
  rcases common_cases a b with h | h <;> rw [h]
  · exact ofInt_wrap_int v
  · exact ofInt_wrap_uint v

theorem ofInt_emod (v : Int) : BitVec.ofInt 32 (v % 2 ^ 32) = BitVec.ofInt 32 v := ofInt_wrap_uint v

theorem arith_word {t : Ty} {v r : Int} (h : arith t v = some r) : BitVec.ofInt 32 r = BitVec.ofInt 32 v := by
  unfold arith at h
  split at h
  · split at h
    · cases h; rfl
    · cases h
  · cases h; exact ofInt_emod v

theorem ofBits_word (t : Ty) (w : Word) : BitVec.ofInt 32 (ofBits t w) = w := by
  unfold ofBits
  split
  · exact BitVec.ofInt_toInt
  · rw [ofInt_natCast, BitVec.ofNat_toNat, BitVec.setWidth_eq]

/-! ## The values of expressions are not too large -/

def Bounded (v : Int) : Prop := -2 ^ 31 ≤ v ∧ v < 2 ^ 32

theorem zero_iff {v : Int} (h : Bounded v) : BitVec.ofInt 32 v = 0 ↔ v = 0 := by
  unfold Bounded at h
  constructor
  · intro h0
    have := congrArg BitVec.toInt h0
    rw [BitVec.toInt_ofInt] at this
    have h1 : (v.bmod (2 ^ 32)) = 0 := this
    have := (Int.emod_emod_of_dvd v (Int.dvd_refl (2 ^ 32)))
    rw [Int.bmod_def] at h1
    split at h1 <;> omega
  · rintro rfl; rfl

theorem arith_bounded {t : Ty} {v r : Int} (h : arith t v = some r) : Bounded r := by
  unfold arith at h
  unfold Bounded
  split at h
  · split at h
    · cases h; omega
    · cases h
  · cases h; omega

theorem ofBits_bounded (t : Ty) (w : Word) : Bounded (ofBits t w) := by
  unfold ofBits Bounded
  have h1 := w.isLt
  have h2 := BitVec.toInt_lt (x := w)
  have h3 := BitVec.le_toInt (x := w)
  split <;> omega

theorem truth_bounded (b : Bool) : Bounded (truth b) := by
  unfold truth Bounded
  split <;> omega

theorem wrap_bounded {t : Ty} (ht : t.Ok) (v : Int) : Bounded (wrap t v) := by
  obtain ⟨s, n⟩ := t
  unfold wrap Bounded
  have h1 := fun m h => Int.bmod_lt (x := v) (m := m) h
  have h2 := fun m h => Int.le_bmod (x := v) (m := m) h
  rcases ht with h | h | h <;> simp only at h <;> subst h <;> cases s
  · show -2 ^ 31 ≤ v % 2 ^ 8 ∧ v % 2 ^ 8 < 2 ^ 32; omega
  · have := h1 (2 ^ 8) (by omega); have := h2 (2 ^ 8) (by omega)
    show -2 ^ 31 ≤ v.bmod (2 ^ 8) ∧ v.bmod (2 ^ 8) < 2 ^ 32; omega
  · show -2 ^ 31 ≤ v % 2 ^ 16 ∧ v % 2 ^ 16 < 2 ^ 32; omega
  · have := h1 (2 ^ 16) (by omega); have := h2 (2 ^ 16) (by omega)
    show -2 ^ 31 ≤ v.bmod (2 ^ 16) ∧ v.bmod (2 ^ 16) < 2 ^ 32; omega
  · show -2 ^ 31 ≤ v % 2 ^ 32 ∧ v % 2 ^ 32 < 2 ^ 32; omega
  · have := h1 (2 ^ 32) (by omega); have := h2 (2 ^ 32) (by omega)
    show -2 ^ 31 ≤ v.bmod (2 ^ 32) ∧ v.bmod (2 ^ 32) < 2 ^ 32; omega

theorem common_ok (a b : Ty) : (common a b).Ok := by
  rcases common_cases a b with h | h <;> rw [h] <;> exact .inr (.inr rfl)

/-! ## Flags of a difference -/

theorem sub_zf (x y : Word) : (subFlags x y).zf = decide (x = y) := by
  show decide (x - y = 0) = _
  congr 1
  apply propext
  constructor
  · intro h
    have := congrArg (· + y) h
    simpa [BitVec.sub_add_cancel] using this
  · rintro rfl; exact BitVec.sub_self x

theorem sub_cf (x y : Word) : (subFlags x y).cf = decide (x.toNat < y.toNat) := rfl

theorem sub_slt (x y : Word) : ((subFlags x y).sf != (subFlags x y).of) = decide (x.toInt < y.toInt) := by
  have hm : ∀ w : Word, w.msb = decide (2 ^ 31 ≤ w.toNat) := fun w => BitVec.msb_eq_decide w
  show ((x - y).msb != decide (x.msb ≠ y.msb ∧ (x - y).msb ≠ x.msb)) = _
  have hs : (x - y).toNat = (2 ^ 32 - y.toNat + x.toNat) % 2 ^ 32 := BitVec.toNat_sub x y
  have h1 := x.isLt
  have h2 := y.isLt
  rw [hm, hm, hm, BitVec.toInt_eq_toNat_cond, BitVec.toInt_eq_toNat_cond, hs]
  generalize x.toNat = p at *
  generalize y.toNat = q at *
  by_cases a1 : 2 ^ 31 ≤ p <;> by_cases a2 : 2 ^ 31 ≤ q <;> by_cases a3 : 2 ^ 31 ≤ (2 ^ 32 - q + p) % 2 ^ 32 <;>
    simp only [a1, a2, a3, decide_true, decide_false, ne_eq, not_true_eq_false, not_false_eq_true, true_and, and_true, and_false, false_and,
      Bool.true_eq_false, Bool.false_eq_true, bne_self_eq_false, Bool.bne_false, Bool.bne_true, Bool.not_true] <;>
    (first
      | (symm; apply decide_eq_true; split <;> split <;> omega)
      | (symm; apply decide_eq_false; split <;> split <;> omega))

theorem idiv_toInt (x : Word) : ((if x.msb then (-1 : Word) else 0) ++ x).toInt = x.toInt := by
  have h1 := x.isLt
  have hm : x.msb = decide (2 ^ 31 ≤ x.toNat) := BitVec.msb_eq_decide x
  rw [BitVec.toInt_eq_toNat_cond, BitVec.toInt_eq_toNat_cond, BitVec.toNat_append, ← Nat.shiftLeft_add_eq_or_of_lt h1, Nat.shiftLeft_eq, hm]
  by_cases h : 2 ^ 31 ≤ x.toNat
  · simp only [h, decide_true, if_true]
    rw [show (-1 : Word).toNat = 2 ^ 32 - 1 by decide]
    split <;> split <;> omega
  · simp only [h, decide_false, Bool.false_eq_true, if_false]
    rw [show (0 : Word).toNat = 0 by decide]
    split <;> split <;> omega

theorem mul_word (x y : Word) : BitVec.ofNat 32 (x.toNat * y.toNat) = x * y := by
  apply BitVec.eq_of_toNat_eq
  rw [BitVec.toNat_ofNat, BitVec.toNat_mul]

theorem lo8_count {n : Int} (h0 : 0 ≤ n) (h1 : n < 32) : ((BitVec.ofInt 32 n).extractLsb' 0 8).toNat % 32 = n.toNat := by
  obtain ⟨k, rfl⟩ := Int.eq_ofNat_of_zero_le h0
  rw [ofInt_natCast, BitVec.extractLsb'_toNat, BitVec.toNat_ofNat]
  simp
  omega

theorem shl_word {x n : Int} (hx : 0 ≤ x) : BitVec.ofInt 32 x <<< n.toNat = BitVec.ofInt 32 (x * 2 ^ n.toNat) := by
  obtain ⟨k, rfl⟩ := Int.eq_ofNat_of_zero_le hx
  have : ((k : Int) * 2 ^ n.toNat) = ((k * 2 ^ n.toNat : Nat) : Int) := by push_cast; rfl
  rw [this, ofInt_natCast, ofInt_natCast]
  apply BitVec.eq_of_toNat_eq
  rw [BitVec.toNat_shiftLeft, BitVec.toNat_ofNat, BitVec.toNat_ofNat, Nat.shiftLeft_eq, Nat.mod_mul_mod]

theorem shr_word {x n : Int} (hx : 0 ≤ x) (h : Bounded x) : BitVec.ofInt 32 x >>> n.toNat = BitVec.ofInt 32 (x / 2 ^ n.toNat) := by
  obtain ⟨k, rfl⟩ := Int.eq_ofNat_of_zero_le hx
  have : ((k : Int) / 2 ^ n.toNat) = ((k / 2 ^ n.toNat : Nat) : Int) := by push_cast; rfl
  have hk : k < 2 ^ 32 := by unfold Bounded at h; omega
  rw [this, ofInt_natCast, ofInt_natCast]
  apply BitVec.eq_of_toNat_eq
  rw [BitVec.toNat_ushiftRight, BitVec.toNat_ofNat, BitVec.toNat_ofNat, Nat.shiftRight_eq_div_pow, Nat.mod_eq_of_lt hk]
  exact (Nat.mod_eq_of_lt (Nat.lt_of_le_of_lt (Nat.div_le_self _ _) hk)).symm

end Mes.X86
