import Verif.Proof.CDiv
/- Property C45: software division, for 32-bit and 64-bit words. -/
namespace Mes.C
open Res

/-- Unsigned division: quotient and remainder, for every dividend and every non-zero divisor. -/
theorem C45_uldiv (w n d : Nat) (hw : w = 32 ∨ w = 64) (hn : n < 2 ^ w) (hd : d ≠ 0) (hdw : d < 2 ^ w) :
    ∃ q r, uldiv w n d = ok (q, r) ∧ q * d + r = n ∧ r < d :=
  ⟨n / d, n % d, uldiv_ok hw n d hn hd hdw, by rw [Nat.mul_comm]; exact Nat.div_add_mod n d, Nat.mod_lt _ (by omega)⟩

/-- The unsigned operators used by compiled code are the mathematical quotient and remainder. -/
theorem C45_udiv_umod (w n d : Nat) (hw : w = 32 ∨ w = 64) (hn : n < 2 ^ w) (hd : d ≠ 0) (hdw : d < 2 ^ w) :
    udiv w n d = ok (n / d) ∧ umod w n d = ok (n % d) := by
  simp [udiv, umod, uldiv_ok hw n d hn hd hdw]

example : uldiv 32 4294967295 3 = ok (1431655765, 0) := by decide
example : uldiv 32 4294967295 2147483649 = ok (1, 2147483646) := by decide

/-- Division by zero stops the program, in every variant. -/
theorem C45_div_zero (w n : Nat) (a : Int) (hw : w = 32 ∨ w = 64) : uldiv w n 0 = abort ∧ ldiv w a 0 = abort := by
  have h0 : uldiv w a.toNat 0 = abort := rfl
  refine ⟨rfl, ?_⟩
  have hne : (0 : Int) ≠ longMin w := by rcases hw with rfl | rfl <;> decide
  unfold ldiv
  rw [if_neg hne]
  by_cases ha : a = longMin w
  · rw [if_neg (by simpa using ha)]; simp
  · rw [if_pos ha]
    simp [show ∀ x, uldiv w x 0 = abort from fun _ => rfl]

/-- A `long` of `w` bits. -/
def IsLong (w : Nat) (x : Int) : Prop := -(2 ^ (w - 1) : Nat) ≤ x ∧ x < (2 ^ (w - 1) : Nat)

/-- The full property of signed division: truncation towards zero whenever the quotient is representable. -/
def LdivCorrect (w : Nat) : Prop :=
  ∀ a b : Int, IsLong w a → IsLong w b → b ≠ 0 → IsLong w (a.tdiv b) → ldiv w a b = ok (a.tdiv b, a.tmod b)

/-- False: dividing by the smallest `long` stops the program, although the quotient is 0 or 1. -/
theorem C45_ldiv_false (w : Nat) (hw : w = 32 ∨ w = 64) : ¬ LdivCorrect w := by
  intro h
  rcases hw with rfl | rfl
  · exact absurd (h 1 (-(2 ^ 31 : Nat)) (by unfold IsLong; decide) (by unfold IsLong; decide) (by decide) (by unfold IsLong; decide)) (by decide)
  · exact absurd (h 1 (-(2 ^ 63 : Nat)) (by unfold IsLong; decide) (by unfold IsLong; decide) (by decide) (by unfold IsLong; decide)) (by decide)

/-- Partial: signed division truncates towards zero, the remainder takes the sign of the dividend, for every dividend
including the smallest `long` and every divisor but 0 and the smallest `long`. -/
theorem C45_ldiv_partial (w : Nat) (hw : w = 32 ∨ w = 64) (a b : Int) (ha : IsLong w a) (hb : IsLong w b)
    (hb0 : b ≠ 0) (hbm : b ≠ -(2 ^ (w - 1) : Nat)) (hq : IsLong w (a.tdiv b)) :
    ldiv w a b = ok (a.tdiv b, a.tmod b) := by
  obtain ⟨ha1, ha2⟩ := ha
  obtain ⟨hb1, hb2⟩ := hb
  have hpow : 2 ^ w = 2 ^ (w - 1) * 2 := by rcases hw with rfl | rfl <;> decide
  have hM : longMin w = -(2 ^ (w - 1) : Nat) := rfl
  generalize hP : 2 ^ (w - 1) = P at *
  have hPpos : 0 < P := by rw [← hP]; exact Nat.two_pow_pos _
  unfold ldiv
  rw [hM, if_neg hbm]
  by_cases haM : a = -(P : Int)
  · rw [if_neg (by simpa using haM)]
    -- smallest dividend: repeated subtraction
    have key : ∀ b' : Int, 1 < b' → b' < P →
        ldivMinLoop b' (2 ^ w) 0 a = ok ((P : Int).tdiv b', -((P : Int).tmod b')) := by
      intro b' h1 h2
      rw [haM, ldivMinLoop_ok b' (by omega) (2 ^ w) P 0 (by omega)]; simp
    by_cases hbneg : b < 0
    · have hd : (decide (a < 0) ^^ decide (b < 0)) = false := by
        have : a < 0 := by omega
        simp [this, hbneg]
      simp only [if_pos hbneg, hd]
      by_cases hb1' : -b = 1
      · exfalso
        have : b = -1 := by omega
        subst this
        rw [haM] at hq
        have : (-(P : Int)).tdiv (-1) = P := by simp
        rw [this] at hq
        unfold IsLong at hq; omega
      · rw [if_neg hb1', if_neg (by omega), key (-b) (by omega) (by omega)]
        simp [haM, Int.neg_tdiv, Int.neg_tmod]
    · have hd : (decide (a < 0) ^^ decide (b < 0)) = true := by
        have : a < 0 := by omega
        simp [this, hbneg]
      simp only [if_neg hbneg, hd]
      by_cases hb1' : b = 1
      · subst hb1'
        have : long w a = ok a := by
          unfold long; rw [hM, if_pos (by omega)]
        simp [this]
      · rw [if_neg hb1', if_neg hb0, key b (by omega) (by omega)]
        simp [haM, Int.neg_tdiv, Int.neg_tmod]
  · rw [if_pos haM]
    have hua : ∀ x : Int, -(P : Int) < x → x < P → (if x < 0 then -x else x).toNat = x.natAbs := by
      intro x _ _; split <;> omega
    simp only []
    rw [hua a (by omega) ha2, hua b (by omega) hb2]
    rw [uldiv_ok hw a.natAbs b.natAbs (by rw [hpow]; omega) (by omega) (by rw [hpow]; omega)]
    have hdiv : ((a.natAbs / b.natAbs : Nat) : Int) = (a.natAbs : Int).tdiv (b.natAbs : Int) := by
      rw [Int.ofNat_tdiv]
    have hmod : ((a.natAbs % b.natAbs : Nat) : Int) = (a.natAbs : Int).tmod (b.natAbs : Int) := by
      rw [Int.ofNat_tmod]
    have hquot : (if (decide (a < 0) ^^ decide (b < 0)) = true then -((a.natAbs / b.natAbs : Nat) : Int)
        else ((a.natAbs / b.natAbs : Nat) : Int)) = a.tdiv b := by
      rw [hdiv]
      by_cases h1 : a < 0 <;> by_cases h2 : b < 0
      · have e1 : (a.natAbs : Int) = -a := by omega
        have e2 : (b.natAbs : Int) = -b := by omega
        simp [h1, h2, e1, e2, Int.neg_tdiv, Int.tdiv_neg]
      · have e1 : (a.natAbs : Int) = -a := by omega
        have e2 : (b.natAbs : Int) = b := by omega
        simp [h1, h2, e1, e2, Int.neg_tdiv]
      · have e1 : (a.natAbs : Int) = a := by omega
        have e2 : (b.natAbs : Int) = -b := by omega
        simp [h1, h2, e1, e2, Int.tdiv_neg]
      · have e1 : (a.natAbs : Int) = a := by omega
        have e2 : (b.natAbs : Int) = b := by omega
        simp [h1, h2, e1, e2]
    have hrem : (if a < 0 then -((a.natAbs % b.natAbs : Nat) : Int) else ((a.natAbs % b.natAbs : Nat) : Int)) = a.tmod b := by
      rw [hmod]
      have e3 : ∀ x : Int, x.tmod (b.natAbs : Int) = x.tmod b := by
        intro x
        by_cases h2 : b < 0
        · have e2 : (b.natAbs : Int) = -b := by omega
          rw [e2, Int.tmod_neg]
        · have e2 : (b.natAbs : Int) = b := by omega
          rw [e2]
      rw [e3]
      by_cases h1 : a < 0
      · have e1 : (a.natAbs : Int) = -a := by omega
        simp [h1, e1, Int.neg_tmod]
      · have e1 : (a.natAbs : Int) = a := by omega
        simp [h1, e1]
    have hlong : long w (a.tdiv b) = ok (a.tdiv b) := by
      unfold IsLong at hq
      unfold long; rw [hM, if_pos (by omega)]
    simp only [ok_bind, hquot, hrem, hlong]

example : ldiv 32 (-7) 2 = ok (-3, -1) := by decide
example : ldiv 32 7 (-2) = ok (-3, 1) := by decide
example : IsLong 32 (-7) ∧ IsLong 32 2 ∧ IsLong 32 ((-7 : Int).tdiv 2) := by unfold IsLong; decide

end Mes.C
