import Verif.Model.CDiv
/- Lemmas for the software division. -/
namespace Mes.C
open Res

theorem log2iLoop_ok : ∀ (k fuel D i : Nat), k < fuel → D < 2 ^ 2 ^ k → log2iLoop fuel (2 ^ k) D i = i + D.log2 := by
  intro k
  induction k with
  | zero =>
    intro fuel D i hf hD
    obtain ⟨fuel, rfl⟩ : ∃ f, fuel = f + 1 := ⟨fuel - 1, by omega⟩
    have : D = 0 ∨ D = 1 := by simp at hD; omega
    rcases this with rfl | rfl <;> simp [log2iLoop] <;> decide
  | succ k ih =>
    intro fuel D i hf hD
    obtain ⟨fuel, rfl⟩ : ∃ f, fuel = f + 1 := ⟨fuel - 1, by omega⟩
    have hn : 2 ^ (k + 1) ≥ 2 := by
      have := Nat.one_le_two_pow (n := k); rw [Nat.pow_succ]; omega
    have hhalf : 2 ^ (k + 1) / 2 = 2 ^ k := by rw [Nat.pow_succ]; omega
    have hsq : 2 ^ 2 ^ (k + 1) = 2 ^ 2 ^ k * 2 ^ 2 ^ k := by
      rw [← Nat.pow_add]; congr 1; rw [Nat.pow_succ]; omega
    simp only [log2iLoop, if_pos hn, hhalf, Nat.shiftRight_eq_div_pow]
    by_cases h0 : D / 2 ^ 2 ^ k > 0
    · rw [if_pos h0, ih fuel _ _ (by omega) (by rw [Nat.div_lt_iff_lt_mul (Nat.two_pow_pos _), ← hsq]; exact hD)]
      have hne : D / 2 ^ 2 ^ k ≠ 0 := by omega
      have hDne : D ≠ 0 := by intro h; simp [h] at h0
      have : D.log2 = (D / 2 ^ 2 ^ k).log2 + 2 ^ k := by
        rw [Nat.log2_eq_iff hDne]
        have h1 := Nat.log2_self_le hne
        have h2 := @Nat.lt_log2_self (D / 2 ^ 2 ^ k)
        constructor
        · rw [Nat.pow_add]
          exact Nat.le_trans (Nat.mul_le_mul_right _ h1) (Nat.div_mul_le_self _ _)
        · rw [Nat.add_right_comm, Nat.pow_add]
          exact (Nat.div_lt_iff_lt_mul (Nat.two_pow_pos _)).mp h2
      omega
    · rw [if_neg h0, ih fuel D i (by omega)]
      have := Nat.div_eq_zero_iff.mp (Nat.eq_zero_of_not_pos h0)
      rcases this with h | h
      · have := Nat.two_pow_pos (2 ^ k); omega
      · exact h

theorem log2i_ok {w D : Nat} (hw : w = 32 ∨ w = 64) (hD : D < 2 ^ w) : log2i w D = D.log2 := by
  rcases hw with rfl | rfl
  · have := log2iLoop_ok 5 32 D 0 (by omega) hD; simpa [log2i] using this
  · have := log2iLoop_ok 6 64 D 0 (by omega) hD; simpa [log2i] using this

/-- Invariant of the shift-subtract loop: with `j` turns left the divisor is `d * 2^(j-1)`. -/
theorem uldivLoop_ok (w d : Nat) (hd : 0 < d) : ∀ (j D q R : Nat), (∀ j', j = j' + 1 → D = d * 2 ^ j') → R < d * 2 ^ j →
    q * 2 ^ j + 2 ^ j ≤ 2 ^ w → j ≤ w →
    uldivLoop w j D q R = (q * 2 ^ j + R / d, R % d) := by
  intro j
  induction j with
  | zero =>
    intro D q R _ hR hq _
    simp only [Nat.pow_zero, Nat.mul_one] at *
    simp [uldivLoop, Nat.div_eq_of_lt hR, Nat.mod_eq_of_lt hR]
  | succ j ih =>
    intro D q R hD hR hq hj
    have hD := hD j rfl
    have hp := Nat.two_pow_pos j
    have hpos : 2 ^ (j + 1) = 2 ^ j * 2 := Nat.pow_succ ..
    have hqlt : q * 2 < 2 ^ w := by
      have h1 : q * 2 * 1 ≤ q * 2 * 2 ^ j := Nat.mul_le_mul_left _ hp
      have h2 : q * 2 ^ (j + 1) = q * 2 * 2 ^ j := by rw [hpos, Nat.mul_comm (2 ^ j), Nat.mul_assoc]
      omega
    have hshift : (q <<< 1) % 2 ^ w = q * 2 := by
      rw [Nat.shiftLeft_eq, Nat.pow_one, Nat.mod_eq_of_lt hqlt]
    have hDnext : ∀ j', j = j' + 1 → D >>> 1 = d * 2 ^ j' := by
      rintro j' rfl
      rw [hD, Nat.shiftRight_eq_div_pow, Nat.pow_succ, Nat.pow_one, ← Nat.mul_assoc,
        Nat.mul_div_cancel _ (by omega)]
    have hqj : q * 2 * 2 ^ j = q * 2 ^ (j + 1) := by rw [hpos, Nat.mul_comm (2 ^ j), Nat.mul_assoc]
    have hdj : d * 2 ^ (j + 1) = d * 2 ^ j + d * 2 ^ j := by rw [hpos, ← Nat.mul_assoc]; omega
    have hun : uldivLoop w (j + 1) D q R = if R ≥ D then uldivLoop w j (D >>> 1) (q * 2 ||| 1) (R - D)
        else uldivLoop w j (D >>> 1) (q * 2) R := by
      rw [uldivLoop, hshift]
    rw [hun]
    by_cases hge : R ≥ D
    · have hor : (q * 2) ||| 1 = q * 2 + 1 := by
        have := Nat.two_pow_add_eq_or_of_lt (i := 1) (b := 1) (by decide) q
        rw [Nat.pow_one, Nat.mul_comm 2 q] at this; exact this.symm
      have hR' : R - D < d * 2 ^ j := by omega
      have hq' : (q * 2 + 1) * 2 ^ j + 2 ^ j ≤ 2 ^ w := by rw [Nat.add_mul, hqj]; omega
      rw [if_pos hge, hor, ih (D >>> 1) _ (R - D) hDnext hR' hq' (by omega)]
      have hRsplit : R = d * 2 ^ j + (R - D) := by omega
      have h1 : R / d = 2 ^ j + (R - D) / d := by
        conv => lhs; rw [hRsplit]
        rw [Nat.mul_add_div hd]
      have h2 : R % d = (R - D) % d := by
        conv => lhs; rw [hRsplit]
        rw [Nat.mul_add_mod]
      rw [h1, h2, Nat.add_mul, hqj]; simp; omega
    · rw [if_neg hge, ih (D >>> 1) _ R hDnext (by omega) (by rw [hqj]; omega) (by omega), hqj]

theorem uldiv1_ok {w : Nat} (hw : w = 32 ∨ w = 64) (n d : Nat) (hn : n < 2 ^ w) (hd : 0 < d) (hdw : d < 2 ^ w) :
    uldiv1 w n d = (n / d, n % d) := by
  unfold uldiv1
  rw [log2i_ok hw hdw]
  have hne : d ≠ 0 := by omega
  have hlog : d.log2 < w := (Nat.log2_lt hne).mpr hdw
  have h1 := Nat.log2_self_le hne
  have h2 := @Nat.lt_log2_self d
  have hDlt : d * 2 ^ (w - d.log2 - 1) < 2 ^ w := by
    have : d * 2 ^ (w - d.log2 - 1) < 2 ^ (d.log2 + 1) * 2 ^ (w - d.log2 - 1) :=
      Nat.mul_lt_mul_of_pos_right h2 (Nat.two_pow_pos _)
    rwa [← Nat.pow_add, show d.log2 + 1 + (w - d.log2 - 1) = w by omega] at this
  have hR : n < d * 2 ^ (w - d.log2) := by
    have : 2 ^ d.log2 * 2 ^ (w - d.log2) ≤ d * 2 ^ (w - d.log2) := Nat.mul_le_mul_right _ h1
    rw [← Nat.pow_add, show d.log2 + (w - d.log2) = w by omega] at this
    omega
  rw [uldivLoop_ok w d hd (w - d.log2) _ 0 n _ hR _ (by omega)]
  · simp
  · intro j' hj'
    rw [Nat.shiftLeft_eq, Nat.mod_eq_of_lt hDlt]
    congr 2; omega
  · simp; exact Nat.pow_le_pow_right (by omega) (by omega)

theorem uldiv_ok {w : Nat} (hw : w = 32 ∨ w = 64) (n d : Nat) (hn : n < 2 ^ w) (hd : d ≠ 0) (hdw : d < 2 ^ w) :
    uldiv w n d = ok (n / d, n % d) := by
  have e : ∀ k, n >>> k = n / 2 ^ k := fun k => Nat.shiftRight_eq_div_pow _ _
  have f : ∀ k, n &&& (2 ^ k - 1) = n % 2 ^ k := fun k => Nat.and_two_pow_sub_one_eq_mod _ _
  unfold uldiv
  by_cases h : d = 64; · rw [if_pos h, e, f 6]; subst h; rfl
  rw [if_neg h]
  by_cases h : d = 32; · rw [if_pos h, e, f 5]; subst h; rfl
  rw [if_neg h]
  by_cases h : d = 16; · rw [if_pos h, e, f 4]; subst h; rfl
  rw [if_neg h]
  by_cases h : d = 8; · rw [if_pos h, e, f 3]; subst h; rfl
  rw [if_neg h]
  by_cases h : d = 4; · rw [if_pos h, e, f 2]; subst h; rfl
  rw [if_neg h]
  by_cases h : d = 2; · rw [if_pos h, e, f 1]; subst h; rfl
  rw [if_neg h]
  by_cases h : d = 1; · rw [if_pos h]; subst h; simp [Nat.mod_one]
  rw [if_neg h, if_neg hd, uldiv1_ok hw n d hn (by omega) hdw]

theorem ldivMinLoop_ok (b : Int) (hb : 0 < b) : ∀ (fuel : Nat) (k : Nat) (x : Int), k < fuel →
    ldivMinLoop b fuel x (-(k : Int)) = ok (x + (k : Int).tdiv b, -((k : Int).tmod b)) := by
  intro fuel
  induction fuel with
  | zero => intro k x h; omega
  | succ fuel ih =>
    intro k x hk
    simp only [ldivMinLoop]
    have hk0 : (0 : Int) ≤ k := by omega
    rw [Int.tdiv_eq_ediv_of_nonneg hk0, Int.tmod_eq_emod_of_nonneg hk0]
    by_cases h : -(k : Int) ≤ -b
    · rw [if_pos h]
      have hcast : -(k : Int) + b = -((k - b.toNat : Nat) : Int) := by omega
      rw [hcast, ih (k - b.toNat) (x + 1) (by omega)]
      have h2 : ((k - b.toNat : Nat) : Int) = (k : Int) - b := by omega
      rw [h2, Int.tdiv_eq_ediv_of_nonneg (by omega), Int.tmod_eq_emod_of_nonneg (by omega), Int.sub_emod_right]
      have : (k : Int) = (k - b) + 1 * b := by omega
      have h3 : (k : Int) / b = (k - b) / b + 1 := by
        conv => lhs; rw [this]
        rw [Int.add_mul_ediv_right _ _ (by omega)]
      rw [h3]; congr 2; omega
    · rw [if_neg h, Int.ediv_eq_zero_of_lt (by omega) (by omega), Int.emod_eq_of_lt (by omega) (by omega)]
      simp

end Mes.C
