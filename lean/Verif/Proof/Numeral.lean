import Verif.Proof.CNum
/- The numeral of a number is unique, and its length bounds the number. -/
namespace Mes.C
open Spec

theorem numVal_snoc (b : Nat) (ds : List UInt8) (c : UInt8) : numVal b (ds ++ [c]) = numVal b ds * b + (digitVal c).getD 0 := by
  simp [numVal]

theorem numVal_lt {b : Nat} : ∀ {n : Nat} {ds : List UInt8}, ds.length = n → (∀ c ∈ ds, IsDigit b c) → numVal b ds < b ^ n
  | 0, ds, h, _ => by
    cases List.eq_nil_of_length_eq_zero h
    simp [numVal]
  | n + 1, ds, h, hd => by
    rcases List.eq_nil_or_concat ds with rfl | ⟨l, c, rfl⟩
    · cases h
    rw [List.concat_eq_append] at h hd ⊢
    have := numVal_lt (n := n) (ds := l) (by simpa using h) fun c hc => hd c (by simp [hc])
    have hc := digit_lt (hd c (by simp))
    rw [numVal_snoc, Nat.pow_succ]
    have : (numVal b l + 1) * b ≤ b ^ n * b := Nat.mul_le_mul_right b this
    rw [Nat.add_mul] at this
    omega

theorem digitVal_inj {c d : UInt8} {v : Nat} (hc : digitVal c = some v) (hd : digitVal d = some v) : c = d := by
  apply UInt8.toNat_inj.1
  unfold digitVal at hc hd
  repeat' split at hc
  all_goals repeat' split at hd
  all_goals simp only [Option.some.injEq, reduceCtorEq] at hc hd
  all_goals omega

theorem numVal_pos {b : Nat} (hb : 0 < b) : ∀ {n : Nat} {ds : List UInt8}, ds.length = n → (∀ c ∈ ds, IsDigit b c) → ds ≠ [] → ds.head? ≠ some 48 →
    0 < numVal b ds
  | 0, ds, h, _, hne, _ => absurd (List.eq_nil_of_length_eq_zero h) hne
  | n + 1, ds, h, hd, _, hh => by
    rcases List.eq_nil_or_concat ds with rfl | ⟨l, c, rfl⟩
    · cases h
    rw [List.concat_eq_append] at h hd hh ⊢
    rw [numVal_snoc]
    by_cases hl : l = []
    · subst hl
      obtain ⟨v, hv, -⟩ := hd c (by simp)
      rw [hv]
      rcases Nat.eq_zero_or_pos v with rfl | h
      · exact absurd (congrArg some (digitVal_inj hv (by decide : digitVal 48 = some 0))) (by simpa using hh)
      · simp only [Option.getD_some]; omega
    · have := numVal_pos hb (n := n) (ds := l) (by simpa using h) (fun c hc => hd c (by simp [hc])) hl (by rwa [head?_append_ne hl] at hh)
      have : 1 * b ≤ numVal b l * b := Nat.mul_le_mul_right b this
      omega

theorem numeral_unique {b : Nat} (hb : 0 < b) : ∀ {k n : Nat} {ds es : List UInt8}, ds.length = k → IsNumeral b n ds → IsNumeral b n es → ds = es
  | 0, _, ds, _, h, hd, _ => absurd (List.eq_nil_of_length_eq_zero h) hd.nonempty
  | k + 1, n, ds, es, h, hd, he => by
    rcases List.eq_nil_or_concat ds with rfl | ⟨l, c, rfl⟩
    · exact absurd rfl hd.nonempty
    rcases List.eq_nil_or_concat es with rfl | ⟨l', c', rfl⟩
    · exact absurd rfl he.nonempty
    rw [List.concat_eq_append] at h hd
    rw [List.concat_eq_append] at he
    rw [List.concat_eq_append, List.concat_eq_append]
    have v1 := hd.value
    have v2 := he.value
    rw [numVal_snoc] at v1 v2
    have d1 := digit_lt (hd.digits c (by simp))
    have d2 := digit_lt (he.digits c' (by simp))
    have q1 : n / b = numVal b l ∧ n % b = (digitVal c).getD 0 := by
      rw [← v1, Nat.add_comm]
      exact ⟨by rw [Nat.add_mul_div_right _ _ hb, Nat.div_eq_of_lt d1, Nat.zero_add], by rw [Nat.add_mul_mod_self_right, Nat.mod_eq_of_lt d1]⟩
    have q2 : n / b = numVal b l' ∧ n % b = (digitVal c').getD 0 := by
      rw [← v2, Nat.add_comm]
      exact ⟨by rw [Nat.add_mul_div_right _ _ hb, Nat.div_eq_of_lt d2, Nat.zero_add], by rw [Nat.add_mul_mod_self_right, Nat.mod_eq_of_lt d2]⟩
    have hc : c = c' := by
      obtain ⟨x, hx, -⟩ := hd.digits c (by simp)
      obtain ⟨y, hy, -⟩ := he.digits c' (by simp)
      have := q1.2.symm.trans q2.2
      rw [hx, hy] at this
      simp only [Option.getD_some] at this
      subst this
      exact digitVal_inj hx hy
    subst hc
    have hh : ∀ {l : List UInt8}, IsNumeral b n (l ++ [c]) → l ≠ [] → l.head? ≠ some 48 := by
      intro l hn hl hh
      have := hn.canonical (by rwa [head?_append_ne hl])
      cases l with
      | nil => exact hl rfl
      | cons x l => cases l <;> simp at this
    have hpos : ∀ {l : List UInt8}, IsNumeral b n (l ++ [c]) → l ≠ [] → 0 < numVal b l := fun hn hl =>
      numVal_pos hb rfl (fun c hc => hn.digits c (by simp [hc])) hl (hh hn hl)
    congr 1
    have z : numVal b [] = 0 := rfl
    by_cases hl : l = []
    · by_cases hl' : l' = []
      · rw [hl, hl']
      · have := hpos he hl'
        rw [hl] at q1; omega
    · by_cases hl' : l' = []
      · have := hpos hd hl
        rw [hl'] at q2; omega
      · have i1 : IsNumeral b (n / b) l := ⟨hl, fun c hc => hd.digits c (by simp [hc]), q1.1.symm, fun h => absurd h (hh hd hl)⟩
        have i2 : IsNumeral b (n / b) l' := ⟨hl', fun c hc => he.digits c (by simp [hc]), q2.1.symm, fun h => absurd h (hh he hl')⟩
        exact numeral_unique hb (k := k) (by simpa using h) i1 i2

end Mes.C
