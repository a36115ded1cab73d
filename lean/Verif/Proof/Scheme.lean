import Verif.Model.Scheme
import Verif.Spec.Encoding
import Verif.Spec.Math
import Verif.Proof.Math
import Verif.Proof.Numeral
/-
Arithmetic and numerals of the transcribed Scheme functions.
-/
namespace Mes.Scm
open Res Spec C

theorem ge_iff {a b : Int} : ge a b = true ↔ b ≤ a := by simp only [ge, Bool.or_eq_true, decide_eq_true_eq]; omega
theorem le_iff {a b : Int} : le a b = true ↔ a ≤ b := by simp only [le, Bool.or_eq_true, decide_eq_true_eq]; omega

theorem ckLong_word {n : Int} (h : Word n) : ckLong n = ok n := ckLong_ok (word_inLong.1 h)

theorem quo_ok {n v : Int} (h0 : 0 ≤ n) (hn : Word n) (h1 : 0 < v) (hv : Word v) : quo n v = ok (n / v) := by
  unfold Word at hn hv
  have e : toSize v = v := by unfold toSize; omega
  have hle : n / v ≤ n := Int.ediv_le_self _ h0
  have hge : 0 ≤ n / v := Int.ediv_nonneg h0 (by omega)
  have e3 : (if n = 0 then n else if v ≠ 1 then n / v else n) = n / v := by
    split
    · next h => rw [h, Int.zero_ediv]
    · split
      · rfl
      · next h => simp only [ne_eq, Decidable.not_not] at h; rw [h, Int.ediv_one]
  have e2 : ofSize (n / v) = n / v := by unfold ofSize; omega
  simp only [quo, if_neg (show ¬ n < 0 by omega), ok_bind, e, if_neg (show ¬ v = 0 by omega), e3, e2, Bool.false_and, Bool.not_false, Bool.true_and,
    Bool.false_or, show ¬ v < 0 by omega, decide_false, Bool.false_eq_true, if_false]

theorem modu_ok {n v : Int} {fuel : Nat} (hn : Word n) (h1 : 0 < v) (hv : Word v) (hf : n.natAbs < fuel) : modu fuel n v = ok (n % v) := by
  have hn' := word_inLong.1 hn
  unfold Word at hn hv
  have hu : (if toSize (if n < 0 then n % v else n) ≠ 0 then toSize (if n < 0 then n % v else n) % v
      else toSize (if n < 0 then n % v else n)) = n % v := by
    have hr1 := Int.emod_nonneg n (show v ≠ 0 by omega); have hr2 := Int.emod_lt_of_pos n h1
    by_cases h : n < 0
    · have : toSize (n % v) = n % v := by unfold toSize; omega
      simp only [if_pos h, this]
      split
      · rw [Int.emod_emod]
      · rfl
    · have : toSize n = n := by unfold toSize; omega
      simp only [if_neg h, this]
      split
      · rfl
      · next h => simp at h; simp [h]
  have hr1 := Int.emod_nonneg n (show v ≠ 0 by omega); have hr2 := Int.emod_lt_of_pos n h1
  have hof : ofSize (n % v) = n % v := by unfold ofSize; omega
  simp only [modu, ok_bind, if_neg (show ¬ v = 0 by omega), if_neg (show ¬ v < 0 by omega),
    modLoop_ok h1 (by omega) hn' hf, hu, hof, Bool.false_eq_true, if_false]

theorem shift_right {n k : Int} (h0 : 0 < k) (hk : k < 64) : shift n (-k) = ok (n / 2 ^ k.toNat) := by
  have h1 : InLong k := by unfold InLong; omega
  simp only [shift, if_pos (show -k < 0 by omega), Int.neg_neg, ckLong_ok h1, ok_bind, ubUnless_true hk]

theorem remainder_ok {n v : Int} (h0 : 0 ≤ n) (hn : Word n) (h1 : 0 < v) (hv : Word v) : remainder n v = ok (n % v) := by
  have hge : 0 ≤ n / v := Int.ediv_nonneg h0 (by omega)
  have hm := Int.emod_nonneg n (show v ≠ 0 by omega)
  have hl := Int.emod_lt_of_pos n h1
  have he := Int.mul_ediv_add_emod n v
  rw [Int.mul_comm] at he
  have hp : 0 ≤ n / v * v := Int.mul_nonneg hge (by omega)
  unfold Word at hn hv
  have w1 : Word (n / v * v) := by unfold Word; omega
  have w2 : Word (n - n / v * v) := by unfold Word; omega
  unfold remainder
  rw [quo_ok h0 hn h1 hv, ok_bind, ckLong_word w1, ok_bind, ckLong_word w2]
  congr 1
  omega

theorem abs_ok {n : Int} (h : 0 ≤ n) : abs n = ok n := by simp only [abs, ge_iff.2 h, if_true]

theorem abs_neg {n : Int} (h : n < 0) (hw : Word (-n)) : abs n = ok (-n) := by
  have : ge n 0 = false := by
    cases hg : ge n 0 with
    | false => rfl
    | true => have := ge_iff.1 hg; omega
  simp only [abs, this, Bool.false_eq_true, if_false, ckLong_word hw]

/-- The digit of a number below 36. -/
def digit (i : Nat) : UInt8 := UInt8.ofNat (if i < 10 then i + 48 else i + 87)

theorem digitVal_digit (i : Nat) (h : i < 36) : digitVal (digit i) = some i := by
  have key : ∀ i : Fin 36, digitVal (digit i.val) = some i.val := by decide
  exact key ⟨i, h⟩

theorem digit_zero (i : Nat) (h : i < 36) : digit i = 48 ↔ i = 0 := by
  have key : ∀ i : Fin 36, digit i.val = 48 ↔ i.val = 0 := by decide
  exact key ⟨i, h⟩

theorem digitLoop_step {b n fuel : Nat} {lst : List UInt8} (hb : 2 ≤ b) (hb' : b ≤ 36) (hn : n < 2 ^ 63) :
    digitLoop b (fuel + 1) n lst = if n / b = 0 then ok (digit (n % b) :: lst) else digitLoop b fuel (n / b : Nat) (digit (n % b) :: lst) := by
  have wn : Word (n : Int) := by unfold Word; omega
  have wb : Word (b : Int) := by unfold Word; omega
  have hl : n % b < b := Nat.mod_lt _ (by omega)
  have e : ((n : Int) % (b : Int)) = ((n % b : Nat) : Int) := by simp
  have e2 : ((n : Int) / (b : Int)) = ((n / b : Nat) : Int) := by simp
  have ec : ckLong (((n % b : Nat) : Int) + (if ((n % b : Nat) : Int) < 10 then 48 else 97 - 10)) =
      ok ((if n % b < 10 then n % b + 48 else n % b + 87 : Nat) : Int) := by
    by_cases h : n % b < 10
    · rw [if_pos (by omega), if_pos h, ckLong_word (by unfold Word; omega)]; simp
    · rw [if_neg (by omega), if_neg h, ckLong_word (by unfold Word; omega)]; simp
  rw [digitLoop]
  rw [remainder_ok (by omega) wn (by omega) wb, ok_bind, e, abs_ok (by omega), ok_bind, ec, ok_bind]
  rw [quo_ok (by omega) wn (by omega) wb, ok_bind, e2, Int.toNat_natCast]
  by_cases h : n / b = 0
  · rw [if_pos (by omega), if_pos h]; rfl
  · rw [if_neg (by omega), if_neg h]; rfl

theorem digitLoop_ok {b : Nat} (hb : 2 ≤ b) (hb' : b ≤ 36) : ∀ (fuel n : Nat) (lst : List UInt8), n < fuel → n < 2 ^ 63 →
    ∃ ds, digitLoop b fuel n lst = ok (ds ++ lst) ∧ IsNumeral b n ds ∧ (n ≠ 0 → ds.head? ≠ some 48) := by
  intro fuel
  induction fuel with
  | zero => intro n lst h; omega
  | succ fuel ih =>
    intro n lst h hn
    have hl : n % b < b := Nat.mod_lt _ (by omega)
    have hv := digitVal_digit (n % b) (by omega)
    have hz := digit_zero (n % b) (by omega)
    rw [digitLoop_step hb hb' hn]
    by_cases h0 : n / b = 0
    · rw [if_pos h0]
      have hlt : n < b := by
        rcases Nat.div_eq_zero_iff.mp h0 with h | h
        · omega
        · exact h
      have em : n % b = n := Nat.mod_eq_of_lt hlt
      rw [em] at hv hz ⊢
      refine ⟨[digit n], rfl, ⟨by simp, ?_, by simp [numVal, hv], fun h => ?_⟩, fun hne h => ?_⟩
      · intro c hc
        rw [List.mem_singleton] at hc
        subst hc
        exact ⟨_, hv, hlt⟩
      · simp only [List.head?_cons, Option.some.injEq] at h; rw [h]
      · simp only [List.head?_cons, Option.some.injEq] at h; exact hne (hz.1 h)
    · rw [if_neg h0]
      have hlt : n / b < n := Nat.div_lt_self (by rcases Nat.eq_zero_or_pos n with h | h; simp [h] at h0; exact h) (by omega)
      obtain ⟨ds, h1, h2, h3⟩ := ih (n / b) (digit (n % b) :: lst) (by omega) (by omega)
      have hne := h2.nonempty
      have hh : (ds ++ [digit (n % b)]).head? = ds.head? := by
        cases ds with
        | nil => exact absurd rfl hne
        | cons d ds => rfl
      refine ⟨ds ++ [digit (n % b)], by rw [h1]; simp, ⟨by simp, ?_, ?_, fun h => ?_⟩, fun _ h => ?_⟩
      · intro c hc
        rcases List.mem_append.1 hc with hc | hc
        · exact h2.digits c hc
        · rw [List.mem_singleton] at hc
          subst hc
          exact ⟨_, hv, hl⟩
      · rw [numVal_snoc, h2.value, hv, Option.getD_some, Nat.mul_comm]
        exact Nat.div_add_mod n b
      · rw [hh] at h; exact absurd h (h3 h0)
      · rw [hh] at h; exact h3 h0 h

theorem numberToString_ok {b fuel : Nat} {n : Int} (hb : 2 ≤ b) (hb' : b ≤ 36) (hn : Word n) (hmin : n ≠ -2 ^ 63) (hf : n.natAbs < fuel) :
    ∃ text, numberToString fuel n b = ok text ∧ IsSigned b n text := by
  unfold Word at hn
  by_cases h : n < 0
  · obtain ⟨ds, h1, h2, -⟩ := digitLoop_ok hb hb' fuel n.natAbs [] hf (by omega)
    have e : (-n) = (n.natAbs : Int) := by omega
    refine ⟨45 :: ds, ?_, .inr ⟨h, ds, rfl, h2⟩⟩
    rw [List.append_nil] at h1
    unfold numberToString
    simp only [abs_neg h (by unfold Word; omega), e, ok_bind, h1, if_pos h]
    rfl
  · obtain ⟨ds, h1, h2, -⟩ := digitLoop_ok hb hb' fuel n.natAbs [] hf (by omega)
    have e : n = (n.natAbs : Int) := by omega
    refine ⟨ds, ?_, .inl ⟨by omega, h2⟩⟩
    rw [List.append_nil] at h1
    unfold numberToString
    rw [abs_ok (by omega), ok_bind, e, h1, ok_bind, ← e, if_neg h]
    rfl

theorem digit_ord {b : Nat} {c : UInt8} (h : IsDigit b c) : ∃ v, digitVal c = some v ∧ v < b ∧
    (48 ≤ ord c ∧ ord c ≤ 57 ∧ (v : Int) = ord c - 48 ∨ 97 ≤ ord c ∧ ord c ≤ 122 ∧ (v : Int) = ord c - 87 ∧ 10 ≤ v) := by
  obtain ⟨v, hv, hl⟩ := h
  refine ⟨v, hv, hl, ?_⟩
  unfold digitVal at hv
  unfold ord
  split at hv
  · cases hv; left; omega
  · split at hv
    · cases hv; right; omega
    · cases hv

theorem numberLoop_ok {b : Nat} {sign : Int} (hs : sign = 1 ∨ sign = -1) (hb : 2 ≤ b ∧ b ≤ 10 ∨ b = 16) : ∀ (ds : List UInt8) (fuel a : Nat), ds.length < fuel →
    (∀ c ∈ ds, IsDigit b c) → ds.foldl (fun a c => a * b + (digitVal c).getD 0) a < 2 ^ 63 →
    numberLoop b sign fuel ds a = ok (some (sign * ((ds.foldl (fun a c => a * b + (digitVal c).getD 0) a : Nat) : Int))) := by
  intro ds
  induction ds with
  | nil =>
    intro fuel a hf _ hv
    obtain ⟨fuel, rfl⟩ : ∃ f, fuel = f + 1 := ⟨fuel - 1, by simp at hf; omega⟩
    rw [List.foldl_nil] at hv ⊢
    have : Word (sign * (a : Int)) := by unfold Word; rcases hs with rfl | rfl <;> omega
    simp only [numberLoop, ckLong_word this, ok_bind]
  | cons c ds ih =>
    intro fuel a hf hd hv
    obtain ⟨fuel, rfl⟩ : ∃ f, fuel = f + 1 := ⟨fuel - 1, by simp at hf; omega⟩
    rw [List.foldl_cons] at hv ⊢
    obtain ⟨v, h1, h2, h3⟩ := digit_ord (hd c (by simp))
    rw [h1, Option.getD_some] at hv ⊢
    have hge : a * b + v ≤ ds.foldl (fun a c => a * b + (digitVal c).getD 0) (a * b + v) := by
      clear ih hf hd hv h1
      generalize a * b + v = x
      induction ds generalizing x with
      | nil => exact Nat.le_refl _
      | cons c ds ih =>
        refine Nat.le_trans ?_ (ih _)
        exact Nat.le_trans (Nat.le_mul_of_pos_right x (by omega)) (Nat.le_add_right _ _)
    have hrec := ih fuel (a * b + v) (by simp at hf; omega) (fun c hc => hd c (by simp [hc])) hv
    have w1 : Word ((a : Int) * (b : Int)) := by
      have : ((a : Int) * (b : Int)) = ((a * b : Nat) : Int) := by simp
      unfold Word; rw [this]; omega
    have w2 : Word ((a : Int) * (b : Int) + (v : Int)) := by
      have : ((a : Int) * (b : Int)) = ((a * b : Nat) : Int) := by simp
      unfold Word; rw [this]; omega
    have ea : ((a * b + v : Nat) : Int) = (a : Int) * (b : Int) + (v : Int) := by simp
    rw [ea] at hrec
    unfold numberLoop
    rcases h3 with ⟨g1, g2, g3⟩ | ⟨g1, g2, g3, g4⟩
    · simp only [ge_iff.2 g1, le_iff.2 g2, Bool.and_self, if_true, ckLong_word w1, ok_bind]
      rw [← g3]
      rw [ckLong_word w2, ok_bind, hrec]
    · have hb16 : b = 16 := by omega
      have g5 : (ge (ord c) 48 && le (ord c) 57) = false := by
        cases h : le (ord c) 57 with
        | false => simp
        | true => have := le_iff.1 h; omega
      have g6 : (decide ((b : Int) = 16) && ge (ord c) 97 && le (ord c) 102) = true := by
        rw [ge_iff.2 g1, le_iff.2 (by omega)]; simp [hb16]
      have g7 : ord c - (97 - 10) = (v : Int) := by omega
      simp only [g5, g6, Bool.false_eq_true, if_false, if_true, ckLong_word w1, ok_bind, g7]
      rw [ckLong_word w2, ok_bind, hrec]

theorem stringToNumber_ok {b fuel : Nat} {n : Int} {text : List UInt8} (hb : 2 ≤ b ∧ b ≤ 10 ∨ b = 16) (hn : Word n) (ht : IsSigned b n text)
    (hmin : n ≠ -2 ^ 63) (hf : text.length + 1 < fuel) : stringToNumber fuel text (some b) = ok (some n) := by
  unfold Word at hn
  obtain ⟨fuel, rfl⟩ : ∃ f, fuel = f + 1 := ⟨fuel - 1, by omega⟩
  unfold stringToNumber
  rcases ht with ⟨h0, h⟩ | ⟨h0, ds, rfl, h⟩
  · have hv := h.value
    unfold numVal at hv
    cases text with
    | nil => exact absurd rfl h.nonempty
    | cons c cs =>
      obtain ⟨v, -, -, h3⟩ := digit_ord (h.digits c (by simp))
      have hc : c ≠ 35 ∧ c ≠ 45 := by
        constructor <;> (rintro rfl; revert h3; simp [ord])
      rw [if_neg (by simp [hc.1])]
      simp only [if_neg hc.2, Option.getD_some, show ¬ ((1 : Int) = -1) by decide, if_false]
      have := numberLoop_ok (sign := 1) (.inl rfl) hb (c :: cs) fuel 0 (by simp at hf ⊢; omega) h.digits (by omega)
      rw [hv] at this
      rw [show ((0 : Nat) : Int) = 0 from rfl] at this
      rw [this]
      congr 2
      omega
  · have hv := h.value
    unfold numVal at hv
    rw [if_neg (by simp)]
    simp only [if_true, Option.getD_some]
    have := numberLoop_ok (sign := -1) (.inr rfl) hb ds fuel 0 (by simp at hf; omega) h.digits (by omega)
    rw [hv] at this
    rw [show ((0 : Nat) : Int) = 0 from rfl] at this
    rw [this]
    congr 2
    omega

/-! ### Texts that are no numbers -/

theorem every_byte (p : UInt8 → Prop) [DecidablePred p] (h : ∀ n : Fin 256, p (UInt8.ofNat n)) (c : UInt8) : p c := by
  have := h ⟨c.toNat, c.toNat_lt⟩
  simpa using this

theorem isDigit_iff (c : UInt8) : (ge (ord c) 48 && le (ord c) 57) = decide (48 ≤ c ∧ c ≤ 57) := by
  revert c; apply every_byte; decide +kernel
theorem isSmall_iff (c : UInt8) : (ge (ord c) 97 && le (ord c) 102) = decide (97 ≤ c ∧ c ≤ 102) := by
  revert c; apply every_byte; decide +kernel
theorem isCapital_iff (c : UInt8) : (ge (ord c) 65 && le (ord c) 70) = decide (65 ≤ c ∧ c ≤ 70) := by
  revert c; apply every_byte; decide +kernel
theorem isPoint_iff (c : UInt8) : (ord c = 46) ↔ c = 46 := by
  revert c; apply every_byte; decide +kernel

theorem accepted (fuel : Nat) :
    (∀ text rest n, stringToNumber fuel text rest = ok (some n) → ∀ c ∈ text, NumberChar c) ∧
    (∀ radix sign text m n, numberLoop radix sign fuel text m = ok (some n) → ∀ c ∈ text, NumberChar c) := by
  induction fuel with
  | zero => exact ⟨fun _ _ _ h => by simp [stringToNumber] at h, fun _ _ _ _ _ h => by simp [numberLoop] at h⟩
  | succ fuel ih =>
    obtain ⟨ih1, ih2⟩ := ih
    constructor
    · intro text rest n h
      unfold stringToNumber at h
      split at h
      · rename_i hp
        obtain ⟨hl, hp⟩ := hp
        have := ih1 _ _ _ h
        match text, hl, hp with
        | a :: b :: t, _, hp =>
          simp only [List.take_succ_cons, List.take_zero, List.cons.injEq, and_true] at hp
          obtain ⟨rfl, rfl⟩ := hp
          intro c hc
          simp only [List.mem_cons] at hc
          rcases hc with rfl | rfl | hc
          · simp [NumberChar]
          · simp [NumberChar]
          · exact this c (by simpa using hc)
      · cases text with
        | nil => simp at h
        | cons c cs =>
          simp only at h
          by_cases h45 : c = 45
          · simp only [h45, if_true] at h
            intro d hd
            rcases List.mem_cons.1 hd with rfl | hd
            · subst h45; simp [NumberChar]
            · exact ih2 _ _ _ _ _ h d hd
          · simp only [h45, if_false, show ¬ ((1 : Int) = -1) by decide] at h
            exact ih2 _ _ _ _ _ h
    · intro radix sign text m n h
      cases text with
      | nil => simp
      | cons c cs =>
        unfold numberLoop at h
        simp only [Bool.and_assoc, isDigit_iff, isSmall_iff, isCapital_iff, isPoint_iff] at h
        have step : ∀ x, ((ckLong (m * radix) >>= fun p => ckLong (p + x) >>= fun n' => numberLoop radix sign fuel cs n') = ok (some n)) →
            NumberChar c → ∀ d ∈ c :: cs, NumberChar d := by
          intro x h hc d hd
          obtain ⟨p, _, h⟩ := Res.bind_eq_ok.1 h
          obtain ⟨n', _, h⟩ := Res.bind_eq_ok.1 h
          rcases List.mem_cons.1 hd with rfl | hd
          · exact hc
          · exact ih2 _ _ _ _ _ h d hd
        split at h
        · rename_i hd; exact step _ h (.inl (by simpa using hd))
        · split at h
          · rename_i hd; exact step _ h (.inr (.inl (by simp at hd; exact hd.2)))
          · split at h
            · rename_i hd; exact step _ h (.inr (.inr (.inl (by simp at hd; exact hd.2))))
            · split at h
              · rename_i h46
                cases cs with
                | nil => intro d hd; simp at hd; subst hd; exact .inr (.inr (.inr (.inl h46)))
                | cons e es =>
                  simp only at h
                  obtain ⟨fr, hfr, h⟩ := Res.bind_eq_ok.1 h
                  cases fr with
                  | none => simp at h
                  | some fr =>
                    intro d hd
                    rcases List.mem_cons.1 hd with rfl | hd
                    · exact .inr (.inr (.inr (.inl h46)))
                    · exact ih1 _ _ _ hfr d hd
              · simp at h

theorem accepted_digits (fuel : Nat) (radix sign : Int) : ∀ text m n, numberLoop radix sign fuel text m = ok (some n) → 46 ∉ text →
    ∀ c ∈ text, RadixDigit radix c := by
  induction fuel with
  | zero => intro _ _ _ h; simp [numberLoop] at h
  | succ fuel ih =>
    intro text m n h hp
    cases text with
    | nil => simp
    | cons c cs =>
      unfold numberLoop at h
      simp only [Bool.and_assoc, isDigit_iff, isSmall_iff, isCapital_iff, isPoint_iff] at h
      simp only [List.mem_cons, not_or] at hp
      have step : ∀ x, ((ckLong (m * radix) >>= fun p => ckLong (p + x) >>= fun n' => numberLoop radix sign fuel cs n') = ok (some n)) →
          RadixDigit radix c → ∀ d ∈ c :: cs, RadixDigit radix d := by
        intro x h hc d hd
        obtain ⟨p, _, h⟩ := Res.bind_eq_ok.1 h
        obtain ⟨n', _, h⟩ := Res.bind_eq_ok.1 h
        rcases List.mem_cons.1 hd with rfl | hd
        · exact hc
        · exact ih _ _ _ h hp.2 d hd
      split at h
      · rename_i hd; exact step _ h (.inl (by simpa using hd))
      · split at h
        · rename_i hd; simp at hd; exact step _ h (.inr ⟨hd.1, .inl hd.2⟩)
        · split at h
          · rename_i hd; simp at hd; exact step _ h (.inr ⟨hd.1, .inr hd.2⟩)
          · rw [if_neg (fun e => hp.1 e.symm)] at h; simp at h

theorem small_facts (c : UInt8) : (decide (48 ≤ small c ∧ small c ≤ 57) = decide (48 ≤ c ∧ c ≤ 57)) ∧
    ((65 ≤ small c ∧ small c ≤ 70) ↔ False) ∧ ((97 ≤ small c ∧ small c ≤ 102) ↔ (97 ≤ c ∧ c ≤ 102) ∨ (65 ≤ c ∧ c ≤ 70)) ∧ (small c = 46 ↔ c = 46) ∧ (small c = 45 ↔ c = 45) ∧
    (small c = 35 ↔ c = 35) ∧ (small c = 120 ↔ c = 120) := by
  revert c; apply every_byte; unfold small; decide +kernel
theorem small_ord (c : UInt8) : ord (small c) = if 65 ≤ c ∧ c ≤ 70 then ord c + 32 else ord c := by
  revert c; apply every_byte; unfold small; decide +kernel
theorem small_excl (c : UInt8) : (48 ≤ c ∧ c ≤ 57 → ¬ (65 ≤ c ∧ c ≤ 70)) ∧ (97 ≤ c ∧ c ≤ 102 → ¬ (65 ≤ c ∧ c ≤ 70)) := by
  revert c; apply every_byte; decide +kernel

theorem small_same (fuel : Nat) :
    (∀ text rest, stringToNumber fuel (text.map small) rest = stringToNumber fuel text rest) ∧
    (∀ radix sign text m, numberLoop radix sign fuel (text.map small) m = numberLoop radix sign fuel text m) := by
  induction fuel with
  | zero => exact ⟨fun _ _ => by simp [stringToNumber], fun _ _ _ _ => by simp [numberLoop]⟩
  | succ fuel ih =>
    obtain ⟨ih1, ih2⟩ := ih
    constructor
    · intro text rest
      unfold stringToNumber
      have hp : (2 ≤ (text.map small).length ∧ (text.map small).take 2 = [35, 120]) ↔ (2 ≤ text.length ∧ text.take 2 = [35, 120]) := by
        match text with
        | [] => simp
        | [a] => simp
        | a :: b :: t => simp [(small_facts a).2.2.2.2.2.1, (small_facts b).2.2.2.2.2.2]
      simp only [hp]
      split
      · rw [← List.map_drop, ih1]
      · cases text with
        | nil => rfl
        | cons c cs =>
          simp only [List.map_cons, (small_facts c).2.2.2.2.1]
          have := ih2 (rest.getD 10) (if c = 45 then -1 else 1) (if (if c = 45 then (-1 : Int) else 1) = -1 then cs else c :: cs) 0
          rw [← this]
          congr 1
          split <;> simp
    · intro radix sign text m
      cases text with
      | nil => simp [numberLoop]
      | cons c cs =>
        rw [List.map_cons]; unfold numberLoop
        obtain ⟨f1, f2, f3, f4, _, _, _⟩ := small_facts c
        obtain ⟨e1, e2⟩ := small_excl c
        simp only [Bool.and_assoc, isDigit_iff, isSmall_iff, isCapital_iff, isPoint_iff, f1, f2, f3, f4, ih2]
        simp only [small_ord]
        by_cases hd : 48 ≤ c ∧ c ≤ 57
        · simp only [hd, e1 hd, decide_true, if_true, if_false, and_self]
        · by_cases hs : 97 ≤ c ∧ c ≤ 102
          · have h46 : ¬ (c = 46) := by rintro rfl; revert hs; decide
            simp [hd, hs, e2 hs, h46]
          · by_cases hc : 65 ≤ c ∧ c ≤ 70
            · by_cases hr : radix = 16
              · simp [hd, hs, hc, hr]
                congr 1; funext p; congr 2; omega
              · have h46 : ¬ (c = 46) := by rintro rfl; revert hc; decide
                simp [hd, hs, hc, hr, h46]
            · simp only [hd, hs, hc, decide_false, Bool.and_false, or_self, if_false]
              cases cs with
              | nil => rfl
              | cons e es =>
                have := ih1 (e :: es) none
                simp only [List.map_cons] at this
                simp only [List.map_cons, this]

end Mes.Scm
