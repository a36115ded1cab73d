import Verif.Proof.Scheme
import Verif.Spec.Encoding
import Verif.Spec.Sample
import Verif.Props.Math
/-
Properties C53 and C55: numbers as text (/repo/mes/module/mes/scm.mes), and the encoding of numbers by MesCC
(/repo/module/mescc).
-/
namespace Mes.Props
open Res Spec Scm

/-! ## C53 -/

/-- The division used below is the one of `src/math.c`, for all pairs of numbers. -/
theorem C53_quotient {s : St} {fuel : Nat} {x n v : Int} (h : Numbers s x [n, v]) (hf : 2 ≤ fuel) :
    divide s fuel x = quo n v >>= makeNumber s := by
  obtain ⟨fuel, rfl⟩ : ∃ f, fuel = f + 2 := ⟨fuel - 2, by omega⟩
  cases h with
  | cons hne hv ht hx h' =>
    generalize hy : (s.cell x).cdr = y at h'
    cases h' with
    | cons hne' hv' ht' hx' h'' =>
      generalize hz : (s.cell y).cdr = z at h''
      cases h'' with
      | nil =>
        have tail : ∀ (sg : Bool) (u : Int), divideLoop s (fuel + 1) sg u c_nil = ok (sg, u) := fun sg u => by rw [divideLoop, if_pos rfl]
        have key : ∀ (sg : Bool) (u : Int), divideLoop s (fuel + 2) sg u y =
            if v = 0 then err .divideByZero
            else ok ((sg && decide (v > 0)) || (!sg && decide (v < 0)), if u = 0 then u else if toSize v ≠ 1 then u / toSize v else u) := by
          intro sg u
          rw [divideLoop, if_neg hne', carP_pair hv' ht', ok_bind, numberArg_ok hx', ok_bind]
          by_cases h0 : v = 0
          · simp only [if_pos h0]
          · simp only [if_neg h0]
            by_cases hu : u = 0
            · simp only [if_pos hu]
            · simp only [if_neg hu]
              rw [cdrP_pair hv' ht', ok_bind, hz, tail]
        simp only [divide, if_pos hne, carP_pair hv ht, numberArg_ok hx, cdrP_pair hv ht, ok_bind, quo, hy]
        by_cases hn : n < 0
        · simp only [if_pos hn, Res.bind_assoc']
          congr 1; funext m
          rw [key]
          by_cases h0 : v = 0
          · simp only [if_pos h0, err_bind]
          · simp only [if_neg h0, ok_bind]
            split <;> simp only [ok_bind]
        · simp only [if_neg hn]
          rw [key]
          by_cases h0 : v = 0
          · simp only [if_pos h0, err_bind]
          · simp only [if_neg h0, ok_bind]
            split <;> simp only [ok_bind]

/-- C53: `number->string` gives the usual numeral of the number, in any radix up to 36, with a minus sign for negative numbers.
Missing: the smallest number. -/
theorem C53_number_to_string_partial (n : Int) (radix fuel : Nat) (hb : 2 ≤ radix) (hb' : radix ≤ 36) (hn : Word n) (hmin : n ≠ -2 ^ 63)
    (hf : n.natAbs < fuel) : ∃ text, numberToString fuel n radix = ok text ∧ IsSigned radix n text :=
  numberToString_ok hb hb' hn hmin hf

instance (n : Int) : Decidable (Word n) := by unfold Word; infer_instance

example : Word (-255) ∧ (-255 : Int).natAbs < 300 ∧ numberToString 300 (-255) 16 = ok [45, 102, 102] ∧
    numberToString 300 (-255) 2 = ok [45, 49, 49, 49, 49, 49, 49, 49, 49] := by decide +kernel

/-- For the smallest number it is undefined: it computes the absolute value. -/
theorem C53_smallest (fuel : Nat) (radix : Int) : numberToString fuel (-2 ^ 63) radix = ub := by
  have : abs (-2 ^ 63) = ub := by decide
  simp only [numberToString, this]
  rfl

/-- C53, the other direction: `string->number` gives for every numeral its number. -/
def C53_string_to_number_full : Prop :=
  ∀ (n : Int) (radix : Nat) (text : List UInt8), 2 ≤ radix → radix ≤ 36 → Word n → IsSigned radix n text →
    ∃ fuel, stringToNumber fuel text (some radix) = ok (some n)

/-- That is false: letters are taken as digits only in radix 16; `(string->number "b" 12)` is `#f`. -/
theorem C53_string_to_number_false : ¬ C53_string_to_number_full := by
  intro h
  obtain ⟨fuel, h⟩ := h 11 12 [98] (by decide) (by decide) (by decide)
    (.inl ⟨by decide, ⟨by decide, by decide, by decide, by decide⟩⟩)
  match fuel with
  | 0 => cases h
  | 1 => cases h
  | fuel + 2 =>
    have : stringToNumber (fuel + 2) [98] (some (12 : Nat)) = ok none := by
      rw [stringToNumber, if_neg (by decide)]
      simp only [show ¬ ((98 : UInt8) = 45) by decide, if_false, show ¬ ((1 : Int) = -1) by decide, Option.getD_some]
      rw [numberLoop]
      rfl
    rw [this] at h
    cases h

/-- C53: in the radixes 2 to 10 and 16 `string->number` gives for every numeral its number.  Missing: the other radixes, and the
smallest number. -/
theorem C53_string_to_number_partial (n : Int) (radix fuel : Nat) (text : List UInt8) (hb : 2 ≤ radix ∧ radix ≤ 10 ∨ radix = 16) (hn : Word n)
    (hmin : n ≠ -2 ^ 63) (ht : IsSigned radix n text) (hf : text.length + 1 < fuel) :
    stringToNumber fuel text (some radix) = ok (some n) := stringToNumber_ok hb hn ht hmin hf

/-- C53: reading back what `number->string` wrote. -/
theorem C53_inverse_partial (n : Int) (radix : Nat) (hb : 2 ≤ radix ∧ radix ≤ 10 ∨ radix = 16) (hn : Word n) (hmin : n ≠ -2 ^ 63) :
    ∃ text fuel, numberToString fuel n radix = ok text ∧ ∀ fuel', text.length + 1 < fuel' → stringToNumber fuel' text (some radix) = ok (some n) := by
  obtain ⟨text, h1, h2⟩ := numberToString_ok (b := radix) (fuel := n.natAbs + 1) (by omega) (by omega) hn hmin (Nat.lt_succ_self _)
  exact ⟨text, _, h1, fun fuel' hf => stringToNumber_ok hb hn h2 hmin hf⟩

/-- Without a radix it is ten, and `#x` in front means sixteen. -/
theorem C53_default (fuel : Nat) (c : UInt8) (cs : List UInt8) (h : c ≠ 35) :
    stringToNumber fuel (c :: cs) none = stringToNumber fuel (c :: cs) (some 10) ∧
    stringToNumber (fuel + 1) (35 :: 120 :: cs) none = stringToNumber fuel cs (some 16) := by
  constructor
  · cases fuel with
    | zero => rfl
    | succ fuel =>
      have hx : ¬ (2 ≤ (c :: cs).length ∧ (c :: cs).take 2 = [35, 120]) := by simp [h]
      simp only [stringToNumber, if_neg hx]
      rfl
  · rw [stringToNumber, if_pos (by simp)]
    rfl

/-- C53: a text with any other character is no number. -/
theorem C53_refused (fuel : Nat) (text : List UInt8) (rest : Option Int) (n : Int) (h : stringToNumber fuel text rest = ok (some n)) :
    ∀ c ∈ text, NumberChar c := (accepted fuel).1 text rest n h

/-- C53: a text without a point and `#x` is a number only if, but for a sign in front, it consists of digits of the radix. -/
theorem C53_digits (fuel : Nat) (text : List UInt8) (radix n : Int) (hp : 46 ∉ text) (hx : 35 ∉ text)
    (h : stringToNumber fuel text (some radix) = ok (some n)) :
    ∃ ds, (text = ds ∨ text = 45 :: ds) ∧ ∀ c ∈ ds, RadixDigit radix c := by
  cases fuel with
  | zero => simp [stringToNumber] at h
  | succ fuel =>
    unfold stringToNumber at h
    rw [if_neg (by
      rintro ⟨hl, e⟩
      match text, hl, e with
      | a :: b :: t, _, e => simp only [List.take_succ_cons, List.take_zero, List.cons.injEq] at e; exact hx (by simp [e.1]))] at h
    cases text with
    | nil => simp at h
    | cons c cs =>
      simp only [Option.getD_some] at h
      by_cases h45 : c = 45
      · simp only [h45, if_true] at h
        exact ⟨cs, .inr (by rw [h45]), accepted_digits _ _ _ _ _ _ h (fun hm => hp (List.mem_cons_of_mem _ hm))⟩
      · simp only [h45, if_false, show ¬ ((1 : Int) = -1) by decide] at h
        exact ⟨c :: cs, .inl rfl, accepted_digits _ _ _ _ _ _ h hp⟩

/-- C53: the hexadecimal digits may be written with capital letters. -/
theorem C53_capitals (fuel : Nat) (text : List UInt8) (rest : Option Int) :
    stringToNumber fuel text rest = stringToNumber fuel (text.map small) rest := ((small_same fuel).1 text rest).symm

example : stringToNumber 9 [70, 102, 49] (some 16) = ok (some 4081) ∧ stringToNumber 9 [49, 45, 49] (some 10) = ok none ∧
    stringToNumber 9 [49, 46, 122] none = ok none := by decide +kernel
/-- `string->number` gives a number for some texts that are no numerals, and the wrong one for others: `"-"` is 0, `"-1.5"` is 1
and `"19"` in radix 8 is 17. -/
example : stringToNumber 9 [45] none = ok (some 0) ∧ stringToNumber 9 [45, 49, 46, 53] none = ok (some 1) ∧
    stringToNumber 9 [49, 57] (some 8) = ok (some 17) := by decide +kernel

/-! ## C55 -/

/-- The `modulo` used below is the one of `src/math.c`. -/
theorem C55_modulo {s : St} {fuel : Nat} {a b n v : Int} (ha : IsNum s a n) (hb : IsNum s b v) :
    Mes.modulo s fuel a b = modu fuel n v >>= makeNumber s := by
  simp only [Mes.modulo, numberArg_ok ha, numberArg_ok hb, ok_bind, modu]
  by_cases h0 : v = 0
  · simp only [if_pos h0, err_bind]
  · simp only [if_neg h0]
    by_cases hv : v < 0
    · simp only [if_pos hv, Res.bind_assoc']
      congr 1
    · simp only [if_neg hv, Res.bind_assoc']
      congr 1

/-- And so is `ash`. -/
theorem C55_shift {s : St} {a b n k : Int} (ha : IsNum s a n) (hb : IsNum s b k) : ash s a b = shift n k >>= makeNumber s := by
  simp only [ash, numberArg_ok ha, numberArg_ok hb, ok_bind, shift]
  split <;> simp only [Res.bind_assoc', ok_bind]

theorem byteAt_ok {fuel : Nat} {v k : Int} (hv : Word v) (h0 : 0 < k) (hk : k < 64) (hf : v.natAbs < fuel) :
    byteAt fuel v k = ok (v / 2 ^ k.toNat % 256) := by
  have h1 : Word (v / 2 ^ k.toNat) ∧ (v / 2 ^ k.toNat).natAbs ≤ v.natAbs := by
    have hp : (0 : Int) < 2 ^ k.toNat := Int.pow_pos (by decide)
    generalize (2 : Int) ^ k.toNat = p at hp
    unfold Word at *
    rcases Int.lt_or_le v 0 with h | h
    · have := Int.ediv_neg_of_neg_of_pos h hp
      have : v ≤ v / p := by
        rw [Int.le_ediv_iff_mul_le hp]
        have := Int.mul_le_mul_of_nonpos_left (show v ≤ 0 by omega) (show 1 ≤ p by omega)
        omega
      omega
    · have := Int.ediv_nonneg h (show 0 ≤ p by omega)
      have := Int.ediv_le_self p h
      omega
  unfold byteAt
  rw [shift_right h0 hk, ok_bind, modu_ok h1.1 (by decide) (by decide) (by omega)]

theorem byte_range (v : Int) : 0 ≤ v % 256 ∧ v % 256 < 256 := by omega

/-- C55: the bytes of a number for the assembler, for every `long`: little-endian two's complement. -/
theorem C55_bytes (v : Int) (fuel : Nat) (hv : Word v) (hf : v.natAbs < fuel) :
    (∃ bs, intToBv8 fuel v = ok bs ∧ Encodes 1 v bs) ∧ (∃ bs, intToBv16 fuel v = ok bs ∧ Encodes 2 v bs) ∧
    (∃ bs, intToBv32 fuel v = ok bs ∧ Encodes 4 v bs) ∧ (∃ bs, intToBv64 fuel v = ok bs ∧ Encodes 8 v bs) := by
  have b0 := modu_ok hv (show (0 : Int) < 256 by decide) (by decide) hf
  have b1 := byteAt_ok hv (show (0 : Int) < 8 by decide) (by decide) hf
  have b2 := byteAt_ok hv (show (0 : Int) < 16 by decide) (by decide) hf
  have b3 := byteAt_ok hv (show (0 : Int) < 24 by decide) (by decide) hf
  have b4 := byteAt_ok hv (show (0 : Int) < 32 by decide) (by decide) hf
  have b5 := byteAt_ok hv (show (0 : Int) < 40 by decide) (by decide) hf
  have b6 := byteAt_ok hv (show (0 : Int) < 48 by decide) (by decide) hf
  have b7 := byteAt_ok hv (show (0 : Int) < 56 by decide) (by decide) hf
  refine ⟨⟨_, by rw [intToBv8, b0, ok_bind], ?_⟩, ⟨_, by simp only [intToBv16, b0, b1, ok_bind]; rfl, ?_⟩,
    ⟨_, by simp only [intToBv32, b0, b1, b2, b3, ok_bind]; rfl, ?_⟩,
    ⟨_, by simp only [intToBv64, b0, b1, b2, b3, b4, b5, b6, b7, ok_bind]; rfl, ?_⟩⟩
  all_goals
    refine ⟨rfl, ?_, ?_⟩
    · simp only [List.mem_cons, List.not_mem_nil, or_false]
      intro b hb
      omega
    · simp only [leValue]
      try simp only [show (8 : Int).toNat = 8 from rfl, show (16 : Int).toNat = 16 from rfl, show (24 : Int).toNat = 24 from rfl, show (32 : Int).toNat = 32 from rfl, show (40 : Int).toNat = 40 from rfl, show (48 : Int).toNat = 48 from rfl, show (56 : Int).toNat = 56 from rfl]
      omega

example : Word (-2) ∧ intToBv32 9 (-2) = ok [254, 255, 255, 255] ∧ intToBv64 1000 258 = ok [2, 1, 0, 0, 0, 0, 0, 0] := by decide +kernel

theorem isHex_signed {x : Int} {text : List UInt8} (h : IsSigned 16 x text) : IsHex x text := by
  rcases h with ⟨h0, h⟩ | ⟨h0, ds, rfl, h⟩
  · exact ⟨text, h.nonempty, h.digits, .inl ⟨rfl, by rw [h.value]; omega⟩⟩
  · exact ⟨ds, h.nonempty, h.digits, .inr ⟨rfl, by rw [h.value]; omega⟩⟩

theorem isHex_zero {x : Int} {text : List UInt8} (h0 : 0 ≤ x) (h : IsSigned 16 x text) : IsHex x (48 :: text) := by
  rcases h with ⟨_, h⟩ | ⟨h1, -⟩
  · refine ⟨48 :: text, by simp, ?_, .inl ⟨rfl, ?_⟩⟩
    · intro c hc
      rcases List.mem_cons.1 hc with rfl | hc
      · decide
      · exact h.digits c hc
    · have := h.value
      simp only [numVal, List.foldl_cons] at this ⊢
      simp only [show (digitVal 48).getD 0 = 0 by decide, Nat.zero_mul, Nat.zero_add]
      omega
  · omega

/-- C55: the text for a byte stands for it. -/
theorem C55_byte_text (b : Int) (fuel : Nat) (h0 : 0 ≤ b) (h1 : b < 256) (hf : 256 < fuel) :
    ∃ text, textToM1 fuel b = ok text ∧ Assembles text [b] := by
  have key : ∀ o : Int, -128 ≤ o → o < 128 → o % 256 = b → ∃ text, (numberToString fuel o 16 >>= fun t =>
      ok ([33, 48, 120] ++ (if ge o 0 && decide (o < 16) then [48] else []) ++ t)) = ok text ∧ Assembles text [b] := by
    intro o h2 h3 h4
    obtain ⟨t, e1, e2⟩ := numberToString_ok (b := 16) (fuel := fuel) (n := o) (by decide) (by decide) (by unfold Word; omega) (by omega) (by omega)
    refine ⟨_, by rw [show ((16 : Nat) : Int) = 16 from rfl] at e1; rw [e1, ok_bind], ?_⟩
    refine .one (k := 1) (x := o) rfl ?_ (by omega) (by omega) ⟨rfl, by simp only [List.mem_singleton]; omega, by simp only [leValue]; omega⟩
    split
    · next h =>
      simp only [Bool.and_eq_true, ge_iff] at h
      exact isHex_zero h.1 e2
    · exact isHex_signed e2
  unfold textToM1
  by_cases h : b < 128
  · rw [if_pos h, ok_bind]
    exact key b (by omega) h (by omega)
  · rw [if_neg h, ckLong_word (by unfold Word; omega), ok_bind]
    exact key (b - 256) (by omega) (by omega) (by omega)

example : textToM1 300 10 = ok [33, 48, 120, 48, 97] ∧ textToM1 300 254 = ok [33, 48, 120, 45, 50] := by decide +kernel

/-- The low `k` bytes of a number. -/
theorem encodes_exists (k : Nat) (v : Int) : ∃ bs, Encodes k v bs := by
  induction k generalizing v with
  | zero => exact ⟨[], rfl, by simp, by simp [leValue, Int.emod_one]⟩
  | succ k ih =>
    obtain ⟨bs, h1, h2, h3⟩ := ih (v / 256)
    refine ⟨v % 256 :: bs, by simp [h1], fun b hb => ?_, ?_⟩
    · rcases List.mem_cons.1 hb with rfl | hb
      · omega
      · exact h2 b hb
    · have e : (256 : Int) ^ (k + 1) = 256 * 256 ^ k := by rw [Int.pow_succ, Int.mul_comm]
      have hd : (256 : Int) ^ k ∣ leValue bs - v / 256 := Int.dvd_of_emod_eq_zero (Int.emod_eq_emod_iff_emod_sub_eq_zero.1 h3)
      refine Int.emod_eq_emod_iff_emod_sub_eq_zero.2 (Int.emod_eq_zero_of_dvd ?_)
      rw [e]
      obtain ⟨q, hq⟩ := hd
      refine ⟨q, ?_⟩
      simp only [leValue]
      rw [Int.mul_assoc, ← hq]
      omega

theorem immediate_ok {c : UInt8} {k fuel : Nat} {o : Int} (hc : m1Size c = some k) (hn : Word o) (hmin : o ≠ -2 ^ 63) (hl : -(256 ^ k) ≤ 2 * o)
    (hu : o < 256 ^ k) (hf : o.natAbs < fuel) :
    ∃ text bs, (numberToString fuel o 16 >>= fun t => ok ([c, 48, 120] ++ t)) = ok text ∧ Assembles text bs ∧ Encodes k o bs := by
  obtain ⟨t, e1, e2⟩ := numberToString_ok (b := 16) (fuel := fuel) (n := o) (by decide) (by decide) hn hmin hf
  obtain ⟨bs, hb⟩ := encodes_exists k o
  exact ⟨_, bs, by rw [show ((16 : Nat) : Int) = 16 from rfl] at e1; rw [e1, ok_bind]; rfl, .one hc (isHex_signed e2) hl hu hb, hb⟩

/-- C55: the texts for the constants of one, two and four bytes in instructions, signed or unsigned. -/
theorem C55_immediate (o : Int) (fuel : Nat) (hf : o.natAbs < fuel) :
    (-2 ^ 7 ≤ o → o < 2 ^ 8 → ∃ text bs, immediate1 fuel o = ok text ∧ Assembles text bs ∧ Encodes 1 o bs) ∧
    (-2 ^ 15 ≤ o → o < 2 ^ 16 → ∃ text bs, immediate2 fuel o = ok text ∧ Assembles text bs ∧ Encodes 2 o bs) ∧
    (-2 ^ 31 ≤ o → o < 2 ^ 32 → ∃ text bs, immediate4 fuel o = ok text ∧ Assembles text bs ∧ Encodes 4 o bs) :=
  ⟨fun h1 h2 => immediate_ok rfl (by unfold Word; omega) (by omega) (by omega) (by omega) hf,
    fun h1 h2 => immediate_ok rfl (by unfold Word; omega) (by omega) (by omega) (by omega) hf,
    fun h1 h2 => immediate_ok rfl (by unfold Word; omega) (by omega) (by omega) (by omega) hf⟩

example : immediate4 9 (-2) = ok [37, 48, 120, 45, 50] ∧ immediate1 300 200 = ok [33, 48, 120, 99, 56] := by decide +kernel

/-- C55 for the constants of eight bytes: different numbers have different texts. -/
def C55_immediate8_full : Prop :=
  ∀ (o o' : Int) (fuel : Nat) (text : List UInt8), Word o → Word o' → immediate8 fuel o = ok text → immediate8 fuel o' = ok text → o = o'

/-- That is false: the upper half of every negative number is `-1`.  The text for -8589934592 is `%0x0 %0x-1`, that of
-4294967296. -/
theorem C55_immediate8_false : ¬ C55_immediate8_full := by
  intro h
  have h1 : immediate8 10 (-8589934592) = ok [37, 48, 120, 48, 32, 37, 48, 120, 45, 49] := by decide +kernel
  have h2 : immediate8 10 (-4294967296) = ok [37, 48, 120, 48, 32, 37, 48, 120, 45, 49] := by decide +kernel
  exact absurd (h _ _ _ _ (by decide) (by decide) h1 h2) (by decide)

theorem leValue_append (bs cs : List Int) : leValue (bs ++ cs) = leValue bs + 256 ^ bs.length * leValue cs := by
  induction bs with
  | nil => simp [leValue]
  | cons b bs ih =>
    simp only [List.cons_append, leValue, ih, List.length_cons, Int.pow_succ]
    rw [Int.mul_add, ← Int.mul_assoc, Int.mul_comm 256 (256 ^ bs.length)]
    omega

theorem leValue_range {bs : List Int} (h : ∀ b ∈ bs, 0 ≤ b ∧ b < 256) : 0 ≤ leValue bs ∧ leValue bs < 256 ^ bs.length := by
  induction bs with
  | nil => simp [leValue]
  | cons b bs ih =>
    have h1 := h b (by simp)
    have h2 := ih (fun c hc => h c (by simp [hc]))
    simp only [leValue, List.length_cons, Int.pow_succ]
    omega

/-- C55: the texts for the constants of eight bytes, from -2^32 on.  Missing: the numbers below, see `C55_immediate8_false`. -/
theorem C55_immediate8_partial (o : Int) (fuel : Nat) (hl : -2 ^ 32 ≤ o) (hu : o < 2 ^ 63) (hf : o.natAbs + 2 ^ 32 < fuel) :
    ∃ text bs, immediate8 fuel o = ok text ∧ Assembles text bs ∧ Encodes 8 o bs := by
  have e0 := modu_ok (fuel := fuel) (n := o) (v := 0x100000000) (by unfold Word; omega) (by decide) (by decide) (by omega)
  obtain ⟨t, bs, e1, e2, e3⟩ := immediate_ok (c := 37) (k := 4) (fuel := fuel) (o := o % 4294967296) rfl (by unfold Word; omega) (by omega)
    (by omega) (by omega) (by omega)
  obtain ⟨u, cs, g1, g2, g3⟩ : ∃ u cs, (upperHalf fuel o >>= fun h => ok ([37, 48, 120] ++ h)) = ok u ∧ Assembles u cs ∧ Encodes 4 (o / 4294967296) cs := by
    by_cases hn : o < 0
    · obtain ⟨cs, hc⟩ := encodes_exists 4 (-1)
      refine ⟨[37, 48, 120, 45, 49], cs, by rw [upperHalf, if_pos hn]; rfl, .one (k := 4) (x := -1) rfl ⟨[49], by decide, by decide, .inr ⟨rfl, by decide⟩⟩ (by decide)
        (by decide) hc, ?_⟩
      rw [show o / 4294967296 = -1 by omega]
      exact hc
    · obtain ⟨u, cs, g1, g2, g3⟩ := immediate_ok (c := 37) (k := 4) (fuel := fuel) (o := o / 4294967296) rfl (by unfold Word; omega) (by omega)
        (by omega) (by omega) (by omega)
      refine ⟨u, cs, ?_, g2, g3⟩
      rw [upperHalf, if_neg hn, quo_ok (by omega) (by unfold Word; omega) (by decide) (by decide), ok_bind]
      exact g1
  cases h1 : numberToString fuel (o % 4294967296) 16 with
  | ok t' =>
    rw [h1, ok_bind] at e1
    cases h2 : upperHalf fuel o with
    | ok u' =>
      rw [h2, ok_bind] at g1
      refine ⟨t ++ 32 :: u, bs ++ cs, ?_, .more e2 g2, ?_⟩
      · simp only [immediate8, e0, ok_bind, h1, h2]
        cases e1; cases g1
        simp
      · have r1 := leValue_range e3.bytes
        have r2 := leValue_range g3.bytes
        have v1 := e3.value
        have v2 := g3.value
        rw [e3.length] at r1
        rw [g3.length] at r2
        refine ⟨by rw [List.length_append, e3.length, g3.length], fun b hb => ?_, ?_⟩
        · rcases List.mem_append.1 hb with hb | hb
          · exact e3.bytes b hb
          · exact g3.bytes b hb
        · rw [leValue_append, e3.length]
          omega
    | _ => rw [h2] at g1; cases g1
  | _ => rw [h1] at e1; cases e1

example : (-2 ^ 32 : Int) ≤ -3 ∧ immediate8 300 (-3) = ok [37, 48, 120, 102, 102, 102, 102, 102, 102, 102, 100, 32, 37, 48, 120, 45, 49] := by
  decide +kernel

end Mes.Props
