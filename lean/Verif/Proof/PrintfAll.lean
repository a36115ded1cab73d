import Verif.Proof.PrintfParse
/- Formatted output: the text of a whole format. -/
namespace Mes.C
open Res Spec

variable {t : Target} {m : Mem} {str : Nat} {done : List Byte} {o : Out}

theorem getD_width {width : Option Int} (h : ∀ n, width = some n → 0 ≤ n) :
    ∃ W : Nat, (width.getD 0).natAbs = W ∧ decide (width.getD 0 < 0) = false ∧ ∀ k : Int, 0 ≤ k → (width.getD (-1) - k).toNat = W - k.toNat := by
  cases width with
  | none => exact ⟨0, rfl, rfl, fun k hk => by simp only [Option.getD_none]; omega⟩
  | some n =>
    have := h n rfl
    exact ⟨n.toNat, by simp only [Option.getD_some]; omega, by simpa using this, fun k hk => by simp only [Option.getD_some]; omega⟩

theorem number_field {left zero : Bool} {width prec : Option Int} {sign raw raw' text : List Byte} (hlen : raw'.length = raw.length)
    (h1 : usePrecision prec = none → text = raw')
    (h2 : ∀ n, usePrecision prec = some n → text = if n = 0 ∧ raw = [48] then [] else List.replicate (n - raw.length) 48 ++ raw')
    (hne : raw ≠ []) (hw : ∀ n, width = some n → 0 ≤ n) (hz : zero = true → left = false ∧ prec = none ∧ sign = [])
    (hp : ∀ n, prec = some n → n = -1 ∨ sign = [] ∧ (n = 0 ∧ raw = [48] ∨ raw.length ≤ n ∧ (left = true → n = raw.length))) :
    numberField ⟨left, if zero then 48 else 32, width.getD (-1), prec.getD (-1)⟩ 48 (sign ++ raw') =
      field (left || decide (width.getD 0 < 0)) (zero && (usePrecision prec).isNone) (width.getD 0).natAbs sign text := by
  obtain ⟨W, e1, e2, e3⟩ := getD_width hw
  rw [e1, e2, Bool.or_false]
  by_cases hn : prec.getD (-1) = -1
  · have hu : usePrecision prec = none := by
      cases prec with
      | none => rfl
      | some n => simp only [Option.getD_some] at hn; subst hn; rfl
    have ht := h1 hu
    subst ht
    simp only [numberField, Field.chars, hn, if_true, field, hu, Option.isNone_none, Bool.and_true]
    rw [List.take_of_length_le (by omega), e3 _ (by omega), Int.toNat_natCast, Int.sub_self]
    simp only [Int.toNat_zero, List.replicate_zero, List.nil_append]
    cases left with
    | true =>
      have : zero = false := by
        cases zero with
        | false => rfl
        | true => exact absurd (hz rfl).1 (by simp)
      subst this
      simp
    | false =>
      cases zero with
      | false => simp
      | true => rw [(hz rfl).2.2]; simp
  · obtain ⟨n, rfl⟩ : ∃ n, prec = some n := by
      cases prec with
      | none => exact absurd rfl hn
      | some n => exact ⟨n, rfl⟩
    simp only [Option.getD_some] at hn
    have hzero : zero = false := by
      cases zero with
      | false => rfl
      | true => exact absurd (hz rfl).2.1 (by simp)
    subst hzero
    rcases hp n rfl with h | ⟨rfl, h⟩
    · exact absurd h hn
    have hn0 : 0 ≤ n := by omega
    have hu : usePrecision (some n) = some n.toNat := by simp [usePrecision, hn0]
    have ht := h2 _ hu
    simp only [numberField, Field.chars, hn, if_false, field, Bool.false_and, Bool.false_eq_true, Option.getD_some, List.nil_append]
    rcases h with ⟨rfl, rfl⟩ | ⟨hle, hl⟩
    · simp only [Int.toNat_zero, true_and, if_true] at ht
      subst ht
      have hlen : raw'.length = 1 := hlen
      rw [hlen]
      have a : (width.getD (-1)).toNat = W := by simpa using e3 0 (by omega)
      cases left <;> simp [a]
    · have : 0 < raw.length := List.length_pos_iff.2 hne
      rw [if_neg (by omega)] at ht
      subst ht
      rw [List.take_of_length_le (by omega)]
      cases left with
      | true =>
        have := hl rfl
        simp only [if_true, List.length_append, List.length_replicate]
        rw [e3 _ (by omega), show n.toNat - raw.length = 0 by omega]
        simp
      | false =>
        simp only [Bool.false_eq_true, if_false, List.length_append, List.length_replicate]
        rw [e3 _ (by omega), hlen, show (n - raw.length).toNat = n.toNat - raw.length by omega,
          show n.toNat - raw.length + raw.length = n.toNat by omega]

theorem string_field {left : Bool} {width prec : Option Int} {s : List Byte} (hw : ∀ n, width = some n → 0 ≤ n)
    (hp : ∀ n, prec = some n → n = -1 ∨ 0 ≤ n ∧ (n ≤ s.length ∨ left = true ∨ width.getD 0 ≤ s.length)) :
    stringField ⟨left, 32, width.getD (-1), prec.getD (-1)⟩ s =
      field (left || decide (width.getD 0 < 0)) false (width.getD 0).natAbs [] (maxChars (usePrecision prec) s) := by
  obtain ⟨W, e1, e2, e3⟩ := getD_width hw
  have hmax : ∀ n, prec = some n → n ≠ -1 → maxChars (usePrecision prec) s = s.take n.toNat := by
    rintro n rfl hn
    have : 0 ≤ n := by rcases hp n rfl with h | h <;> omega
    simp [usePrecision, this, maxChars]
  have key : ∃ P : Int, 0 ≤ P ∧ Field.chars ⟨left, 32, width.getD (-1), prec.getD (-1)⟩ s.length = P ∧ maxChars (usePrecision prec) s = s.take P.toNat ∧
      (P ≤ s.length ∨ left = true ∨ width.getD 0 ≤ s.length) := by
    cases prec with
    | none => exact ⟨s.length, by omega, rfl, by simp [usePrecision, maxChars], by omega⟩
    | some n =>
      by_cases hn : n = -1
      · subst hn
        exact ⟨s.length, by omega, rfl, by simp [usePrecision, maxChars], by omega⟩
      · have := (hp n rfl).resolve_left hn
        exact ⟨n, by omega, by simp [Field.chars, hn], hmax n rfl hn, this.2⟩
  obtain ⟨P, h0, hP, hm, hc⟩ := key
  rw [e1, e2, Bool.or_false, hm]
  simp only [stringField, hP, field]
  rw [e3 _ (by omega), e3 _ h0]
  cases left with
  | true => simp
  | false =>
    simp only [Bool.false_eq_true, if_false, List.nil_append]
    congr 2
    simp only [Bool.false_eq_true, false_or] at hc
    rw [List.length_take]
    have : ¬ width.getD 0 < 0 := by simpa using e2
    omega

theorem capital_eq (b : Byte) : toByte (toupper (sc b)) = capital b := by
  have key : ∀ n : Fin 256, toByte (toupper (sc (UInt8.ofNat n.val))) = capital (UInt8.ofNat n.val) := by decide +kernel
  have := key ⟨b.toNat, b.toNat_lt⟩
  simpa using this

theorem putChar_ok {c : Byte} (h : Emitted t m str done o) (hf : Fits t m str (done ++ [c])) :
    ∃ o', putChar t c o = ok o' ∧ Emitted t m str (done ++ [c]) o' := by
  cases t with
  | buffer size => exact put_ok h hf
  | file =>
    refine ⟨_, rfl, h.mem, nofun, fun _ => by simp [h.sent rfl], ?_, nofun⟩
    have := h.count
    simp only [List.length_append, List.length_singleton]; omega

theorem numberText_signed {w : Nat} {c : Byte} {x : Int} {ds : List Byte} (hc : c = 100 ∨ c = 105)
    (hx : x < (2 ^ w : Nat)) (hn : IsNumeral 10 x.natAbs ds) (hl : ((if x < 0 then [45] else []) ++ ds).length ≤ 11) :
    numberText w c x = ok ((if x < 0 then [45] else []) ++ ds) := by
  have hlt := numVal_lt (b := 10) rfl hn.digits
  rw [hn.value] at hlt
  obtain ⟨text, e, hs⟩ := ntoab_signed (w := w) (base := 10) (by decide) (by decide) hx (by
    by_cases h : x < 0
    · right
      rw [if_pos h] at hl
      simp only [List.length_append, List.length_singleton] at hl
      exact Nat.lt_of_lt_of_le hlt (Nat.pow_le_pow_right (by decide) (by omega))
    · left
      rw [if_neg h] at hl
      simp only [List.nil_append] at hl
      exact ⟨by omega, Nat.lt_of_lt_of_le hlt (Nat.pow_le_pow_right (by decide) hl)⟩)
  have ht : text = (if x < 0 then [45] else []) ++ ds := by
    rcases hs with ⟨h, h'⟩ | ⟨h, ds', rfl, h'⟩
    · rw [if_neg (by omega)]
      exact numeral_unique (by decide) rfl h' hn
    · rw [if_pos h, numeral_unique (by decide) rfl h' hn]; rfl
  unfold numberText
  rw [show (if c = 111 then 8 else if c = 120 ∨ c = 88 then 16 else 10) = 10 by rcases hc with rfl | rfl <;> decide,
    show decide (c ≠ 117 ∧ c ≠ 120 ∧ c ≠ 88) = true by rcases hc with rfl | rfl <;> decide, e, ht]
  simp only [ok_bind]
  rw [if_neg (show ¬ c = 88 by rcases hc with rfl | rfl <;> decide)]

theorem numberText_unsigned {w : Nat} {c : Byte} {x : Int} {n base : Nat} {ds : List Byte} (hw : 32 ≤ w) (hc : unsignedBase c = some base)
    (hr : -(2 ^ (w - 1) : Nat) ≤ x ∧ x < (2 ^ (w - 1) : Nat)) (hn : n = (x % (2 ^ w : Nat)).toNat)
    (hd : IsNumeral base n ds) (hl : ds.length ≤ 11) (ho : c = 111 → numVal 8 ds < 2 ^ (w - 1)) :
    numberText w c x = ok (if c = 88 then ds.map capital else ds) := by
  have hlt := numVal_lt rfl hd.digits
  rw [hd.value] at hlt
  have hb : 2 ≤ base ∧ base ≤ 36 := by
    unfold unsignedBase at hc
    repeat' split at hc
    all_goals cases hc
    all_goals omega
  have hlt : n < base ^ 11 := Nat.lt_of_lt_of_le hlt (Nat.pow_le_pow_right (by omega) hl)
  have h2 : 2 ^ w = 2 * 2 ^ (w - 1) := by rw [← Nat.pow_succ']; congr 1; omega
  unfold numberText
  by_cases h8 : c = 111
  · subst h8
    cases hc
    have hx : x = n := by
      have := ho rfl
      rw [hd.value] at this
      rw [h2] at hn
      generalize 2 ^ (w - 1) = q at *
      by_cases h0 : 0 ≤ x
      · rw [Int.emod_eq_of_lt h0 (by omega)] at hn
        omega
      · rw [← Int.add_emod_right, Int.emod_eq_of_lt (by omega) (by omega)] at hn
        omega
    obtain ⟨text, e, hs⟩ := ntoab_signed (w := w) (base := 8) (x := x) (by decide) (by decide) (by rw [h2]; omega) (Or.inl (by omega))
    have ht : text = ds := by
      rcases hs with ⟨h, h'⟩ | ⟨h, -⟩
      · exact numeral_unique (by decide) rfl h' (by rw [hx]; simpa using hd)
      · omega
    rw [if_pos rfl, show decide ((111 : Byte) ≠ 117 ∧ (111 : Byte) ≠ 120 ∧ (111 : Byte) ≠ 88) = true by decide, e, ht]
    rfl
  · obtain ⟨text, e, hs⟩ := ntoab_unsigned (w := w) (base := base) (x := x) hb.1 hb.2 (by rw [← hn]; exact hlt)
    have ht : text = ds := numeral_unique (by omega) rfl (hn ▸ hs) hd
    have h3 : c = 117 ∧ base = 10 ∨ (c = 120 ∨ c = 88) ∧ base = 16 := by
      unfold unsignedBase at hc
      rw [if_neg h8] at hc
      split at hc
      · cases hc; left; exact ⟨by assumption, rfl⟩
      · split at hc
        · cases hc; right; exact ⟨by assumption, rfl⟩
        · cases hc
    rw [show (if c = 111 then 8 else if c = 120 ∨ c = 88 then 16 else 10) = base by
        rw [if_neg h8]; rcases h3 with ⟨rfl, rfl⟩ | ⟨h, rfl⟩
        · decide
        · rw [if_pos h],
      show decide (c ≠ 117 ∧ c ≠ 120 ∧ c ≠ 88) = false by rcases h3 with ⟨rfl, -⟩ | ⟨rfl | rfl, -⟩ <;> decide, e, ht]
    simp only [ok_bind, upcase, capital_eq]

/-- The strings outside the text that is written. -/
def Outside (t : Target) (m : Mem) (str : Nat) (text : List Byte) (a : Nat) (s : List Byte) : Prop :=
  CStr m a s ∧ Away t str text a (s.length + 1)

theorem directive_ok {w p : Nat} {dt : Int → List Byte} {d : Directive} {args args' : List Int} {out rest frest : List Byte} (hw : 32 ≤ w)
    (h : Shows (Handled (t = .file) w) w (Outside t m str (done ++ (out ++ rest))) d args out args')
    (he : Emitted t m str done o) (hf : Fits t m str (done ++ (out ++ rest))) (hat : At m p (d.text ++ frest))
    (ha : Away t str (done ++ (out ++ rest)) p (d.text ++ frest).length) :
    ∃ f p' args2 c o', parseField t o.mem (p + 1) args = ok (f, c, p', args2) ∧ convert w dt t f c p' args2 o = ok (o', p', args') ∧
      p' + 1 = p + d.text.length ∧ Emitted t m str (done ++ out) o' := by
  obtain ⟨hwd, hlongs, width, args1, prec, args2, sign, raw, text, hg, hg', hc, hr, hout⟩ := h
  have hlet : Letter d.letter := by
    unfold Letter
    cases hc with
    | percent h => rw [h]; simp
    | char h => simp [h]
    | signed h => rcases h with h | h <;> simp [h]
    | unsigned h =>
      unfold unsignedBase at h
      repeat' split at h
      · simp_all
      · simp_all
      · rename_i h'; rcases h' with h' | h' <;> simp [h']
      · cases h
    | string h => simp [h]
  have hparse := parseField_ok (t := t) hwd hlongs hlet hg hg' hr.smallWidth hr.smallPrecision (fun h => (hr.zero h).2.2.2) (he.at hat ha)
  have hlen : p + d.text.length - 1 + 1 = p + d.text.length := by
    have : d.text.length ≠ 0 := by simp [Directive.text]
    omega
  refine ⟨⟨d.left, if d.zero then 48 else 32, width.getD (-1), prec.getD (-1)⟩, p + d.text.length - 1, args2, d.letter, ?_⟩
  have hf' : Fits t m str (done ++ out) := by rw [← List.append_assoc] at hf; exact hf.left
  suffices ∃ o', convert w dt t ⟨d.left, if d.zero then 48 else 32, width.getD (-1), prec.getD (-1)⟩ d.letter (p + d.text.length - 1) args2 o =
      ok (o', p + d.text.length - 1, args') ∧ Emitted t m str (done ++ out) o' by
    obtain ⟨o', e, he'⟩ := this
    exact ⟨o', hparse, e, hlen, he'⟩
  generalize p + d.text.length - 1 = p'
  have hw1 : -1 ≤ width.getD (-1) ∧ width.getD (-1) ≤ 2147483647 := by
    have : ∀ n, width = some n → n < 2 ^ 31 := by
      intro n hn
      generalize d.width = a at hg
      subst hn
      cases hg with
      | digits _ h => omega
      | star h h' => omega
    cases hwi : width with
    | none => decide
    | some n => have := this n hwi; have := hr.nonneg n hwi; simp only [Option.getD_some]; omega
  have hp1 : prec.getD (-1) ≤ 2147483646 := by
    cases hpr : prec with
    | none => decide
    | some n => have := hr.precision n hpr; simp only [Option.getD_some]; omega
  have hzp : d.zero = true → prec = none := by
    intro hz
    have := (hr.zero hz).2.1
    rw [this] at hg'
    cases hg'
    rfl
  have number : d.isInt → ∀ (x : Int) (args : List Int) (raw' : List Byte), args2 = x :: args → args' = args → raw'.length = raw.length →
      numberText w d.letter x = ok (sign ++ raw') → raw ≠ [] →
      (usePrecision prec = none → text = raw') →
      (∀ n, usePrecision prec = some n → text = if n = 0 ∧ raw = [48] then [] else List.replicate (n - raw.length) 48 ++ raw') →
      ∃ o', convert w dt t ⟨d.left, if d.zero then 48 else 32, width.getD (-1), prec.getD (-1)⟩ d.letter p' args2 o =
      ok (o', p', args') ∧ Emitted t m str (done ++ out) o' := by
    rintro hi x args raw' rfl rfl hl ht hne h1 h2
    obtain ⟨hl11, -, hpi⟩ := hr.int hi
    have hfield := number_field (left := d.left) (zero := d.zero) (sign := sign) (text := text) hl h1 h2 hne hr.nonneg
      (fun hz => ⟨(hr.zero hz).1, hzp hz, (hr.zero hz).2.2.1⟩) hpi
    rw [← hout] at hfield
    have hp0 : -1 ≤ prec.getD (-1) := by
      cases hpr : prec with
      | none => decide
      | some n => have := hpi n hpr; simp only [Option.getD_some]; omega
    obtain ⟨o', e, he'⟩ := putNumber_ok (f := ⟨d.left, if d.zero then 48 else 32, width.getD (-1), prec.getD (-1)⟩) (fill := 48) (text := sign ++ raw')
      hw1.1 hw1.2 hp0 hp1 (by simp only [List.length_append] at hl11 ⊢; omega) he (by rw [hfield]; exact hf')
    rw [hfield] at he'
    refine ⟨o', ?_, he'⟩
    unfold convert
    rw [if_neg (by rcases hi with e | e | e | e | e | e <;> rw [e] <;> decide), if_neg (by rcases hi with e | e | e | e | e | e <;> rw [e] <;> decide),
      if_pos (show d.letter = 100 ∨ d.letter = 105 ∨ d.letter = 111 ∨ d.letter = 117 ∨ d.letter = 120 ∨ d.letter = 88 from hi)]
    simp only [vaArg, ok_bind, ht, e]
  cases hc with
  | percent h =>
    subst h
    cases hg
    simp only [field, Option.getD_none, Int.natAbs_zero, Nat.zero_sub, List.replicate_zero] at hout
    simp at hout
    subst hout
    obtain ⟨o', e, he'⟩ := put_ok he hf'
    refine ⟨o', ?_, he'⟩
    simp only [convert, if_true, e, ok_bind]
  | @char x args h hz hp hl =>
    have hout' : out = [toByte x] := by
      have hb : width.getD 0 < 0 ∨ 0 ≤ width.getD 0 := by omega
      have h1 : 0 ≤ width.getD 0 ∧ width.getD 0 ≤ 1 := by
        cases hwi : width with
        | none => decide
        | some n => exact ⟨hr.nonneg n hwi, hr.char h n hwi⟩
      have h2 : (width.getD 0).natAbs - 1 = 0 := by omega
      have h3 : decide (width.getD 0 < 0) = false := by simpa using h1.1
      rw [hout, hz, h3]
      simp only [field, List.nil_append, List.length_singleton, h2, List.replicate_zero, List.append_nil, Bool.or_false, Bool.false_and, Bool.false_eq_true, if_false]
      cases d.left <;> rfl
    subst hout'
    obtain ⟨o', e, he'⟩ := putChar_ok he hf'
    refine ⟨o', ?_, he'⟩
    rw [h]
    unfold convert
    rw [if_neg (by decide), if_pos rfl]
    simp only [vaArg, ok_bind, e]
  | @signed x args ds h hx hn =>
    have hi : d.isInt := by rcases h with h | h <;> simp [Directive.isInt, h]
    refine number hi x _ raw rfl rfl rfl ?_ hn.nonempty ?_ ?_
    · refine numberText_signed h ?_ hn (hr.int hi).1
      refine Int.lt_of_lt_of_le hx.2 (Int.ofNat_le.2 (Nat.pow_le_pow_right (by decide) ?_))
      split <;> omega
    · intro h; rw [h]; rfl
    · intro n h; rw [h]; rfl
  | @unsigned x args ds base n h hrng hn hx hd' =>
    have hi : d.isInt := by
      unfold unsignedBase at h
      repeat' split at h
      · simp_all [Directive.isInt]
      · simp_all [Directive.isInt]
      · rename_i h'; rcases h' with h' | h' <;> simp [Directive.isInt, h']
      · cases h
    obtain ⟨i1, i2, -⟩ := hr.int hi
    refine number hi x _ (if d.letter = 88 then raw.map capital else raw) rfl rfl (by split <;> simp) ?_ hd'.nonempty ?_ ?_
    · exact numberText_unsigned hw h hrng hn hd' (by simpa using i1) i2
    · intro h; rw [h]; rfl
    · intro n h
      rw [h]
      simp only [minDigits]
      by_cases hX : d.letter = 88
      · rw [if_pos hX, if_pos hX]
        by_cases h0 : n = 0 ∧ raw = [48]
        · rw [if_pos h0, if_pos h0]; rfl
        · rw [if_neg h0, if_neg h0, List.map_append, List.map_replicate]; rfl
      · rw [if_neg hX, if_neg hX]
  | @string a args s h hz hl ha' hs =>
    obtain ⟨i1, i2⟩ := hr.string h
    have hfield := string_field (left := d.left) (s := raw) hr.nonneg (prec := prec) (fun n hn => by
      rcases i2 n hn with h | ⟨h, h' | h' | h'⟩
      · exact .inl h
      · exact .inr ⟨h, .inl h'⟩
      · exact .inr ⟨h, .inr (.inl h')⟩
      · exact .inr ⟨h, .inr (.inr h'.2)⟩)
    have hout' : out = stringField ⟨d.left, 32, width.getD (-1), prec.getD (-1)⟩ raw := by
      rw [hout, hfield, hz]; rfl
    have hp0 : -1 ≤ prec.getD (-1) := by
      cases hpr : prec with
      | none => decide
      | some n => have := i2 n hpr; simp only [Option.getD_some]; omega
    have hch : Field.chars ⟨d.left, 32, width.getD (-1), prec.getD (-1)⟩ raw.length ≤ raw.length ∨ d.left = true ∨ t ≠ .file ∧ width.getD (-1) ≤ raw.length := by
      unfold Field.chars
      cases hpr : prec with
      | none => left; simp
      | some n =>
        rcases i2 n hpr with rfl | ⟨h0, h | h | h⟩
        · left; simp
        · left; simp only [Option.getD_some]; split <;> omega
        · right; left; exact h
        · right; right; exact ⟨h.1, by cases hwi : width with
            | none => simp only [Option.getD_none]; omega
            | some k => have := h.2; rw [hwi] at this; exact this⟩
    obtain ⟨o', e, he'⟩ := putString_ok (f := ⟨d.left, 32, width.getD (-1), prec.getD (-1)⟩) (a := a.toNat) (rest := rest) hw1.1 hw1.2 hp0 hp1 hch
      (by have : INT_MAX = 2147483647 := rfl; omega) he (by rw [← hout']; exact hf) hs.1 (by rw [← hout']; exact hs.2)
    rw [← hout'] at he'
    refine ⟨o', ?_, he'⟩
    rw [h]
    unfold convert
    rw [if_neg (by decide), if_neg (by decide), if_neg (by decide), if_pos rfl]
    simp only [vaArg, ok_bind]
    rw [if_neg (show ¬ a = 0 by omega), ubUnless_true ha']
    simp only [ok_bind, hz, Bool.false_eq_true, if_false, e]

theorem formatLoop_ok {w : Nat} {dt : Int → List Byte} (hw : 32 ≤ w) : ∀ {ps : List FormatPiece} {args : List Int} {rest : List Byte} {fuel p : Nat}
    {done : List Byte} {o : Out}, Renders (Handled (t = .file) w) w (Outside t m str (done ++ rest)) ps args rest →
    Emitted t m str done o → Fits t m str (done ++ rest) → At m p (formatText ps ++ [0]) → Away t str (done ++ rest) p (formatText ps ++ [0]).length →
    (formatText ps).length < fuel → ∃ o', formatLoop w dt t fuel p args o = ok o' ∧ Emitted t m str (done ++ rest) o' := by
  intro ps
  induction ps with
  | nil =>
    intro args rest fuel p done o h he hf hat ha hfu
    obtain ⟨fuel, rfl⟩ : ∃ f, fuel = f + 1 := ⟨fuel - 1, by omega⟩
    cases h
    have := he.at hat ha
    exact ⟨o, by rw [formatLoop, rd_ok (At.head this)]; rfl, by simpa using he⟩
  | cons pc ps ih =>
    intro args rest fuel p done o h he hf hat ha hfu
    obtain ⟨fuel, rfl⟩ : ∃ f, fuel = f + 1 := ⟨fuel - 1, by omega⟩
    have hat' := he.at hat ha
    cases h with
    | @byte b ps args text h0 h37 hr =>
      simp only [formatText, FormatPiece.text, List.cons_append, List.nil_append, List.length_cons] at hat hat' ha hfu
      rw [formatLoop, rd_ok (At.head hat')]
      simp only [ok_bind]
      rw [if_neg h0, if_pos h37]
      have e : done ++ b :: text = (done ++ [b]) ++ text := by simp
      rw [e] at hf ha hr ⊢
      obtain ⟨o1, e1, he1⟩ := put_ok he hf.left
      rw [e1]
      exact ih hr he1 hf (At.tail hat) (by unfold Away Disjoint at ha ⊢; omega) (by omega)
    | @directive d ps args args' out text hd' hr =>
      simp only [formatText, FormatPiece.text, List.append_assoc] at hat hat' ha hfu
      obtain ⟨f, p', args2, c, o', e1, e2, e3, he'⟩ := directive_ok (dt := dt) hw hd' he hf hat ha
      have hne : d.text ≠ [] := by simp [Directive.text]
      have h0 : hd (d.text ++ (formatText ps ++ [0])) = 37 := by simp [Directive.text]
      have hrd := rd_hd hat' (by simp [hne])
      rw [h0] at hrd
      rw [formatLoop, hrd]
      simp only [ok_bind]
      rw [if_neg (by decide), if_neg (by decide), e1]
      simp only [ok_bind]
      rw [e2]
      simp only [ok_bind]
      rw [← List.append_assoc] at hf ha hr ⊢
      have hl : d.text.length ≠ 0 := by simp [Directive.text]
      refine ih hr he' hf (by rw [e3]; exact hat.append_right) ?_ (by simp only [List.length_append] at hfu; omega)
      rw [e3]
      unfold Away Disjoint at ha ⊢
      simp only [List.length_append] at ha ⊢
      omega

end Mes.C
