import Verif.Proof.CNum
/- Property C44: number formatting and parsing in the C library. -/
namespace Mes.C
open Res Spec

/-- With a 32-bit `long`, `itoa`/`ltoa` give the usual decimal text of every number. -/
theorem C44_itoa_32 (x : Int) (h1 : -(2 ^ 31 : Nat) ≤ x) (h2 : x < (2 ^ 31 : Nat)) :
    ∃ text, itoa 32 x = ok text ∧ IsSigned 10 x text :=
  ntoab_signed (by decide) (by decide) (by omega) (Or.inr (by omega))

/-- With a 32-bit `long`, `utoa` gives the usual decimal text of every unsigned number. -/
theorem C44_utoa_32 (x : Nat) (h : x < 2 ^ 32) : ∃ text, utoa 32 x = ok text ∧ IsNumeral 10 x text := by
  have e : ((x : Int) % (2 ^ 32 : Nat)).toNat = x := by omega
  have := ntoab_unsigned (w := 32) (base := 10) (x := x) (by decide) (by decide) (by omega)
  rwa [e] at this

/-- Every base from 2 to 36 and every width of `long`, when the text has at most ten digits. -/
theorem C44_ltoab_partial (w base : Nat) (hb : 2 ≤ base) (hb' : base ≤ 36) (x : Int) (hw : x < (2 ^ w : Nat))
    (hfit : x.natAbs < base ^ 10) : ∃ text, ltoab w x base = ok text ∧ IsSigned base x text :=
  ntoab_signed hb hb' hw (Or.inr hfit)

/-- The full property for a 64-bit `long`. -/
def Itoa64 : Prop :=
  ∀ x : Int, -(2 ^ 63 : Nat) ≤ x → x < (2 ^ 63 : Nat) → ∃ text, itoa 64 x = ok text ∧ IsSigned 10 x text

/-- It is false: a number of twelve digits is written in front of its 20-byte buffer. -/
theorem C44_itoa_64_false : ¬ Itoa64 := by
  intro h
  obtain ⟨t, ht, -⟩ := h 100000000000 (by decide) (by decide)
  exact absurd ht (by
    have : itoa 64 100000000000 = ub := by decide
    rw [this]; simp)

/-- The full property of `ultoa` with a 32-bit `unsigned long`. -/
def Ultoa32 : Prop := ∀ x : Nat, x < 2 ^ 32 → ∃ text, ultoa 32 x = ok text ∧ IsNumeral 10 x text

/-- It is false: the upper half of the range is printed as negative numbers. -/
theorem C44_ultoa_32_false : ¬ Ultoa32 := by
  intro h
  obtain ⟨t, ht, hn⟩ := h 4294967295 (by decide)
  have e : ultoa 32 4294967295 = ok [45, 49] := by decide
  rw [e] at ht
  cases ht
  exact absurd (hn.digits 45 (by simp)) (by decide)

/-- Partial: `ultoa` is right below `2^31`. -/
theorem C44_ultoa_32_partial (x : Nat) (h : x < 2 ^ 31) : ∃ text, ultoa 32 x = ok text ∧ IsSigned 10 x text := by
  unfold ultoa
  rw [if_pos h]
  exact ntoab_signed (by decide) (by decide) (by omega) (Or.inr (by omega))

example : itoa 32 (-2147483648) = ok [45, 50, 49, 52, 55, 52, 56, 51, 54, 52, 56] := by decide
example : ltoab 64 255 16 = ok [102, 102] := by decide

/-- White space characters, as bytes. -/
def IsBlank (c : UInt8) : Prop := c.toNat = 9 ∨ c.toNat = 10 ∨ c.toNat = 11 ∨ c.toNat = 12 ∨ c.toNat = 13 ∨ c.toNat = 32

theorem isspace_of_blank {c : UInt8} (h : IsBlank c) : isspace (sc c) = true := by
  unfold IsBlank at h
  unfold isspace sc
  rw [if_pos (by omega)]
  simp; omega

/-- The text to be parsed: blanks, an optional sign, one or more digits of the base, and a byte that is no digit. -/
structure IsIntText (base : Nat) (text : List UInt8) (ws sign ds : List UInt8) (stop : UInt8) : Prop where
  text_eq : text = ws ++ sign ++ ds ++ [stop]
  blank : ∀ c ∈ ws, IsBlank c
  sign : sign = [] ∨ sign = [43] ∨ sign = [45]
  nonempty : ds ≠ []
  digits : ∀ c ∈ ds, IsDigit base c
  stop : ¬ IsDigit base stop

/-- The full property of `strtol`'s integer parser for bases 2, 8, 10 and 16: the signed value, and the position of the
first character after the number, whenever the value fits an `int`. -/
def AbtolCorrect : Prop :=
  ∀ (base : Nat), base = 2 ∨ base = 8 ∨ base = 10 ∨ base = 16 →
  ∀ (m : Mem) (s : Nat) (text ws sign ds : List UInt8) (stop : UInt8), IsIntText base text ws sign ds stop →
    At m s text → numVal base ds ≤ INT_MAX →
    abtol m s base = ok ((if sign = [45] then -(numVal base ds : Int) else numVal base ds),
      s + ws.length + sign.length + ds.length)

/-- It is false: a decimal digit after a letter is misread, `"a0"` in base 16 is 121 and not 160. -/
theorem C44_abtol_false : ¬ AbtolCorrect := by
  intro h
  have := h 16 (by decide) [97, 48, 0] 0 [97, 48, 0] [] [] [97, 48] 0
    ⟨rfl, by simp, by simp, by simp, by decide, by decide⟩ (by decide) (by decide)
  exact absurd this (by decide)

/-- … and also in base 10, for the 48 largest numbers: the digit's character code is added before `'0'` is subtracted,
which overflows `int`.  `"2147483647"` is undefined. -/
theorem C44_abtol_overflow :
    abtol [50, 49, 52, 55, 52, 56, 51, 54, 52, 55, 0] 0 10 = ub := by decide

/-- Partial: bases 2, 8 and 10, for values up to `INT_MAX - 48`. -/
theorem C44_abtol_partial (base : Nat) (hbase : base = 2 ∨ base = 8 ∨ base = 10)
    (m : Mem) (s : Nat) (text ws sign ds : List UInt8) (stop : UInt8) (ht : IsIntText base text ws sign ds stop)
    (hat : At m s text) (hmax : numVal base ds + 48 ≤ INT_MAX) :
    abtol m s base = ok ((if sign = [45] then -(numVal base ds : Int) else numVal base ds),
      s + ws.length + sign.length + ds.length) := by
  have hle : ∀ c ∈ ds, sc c ≤ 57 := by
    intro c hc
    have h1 := digit_lt (ht.digits c hc)
    have h2 := digit_cases (ht.digits c hc)
    have : ∀ n : Nat, (digitVal c).getD 0 = n → 57 < sc c → 10 ≤ n := by
      intro n hn hgt
      obtain ⟨v, hv, -⟩ := ht.digits c hc
      rw [hv] at hn
      simp at hn
      subst hn
      have := c.toNat_lt
      unfold digitVal at hv
      unfold sc at hgt
      split at hv
      · split at hgt <;> omega
      · split at hv
        · cases hv; omega
        · cases hv
    have := this _ rfl
    omega
  have hat' := hat
  rw [ht.text_eq] at hat'
  refine abtol_ok (by omega) base (Or.inl rfl) s ws ds sign stop ht.sign (fun c hc => isspace_of_blank (ht.blank c hc))
    ht.nonempty ht.digits ?_ (Or.inr ⟨hle, hmax⟩) hat' ht.stop
  intro p c q heq hgt
  have := hle c (by rw [heq]; simp)
  omega

/-- Partial: base 16, for values up to `INT_MAX - 87`, when no decimal digit follows a letter. -/
theorem C44_abtol_hex_partial
    (m : Mem) (s : Nat) (text ws sign ds : List UInt8) (stop : UInt8) (ht : IsIntText 16 text ws sign ds stop)
    (hat : At m s text) (hmax : numVal 16 ds + 87 ≤ INT_MAX)
    (hord : ∃ l r, ds = l ++ r ∧ (∀ c ∈ l, c.toNat ≤ 57) ∧ ∀ c ∈ r, 97 ≤ c.toNat) :
    abtol m s 16 = ok ((if sign = [45] then -(numVal 16 ds : Int) else numVal 16 ds),
      s + ws.length + sign.length + ds.length) := by
  have hat' := hat
  rw [ht.text_eq] at hat'
  refine abtol_ok (base := 16) (by omega) 16 (Or.inl rfl) s ws ds sign stop ht.sign
    (fun c hc => isspace_of_blank (ht.blank c hc))
    ht.nonempty ht.digits ?_ (Or.inl hmax) hat' ht.stop
  obtain ⟨l, r, rfl, hl, hr⟩ := hord
  have hsc : ∀ c ∈ l ++ r, sc c = c.toNat := by
    intro c hc
    obtain ⟨v, hv, -⟩ := ht.digits c hc
    unfold digitVal at hv
    unfold sc
    rw [if_pos]
    split at hv
    · omega
    · split at hv
      · omega
      · cases hv
  intro p c q heq hgt e he
  have hce : c ∈ l ++ r := by rw [heq]; simp
  have hee : e ∈ l ++ r := by rw [heq]; simp [he]
  rw [hsc c hce] at hgt
  rw [hsc e hee]
  have her : e ∈ r := by
    rcases List.append_eq_append_iff.mp heq with ⟨a', h1, h2⟩ | ⟨c', h1, h2⟩
    · rw [h2]; simp [he]
    · cases c' with
      | nil => simp at h2; rw [← h2]; simp [he]
      | cons x xs =>
        simp at h2
        have : c ∈ l := by rw [h1, h2.1]; simp
        have := hl c this
        omega
  have := hr e her
  omega

example : IsIntText 10 [32, 45, 52, 50, 0] [32] [45] [52, 50] 0 :=
  ⟨rfl, by simp [IsBlank], by simp, by simp, by decide, by decide⟩
example : abtol [32, 45, 52, 50, 0] 0 10 = ok (-42, 4) := by decide

/-- `atoi` reads back what `itoa` printed: for every `int` whose magnitude is at most `INT_MAX - 48`, and whatever
surrounds the text in memory. -/
theorem C44_atoi_itoa_partial (x : Int) (hx : x.natAbs + 48 ≤ INT_MAX) :
    ∃ text, itoa 32 x = ok text ∧ ∀ (m : Mem) (s : Nat), CStr m s text → atoi m s = ok x := by
  have hI : INT_MAX = 2147483647 := rfl
  obtain ⟨text, ht, hs⟩ := C44_itoa_32 x (by omega) (by omega)
  refine ⟨text, ht, ?_⟩
  intro m s hc
  have hle : ∀ ds : List UInt8, (∀ c ∈ ds, IsDigit 10 c) → ∀ c ∈ ds, sc c ≤ 57 := by
    intro ds hds c hc
    have key : ∀ n : Fin 256, IsDigit 10 (UInt8.ofNat n.val) → sc (UInt8.ofNat n.val) ≤ 57 := by decide +kernel
    have := key ⟨c.toNat, c.toNat_lt⟩
    simp at this
    exact this (hds c hc)
  unfold atoi
  rcases hs with ⟨hpos, hn⟩ | ⟨hneg, ds, rfl, hn⟩
  · have := abtol_ok (m := m) (base := 10) (by omega) 0 (Or.inr ⟨rfl, rfl⟩) s [] text [] 0 (Or.inl rfl) (by simp)
      hn.nonempty hn.digits (by
        intro p c q heq hgt
        have := hle text hn.digits c (by rw [heq]; simp)
        omega) (Or.inr ⟨hle text hn.digits, by rw [hn.value]; omega⟩) (by simpa using hc.1) (by decide)
    rw [this]
    simp [hn.value]; omega
  · have := abtol_ok (m := m) (base := 10) (by omega) 0 (Or.inr ⟨rfl, rfl⟩) s [] ds [45] 0 (Or.inr (Or.inr rfl)) (by simp)
      hn.nonempty hn.digits (by
        intro p c q heq hgt
        have := hle ds hn.digits c (by rw [heq]; simp)
        omega) (Or.inr ⟨hle ds hn.digits, by rw [hn.value]; omega⟩) (by simpa using hc.1) (by decide)
    rw [this]
    simp [hn.value]; omega

example : (-42 : Int).natAbs + 48 ≤ INT_MAX ∧ itoa 32 (-42) = ok [45, 52, 50] ∧ CStr [7, 45, 52, 50, 0] 1 [45, 52, 50] := by
  decide

end Mes.C
