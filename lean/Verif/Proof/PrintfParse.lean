import Verif.Proof.Printf
/- Formatted output: the parts of a conversion specification are read as written. -/
namespace Mes.C
open Res Spec

variable {m : Mem} {p : Nat}

theorem _root_.Mes.Spec.At.append_left {a b : List Byte} (h : At m p (a ++ b)) : At m p a := by
  intro i hi
  rw [h i (by simp; omega), List.getElem?_append_left hi]

theorem _root_.Mes.Spec.At.append_right {a b : List Byte} (h : At m p (a ++ b)) : At m (p + a.length) b := by
  intro i hi
  rw [show p + a.length + i = p + (a.length + i) by omega, h _ (by simp; omega), List.getElem?_append_right (by omega)]
  congr 1; omega

/-- The first byte. -/
abbrev hd (l : List Byte) : Byte := l.headD 0

theorem rd_hd {l : List Byte} (h : At m p l) (hl : l ≠ []) : m.rd p = ok (hd l) := by
  cases l with
  | nil => exact absurd rfl hl
  | cons b l => exact rd_ok (h.head)

theorem parseLeft_ok {left : Bool} {rest : List Byte} (h : At m p ((if left then [45] else []) ++ rest)) (hr : rest ≠ []) (hh : hd rest ≠ 45) :
    parseLeft m p = ok (left, hd rest, p + (if left then [45] else [] : List Byte).length) := by
  unfold parseLeft
  cases left with
  | false =>
    rw [rd_hd h (by simpa using hr)]
    simp only [ok_bind, Bool.false_eq_true, if_false, List.nil_append]
    rw [if_neg hh]
    rfl
  | true =>
    rw [rd_hd h (by simp)]
    have := rd_hd (h.append_right) hr
    simp only [if_true, List.length_singleton] at this
    simp only [ok_bind, if_true, List.singleton_append, List.headD_cons, this]
    rfl

theorem isDigit_range {c : Byte} : IsDigit 10 c ↔ 48 ≤ c ∧ c ≤ 57 := by
  have key : ∀ n : Fin 256, IsDigit 10 (UInt8.ofNat n.val) ↔ 48 ≤ UInt8.ofNat n.val ∧ UInt8.ofNat n.val ≤ 57 := by decide +kernel
  have := key ⟨c.toNat, c.toNat_lt⟩
  simpa using this

theorem digit_sc {c : Byte} (h : IsDigit 10 c) : sc c ≤ 57 := by
  have key : ∀ n : Fin 256, IsDigit 10 (UInt8.ofNat n.val) → sc (UInt8.ofNat n.val) ≤ 57 := by decide +kernel
  have := key ⟨c.toNat, c.toNat_lt⟩
  simp at this
  exact this h

theorem abtol_digits {ds rest : List Byte} (h : At m p (ds ++ rest)) (hne : ds ≠ []) (hd' : ∀ c ∈ ds, IsDigit 10 c) (hmax : numVal 10 ds + 48 < 2 ^ 31)
    (hr : rest ≠ []) (hh : ¬ IsDigit 10 (hd rest)) : abtol m p 10 = ok (((numVal 10 ds : Nat) : Int), p + ds.length) := by
  obtain ⟨b, rest, rfl⟩ := List.exists_cons_of_ne_nil hr
  have := abtol_ok (m := m) (base := 10) (by omega) 10 (Or.inl rfl) p [] ds [] b (Or.inl rfl) (by simp) hne hd' (by
    intro p c q heq hgt
    have := digit_sc (hd' c (by rw [heq]; simp))
    omega) (Or.inr ⟨fun c hc => digit_sc (hd' c hc), by omega⟩) (by
      have : ds ++ b :: rest = (ds ++ [b]) ++ rest := by simp
      rw [this] at h
      simpa using h.append_left) hh
  simpa using this

/-- A width or precision, with what stands for its absence. -/
theorem parseNumber_ok {a : Amount} {args args' : List Int} {v : Option Int} {rest : List Byte} (hg : a.Given args v args')
    (h : At m p (a.text ++ rest)) (hr : rest ≠ []) (hh : ¬ IsDigit 10 (hd rest)) (hs : hd rest ≠ 42) (hds : ∀ ds, a = .digits ds → ds ≠ [] ∧ numVal 10 ds + 48 < 2 ^ 31) :
    parseNumber m (hd (a.text ++ rest)) p args = ok (v.getD (-1), hd rest, p + a.text.length, args') := by
  cases hg with
  | absent =>
    rw [show hd (Amount.absent.text ++ rest) = hd rest from rfl]
    unfold parseNumber
    rw [if_neg (fun hc => hh (isDigit_range.2 hc)), if_neg hs]
    rfl
  | @digits ds args hd' hm =>
    obtain ⟨hne, hmax⟩ := hds ds rfl
    obtain ⟨c, ds', e⟩ := List.exists_cons_of_ne_nil hne
    have hhd : hd (Amount.text (.digits ds) ++ rest) = c := by simp [Amount.text, e]
    have hc : 48 ≤ c ∧ c ≤ 57 := isDigit_range.1 (hd' c (by rw [e]; simp))
    rw [hhd]
    unfold parseNumber
    rw [if_pos hc]
    have := abtol_digits (rest := rest) h hne hd' hmax hr hh
    rw [this]
    simp only [ok_bind]
    rw [rd_hd h.append_right hr]
    simp [Amount.text]
  | @star n args h1 h2 =>
    have hhd : hd (Amount.text .star ++ rest) = 42 := by simp [Amount.text]
    rw [hhd]
    unfold parseNumber
    rw [if_neg (by decide), if_pos rfl]
    simp only [vaArg, ok_bind]
    have := rd_hd h.append_right hr
    simp only [Amount.text, List.length_singleton] at this
    rw [this]
    simp only [ok_bind, Amount.text, List.length_singleton, Option.getD_some]
    have : asInt n = n := by unfold asInt; simp only; split <;> omega
    rw [this]

theorem parsePrecision_ok {a : Amount} {args args' : List Int} {v : Option Int} {rest : List Byte} (hg : a.Given args v args')
    (h : At m p (a.precisionText ++ rest)) (hr : rest ≠ []) (hh : ¬ IsDigit 10 (hd rest)) (hs : hd rest ≠ 42) (hd46 : hd rest ≠ 46)
    (hds : ∀ ds, a = .digits ds → ds ≠ [] ∧ numVal 10 ds + 48 < 2 ^ 31) :
    parsePrecision m (hd (a.precisionText ++ rest)) p args = ok (v.getD (-1), hd rest, p + a.precisionText.length, args') := by
  by_cases ha : a = .absent
  · subst ha
    cases hg
    rw [show hd (Amount.absent.precisionText ++ rest) = hd rest from rfl]
    unfold parsePrecision
    rw [if_neg hd46]
    rfl
  · have e : a.precisionText = 46 :: a.text := by cases a <;> first | rfl | exact absurd rfl ha
    rw [e] at h ⊢
    rw [show hd (46 :: a.text ++ rest) = 46 from rfl]
    unfold parsePrecision
    rw [if_pos rfl]
    have h' : At m (p + 1) (a.text ++ rest) := At.tail h
    rw [rd_hd h' (by simp [hr])]
    simp only [ok_bind]
    rw [parseNumber_ok hg h' hr hh hs hds]
    simp only [List.length_cons]
    congr 3
    congr 1
    omega

theorem skipLong_ok {letter : Byte} (hl : letter ≠ 108) : ∀ {k n p : Nat} {rest : List Byte}, k ≤ n → At m p (List.replicate k 108 ++ letter :: rest) →
    skipLong m n (hd (List.replicate k 108 ++ letter :: rest)) p = ok (letter, p + k)
  | 0, 0, p, rest, _, h => rfl
  | 0, n + 1, p, rest, _, h => by
    rw [show hd (List.replicate 0 108 ++ letter :: rest) = letter from rfl, skipLong, if_neg hl]
    rfl
  | k + 1, n + 1, p, rest, hk, h => by
    rw [List.replicate_succ, List.cons_append] at h ⊢
    have h' := At.tail h
    simp only [List.headD_cons, skipLong, if_true]
    rw [rd_hd h' (by simp)]
    simp only [ok_bind]
    rw [skipLong_ok hl (by omega) h']
    congr 2
    omega

/-- The letters of the conversions. -/
def Letter (c : Byte) : Prop := c = 37 ∨ c = 99 ∨ c = 100 ∨ c = 105 ∨ c = 111 ∨ c = 117 ∨ c = 120 ∨ c = 88 ∨ c = 115

theorem parseField_ok {t : Target} {d : Directive} {args args1 args2 : List Int} {width prec : Option Int} {rest : List Byte}
    (hw : d.width ≠ .digits [] ∧ ∀ ds, d.width ≠ .digits (48 :: ds)) (hlongs : d.longs ≤ 2) (hlet : Letter d.letter)
    (hg : d.width.Given args width args1) (hg' : d.precision.Given args1 prec args2)
    (hsw : ∀ ds, d.width = .digits ds → numVal 10 ds + 48 < 2 ^ 31) (hsp : ∀ ds, d.precision = .digits ds → ds ≠ [] ∧ numVal 10 ds + 48 < 2 ^ 31)
    (hz : d.zero = true → ∃ ds, d.width = .digits ds) (h : At m p (d.text ++ rest)) :
    parseField t m (p + 1) args = ok (⟨d.left, if d.zero then 48 else 32, width.getD (-1), prec.getD (-1)⟩, d.letter, p + d.text.length - 1, args2) := by
  unfold Directive.text at h
  rw [List.cons_append] at h
  have h := At.tail h
  rw [List.append_assoc] at h
  generalize hr1 : (if d.zero then [48] else [] : List Byte) ++ (d.width.text ++ (d.precision.precisionText ++ (List.replicate d.longs 108 ++ [d.letter]))) ++ rest = r1 at h
  rw [List.append_assoc, List.append_assoc, List.append_assoc, List.append_assoc] at hr1
  generalize hr4 : List.replicate d.longs 108 ++ ([d.letter] ++ rest) = r4 at hr1
  have n4 : r4 ≠ [] := by rw [← hr4]; simp
  have h4 : hd r4 = 108 ∨ hd r4 = d.letter := by
    rw [← hr4]
    cases d.longs with
    | zero => right; simp
    | succ k => left; simp [List.replicate_succ]
  have b4 : ¬ IsDigit 10 (hd r4) ∧ hd r4 ≠ 42 ∧ hd r4 ≠ 46 ∧ hd r4 ≠ 45 ∧ hd r4 ≠ 32 := by
    rcases h4 with e | e
    · rw [e]; decide
    · rw [e]; unfold Letter at hlet; rcases hlet with e | e | e | e | e | e | e | e | e <;> rw [e] <;> decide
  generalize hr3 : d.precision.precisionText ++ r4 = r3 at hr1
  have n3 : r3 ≠ [] := by rw [← hr3]; simp [n4]
  have h3 : hd r3 = 46 ∨ hd r3 = hd r4 := by
    rw [← hr3]
    cases d.precision <;> simp [Amount.precisionText]
  have b3 : ¬ IsDigit 10 (hd r3) ∧ hd r3 ≠ 42 ∧ hd r3 ≠ 45 ∧ hd r3 ≠ 32 := by
    rcases h3 with e | e
    · rw [e]; decide
    · rw [e]; exact ⟨b4.1, b4.2.1, b4.2.2.2.1, b4.2.2.2.2⟩
  generalize hr2 : d.width.text ++ r3 = r2 at hr1
  have n2 : r2 ≠ [] := by rw [← hr2]; simp [n3]
  have h2 : IsDigit 10 (hd r2) ∧ hd r2 ≠ 48 ∨ hd r2 = 42 ∨ hd r2 = hd r3 := by
    rw [← hr2]
    cases hwd : d.width with
    | absent => simp [Amount.text]
    | star => simp [Amount.text]
    | digits ds =>
      rw [hwd] at hg
      cases hg with
      | digits hd' _ =>
        cases ds with
        | nil => exact absurd hwd hw.1
        | cons c ds =>
          simp only [Amount.text, List.cons_append, List.headD_cons]
          refine Or.inl ⟨hd' c (by simp), ?_⟩
          rintro rfl
          exact hw.2 ds hwd
  have notD : ∀ {c : Byte}, IsDigit 10 c → c ≠ 42 ∧ c ≠ 45 ∧ c ≠ 32 := by
    intro c hc
    refine ⟨?_, ?_, ?_⟩ <;> rintro rfl <;> exact absurd hc (by decide)
  have b2 : hd r2 ≠ 45 ∧ hd r2 ≠ 32 ∧ hd r2 ≠ 48 := by
    rcases h2 with ⟨h, h'⟩ | h | h
    · exact ⟨(notD h).2.1, (notD h).2.2, h'⟩
    · rw [h]; decide
    · rw [h]
      refine ⟨b3.2.2.1, b3.2.2.2, ?_⟩
      intro e
      exact b3.1 (by rw [e]; decide)
  have n1 : r1 ≠ [] := by rw [← hr1]; simp [n2]
  have h1 : hd r1 = 48 ∨ hd r1 = hd r2 := by rw [← hr1]; cases d.zero <;> simp
  have b1 : hd r1 ≠ 45 ∧ hd r1 ≠ 32 := by
    rcases h1 with e | e
    · rw [e]; decide
    · rw [e]; exact ⟨b2.1, b2.2.1⟩
  unfold parseField
  rw [parseLeft_ok h n1 b1.1]
  have h := h.append_right
  generalize hp1 : p + 1 + (if d.left then [45] else [] : List Byte).length = p1 at *
  simp only [ok_bind]
  rw [show parsePad m 32 32 (hd r1) p1 = ok (32, hd r1, p1) by unfold parsePad; rw [if_neg b1.2]]
  simp only [ok_bind]
  have hds' : ∀ ds, d.width = .digits ds → ds ≠ [] ∧ numVal 10 ds + 48 < 2 ^ 31 := fun ds e => ⟨by rintro rfl; exact hw.1 e, hsw ds e⟩
  have main : ∀ c p2, (∃ width', parseNumber m c p2 args = ok (width', hd r3, p2 + d.width.text.length, args1) ∧ width' = width.getD (-1)) →
      At m p2 r2 → p2 = p1 + (if d.zero then [48] else [] : List Byte).length →
      (do let (width, c, p, args) ← parseNumber m c p2 args
          let (precision, c, p, args) ← parsePrecision m c p args
          let (c, p) ← skipLong m (match t with | .buffer _ => 3 | .file => 2) c p
          ok ((⟨d.left, if d.zero then 48 else 32, width, precision⟩ : Field), c, p, args)) =
      ok (⟨d.left, if d.zero then 48 else 32, width.getD (-1), prec.getD (-1)⟩, d.letter, p + d.text.length - 1, args2) := by
    rintro c p2 ⟨_, e, rfl⟩ hat hp2
    rw [e]
    simp only [ok_bind]
    rw [← hr2] at hat
    have hat := hat.append_right
    rw [← hr3, parsePrecision_ok hg' (by rw [hr3]; exact hat) n4 b4.1 b4.2.1 b4.2.2.1 hsp]
    simp only [ok_bind]
    rw [← hr3] at hat
    have hat := hat.append_right
    rw [← hr4] at hat ⊢
    rw [show List.replicate d.longs (108 : UInt8) ++ ([d.letter] ++ rest) = List.replicate d.longs 108 ++ d.letter :: rest from rfl] at hat ⊢
    rw [skipLong_ok (by rintro e; rw [e] at hlet; exact absurd hlet (by unfold Letter; decide)) (by cases t <;> simp <;> omega) hat]
    simp only [ok_bind]
    congr 4
    simp only [Directive.text, List.length_cons, List.length_append, List.length_replicate, List.length_nil]
    omega
  cases hzero : d.zero with
  | false =>
    rw [hzero] at hr1 main
    simp only [Bool.false_eq_true, if_false, List.nil_append] at hr1
    subst hr1
    rw [show parsePad m 48 32 (hd r2) p1 = ok (32, hd r2, p1) by unfold parsePad; rw [if_neg b2.2.2]]
    simp only [ok_bind]
    have := main (hd r2) p1 ⟨_, by rw [← hr2] at h ⊢; exact parseNumber_ok hg h n3 b3.1 b3.2.1 hds', rfl⟩ h (by simp)
    exact this
  | true =>
    rw [hzero] at hr1 main
    simp only [if_true, List.singleton_append] at hr1
    subst hr1
    have hrd : m.rd p1 = ok 48 := rd_hd h (by simp)
    rw [show parsePad m 48 32 (hd (48 :: r2)) p1 = ok (48, 48, p1 + 1) by unfold parsePad; simp [hrd]]
    simp only [ok_bind]
    have h := At.tail h
    have := main 48 (p1 + 1) ?_ h (by simp)
    · exact this
    · obtain ⟨ds, e⟩ := hz hzero
      obtain ⟨hne, hmax⟩ := hds' ds e
      refine ⟨_, ?_, rfl⟩
      unfold parseNumber
      rw [if_pos (by decide)]
      rw [e] at hg hr2 ⊢
      cases hg with
      | digits hd' _ =>
        simp only [Amount.text] at hr2 ⊢
        rw [← hr2] at h
        rw [abtol_digits h hne hd' hmax n3 b3.1]
        simp only [ok_bind]
        rw [rd_hd h.append_right n3]
        rfl

end Mes.C
