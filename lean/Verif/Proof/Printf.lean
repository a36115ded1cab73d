import Verif.Model.CPrintf
import Verif.Spec.Format
import Verif.Proof.CString
import Verif.Proof.Numeral
/- Formatted output: the loops write the text they should. -/
namespace Mes.C
open Res Spec

variable {t : Target} {m : Mem} {str : Nat} {done text : List Byte} {o : Out}

/-- The part of the text that is written to the memory. -/
def kept : Target → List Byte → List Byte
  | .buffer size, text => text.take size
  | .file, _ => []

/-- The text `done` has been written, starting from the memory `m`. -/
structure Emitted (t : Target) (m : Mem) (str : Nat) (done : List Byte) (o : Out) : Prop where
  mem : Patched m o.mem str (kept t done)
  pos : ∀ size, t = .buffer size → o.pos = str + min size done.length
  sent : t = .file → o.sent = done
  count : o.count ≤ done.length
  exact : ∀ size, t = .buffer size → o.count = done.length

/-- There is room for the text. -/
def Fits (t : Target) (m : Mem) (str : Nat) (text : List Byte) : Prop :=
  text.length ≤ INT_MAX ∧ str + (kept t text).length ≤ m.length

theorem kept_le (t : Target) (a b : List Byte) : (kept t a).length ≤ (kept t (a ++ b)).length := by
  cases t <;> simp only [kept, List.length_take, List.length_append, List.length_nil] <;> omega

theorem Fits.left {a b : List Byte} (h : Fits t m str (a ++ b)) : Fits t m str a :=
  ⟨by have := h.1; simp only [List.length_append] at this; omega, by have := h.2; have := kept_le t a b; omega⟩

theorem put_ok {c : Byte} (h : Emitted t m str done o) (hf : Fits t m str (done ++ [c])) :
    ∃ o', put t c o = ok o' ∧ Emitted t m str (done ++ [c]) o' := by
  have hl := hf.1
  simp only [List.length_append, List.length_singleton] at hl
  have hc := h.count
  cases t with
  | file =>
    refine ⟨{ o with sent := o.sent ++ [c], count := o.count + 1 }, by simp only [put, Out.tick]; rw [if_pos (by omega)], ?_⟩
    exact ⟨h.mem, nofun, fun _ => by simp [h.sent rfl], by simp only [List.length_append, List.length_singleton]; omega, nofun⟩
  | buffer size =>
    have he := h.exact size rfl
    have hp := h.pos size rfl
    have hfit := hf.2
    simp only [kept, List.length_take, List.length_append, List.length_singleton] at hfit
    simp only [put]
    by_cases hs : o.count < size
    · rw [if_pos hs]
      have hpos : o.pos < o.mem.length := by rw [h.mem.len]; omega
      refine ⟨⟨o.mem.set o.pos c, o.pos + 1, o.sent, o.count + 1⟩, ?_, ?_, ?_, nofun, ?_, ?_⟩
      · simp only [Out.store, wr_ok _ hpos, ok_bind, Out.tick]
        rw [if_pos (by omega)]
      · have e : kept (.buffer size) (done ++ [c]) = kept (.buffer size) done ++ [c] := by
          simp only [kept]
          rw [List.take_of_length_le (by simp; omega), List.take_of_length_le (by omega)]
        rw [e]
        refine h.mem.append ?_
        have e2 : str + (kept (.buffer size) done).length = o.pos := by simp only [kept, List.length_take]; omega
        rw [e2]
        exact Patched.cons hpos (.nil _ _)
      · rintro _ ⟨⟩
        simp only [List.length_append, List.length_singleton]; omega
      · simp only [List.length_append, List.length_singleton]; omega
      · rintro _ ⟨⟩
        simp only [List.length_append, List.length_singleton]; omega
    · rw [if_neg hs]
      refine ⟨⟨o.mem, o.pos, o.sent, o.count + 1⟩, ?_, ?_, ?_, nofun, ?_, ?_⟩
      · simp only [Out.tick]
        rw [if_pos (by omega)]
      · have e : kept (.buffer size) (done ++ [c]) = kept (.buffer size) done := by
          simp only [kept]
          rw [List.take_append_of_le_length (by omega)]
        rw [e]
        exact h.mem
      · rintro _ ⟨⟩
        simp only [List.length_append, List.length_singleton]; omega
      · simp only [List.length_append, List.length_singleton]; omega
      · rintro _ ⟨⟩
        simp only [List.length_append, List.length_singleton]; omega

theorem int32_ok {x : Int} (h : -2147483648 ≤ x) (h' : x ≤ 2147483647) : int32 x = ok x := if_pos ⟨h, h'⟩

theorem snoc_replicate (done : List Byte) (n : Nat) (c : Byte) : done ++ List.replicate (n + 1) c = (done ++ [c]) ++ List.replicate n c := by
  rw [List.replicate_succ]; simp

theorem padLoop_ok {pad : Byte} {precision : Int} (hp : -2147483640 ≤ precision) : ∀ (n : Nat) {width : Int} {done : List Byte} {o : Out},
    (width - precision).toNat = n → -2147483640 ≤ width → width ≤ 2147483647 → Emitted t m str done o → Fits t m str (done ++ List.replicate n pad) →
    ∃ o', padLoop t pad precision (n + 1) width o = ok (min width precision - 1, o') ∧ Emitted t m str (done ++ List.replicate n pad) o'
  | 0, width, done, o, hn, h1, h2, he, _ => by
    refine ⟨o, ?_, by simpa using he⟩
    rw [padLoop, int32_ok (by omega) (by omega)]
    simp only [ok_bind]
    rw [if_neg (by omega), show min width precision = width by omega]
  | n + 1, width, done, o, hn, h1, h2, he, hf => by
    rw [snoc_replicate] at hf ⊢
    obtain ⟨o1, e1, he1⟩ := put_ok he hf.left
    obtain ⟨o2, e2, he2⟩ := padLoop_ok hp n (width := width - 1) (by omega) (by omega) (by omega) he1 hf
    refine ⟨o2, ?_, he2⟩
    rw [padLoop, int32_ok (by omega) (by omega)]
    simp only [ok_bind]
    rw [if_pos (by omega), e1]
    simp only [ok_bind]
    rw [e2, show min (width - 1) precision = min width precision by omega]

theorem fillLoop_ok {fill : Byte} {length : Int} : ∀ (n : Nat) {precision width : Int} {done : List Byte} {o : Out},
    (precision - length).toNat = n → -2147483648 ≤ width - n → width ≤ 2147483647 → Emitted t m str done o →
    Fits t m str (done ++ List.replicate n fill) →
    ∃ o', fillLoop t fill length (n + 1) precision width o = ok (precision - n, width - n, o') ∧ Emitted t m str (done ++ List.replicate n fill) o'
  | 0, precision, width, done, o, hn, h1, h2, he, _ => by
    refine ⟨o, ?_, by simpa using he⟩
    rw [fillLoop, if_neg (by omega)]
    simp
  | n + 1, precision, width, done, o, hn, h1, h2, he, hf => by
    rw [snoc_replicate] at hf ⊢
    obtain ⟨o1, e1, he1⟩ := put_ok he hf.left
    obtain ⟨o2, e2, he2⟩ := fillLoop_ok (length := length) n (precision := precision - 1) (width := width - 1) (by omega) (by omega) (by omega) he1 hf
    refine ⟨o2, ?_, he2⟩
    rw [fillLoop, if_pos (by omega), e1]
    simp only [ok_bind]
    rw [int32_ok (by omega) (by omega)]
    simp only [ok_bind]
    rw [e2, show precision - 1 - (n : Int) = precision - (n + 1 : Nat) by omega, show width - 1 - (n : Int) = width - (n + 1 : Nat) by omega]

theorem tailLoop_ok {pad : Byte} : ∀ (n : Nat) {done : List Byte} {o : Out}, Emitted t m str done o → Fits t m str (done ++ List.replicate n pad) →
    ∃ o', tailLoop t pad n o = ok o' ∧ Emitted t m str (done ++ List.replicate n pad) o'
  | 0, done, o, he, _ => ⟨o, rfl, by simpa using he⟩
  | n + 1, done, o, he, hf => by
    rw [snoc_replicate] at hf ⊢
    obtain ⟨o1, e1, he1⟩ := put_ok he hf.left
    obtain ⟨o2, e2, he2⟩ := tailLoop_ok n he1 hf
    exact ⟨o2, by rw [tailLoop, e1]; exact e2, he2⟩

theorem textLoop_ok : ∀ (s : List Byte) {precision width : Int} {done : List Byte} {o : Out}, 0 ≤ precision → precision ≤ 2147483647 →
    -2147483648 ≤ width - s.length → width ≤ 2147483647 → Emitted t m str done o → Fits t m str (done ++ s.take precision.toNat) →
    ∃ o', textLoop t s precision width o = ok (width - (s.take precision.toNat).length, o') ∧ Emitted t m str (done ++ s.take precision.toNat) o'
  | [], precision, width, done, o, h0, hp, h1, h2, he, _ => ⟨o, by simp [textLoop], by simpa using he⟩
  | b :: s, precision, width, done, o, h0, hp, h1, h2, he, hf => by
    rw [textLoop, int32_ok (by omega) (by omega)]
    simp only [ok_bind]
    by_cases hz : precision ≤ 0
    · rw [if_pos hz]
      have : precision.toNat = 0 := by omega
      rw [this]
      exact ⟨o, by simp, by simpa using he⟩
    · rw [if_neg hz]
      simp only [List.length_cons] at h1
      have e : (b :: s).take precision.toNat = b :: s.take (precision - 1).toNat := by
        rw [show precision.toNat = (precision - 1).toNat + 1 by omega, List.take_succ_cons]
      rw [e] at hf ⊢
      rw [show done ++ b :: s.take (precision - 1).toNat = (done ++ [b]) ++ s.take (precision - 1).toNat by simp] at hf ⊢
      obtain ⟨o1, e1, he1⟩ := put_ok he hf.left
      obtain ⟨o2, e2, he2⟩ := textLoop_ok s (precision := precision - 1) (width := width - 1) (by omega) (by omega) (by omega) (by omega) he1 hf
      refine ⟨o2, ?_, he2⟩
      rw [int32_ok (by omega) (by omega)]
      simp only [ok_bind]
      rw [e1]
      simp only [ok_bind]
      rw [e2]
      simp only [List.length_cons]
      congr 2
      omega

/-- The range of `k` bytes at `a` is not written to by the text. -/
def Away (t : Target) (str : Nat) (text : List Byte) (a k : Nat) : Prop := Disjoint a k str (kept t text).length

theorem Emitted.at {a : Nat} {l rest : List Byte} (h : Emitted t m str done o) (hat : At m a l) (ha : Away t str (done ++ rest) a l.length) :
    At o.mem a l := by
  intro i hi
  have hk := kept_le t done rest
  rw [h.mem.outside _ (by unfold Away Disjoint at ha; omega)]
  exact hat i hi

theorem Emitted.cstr {a : Nat} {s rest : List Byte} (h : Emitted t m str done o) (hc : CStr m a s) (ha : Away t str (done ++ rest) a (s.length + 1)) :
    CStr o.mem a s := ⟨h.at hc.1 (by simpa using ha), hc.2⟩

theorem stringLoop_ok : ∀ (s : List Byte) {a fuel : Nat} {precision width : Int} {done rest : List Byte} {o : Out}, 0 ≤ precision → precision ≤ 2147483647 →
    -2147483648 ≤ width - s.length → width ≤ 2147483647 → s.length < fuel → Emitted t m str done o →
    Fits t m str (done ++ (s.take precision.toNat ++ rest)) →
    CStr m a s → Away t str (done ++ (s.take precision.toNat ++ rest)) a (s.length + 1) →
    ∃ o', stringLoop t fuel a precision width o = ok (width - (s.take precision.toNat).length, o') ∧ Emitted t m str (done ++ s.take precision.toNat) o'
  | [], a, fuel, precision, width, done, rest, o, h0, hp, h1, h2, hfu, he, _, hc, ha => by
    obtain ⟨fuel, rfl⟩ : ∃ f, fuel = f + 1 := ⟨fuel - 1, by omega⟩
    exact ⟨o, by simp [stringLoop, rd_ok (he.cstr hc ha).nil], by simpa using he⟩
  | b :: s, a, fuel, precision, width, done, rest, o, h0, hp, h1, h2, hfu, he, hf, hc, ha => by
    obtain ⟨fuel, rfl⟩ : ∃ f, fuel = f + 1 := ⟨fuel - 1, by omega⟩
    rw [stringLoop, rd_ok (he.cstr hc ha).head.1]
    simp only [ok_bind]
    rw [if_neg (hc.2 b (by simp)), int32_ok (by omega) (by omega)]
    simp only [ok_bind]
    by_cases hz : precision ≤ 0
    · rw [if_pos hz]
      have : precision.toNat = 0 := by omega
      rw [this]
      exact ⟨o, by simp, by simpa using he⟩
    · rw [if_neg hz]
      simp only [List.length_cons] at h1 hfu
      have e : (b :: s).take precision.toNat = b :: s.take (precision - 1).toNat := by
        rw [show precision.toNat = (precision - 1).toNat + 1 by omega, List.take_succ_cons]
      rw [e] at hf ha ⊢
      rw [show done ++ (b :: s.take (precision - 1).toNat ++ rest) = (done ++ [b]) ++ (s.take (precision - 1).toNat ++ rest) by simp] at hf ha
      rw [show done ++ (b :: s.take (precision - 1).toNat) = (done ++ [b]) ++ s.take (precision - 1).toNat by simp]
      obtain ⟨o1, e1, he1⟩ := put_ok he hf.left
      obtain ⟨o2, e2, he2⟩ := stringLoop_ok s (a := a + 1) (fuel := fuel) (precision := precision - 1) (width := width - 1) (rest := rest)
        (by omega) (by omega) (by omega) (by omega) (by omega) he1 hf hc.tail (by
          unfold Away Disjoint at ha ⊢; simp only [List.length_cons] at ha; omega)
      refine ⟨o2, ?_, he2⟩
      rw [int32_ok (by omega) (by omega)]
      simp only [ok_bind]
      rw [e1]
      simp only [ok_bind]
      rw [e2]
      simp only [List.length_cons]
      congr 2
      omega

/-- The precision that is used for a text of length `n`. -/
def Field.chars (f : Field) (n : Nat) : Int := if f.precision = -1 then (n : Int) else f.precision

/-- What is written for a number. -/
def numberField (f : Field) (fill : Byte) (text : List Byte) : List Byte :=
  if f.left then text.take (f.chars text.length).toNat ++ List.replicate (f.width - (text.take (f.chars text.length).toNat).length).toNat f.pad
  else List.replicate (f.width - f.chars text.length).toNat f.pad ++ (List.replicate (f.chars text.length - text.length).toNat fill ++
    text.take (f.chars text.length).toNat)

theorem putNumber_ok {f : Field} {fill : Byte} (hw : -1 ≤ f.width) (hw' : f.width ≤ 2147483647) (hp : -1 ≤ f.precision) (hp' : f.precision ≤ 2147483646)
    (ht : text.length ≤ 1000) (he : Emitted t m str done o) (hf : Fits t m str (done ++ numberField f fill text)) :
    ∃ o', putNumber t f fill text o = ok o' ∧ Emitted t m str (done ++ numberField f fill text) o' := by
  have hc : 0 ≤ f.chars text.length ∧ f.chars text.length ≤ 2147483646 := by
    unfold Field.chars; split <;> omega
  unfold putNumber leadNumber
  rw [show (if f.precision = -1 then (text.length : Int) else f.precision) = f.chars text.length from rfl]
  generalize hP : f.chars text.length = P at *
  cases hl : f.left with
  | true =>
    simp only [numberField, hl, if_true, hP] at hf ⊢
    rw [← List.append_assoc] at hf ⊢
    obtain ⟨o1, e1, he1⟩ := textLoop_ok text (width := f.width) hc.1 (by omega) (by omega) (by omega) he hf.left
    simp only [ok_bind, e1]
    exact tailLoop_ok _ he1 hf
  | false =>
    simp only [numberField, hl, Bool.false_eq_true, if_false, hP] at hf ⊢
    rw [← List.append_assoc] at hf ⊢
    obtain ⟨o1, e1, he1⟩ := padLoop_ok (pad := f.pad) (precision := P) (by omega) (f.width - P).toNat rfl (by omega) hw' he hf.left
    rw [e1]
    simp only [ok_bind]
    rw [← List.append_assoc] at hf ⊢
    obtain ⟨o2, e2, he2⟩ := fillLoop_ok (length := text.length) (fill := fill) (P - text.length).toNat (precision := P) (width := min f.width P - 1) rfl (by omega) (by omega) he1 hf.left
    rw [e2]
    simp only [ok_bind]
    have hfix : text.take (P - (P - text.length).toNat).toNat = text.take P.toNat := by
      by_cases h : P ≤ text.length
      · rw [show (P - text.length).toNat = 0 by omega]; simp
      · rw [List.take_of_length_le (by omega), List.take_of_length_le (by omega)]
    obtain ⟨o3, e3, he3⟩ := textLoop_ok text (precision := P - (P - text.length).toNat) (width := min f.width P - 1 - (P - text.length).toNat)
      (by omega) (by omega) (by omega) (by omega) he2 (by rw [hfix]; exact hf)
    rw [hfix] at e3 he3
    rw [e3]
    simp only [ok_bind]
    have : (min f.width P - 1 - (P - text.length).toNat - (text.take P.toNat).length : Int).toNat = 0 := by
      simp only [List.length_take]; omega
    rw [this]
    exact ⟨o3, rfl, he3⟩

/-- What is written for a string, when the precision is not above the length (or, for `vsnprintf`, the width is not). -/
def stringField (f : Field) (text : List Byte) : List Byte :=
  if f.left then text.take (f.chars text.length).toNat ++ List.replicate (f.width - (text.take (f.chars text.length).toNat).length).toNat f.pad
  else List.replicate (f.width - f.chars text.length).toNat f.pad ++ text.take (f.chars text.length).toNat

theorem blankLoop_none {length precision width : Int} (h : width ≤ length) : blankLoop t length ((width - length).toNat + 1) precision width o = ok (precision, width, o) := by
  rw [blankLoop, if_neg (by omega)]

theorem fillLoop_none {fill : Byte} {length precision width : Int} (h : precision ≤ length) :
    fillLoop t fill length ((precision - length).toNat + 1) precision width o = ok (precision, width, o) := by
  rw [fillLoop, if_neg (by omega)]

theorem putString_ok {f : Field} {a : Nat} {s rest : List Byte} (hw : -1 ≤ f.width) (hw' : f.width ≤ 2147483647) (hp : -1 ≤ f.precision) (hp' : f.precision ≤ 2147483646)
    (hs : f.chars s.length ≤ s.length ∨ f.left = true ∨ t ≠ .file ∧ f.width ≤ s.length)
    (hmax : s.length < INT_MAX)
    (he : Emitted t m str done o) (hf : Fits t m str (done ++ (stringField f s ++ rest))) (hc : CStr m a s)
    (ha : Away t str (done ++ (stringField f s ++ rest)) a (s.length + 1)) :
    ∃ o', putString t f a o = ok o' ∧ Emitted t m str (done ++ stringField f s) o' := by
  have hI : INT_MAX = 2147483647 := rfl
  have hch : 0 ≤ f.chars s.length ∧ f.chars s.length ≤ 2147483646 := by
    unfold Field.chars; split <;> omega
  have hlen : s.length < o.mem.length + 1 := by have := hc.lt; rw [he.mem.len]; omega
  unfold putString leadString
  rw [strlen_ok (he.cstr hc ha) (by omega)]
  simp only [ok_bind]
  rw [show (if f.precision = -1 then (s.length : Int) else f.precision) = f.chars s.length from rfl]
  generalize hP : f.chars s.length = P at *
  cases hl : f.left with
  | true =>
    simp only [stringField, hl, if_true, hP] at hf ha ⊢
    rw [List.append_assoc] at hf ha
    obtain ⟨o1, e1, he1⟩ := stringLoop_ok s (width := f.width) (fuel := o.mem.length + 1) hch.1 (by omega) (by omega) (by omega) hlen he hf hc ha
    simp only [ok_bind, e1]
    rw [← List.append_assoc]
    rw [← List.append_assoc, ← List.append_assoc] at hf
    exact tailLoop_ok _ he1 hf.left
  | false =>
    simp only [stringField, hl, Bool.false_eq_true, if_false, hP] at hf ha ⊢
    rw [List.append_assoc, ← List.append_assoc] at hf ha
    rw [← List.append_assoc]
    obtain ⟨o1, e1, he1⟩ := padLoop_ok (pad := f.pad) (precision := P) (by omega) (f.width - P).toNat rfl (by omega) hw' he hf.left
    rw [e1]
    simp only [ok_bind]
    have hlen1 : s.length < o1.mem.length + 1 := by rw [he1.mem.len, ← he.mem.len]; exact hlen
    obtain ⟨o2, e2, he2⟩ := stringLoop_ok s (precision := P) (width := min f.width P - 1) (fuel := o1.mem.length + 1) hch.1 (by omega)
      (by omega) (by omega) hlen1 he1 hf hc ha
    have : (min f.width P - 1 - (s.take P.toNat).length : Int).toNat = 0 := by
      simp only [List.length_take]; rw [hl] at hs; simp only [Bool.false_eq_true, false_or] at hs; omega
    refine ⟨o2, ?_, he2⟩
    rw [hl] at hs
    simp only [Bool.false_eq_true, false_or] at hs
    cases t with
    | buffer size =>
      simp only
      rw [blankLoop_none (by omega)]
      simp only [ok_bind, e2, this, tailLoop]
    | file =>
      simp only
      rw [fillLoop_none (by simp at hs; omega)]
      simp only [ok_bind, e2, this, tailLoop]

end Mes.C
