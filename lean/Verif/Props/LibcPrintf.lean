import Verif.Proof.PrintfAll
import Verif.Proof.PrintfSafe
/- Property C50: formatted output in the C library. -/
namespace Mes.C
open Res Spec

theorem _root_.Mes.Spec.Renders.mono {R R' : Restriction} {w : Nat} {S S' : Nat → List UInt8 → Prop} {ps : List FormatPiece} {args : List Int} {text : List UInt8}
    (h : Renders R w S ps args text) (hS : ∀ a s, S a s → S' a s) (hR : ∀ d wd p sg r, R d wd p sg r → R' d wd p sg r) : Renders R' w S' ps args text := by
  induction h with
  | nil => exact .nil
  | byte h0 h _ ih => exact .byte h0 h ih
  | directive h _ ih =>
    refine .directive ⟨h.width, h.longs, ?_⟩ ih
    obtain ⟨a, b, c, d, e, f, g, h1, h2, h3, h4, h5⟩ := h.shows
    refine ⟨a, b, c, d, e, f, g, h1, h2, ?_, hR _ _ _ _ _ h4, h5⟩
    cases h3 with
    | percent h => exact .percent h
    | char h hz hp hl => exact .char h hz hp hl
    | signed h hx hn => exact .signed h hx hn
    | unsigned h hr hn hx hd => exact .unsigned h hr hn hx hd
    | string h hz hl ha hs => exact .string h hz hl ha (hS _ _ hs)

/-- The strings in the memory that do not meet the `n` bytes at `str`. -/
def StringsOutside (m : List UInt8) (str n : Nat) (a : Nat) (s : List UInt8) : Prop := CStr m a s ∧ Disjoint a (s.length + 1) str n

/-- The full property of `snprintf`, for a buffer of `size` bytes and any text: as much of the text as there is room for is in the
buffer, and a terminator; nothing else changes; the value is the length of the whole text. -/
def SnprintfCorrect : Prop :=
  ∀ (w : Nat) (dt : Int → List UInt8) (m : Mem) (str size format : Nat) (ps : List FormatPiece) (args : List Int) (text : List UInt8),
    w = 32 ∨ w = 64 → 0 < size → str + size ≤ m.length → CStr m format (formatText ps) →
    Disjoint format ((formatText ps).length + 1) str size → text.length ≤ INT_MAX →
    Renders Any w (StringsOutside m str size) ps args text →
    vsnprintf w dt m str size format args = ok ((text.length : Int), patch m str (text.take (size - 1) ++ [0]))

/-- It is false: if the text does not fit there is no terminator.  Here `"ab"` goes to a buffer of two bytes. -/
theorem C50_terminator_false : ¬ SnprintfCorrect := by
  intro h
  have := h 32 (fun _ => []) [97, 98, 0, 9, 9, 9] 3 2 0 [.byte 97, .byte 98] [] [97, 98] (by decide) (by decide) (by decide) (by decide) (by unfold Disjoint; decide)
    (by decide) (.byte (by decide) (by decide) (.byte (by decide) (by decide) .nil))
  revert this
  decide +kernel

/-- Also with enough room. -/
def SnprintfText : Prop :=
  ∀ (w : Nat) (dt : Int → List UInt8) (m : Mem) (str size format : Nat) (ps : List FormatPiece) (args : List Int) (text : List UInt8),
    w = 32 ∨ w = 64 → text.length < size → str + size ≤ m.length → CStr m format (formatText ps) →
    Disjoint format ((formatText ps).length + 1) str size → text.length ≤ INT_MAX →
    Renders Any w (StringsOutside m str size) ps args text →
    vsnprintf w dt m str size format args = ok ((text.length : Int), patch m str (text ++ [0]))

/-- … it is false: `"%.1d"` with 12 gives `"1"`, a precision cuts numbers off. -/
theorem C50_text_false : ¬ SnprintfText := by
  intro h
  have := h 32 (fun _ => []) [37, 46, 49, 100, 0, 9, 9, 9] 5 3 0 [.directive ⟨false, false, .absent, .digits [49], 0, 100⟩] [12] ([49, 50] ++ []) (by decide) (by decide) (by decide)
    (by decide) (by unfold Disjoint; decide) (by decide) (.directive ⟨by simp, by decide, none, [12], some 1, [12], [], [49, 50], [49, 50],
      .absent, .digits (ds := [49]) (by decide) (by decide), .signed (x := 12) (ds := [49, 50]) (.inl rfl) (by decide) ⟨by decide, by decide, by decide, by decide⟩, trivial, by decide⟩ .nil)
  revert this
  decide +kernel

/-- Some more formats with a wrong result, as the text that is written and the value. -/
def written (r : Res (Int × Mem)) (str : Nat) : Option (Int × List UInt8) :=
  match r with
  | ok (n, m) => some (n, m.drop str)
  | _ => none

/-- `"%03d"` with −5 gives `"0-5"` instead of `"-05"`. -/
theorem C50_zero_minus : written (vsnprintf 32 (fun _ => []) [37, 48, 51, 100, 0, 9, 9, 9, 9] 5 4 0 [-5]) 5 = some (3, [48, 45, 53, 0]) := by decide +kernel
/-- `"%2.3s"` with `"a"` gives `"a"` instead of `" a"`. -/
theorem C50_string_short : written (vsnprintf 32 (fun _ => []) [37, 50, 46, 51, 115, 0, 97, 0, 9, 9, 9] 8 3 0 [6]) 8 = some (1, [97, 0, 9]) := by decide +kernel
/-- `"%*d"` with −2 and 1 gives `"1"` instead of `"1 "`. -/
theorem C50_star_negative : written (vsnprintf 32 (fun _ => []) [37, 42, 100, 0, 9, 9, 9] 4 3 0 [-2, 1]) 4 = some (1, [49, 0, 9]) := by decide +kernel
/-- `"%o"` with the largest `unsigned` gives `"-1"`. -/
theorem C50_octal_minus : written (vsnprintf 32 (fun _ => []) [37, 111, 0, 9, 9, 9] 3 3 0 [-1]) 3 = some (2, [45, 49, 0]) := by decide +kernel
/-- `"% d"`, a flag of ISO C, leaves the format: the terminator is skipped. -/
theorem C50_blank_flag : vsnprintf 32 (fun _ => []) [37, 32, 100, 0] 0 0 0 [1] = ub := by decide +kernel

/-- Partial: for the directives that are `Handled` the text is that of ISO C.  The buffer gets the text and a terminator as far as
there is room, so the terminator is missing if the text does not fit; nothing else changes, and the value is the length of the text.
All formats, arguments, strings, buffer sizes and memories are covered. -/
theorem C50_snprintf_partial (w : Nat) (dt : Int → List UInt8) (m : Mem) (str size format : Nat) (ps : List FormatPiece) (args : List Int) (text : List UInt8)
    (hw : w = 32 ∨ w = 64) (hsize : str + min size (text.length + 1) ≤ m.length) (hf : CStr m format (formatText ps))
    (hd : Disjoint format ((formatText ps).length + 1) str (min size text.length)) (hmax : text.length ≤ INT_MAX)
    (hr : Renders (Handled False w) w (StringsOutside m str (min size text.length)) ps args text) :
    vsnprintf w dt m str size format args = ok ((text.length : Int), patch m str ((text ++ [0]).take size)) := by
  have hk : (kept (.buffer size) text).length = min size text.length := by simp [kept]
  obtain ⟨o, e, he⟩ := formatLoop_ok (t := .buffer size) (m := m) (str := str) (dt := dt) (w := w) (by omega) (ps := ps) (args := args) (rest := text)
    (fuel := m.length + 1) (p := format) (done := []) (o := ⟨m, str, [], 0⟩)
    (hr.mono (fun a s h => ⟨h.1, by unfold Away; rw [List.nil_append, hk]; exact h.2⟩) (fun d wd p sg r h => ⟨h.nonneg, h.smallWidth, h.smallPrecision, h.precision, h.zero,
      h.char, h.int, fun hs => ⟨(h.string hs).1, fun n hn => by
        rcases (h.string hs).2 n hn with h | ⟨h1, h2 | h2 | h2⟩
        · exact .inl h
        · exact .inr ⟨h1, .inl h2⟩
        · exact .inr ⟨h1, .inr (.inl h2)⟩
        · exact .inr ⟨h1, .inr (.inr ⟨nofun, h2.2⟩)⟩⟩⟩))
    ⟨by simp only [kept, List.take_nil]; exact .nil _ _, fun s h => by simp, nofun, by simp, fun _ _ => rfl⟩
    ⟨by simpa using hmax, by rw [List.nil_append, hk]; omega⟩ hf.1 (by unfold Away; rw [List.nil_append, hk]; simpa using hd)
    (by have := hf.lt; omega)
  rw [List.nil_append] at he
  have hc := he.exact size rfl
  have hp := he.pos size rfl
  unfold vsnprintf
  rw [e]
  simp only [ok_bind, terminate]
  by_cases hs : text.length < size
  · have hpos : o.pos < o.mem.length := by rw [he.mem.len]; omega
    rw [if_pos (by omega), wr_ok _ hpos]
    simp only [ok_bind]
    have hall : kept (.buffer size) text = text := by simp only [kept]; rw [List.take_of_length_le (by omega)]
    have := he.mem
    rw [hall] at this
    have hz : Patched m (o.mem.set o.pos 0) str (text ++ [0]) := by
      refine this.append ?_
      rw [show str + text.length = o.pos by omega]
      exact .cons hpos (.nil _ _)
    rw [hz.eq_patch (by simp only [List.length_append, List.length_singleton]; omega), hc, List.take_of_length_le (by simp; omega)]
  · rw [if_neg (by omega)]
    simp only [ok_bind]
    have := he.mem
    rw [this.eq_patch (by rw [hk]; omega), hc]
    simp only [kept]
    rw [List.take_append_of_le_length (by omega)]

/-- Partial: if there is room for it, the text is there as a string. -/
theorem C50_fits_partial (w : Nat) (dt : Int → List UInt8) (m : Mem) (str size format : Nat) (ps : List FormatPiece) (args : List Int) (text : List UInt8)
    (hw : w = 32 ∨ w = 64) (hroom : text.length < size) (hsize : str + text.length < m.length) (hf : CStr m format (formatText ps))
    (hd : Disjoint format ((formatText ps).length + 1) str text.length) (hmax : text.length ≤ INT_MAX)
    (hr : Renders (Handled False w) w (StringsOutside m str text.length) ps args text) :
    vsnprintf w dt m str size format args = ok ((text.length : Int), patch m str (text ++ [0])) := by
  have := C50_snprintf_partial w dt m str size format ps args text hw (by omega) hf (by rwa [show min size text.length = text.length by omega]) hmax
    (by rwa [show min size text.length = text.length by omega])
  rwa [List.take_of_length_le (by simp; omega)] at this

/-- Partial: `sprintf`. -/
theorem C50_sprintf_partial (w : Nat) (dt : Int → List UInt8) (m : Mem) (str format : Nat) (ps : List FormatPiece) (args : List Int) (text : List UInt8)
    (hw : w = 32 ∨ w = 64) (hsize : str + text.length < m.length) (hf : CStr m format (formatText ps))
    (hd : Disjoint format ((formatText ps).length + 1) str text.length) (hmax : text.length < INT_MAX)
    (hr : Renders (Handled False w) w (StringsOutside m str text.length) ps args text) :
    vsprintf w dt m str format args = ok ((text.length : Int), patch m str (text ++ [0])) := by
  have hI : INT_MAX = 2147483647 := rfl
  refine C50_fits_partial w dt m str _ format ps args text hw ?_ hsize hf hd (by omega) hr
  rcases hw with rfl | rfl
  · show text.length < 2 ^ 31 - 1; omega
  · show text.length < 2 ^ 63 - 1; omega

/-- The full property of `fprintf`: the text is sent, the memory stays, and the value is the length of the text. -/
def FprintfCorrect : Prop :=
  ∀ (w : Nat) (dt : Int → List UInt8) (m : Mem) (format : Nat) (ps : List FormatPiece) (args : List Int) (text : List UInt8),
    w = 32 ∨ w = 64 → CStr m format (formatText ps) → text.length ≤ INT_MAX → Renders Any w (CStr m) ps args text →
    vfprintf w dt m format args = ok ((text.length : Int), text, m)

/-- It is false: the value is always 0. -/
theorem C50_fprintf_false : ¬ FprintfCorrect := by
  intro h
  have := h 32 (fun _ => []) [97, 0] 0 [.byte 97] [] [97] (by decide) (by decide) (by decide) (.byte (by decide) (by decide) .nil)
  revert this
  decide +kernel

/-- Partial: for the directives that are `Handled`, the text of ISO C is sent and the memory stays; the value is 0. -/
theorem C50_fprintf_partial (w : Nat) (dt : Int → List UInt8) (m : Mem) (format : Nat) (ps : List FormatPiece) (args : List Int) (text : List UInt8)
    (hw : w = 32 ∨ w = 64) (hf : CStr m format (formatText ps)) (hmax : text.length ≤ INT_MAX) (hr : Renders (Handled True w) w (CStr m) ps args text) :
    vfprintf w dt m format args = ok (0, text, m) := by
  obtain ⟨o, e, he⟩ := formatLoop_ok (t := .file) (m := m) (str := 0) (dt := dt) (w := w) (by omega) (ps := ps) (args := args) (rest := text)
    (fuel := m.length + 1) (p := format) (done := []) (o := ⟨m, 0, [], 0⟩)
    (hr.mono (fun a s h => ⟨h, Or.inr (by simp [kept])⟩) (fun d wd p sg r h => ⟨h.nonneg, h.smallWidth, h.smallPrecision, h.precision, h.zero,
      h.char, h.int, fun hs => ⟨(h.string hs).1, fun n hn => by
        rcases (h.string hs).2 n hn with h | ⟨h1, h2 | h2 | h2⟩
        · exact .inl h
        · exact .inr ⟨h1, .inl h2⟩
        · exact .inr ⟨h1, .inr (.inl h2)⟩
        · exact absurd trivial h2.1⟩⟩))
    ⟨.nil _ _, nofun, fun _ => rfl, by simp, nofun⟩
    ⟨by simpa using hmax, by simp [kept]⟩ hf.1 (Or.inr (by simp [kept])) (by have := hf.lt; omega)
  unfold vfprintf
  rw [e]
  simp only [ok_bind, he.sent rfl, List.nil_append]
  have : o.mem = m := by
    have := he.mem.eq_patch (by simp [kept])
    simpa [kept, patch_nil] using this
  rw [this]

/-- Whatever the format and the arguments are, right or wrong: the calls come to an end, and if the behaviour is defined, bytes
outside the buffer change only in the `int` objects that arguments point to (for `%n`), and if the value is less than the size there is a
terminator right after that many bytes. -/
theorem C50_bounded (w : Nat) (dt : Int → List UInt8) (m : Mem) (str size format : Nat) (args : List Int) :
    vsnprintf w dt m str size format args ≠ .loop ∧
    ∀ n m', vsnprintf w dt m str size format args = ok (n, m') → m'.length = m.length ∧ 0 ≤ n ∧ (n < size → m'[str + n.toNat]? = some 0) ∧
      ∀ i : Nat, m'[i]? ≠ m[i]? → str ≤ i ∧ i < str + size ∨ ∃ a ∈ args, a ≤ i ∧ i < a + 4 := by
  have h := vsnprintf_fine (w := w) (dt := dt) (m := m) (str := str) (size := size) (format := format) (args := args)
  constructor
  · intro e; rw [e] at h; exact h
  · intro n m' e
    rw [e] at h
    obtain ⟨h1, h2, k, h3, h4⟩ := h
    simp only at h1 h2 h3 h4
    subst h3
    refine ⟨h1, by omega, fun hn => h4 (by omega), fun i hi => ?_⟩
    refine Classical.byContradiction fun hno => hi (h2 i (by omega) fun a ha hx => hno (.inr ⟨a, ha, hx⟩))

/-- The same for `vfprintf`, which has no buffer. -/
theorem C50_fprintf_bounded (w : Nat) (dt : Int → List UInt8) (m : Mem) (format : Nat) (args : List Int) :
    vfprintf w dt m format args ≠ .loop ∧
    ∀ n sent m', vfprintf w dt m format args = ok (n, sent, m') → m'.length = m.length ∧ ∀ i : Nat, m'[i]? ≠ m[i]? → ∃ a ∈ args, a ≤ i ∧ i < a + 4 := by
  have h := vfprintf_fine (w := w) (dt := dt) (m := m) (format := format) (args := args)
  constructor
  · intro e; rw [e] at h; exact h
  · intro n sent m' e
    rw [e] at h
    refine ⟨h.1, fun i hi => ?_⟩
    exact Classical.byContradiction fun hno => hi (h.2 i fun a ha hx => hno ⟨a, ha, hx⟩)

/-- `"<%4d|%-3s|%02x>"` with −12, `"ab"` and 10. -/
def formatSample : List FormatPiece :=
  [.byte 60, .directive ⟨false, false, .digits [52], .absent, 0, 100⟩, .byte 124, .directive ⟨true, false, .digits [51], .absent, 0, 115⟩, .byte 124,
    .directive ⟨false, true, .digits [50], .absent, 0, 120⟩, .byte 62]

/-- The memory: the format, `"ab"` at 16, and a buffer of 20 bytes at 19. -/
def formatMem : Mem := formatText formatSample ++ [0] ++ [97, 98, 0] ++ List.replicate 20 9

def formatResult : List UInt8 := [60] ++ [32, 45, 49, 50] ++ [124] ++ [97, 98, 32] ++ [124] ++ [48, 97] ++ [62]

example : (formatText formatSample).length = 15 := by decide

theorem formatSample_renders (file : Prop) (S : Nat → List UInt8 → Prop) (hS : S 16 [97, 98]) :
    Renders (Handled file 32) 32 S formatSample [-12, 16, 10] formatResult := by
  refine .byte (by decide) (by decide) (.directive (out := [32, 45, 49, 50]) (args' := [16, 10]) ⟨by simp, by decide, some 4, [-12, 16, 10], none, [-12, 16, 10], [45], [49, 50], [49, 50],
    .digits (ds := [52]) (by decide) (by decide), .absent, .signed (x := -12) (ds := [49, 50]) (.inl rfl) (by decide) ⟨by decide, by decide, by decide, by decide⟩, ?_, by decide⟩
    (.byte (by decide) (by decide) (.directive (out := [97, 98, 32]) (args' := [10]) ⟨by simp, by decide, some 3, [16, 10], none, [16, 10], [], [97, 98], [97, 98],
      .digits (ds := [51]) (by decide) (by decide), .absent, .string (a := 16) (s := [97, 98]) rfl rfl rfl (by decide) hS, ?_, by decide⟩
      (.byte (by decide) (by decide) (.directive (out := [48, 97]) (args' := []) ⟨by simp, by decide, some 2, [10], none, [10], [], [97], [97],
        .digits (ds := [50]) (by decide) (by decide), .absent, .unsigned (x := 10) (ds := [97]) (base := 16) (n := 10) (by decide) (by decide) (by decide) (by decide)
          ⟨by decide, by decide, by decide, by decide⟩, ?_, by decide⟩
        (.byte (by decide) (by decide) .nil))))))
  · exact ⟨by rintro n ⟨⟩; decide, by rintro ds ⟨⟩; decide, nofun, nofun, nofun, by rintro h; exact absurd h (by decide), fun _ => ⟨by decide, by intro h; exact absurd h (by decide), nofun⟩,
      by intro h; exact absurd h (by decide)⟩
  · exact ⟨by rintro n ⟨⟩; decide, by rintro ds ⟨⟩; decide, nofun, nofun, nofun, by rintro h; exact absurd h (by decide), by unfold Directive.isInt; intro h; exact absurd h (by decide),
      fun _ => ⟨by decide, nofun⟩⟩
  · exact ⟨by rintro n ⟨⟩; decide, by rintro ds ⟨⟩; decide, nofun, nofun, fun _ => ⟨rfl, rfl, rfl, _, rfl⟩, by rintro h; exact absurd h (by decide),
      fun _ => ⟨by decide, by intro h; exact absurd h (by decide), nofun⟩, by intro h; exact absurd h (by decide)⟩

/-- The hypotheses of the theorems above are met, also when the text is cut off. -/
example : vsnprintf 32 (fun _ => []) formatMem 19 8 0 [-12, 16, 10] = ok (13, patch formatMem 19 [60, 32, 45, 49, 50, 124, 97, 98]) :=
  C50_snprintf_partial 32 _ formatMem 19 8 0 formatSample _ formatResult (.inl rfl) (by decide) (by decide) (by unfold Disjoint; decide) (by decide)
    (formatSample_renders _ _ ⟨by decide, by unfold Disjoint; decide⟩)
example : vfprintf 32 (fun _ => []) formatMem 0 [-12, 16, 10] = ok (0, formatResult, formatMem) :=
  C50_fprintf_partial 32 _ formatMem 0 formatSample _ formatResult (.inl rfl) (by decide) (by decide) (formatSample_renders _ _ (by decide))

end Mes.C
