import Verif.Proof.Scan
import Verif.Props.LibcPrintf
/- Property C69: formatted input in the C library. -/
namespace Mes.C
open Res Spec

/-- ISO C: numbers that fit in an `int`. -/
def isoLimits : ScanLimits where
  skip _ := True
  white _ := True
  value sign n := -2147483648 ≤ signedVal sign n ∧ signedVal sign n ≤ 2147483647

/-- The full property of `sscanf` on a text that the template matches: the values are stored in their places, nothing else changes, and the value is
their number. -/
def SscanfCorrect : Prop :=
  ∀ (flt : Mem → Nat → Nat → Res (Mem × Nat)) (m : Mem) (p t : Nat) (ps : List ScanPiece) (s : List UInt8) (vs : List (List UInt8)) (args : List Nat),
    CStr m p s → CStr m t (scanText ps) → Places m.length p (s.length + 1) t ((scanText ps).length + 1) args vs → vs.length ≤ INT_MAX →
    Scans isoLimits ps s vs → vsscanf flt m p t args = ok ((vs.length : Int), stores m args vs)

end Mes.C

namespace Mes.Props
open Mes.C Res Spec

/-- No floating point numbers. -/
def noFloat : Mem → Nat → Nat → Res (Mem × Nat) := fun _ _ _ => ub

/-- It is false: white space in the template takes a character of any kind.  `sscanf ("5", " %d", &x)` finds nothing. -/
theorem C69_white_false : ¬ SscanfCorrect := by
  intro h
  have := h noFloat [53, 0, 32, 37, 100, 0, 9, 9, 9, 9] 0 2 [.white 32, .int false 100] [53] [intBytes 5] [6] (by decide) (by decide)
    ⟨by decide, by unfold Disjoint; decide, by unfold Disjoint; decide, trivial⟩ (by decide)
    (.white (ws := []) (s := [53]) (by decide) (by simp) (by decide) trivial
      (.int (ws := []) (sign := []) (ds := [53]) (s := []) (.inl rfl) (by simp) (.inl rfl) (by decide) (by decide) (by simp) (by unfold isoLimits; decide) .nil))
  revert this
  decide +kernel

/-- The largest numbers are undefined: `sscanf ("2147483647", "%d", &x)`. -/
theorem C69_large : vsscanf noFloat [50, 49, 52, 55, 52, 56, 51, 54, 52, 55, 0, 37, 100, 0, 9, 9, 9, 9] 0 11 [14] = ub := by decide +kernel

/-- A character that is different does not end the matching: `sscanf ("b5", "a%d", &x)` gives 1 and 5. -/
theorem C69_mismatch : vsscanf noFloat [98, 53, 0, 97, 37, 100, 0, 9, 9, 9, 9] 0 3 [7] = ok (1, [98, 53, 0, 97, 37, 100, 0, 5, 0, 0, 0]) := by decide +kernel

/-- Nor does a number that is not there: `sscanf ("b", "%d", &x)` gives 1 and 0. -/
theorem C69_no_number : vsscanf noFloat [98, 0, 37, 100, 0, 9, 9, 9, 9] 0 2 [5] = ok (1, [98, 0, 37, 100, 0, 0, 0, 0, 0]) := by decide +kernel

/-- A conversion that is not supported, `%s`, skips the end of the template, and what follows it in the memory is taken for the template: here
`sscanf ("a5", "%s", …)` with `"%d"` right behind the template. -/
theorem C69_past_end : vsscanf noFloat [97, 53, 0, 37, 115, 0, 37, 100, 0, 9, 9, 9, 9] 0 3 [9] = ok (1, [97, 53, 0, 37, 115, 0, 37, 100, 0, 5, 0, 0, 0]) ∧
    vsscanf noFloat [97, 53, 0, 37, 115, 0] 0 3 [] = ub := by decide +kernel

/-- Partial: for templates whose white space stands for one character each, no white space in front of a `%`, and numbers up to `INT_MAX - 48`.  All
templates of the pieces, texts, places and memories are covered. -/
theorem C69_sscanf_partial (flt : Mem → Nat → Nat → Res (Mem × Nat)) (m : Mem) (p t : Nat) (ps : List ScanPiece) (s : List UInt8) (vs : List (List UInt8))
    (args : List Nat) (hs : CStr m p s) (ht : CStr m t (scanText ps)) (hp : Places m.length p (s.length + 1) t ((scanText ps).length + 1) args vs)
    (hc : vs.length ≤ INT_MAX) (h : Scans handled ps s vs) : vsscanf flt m p t args = ok ((vs.length : Int), stores m args vs) := by
  have := scan_ok flt h (m.length + 1) m p t args 0 hs.2 ht.2 hs.1 ht.1 hp (by omega) (by omega) (by have := ht.lt; omega)
  rw [Int.zero_add] at this
  exact this

/-- `sscanf ("x=-12,y", "x=%d,%c", &n, &c)` -/
example : vsscanf noFloat [120, 61, 45, 49, 50, 44, 121, 0, 120, 61, 37, 100, 44, 37, 99, 0, 9, 9, 9, 9, 9] 0 8 [16, 20] =
    ok (2, [120, 61, 45, 49, 50, 44, 121, 0, 120, 61, 37, 100, 44, 37, 99, 0, 244, 255, 255, 255, 121]) :=
  C69_sscanf_partial noFloat _ 0 8 [.byte 120, .byte 61, .int false 100, .byte 44, .char] [120, 61, 45, 49, 50, 44, 121] [intBytes (-12), [121]] [16, 20]
    (by decide) (by decide) ⟨by decide, by unfold Disjoint; decide, by unfold Disjoint; decide, by decide, by unfold Disjoint; decide, by unfold Disjoint; decide, trivial⟩
    (by decide)
    (.byte (by decide) (by decide) (.byte (by decide) (by decide)
      (.int (ws := []) (sign := [45]) (ds := [49, 50]) (s := [44, 121]) (.inl rfl) (by simp) (.inr (.inr rfl)) (by decide) (by decide) (by decide) (by show (12 : Nat) + 48 ≤ _; decide)
        (.byte (by decide) (by decide) (.char .nil)))))

/-- What `snprintf` writes, `sscanf` reads with the same format: the arguments come back. -/
theorem C69_inverse_partial (w : Nat) (dt : Int → List UInt8) (flt : Mem → Nat → Nat → Res (Mem × Nat)) (m : Mem) (str size format : Nat)
    (ps : List ScanPiece) (args : List Int) (text : List UInt8) (places : List Nat) (hw : w = 32 ∨ w = 64) (ha : ScanApart ps)
    (hsize : text.length < size) (hroom : str + size ≤ m.length) (hf : CStr m format (scanText ps))
    (hd : Disjoint format ((scanText ps).length + 1) str size) (hmax : text.length ≤ INT_MAX)
    (hr : Renders (Handled False w) w (StringsOutside m str text.length) (ps.map ScanPiece.format) args text)
    (hx : ∀ x ∈ args, x.natAbs + 48 ≤ INT_MAX) (h0 : ∀ b ∈ text, b ≠ 0)
    (hp : Places m.length str (text.length + 1) format ((scanText ps).length + 1) places (printed ps args)) :
    (do let (_, m) ← vsnprintf w dt m str size format args
        vsscanf flt m str format places) =
      ok (((printed ps args).length : Int), stores (patch m str (text ++ [0])) places (printed ps args)) := by
  have hs := renders_scans ps ha hr hx
  have hlen := scans_length hs
  have ht := format_text ps ha
  have hmin : min size text.length = text.length := by omega
  have hpl : str + (text ++ [0]).length ≤ m.length := by simp only [List.length_append, List.length_cons, List.length_nil]; omega
  rw [C50_snprintf_partial w dt m str size format (ps.map ScanPiece.format) args text hw (by omega) (by rw [ht]; exact hf)
    (by rw [ht, hmin]; unfold Disjoint at *; omega) hmax (by rw [hmin]; exact hr), ok_bind]
  rw [List.take_of_length_le (by simp only [List.length_append, List.length_cons, List.length_nil]; omega)]
  refine C69_sscanf_partial flt _ str format ps text _ places ⟨fun i hi => ?_, h0⟩
    ⟨At.patch hf.1 hpl (by unfold Disjoint at *; simp only [List.length_append, List.length_cons, List.length_nil]; omega), hf.2⟩
    (by rw [length_patch _ _ _ hpl]; exact hp) (by omega) hs
  rw [getElem?_patch _ _ _ _ hpl, if_pos ⟨by omega, by omega⟩, Nat.add_sub_cancel_left]

/-- `"%d:%c"` with -12 and `'y'`, to 20 bytes at 6 and back to 26 and 30. -/
example (dt : Int → List UInt8) :
    (do let (_, m) ← vsnprintf 32 dt ([37, 100, 58, 37, 99, 0] ++ List.replicate 25 9) 6 20 0 [-12, 121]
        vsscanf noFloat m 6 0 [26, 30]) =
    ok (2, stores (patch ([37, 100, 58, 37, 99, 0] ++ List.replicate 25 9) 6 [45, 49, 50, 58, 121, 0]) [26, 30] [intBytes (-12), [121]]) :=
  C69_inverse_partial 32 dt noFloat _ 6 20 0 [.int false 100, .byte 58, .char] [-12, 121] [45, 49, 50, 58, 121] [26, 30] (.inl rfl)
    ⟨⟨rfl, rfl, by decide⟩, by show ¬ White 58; decide, trivial, trivial⟩ (by decide) (by decide) (by decide) (by unfold Disjoint; decide) (by decide)
    (.directive (out := [45, 49, 50]) (args' := [121]) ⟨⟨by simp, by simp⟩, by decide, none, [-12, 121], none, [-12, 121], [45], [49, 50], [49, 50], .absent, .absent,
        .signed (x := -12) (ds := [49, 50]) (.inl rfl) (by decide) ⟨by decide, by decide, by decide, by decide⟩,
        ⟨by simp, by simp, by simp, by simp, by simp, by simp, fun _ => ⟨by decide, by decide, by simp⟩, by decide⟩, by decide⟩
      (.byte (by decide) (by decide)
        (.directive (out := [121]) (text := []) (args' := []) ⟨⟨by simp, by simp⟩, by decide, none, [121], none, [121], [], [121], [121], .absent, .absent,
          .char (x := 121) rfl rfl rfl rfl,
          ⟨by simp, by simp, by simp, by simp, by simp, by simp, fun h => absurd h (by unfold Directive.isInt; decide), by decide⟩, by decide⟩ .nil)))
    (by decide) (by decide) ⟨by decide, by unfold Disjoint; decide, by unfold Disjoint; decide, by decide, by unfold Disjoint; decide, by unfold Disjoint; decide, trivial⟩

end Mes.Props
