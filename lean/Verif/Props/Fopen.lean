import Verif.Spec.Fopen
import Verif.Props.LibcString
/- Property C73: the modes of fopen, /repo/lib/stdio/fopen.c. -/
namespace Mes.C
open Res Spec

/-- `fopen` opens the file as the mode says. -/
def FopenCorrect (cases : OpenMode → List Byte → Option (List Byte) → Prop) : Prop :=
  ∀ (m : Mem) (opentype rplus : Nat) (mode : OpenMode) (suffix : List Byte) (file : Option (List Byte)), CStr m opentype (mode.letter :: suffix) →
    CStr m rplus [114, 43] → suffix ∈ openSuffixes → cases mode suffix file → fopen m opentype rplus file = ok (isoOpen mode suffix file)

/-- The full property. -/
def C73_full : Prop := FopenCorrect fun _ _ _ => True

end Mes.C

namespace Mes.Props
open Mes.C Res Spec

/-- The flags, as they depend on the mode. -/
theorem fopen_text {m : Mem} {opentype rplus : Nat} {c : Byte} {suffix : List Byte} {file : Option (List Byte)} (h : CStr m opentype (c :: suffix))
    (hr : CStr m rplus [114, 43]) :
    fopen m opentype rplus file = ok (sysOpen
      (if (c = 97 ∨ c :: suffix = [114, 43]) ∧ file.isSome then if c = 97 then oRdwr ||| oAppend else oRdwr
       else if c = 119 ∨ c = 97 ∨ c :: suffix = [114, 43] then if 43 ∈ c :: suffix then oRdwr ||| oCreat else oWronly ||| oCreat ||| oTrunc
       else oRdonly) file) := by
  obtain ⟨r, e1, e2⟩ := C42_strcmp_eq m opentype rplus _ _ h hr
  have hp : ((c :: suffix).findIdx? (fun b => sc b = 43)).isSome = decide (43 ∈ c :: suffix) := by
    rw [Bool.eq_iff_iff, List.findIdx?_isSome, List.any_eq_true, decide_eq_true_iff]
    constructor
    · rintro ⟨b, hb, hs⟩
      have : sc b = sc 43 := of_decide_eq_true hs
      exact sc_inj this ▸ hb
    · exact fun hb => ⟨43, hb, by decide⟩
  unfold fopen fopenFlags
  rw [rd_ok h.head.1, e1, strchr_ne h 43 (by decide)]
  simp only [ok_bind, e2, Option.isSome_map, hp, decide_eq_true_eq]
  by_cases h1 : (c = 97 ∨ c :: suffix = [114, 43]) ∧ file.isSome = true
  · simp only [if_pos h1, ok_bind]
  · simp only [if_neg h1]
    by_cases h2 : c = 119 ∨ c = 97 ∨ c :: suffix = [114, 43]
    · simp only [if_pos h2, ok_bind]
    · simp only [if_neg h2, ok_bind]

/-- "w+" keeps what is in the file. -/
theorem C73_truncate_false : ¬ FopenCorrect fun mode _ _ => mode = .write := by
  intro h
  have := h [119, 43, 0, 114, 43, 0] 0 3 .write [43] (some [1]) (by decide) (by decide) (by decide) rfl
  revert this
  decide +kernel

/-- "r+" makes the file if there is none. -/
theorem C73_missing_false : ¬ FopenCorrect fun mode suffix _ => mode = .read ∧ suffix = [43] := by
  intro h
  have := h [114, 43, 0] 0 0 .read [43] none (by decide) (by decide) (by decide) ⟨rfl, rfl⟩
  revert this
  decide +kernel

/-- "rb+" and "r+b" do not allow to write. -/
theorem C73_update_false : ¬ FopenCorrect fun mode _ file => mode = .read ∧ file.isSome := by
  intro h
  have := h [114, 98, 43, 0, 114, 43, 0] 0 4 .read [98, 43] (some []) (by decide) (by decide) (by decide) ⟨rfl, rfl⟩
  revert this
  decide +kernel

/-- "a" and "a+" on a new file do not append later. -/
theorem C73_append_false : ¬ FopenCorrect fun mode suffix file => mode = .append ∧ 43 ∈ suffix := by
  intro h
  have := h [97, 43, 0, 114, 43, 0] 0 3 .append [43] none (by decide) (by decide) (by decide) ⟨rfl, by decide⟩
  revert this
  decide +kernel

theorem C73_false : ¬ C73_full := fun h => C73_truncate_false fun m o r mode s f h1 h2 h3 _ => h m o r mode s f h1 h2 h3 trivial

/-- Partial: "r", "rb", "w" and "wb" for every file, "r+" and the modes "a+", "a+b" and "ab+" for a file that exists.  The contents, what is allowed
and the place of writes are those of ISO C.  Missing for the full property: the cases above, and "a" without "+", which allows to read as well. -/
theorem C73_modes_partial : FopenCorrect fun mode suffix file =>
    mode ≠ .append ∧ 43 ∉ suffix ∨ mode = .read ∧ suffix = [43] ∧ file.isSome ∨ mode = .append ∧ 43 ∈ suffix ∧ file.isSome := by
  intro m o r mode suffix file h hr hs hc
  rw [fopen_text h hr]
  congr 1
  unfold openSuffixes at hs
  simp only [List.mem_cons, List.not_mem_nil, or_false] at hs
  cases file <;> cases mode <;> rcases hs with rfl | rfl | rfl | rfl | rfl <;>
    first
      | (exfalso; revert hc; decide)
      | (exfalso; revert hc; simp; done)
      | rfl
      | (simp [OpenMode.letter, sysOpen, isoOpen, oRdonly, oWronly, oRdwr, oCreat, oTrunc, oAppend]; done)

/-- "a" allows what it should allow: what is in the file stays, writes go to its end, if it exists. -/
theorem C73_append_partial (m : Mem) (opentype rplus : Nat) (suffix content : List Byte) (h : CStr m opentype (97 :: suffix)) (hr : CStr m rplus [114, 43]) :
    fopen m opentype rplus (some content) = ok (some ⟨content, true, true, true⟩) := by
  rw [fopen_text h hr]
  simp [sysOpen, oRdwr, oTrunc, oAppend]

/-- "wb" -/
example : fopen [119, 98, 0, 114, 43, 0] 0 3 (some [1, 2]) = ok (some ⟨[], false, true, false⟩) :=
  C73_modes_partial _ 0 3 .write [98] (some [1, 2]) (by decide) (by decide) (by decide) (.inl (by decide))

end Mes.Props
