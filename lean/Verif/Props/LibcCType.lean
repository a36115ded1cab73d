import Verif.Model.CType
import Verif.Spec.CType
/- Property C51: character classes, for every `int` argument (not only the 256 characters and EOF). -/
namespace Mes.C
open Spec

theorem C51_isdigit (c : Int) : isdigit c = true ↔ c ∈ digits := by
  simp [isdigit, digits]; omega
theorem C51_islower (c : Int) : islower c = true ↔ c ∈ lowers := by
  simp [islower, lowers]; omega
theorem C51_isupper (c : Int) : isupper c = true ↔ c ∈ uppers := by
  simp [isupper, uppers]; omega
theorem C51_isalpha (c : Int) : isalpha c = true ↔ c ∈ lowers ∨ c ∈ uppers := by
  simp [isalpha, C51_islower, C51_isupper]
theorem C51_isalnum (c : Int) : isalnum c = true ↔ c ∈ digits ∨ c ∈ lowers ∨ c ∈ uppers := by
  simp [isalnum, C51_isalpha, C51_isdigit]
theorem C51_isspace (c : Int) : isspace c = true ↔ c ∈ spaces := by
  simp [isspace, spaces]; omega
theorem C51_isascii (c : Int) : isascii c = true ↔ 0 ≤ c ∧ c < 128 := by
  simp [isascii]; omega
theorem C51_ispunct (c : Int) : ispunct c = true ↔ c ∈ puncts := by
  simp [ispunct, isprint, isspace, isalnum, isalpha, isdigit, islower, isupper, puncts]; omega
theorem C51_isgraph (c : Int) : isgraph c = true ↔ c ∈ digits ∨ c ∈ lowers ∨ c ∈ uppers ∨ c ∈ puncts := by
  simp [isgraph, digits, lowers, uppers, puncts]; omega
theorem C51_isprint (c : Int) :
    isprint c = true ↔ c = 32 ∨ c ∈ digits ∨ c ∈ lowers ∨ c ∈ uppers ∨ c ∈ puncts := by
  simp [isprint, digits, lowers, uppers, puncts]; omega

/-- `tolower` maps each upper-case letter to the lower-case letter at the same place of the alphabet and keeps every
other value. -/
theorem C51_tolower (c : Int) :
    (∀ i : Nat, uppers[i]? = some c → lowers[i]? = some (tolower c)) ∧ (c ∉ uppers → tolower c = c) := by
  constructor
  · intro i hi
    have hlt : i < 26 := (List.getElem?_eq_some_iff.mp hi).1
    have key : ∀ i : Fin 26, lowers[i.val]? = (uppers[i.val]?).map tolower := by decide
    have := key ⟨i, hlt⟩
    rw [hi] at this; simpa using this
  · intro h
    rw [← C51_isupper] at h
    simp [tolower, h]

theorem C51_toupper (c : Int) :
    (∀ i : Nat, lowers[i]? = some c → uppers[i]? = some (toupper c)) ∧ (c ∉ lowers → toupper c = c) := by
  constructor
  · intro i hi
    have hlt : i < 26 := (List.getElem?_eq_some_iff.mp hi).1
    have key : ∀ i : Fin 26, uppers[i.val]? = (lowers[i.val]?).map toupper := by decide
    have := key ⟨i, hlt⟩
    rw [hi] at this; simpa using this
  · intro h
    rw [← C51_islower] at h
    simp [toupper, h]

/-- The full property of `isxdigit` is false: upper-case hexadecimal digits are missing. -/
theorem C51_isxdigit_false : ¬ ∀ c, isxdigit c = true ↔ c ∈ xdigits := by
  intro h; exact absurd ((h 65).mpr (by decide)) (by decide)

/-- Partial: right for every character but the upper-case letters A–F. -/
theorem C51_isxdigit_partial (c : Int) (h : c ∉ uppers) : isxdigit c = true ↔ c ∈ xdigits := by
  simp [isxdigit, isdigit, xdigits, uppers] at *; omega

/-- The full property of `iscntrl` is false: DEL is missing. -/
theorem C51_iscntrl_false : ¬ ∀ c, iscntrl c = true ↔ c ∈ cntrls := by
  intro h; exact absurd ((h 127).mpr (by decide)) (by decide)

/-- Partial: right for every character but DEL. -/
theorem C51_iscntrl_partial (c : Int) (h : c ≠ 127) : iscntrl c = true ↔ c ∈ cntrls := by
  simp [iscntrl, cntrls]; omega

example : isalnum 65 = true ∧ tolower 65 = 97 ∧ ispunct 47 = true ∧ isspace (-1) = false := by decide

end Mes.C
