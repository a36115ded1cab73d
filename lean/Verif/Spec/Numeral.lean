/- Numerals as text, independent of the model. -/
namespace Mes.Spec

/-- Value of the digit character `c` (`0`–`9`, then `a`–`z`). -/
def digitVal (c : UInt8) : Option Nat :=
  if 48 ≤ c.toNat ∧ c.toNat ≤ 57 then some (c.toNat - 48)
  else if 97 ≤ c.toNat ∧ c.toNat ≤ 122 then some (c.toNat - 87)
  else none

/-- `c` is a digit of base `b`. -/
def IsDigit (b : Nat) (c : UInt8) : Prop := ∃ v, digitVal c = some v ∧ v < b

/-- Value of a digit string in base `b`, most significant digit first. -/
def numVal (b : Nat) (ds : List UInt8) : Nat := ds.foldl (fun a c => a * b + (digitVal c).getD 0) 0

/-- `ds` is the usual numeral of `n` in base `b`: at least one digit, all digits of base `b`, the right value, and no
leading zero unless it is the only digit. -/
structure IsNumeral (b n : Nat) (ds : List UInt8) : Prop where
  nonempty : ds ≠ []
  digits : ∀ c ∈ ds, IsDigit b c
  value : numVal b ds = n
  canonical : ds.head? = some 48 → ds = [48]

/-- `text` is the usual signed numeral of `x` in base `b`: a minus sign (only) in front of negative numbers. -/
def IsSigned (b : Nat) (x : Int) (text : List UInt8) : Prop :=
  (0 ≤ x ∧ IsNumeral b x.natAbs text) ∨ (x < 0 ∧ ∃ ds, text = 45 :: ds ∧ IsNumeral b x.natAbs ds)

instance (b : Nat) (c : UInt8) : Decidable (IsDigit b c) :=
  match h : digitVal c with
  | none => isFalse (by rintro ⟨v, hv, -⟩; rw [h] at hv; cases hv)
  | some v => if hv : v < b then isTrue ⟨v, h, hv⟩
    else isFalse (by rintro ⟨u, hu, hlt⟩; rw [h] at hu; cases hu; exact hv hlt)

end Mes.Spec
