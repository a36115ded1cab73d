import Verif.Spec.Numeral
/-
Numbers as bytes, and the data part of the M1 assembly language.
-/
namespace Mes.Spec

/-- The number that bytes stand for, the least significant first. -/
def leValue : List Int → Int
  | [] => 0
  | b :: bs => b + 256 * leValue bs

/-- The little-endian two's complement form of a number in `k` bytes. -/
structure Encodes (k : Nat) (v : Int) (bs : List Int) : Prop where
  length : bs.length = k
  bytes : ∀ b ∈ bs, 0 ≤ b ∧ b < 256
  value : leValue bs % 256 ^ k = v % 256 ^ k

/-- A hexadecimal number in M1: digits, zeros in front do not matter, possibly a minus sign before them. -/
def IsHex (x : Int) (text : List UInt8) : Prop :=
  ∃ ds, ds ≠ [] ∧ (∀ c ∈ ds, IsDigit 16 c) ∧ (text = ds ∧ x = numVal 16 ds ∨ text = 45 :: ds ∧ x = -(numVal 16 ds : Int))

/-- The number of bytes of a datum in M1: `!` one, `@` two, `%` four. -/
def m1Size : UInt8 → Option Nat
  | 33 => some 1
  | 64 => some 2
  | 37 => some 4
  | _ => none

/-- What an M1 text of data stands for: data like `!0x7f`, separated by spaces.  The assembler takes numbers that fit the size,
as signed or as unsigned numbers. -/
inductive Assembles : List UInt8 → List Int → Prop
  | one {c : UInt8} {text : List UInt8} {k : Nat} {x : Int} {bs : List Int} (hc : m1Size c = some k) (hx : IsHex x text)
      (hl : -(256 ^ k) ≤ 2 * x) (hu : x < 256 ^ k) (hb : Encodes k x bs) : Assembles (c :: 48 :: 120 :: text) bs
  | more {t u : List UInt8} {bs cs : List Int} (h : Assembles t bs) (h' : Assembles u cs) : Assembles (t ++ 32 :: u) (bs ++ cs)

/-! ### Numbers as text -/

/-- The characters that may occur in a number: digits, the letters of hexadecimal digits, the point, the sign, and `#x`. -/
def NumberChar (c : UInt8) : Prop := (48 ≤ c ∧ c ≤ 57) ∨ (97 ≤ c ∧ c ≤ 102) ∨ (65 ≤ c ∧ c ≤ 70) ∨ c = 46 ∨ c = 45 ∨ c = 35 ∨ c = 120

/-- A digit in the given radix, as `string->number` takes it. -/
def RadixDigit (radix : Int) (c : UInt8) : Prop := (48 ≤ c ∧ c ≤ 57) ∨ radix = 16 ∧ ((97 ≤ c ∧ c ≤ 102) ∨ (65 ≤ c ∧ c ≤ 70))

/-- The small letter for a capital one. -/
def small (c : UInt8) : UInt8 := if 65 ≤ c ∧ c ≤ 70 then c + 32 else c

end Mes.Spec
