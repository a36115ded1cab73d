import Verif.Spec.Bytes
import Verif.Spec.Numeral
/-
What the text of a `printf` format and its arguments is, after ISO C (7.21.6.1), independent of the model.  Covered are the flags
`-` and `0`, widths and precisions, `l` and `ll`, and the conversions `%`, `c`, `d`, `i`, `o`, `u`, `x`, `X` and `s`.
-/
namespace Mes.Spec

/-- A field width or a precision in a format. -/
inductive Amount where
  | absent
  | digits (ds : List UInt8)
  | star

/-- A conversion specification. -/
structure Directive where
  left : Bool
  zero : Bool
  width : Amount
  precision : Amount
  longs : Nat
  letter : UInt8

/-- A format is a sequence of ordinary characters and conversion specifications. -/
inductive FormatPiece where
  | byte (b : UInt8)
  | directive (d : Directive)

/-- How it is written. -/
def Amount.text : Amount → List UInt8
  | .absent => []
  | .digits ds => ds
  | .star => [42]

/-- How a precision is written: after a period. -/
def Amount.precisionText : Amount → List UInt8
  | .absent => []
  | a => 46 :: a.text

def Directive.text (d : Directive) : List UInt8 :=
  37 :: ((if d.left then [45] else []) ++ ((if d.zero then [48] else []) ++ (d.width.text ++
    (d.precision.precisionText ++ (List.replicate d.longs 108 ++ [d.letter])))))

def FormatPiece.text : FormatPiece → List UInt8
  | .byte b => [b]
  | .directive d => d.text

def formatText : List FormatPiece → List UInt8
  | [] => []
  | p :: ps => p.text ++ formatText ps

/-- A width or precision is a number in the format, or the next argument, an `int`; `args'` are the arguments left. -/
inductive Amount.Given : Amount → (args : List Int) → (value : Option Int) → (args' : List Int) → Prop
  | absent {args} : Given .absent args none args
  | digits {ds args} (h : ∀ c ∈ ds, IsDigit 10 c) (hmax : numVal 10 ds < 2 ^ 31) : Given (.digits ds) args (some (numVal 10 ds : Nat)) args
  | star {n args} (h : -2 ^ 31 ≤ n) (h' : n < 2 ^ 31) : Given .star (n :: args) (some n) args

/-- A negative precision is taken as if there were none. -/
def usePrecision : Option Int → Option Nat
  | none => none
  | some n => if 0 ≤ n then some n.toNat else none

/-- The precision of an integer is the least number of digits; zero with precision zero has none. -/
def minDigits : Option Nat → List UInt8 → List UInt8
  | none, ds => ds
  | some p, ds => if p = 0 ∧ ds = [48] then [] else List.replicate (p - ds.length) 48 ++ ds

/-- The precision of a string is the largest number of characters. -/
def maxChars : Option Nat → List UInt8 → List UInt8
  | none, s => s
  | some p, s => s.take p

/-- The capital letters for `X`. -/
def capital (c : UInt8) : UInt8 := if 97 ≤ c.toNat ∧ c.toNat ≤ 122 then c - 32 else c

/-- Base of the unsigned conversions. -/
def unsignedBase (letter : UInt8) : Option Nat :=
  if letter = 111 then some 8 else if letter = 117 then some 10 else if letter = 120 ∨ letter = 88 then some 16 else none

/-- The sign and the other characters that a directive makes of the next arguments, before they are put into the field; `raw` are
these characters before the precision is applied.  The type `long` has `w` bits; `S a s` says that the address `a` points to the
string `s`. -/
inductive Converted (w : Nat) (S : Nat → List UInt8 → Prop) (d : Directive) (p : Option Nat) :
    (args : List Int) → (sign raw text : List UInt8) → (args' : List Int) → Prop
  | percent {args} (h : d = ⟨false, false, .absent, .absent, 0, 37⟩) : Converted w S d p args [] [37] [37] args
  | char {x : Int} {args} (h : d.letter = 99) (hz : d.zero = false) (hp : p = none) (hl : d.longs = 0) :
      Converted w S d p (x :: args) [] [UInt8.ofNat (x % 256).toNat] [UInt8.ofNat (x % 256).toNat] args
  | signed {x : Int} {args ds} (h : d.letter = 100 ∨ d.letter = 105)
      (hx : -(2 ^ ((if d.longs = 0 then 32 else w) - 1) : Nat) ≤ x ∧ x < (2 ^ ((if d.longs = 0 then 32 else w) - 1) : Nat))
      (hn : IsNumeral 10 x.natAbs ds) : Converted w S d p (x :: args) (if x < 0 then [45] else []) ds (minDigits p ds) args
  | unsigned {x : Int} {args ds base n} (h : unsignedBase d.letter = some base) (hr : -(2 ^ (w - 1) : Nat) ≤ x ∧ x < (2 ^ (w - 1) : Nat))
      (hn : n = (x % (2 ^ w : Nat)).toNat) (hx : n < 2 ^ (if d.longs = 0 then 32 else w)) (hd : IsNumeral base n ds) :
      Converted w S d p (x :: args) [] ds (if d.letter = 88 then (minDigits p ds).map capital else minDigits p ds) args
  | string {a args s} (h : d.letter = 115) (hz : d.zero = false) (hl : d.longs = 0) (ha : 0 < a) (hs : S a.toNat s) :
      Converted w S d p (a :: args) [] s (maxChars p s) args

/-- The field: blanks in front, or behind if it is to the left, or zeros after the sign. -/
def field (left zero : Bool) (width : Nat) (sign text : List UInt8) : List UInt8 :=
  let n := width - (sign ++ text).length
  if left then sign ++ text ++ List.replicate n 32
  else if zero then sign ++ List.replicate n 48 ++ text
  else List.replicate n 32 ++ (sign ++ text)

/-- The parts of one directive that a restriction can be about: its width and precision, the sign, and the characters before the
precision is applied. -/
abbrev Restriction := Directive → (width precision : Option Int) → (sign raw : List UInt8) → Prop

/-- The text of a directive. -/
structure Shows (R : Restriction) (w : Nat) (S : Nat → List UInt8 → Prop) (d : Directive) (args : List Int) (out : List UInt8) (args' : List Int) : Prop where
  width : d.width ≠ .digits [] ∧ ∀ ds, d.width ≠ .digits (48 :: ds)
  longs : d.longs ≤ 2
  shows : ∃ width args1 prec args2 sign raw text, d.width.Given args width args1 ∧ d.precision.Given args1 prec args2 ∧
    Converted w S d (usePrecision prec) args2 sign raw text args' ∧ R d width prec sign raw ∧
    out = field (d.left || decide (width.getD 0 < 0)) (d.zero && (usePrecision prec).isNone) (width.getD 0).natAbs sign text

/-- The text of a format. -/
inductive Renders (R : Restriction) (w : Nat) (S : Nat → List UInt8 → Prop) : List FormatPiece → (args : List Int) → (text : List UInt8) → Prop
  | nil {args} : Renders R w S [] args []
  | byte {b ps args text} (h0 : b ≠ 0) (h : b ≠ 37) (hr : Renders R w S ps args text) : Renders R w S (.byte b :: ps) args (b :: text)
  | directive {d ps args args' out text} (h : Shows R w S d args out args') (hr : Renders R w S ps args' text) :
      Renders R w S (.directive d :: ps) args (out ++ text)

/-- No restriction. -/
def Any : Restriction := fun _ _ _ _ _ => True

/-- The integer conversions. -/
def Directive.isInt (d : Directive) : Prop :=
  d.letter = 100 ∨ d.letter = 105 ∨ d.letter = 111 ∨ d.letter = 117 ∨ d.letter = 120 ∨ d.letter = 88

/-- The directives that this library gets right; `file` says whether it is about `vfprintf`.  Not among them: negative widths,
"`.`" without digits, negative precisions other than −1, zeros in front of a negative number or together with `-`, a precision or
`*`, a width for `%c`, a precision below the number of digits (cuts the number off), a precision for negative numbers, a precision
together with `-` above the number of digits, a precision of a string above its length (with `-` it is fine), and `%o` of numbers
whose top bit is set. -/
structure Handled (file : Prop) (w : Nat) (d : Directive) (width prec : Option Int) (sign raw : List UInt8) : Prop where
  nonneg : ∀ n, width = some n → 0 ≤ n
  smallWidth : ∀ ds, d.width = .digits ds → numVal 10 ds + 48 < 2 ^ 31
  smallPrecision : ∀ ds, d.precision = .digits ds → ds ≠ [] ∧ numVal 10 ds + 48 < 2 ^ 31
  precision : ∀ n, prec = some n → n < 2 ^ 31 - 1
  zero : d.zero = true → d.left = false ∧ d.precision = .absent ∧ sign = [] ∧ ∃ ds, d.width = .digits ds
  char : d.letter = 99 → ∀ n, width = some n → n ≤ 1
  int : d.isInt → (sign ++ raw).length ≤ 11 ∧ (d.letter = 111 → numVal 8 raw < 2 ^ (w - 1)) ∧
    ∀ n, prec = some n → n = -1 ∨ sign = [] ∧ (n = 0 ∧ raw = [48] ∨ raw.length ≤ n ∧ (d.left = true → n = raw.length))
  string : d.letter = 115 → raw.length < 2 ^ 31 - 1 ∧ ∀ n, prec = some n → n = -1 ∨ 0 ≤ n ∧
    (n ≤ raw.length ∨ d.left = true ∨ ¬ file ∧ width.getD 0 ≤ raw.length)

end Mes.Spec
