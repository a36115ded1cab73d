import Verif.Spec.Bytes
import Verif.Spec.Numeral
import Verif.Spec.Format
/-
What `sscanf` does with a text that the whole template matches, after ISO C (7.21.6.2), independent of the model.  Covered are ordinary characters,
white space, and the conversions `%`, `c`, `d` and `u` without a width, with or without `l`.
-/
namespace Mes.Spec

/-- White space. -/
def White (c : UInt8) : Prop := c.toNat = 32 ∨ (9 ≤ c.toNat ∧ c.toNat ≤ 13)

instance (c : UInt8) : Decidable (White c) := inferInstanceAs (Decidable (_ ∨ _))

inductive ScanPiece where
  | byte (b : UInt8)
  | white (b : UInt8)
  | percent
  | char
  | int (long : Bool) (letter : UInt8)

/-- How it is written. -/
def ScanPiece.text : ScanPiece → List UInt8
  | .byte b => [b]
  | .white b => [b]
  | .percent => [37, 37]
  | .char => [37, 99]
  | .int long letter => 37 :: (if long then [108, letter] else [letter])

def scanText : List ScanPiece → List UInt8
  | [] => []
  | p :: ps => p.text ++ scanText ps

/-- The bytes of an `int` (or of a `long` of the same size) in memory, the least first. -/
def intBytes (v : Int) : List UInt8 :=
  [UInt8.ofNat (v % 256).toNat, UInt8.ofNat (v / 256 % 256).toNat, UInt8.ofNat (v / 65536 % 256).toNat, UInt8.ofNat (v / 16777216 % 256).toNat]

/-- A number with its sign. -/
def signedVal (sign : List UInt8) (n : Nat) : Int := if sign = [45] then -(n : Int) else n

/-- What may be in front of a match: `ws` white space, where a `%` or the white space of the template stand; and the values of numbers. -/
structure ScanLimits where
  skip : List UInt8 → Prop
  white : List UInt8 → Prop
  value : List UInt8 → Nat → Prop

/-- The template matches the text; the values, as bytes, are those that the conversions store. -/
inductive Scans (L : ScanLimits) : List ScanPiece → List UInt8 → List (List UInt8) → Prop
  | nil {s} : Scans L [] s []
  | byte {b ps s vs} (hb : b ≠ 37) (hw : ¬ White b) (h : Scans L ps s vs) : Scans L (.byte b :: ps) (b :: s) vs
  | white {b ws ps s vs} (hb : White b) (hw : ∀ c ∈ ws, White c) (hs : ∀ c, s.head? = some c → ¬ White c) (hl : L.white ws) (h : Scans L ps s vs) :
      Scans L (.white b :: ps) (ws ++ s) vs
  | percent {ws ps s vs} (hw : ∀ c ∈ ws, White c) (hl : L.skip ws) (h : Scans L ps s vs) : Scans L (.percent :: ps) (ws ++ 37 :: s) vs
  | char {b ps s vs} (h : Scans L ps s vs) : Scans L (.char :: ps) (b :: s) ([b] :: vs)
  | int {long letter ws sign ds ps s vs} (hc : letter = 100 ∨ letter = 117) (hw : ∀ c ∈ ws, White c) (hsign : sign = [] ∨ sign = [43] ∨ sign = [45])
      (hne : ds ≠ []) (hds : ∀ c ∈ ds, IsDigit 10 c) (hs : ∀ c, s.head? = some c → ¬ IsDigit 10 c) (hl : L.value sign (numVal 10 ds)) (h : Scans L ps s vs) :
      Scans L (.int long letter :: ps) (ws ++ (sign ++ (ds ++ s))) (intBytes (signedVal sign (numVal 10 ds)) :: vs)

/-- Memory after the values are stored. -/
def stores (m : List UInt8) : List Nat → List (List UInt8) → List UInt8
  | a :: as, v :: vs => stores (patch m a v) as vs
  | _, _ => m

/-- The values have their places in a memory of `size` bytes, outside of the `pn` bytes at `p` and the `tn` bytes at `t`. -/
def Places (size p pn t tn : Nat) : List Nat → List (List UInt8) → Prop
  | _, [] => True
  | [], _ :: _ => False
  | a :: as, v :: vs => a + v.length ≤ size ∧ Disjoint a v.length p pn ∧ Disjoint a v.length t tn ∧ Places size p pn t tn as vs

/-- The same piece for `printf`. -/
def ScanPiece.format : ScanPiece → FormatPiece
  | .byte b => .byte b
  | .white b => .byte b
  | .percent => .directive ⟨false, false, .absent, .absent, 0, 37⟩
  | .char => .directive ⟨false, false, .absent, .absent, 0, 99⟩
  | .int long letter => .directive ⟨false, false, .absent, .absent, if long then 1 else 0, letter⟩

/-- The texts of the pieces can be told from each other: a number is followed by something that does not begin with a digit, white space by something
that does not begin with white space, other characters are what they are, and the numbers are `%d`. -/
def ScanApart : List ScanPiece → Prop
  | [] => True
  | p :: ps => (match p, ps with
    | .int long letter, [] => long = false ∧ letter = 100
    | .int long letter, .byte b :: _ => long = false ∧ letter = 100 ∧ ¬ IsDigit 10 b
    | .int long letter, .white _ :: _ => long = false ∧ letter = 100
    | .int long letter, .percent :: _ => long = false ∧ letter = 100
    | .int _ _, _ => False
    | .white b, [] => White b
    | .white b, .white _ :: _ => False ∧ White b
    | .white b, .char :: _ => False ∧ White b
    | .white b, _ => White b
    | .byte b, _ => ¬ White b
    | _, _ => True) ∧ ScanApart ps

/-- The values of the arguments of `printf`, as bytes. -/
def printed : List ScanPiece → List Int → List (List UInt8)
  | .char :: ps, x :: xs => [UInt8.ofNat (x % 256).toNat] :: printed ps xs
  | .int _ _ :: ps, x :: xs => intBytes x :: printed ps xs
  | .byte _ :: ps, xs => printed ps xs
  | .white _ :: ps, xs => printed ps xs
  | .percent :: ps, xs => printed ps xs
  | _, _ => []

end Mes.Spec
