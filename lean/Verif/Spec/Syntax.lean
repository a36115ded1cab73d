import Verif.Spec.Table
import Verif.Spec.Tree
import Verif.Spec.Numeral
/-
External representation: data, their texts, and what they are in memory.
-/
namespace Mes.Spec

/-- A datum, with symbols by name. -/
inductive Datum where
  | nil
  | bool (b : Bool)
  | num (n : Int)
  | chr (c : Int)
  | str (bs : List Byte)
  | sym (name : List Byte)
  | kw (name : List Byte)
  | pair (a d : Datum)
  | vec (es : List Datum)

/-- The proper list of the data. -/
def Datum.list : List Datum → Datum
  | [] => .nil
  | e :: es => .pair e (list es)

/-- The address `p` denotes the datum; `H` gives the symbols by their names, and no element cell of a vector is in `P`. -/
inductive Den (s : St) (H : List (List Byte × Int)) (P : Int → Prop) : Int → Datum → Prop
  | nil : Den s H P c_nil .nil
  | bool (b : Bool) : Den s H P (if b then c_t else c_f) (.bool b)
  | num {p n : Int} (h : IsNum s p n) : Den s H P p (.num n)
  | chr {p n : Int} (h : IsChar s p n) (hr : -2147483648 ≤ n ∧ n ≤ 2147483647) : Den s H P p (.chr n)
  | str {p : Int} {bs : List Byte} (h : IsString s p bs) : Den s H P p (.str bs)
  | sym {p : Int} {name : List Byte} (h : HasText s p name) (ht : (s.cell p).tag = .symbol ∨ (s.cell p).tag = .special)
      (hl : lookup name H = some p) (hne : name ≠ [35, 102]) : Den s H P p (.sym name)
  | kw {p : Int} {name : List Byte} (h : HasText s p name) (ht : (s.cell p).tag = .keyword) : Den s H P p (.kw name)
  | pair {p : Int} {a d : Datum} (hv : s.Valid p) (ht : (s.cell p).tag = .pair) (ha : Den s H P (s.cell p).car a)
      (hd : Den s H P (s.cell p).cdr d) : Den s H P p (.pair a d)
  | vec {p : Int} {es : List Datum} (hv : s.Valid p) (ht : (s.cell p).tag = .vector) (hl : (s.cell p).car = es.length)
      (he : ∀ i : Nat, i < es.length → s.Valid ((s.cell p).cdr + i) ∧ ¬ P ((s.cell p).cdr + i))
      (h : ∀ (i : Nat) (hi : i < es.length), Den s H P (target s ((s.cell p).cdr + i)) es[i]) :
      Den s H P p (.vec es)

/-- Characters that end a word: the white space characters, parentheses, the double quote and the semicolon. -/
def IsDelimiter (b : Byte) : Prop :=
  b = 9 ∨ b = 10 ∨ b = 11 ∨ b = 12 ∨ b = 13 ∨ b = 32 ∨ b = 34 ∨ b = 40 ∨ b = 41 ∨ b = 59

/-- The text is at its end or goes on with a delimiter. -/
def Ends : List Byte → Prop
  | [] => True
  | b :: _ => IsDelimiter b

instance (b : Byte) : Decidable (IsDelimiter b) := by unfold IsDelimiter; infer_instance
instance (bs : List Byte) : Decidable (Ends bs) := by cases bs <;> unfold Ends <;> infer_instance

/-- A decimal digit. -/
def IsDec (b : Byte) : Prop := IsDigit 10 b
instance (b : Byte) : Decidable (IsDec b) := by unfold IsDec; infer_instance

/-- The largest magnitude of a number that the reader computes without passing the range of `long`: it adds the code of the
next digit before it subtracts up to 87 again. -/
def maxLiteral : Nat := 9223372036854775720

/-- A word: one or more characters, none of them a delimiter or NUL, and the table of symbols can hash it. -/
structure WordText (m : Nat) (name : List Byte) : Prop where
  nonempty : name ≠ []
  chars : ∀ b ∈ name, ¬ IsDelimiter b ∧ b ≠ 0
  short : name.length < m
  hash : 0 ≤ hashSum name

/-- It does not look like a number: it has a character that is not a digit, and it is not a sign followed by a digit.  (The
reader computes the number that the leading digits stand for in any case.) -/
structure NotNumeric (name : List Byte) : Prop where
  nondigit : ∃ b ∈ name, ¬ IsDec b
  sign : ∀ b d r, name = b :: d :: r → b = 43 ∨ b = 45 → ¬ IsDec d
  lead : numVal 10 (name.takeWhile (fun b => decide (IsDec b))) ≤ maxLiteral

/-- The text of a symbol: a word that does not look like a number, and does not begin like another kind of datum. -/
structure Ident (m : Nat) (name : List Byte) : Prop extends WordText m name, NotNumeric name where
  first : ∀ b r, name = b :: r → b ≠ 35 ∧ b ≠ 39 ∧ b ≠ 44 ∧ b ≠ 96
  dot : ∀ r, name = 46 :: r → ∃ c r', r = c :: r' ∧ 32 < c.toNat ∧ c.toNat ≤ 126

/-- The escapes in strings: the character behind the backslash and what it stands for. -/
def stringEscapes : List (Byte × Byte) :=
  [(92, 92), (34, 34), (48, 0), (97, 7), (98, 8), (116, 9), (110, 10), (118, 11), (102, 12), (114, 13), (101, 27)]

/-- `t` is a text between double quotes for the bytes `bs`: each byte other than the double quote and the backslash for
itself, or an escape. -/
inductive StringBody : List Byte → List Byte → Prop
  | nil : StringBody [] []
  | plain {b : Byte} {bs t : List Byte} (h1 : b ≠ 34) (h2 : b ≠ 92) (h : StringBody bs t) : StringBody (b :: bs) (b :: t)
  | escape {c b : Byte} {bs t : List Byte} (he : (c, b) ∈ stringEscapes) (h : StringBody bs t) :
      StringBody (b :: bs) (92 :: c :: t)

/-- Names of characters. -/
def characterNames : List (List Byte × Int) :=
  [([110, 117, 108], 0), ([97, 108, 97, 114, 109], 7), ([98, 97, 99, 107, 115, 112, 97, 99, 101], 8),
   ([116, 97, 98], 9), ([108, 105, 110, 101, 102, 101, 101, 100], 10), ([110, 101, 119, 108, 105, 110, 101], 10),
   ([118, 116, 97, 98], 11), ([112, 97, 103, 101], 12), ([114, 101, 116, 117, 114, 110], 13), ([101, 115, 99], 27),
   ([115, 112, 97, 99, 101], 32), ([98, 101, 108], 7), ([98, 115], 8), ([104, 116], 9), ([118, 116], 11),
   ([99, 114], 13), ([42, 101, 111, 102, 42], -1)]

/-- The prefixes that stand for a list of two elements, and the first element. -/
def quotes : List (List Byte × List Byte × Int) :=
  [([39], [113, 117, 111, 116, 101], c_symbol_quote),
   ([96], [113, 117, 97, 115, 105, 113, 117, 111, 116, 101], c_symbol_quasiquote),
   ([44], [117, 110, 113, 117, 111, 116, 101], c_symbol_unquote),
   ([44, 64], [117, 110, 113, 117, 111, 116, 101, 45, 115, 112, 108, 105, 99, 105, 110, 103], c_symbol_unquote_splicing),
   ([35, 39], [115, 121, 110, 116, 97, 120], c_symbol_syntax),
   ([35, 96], [113, 117, 97, 115, 105, 115, 121, 110, 116, 97, 120], c_symbol_quasisyntax),
   ([35, 44], [117, 110, 115, 121, 110, 116, 97, 120], c_symbol_unsyntax),
   ([35, 44, 64], [117, 110, 115, 121, 110, 116, 97, 120, 45, 115, 112, 108, 105, 99, 105, 110, 103],
     c_symbol_unsyntax_splicing)]

/-- Value of a hexadecimal digit, in either case. -/
def hexVal (b : Byte) : Option Nat :=
  if 65 ≤ b.toNat ∧ b.toNat ≤ 70 then some (b.toNat - 55) else if 16 ≤ (digitVal b).getD 16 then none else digitVal b

/-- The letters of the radix prefixes. -/
def radixes : List (Byte × Nat) := [(98, 2), (111, 8), (120, 16)]

/-- Value of a text of digits in base `b`, upper case letters allowed. -/
def radixVal (b : Nat) (ds : List Byte) : Nat := ds.foldl (fun a c => a * b + (hexVal c).getD 0) 0

/-- The space that can be anywhere inside a list: white space and comments. -/
inductive Space : List Byte → Prop
  | none : Space []
  /-- any white space character -/
  | white {b : Byte} {g : List Byte} (hb : b = 9 ∨ b = 10 ∨ b = 11 ∨ b = 12 ∨ b = 13 ∨ b = 32) (h : Space g) : Space (b :: g)
  /-- a comment up to the end of the line -/
  | line {cs g : List Byte} (hcs : 10 ∉ cs) (h : Space g) : Space (59 :: cs ++ 10 :: g)
  /-- a block comment, `#| ... |#` or `#! ... !#` -/
  | block {t : Byte} {cs g : List Byte} (ht : t = 33 ∨ t = 124) (hcs : ¬ [t, 35] <:+: cs ++ [t]) (h : Space g) :
      Space (35 :: t :: cs ++ t :: 35 :: g)

/-- What can be written: a datum (`last` when the text could go on, so that a delimiter has to follow), the inside of a
list up to the closing parenthesis, the same for the part behind the last element, or the space in front of a
datum. -/
inductive Form where
  | datum (d : Datum) (last : Bool)
  | tail (d : Datum)
  | dotted (d : Datum)
  | gap

/-- The texts.  `m` is the greatest length of a string or a name. -/
inductive Written (m : Nat) : Form → List Byte → Prop
  /-- no space -/
  | noGap : Written m .gap []
  /-- blank, tab, newline or form feed -/
  | blank {b : Byte} {g : List Byte} (hb : b = 32 ∨ b = 9 ∨ b = 10 ∨ b = 12) (h : Written m .gap g) : Written m .gap (b :: g)
  /-- a comment up to the end of the line -/
  | line {cs g : List Byte} (hcs : 10 ∉ cs) (h : Written m .gap g) : Written m .gap (59 :: cs ++ 10 :: g)
  /-- a block comment, `#| ... |#` or `#! ... !#` -/
  | block {t : Byte} {cs g : List Byte} (ht : t = 33 ∨ t = 124) (hcs : ¬ [t, 35] <:+: cs ++ [t]) (h : Written m .gap g) :
      Written m .gap (35 :: t :: cs ++ t :: 35 :: g)
  /-- a datum that is commented out by `#;` -/
  | skip {g1 t g2 : List Byte} {d : Datum} {last : Bool} (h1 : Written m .gap g1) (h2 : Written m (.datum d last) t)
      (hs : last → g2 ≠ [] ∧ Ends g2) (h3 : Written m .gap g2) : Written m .gap (35 :: 59 :: g1 ++ t ++ g2)
  | bool (b : Bool) : Written m (.datum (.bool b) false) [35, if b then 116 else 102]
  /-- an optional sign and decimal digits -/
  | num {ds : List Byte} (sign : Option Bool) (hds : ds ≠ []) (hd : ∀ c ∈ ds, IsDec c) (hl : ds.length ≤ m)
      (hv : numVal 10 ds ≤ maxLiteral) :
      Written m (.datum (.num (if sign = some true then -(numVal 10 ds) else numVal 10 ds)) true)
        ((match sign with | none => [] | some true => [45] | some false => [43]) ++ ds)
  /-- `#b`, `#o` or `#x`, an optional minus sign, and digits -/
  | radix {c : Byte} {base : Nat} {ds : List Byte} (neg : Bool) (hc : (c, base) ∈ radixes) (hds : ds ≠ [])
      (hd : ∀ c ∈ ds, ∃ v, hexVal c = some v ∧ v < base) (hv : radixVal base ds ≤ maxLiteral) :
      Written m (.datum (.num (if neg then -(radixVal base ds) else radixVal base ds)) true)
        ([35, c] ++ (if neg then [45] else []) ++ ds)
  /-- `#\` and any one character -/
  | chr (b : Byte) : Written m (.datum (.chr (code b)) true) [35, 92, b]
  | chrName {name : List Byte} {c : Int} (h : (name, c) ∈ characterNames) :
      Written m (.datum (.chr c) true) ([35, 92] ++ name)
  | str {bs t : List Byte} (h : StringBody bs t) (hl : bs.length < m) :
      Written m (.datum (.str bs) false) ([34] ++ t ++ [34])
  | sym {name : List Byte} (h : Ident m name) : Written m (.datum (.sym name) true) name
  | kw {name : List Byte} (h : WordText m name) (h' : NotNumeric name) : Written m (.datum (.kw name) true) ([35, 58] ++ name)
  /-- `'d` and the like -/
  | quote {p name g t : List Byte} {a : Int} {d : Datum} {last : Bool} (hq : (p, name, a) ∈ quotes) (h1 : Written m .gap g)
      (h2 : Written m (.datum d last) t) (hat : p.getLast? = some 44 → (g ++ t).head? ≠ some 64) :
      Written m (.datum (.pair (.sym name) (.pair d .nil)) last) (p ++ g ++ t)
  | list {r : List Byte} {d : Datum} (h : Written m (.tail d) r) : Written m (.datum d false) (40 :: r)
  | vec {r : List Byte} {es : List Datum} (h : Written m (.tail (.list es)) r) :
      Written m (.datum (.vec es) false) (35 :: 40 :: r)
  | close {w : List Byte} (h : Space w) : Written m (.tail .nil) (w ++ [41])
  | element {w g t r : List Byte} {a d : Datum} {last : Bool} (h1 : Space w) (h2 : Written m .gap g)
      (hg : g = [] ∨ ∃ g', g = 35 :: 59 :: g') (h3 : Written m (.datum a last) t) (hs : last → Ends r)
      (h4 : Written m (.tail d) r) : Written m (.tail (.pair a d)) (w ++ g ++ t ++ r)
  | lastElement {w g t r : List Byte} {a d : Datum} {last : Bool} (h1 : Space w) (h2 : Written m .gap g)
      (hg : g = [] ∨ ∃ g', g = 35 :: 59 :: g') (h3 : Written m (.datum a last) t) (hs : last → Ends r)
      (h4 : Written m (.dotted d) r) : Written m (.tail (.pair a d)) (w ++ g ++ t ++ r)
  | dotted {w1 w2 g t w3 : List Byte} {d : Datum} {last : Bool} (h1 : Space w1) (h2 : Space w2)
      (h3 : Written m .gap g) (hg : g = [] ∨ ∃ g', g = 35 :: 59 :: g') (h4 : Written m (.datum d last) t)
      (hs : last → Ends (w3 ++ [41])) (h5 : Space w3)
      (hd : ∀ b, (w2 ++ g ++ t).head? = some b → ¬ (32 < b.toNat ∧ b.toNat ≤ 126) ∨ b = 34 ∨ b = 59 ∨ b = 40) :
      Written m (.dotted d) (w1 ++ [46] ++ w2 ++ g ++ t ++ w3 ++ [41])

/-- The text of several data, with space between them as needed. -/
inductive Program (m : Nat) : List Datum → List Byte → Prop
  | done {g : List Byte} (h : Written m .gap g) : Program m [] g
  | more {g t r : List Byte} {d : Datum} {ds : List Datum} {last : Bool} (h1 : Written m .gap g)
      (h2 : Written m (.datum d last) t) (hs : last → Ends r) (h : Program m ds r) : Program m (d :: ds) (g ++ t ++ r)

end Mes.Spec
