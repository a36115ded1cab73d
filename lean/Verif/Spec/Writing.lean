import Verif.Spec.Reading
/-
Which data the printer writes so that the reader can read them back, and what the printer relies on.
-/
namespace Mes.Spec

/-- The name holds no character that the printer writes with a backslash. -/
def Plain (name : List Byte) : Prop := ∀ b ∈ name, b ≠ 7 ∧ b ≠ 8 ∧ b ≠ 27 ∧ b ≠ 92

/-- The name of the special object that marks the start of an environment: `*circular*`. -/
def circularName : List Byte := [42, 99, 105, 114, 99, 117, 108, 97, 114, 42]

/-- The data that can be written and read back: numbers of 32 bits; the white space and control characters that have a name,
and the printable characters; symbols and keywords that need no escapes; no pair with the symbol `*circular*` in
front. -/
inductive Writable (m : Nat) : Datum → Prop
  | nil : Writable m .nil
  | bool (b : Bool) : Writable m (.bool b)
  | num {n : Int} (h : -2147483648 ≤ n ∧ n ≤ 2147483647) : Writable m (.num n)
  | chr {c : Int} (h : c = 0 ∨ (7 ≤ c ∧ c ≤ 13) ∨ (32 ≤ c ∧ c ≤ 127)) : Writable m (.chr c)
  | str {bs : List Byte} (h : bs.length < m) : Writable m (.str bs)
  | sym {name : List Byte} (h : Ident m name) (hp : Plain name) : Writable m (.sym name)
  | kw {name : List Byte} (h : WordText m name) (h' : NotNumeric name) (hp : Plain name) : Writable m (.kw name)
  | pair {a d : Datum} (ha : Writable m a) (hd : Writable m d) (hc : a ≠ .sym circularName) : Writable m (.pair a d)
  | vec {es : List Datum} (h : ∀ e ∈ es, Writable m e) : Writable m (.vec es)

/-- The predefined objects have their texts. -/
structure Printable (s : St) : Prop where
  fixed : Fixed s
  nil : HasText s c_nil [40, 41]
  tru : HasText s c_t [35, 116]
  fls : HasText s c_f [35, 102]
  circ : HasText s c_circular circularName

end Mes.Spec
