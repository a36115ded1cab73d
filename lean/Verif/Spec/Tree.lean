import Verif.Spec.Text
/-
Data in memory as trees.
-/
namespace Mes.Spec

/-- What eq? tells apart: numbers and characters by value, keywords by name, everything else by identity. -/
inductive Atom where
  | num (n : Int)
  | chr (c : Int)
  | kw (name : List Byte)
  | obj (a : Int)
  deriving DecidableEq

/-- The address `p` denotes the atom. -/
inductive AtomAt (s : St) : Int → Atom → Prop
  | num {p n : Int} (h : IsNum s p n) : AtomAt s p (.num n)
  | chr {p n : Int} (h : IsChar s p n) : AtomAt s p (.chr n)
  | kw {p : Int} {bs : List Byte} (h : HasText s p bs) (ht : (s.cell p).tag = .keyword) : AtomAt s p (.kw bs)
  | obj {p : Int} (hv : s.Valid p) (hn : (s.cell p).tag ≠ .number) (hc : (s.cell p).tag ≠ .char)
      (hk : (s.cell p).tag ≠ .keyword) : AtomAt s p (.obj p)

/-- A datum: pairs, strings and vectors by their contents, everything else as an atom. -/
inductive Tree where
  | atom (a : Atom)
  | str (bs : List Byte)
  | pair (a d : Tree)
  | vec (es : List Tree)

/-- The element a vector cell stands for: numbers and characters are inline, other values are reached by a TREF. -/
def target (s : St) (p : Int) : Int := if (s.cell p).tag = .ref then (s.cell p).car else p

/-- The address `p` denotes the datum. -/
inductive Rep (s : St) : Int → Tree → Prop
  | atom {p : Int} {a : Atom} (h : AtomAt s p a) (h1 : (s.cell p).tag ≠ .pair) (h2 : (s.cell p).tag ≠ .string)
      (h3 : (s.cell p).tag ≠ .vector) (h4 : (s.cell p).tag ≠ .ref) : Rep s p (.atom a)
  | str {p : Int} {bs : List Byte} (h : IsString s p bs) : Rep s p (.str bs)
  | pair {p : Int} {a d : Tree} (hv : s.Valid p) (ht : (s.cell p).tag = .pair) (ha : Rep s (s.cell p).car a)
      (hd : Rep s (s.cell p).cdr d) : Rep s p (.pair a d)
  | vec {p : Int} {es : List Tree} (hv : s.Valid p) (ht : (s.cell p).tag = .vector) (hl : (s.cell p).car = es.length)
      (he : ∀ i : Nat, i < es.length → s.Valid ((s.cell p).cdr + i))
      (h : ∀ (i : Nat) (hi : i < es.length), Rep s (target s ((s.cell p).cdr + i)) es[i]) : Rep s p (.vec es)

mutual
/-- Number of calls that comparing the datum needs at most. -/
def Tree.size : Tree → Nat
  | .atom _ => 1
  | .str _ => 1
  | .pair a d => 1 + a.size + d.size
  | .vec es => 1 + sizes es
def sizes : List Tree → Nat
  | [] => 1
  | e :: es => 1 + e.size + sizes es
end

end Mes.Spec
