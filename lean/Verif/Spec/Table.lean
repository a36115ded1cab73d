import Verif.Spec.Text
/-
Hash tables in memory as finite maps, given by the list of all stores, the latest first.
-/
namespace Mes.Spec

/-- What the interpreter knows about a kind of keys: which addresses denote which key, and the text that is hashed. -/
structure Keys (α : Type) where
  at' : St → Int → α → Prop
  name : α → List Byte

/-- Strings, compared by their bytes (hash-ref, hash-set!). -/
def stringKeys : Keys (List Byte) := ⟨fun s p bs => IsString s p bs, id⟩

/-- Symbols, compared by identity (hashq-ref, hashq-set!); `name a` is the name of the symbol at `a`. -/
def symbolKeys (name : Int → List Byte) : Keys Int :=
  ⟨fun s p a => p = a ∧ HasText s p (name a) ∧ ((s.cell p).tag = .symbol ∨ (s.cell p).tag = .special), name⟩

/-- The number that is hashed: 37 times the first character plus 43 times the second one (characters are signed). -/
def hashSum : List Byte → Int
  | [] => 0
  | [a] => sc a * 37
  | a :: b :: _ => if a = 0 then 0 else sc a * 37 + sc b * 43

/-- The bucket of a key in a table of `n` buckets. -/
def slot (n : Nat) (bs : List Byte) : Nat := (hashSum bs).toNat % n

/-- The value stored last for the key. -/
def lookup {α : Type} [DecidableEq α] (k : α) : List (α × Int) → Option Int
  | [] => none
  | e :: H => if e.1 = k then some e.2 else lookup k H

/-- The entry cell at `e`: a pair of a key and a value. -/
def Entry {α : Type} (K : Keys α) (s : St) (e : Int) (kv : α × Int) : Prop :=
  s.Valid e ∧ (s.cell e).tag = .pair ∧ K.at' s (s.cell e).car kv.1 ∧ (s.cell e).cdr = kv.2

/-- A bucket with no entries holds *unspecified*, one with entries the list of them. -/
def Bucket {α : Type} (K : Keys α) (s : St) (p : Int) (H : List (α × Int)) : Prop :=
  if H = [] then p = c_unspecified else ListOf s (Entry K s) p H

/-- The address of the vector of buckets. -/
def bucketsOf (s : St) (t : Int) : Int := (s.cell ((s.cell t).cdr + 4)).car

/-- The hash table at `t` has `n` buckets and holds exactly the stores `H`. -/
structure IsTable {α : Type} (K : Keys α) (s : St) (t : Int) (n : Nat) (H : List (α × Int)) : Prop where
  valid : s.Valid t
  tag : (s.cell t).tag = .struct
  length : (s.cell t).car = 5
  size : IsNum s ((s.cell t).cdr + 3) n
  rvalid : s.Valid ((s.cell t).cdr + 4)
  rtag : (s.cell ((s.cell t).cdr + 4)).tag = .ref
  vvalid : s.Valid (bucketsOf s t)
  vtag : (s.cell (bucketsOf s t)).tag = .vector
  vlength : (s.cell (bucketsOf s t)).car = n
  pos : 0 < n
  small : n ≤ 2147483647
  apart : ∀ i : Nat, i < n → (s.cell (bucketsOf s t)).cdr + i ≠ (s.cell t).cdr + 4
  bvalid : ∀ i : Nat, i < n → s.Valid ((s.cell (bucketsOf s t)).cdr + i)
  btag : ∀ i : Nat, i < n → (s.cell ((s.cell (bucketsOf s t)).cdr + i)).tag = .ref
  bucket : ∀ i : Nat, i < n → Bucket K s (s.cell ((s.cell (bucketsOf s t)).cdr + i)).car
    (H.filter (fun e => slot n (K.name e.1) = i))
  ascii : ∀ e ∈ H, 0 ≤ hashSum (K.name e.1)
  fvalid : s.Valid c_f ∧ s.Valid c_unspecified
  ftag : (s.cell c_f).tag = .special ∧ (s.cell c_unspecified).tag = .special

/-- The cells a hash table is made of: the struct, the vector, the buckets with their entries and keys. -/
def Part (s : St) (t : Int) (n : Nat) (a : Int) : Prop :=
  a = t ∨ a = (s.cell t).cdr + 3 ∨ a = (s.cell t).cdr + 4 ∨ a = bucketsOf s t ∨
  ∃ i : Nat, i < n ∧ (a = (s.cell (bucketsOf s t)).cdr + i ∨
    (s.cell (s.cell ((s.cell (bucketsOf s t)).cdr + i)).car).tag = .pair ∧
    ∃ q, PairOf s (s.cell ((s.cell (bucketsOf s t)).cdr + i)).car q ∧ (a = q ∨ a = (s.cell q).car ∨
      a = (s.cell (s.cell q).car).car ∨ a = (s.cell (s.cell (s.cell q).car).car).cdr))

/-- The symbol table: every name ever stored, the latest first, with the address of its symbol. -/
structure SymTable (s : St) (n : Nat) (H : List (List Byte × Int)) : Prop where
  table : IsTable stringKeys s s.symbols n H
  named : ∀ e ∈ H, HasText s e.2 e.1 ∧ ((s.cell e.2).tag = .symbol ∨ (s.cell e.2).tag = .special)

end Mes.Spec
