import Verif.Spec.Heap
/-
What is reachable, what a sound memory is, and when two memories hold the same data.
-/
namespace Mes.Spec

/-- The first word of a cell of this type is an address. -/
def refCar : Tag → Bool
  | .pair | .ref | .variable | .macro => true
  | _ => false

/-- The second word of a cell of this type is the address of an object. -/
def refCdr : Tag → Bool
  | .pair | .macro | .closure | .continuation | .keyword | .port | .special | .string | .symbol | .values => true
  | _ => false

/-- The cell is the head of a block of cells: the first word is their number, the second word the address of the first. -/
def isBlock : Tag → Bool
  | .vector | .struct => true
  | _ => false

/-- The number of cells of an object: a block counts its head and its elements. -/
def size (s : St) (a : Int) : Nat :=
  if isBlock (s.cell a).tag then 1 + (s.cell a).car.toNat
  else if (s.cell a).tag = .bytes then (bytesCells (s.cell a).bytes.length).toNat
  else 1

/-- `x` is one of the cells of the object at `a`. -/
def Owns (s : St) (a x : Int) : Prop :=
  x = a ∨ (isBlock (s.cell a).tag ∧ (s.cell a).cdr ≤ x ∧ x < (s.cell a).cdr + (s.cell a).car) ∨
    ((s.cell a).tag = .bytes ∧ a ≤ x ∧ x < a + bytesCells (s.cell a).bytes.length)

/-- The addresses the collector starts from: the predefined cells, the global tables, the registers, and the stack. -/
inductive Root (s : St) : Int → Prop
  | fixed {a : Int} (h : c_nil ≤ a) (h' : a < c_symbol_max) : Root s a
  | symbols : Root s s.symbols
  | macros : Root s s.macros
  | ports : Root s s.ports
  | m0 : Root s s.m0
  | r0 : Root s s.r0
  | r1 : Root s s.r1
  | r2 : Root s s.r2
  | r3 : Root s s.r3
  | stack {i : Int} (h : s.sp ≤ i) (h' : i < s.stackSize) : Root s (s.stack i)

/-- The object at this address can be reached from the roots. -/
inductive Reach (s : St) : Int → Prop
  | root {a : Int} (h : Root s a) : Reach s a
  | car {a : Int} (h : Reach s a) (ht : refCar (s.cell a).tag) : Reach s (s.cell a).car
  | cdr {a : Int} (h : Reach s a) (ht : refCdr (s.cell a).tag) : Reach s (s.cell a).cdr
  | element {a : Int} {i : Nat} (h : Reach s a) (ht : isBlock (s.cell a).tag) (hi : i < (s.cell a).car)
      (he : (s.cell ((s.cell a).cdr + i)).tag = .ref) : Reach s (s.cell ((s.cell a).cdr + i)).car

/-- A memory that is sound as far as the objects in `P` are concerned. -/
structure SoundOn (P : Int → Prop) (s : St) : Prop where
  base : c_symbol_max ≤ s.free
  fixed : Fixed s
  /-- every such object lies in the allocated part of the arena, -/
  inside : ∀ a, P a → ∀ x, Owns s a x → c_nil ≤ x ∧ x < s.free
  /-- different objects do not overlap, -/
  disjoint : ∀ a b x, P a → P b → Owns s a x → Owns s b x → a = b
  /-- the head of a block is not one of its elements, -/
  head : ∀ a, P a → isBlock (s.cell a).tag → ¬ ((s.cell a).cdr ≤ a ∧ a < (s.cell a).cdr + (s.cell a).car)
  /-- blocks have a length, -/
  length : ∀ a, P a → isBlock (s.cell a).tag → 0 ≤ (s.cell a).car
  /-- their elements are numbers, characters or references, -/
  plain : ∀ a, P a → isBlock (s.cell a).tag → ∀ i : Nat, i < (s.cell a).car →
    (s.cell ((s.cell a).cdr + i)).tag = .ref ∨ (s.cell ((s.cell a).cdr + i)).tag = .number ∨
    (s.cell ((s.cell a).cdr + i)).tag = .char
  /-- byte objects know their length, -/
  bytes : ∀ a, P a → (s.cell a).tag = .bytes → (s.cell a).car = (s.cell a).bytes.length
  /-- and no others have any, -/
  blank : ∀ a, P a → (s.cell a).tag ≠ .bytes → (s.cell a).bytes = []
  /-- and no object is a left-over of a collection. -/
  whole : ∀ a, P a → (s.cell a).tag ≠ .brokenHeart
  sp : 0 ≤ s.sp ∧ s.sp ≤ s.stackSize

/-- A sound memory: all reachable objects are as they should be. -/
abbrev Sound (s : St) : Prop := SoundOn (Reach s) s

/-- The cell `c'` holds the same data as the cell `c`, when objects are at the addresses given by `f`. -/
structure SameCell (f : Int → Int) (c c' : Cell) : Prop where
  tag : c'.tag = c.tag
  car : c'.car = if refCar c.tag then f c.car else c.car
  cdr : isBlock c.tag = false → c.tag ≠ .bytes → c'.cdr = if refCdr c.tag then f c.cdr else c.cdr
  bytes : c.tag = .bytes → c'.bytes = c.bytes

/-- The memory `s'` holds the same data as `s`, as far as the objects in `P` are concerned: every such object has a
counterpart, at the address given by `f`, with the same type and the same contents; different objects have different
counterparts; the predefined cells stay where they are; and so the roots are the counterparts of the roots. -/
structure IsoOn (P : Int → Prop) (f : Int → Int) (s s' : St) : Prop where
  cell : ∀ a, P a → SameCell f (s.cell a) (s'.cell (f a))
  element : ∀ a, P a → isBlock (s.cell a).tag → ∀ i : Nat, i < (s.cell a).car →
    SameCell f (s.cell ((s.cell a).cdr + i)) (s'.cell ((s'.cell (f a)).cdr + i))
  inj : ∀ a b, P a → P b → f a = f b → a = b
  fixed : ∀ a, c_nil ≤ a → a < c_symbol_max → f a = a
  symbols : s'.symbols = f s.symbols
  macros : s'.macros = f s.macros
  ports : s'.ports = f s.ports
  m0 : s'.m0 = f s.m0
  r0 : s'.r0 = f s.r0
  r1 : s'.r1 = f s.r1
  r2 : s'.r2 = f s.r2
  r3 : s'.r3 = f s.r3
  sp : s'.sp = s.sp
  stackSize : s'.stackSize = s.stackSize
  stack : ∀ i, s.sp ≤ i → i < s.stackSize → s'.stack i = f (s.stack i)
  arena : s'.arena = s.arena
  safety : s'.safety = s.safety
  limit : s'.limit = s.limit
  maxString : s'.maxString = s.maxString
  continuations : s'.continuations = s.continuations

/-- The memory `s'` holds the same data as `s`. -/
abbrev Iso (f : Int → Int) (s s' : St) : Prop := IsoOn (Reach s) f s s'

open Classical in
/-- The reachable objects, by address. -/
noncomputable def live (s : St) : List Int :=
  ((List.range s.free.toNat).map Int.ofNat).filter (fun a => decide (Reach s a))

/-- The number of cells the reachable objects take. -/
noncomputable def liveSize (s : St) : Nat := ((live s).map (size s)).sum

/-! ### Access paths -/

/-- The name of a root. -/
inductive RootName where
  | fixed (a : Int) | symbols | macros | ports | m0 | r0 | r1 | r2 | r3 | stack (i : Int)

/-- The value of a root. -/
def rootAt (s : St) : RootName → Option Int
  | .fixed a => if c_nil ≤ a ∧ a < c_symbol_max then some a else none
  | .symbols => some s.symbols
  | .macros => some s.macros
  | .ports => some s.ports
  | .m0 => some s.m0
  | .r0 => some s.r0
  | .r1 => some s.r1
  | .r2 => some s.r2
  | .r3 => some s.r3
  | .stack i => if s.sp ≤ i ∧ i < s.stackSize then some (s.stack i) else none

/-- One step of an access path: to the object in the first word, in the second word, or in an element. -/
inductive Move where
  | car | cdr | element (i : Nat)

def move (s : St) (a : Int) : Move → Option Int
  | .car => if refCar (s.cell a).tag then some (s.cell a).car else none
  | .cdr => if refCdr (s.cell a).tag then some (s.cell a).cdr else none
  | .element i =>
    if isBlock (s.cell a).tag ∧ (i : Int) < (s.cell a).car ∧ (s.cell ((s.cell a).cdr + i)).tag = .ref
    then some (s.cell ((s.cell a).cdr + i)).car else none

/-- The object at the end of an access path, if the path exists. -/
def follow (s : St) (a : Int) : List Move → Option Int
  | [] => some a
  | m :: p => (move s a m).bind (fun b => follow s b p)

/-- The object at the end of a path that starts at a root. -/
def lookPath (s : St) (r : RootName) (p : List Move) : Option Int := (rootAt s r).bind (fun a => follow s a p)

/-- The data in a cell that are not addresses: the type, and the words that hold a number. -/
def wordsAt (s : St) (a : Int) : Tag × Option Int × Option Int :=
  ((s.cell a).tag, if refCar (s.cell a).tag then none else some (s.cell a).car,
    if refCdr (s.cell a).tag ∨ isBlock (s.cell a).tag ∨ (s.cell a).tag = .bytes then none else some (s.cell a).cdr)

/-- The data in an object that are not addresses: those of its cell, its bytes, and those of its elements. -/
def view (s : St) (a : Int) : (Tag × Option Int × Option Int) × List Byte × List (Tag × Option Int × Option Int) :=
  (wordsAt s a, if (s.cell a).tag = .bytes then (s.cell a).bytes else [],
    if isBlock (s.cell a).tag then (List.range (s.cell a).car.toNat).map (fun i : Nat => wordsAt s ((s.cell a).cdr + (i : Int))) else [])

/-- Nothing a program can see differs: the same paths exist, they lead to the same data, and two paths lead to the same
object in `s'` exactly when they do in `s`. -/
structure SameGraph (s s' : St) : Prop where
  data : ∀ r p, (lookPath s' r p).map (view s') = (lookPath s r p).map (view s)
  sharing : ∀ r p r' p', lookPath s' r p = lookPath s' r' p' ↔ lookPath s r p = lookPath s r' p'

end Mes.Spec
