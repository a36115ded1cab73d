import Verif.Spec.Stream
import Verif.Model.CStdio
/-
Streams as a program sees them: the contents of the file, a position and perhaps a character that was pushed back.
-/
namespace Mes.Spec
open Mes.C

/-- The program sees the file `content` at position `pos` with the pushed back characters `pushed` (at most one). -/
structure StreamAt (s : Stream) (content : List UInt8) (pos : Nat) (pushed : Option UInt8) : Prop where
  sees : Sees s.fd content pos
  back : s.back = match pushed with
    | none => -1
    | some b => (b.toNat : Int)

/-- The bytes that are still to be read. -/
def input (content : List UInt8) (pos : Nat) (pushed : Option UInt8) : List UInt8 := pushed.toList ++ content.drop pos

/-- The bytes `l` are still to be read from the stream. -/
def Ahead (s : Stream) (content l : List UInt8) : Prop := ∃ pos pushed, StreamAt s content pos pushed ∧ l = input content pos pushed

/-- The first `n` bytes, or the first line if it is shorter, with its newline. -/
def lineOf : Nat → List UInt8 → List UInt8
  | 0, _ => []
  | _, [] => []
  | n + 1, b :: l => if b = 10 then [b] else b :: lineOf n l

/-- The lines of a text, in pieces of at most `n` bytes. -/
inductive Lines (n : Nat) : List UInt8 → List (List UInt8) → Prop
  | nil : Lines n [] []
  | cons {l ls} (h : l ≠ []) (p : Lines n (l.drop (lineOf n l).length) ls) : Lines n l (lineOf n l :: ls)

end Mes.Spec
