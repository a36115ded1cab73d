import Verif.Spec.Bytes
import Verif.Model.CRead
/-
A descriptor as a program sees it: the contents of the file and a position.
-/
namespace Mes.Spec
open Mes.C

/-- The program sees the file `content` at position `pos`: the cache holds the bytes that the kernel has delivered and the
program has not yet got. -/
structure Sees (f : Fd) (content : List UInt8) (pos : Nat) : Prop where
  file : f.content = content
  place : f.pos = pos + f.size
  room : f.string.length = 128 ∧ f.max ≤ 128 ∧ f.size ≤ f.max
  cached : f.size = 0 ∨ pos + f.size ≤ content.length ∧ At f.string (f.max - f.size) (slice content pos f.size)

/-- No call of the system fails. -/
def NoErrors (g : Chunks) : Prop := ∀ t, g t ≠ none

/-- What a read of `size` bytes at position `pos` may give: the next bytes of the file, at least one unless none is asked for or there is
none. -/
structure Reads (content : List UInt8) (pos size n : Nat) : Prop where
  le : n ≤ size
  inside : n = 0 ∨ pos + n ≤ content.length
  progress : n = 0 → size = 0 ∨ content.length ≤ pos

/-- A program reads several times, each time into a new buffer. -/
def readMany (g : Chunks) (f : Fd) : List Nat → Res (List (List UInt8) × Fd)
  | [] => .ok ([], f)
  | size :: sizes => do
    let (n, f, m) ← C.read g f (List.replicate size 0) 0 size
    let (ls, f) ← readMany g f sizes
    .ok (m.take n.toNat :: ls, f)

end Mes.Spec
