import Verif.Model.CDir
import Verif.Spec.Path
/- Directories as Linux presents them: records of `struct linux_dirent`, in blocks. -/
namespace Mes.Spec
open C Res

/-- The `n` bytes of a number, the least first. -/
def littleEndian : Nat → Nat → List UInt8
  | 0, _ => []
  | n + 1, v => UInt8.ofNat (v % 256) :: littleEndian n (v / 256)

/-- An entry of a directory; the inode 0 means that the file was deleted.  `pad` is what follows the name up to the next entry. -/
structure DirRecord where
  ino : Nat
  off : Nat
  name : List UInt8
  pad : List UInt8

def DirRecord.length (w : Nat) (r : DirRecord) : Nat := 2 * w + 2 + r.name.length + 1 + r.pad.length

/-- `struct linux_dirent`: inode, offset, length of the record, name. -/
def DirRecord.bytes (w : Nat) (r : DirRecord) : List UInt8 :=
  littleEndian w r.ino ++ (littleEndian w r.off ++ (littleEndian 2 (r.length w) ++ (r.name ++ 0 :: r.pad)))

/-- The numbers fit in their fields, and the name is a name. -/
structure DirRecord.Fits (w : Nat) (r : DirRecord) : Prop where
  ino : r.ino < 256 ^ w
  off : r.off < 256 ^ w
  length : r.length w < 65536
  name : ∀ b ∈ r.name, b ≠ 0

/-- What a directory has to say: entries, and errors when it is read. -/
inductive DirItem where
  | entry (r : DirRecord)
  | failure (errno : Int)

/-- A deleted entry. -/
def DirItem.deleted : DirItem → Bool
  | .entry r => r.ino = 0
  | .failure _ => false

/-- A block of entries, or an error. -/
inductive DirBlock where
  | entries (rs : List DirRecord)
  | failure (errno : Int)

def DirBlock.items : DirBlock → List DirItem
  | .entries rs => rs.map .entry
  | .failure e => [.failure e]

def DirBlock.answer (w : Nat) : DirBlock → DirAnswer
  | .entries rs => .block (rs.flatMap (DirRecord.bytes w))
  | .failure e => .failure e

/-- A block has at least one entry and is not larger than the buffer. -/
def DirBlock.Ok (w allocation : Nat) : DirBlock → Prop
  | .entries rs => rs ≠ [] ∧ (∀ r ∈ rs, r.Fits w) ∧ (rs.flatMap (DirRecord.bytes w)).length ≤ allocation
  | .failure _ => True

/-- The stream `d`, with the answers `as` to come, still has these items: first those in its buffer, then those of the blocks, however they were cut. -/
def DirStream (w : Nat) (d : Dir) (as : List DirAnswer) (items : List DirItem) : Prop :=
  ∃ (rs : List DirRecord) (blocks : List DirBlock), items = rs.map .entry ++ blocks.flatMap DirBlock.items ∧ as = blocks.map (DirBlock.answer w) ∧
    (∀ r ∈ rs, r.Fits w) ∧ At d.data d.offset (rs.flatMap (DirRecord.bytes w)) ∧ d.offset + (rs.flatMap (DirRecord.bytes w)).length = d.size ∧
    d.size ≤ d.data.length ∧ ∀ b ∈ blocks, b.Ok w d.data.length

/-- What the next call of `readdir` gives: the next entry that is not deleted, its bytes being at the pointer, or a null pointer at an error or at the end.  `errno` is `saved` before the call; at the end it is left alone. -/
def DirGives (w : Nat) (saved : Int) (items : List DirItem) (x : Res (Option Nat × List DirAnswer × Int × Dir)) : Prop :=
  match items.dropWhile DirItem.deleted with
  | [] => ∃ d', x = ok (none, [], saved, d') ∧ DirStream w d' [] []
  | .failure e :: rest => ∃ d' as', x = ok (none, as', e, d') ∧ DirStream w d' as' rest
  | .entry r :: rest => ∃ p d' as' errno', x = ok (some p, as', errno', d') ∧ r.Fits w ∧ At d'.data p (r.bytes w) ∧ DirStream w d' as' rest

/-- The names of the files. -/
def fileNames (rs : List DirRecord) : List (List UInt8) := (rs.filter fun r => r.ino ≠ 0).map (·.name)

end Mes.Spec
