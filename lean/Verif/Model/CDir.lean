import Verif.Model.CExec
/-
`readdir` of the C library.  The directory is what the kernel answers to `getdents`: a list of answers, after which it answers 0.  A pointer to an
entry is its place in the data of the stream.  `w` is the size of a `long`, 4 or 8.
-/
namespace Mes.C
open Res

/-- An answer of `getdents`: bytes, or an error. -/
inductive DirAnswer where
  | block (bs : List Byte)
  | failure (errno : Int)

/-- `struct __dirstream`: /repo/include/dirstream.h:39-48; `data` has `allocation` bytes. -/
structure Dir where
  data : Mem
  size : Nat
  offset : Nat
  filepos : Nat

/-- A number in the memory, the least byte first. -/
def rdLe (m : Mem) : (n : Nat) → (a : Nat) → Res Nat
  | 0, _ => ok 0
  | n + 1, a => do
    let b ← m.rd a
    let r ← rdLe m n (a + 1)
    ok (b.toNat + 256 * r)

/-- The stream as `opendir` makes it: /repo/lib/dirent/opendir.c:69-83. -/
def opendir (allocation : Nat) : Dir := ⟨List.replicate allocation 0, 0, 0, 0⟩

/-- The entry at the offset: /repo/lib/dirent/readdir.c:77-81.  The place, the inode and the stream. -/
def dirEntry (w : Nat) (d : Dir) : Res (Nat × Nat × Dir) := do
  let reclen ← rdLe d.data 2 (d.offset + 2 * w)
  let off ← rdLe d.data w (d.offset + w)
  let ino ← rdLe d.data w d.offset
  ok (d.offset, ino, { d with offset := d.offset + reclen, filepos := off })

/-- The loop of `readdir`: /repo/lib/dirent/readdir.c:44-85, with `getdents` (/repo/lib/linux/getdents.c:25-29) and `_sys_call3`
(/repo/lib/linux/x86-mes-gcc/syscall.c:153-165), which sets `errno` in any case. -/
def readdirLoop (w : Nat) (saved : Int) : (fuel : Nat) → List DirAnswer → (errno : Int) → Dir → Res (Option Nat × List DirAnswer × Int × Dir)
  | 0, _, _, _ => loop
  | fuel + 1, as, errno, d =>
    if d.size ≤ d.offset then
      match as with
      | [] => ok (none, [], saved, d)
      | .failure e :: as => ok (none, as, e, d)
      | .block bs :: as =>
        if bs = [] then ok (none, as, saved, d)
        else do
          ubUnless (bs.length ≤ d.data.length)
          let (p, ino, d) ← dirEntry w { d with data := bs ++ d.data.drop bs.length, size := bs.length, offset := 0 }
          if ino = 0 then readdirLoop w saved fuel as 0 d else ok (some p, as, 0, d)
    else do
      let (p, ino, d) ← dirEntry w d
      if ino = 0 then readdirLoop w saved fuel as errno d else ok (some p, as, errno, d)

/-- The bytes that the kernel has for the stream. -/
def answerBytes : List DirAnswer → Nat
  | [] => 0
  | .block bs :: as => bs.length + 1 + answerBytes as
  | .failure _ :: as => 1 + answerBytes as

/-- `readdir`: /repo/lib/dirent/readdir.c:38-88. -/
def readdir (w : Nat) (as : List DirAnswer) (errno : Int) (d : Dir) : Res (Option Nat × List DirAnswer × Int × Dir) :=
  readdirLoop w errno (d.data.length + answerBytes as + 1) as errno d

/-- A program that lists a directory: it calls `readdir` until it gets a null pointer, and takes `d_name` of each entry.  The names and `errno`. -/
def listDir (w : Nat) : (fuel : Nat) → List DirAnswer → (errno : Int) → Dir → Res (List (List Byte) × Int)
  | 0, _, _, _ => loop
  | fuel + 1, as, errno, d => do
    let (p, as, errno, d) ← readdir w as errno d
    match p with
    | none => ok ([], errno)
    | some p => do
      let name ← cText d.data (d.data.length + 1) (p + 2 * w + 2)
      let (names, errno) ← listDir w fuel as errno d
      ok (name :: names, errno)

end Mes.C
