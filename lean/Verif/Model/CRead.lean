import Verif.Model.CString
/-
Model of buffered reading: /repo/lib/mes/__buffered_read.c, /repo/lib/posix/buffered-read.c, /repo/lib/linux/lseek.c and
/repo/lib/posix/write.c, for one descriptor of a regular file.

The kernel may deliver fewer bytes than asked for, but at least one unless the end of the file is reached; `Chunks` says how many
it delivers at most at each call, or that the call fails.  Not modelled: `errno`, the messages of `__mes_debug`, descriptors that are
not regular files, and the variant for `__MESC__` (whose buffer has 100 bytes).
-/
namespace Mes.C
open Res

/-- The answers of the kernel to the successive calls: at most so many bytes, or an error. -/
abbrev Chunks := Nat → Option Nat

/-- A descriptor: the contents of the file, its position and the number of calls so far, as the kernel knows them; the cache of the
library (`struct __read_buffer`, /repo/lib/mes/__buffered_read.c:33-37) and `__read_buffer_max`. -/
structure Fd where
  content : List Byte
  pos : Nat
  calls : Nat
  size : Nat
  string : Mem
  max : Nat

/-- The number of bytes that the kernel transfers when it is asked for `size` bytes, of which `avail` exist. -/
def transfer (c size avail : Nat) : Nat := min (max c 1) (min size avail)

/-- The bytes that the system call `read` delivers (/repo/lib/linux/_read.c:27-31), `none` for an error. -/
def sysRead (g : Chunks) (f : Fd) (size : Nat) : Option (List Byte) × Fd :=
  match g f.calls with
  | none => (none, { f with calls := f.calls + 1 })
  | some c =>
    let n := transfer c size (f.content.length - f.pos)
    (some ((f.content.drop f.pos).take n), { f with calls := f.calls + 1, pos := f.pos + n })

/-- The kernel puts bytes into memory. -/
def putBytes (m : Mem) (p : Nat) : List Byte → Res Mem
  | [] => ok m
  | b :: bs => do
    let m ← m.wr p b
    putBytes m (p + 1) bs

/-- The loop that empties the cache: /repo/lib/mes/__buffered_read.c:80-84; returns memory, `p`, `todo` and the descriptor. -/
def copyOut (f : Fd) (m : Mem) (p : Nat) : (todo : Nat) → Res (Mem × Nat × Nat × Fd)
  | 0 => ok (m, p, 0, f)
  | todo + 1 =>
    if f.size > 0 then do
      let b ← f.string.rd (f.max - f.size)
      let m ← m.wr p b
      copyOut { f with size := f.size - 1 } m (p + 1) todo
    else ok (m, p, todo + 1, f)

/-- The bytes in the cache are moved to its end: /repo/lib/mes/__buffered_read.c:103-104. -/
def moveToEnd (string : Mem) (max bytes : Nat) : Res Mem :=
  if bytes < max then do
    let (string, _) ← memmove string (max - bytes) 0 bytes
    ok string
  else ok string

/-- `__buffered_read`: /repo/lib/mes/__buffered_read.c:71-109. -/
def bufferedRead (g : Chunks) : (fuel : Nat) → (f : Fd) → (m : Mem) → (p size : Nat) → Res (Int × Fd × Mem)
  | 0, _, _, _, _ => loop
  | fuel + 1, f, m, p, size =>
    if f.size = 0 ∧ size > f.max then
      match sysRead g f size with
      | (none, f) => ok (-1, f, m)
      | (some bs, f) => do
        let m ← putBytes m p bs
        ok (bs.length, f, m)
    else do
      let (m, p, todo, f) ← copyOut f m p size
      if todo ≠ 0 then
        if todo > f.max then
          match sysRead g f todo with
          | (none, f) => ok ((size : Int) - todo + -1, f, m)
          | (some bs, f) => do
            let m ← putBytes m p bs
            ok ((size : Int) - todo + bs.length, f, m)
        else
          match sysRead g f f.max with
          | (none, f) => ok (-1, f, m)
          | (some bs, f) => do
            let string ← putBytes f.string 0 bs
            if bs.length ≠ 0 then do
              let f := { f with size := bs.length }
              let string ← moveToEnd string f.max bs.length
              let (r, f, m) ← bufferedRead g fuel { f with string := string } m p todo
              ok ((size : Int) - todo + r, f, m)
            else ok ((size : Int) - todo, { f with string := string }, m)
      else ok (size, f, m)

/-- `read`: /repo/lib/posix/buffered-read.c:24-48.  Every call but the first takes at least one byte out of the
cache, so the depth of the recursion is limited by the size. -/
def read (g : Chunks) (f : Fd) (m : Mem) (buffer size : Nat) : Res (Int × Fd × Mem) := bufferedRead g (size + 2) f m buffer size

/-- The system call `lseek`; whence is 0, 1 or 2 for `SEEK_SET`, `SEEK_CUR` and `SEEK_END` (/repo/include/stdio.h:54-56). -/
def sysLseek (f : Fd) (offset : Int) (whence : Nat) : Int × Fd :=
  let base : Int := if whence = 0 then 0 else if whence = 1 then f.pos else f.content.length
  if whence ≤ 2 ∧ 0 ≤ base + offset then (base + offset, { f with pos := (base + offset).toNat }) else (-1, f)

/-- `lseek`: /repo/lib/linux/lseek.c:34-46. -/
def lseek (f : Fd) (offset : Int) (whence : Nat) : Int × Fd :=
  if (sysLseek f 0 1).1 = -1 then (-1, f)
  else
    let skip : Int := f.size
    let f := { f with size := 0 }
    sysLseek f (if whence = 1 then offset - skip else offset) whence

/-- The system call `write` of the given bytes: how many were written; a gap is filled with zeros. -/
def sysWrite (g : Chunks) (f : Fd) (bs : List Byte) : Int × Fd :=
  match g f.calls with
  | none => (-1, { f with calls := f.calls + 1 })
  | some c =>
    let n := transfer c bs.length bs.length
    let content := if n = 0 then f.content else f.content.take f.pos ++ List.replicate (f.pos - f.content.length) 0 ++ bs.take n ++ f.content.drop (f.pos + n)
    (n, { f with calls := f.calls + 1, pos := f.pos + n, content := content })

/-- `write`: /repo/lib/posix/write.c:26-41. -/
def write (g : Chunks) (f : Fd) (bs : List Byte) : Int × Fd :=
  let skip := f.size
  let f := { f with size := 0 }
  let f := if skip ≠ 0 then (lseek f (-skip) 1).2 else f
  sysWrite g f bs

end Mes.C
