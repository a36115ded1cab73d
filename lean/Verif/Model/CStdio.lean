import Verif.Model.CRead
/-
Model of the input of /repo/lib/stdio over a descriptor: `fgetc`, `ungetc`, `fgets`, `fread`, `feof`, `fseek` and `ftell`.

A `FILE *` is the number of a descriptor.  Besides the descriptor there is its place in the array `__ungetc_buf`
(/repo/lib/mes/fdgetc.c:30), which holds a character that was pushed back, or -1.  The array itself and its allocation are not modelled.
The variable `c` of `fdgetc` is a memory of one byte of its own.
-/
namespace Mes.C
open Res

/-- A stream: the descriptor and its place in `__ungetc_buf`. -/
structure Stream where
  fd : Fd
  back : Int

/-- `fdgetc` (/repo/lib/mes/fdgetc.c:66-88), which is also `fgetc` (/repo/lib/stdio/fgetc.c:23-27), `getc` and `getchar`. -/
def fgetc (g : Chunks) (s : Stream) : Res (Int × Stream) :=
  if s.back ≥ 0 then ok (s.back, { s with back := -1 })
  else do
    let (r, f, m) ← read g s.fd [0] 0 1
    if r < 1 then ok (-1, { s with fd := f })
    else do
      let c ← m.rd 0
      let i := sc c
      ok (if i < 0 then i + 256 else i, { s with fd := f })

/-- `fdungetc` (/repo/lib/mes/fdungetc.c:23-37), which is also `ungetc` (/repo/lib/stdio/ungetc.c:23-27). -/
def ungetc (c : Int) (s : Stream) : Res (Int × Stream) :=
  if c = -1 then ok (c, s)
  else if s.back ≥ 0 then abort
  else ok (c, { s with back := c })

/-- The loop of `fdgets`: /repo/lib/mes/fdgets.c:29-35.  `n` is the number of times that the test of `count` still succeeds. -/
def fgetsLoop (g : Chunks) : (n : Nat) → Stream → Mem → (p : Nat) → (c : Int) → Res (Stream × Mem × Nat × Int)
  | 0, s, m, p, c => ok (s, m, p, c)
  | n + 1, s, m, p, c =>
    if c = 10 then ok (s, m, p, c)
    else do
      let (c, s) ← fgetc g s
      if c = -1 then ok (s, m, p, c)
      else do
        let m ← m.wr p (toByte c)
        fgetsLoop g n s m (p + 1) c

/-- `fdgets` (/repo/lib/mes/fdgets.c:24-40), which is also `fgets` (/repo/lib/stdio/fgets.c:24-28); `none` is the null pointer.  `count` is
-1 in the test at the end if it was 0 at first. -/
def fgets (g : Chunks) (m : Mem) (a : Nat) (count : Nat) (s : Stream) : Res (Option Nat × Stream × Mem) := do
  let (s, m, p, c) ← fgetsLoop g (count - 1) s m a 0
  if p = a ∧ (c = -1 ∨ count = 0) then ok (none, s, m)
  else do
    let m ← m.wr p 0
    ok (some a, s, m)

/-- `fread`: /repo/lib/stdio/fread.c:32-76, without the messages.  At most one character was pushed back, so the loop of lines 41-42 is
done at most once. -/
def fread (g : Chunks) (m : Mem) (data size count : Nat) (s : Stream) : Res (Nat × Stream × Mem) :=
  if size = 0 ∨ count = 0 then ok (0, s, m)
  else do
    let todo := size * count
    let (s, m, buf, todo, bytes) ←
      if s.back ≥ 0 then do
        let (c, s) ← fgetc g s
        let m ← m.wr data (toByte c)
        ok (s, m, data + 1, todo - 1, (1 : Int))
      else ok (s, m, data, todo, 0)
    let (bytes, s, m) ←
      if todo ≠ 0 then do
        let (r, f, m) ← read g s.fd m buf todo
        ok (if r < 0 ∧ bytes = 0 then r else bytes + r, { s with fd := f }, m)
      else ok (bytes, s, m)
    if bytes > 0 then ok (bytes.toNat / size, s, m) else ok (0, s, m)

/-- `feof`: /repo/lib/stdio/feof.c:23-30. -/
def feof (g : Chunks) (s : Stream) : Res (Bool × Stream) := do
  let (c, s) ← fgetc g s
  if c ≠ -1 then do
    let (_, s) ← ungetc c s
    ok (false, s)
  else ok (true, s)

/-- `fseek`: /repo/lib/stdio/fseek.c:25-41. -/
def fseek (s : Stream) (offset : Int) (whence : Nat) : Int × Stream :=
  let (pos, f) := lseek s.fd offset whence
  (if pos ≥ 0 then 0 else -1, { s with fd := f })

/-- `ftell`: /repo/lib/stdio/ftell.c:25-29. -/
def ftell (s : Stream) : Int × Stream :=
  let (pos, f) := lseek s.fd 0 1
  (pos, { s with fd := f })

/-- The loop of a program, `while ((c = fgetc (f)) != EOF)`: the characters. -/
def getAll (g : Chunks) : (fuel : Nat) → Stream → Res (List Int × Stream)
  | 0, _ => loop
  | fuel + 1, s => do
    let (c, s) ← fgetc g s
    if c = -1 then ok ([], s)
    else do
      let (l, s) ← getAll g fuel s
      ok (c :: l, s)

/-- The loop of a program that calls `fgets` with a buffer of `count` bytes until it gives the null pointer: the strings. -/
def getLines (g : Chunks) (a count : Nat) : (fuel : Nat) → Mem → Stream → Res (List (List Byte) × Stream × Mem)
  | 0, _, _ => loop
  | fuel + 1, m, s => do
    let (r, s, m) ← fgets g m a count s
    match r with
    | none => ok ([], s, m)
    | some p => do
      let (l, s, m') ← getLines g a count fuel m s
      ok ((m.drop p).takeWhile (· ≠ 0) :: l, s, m')

end Mes.C
