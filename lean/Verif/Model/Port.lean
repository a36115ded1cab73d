import Verif.Model.Data
/-
Character input: /repo/src/posix.c:62-236, /repo/lib/mes/fdgetc.c, /repo/lib/mes/fdungetc.c.

A file descriptor is modelled by the bytes that have not been read from it yet; `read (fd, &c, 1)` delivers the next one,
and nothing at the end (read errors count as end of file: /repo/lib/mes/fdgetc.c:74-75).  That the library's buffering
delivers the file unchanged is the subject of C49.
-/
namespace Mes
open Res

/-- Input: the global variables `__stdin` and `__ungetc_buf` and the unread contents of the open files. -/
structure In where
  /-- `__stdin`; negative for a string port -/
  stdin : Int
  file : Int → List Byte
  /-- `__ungetc_buf`, −1 when there is nothing pushed back: /repo/lib/mes/fdgetc.c:30-61 -/
  unget : Int → Int

/-- `EOF` -/
abbrev eof : Int := -1

/-- `fdgetc`: /repo/lib/mes/fdgetc.c:63-83.  `__ungetc_buf` has `__FILEDES_MAX + 1` = 513 entries. -/
def fdgetc (w : In) (fd : Int) : Res (Int × In) :=
  if fd < 0 ∨ 512 < fd then ub
  else if 0 ≤ w.unget fd then ok (w.unget fd, { w with unget := fun f => if f = fd then -1 else w.unget f })
  else match w.file fd with
    | [] => ok (eof, w)
    | b :: bs =>
      let i := sc b
      let i := if i < 0 then i + 256 else i
      ok (i, { w with file := fun f => if f = fd then bs else w.file f })

/-- `fdungetc`: /repo/lib/mes/fdungetc.c:23-37. -/
def fdungetc (w : In) (c fd : Int) : Res (Int × In) :=
  if c = eof then ok (c, w)
  else if fd < 0 ∨ 512 < fd then ub
  else if 0 ≤ w.unget fd then abort
  else ok (c, { w with unget := fun f => if f = fd then c else w.unget f })

/-- Loop of `current_input_port` for a string port: /repo/src/posix.c:226-235.  The list ends in `()`, not in NULL, and
the loop goes on there. -/
def portLoop (s : St) (stdin : Int) : (fuel : Nat) → (x : Int) → Res Int
  | 0, _ => loop
  | fuel + 1, x =>
    if x ≠ 0 then do
      let a ← s.car x
      let p ← s.car a
      if p = stdin then ok a
      else do
        let d ← s.cdr x
        portLoop s stdin fuel d
    else ub

/-- `current_input_port` when `__stdin` is negative: /repo/src/posix.c:221-236. -/
def stringPort (s : St) (w : In) (fuel : Nat) : Res Int := portLoop s w.stdin fuel s.ports

/-- `readchar`: /repo/src/posix.c:80-95.  The result is an `int`, negative for the bytes from 128 on of a string. -/
def readchar (s : St) (w : In) (fuel : Nat) : Res (Int × St × In) :=
  if 0 ≤ w.stdin then do
    let (c, w) ← fdgetc w w.stdin
    ok (c, s, w)
  else do
    let port ← stringPort s w fuel
    let string ← s.cdr port
    let length ← s.car string
    if length = 0 then ok (eof, s, w)
    else do
      let b ← s.cdr string
      let bs ← s.bytes b
      ubUnless (0 ≤ length ∧ length < bs.length)
      let (string, s) ← makeString s ((bs.take length.toNat).drop 1)
      let s ← s.setCdr port string
      ok (sc (bs.headD 0), s, w)

/-- `unreadchar`: /repo/src/posix.c:97-114.  For a string port the new string is copied from one byte before the old bytes,
which is the last byte of the header of the object (/repo/src/gc.c:36-41); that byte is then replaced. -/
def unreadchar (s : St) (w : In) (fuel : Nat) (c : Int) : Res (Int × St × In) :=
  if 0 ≤ w.stdin then do
    let (c, w) ← fdungetc w c w.stdin
    ok (c, s, w)
  else if c = eof then ok (c, s, w)
  else do
    let port ← stringPort s w fuel
    let string ← s.cdr port
    let length ← s.car string
    let b ← s.cdr string
    let bs ← s.bytes b
    ubUnless (0 ≤ length ∧ length < bs.length)
    let (string, s) ← makeString s (toByte c :: bs.take length.toNat)
    let s ← s.setCdr port string
    ok (c, s, w)

/-- `peekchar`: /repo/src/posix.c:62-78. -/
def peekchar (s : St) (w : In) (fuel : Nat) : Res (Int × St × In) :=
  if 0 ≤ w.stdin then do
    let (c, s, w) ← readchar s w fuel
    let (_, s, w) ← unreadchar s w fuel c
    ok (c, s, w)
  else do
    let port ← stringPort s w fuel
    let string ← s.cdr port
    let length ← s.car string
    if length = 0 then ok (eof, s, w)
    else do
      let b ← s.cdr string
      let bs ← s.bytes b
      let c ← Res.ofRead bs[0]?
      ok (sc c, s, w)

/-- `peek_byte`: /repo/src/posix.c:116-120. -/
def peekByte (s : St) (w : In) (fuel : Nat) : Res (Int × St × In) := do
  let (c, s, w) ← peekchar s w fuel
  let (x, s) ← makeNumber s c
  ok (x, s, w)
/-- `read_byte`: /repo/src/posix.c:122-126. -/
def readByte (s : St) (w : In) (fuel : Nat) : Res (Int × St × In) := do
  let (c, s, w) ← readchar s w fuel
  let (x, s) ← makeNumber s c
  ok (x, s, w)
/-- `peek_char`: /repo/src/posix.c:135-139. -/
def peekCharP (s : St) (w : In) (fuel : Nat) : Res (Int × St × In) := do
  let (c, s, w) ← peekchar s w fuel
  let (x, s) ← makeChar s c
  ok (x, s, w)
/-- `read_char` without a port argument: /repo/src/posix.c:141-151. -/
def readCharP (s : St) (w : In) (fuel : Nat) : Res (Int × St × In) := do
  let (c, s, w) ← readchar s w fuel
  let (x, s) ← makeChar s c
  ok (x, s, w)
/-- `unread_byte` (/repo/src/posix.c:128-133) and `unread_char` (153-158); `i->value` is converted to `int`. -/
def unreadP (s : St) (w : In) (fuel : Nat) (i : Int) : Res (Int × St × In) := do
  let c ← s.cdr i
  let (_, s, w) ← unreadchar s w fuel (toInt32 c)
  ok (i, s, w)

/-- `open_input_string`: /repo/src/posix.c:247-253, with `make_string_port` (/repo/src/gc.c:317-321). -/
def openInputString (s : St) (fuel : Nat) (string : Int) : Res (Int × St) := do
  let n ← length__ s fuel s.ports
  let (port, s) ← makeCell s .port (-n - 2) string
  let (l, s) ← cons s port s.ports
  ok (port, { s with ports := l })

/-- `set_current_input_port`: /repo/src/posix.c:255-270; `STDIN` is 0. -/
def setCurrentInputPort (s : St) (w : In) (fuel : Nat) (port : Int) : Res (Int × St × In) := do
  let (prev, s) ← if 0 ≤ w.stdin then makeNumber s w.stdin else do let p ← stringPort s w fuel; ok (p, s)
  let c ← s.rd port
  if c.tag = .number then ok (prev, s, { w with stdin := toInt32 c.cdr })
  else if c.tag = .port then ok (prev, s, { w with stdin := toInt32 c.car })
  else ok (prev, s, w)

end Mes
