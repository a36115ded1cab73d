import Verif.Model.CNum
/-
Model of formatted output: `vsnprintf` (/repo/lib/stdio/vsnprintf.c) and `vfprintf` (/repo/lib/stdio/vfprintf.c), which are
almost the same text; `Target` says which of the two is meant.

Simplifications: the variable arguments are a list of words (`long`, of `w` bits); taking one more than there are is undefined.
Narrower arguments are expected in the form of a `long`.  The bytes that `vfprintf` passes to `fputc` are collected in a list.
The messages about unknown conversions, on standard error, are left out.  The text of a floating point number (`dtoab`) is a
parameter.
-/
namespace Mes.C
open Res

/-- Where the text goes: `vsnprintf` with the size of the buffer, or `vfprintf`. -/
inductive Target where
  | buffer (size : Nat)
  | file

/-- The variables that the output changes: the memory, `str`, the bytes sent to the file, and `count`. -/
structure Out where
  mem : Mem
  pos : Nat
  sent : List Byte
  count : Nat

/-- `count++` -/
def Out.tick (o : Out) : Res Out := if o.count < INT_MAX then ok { o with count := o.count + 1 } else ub

/-- `*str++ = c` -/
def Out.store (o : Out) (c : Byte) : Res Out := do
  let m ← o.mem.wr o.pos c
  ok { o with mem := m, pos := o.pos + 1 }

/-- `if (count < size) *str++ = c; count++;` (/repo/lib/stdio/vsnprintf.c:36-38), and `fputc (c, f); count++;`
(/repo/lib/stdio/vfprintf.c:35-36). -/
def put (t : Target) (c : Byte) (o : Out) : Res Out :=
  match t with
  | .buffer size =>
    if o.count < size then do
      let o ← o.store c
      o.tick
    else o.tick
  | .file => ({ o with sent := o.sent ++ [c] } : Out).tick

/-- `%c`: /repo/lib/stdio/vsnprintf.c:105-112, and /repo/lib/stdio/vfprintf.c:100-106, which does not count it. -/
def putChar (t : Target) (c : Byte) (o : Out) : Res Out :=
  match t with
  | .buffer size => put (.buffer size) c o
  | .file => ok { o with sent := o.sent ++ [c] }

/-- `va_arg` -/
def vaArg : List Int → Res (Int × List Int)
  | [] => ub
  | x :: args => ok (x, args)

/-- A `long` as an `int`. -/
def asInt (x : Int) : Int := let y := x % 4294967296; if y < 2147483648 then y else y - 4294967296

/-! ### The parts of a conversion -/

/-- `left_p`, with `c` and `p`: /repo/lib/stdio/vsnprintf.c:44-51, /repo/lib/stdio/vfprintf.c:42-49. -/
def parseLeft (m : Mem) (p : Nat) : Res (Bool × Byte × Nat) := do
  let c ← m.rd p
  if c = 45 then do
    let c ← m.rd (p + 1)
    ok (true, c, p + 1)
  else ok (false, c, p)

/-- One of the two flags for `pad`: /repo/lib/stdio/vsnprintf.c:52-62, /repo/lib/stdio/vfprintf.c:50-60.  `c = *p++` reads the
flag again. -/
def parsePad (m : Mem) (flag pad c : Byte) (p : Nat) : Res (Byte × Byte × Nat) :=
  if c = flag then do
    let c' ← m.rd p
    ok (c, c', p + 1)
  else ok (pad, c, p)

/-- A number or `*`: /repo/lib/stdio/vsnprintf.c:63-72 and 76-85, /repo/lib/stdio/vfprintf.c:61-70 and 74-83. -/
def parseNumber (m : Mem) (c : Byte) (p : Nat) (args : List Int) : Res (Int × Byte × Nat × List Int) :=
  if 48 ≤ c ∧ c ≤ 57 then do
    let (n, p) ← abtol m p 10
    let c ← m.rd p
    ok (n, c, p, args)
  else if c = 42 then do
    let (n, args) ← vaArg args
    let c ← m.rd (p + 1)
    ok (asInt n, c, p + 1, args)
  else ok (-1, c, p, args)

/-- The precision: /repo/lib/stdio/vsnprintf.c:73-86, /repo/lib/stdio/vfprintf.c:71-84. -/
def parsePrecision (m : Mem) (c : Byte) (p : Nat) (args : List Int) : Res (Int × Byte × Nat × List Int) :=
  if c = 46 then do
    let c ← m.rd (p + 1)
    parseNumber m c (p + 1) args
  else ok (-1, c, p, args)

/-- `l`, up to `n` times: three times in /repo/lib/stdio/vsnprintf.c:87-95, twice in /repo/lib/stdio/vfprintf.c:85-91. -/
def skipLong (m : Mem) : (n : Nat) → (c : Byte) → (p : Nat) → Res (Byte × Nat)
  | 0, c, p => ok (c, p)
  | n + 1, c, p =>
    if c = 108 then do
      let c ← m.rd (p + 1)
      skipLong m n c (p + 1)
    else ok (c, p)

/-- `left_p`, `pad`, `width` and `precision`. -/
structure Field where
  left : Bool
  pad : Byte
  width : Int
  precision : Int

/-- From the character after `%` to the letter of the conversion: /repo/lib/stdio/vsnprintf.c:42-95,
/repo/lib/stdio/vfprintf.c:40-91. -/
def parseField (t : Target) (m : Mem) (p : Nat) (args : List Int) : Res (Field × Byte × Nat × List Int) := do
  let (left, c, p) ← parseLeft m p
  let (pad, c, p) ← parsePad m 32 32 c p
  let (pad, c, p) ← parsePad m 48 pad c p
  let (width, c, p, args) ← parseNumber m c p args
  let (precision, c, p, args) ← parsePrecision m c p args
  let (c, p) ← skipLong m (match t with | .buffer _ => 3 | .file => 2) c p
  ok (⟨left, pad, width, precision⟩, c, p, args)

/-! ### Loops -/

/-- `while (width-- > precision)`: /repo/lib/stdio/vsnprintf.c:130-135, /repo/lib/stdio/vfprintf.c:124-128. -/
def padLoop (t : Target) (pad : Byte) (precision : Int) : (fuel : Nat) → (width : Int) → (o : Out) → Res (Int × Out)
  | 0, _, _ => loop
  | fuel + 1, width, o => do
    let width' ← int32 (width - 1)
    if width > precision then do
      let o ← put t pad o
      padLoop t pad precision fuel width' o
    else ok (width', o)

/-- `while (precision > length)`: /repo/lib/stdio/vsnprintf.c:136-143, /repo/lib/stdio/vfprintf.c:129-135; for strings
/repo/lib/stdio/vfprintf.c:166-172. -/
def fillLoop (t : Target) (fill : Byte) (length : Int) : (fuel : Nat) → (precision width : Int) → (o : Out) → Res (Int × Int × Out)
  | 0, _, _, _ => loop
  | fuel + 1, precision, width, o =>
    if precision > length then do
      let o ← put t fill o
      let width ← int32 (width - 1)
      fillLoop t fill length fuel (precision - 1) width o
    else ok (precision, width, o)

/-- `while (width > length)`, for strings: /repo/lib/stdio/vsnprintf.c:178-185. -/
def blankLoop (t : Target) (length : Int) : (fuel : Nat) → (precision width : Int) → (o : Out) → Res (Int × Int × Out)
  | 0, _, _, _ => loop
  | fuel + 1, precision, width, o =>
    if width > length then do
      let o ← put t 32 o
      let precision ← int32 (precision - 1)
      blankLoop t length fuel precision (width - 1) o
    else ok (precision, width, o)

/-- `while (*s)`, for a number: /repo/lib/stdio/vsnprintf.c:145-154, /repo/lib/stdio/vfprintf.c:137-144.  `s` is the text in the
buffer of `ntoab`. -/
def textLoop (t : Target) : (s : List Byte) → (precision width : Int) → (o : Out) → Res (Int × Out)
  | [], _, width, o => ok (width, o)
  | b :: s, precision, width, o => do
    let precision' ← int32 (precision - 1)
    if precision ≤ 0 then ok (width, o)
    else do
      let width ← int32 (width - 1)
      let o ← put t b o
      textLoop t s precision' width o

/-- `while (s && *s)`, for a string: /repo/lib/stdio/vsnprintf.c:187-196, /repo/lib/stdio/vfprintf.c:174-181. -/
def stringLoop (t : Target) : (fuel : Nat) → (s : Nat) → (precision width : Int) → (o : Out) → Res (Int × Out)
  | 0, _, _, _, _ => loop
  | fuel + 1, s, precision, width, o => do
    let b ← o.mem.rd s
    if b = 0 then ok (width, o)
    else do
      let precision' ← int32 (precision - 1)
      if precision ≤ 0 then ok (width, o)
      else do
        let width ← int32 (width - 1)
        let o ← put t b o
        stringLoop t fuel (s + 1) precision' width o

/-- `while (width > 0)`: /repo/lib/stdio/vsnprintf.c:155-161, /repo/lib/stdio/vfprintf.c:145-150; `n` is `width`, or 0 if that is
negative. -/
def tailLoop (t : Target) (pad : Byte) : (n : Nat) → (o : Out) → Res Out
  | 0, o => ok o
  | n + 1, o => do
    let o ← put t pad o
    tailLoop t pad n o

/-! ### Conversions -/

/-- The part before the text, unless `left_p`: /repo/lib/stdio/vsnprintf.c:126-144, /repo/lib/stdio/vfprintf.c:120-136. -/
def leadNumber (t : Target) (f : Field) (fill : Byte) (length : Nat) (o : Out) : Res (Int × Int × Out) :=
  let precision := if f.precision = -1 then (length : Int) else f.precision
  if f.left then ok (precision, f.width, o)
  else do
    let (width, o) ← padLoop t f.pad precision ((f.width - precision).toNat + 1) f.width o
    fillLoop t fill length ((precision - length).toNat + 1) precision width o

/-- Integers, with `fill` = '0' (/repo/lib/stdio/vsnprintf.c:125-162, /repo/lib/stdio/vfprintf.c:119-151), and floating point
numbers, with ' ' (/repo/lib/stdio/vsnprintf.c:216-253, /repo/lib/stdio/vfprintf.c:200-232). -/
def putNumber (t : Target) (f : Field) (fill : Byte) (text : List Byte) (o : Out) : Res Out := do
  let (precision, width, o) ← leadNumber t f fill text.length o
  let (width, o) ← textLoop t text precision width o
  tailLoop t f.pad width.toNat o

/-- The part before a string, unless `left_p`: /repo/lib/stdio/vsnprintf.c:168-186, /repo/lib/stdio/vfprintf.c:157-173. -/
def leadString (t : Target) (f : Field) (length : Nat) (o : Out) : Res (Int × Int × Out) :=
  let precision := if f.precision = -1 then (length : Int) else f.precision
  if f.left then ok (precision, f.width, o)
  else do
    let (width, o) ← padLoop t f.pad precision ((f.width - precision).toNat + 1) f.width o
    match t with
    | .buffer _ => blankLoop t length ((width - length).toNat + 1) precision width o
    | .file => fillLoop t 32 length ((precision - length).toNat + 1) precision width o

/-- `%s` with a string at `s`: /repo/lib/stdio/vsnprintf.c:164-205, /repo/lib/stdio/vfprintf.c:153-189. -/
def putString (t : Target) (f : Field) (s : Nat) (o : Out) : Res Out := do
  let length ← strlen o.mem s
  let (precision, width, o) ← leadString t f length o
  let (width, o) ← stringLoop t (o.mem.length + 1) s precision width o
  tailLoop t f.pad width.toNat o

/-- `%s` with the null pointer: only `vsnprintf` allows it. -/
def putNull (t : Target) (f : Field) (o : Out) : Res Out :=
  match t with
  | .buffer _ => do
    let (_, width, o) ← leadString t f 0 o
    tailLoop t f.pad width.toNat o
  | .file => ub

/-- `strupr` (/repo/lib/string/strupr.c:24-34), on the text in the buffer of `ntoab`. -/
def upcase (s : List Byte) : List Byte := s.map fun b => toByte (toupper (sc b))

/-- The text of an integer: /repo/lib/stdio/vsnprintf.c:121-124, /repo/lib/stdio/vfprintf.c:115-118. -/
def numberText (w : Nat) (c : Byte) (d : Int) : Res (List Byte) := do
  let s ← ntoab w d (if c = 111 then 8 else if c = 120 ∨ c = 88 then 16 else 10) (decide (c ≠ 117 ∧ c ≠ 120 ∧ c ≠ 88))
  ok (if c = 88 then upcase s else s)

/-- `*n = count`: four bytes, the lowest one first. -/
def putCount (a : Int) (o : Out) : Res Out := do
  ubUnless (0 < a)
  let m ← o.mem.wr a.toNat (toByte o.count)
  let m ← m.wr (a.toNat + 1) (toByte (o.count / 256))
  let m ← m.wr (a.toNat + 2) (toByte (o.count / 65536))
  let m ← m.wr (a.toNat + 3) (toByte (o.count / 16777216))
  ok { o with mem := m }

/-- The `switch`: /repo/lib/stdio/vsnprintf.c:96-268, /repo/lib/stdio/vfprintf.c:92-248.  The result has `p` after the `switch`. -/
def convert (w : Nat) (dtoab : Int → List Byte) (t : Target) (f : Field) (c : Byte) (p : Nat) (args : List Int) (o : Out) :
    Res (Out × Nat × List Int) :=
  if c = 37 then do
    let o ← put t c o
    ok (o, p, args)
  else if c = 99 then do
    let (x, args) ← vaArg args
    let o ← putChar t (toByte x) o
    ok (o, p, args)
  else if c = 100 ∨ c = 105 ∨ c = 111 ∨ c = 117 ∨ c = 120 ∨ c = 88 then do
    let (x, args) ← vaArg args
    let text ← numberText w c x
    let o ← putNumber t f 48 text o
    ok (o, p, args)
  else if c = 115 then do
    let (x, args) ← vaArg args
    if x = 0 then do
      let o ← putNull t f o
      ok (o, p, args)
    else do
      ubUnless (0 < x)
      let o ← putString t f x.toNat o
      ok (o, p, args)
  else if c = 102 ∨ c = 101 ∨ c = 69 ∨ c = 103 ∨ c = 71 then do
    let (x, args) ← vaArg args
    let o ← putNumber t f 32 (if c = 69 ∨ c = 71 then upcase (dtoab x) else dtoab x) o
    ok (o, p, args)
  else if c = 110 then do
    let (x, args) ← vaArg args
    let o ← putCount x o
    ok (o, p, args)
  else ok (o, p + 1, args)

/-- `while (*p)`: /repo/lib/stdio/vsnprintf.c:32-270, /repo/lib/stdio/vfprintf.c:32-249. -/
def formatLoop (w : Nat) (dtoab : Int → List Byte) (t : Target) : (fuel : Nat) → (p : Nat) → (args : List Int) → (o : Out) → Res Out
  | 0, _, _, _ => loop
  | fuel + 1, p, args, o => do
    let c ← o.mem.rd p
    if c = 0 then ok o
    else if c ≠ 37 then do
      let o ← put t c o
      formatLoop w dtoab t fuel (p + 1) args o
    else do
      let (f, c, p, args) ← parseField t o.mem (p + 1) args
      let (o, p, args) ← convert w dtoab t f c p args o
      formatLoop w dtoab t fuel (p + 1) args o

/-- `if (count < size) *str = 0`: /repo/lib/stdio/vsnprintf.c:272-273. -/
def terminate (size : Nat) (o : Out) : Res Mem := if o.count < size then o.mem.wr o.pos 0 else ok o.mem

/-- `vsnprintf`: /repo/lib/stdio/vsnprintf.c:26-275; `snprintf` (/repo/lib/stdio/snprintf.c:25-39) calls it.  The value and the
memory. -/
def vsnprintf (w : Nat) (dtoab : Int → List Byte) (m : Mem) (str size format : Nat) (args : List Int) : Res (Int × Mem) := do
  let o ← formatLoop w dtoab (.buffer size) (m.length + 1) format args ⟨m, str, [], 0⟩
  let m ← terminate size o
  ok (o.count, m)

/-- `vsprintf`: /repo/lib/stdio/vsprintf.c:24-28; `sprintf` (/repo/lib/stdio/sprintf.c:25-39) calls it. -/
def vsprintf (w : Nat) (dtoab : Int → List Byte) (m : Mem) (str format : Nat) (args : List Int) : Res (Int × Mem) :=
  vsnprintf w dtoab m str (2 ^ (w - 1) - 1) format args

/-- `vfprintf`: /repo/lib/stdio/vfprintf.c:26-252; `fprintf`, `printf` and `vprintf` call it.  The value, the bytes sent, and the
memory. -/
def vfprintf (w : Nat) (dtoab : Int → List Byte) (m : Mem) (format : Nat) (args : List Int) : Res (Int × List Byte × Mem) := do
  let o ← formatLoop w dtoab .file (m.length + 1) format args ⟨m, 0, [], 0⟩
  ok (0, o.sent, o.mem)

end Mes.C
