import Verif.Model.CType
import Verif.Model.CString
/-
Model of number formatting and parsing: /repo/lib/mes/ntoab.c, /repo/lib/mes/abtol.c and their wrappers in /repo/lib/mes
and /repo/lib/stdlib.  The width `w` of `long` is a parameter (32 on x86 and ARM, 64 on x86_64).
-/
namespace Mes.C
open Res

/-- ASCII code of digit `i`: /repo/lib/mes/ntoab.c:65-68.  (Stored into a `char`.) -/
def digitChar (i : Nat) : Byte := if i > 9 then toByte (97 + (i : Int) - 10) else toByte (48 + (i : Int))

/-- Digit loop of `ntoab`: /repo/lib/mes/ntoab.c:62-71.  The buffer has 20 bytes and digits are written downwards from
index 10, so 11 bytes can be written before the start of the buffer is passed; `room` counts them and writing without
room is a write before the `malloc` block.  `acc` is the text from the current position up to the terminator.  The
division is `__mesabi_uldiv` (/repo/lib/mes/ntoab.c:26-33: `/` and `%` of the platform; /repo/lib/mes/div.c otherwise,
see `Mes.C.uldiv`). -/
def ntoabLoop (base : Nat) : (room : Nat) → (u : Nat) → (acc : List Byte) → Res (List Byte × Nat)
  | 0, _, _ => ub
  | room + 1, u, acc =>
    let i := u % base
    let u := u / base
    let acc := digitChar i :: acc
    if u ≠ 0 then ntoabLoop base room u acc else ok (acc, room)

/-- `ntoab`: /repo/lib/mes/ntoab.c:37-80, for a `long` of `w` bits; the result is the text without the terminator.
The conversion to `size_t` of a non-negative or, unsigned, any `x` is modulo `2^w`. -/
def ntoab (w : Nat) (x : Int) (base : Nat) (signed : Bool) : Res (List Byte) := do
  assert (base > 0)
  let neg := signed && decide (x < 0)
  let u : Nat := if neg then (-(x + 1)).toNat + 1 else (x % (2 ^ w : Nat)).toNat
  let (text, room) ← ntoabLoop base 11 u []
  if neg ∧ text.head? ≠ some 48 then
    match room with
    | 0 => ub
    | _ + 1 => ok (45 :: text)
  else ok text

/-- `itoa` (/repo/lib/mes/itoa.c:23-27) and `ltoa` (/repo/lib/mes/ltoa.c:23-27). -/
def itoa (w : Nat) (x : Int) : Res (List Byte) := ntoab w x 10 true
/-- `utoa`: /repo/lib/mes/utoa.c:23-27. -/
def utoa (w : Nat) (x : Int) : Res (List Byte) := ntoab w x 10 false
/-- `ultoa`: /repo/lib/mes/ultoa.c:23-27; the `unsigned long` argument is converted to `long`. -/
def ultoa (w : Nat) (x : Nat) : Res (List Byte) :=
  ntoab w (if x < 2 ^ (w - 1) then (x : Int) else (x : Int) - (2 ^ w : Nat)) 10 true
/-- `ltoab`: /repo/lib/mes/ltoab.c:23-27. -/
def ltoab (w : Nat) (x : Int) (base : Nat) : Res (List Byte) := ntoab w x base true

/-- The result of a computation in `int`: overflow is undefined. -/
def int32 (x : Int) : Res Int := if -2147483648 ≤ x ∧ x ≤ 2147483647 then ok x else ub

/-- White space loop of `abtol`: /repo/lib/mes/abtol.c:33-34. -/
def abtolSpace (m : Mem) : (fuel : Nat) → (s : Nat) → Res Nat
  | 0, _ => loop
  | fuel + 1, s => do
    let b ← m.rd s
    if isspace (sc b) then abtolSpace m fuel (s + 1) else ok s

/-- Digit loop of `abtol`: /repo/lib/mes/abtol.c:42-49.  `off` is the variable `m`. -/
def abtolDigits (m : Mem) (base : Int) : (fuel : Nat) → (s : Nat) → (i off : Int) → Res (Int × Nat)
  | 0, _, _, _ => loop
  | fuel + 1, s, i, off => do
    let b ← m.rd s
    let d ← isnumber (sc b) base
    if d then do
      let i ← int32 (i * base)
      let off := if sc b > 57 then 97 - 10 else off
      let i ← int32 (i + sc b)
      let i ← int32 (i - off)
      abtolDigits m base fuel (s + 1) i off
    else ok (i, s)

/-- `abtol`: /repo/lib/mes/abtol.c:24-55; returns the value and the final position. -/
def abtol (m : Mem) (s : Nat) (base : Int) : Res (Int × Nat) := do
  let base := if base = 0 then 10 else base
  let s ← abtolSpace m (m.length + 1) s
  let b ← m.rd s
  let s := if b ≠ 0 ∧ sc b = 43 then s + 1 else s
  let b ← m.rd s
  let neg := b ≠ 0 ∧ sc b = 45
  let s := if neg then s + 1 else s
  let (i, s) ← abtolDigits m base (m.length + 1) s 0 48
  if neg then do
    let i ← int32 (-i)
    ok (i, s)
  else ok (i, s)

/-- `atoi`: /repo/lib/stdlib/atoi.c:23-28; `atol` (/repo/lib/stdlib/atol.c:23-27) is the same. -/
def atoi (m : Mem) (s : Nat) : Res Int := do
  let (i, _) ← abtol m s 0
  ok i

/-- `strtol`: /repo/lib/stdlib/strtol.c:25-40.  `strncmp (string, "0x", 2)` is written out on the two bytes (it stops at
the first difference). -/
def strtol (m : Mem) (s : Nat) (base : Int) : Res (Int × Nat) := do
  let b0 ← m.rd s
  if b0 = 48 then do
    let b1 ← m.rd (s + 1)
    if b1 = 120 then abtol m (s + 2) 16 else abtol m s base
  else abtol m s base

end Mes.C
