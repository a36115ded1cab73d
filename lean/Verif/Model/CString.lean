import Verif.Model.CMem
/-
Model of /repo/lib/string/*.c over a flat byte memory.  `size_t` sizes are natural numbers (a size above the memory
size runs into `ub`).  Pointers returned are addresses; functions that may return NULL return `Option Nat`.
Loops that run until a NUL byte carry the memory size as fuel: each turn reads a byte at a higher address, so more
turns are impossible without leaving the memory.
-/
namespace Mes.C

open Res

/-- `_memcpy` loop: /repo/lib/string/memcpy.c:29-35 (the same loop in /repo/lib/string/__memcpy.c:28-29). -/
def memcpyLoop (m : Mem) (dest src : Nat) : Nat → Res Mem
  | 0 => ok m
  | n + 1 => do
    let b ← m.rd src
    let m ← m.wr dest b
    memcpyLoop m (dest + 1) (src + 1) n

/-- `memcpy`: /repo/lib/string/memcpy.c:24-44. -/
def memcpy (m : Mem) (dest src n : Nat) : Res (Mem × Nat) := do
  let m ← memcpyLoop m dest src n
  ok (m, dest)

/-- Backward loop of `memmove`: /repo/lib/string/memmove.c:28-31; the counter `n` also gives `p = dest + n`. -/
def memmoveBack (m : Mem) (dest src : Nat) : Nat → Res Mem
  | 0 => ok m
  | n + 1 => do
    let b ← m.rd (src + n)
    let m ← m.wr (dest + n) b
    memmoveBack m dest src n

/-- `memmove`: /repo/lib/string/memmove.c:23-33. -/
def memmove (m : Mem) (dest src n : Nat) : Res (Mem × Nat) :=
  if dest < src then memcpy m dest src n
  else do
    let m ← memmoveBack m dest src n
    ok (m, dest)

/-- `_memset` loop: /repo/lib/string/memset.c:27-32. -/
def memsetLoop (m : Mem) (s : Nat) (c : Int) : Nat → Res Mem
  | 0 => ok m
  | n + 1 => do
    let m ← m.wr s (toByte c)
    memsetLoop m (s + 1) c n

/-- `memset`: /repo/lib/string/memset.c:23-40. -/
def memset (m : Mem) (s : Nat) (c : Int) (n : Nat) : Res (Mem × Nat) := do
  let m ← memsetLoop m s c n
  ok (m, s)

/-- `bcopy`: /repo/lib/string/bcopy.c:23-27. -/
def bcopy (m : Mem) (src dest n : Nat) : Res Mem := do
  let (m, _) ← memmove m dest src n
  ok m

/-- `bzero`: /repo/lib/string/bzero.c:29-35. -/
def bzero (m : Mem) (block size : Nat) : Res Mem := do
  let (m, _) ← memset m block 0 size
  ok m

/-- `strlen` loop: /repo/lib/string/strlen.c:28-29; `i` is an `int`, its overflow is undefined. -/
def strlenLoop (m : Mem) (s : Nat) : (fuel : Nat) → (i : Nat) → Res Nat
  | 0, _ => loop
  | fuel + 1, i => do
    let b ← m.rd (s + i)
    if b = 0 then ok i
    else do
      ubUnless (i + 1 ≤ INT_MAX)
      strlenLoop m s fuel (i + 1)

/-- `strlen`: /repo/lib/string/strlen.c:23-32. -/
def strlen (m : Mem) (s : Nat) : Res Nat := strlenLoop m s (m.length + 1) 0

/-- `strchr` loop: /repo/lib/string/strchr.c:27-32.  `c` is compared with the promoted, signed `char`. -/
def strchrLoop (m : Mem) (c : Int) : (fuel : Nat) → (p : Nat) → Res (Option Nat)
  | 0, _ => loop
  | fuel + 1, p => do
    let b ← m.rd p
    if b ≠ 0 ∨ c = 0 then
      if c = sc b then ok (some p) else strchrLoop m c fuel (p + 1)
    else ok none

/-- `strchr`: /repo/lib/string/strchr.c:23-34; `index` is the same function (/repo/lib/string/index.c:28-31). -/
def strchr (m : Mem) (s : Nat) (c : Int) : Res (Option Nat) := strchrLoop m c (m.length + 1) s

/-- Copy loop of `strcpy` (/repo/lib/string/strcpy.c:28-34) and `strcat` (/repo/lib/string/strcat.c:27-29). -/
def strcpyLoop (m : Mem) : (fuel : Nat) → (p src : Nat) → Res Mem
  | 0, _, _ => loop
  | fuel + 1, p, src => do
    let b ← m.rd src
    if b ≠ 0 then do
      let m ← m.wr p b
      strcpyLoop m fuel (p + 1) (src + 1)
    else m.wr p 0

/-- `strcpy`: /repo/lib/string/strcpy.c:23-37. -/
def strcpy (m : Mem) (dest src : Nat) : Res (Mem × Nat) := do
  let m ← strcpyLoop m (m.length + 1) dest src
  ok (m, dest)

/-- `strcat`: /repo/lib/string/strcat.c:23-31.  `strchr (to, '\0')` cannot return NULL; if it did, writing through it
would be undefined. -/
def strcat (m : Mem) (to src : Nat) : Res (Mem × Nat) := do
  let p ← strchr m to 0
  match p with
  | none => ub
  | some p =>
    let m ← strcpyLoop m (m.length + 1) p src
    ok (m, to)

/-- First loop of `strncpy` (/repo/lib/string/strncpy.c:29-30): returns memory, `p`, `from` and what is left of `size`
(`none` when `size--` was evaluated at 0, which leaves `(size_t)-1`). -/
def strncpyCopy (m : Mem) : (size : Nat) → (p src : Nat) → Res (Mem × Nat × Nat × Option Nat)
  | 0, p, src => do
    let b ← m.rd src
    if b ≠ 0 then ok (m, p, src, none) else ok (m, p, src, some 0)
  | size + 1, p, src => do
    let b ← m.rd src
    if b ≠ 0 then do
      let m ← m.wr p b
      strncpyCopy m size (p + 1) (src + 1)
    else ok (m, p, src, some (size + 1))

/-- `strncpy`: /repo/lib/string/strncpy.c:23-36.  After the copy loop, `*from` is tested again: if it is not NUL, `size++`
turns `(size_t)-1` back into 0.  A remaining size of `(size_t)-1` at a NUL cannot happen (`none` is only returned at a
non-NUL byte), and would write the whole address space: `ub`. -/
def strncpy (m : Mem) (to src size : Nat) : Res (Mem × Nat) :=
  if size = 0 then ok (m, to)
  else do
    let (m, p, f, left) ← strncpyCopy m size to src
    let b ← m.rd f
    let n ← match left with
      | none => if b ≠ 0 then ok 0 else ub
      | some n => if b ≠ 0 then ok (n + 1) else ok n
    let m ← memsetLoop m p 0 n
    ok (m, to)

/-- Copy loop of `strncat`: /repo/lib/string/strncat.c:29-31. -/
def strncatLoop (m : Mem) : (size : Nat) → (p src : Nat) → Res Mem
  | 0, p, src => do
    let _ ← m.rd src
    m.wr p 0
  | size + 1, p, src => do
    let b ← m.rd src
    if b ≠ 0 then do
      let m ← m.wr p b
      strncatLoop m size (p + 1) (src + 1)
    else m.wr p 0

/-- `strncat`: /repo/lib/string/strncat.c:23-33. -/
def strncat (m : Mem) (to src size : Nat) : Res (Mem × Nat) :=
  if size = 0 then ok (m, to)
  else do
    let p ← strchr m to 0
    match p with
    | none => ub
    | some p =>
      let m ← strncatLoop m size p src
      ok (m, to)

/-- `strcmp`: /repo/lib/string/strcmp.c:23-33.  C evaluates `a[0] != 0 && b[0] != 0 && a[0] == b[0]` left to right. -/
def strcmpLoop (m : Mem) : (fuel : Nat) → (a b : Nat) → Res Int
  | 0, _, _ => loop
  | fuel + 1, a, b => do
    let x ← m.rd a
    let y ← m.rd b
    if x ≠ 0 ∧ y ≠ 0 ∧ x = y then strcmpLoop m fuel (a + 1) (b + 1)
    else ok (sc x - sc y)

/-- `strcmp`: /repo/lib/string/strcmp.c:23-33.  (The byte `b[0]` is read even when `a[0] = 0`, by the final
subtraction.) -/
def strcmp (m : Mem) (a b : Nat) : Res Int := strcmpLoop m (m.length + 1) a b

/-- `strncmp` loop: /repo/lib/string/strncmp.c:29-36; the argument is `size - 1`. -/
def strncmpLoop (m : Mem) : (size1 : Nat) → (a b : Nat) → Res Int
  | 0, a, b => do
    let x ← m.rd a
    let y ← m.rd b
    ok (sc x - sc y)
  | size1 + 1, a, b => do
    let x ← m.rd a
    let y ← m.rd b
    if x ≠ 0 ∧ y ≠ 0 ∧ x = y then strncmpLoop m size1 (a + 1) (b + 1)
    else ok (sc x - sc y)

/-- `strncmp`: /repo/lib/string/strncmp.c:23-37. -/
def strncmp (m : Mem) (a b size : Nat) : Res Int :=
  match size with
  | 0 => ok 0
  | s + 1 => strncmpLoop m s a b

/-- `memcmp` loop: /repo/lib/string/memcmp.c:32-39; the argument is `size - 1`. -/
def memcmpLoop (m : Mem) : (size1 : Nat) → (a b : Nat) → Res Int
  | 0, a, b => do
    let x ← m.rd a
    let y ← m.rd b
    ok (sc x - sc y)
  | size1 + 1, a, b => do
    let x ← m.rd a
    let y ← m.rd b
    if x = y then memcmpLoop m size1 (a + 1) (b + 1)
    else ok (sc x - sc y)

/-- `memcmp`: /repo/lib/string/memcmp.c:23-40; `bcmp` is the same (/repo/lib/string/bcmp.c:23-27). -/
def memcmp (m : Mem) (a b size : Nat) : Res Int :=
  match size with
  | 0 => ok 0
  | s + 1 => memcmpLoop m s a b

/-- `memchr`: /repo/lib/string/memchr.c:23-37. -/
def memchr (m : Mem) (p : Nat) (c : Int) : (size : Nat) → Res (Option Nat)
  | 0 => ok none
  | size + 1 => do
    let b ← m.rd p
    if c = sc b then ok (some p) else memchr m (p + 1) c size

/-- Loop of `strrchr`: /repo/lib/string/strrchr.c:33-38; `p = s + n` where `n` is the counter after the decrement.
(For `n = 0` the loop ends before `*p` is read.) -/
def strrchrLoop (m : Mem) (s : Nat) (c : Int) : (n : Nat) → Res (Option Nat)
  | 0 => ok none
  | n + 1 => do
    let b ← m.rd (s + n)
    if b ≠ 0 ∨ c = 0 then
      if c = sc b then ok (some (s + n)) else strrchrLoop m s c n
    else ok none

/-- `strrchr`: /repo/lib/string/strrchr.c:23-40; `rindex` is the same function (/repo/lib/string/rindex.c:28-31). -/
def strrchr (m : Mem) (s : Nat) (c : Int) : Res (Option Nat) := do
  let n ← strlen m s
  if n = 0 then ok none
  else do
    let b ← m.rd (s + n)
    if b = 0 ∧ c = 0 then ok (some (s + n)) else strrchrLoop m s c n

/-- Common loop of `strspn` (`inSet = true`, /repo/lib/string/strspn.c:27-31), `strcspn` and `strpbrk`
(`inSet = false`, /repo/lib/string/strcspn.c:27-31, /repo/lib/string/strpbrk.c:27-31): the address where it stops. -/
def spanLoop (m : Mem) (inSet : Bool) (set : Nat) : (fuel : Nat) → (p : Nat) → Res Nat
  | 0, _ => loop
  | fuel + 1, p => do
    let b ← m.rd p
    if b = 0 then ok p
    else do
      let q ← strchr m set (sc b)
      if q.isSome = inSet then spanLoop m inSet set fuel (p + 1) else ok p

/-- `strspn`: /repo/lib/string/strspn.c:23-33. -/
def strspn (m : Mem) (s set : Nat) : Res Nat := do
  let p ← spanLoop m true set (m.length + 1) s
  ok (p - s)

/-- `strcspn`: /repo/lib/string/strcspn.c:23-33. -/
def strcspn (m : Mem) (s set : Nat) : Res Nat := do
  let p ← spanLoop m false set (m.length + 1) s
  ok (p - s)

/-- `strpbrk`: /repo/lib/string/strpbrk.c:23-33; never NULL. -/
def strpbrk (m : Mem) (s set : Nat) : Res (Option Nat) := do
  let p ← spanLoop m false set (m.length + 1) s
  ok (some p)

/-- Inner loop of `_memmem`: /repo/lib/string/memmem.c:42-44; the counter is what is left of the needle. -/
def memmemMatch (m : Mem) : (left : Nat) → (needle hay : Nat) → Res Bool
  | 0, _, _ => ok true
  | left + 1, needle, hay => do
    let x ← m.rd needle
    let y ← m.rd hay
    if x ≠ y then ok false else memmemMatch m left (needle + 1) (hay + 1)

/-- Outer loop of `_memmem`: /repo/lib/string/memmem.c:38-51; the counter is `end_haystack - haystack`. -/
def memmemLoop (m : Mem) (needle needleLen : Nat) : (left : Nat) → (hay : Nat) → Res (Option Nat)
  | 0, _ => ok none
  | left + 1, hay => do
    let found ← memmemMatch m needleLen needle hay
    if found then ok (some hay) else memmemLoop m needle needleLen left (hay + 1)

/-- `memmem`: /repo/lib/string/memmem.c:30-60.  `end_haystack = haystack + haystack_len - needle_len + 1`; the loop
runs while `haystack < end_haystack`. (Forming that pointer below the object is ignored.) -/
def memmem (m : Mem) (hay hayLen needle needleLen : Nat) : Res (Option Nat) :=
  memmemLoop m needle needleLen (hayLen + 1 - needleLen) hay

/-- `strstr`: /repo/lib/string/strstr.c:25-29. -/
def strstr (m : Mem) (hay needle : Nat) : Res (Option Nat) := do
  let h ← strlen m hay
  let n ← strlen m needle
  memmem m hay h needle n

/-- `__argz_extract_count`: /repo/lib/string/argz-extract.c:38-52, returning the pointers stored in `argv` (without the
final 0).  `len` is `size_t`: subtracting more than is there wraps around to a huge length and the loop goes on; the
model calls that `ub` at once (the loop then runs past the buffer).  `__argz_count`
(/repo/lib/string/argz-count.c:31-43) is the number of iterations of the same loop. -/
def argzLoop (m : Mem) : (fuel : Nat) → (argz len : Nat) → Res (List Nat)
  | 0, _, _ => loop
  | fuel + 1, argz, len =>
    if len = 0 then ok []
    else do
      let part ← strlen m argz
      ubUnless (part + 1 ≤ len)
      let rest ← argzLoop m fuel (argz + (part + 1)) (len - (part + 1))
      ok (argz :: rest)

/-- `__argz_extract`: /repo/lib/string/argz-extract.c:32-52. -/
def argzExtract (m : Mem) (argz len : Nat) : Res (List Nat) := argzLoop m (len + 1) argz len

/-- `__argz_count`: /repo/lib/string/argz-count.c:31-43. -/
def argzCount (m : Mem) (argz len : Nat) : Res Nat := do
  let l ← argzLoop m (len + 1) argz len
  ok l.length

end Mes.C
