import Verif.Model.CAlloc
/-
Model of the environment functions: /repo/lib/posix/getenv.c, setenv.c and unsetenv.c.

The strings are in the memory of the process.  The array `environ` of pointers is a list of words: it is not in the heap, but on
the stack of the process, where the kernel put it, with other data behind it (/repo/lib/linux/x86_64-mes-gcc/crt1.c:54-62).  An access
above the words that are known is undefined behaviour.
-/
namespace Mes.C
open Res

/-- The words from `environ` on. -/
abbrev Words := List Nat

def Words.get (w : Words) (i : Nat) : Res Nat := Res.ofRead w[i]?
def Words.put (w : Words) (i x : Nat) : Res Words := if i < w.length then ok (w.set i x) else ub

/-- The test of an entry: the name agrees and `=` follows: /repo/lib/posix/getenv.c:38-43, setenv.c:38-43, unsetenv.c:32. -/
def entryTest (m : Mem) (name entry length : Nat) : Res Bool := do
  let r ← strncmp m name entry length
  if r = 0 then do
    let c ← m.rd (entry + length)
    ok (c = 61)
  else ok false

/-- The search in `getenv` (/repo/lib/posix/getenv.c:35-49) and `setenv` (/repo/lib/posix/setenv.c:36-45): the index of the entry, or
of the null pointer at the end. -/
def envFind (m : Mem) (w : Words) (name length : Nat) : (fuel : Nat) → (i : Nat) → Res Nat
  | 0, _ => loop
  | fuel + 1, i => do
    let p ← w.get i
    if p = 0 then ok i
    else do
      let t ← entryTest m name p length
      if t then ok i else envFind m w name length fuel (i + 1)

/-- `getenv`: /repo/lib/posix/getenv.c:27-52. -/
def getenv (m : Mem) (w : Words) (name : Nat) : Res (Option Nat) := do
  let length ← strlen m name
  let i ← envFind m w name length (w.length + 1) 0
  let p ← w.get i
  if p = 0 then ok none else ok (some (p + length + 1))

/-- `setenv`: /repo/lib/posix/setenv.c:27-59.  The text "=" is written directly. -/
def setenv (s : Proc) (w : Words) (name value : Nat) (_overwrite : Int) : Res (Proc × Words × Int) := do
  let length ← strlen s.mem name
  let i ← envFind s.mem w name length (w.length + 1) 0
  let vlen ← strlen s.mem value
  let (entry, s) := malloc s (length + vlen + 2)
  let p ← w.get i
  let w ← w.put i entry
  ubUnless (entry ≠ 0)
  let (m, _) ← strcpy s.mem entry name
  let m ← m.wr (entry + length) 61
  let m ← m.wr (entry + length + 1) 0
  let (m, _) ← strcpy m (entry + length + 1) value
  let vlen ← strlen m value
  let m ← m.wr (entry + (length + vlen + 2)) 0
  let w ← if p = 0 then w.put (i + 1) 0 else ok w
  ok ({ s with mem := m }, w, 0)

/-- The inner loop of `unsetenv`: /repo/lib/posix/unsetenv.c:36-37. -/
def envShift (w : Words) : (fuel : Nat) → (q : Nat) → Res Words
  | 0, _ => loop
  | fuel + 1, q => do
    let p ← w.get q
    if p = 0 then ok w
    else do
      let x ← w.get (q + 2)
      let w ← w.put (q + 1) x
      envShift w fuel (q + 1)

/-- The outer loop of `unsetenv`: /repo/lib/posix/unsetenv.c:30-40. -/
def unsetLoop (m : Mem) (name length : Nat) : (fuel : Nat) → (w : Words) → (i : Nat) → Res Words
  | 0, _, _ => loop
  | fuel + 1, w, i => do
    let p ← w.get i
    if p = 0 then ok w
    else do
      let t ← entryTest m name p length
      let w ← if t then do
          let x ← w.get (i + 1)
          let w ← w.put i x
          envShift w (w.length + 1) i
        else ok w
      unsetLoop m name length fuel w (i + 1)

/-- `unsetenv`: /repo/lib/posix/unsetenv.c:25-41. -/
def unsetenv (m : Mem) (w : Words) (name : Nat) : Res Words := do
  let length ← strlen m name
  unsetLoop m name length (w.length + 1) w 0

end Mes.C
