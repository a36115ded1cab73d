import Verif.Model.CString
/-
`fopen` of the C library: what it asks the kernel for.  The file system is represented by the one file: its contents, or that there is none.
`access (file_name, O_RDONLY)` asks whether the file exists, because `O_RDONLY` is 0, as is `F_OK`.  Permissions, directories and the other reasons for
which `open` may fail are left out, as are the messages.
-/
namespace Mes.C
open Res

def oRdonly : Nat := 0
def oWronly : Nat := 1
def oRdwr : Nat := 2
def oCreat : Nat := 0x40
def oTrunc : Nat := 0x200
def oAppend : Nat := 0x400

/-- The flags that `fopen` passes to `_open3`: /repo/lib/stdio/fopen.c:43-60; `opentype` is in the memory, with the text "r+" at `rplus`. -/
def fopenFlags (m : Mem) (opentype rplus : Nat) (found : Bool) : Res Nat := do
  let c ← m.rd opentype
  let r ← strcmp m opentype rplus
  if (c = 97 ∨ r = 0) ∧ found then
    ok (if c = 97 then oRdwr ||| oAppend else oRdwr)
  else if c = 119 ∨ c = 97 ∨ r = 0 then do
    let plus ← strchr m opentype 43
    ok (if plus.isSome then oRdwr ||| oCreat else oWronly ||| oCreat ||| oTrunc)
  else ok oRdonly

/-- An open file, or none. -/
structure OpenFile where
  content : List Byte
  readable : Bool
  writable : Bool
  appending : Bool
deriving DecidableEq

/-- The system call `open`: the lowest two bits are the access mode. -/
def sysOpen (flags : Nat) (file : Option (List Byte)) : Option OpenFile :=
  let content := match file with
    | some c => some (if flags &&& oTrunc ≠ 0 then [] else c)
    | none => if flags &&& oCreat ≠ 0 then some [] else none
  content.map fun c => ⟨c, flags &&& 3 = 0 ∨ flags &&& 3 = 2, flags &&& 3 = 1 ∨ flags &&& 3 = 2, flags &&& oAppend ≠ 0⟩

/-- `fopen`: /repo/lib/stdio/fopen.c:29-76. -/
def fopen (m : Mem) (opentype rplus : Nat) (file : Option (List Byte)) : Res (Option OpenFile) := do
  let flags ← fopenFlags m opentype rplus file.isSome
  ok (sysOpen flags file)

end Mes.C
