import Verif.Model.CExec
/-
`execl` and `execlp` of the C library.  The variable arguments are the list of the words that are passed after the named ones; to read one more
than were passed is undefined behaviour.  `execv` is represented by the texts that it is given: the name of the file and the arguments.  The messages
of `__mes_debug` are left out.
-/
namespace Mes.C
open Res

/-- The loop of `vexec` and the terminating null pointer: /repo/lib/posix/execl.c:33-46.  `argv` is an array of 1000 words; the list is the part that
is filled. -/
def vexecLoop : (ap argv : List Nat) → Res (List Nat)
  | [], _ => ub
  | arg :: ap, argv =>
    if arg ≠ 0 then do
      ubUnless (argv.length < 1000)
      vexecLoop ap (argv ++ [arg])
    else do
      ubUnless (argv.length < 1000)
      ok argv

/-- The texts of the arguments, which `execv` reads. -/
def argTexts (m : Mem) : List Nat → Res (List (List Byte))
  | [] => ok []
  | p :: ps => do
    let s ← cText m (m.length + 1) p
    let ss ← argTexts m ps
    ok (s :: ss)

/-- `vexec`: /repo/lib/posix/execl.c:25-50. -/
def vexec (m : Mem) (file : Nat) (ap : List Nat) : Res (List Byte × List (List Byte)) := do
  let argv ← vexecLoop ap [file]
  let f ← cText m (m.length + 1) file
  let args ← argTexts m argv
  ok (f, args)

/-- `execl`: /repo/lib/posix/execl.c:52-67.  The variable arguments begin after `arg`, which is not used. -/
def execl (m : Mem) (file _arg : Nat) (ap : List Nat) : Res (List Byte × List (List Byte)) := vexec m file ap

/-- `execlp`: /repo/lib/posix/execlp.c:26-48; `none` for `ENOENT`. -/
def execlp (access : List Byte → Bool) (w : Words) (buf pathLit slash : Nat) (m : Mem) (file _arg : Nat) (ap : List Nat) :
    Res (Option (List Byte × List (List Byte))) := do
  let c ← strchr m file 47
  let (name, m) ← match c with
    | some _ => ok (some file, m)
    | none => searchPath access w buf pathLit slash m file
  match name with
  | none => ok none
  | some name => do
    let r ← vexec m name ap
    ok (some r)

end Mes.C
