import Verif.Model.CEnv
/-
`search_path` and `execvp` of the C library.  The texts "PATH" and "/" are in the memory of the program, at places that are parameters.  What
`access (name, X_OK)` answers is a function of the name; `execve` is represented by the name that it is given.  The buffer is an object of 256
bytes: a text that goes beyond it is undefined behaviour.  The messages of `__mes_debug` are left out.
-/
namespace Mes.C
open Res

/-- The text that a system call reads at an address. -/
def cText (m : Mem) : (fuel : Nat) → (p : Nat) → Res (List Byte)
  | 0, _ => loop
  | fuel + 1, p => do
    let b ← m.rd p
    if b = 0 then ok []
    else do
      let s ← cText m fuel (p + 1)
      ok (b :: s)

/-- `end`: /repo/lib/mes/search-path.c:39-41. -/
def pathEnd (m : Mem) (path : Nat) : Res Nat := do
  let e ← strchr m path 58
  match e with
  | some e => ok e
  | none => do
    let e ← strchr m path 0
    match e with
    | some e => ok e
    | none => ub

/-- The name in the buffer: /repo/lib/mes/search-path.c:42-52.  The byte that is compared with '/' is the terminator that was written just before. -/
def pathName (buf slash file : Nat) (m : Mem) (path e : Nat) : Res Mem := do
  ubUnless (e - path < 256)
  let (m, _) ← strncpy m buf path (e - path)
  let m ← m.wr (buf + (e - path)) 0
  let c ← m.rd (buf + (e - path))
  let m ← if c ≠ 47 then do
      let (m, _) ← strcat m buf slash
      ok m
    else ok m
  let (m, _) ← strcat m buf file
  let n ← strlen m buf
  ubUnless (n < 256)
  ok m

/-- The loop of `search_path`: /repo/lib/mes/search-path.c:37-64. -/
def searchLoop (access : List Byte → Bool) (buf slash file : Nat) : (fuel : Nat) → Mem → (path : Nat) → Res (Option Nat × Mem)
  | 0, _, _ => loop
  | fuel + 1, m, path => do
    let b ← m.rd path
    if b = 0 then ok (none, m)
    else do
      let e ← pathEnd m path
      let m ← pathName buf slash file m path e
      let s ← cText m (m.length + 1) buf
      if access s then ok (some buf, m)
      else searchLoop access buf slash file fuel m (e + 1)

/-- `search_path`: /repo/lib/mes/search-path.c:26-66.  Without a PATH the null pointer is read. -/
def searchPath (access : List Byte → Bool) (w : Words) (buf pathLit slash : Nat) (m : Mem) (file : Nat) : Res (Option Nat × Mem) := do
  let path ← getenv m w pathLit
  match path with
  | none => ub
  | some path => searchLoop access buf slash file (m.length + 1) m path

/-- `execvp`: /repo/lib/posix/execvp.c:26-53: the name that `execve` is given, or `none` for `ENOENT`. -/
def execvp (access : List Byte → Bool) (w : Words) (buf pathLit slash : Nat) (m : Mem) (file : Nat) : Res (Option (List Byte)) := do
  let c ← strchr m file 47
  let (name, m) ← match c with
    | some _ => ok (some file, m)
    | none => searchPath access w buf pathLit slash m file
  match name with
  | none => ok none
  | some name => do
    let s ← cText m (m.length + 1) name
    ok (some s)

end Mes.C
