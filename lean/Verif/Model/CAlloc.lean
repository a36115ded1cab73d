import Verif.Model.CString
/-
Model of the memory allocator: /repo/lib/linux/malloc.c, /repo/lib/stdlib/calloc.c, realloc.c and free.c, with the Linux system
call brk (/repo/lib/linux/brk.c).

Linux sets the break when the address is between the start of the heap and the limit of the process, and returns the break, old
or new, in any case: it never returns −1 or another negative number.  Memory is mapped in pages: the memory of the process is
the flat byte memory up to the end of the page of the break, and an access above that is undefined behaviour.  New pages are
zero.  The memory below the start of the heap stands for all other memory of the process.
-/
namespace Mes.C
open Res

/-- A process: the start of the heap, the highest break that the kernel allows, the size of a page, the break, the memory, and
the C variable `__brk` (/repo/lib/linux/malloc.c:27), 0 before the first call. -/
structure Proc where
  start : Nat
  limit : Nat
  page : Nat
  top : Nat
  mem : Mem
  cur : Nat

/-- The end of the page of the break. -/
def pageEnd (page n : Nat) : Nat := (n + (page - 1)) / page * page

/-- The memory with another size. -/
def resize (m : Mem) (n : Nat) : Mem := m.take n ++ List.replicate (n - m.length) 0

/-- `brk`: /repo/lib/linux/brk.c:25-30, and the kernel. -/
def brk (s : Proc) (addr : Nat) : Int × Proc :=
  if s.start ≤ addr ∧ addr ≤ s.limit then (addr, { s with top := addr, mem := resize s.mem (pageEnd s.page addr) }) else (s.top, s)

/-- `sizeof (max_align_t)`: /repo/include/stddef.h:43. -/
def alignment : Nat := 8

/-- `malloc`: /repo/lib/linux/malloc.c:29-42. -/
def malloc (s : Proc) (size : Nat) : Nat × Proc :=
  let cur := if s.cur = 0 then (brk s 0).1.toNat else s.cur
  let cur := (cur + alignment - 1) % 2 ^ 64 / alignment * alignment
  let (r, s') := brk s ((cur + size) % 2 ^ 64)
  if r = -1 then (0, { s' with cur := cur })
  else (cur, { s' with cur := (cur + size) % 2 ^ 64 })

/-- `calloc`: /repo/lib/stdlib/calloc.c:24-31. -/
def calloc (s : Proc) (nmemb size : Nat) : Res (Nat × Proc) := do
  let count := nmemb * size % 2 ^ 64
  let (p, s) := malloc s count
  let (m, _) ← memset s.mem p 0 count
  ok (p, { s with mem := m })

/-- `realloc`: /repo/lib/stdlib/realloc.c:24-34; `free` does nothing (/repo/lib/stdlib/free.c:23-26). -/
def realloc (s : Proc) (ptr size : Nat) : Res (Nat × Proc) := do
  let (new, s) := malloc s size
  if ptr ≠ 0 ∧ new ≠ 0 then do
    let (m, _) ← memcpy s.mem new ptr size
    ok (new, { s with mem := m })
  else ok (new, s)

/-- Assignment to a byte of the memory by the program. -/
def store (s : Proc) (a : Nat) (b : Byte) : Res Proc := do
  let m ← s.mem.wr a b
  ok { s with mem := m }

end Mes.C
