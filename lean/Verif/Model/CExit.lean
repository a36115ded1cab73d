import Verif.Model.Res
/-
`atexit` and `exit` of the C library.  A function is its address; what it registers while it runs is a parameter.  The calls that `exit` makes are
the result.
-/
namespace Mes.C
open Res

/-- `atexit`: /repo/lib/stdlib/atexit.c:24-28: the new value of `__call_at_exit`, and the result, which is indeterminate: there is no `return`. -/
def atexit (_callAtExit function : Nat) : Nat × Option Int := (function, none)

/-- The registrations of a program, one after the other, beginning with a `__call_at_exit` that is null: /repo/lib/stdlib/exit.c:23. -/
def registered (fs : List Nat) : Nat := fs.foldl (fun g f => (atexit g f).1) 0

/-- `exit`: /repo/lib/stdlib/exit.c:25-31: the functions that are called, and what `_exit` is given.  What the function registers while it runs is
assigned to `__call_at_exit`, which is not read again. -/
def exit (callAtExit : Nat) (code : Int) : List Nat × Int := if callAtExit ≠ 0 then ([callAtExit], code) else ([], code)

end Mes.C
