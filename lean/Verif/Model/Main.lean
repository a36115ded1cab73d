import Verif.Model.Reader
import Verif.Model.Eval
/-
`main`, from the reading of the program on: /repo/src/mes.c:151-157, 198-211.  The messages for `MES_DEBUG` are not modelled.
-/
namespace Mes
open Res

/-- `read_boot`: /repo/src/mes.c:151-157. -/
def readBoot (k fuel more : Nat) (s : St) (w : In) : Res (Int × St × In) := do
  let (x, s, w) ← readAll k fuel more s w
  let s := { s with r2 := x }
  let w := { w with stdin := 0 }
  ok (s.r2, s, w)

/-- What `main` does between the set-up and the call of `eval_apply`: /repo/src/mes.c:198-210. -/
def mainRead (k fuel more : Nat) (s : St) (w : In) : Res (St × In) := do
  let (program, s, w) ← readBoot k fuel more s w
  let (r0, s) ← acons s c_symbol_program program s.r0
  let s := { s with r0 := r0 }
  let s ← pushCc s s.r2 c_unspecified s.r0 c_unspecified
  let s := { s with r3 := c_vm_begin_expand }
  ok (s, w)

end Mes
