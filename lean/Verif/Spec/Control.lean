import Verif.Spec.Array
/-
The control state of the machine (Model/Eval): the registers `R0`, `R2`, `R3` and the stack, up to copies of numbers and characters.
-/
namespace Mes.Spec

/-- The entries of the stack from the top on are the values. -/
structure StackIs (s : St) (vs : List Val) : Prop where
  base : 0 ≤ s.sp
  size : s.stackSize - s.sp = vs.length
  entry : ∀ (i : Nat) v, vs[i]? = some v → ValAt s (s.stack (s.sp + i)) v

/-- The control state. -/
structure HasControl (s : St) (r0 r2 r3 : Val) (vs : List Val) : Prop where
  r0 : ValAt s s.r0 r0
  r2 : ValAt s s.r2 r2
  r3 : ValAt s s.r3 r3
  stack : StackIs s vs

/-- The continuation at `k` holds a stack with the entries `vs`. -/
structure IsCont (s : St) (k : Int) (vs : List Val) : Prop where
  valid : s.Valid k
  tag : (s.cell k).tag = .continuation
  vec : IsArr .vector s (s.cell k).cdr vs

/-- `s'` comes from `s` by allocating cells, and changing registers and the stack. -/
structure Later' (s s' : St) : Prop where
  le : s.free ≤ s'.free
  same : ∀ a, a < s.free → s'.cell a = s.cell a
  arena : s'.arena = s.arena
  stackSize : s'.stackSize = s.stackSize

end Mes.Spec
