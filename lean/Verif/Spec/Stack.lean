import Verif.Model.Stack
import Verif.Spec.Array
import Verif.Spec.Table
/- Backtraces as lists of procedures. -/
namespace Mes.Spec

/-- A frame that shows a procedure: a struct of two fields, the symbol `frame` and the procedure. -/
def FrameOf (s : St) (f procedure : Int) : Prop :=
  ∃ ty pr, IsArr .struct s f [.obj ty, .obj pr, .obj c_symbol_frame, .obj procedure]

/-- The stack at `x` is the vector `v` of the frames `fs`. -/
def StackOf (s : St) (x v : Int) (fs : List Int) : Prop :=
  ∃ ty u, IsArr .struct s x [ty, u, .obj c_symbol_stack, .obj v] ∧ IsArr .vector s v (fs.map .obj)

/-- The procedures called in the frames of the evaluator, the oldest first; a frame has five entries, the last one is the procedure. -/
def calls (s : St) (n : Nat) : List Int := (List.range n).map fun (k : Nat) => s.stack (s.stackSize - 5 * k - 1)

end Mes.Spec
