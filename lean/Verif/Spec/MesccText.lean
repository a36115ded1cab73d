import Verif.Spec.MesccFits
import Verif.Model.Mescc

/-
Conditions on a program under which its text can be assembled.
-/
namespace Mes.CLang

/-- No variable of one or two bytes has an initial value. -/
def wide : Stmt → Bool
  | .skip | .brk | .cont | .expr _ | .assign _ _ | .ret _ | .decl _ _ none => true
  | .decl t _ (some _) => t.size != 1 && t.size != 2
  | .seq s t => wide s && wide t
  | .block s => wide s
  | .ifThen _ s => wide s
  | .ifElse _ s t => wide s && wide t
  | .while _ s => wide s
  | .doWhile s _ => wide s

/-- The code of the expression begins with that of a `?:`. -/
def leads : Expr → Bool
  | .fixed _ | .chr _ | .ident _ => false
  | .un _ a => leads a
  | .bin _ a _ => leads a
  | .land a _ => leads a
  | .lor a _ => leads a
  | .cond _ _ _ => true
  | .cast _ a => leads a

/-- No condition of a `?:` begins with a `?:`. -/
def led : Expr → Bool
  | .fixed _ | .chr _ | .ident _ => true
  | .un _ a => led a
  | .bin _ a b => led a && led b
  | .land a b => led a && led b
  | .lor a b => led a && led b
  | .cond a b c => !leads a && led a && led b && led c
  | .cast _ a => led a

/-- No condition of an `if` or a `?:` begins with a `?:`. -/
def ledS : Stmt → Bool
  | .skip | .brk | .cont | .decl _ _ none => true
  | .expr e | .assign _ e | .decl _ _ (some e) | .ret e => led e
  | .seq s t => ledS s && ledS t
  | .block s => ledS s
  | .ifThen c s => !leads c && led c && ledS s
  | .ifElse c s t => !leads c && led c && ledS s && ledS t
  | .while c s => led c && ledS s
  | .doWhile s c => led c && ledS s

/-- `break` and `continue` are inside of a loop. -/
def looped : Bool → Stmt → Bool
  | _, .skip | _, .expr _ | _, .assign _ _ | _, .decl _ _ _ | _, .ret _ => true
  | b, .brk | b, .cont => b
  | b, .seq s t => looped b s && looped b t
  | b, .block s => looped b s
  | b, .ifThen _ s => looped b s
  | b, .ifElse _ s t => looped b s && looped b t
  | _, .while _ s => looped true s
  | _, .doWhile s _ => looped true s

end Mes.CLang

namespace Mes.X86
open Mes.Mescc

def jumpTarget : Arg → Option String
  | .offset x => some x
  | _ => none

/-- The labels that the instructions of a text refer to as targets of jumps. -/
def targets (ls : List Line) : List String := ls.flatMap fun l =>
  match l with
  | .ins _ args => args.filterMap jumpTarget
  | _ => []

end Mes.X86
