import Verif.Spec.CLang

/-
A part of C that can be told from the text of a program, and that MesCC compiles correctly: signed types only; `&&` and `||` as values only
of truth values; `!=` only where no other value is alive, `?:` only where at most one is.
-/
namespace Mes.CLang

/-- Gives 0 or 1. -/
def isTruth : Expr → Bool
  | .un .not _ => true
  | .bin op _ _ => op.isCompare
  | .land _ _ => true
  | .lor _ _ => true
  | _ => false

def plainTy (t : Ty) : Bool := t.signed && (t.size == 1 || t.size == 2 || t.size == 4)

/-- `n` other values are alive while the expression is computed; `test`: the expression is a condition. -/
def plain : Bool → Nat → Expr → Bool
  | _, _, .fixed c => (c.suffix == .none || c.suffix == .l) && decide (c.value < 2 ^ 31)
  | _, _, .chr _ => true
  | _, _, .ident _ => true
  | _, n, .un _ a => plain false n a
  | _, n, .bin op a b => plain false n a && plain false (n + 1) b && (op != .ne || n == 0)
  | true, n, .land a b => plain true n a && plain true n b
  | false, n, .land a b => plain false n a && plain false n b && isTruth b
  | true, n, .lor a b => plain true n a && plain true n b
  | false, n, .lor a b => plain false n a && plain false n b && isTruth a && isTruth b
  | _, n, .cond a b c => decide (n ≤ 1) && plain true n a && plain false n b && plain false n c
  | _, n, .cast t a => plainTy t && plain false n a

def plainS : Stmt → Bool
  | .skip | .brk | .cont => true
  | .expr e => plain false 0 e
  | .assign _ e => plain false 0 e
  | .decl t _ none => plainTy t
  | .decl t _ (some e) => plainTy t && plain false 0 e
  | .seq s t => plainS s && plainS t
  | .block s => plainS s
  | .ifThen c s => plain true 0 c && plainS s
  | .ifElse c s t => plain true 0 c && plainS s && plainS t
  | .while c s => plain true 0 c && plainS s
  | .doWhile s c => plain true 0 c && plainS s
  | .ret e => plain false 0 e

/-- A function with signed parameters. -/
def plainF (f : Function) : Bool := plainS f.body && f.params.all fun p => plainTy p.2

end Mes.CLang
