import Verif.Spec.CLang

/-
The expressions that MesCC compiles correctly.  What is excluded are its faults:

* the type of a compound expression is taken to be that of its leftmost part, and no operand is converted; a division or a comparison goes
  by these types, so that they have to agree with those of the standard, or both operands have to be values that both types share;
* a constant is unsigned only if it has a suffix;
* `&&` and `||` give the value of an operand, not 0 or 1;
* `!=` overwrites eight bits of `%eax`, and `?:` forgets its value when more than one other value is alive.
-/
namespace Mes.CLang

/-- The type MesCC gives to an expression. -/
def leftType (ρ : Store) : Expr → Ty
  | .fixed c =>
    match c.suffix with
    | .u | .ul => .uint
    | .none | .l => .int
  | .chr _ => ⟨true, 1⟩
  | .ident x => ((ρ.find x).map (·.1)).getD .int
  | .un _ a => leftType ρ a
  | .bin _ a _ => leftType ρ a
  | .land a _ => leftType ρ a
  | .lor a _ => leftType ρ a
  | .cond _ b _ => leftType ρ b
  | .cast t _ => t

/-- A value that signed and unsigned types of four bytes share. -/
def Small (x : Int) : Prop := 0 ≤ x ∧ x < 2 ^ 31

/-- The operation is done with signs (`s`) as it should be, or it does not matter. -/
def SignOk (ρ : Store) (s : Bool) (a b : Expr) : Prop :=
  ∀ t u x y, typeOf ρ a = some t → typeOf ρ b = some u → eval ρ a = some x → eval ρ b = some y →
    s = (common t u).signed ∨ (Small x ∧ Small y)

def Binop.isDivision : Binop → Bool
  | .div | .mod => true
  | _ => false

def Binop.isOrder : Binop → Bool
  | .lt | .le | .gt | .ge => true
  | _ => false

/-- `n` other values are alive while the expression is computed; `test`: the expression is a condition. -/
def Fits (ρ : Store) : Bool → Nat → Expr → Prop
  | _, _, .fixed _ => True
  | _, _, .chr _ => True
  | _, _, .ident _ => True
  | _, n, .un _ a => Fits ρ false n a
  | _, n, .bin op a b =>
    Fits ρ false n a ∧ Fits ρ false (n + 1) b ∧ (op = .ne → n = 0) ∧
    (op.isDivision → SignOk ρ (leftType ρ a).signed a b) ∧
    (op.isOrder → SignOk ρ ((leftType ρ a).signed && (leftType ρ b).signed) a b)
  | true, n, .land a b => Fits ρ true n a ∧ Fits ρ true n b
  | false, n, .land a b =>
    Fits ρ false n a ∧ Fits ρ false n b ∧ ∀ x y, eval ρ a = some x → x ≠ 0 → eval ρ b = some y → y = 0 ∨ y = 1
  | true, n, .lor a b => Fits ρ true n a ∧ Fits ρ true n b
  | false, n, .lor a b =>
    Fits ρ false n a ∧ Fits ρ false n b ∧ (∀ x, eval ρ a = some x → x = 0 ∨ x = 1) ∧
    ∀ y, eval ρ a = some 0 → eval ρ b = some y → y = 0 ∨ y = 1
  | _, n, .cond a b c => n ≤ 1 ∧ Fits ρ true n a ∧ Fits ρ false n b ∧ Fits ρ false n c
  | _, n, .cast t a => t.Ok ∧ Fits ρ false n a

/-- The number of values an expression needs. -/
def depth : Expr → Nat
  | .fixed _ => 1
  | .chr _ => 1
  | .ident _ => 1
  | .un _ a => max (depth a) 2
  | .bin _ a b => max (depth a) (depth b + 1)
  | .land a b => max (depth a) (depth b)
  | .lor a b => max (depth a) (depth b)
  | .cond a b c => max (depth a) (max (depth b) (depth c))
  | .cast _ a => depth a

/-- Every expression fits, in every state in which it is evaluated when the statement is run. -/
def FitsRun : Nat → Stmt → Store → Prop
  | 0, _, _ => True
  | n + 1, s, ρ =>
    match s with
    | .skip => True
    | .brk => True
    | .cont => True
    | .expr e => Fits ρ false 0 e
    | .assign _ e => Fits ρ false 0 e
    | .decl t _ none => t.Ok
    | .decl t x (some e) => t.Ok ∧ Fits ((x, t, none) :: ρ) false 0 e
    | .seq s t => FitsRun n s ρ ∧ ∀ ρ', run n s ρ = some (ρ', .normal) → FitsRun n t ρ'
    | .block s => FitsRun n s ρ
    | .ifThen c s => Fits ρ true 0 c ∧ ∀ v, eval ρ c = some v → v ≠ 0 → FitsRun n s ρ
    | .ifElse c s t => Fits ρ true 0 c ∧ ∀ v, eval ρ c = some v → FitsRun n (if v ≠ 0 then s else t) ρ
    | .while c s => Fits ρ true 0 c ∧ ∀ v, eval ρ c = some v → v ≠ 0 →
        FitsRun n s ρ ∧ ∀ ρ' o, run n s ρ = some (ρ', o) → o = .normal ∨ o = .cont → FitsRun n (.while c s) (ρ.leave ρ')
    | .doWhile s c => FitsRun n s ρ ∧ ∀ ρ' o, run n s ρ = some (ρ', o) → o = .normal ∨ o = .cont →
        Fits (ρ.leave ρ') true 0 c ∧ ∀ v, eval (ρ.leave ρ') c = some v → v ≠ 0 → FitsRun n (.doWhile s c) (ρ.leave ρ')
    | .ret e => Fits ρ false 0 e

/-- The number of values that the expressions of a statement need. -/
def depthS : Stmt → Nat
  | .skip | .brk | .cont => 0
  | .expr e => depth e
  | .assign _ e => depth e
  | .decl _ _ none => 0
  | .decl _ _ (some e) => depth e
  | .seq s t => max (depthS s) (depthS t)
  | .block s => depthS s
  | .ifThen c s => max (depth c) (depthS s)
  | .ifElse c s t => max (depth c) (max (depthS s) (depthS t))
  | .while c s => max (depth c) (depthS s)
  | .doWhile s c => max (depth c) (depthS s)
  | .ret e => depth e

/-- The number of declarations. -/
def decls : Stmt → Nat
  | .skip | .brk | .cont => 0
  | .expr _ => 0
  | .assign _ _ => 0
  | .decl _ _ _ => 1
  | .seq s t => decls s + decls t
  | .block s => decls s
  | .ifThen _ s => decls s
  | .ifElse _ s t => decls s + decls t
  | .while _ s => decls s
  | .doWhile s _ => decls s
  | .ret _ => 0

end Mes.CLang
