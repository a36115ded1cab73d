import Verif.Spec.Builtins
import Verif.Model.Res
/-
Expressions that raise an error.  The operator of an application is evaluated before its operands, and again after them;
in the standard semantics (`mes = false`) only operators for which this makes no difference are allowed.
-/
namespace Mes.Spec
open Mes

/-- Values that are not procedures: numbers, characters, `#f`, `#t`, `()`, the unspecified object, and the objects in `T`
(strings). -/
def NotProc (T : Int → Prop) : Value → Prop
  | .int _ => True
  | .char _ => True
  | .obj a => a = c_f ∨ a = c_t ∨ a = c_nil ∨ a = c_unspecified ∨ T a
  | _ => False

/-- The expression is a lambda expression. -/
def IsLam : Expr → Prop
  | .lam .. => True
  | _ => False

mutual
/-- The expression raises the error `key`.  `δ` gives the values of builtins, `ε` their errors. -/
inductive Fail (mes : Bool) (δ : Int → Int → List Value → Value → Prop) (ε : Int → Int → List Value → Key → Prop) (T : Int → Prop) :
    Nat → Locals → Store → Expr → Key → Prop
  | var {d ρ σ x} (h : σ.find ρ x = none) : Fail mes δ ε T d ρ σ (.var x) .unboundVariable
  | iteTest {d ρ σ c t e key} (h : Fail mes δ ε T d ρ σ c key) : Fail mes δ ε T (d + 1) ρ σ (.ite c t e) key
  | iteTrue {d ρ σ c t e w σ₁ key} (hc : Eval mes δ d ρ σ c w σ₁) (hw : w ≠ .obj c_f) (h : Fail mes δ ε T (d + 1) ρ σ₁ t key) :
      Fail mes δ ε T (d + 1) ρ σ (.ite c t e) key
  | iteFalse {d ρ σ c t e σ₁ key} (hc : Eval mes δ d ρ σ c (.obj c_f) σ₁) (h : Fail mes δ ε T (d + 1) ρ σ₁ e key) :
      Fail mes δ ε T (d + 1) ρ σ (.ite c t e) key
  | ifTest {d ρ σ c t key} (h : Fail mes δ ε T d ρ σ c key) : Fail mes δ ε T (d + 1) ρ σ (.ifOnly c t) key
  | ifTrue {d ρ σ c t w σ₁ key} (hc : Eval mes δ d ρ σ c w σ₁) (hw : w ≠ .obj c_f) (h : Fail mes δ ε T (d + 1) ρ σ₁ t key) :
      Fail mes δ ε T (d + 1) ρ σ (.ifOnly c t) key
  | operator {d ρ σ f args key} (h : Fail mes δ ε T d ρ σ f key) : Fail mes δ ε T (d + 1) ρ σ (.app f args) key
  | operands {d ρ σ f args w σ₀ key} (h0 : Eval mes δ d ρ σ f w σ₀) (h : FailArgs mes δ ε T d ρ σ₀ args key) :
      Fail mes δ ε T (d + 1) ρ σ (.app f args) key
  | again {d ρ σ f args w vs σ₀ σ₁ key} (h0 : Eval mes δ d ρ σ f w σ₀) (ha : EvalArgs mes δ d ρ σ₀ args vs σ₁)
      (h : Fail mes δ ε T d ρ σ₁ f key) : Fail mes δ ε T (d + 1) ρ σ (.app f args) key
  | call {d ρ σ f args w fv vs σ₀ σ₁ σ₂ key} (h0 : Eval mes δ d ρ σ f w σ₀) (ha : EvalArgs mes δ d ρ σ₀ args vs σ₁)
      (hf : Eval mes δ d ρ σ₁ f fv σ₂) (h : FailCall mes δ ε T (d + 1) σ₂ (IsLam f) fv vs key) :
      Fail mes δ ε T (d + 1) ρ σ (.app f args) key
  | begin {d ρ σ es key} (h : FailSeq mes δ ε T (d + 1) ρ σ es key) : Fail mes δ ε T (d + 1) ρ σ (.begin es) key
  | setValue {d ρ σ x e key} (h : Fail mes δ ε T d ρ σ e key) : Fail mes δ ε T (d + 1) ρ σ (.set x e) key
  /-- the variable is not bound -/
  | set {d ρ σ x e v σ'} (h : Eval mes δ d ρ σ e v σ') (hl : σ'.find ρ x = none) : Fail mes δ ε T (d + 1) ρ σ (.set x e) .notAPair
inductive FailArgs (mes : Bool) (δ : Int → Int → List Value → Value → Prop) (ε : Int → Int → List Value → Key → Prop) (T : Int → Prop) :
    Nat → Locals → Store → List Expr → Key → Prop
  | head {d ρ σ e es key} (h : Fail mes δ ε T d ρ σ e key) : FailArgs mes δ ε T (d + 1) ρ σ (e :: es) key
  | tail {d ρ σ e es v σ₁ key} (h : Eval mes δ d ρ σ e v σ₁) (hs : FailArgs mes δ ε T d ρ σ₁ es key) :
      FailArgs mes δ ε T (d + 1) ρ σ (e :: es) key
inductive FailSeq (mes : Bool) (δ : Int → Int → List Value → Value → Prop) (ε : Int → Int → List Value → Key → Prop) (T : Int → Prop) :
    Nat → Locals → Store → List Expr → Key → Prop
  | one {d ρ σ e key} (h : Fail mes δ ε T d ρ σ e key) : FailSeq mes δ ε T d ρ σ [e] key
  | head {d ρ σ e es key} (h : Fail mes δ ε T d ρ σ e key) (hne : es ≠ []) : FailSeq mes δ ε T (d + 1) ρ σ (e :: es) key
  | tail {d ρ σ e es w σ₁ key} (h : Eval mes δ d ρ σ e w σ₁) (hs : FailSeq mes δ ε T (d + 1) ρ σ₁ es key) :
      FailSeq mes δ ε T (d + 1) ρ σ (e :: es) key
/-- Application of a value; `lit` says that the operator is a lambda expression. -/
inductive FailCall (mes : Bool) (δ : Int → Int → List Value → Value → Prop) (ε : Int → Int → List Value → Key → Prop) (T : Int → Prop) :
    Nat → Store → Prop → Value → List Value → Key → Prop
  | notProc {d σ lit v vs} (h : NotProc T v) : FailCall mes δ ε T d σ lit v vs .wrongTypeArg
  /-- another number of arguments; too few for a lambda expression is another error -/
  | count {d σ fs b ρ vs} {lit : Prop} (h : vs.length ≠ fs.length) (hl : lit → fs.length < vs.length) :
      FailCall mes δ ε T d σ lit (.clo fs none b ρ) vs .wrongNumberOfArgs
  | few {d σ fs b ρ vs} {lit : Prop} (h : vs.length < fs.length) (hl : lit) : FailCall mes δ ε T d σ lit (.clo fs none b ρ) vs .notAPair
  /-- not enough arguments for a procedure with a rest parameter -/
  | fewRest {d σ lit fs r b ρ vs} (h : vs.length < fs.length) : FailCall mes δ ε T d σ lit (.clo fs (some r) b ρ) vs .notAPair
  | body {d σ lit fs r b ρ vs ps key} (hp : paramVals fs r vs = some ps)
      (h : FailSeq mes δ ε T d (bindAll (fs ++ r.toList) σ.vals.length ρ) { σ with vals := σ.vals ++ ps } b key) :
      FailCall mes δ ε T d σ lit (.clo fs r b ρ) vs key
  | arity {d σ lit n id vs} (h : n ≠ vs.length) (hn : n ≠ -1) : FailCall mes δ ε T d σ lit (.prim n id) vs .wrongNumberOfArgs
  | prim {d σ lit n id vs key} (h : ε n id vs key) : FailCall mes δ ε T d σ lit (.prim n id) vs key
  /-- `core:apply`, if the call of the procedure fails -/
  | apply {d σ lit f vs rest key} (h : FailCall mes δ ε T (d + 1) σ False f vs key) :
      FailCall mes δ ε T (d + 2) σ lit (.obj c_vm_apply) (f :: listVal vs :: rest) key
end

/-- The meaning of a top level form that raises an error. -/
inductive FailForm (mes : Bool) (δ : Int → Int → List Value → Value → Prop) (ε : Int → Int → List Value → Key → Prop) (T : Int → Prop) :
    Nat → Store → Toplevel → Key → Prop
  | expr {d σ e key} (h : Fail mes δ ε T d (fun _ => none) σ e key) : FailForm mes δ ε T d σ (.expr e) key
  | define {d σ x e key} (h : Fail mes δ ε T d (fun _ => none) (σ.declare x).2 e key) : FailForm mes δ ε T (d + 1) σ (.define x e) key

/-- A program raises an error: one of its forms does, and the forms before it give values. -/
inductive LoadFails (mes : Bool) (δ : Int → Int → List Value → Value → Prop) (ε : Int → Int → List Value → Key → Prop) (T : Int → Prop) :
    Nat → Store → List Toplevel → Key → Prop
  | head {d σ f fs key} (h : FailForm mes δ ε T d σ f key) : LoadFails mes δ ε T d σ (f :: fs) key
  | tail {d σ σ₁ f fs v key} (h : EvalForm mes δ d σ f v σ₁) (hs : LoadFails mes δ ε T d σ₁ fs key) : LoadFails mes δ ε T d σ (f :: fs) key

/-- The objects in `T` are strings. -/
def Strings (s : St) (W : Ghost) (T : Int → Prop) : Prop := ∀ a, T a → s.Valid a ∧ (s.cell a).tag = .string ∧ ¬ W.chg a

/-- The C functions raise the errors that `ε` says, and the number of cells they need depends only on the arguments. -/
def Raises (builtin : Nat → Int → List Int → St → Res (Int × St)) (mes : Bool) (ε : Int → Int → List Value → Key → Prop) : Prop :=
  ∀ n id vs key, ε n id vs key → (n = -1 ∨ n = vs.length ∧ vs.length ≤ 3) ∧
    ∃ k : Nat, ∀ s W σ us, World s W mes σ → Room s k → Passed s W mes n us vs → ∃ F, ∀ fuel, F ≤ fuel → builtin fuel id us s = .err key

/-- A value that is not a number. -/
def NotInt (v : Value) : Prop := ∀ n, v ≠ .int n

/-- The errors of some builtins. -/
inductive Rejects : Int → Int → List Value → Key → Prop
  | car {v : Value} (h : ∀ a b, v ≠ .pair a b) : Rejects 1 141 [v] .notAPair
  | cdr {v : Value} (h : ∀ a b, v ≠ .pair a b) : Rejects 1 142 [v] .notAPair
  | greater {v : Value} {ws : List Value} (hv : NotInt v) : Rejects (-1) 196 (v :: ws) .notANumber
  | less {v : Value} {ws : List Value} (hv : NotInt v) : Rejects (-1) 197 (v :: ws) .notANumber
  | equal {v : Value} {ws : List Value} (hv : NotInt v) : Rejects (-1) 198 (v :: ws) .notANumber
  | minus {v : Value} {ws : List Value} (hv : NotInt v) : Rejects (-1) 199 (v :: ws) .notANumber
  | plus {ns : List Int} {v : Value} {ws : List Value} (h : ∀ k, Word (ns.take k).sum) (hv : NotInt v) :
      Rejects (-1) 200 (ns.map .int ++ v :: ws) .notANumber
  | multiply {ns : List Int} {v : Value} {ws : List Value} (h : ∀ k, Word (product (ns.take k))) (hv : NotInt v) :
      Rejects (-1) 203 (ns.map .int ++ v :: ws) .notANumber

end Mes.Spec
