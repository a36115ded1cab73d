import Verif.Spec.Table
/-
The core language and its meaning, and how programs, values and variables lie in memory.

The first half is the usual call-by-value semantics with a store, and does not mention the interpreter: a variable denotes
a location, a location holds a value.  `Eval mes δ d ρ σ e v σ'` says that the expression `e` has the value `v`, where `d` is a
bound on the number of operations that wait for a subexpression at any time; in tail position nothing waits.
-/
namespace Mes.Spec

/-- Literal data. -/
inductive Literal where
  | int (n : Int)
  | char (n : Int)
  | pair (a d : Literal)
  /-- any other object, given by its address: `#f`, `()`, symbols, strings, … -/
  | obj (a : Int)

/-- Expressions; names are the addresses of symbols. -/
inductive Expr where
  | const (d : Literal)
  | quote (d : Literal)
  | var (x : Int)
  | ite (c t e : Expr)
  /-- `if` without alternative -/
  | ifOnly (c t : Expr)
  | lam (formals : List Int) (rest : Option Int) (body : List Expr)
  | app (f : Expr) (args : List Expr)
  | begin (es : List Expr)
  | set (x : Int) (e : Expr)

/-- The locations of the local variables in scope. -/
abbrev Locals := Int → Option Nat

inductive Value where
  | int (n : Int)
  | char (n : Int)
  | pair (a d : Value)
  | clo (formals : List Int) (rest : Option Int) (body : List Expr) (ρ : Locals)
  /-- a builtin: number of arguments, −1 for any, and its number -/
  | prim (arity id : Int)
  | obj (a : Int)

/-- The value of a literal. -/
def Literal.val : Literal → Value
  | .int n => .int n
  | .char n => .char n
  | .pair a d => .pair a.val d.val
  | .obj a => .obj a

/-- The values of all locations and the locations of the global variables. -/
structure Store where
  vals : List Value
  globals : Int → Option Nat

/-- The location of a variable. -/
def Store.find (σ : Store) (ρ : Locals) (x : Int) : Option Nat := (ρ x).or (σ.globals x)

/-- Bind names to new locations, from `k` on; of equal names the first counts. -/
def bindAll : List Int → Nat → Locals → Locals
  | [], _, ρ => ρ
  | x :: xs, k, ρ => fun y => if y = x then some k else bindAll xs (k + 1) ρ y

/-- A list as a value. -/
def listVal : List Value → Value
  | [] => .obj c_nil
  | v :: vs => .pair v (listVal vs)

/-- The values of the parameters for the arguments `vs`; the rest parameter gets the list of the remaining ones. -/
def paramVals (formals : List Int) (rest : Option Int) (vs : List Value) : Option (List Value) :=
  match rest with
  | none => if vs.length = formals.length then some vs else none
  | some _ => if formals.length ≤ vs.length then some (vs.take formals.length ++ [listVal (vs.drop formals.length)]) else none

/-- Expressions in the place of the operator that can be evaluated any number of times: variables and lambda
expressions. -/
def Direct : Expr → Prop
  | .var _ => True
  | .lam .. => True
  | _ => False

mutual
/-- The meaning of expressions.  `δ` gives the values of builtins.  With `mes = false` this is the standard semantics, where
the operator is evaluated once, after the operands; with `mes = true` an operator that is not a variable or a lambda
expression is evaluated a first time before the operands, without using its value. -/
inductive Eval (mes : Bool) (δ : Int → Int → List Value → Value → Prop) : Nat → Locals → Store → Expr → Value → Store → Prop
  | const {d ρ σ} (c : Literal) : Eval mes δ d ρ σ (.const c) c.val σ
  | quote {d ρ σ} (c : Literal) : Eval mes δ d ρ σ (.quote c) c.val σ
  | var {d ρ σ x l v} (hl : σ.find ρ x = some l) (hv : σ.vals[l]? = some v) : Eval mes δ d ρ σ (.var x) v σ
  | iteTrue {d ρ σ c t e w v σ₁ σ₂} (hc : Eval mes δ d ρ σ c w σ₁) (hw : w ≠ .obj c_f) (ht : Eval mes δ (d + 1) ρ σ₁ t v σ₂) :
      Eval mes δ (d + 1) ρ σ (.ite c t e) v σ₂
  | iteFalse {d ρ σ c t e v σ₁ σ₂} (hc : Eval mes δ d ρ σ c (.obj c_f) σ₁) (he : Eval mes δ (d + 1) ρ σ₁ e v σ₂) :
      Eval mes δ (d + 1) ρ σ (.ite c t e) v σ₂
  | ifTrue {d ρ σ c t w v σ₁ σ₂} (hc : Eval mes δ d ρ σ c w σ₁) (hw : w ≠ .obj c_f) (ht : Eval mes δ (d + 1) ρ σ₁ t v σ₂) :
      Eval mes δ (d + 1) ρ σ (.ifOnly c t) v σ₂
  | ifFalse {d ρ σ c t σ₁} (hc : Eval mes δ d ρ σ c (.obj c_f) σ₁) :
      Eval mes δ (d + 1) ρ σ (.ifOnly c t) (.obj c_unspecified) σ₁
  | lam {d ρ σ} (fs : List Int) (r : Option Int) (b : List Expr) : Eval mes δ d ρ σ (.lam fs r b) (.clo fs r b ρ) σ
  | app {d ρ σ f args vs fv v σ₁ σ₂ σ₃} (hs : mes = true → Direct f) (ha : EvalArgs mes δ d ρ σ args vs σ₁)
      (hf : Eval mes δ d ρ σ₁ f fv σ₂) (hc : Call mes δ (d + 1) σ₂ fv vs v σ₃) : Eval mes δ (d + 1) ρ σ (.app f args) v σ₃
  | app2 {d ρ σ f args vs w fv v σ₀ σ₁ σ₂ σ₃} (hm : mes = true) (hs : ¬ Direct f) (h0 : Eval mes δ d ρ σ f w σ₀)
      (ha : EvalArgs mes δ d ρ σ₀ args vs σ₁) (hf : Eval mes δ d ρ σ₁ f fv σ₂) (hc : Call mes δ (d + 1) σ₂ fv vs v σ₃) :
      Eval mes δ (d + 1) ρ σ (.app f args) v σ₃
  | begin {d ρ σ es v σ'} (h : EvalSeq mes δ (d + 1) ρ σ es v σ') : Eval mes δ (d + 1) ρ σ (.begin es) v σ'
  | set {d ρ σ x e v l σ'} (h : Eval mes δ d ρ σ e v σ') (hl : σ'.find ρ x = some l) :
      Eval mes δ (d + 1) ρ σ (.set x e) (.obj c_unspecified) { σ' with vals := σ'.vals.set l v }
/-- Operands, from left to right. -/
inductive EvalArgs (mes : Bool) (δ : Int → Int → List Value → Value → Prop) : Nat → Locals → Store → List Expr → List Value → Store → Prop
  | nil {d ρ σ} : EvalArgs mes δ d ρ σ [] [] σ
  | cons {d ρ σ e es v vs σ₁ σ₂} (h : Eval mes δ d ρ σ e v σ₁) (hs : EvalArgs mes δ d ρ σ₁ es vs σ₂) :
      EvalArgs mes δ (d + 1) ρ σ (e :: es) (v :: vs) σ₂
/-- A sequence; its value is the value of the last expression. -/
inductive EvalSeq (mes : Bool) (δ : Int → Int → List Value → Value → Prop) : Nat → Locals → Store → List Expr → Value → Store → Prop
  | one {d ρ σ e v σ'} (h : Eval mes δ d ρ σ e v σ') : EvalSeq mes δ d ρ σ [e] v σ'
  | cons {d ρ σ e es w v σ₁ σ₂} (h : Eval mes δ d ρ σ e w σ₁) (hs : EvalSeq mes δ (d + 1) ρ σ₁ es v σ₂) :
      EvalSeq mes δ (d + 1) ρ σ (e :: es) v σ₂
/-- Application of a procedure to values. -/
inductive Call (mes : Bool) (δ : Int → Int → List Value → Value → Prop) : Nat → Store → Value → List Value → Value → Store → Prop
  | prim {d σ n id vs v} (h : δ n id vs v) : Call mes δ d σ (.prim n id) vs v σ
  | clo {d σ fs r b ρ vs ps v σ'} (hp : paramVals fs r vs = some ps)
      (h : EvalSeq mes δ d (bindAll (fs ++ r.toList) σ.vals.length ρ) { σ with vals := σ.vals ++ ps } b v σ') :
      Call mes δ d σ (.clo fs r b ρ) vs v σ'
  /-- `core:apply` calls a procedure with the elements of a list; it ignores further arguments (the module) -/
  | apply {d σ f vs rest v σ'} (h : Call mes δ d σ f vs v σ') :
      Call mes δ (d + 1) σ (.obj c_vm_apply) (f :: listVal vs :: rest) v σ'
end

/-- Top level forms. -/
inductive Toplevel where
  | expr (e : Expr)
  | define (x : Int) (e : Expr)

/-- A new global variable, with the value `#f` until it gets its own; an existing one keeps its location. -/
def Store.declare (σ : Store) (x : Int) : Nat × Store :=
  match σ.globals x with
  | some l => (l, σ)
  | none => (σ.vals.length, ⟨σ.vals ++ [.obj c_f], fun y => if y = x then some σ.vals.length else σ.globals y⟩)

/-- The meaning of a top level form. -/
inductive EvalForm (mes : Bool) (δ : Int → Int → List Value → Value → Prop) : Nat → Store → Toplevel → Value → Store → Prop
  | expr {d σ e v σ'} (h : Eval mes δ d (fun _ => none) σ e v σ') : EvalForm mes δ d σ (.expr e) v σ'
  | define {d σ x e v σ'} (h : Eval mes δ d (fun _ => none) (σ.declare x).2 e v σ') :
      EvalForm mes δ (d + 1) σ (.define x e) (.obj c_unspecified) { σ' with vals := σ'.vals.set (σ.declare x).1 v }

/-! ### Representation in memory -/

/-- What connects locations and addresses: the names of symbols, the address of the pair (name . value) of each location,
the cells that may change (these pairs, the buckets of the table of global variables, and programs that are yet to be expanded). -/
structure Ghost where
  name : Int → List Byte
  loc : Nat → Int
  count : Nat
  chg : Int → Prop
  /-- the global variables that expanded code uses -/
  glob : Int → Option Nat := fun _ => none
  /-- cells of programs that are yet to be expanded -/
  src : Int → Prop := fun _ => False
  /-- those of them that belong to the form that is loaded now -/
  cur : Int → Prop := fun _ => False

/-- About the names of variables in a piece of code: those that are looked up, and those that are not local where the code stands. -/
structure Idents where
  looked : Int → Prop
  free : Int → Prop := fun _ => True

instance : CoeFun Idents (fun _ => Int → Prop) := ⟨Idents.looked⟩

/-- In the body of a procedure with these parameters. -/
@[reducible] def Idents.under (N : Idents) (fs : List Int) (r : Option Int) : Idents := ⟨N.looked, fun x => N.free x ∧ x ∉ fs ++ r.toList⟩

/-- Where `x` is not looked up. -/
@[reducible] def Idents.without (N : Idents) (x : Int) : Idents := ⟨fun y => N y ∧ y ≠ x, N.free⟩

/-- Where these names are not looked up. -/
@[reducible] def Idents.except (N : Idents) (xs : List Int) : Idents := ⟨fun y => N y ∧ y ∉ xs, N.free⟩

variable (s : St) (M : Int → Prop)

/-- The cell at `p` is allocated, never changes, and is a pair. -/
structure FixedPair (p : Int) : Prop where
  ne : p ≠ c_nil
  valid : s.Valid p
  tag : (s.cell p).tag = .pair
  fixed : ¬ M p

/-- A literal in memory. -/
inductive IsLiteral : Int → Literal → Prop
  | int {a n : Int} (h : IsNum s a n) (hm : ¬ M a) : IsLiteral a (.int n)
  | char {a n : Int} (h : IsChar s a n) (hm : ¬ M a) : IsLiteral a (.char n)
  | pair {p : Int} {x y : Literal} (hp : FixedPair s M p) (hx : IsLiteral (s.cell p).car x) (hy : IsLiteral (s.cell p).cdr y) :
      IsLiteral p (.pair x y)
  | obj {a : Int} (hv : s.Valid a) (ht : (s.cell a).tag ∉ [Tag.number, .char, .pair, .values, .brokenHeart])
      (hu : a ≠ c_undefined) : IsLiteral a (.obj a)

/-- The symbol at `x` can be used as a variable. -/
structure IsName (W : Ghost) (x : Int) : Prop where
  text : HasText s x (W.name x)
  tag : (s.cell x).tag = .symbol
  fixed : ¬ W.chg x
  bfixed : ¬ W.chg (s.cell x).cdr
  ascii : 0 ≤ hashSum (W.name x)

/-- Symbols that `eval` does not look up, or `apply` does not evaluate: /repo/src/eval-apply.c:700-707, 503-526. -/
def Reserved (x : Int) : Prop :=
  x = c_symbol_boot_module ∨ x = c_symbol_current_module ∨ x = c_symbol_begin ∨
  x = c_symbol_call_with_current_continuation ∨ x = c_symbol_call_with_values

/-- Heads of special forms: /repo/src/eval-apply.c:551-618. -/
def SpecialForm (a : Int) : Prop :=
  a = c_symbol_pmatch_car ∨ a = c_symbol_pmatch_cdr ∨ a = c_symbol_quote ∨ a = c_symbol_begin ∨ a = c_symbol_lambda ∨
  a = c_symbol_if ∨ a = c_symbol_set_x ∨ a = c_vm_macro_expand ∨ a = c_symbol_define ∨ a = c_symbol_define_macro

/-- A list of parameters: names, and possibly a name in place of the final `()`. -/
inductive IsFormals : Int → List Int → Option Int → Prop
  | nil : IsFormals c_nil [] none
  | rest {x : Int} (hv : s.Valid x) (ht : (s.cell x).tag = .symbol) (hm : ¬ M x) : IsFormals x [] (some x)
  | cons {p : Int} {xs : List Int} {r : Option Int} (hp : FixedPair s M p) (hv : s.Valid (s.cell p).car)
      (hx : (s.cell (s.cell p).car).tag = .symbol) (h : IsFormals (s.cell p).cdr xs r) : IsFormals p ((s.cell p).car :: xs) r

/-- The variable `x` in expanded code: a cell that points to the pair of the global variable. -/
structure IsGlobal (W : Ghost) (N : Idents) (c x : Int) : Prop where
  valid : s.Valid c
  tag : (s.cell c).tag = .variable
  fixed : ¬ W.chg c
  free : N.free x
  loc : ∃ l, W.glob x = some l ∧ l < W.count ∧ (s.cell c).car = W.loc l

/-- What `set!` assigns to: a symbol or an expanded variable. -/
inductive IsTarget (W : Ghost) (N : Idents) : Int → Int → Prop
  | name {x : Int} (hi : IsName s W x) (hn : N x) : IsTarget W N x x
  | global {c x : Int} (h : IsGlobal s W N c x) : IsTarget W N c x

mutual
/-- The expression at the address; all variables that occur in it are in `N`. -/
inductive IsCode (s : St) (W : Ghost) (mes : Bool) : Idents → Int → Expr → Prop
  | const {N : Idents} {c : Int} {d : Literal} (h : IsLiteral s W.chg c d) (ht : (s.cell c).tag ≠ .pair ∧ (s.cell c).tag ≠ .symbol ∧ (s.cell c).tag ≠ .variable)
      (hm : ¬ W.chg c) : IsCode s W mes N c (.const d)
  | quote {N : Idents} {c : Int} {d : Literal} (hc : FixedPair s W.chg c) (hh : (s.cell c).car = c_symbol_quote)
      (h1 : FixedPair s W.chg (s.cell c).cdr) (hd : IsLiteral s W.chg (s.cell (s.cell c).cdr).car d) : IsCode s W mes N c (.quote d)
  | var {N : Idents} {x : Int} (hx : IsName s W x) (hn : N x) (hr : ¬ Reserved x) : IsCode s W mes N x (.var x)
  | global {N : Idents} {c x : Int} (h : IsGlobal s W N c x) : IsCode s W mes N c (.var x)
  | ite {N : Idents} {c : Int} {e₀ e₁ e₂ : Expr} (hc : FixedPair s W.chg c) (hh : (s.cell c).car = c_symbol_if)
      (h1 : FixedPair s W.chg (s.cell c).cdr) (he0 : IsCode s W mes N (s.cell (s.cell c).cdr).car e₀)
      (h2 : FixedPair s W.chg (s.cell (s.cell c).cdr).cdr) (he1 : IsCode s W mes N (s.cell (s.cell (s.cell c).cdr).cdr).car e₁)
      (h3 : FixedPair s W.chg (s.cell (s.cell (s.cell c).cdr).cdr).cdr)
      (he2 : IsCode s W mes N (s.cell (s.cell (s.cell (s.cell c).cdr).cdr).cdr).car e₂) : IsCode s W mes N c (.ite e₀ e₁ e₂)
  | ifOnly {N : Idents} {c : Int} {e₀ e₁ : Expr} (hc : FixedPair s W.chg c) (hh : (s.cell c).car = c_symbol_if)
      (h1 : FixedPair s W.chg (s.cell c).cdr) (he0 : IsCode s W mes N (s.cell (s.cell c).cdr).car e₀)
      (h2 : FixedPair s W.chg (s.cell (s.cell c).cdr).cdr) (he1 : IsCode s W mes N (s.cell (s.cell (s.cell c).cdr).cdr).car e₁)
      (h3 : (s.cell (s.cell (s.cell c).cdr).cdr).cdr = c_nil) : IsCode s W mes N c (.ifOnly e₀ e₁)
  | lam {N : Idents} {c : Int} {fs : List Int} {r : Option Int} {b : List Expr} (hc : FixedPair s W.chg c)
      (hh : (s.cell c).car = c_symbol_lambda) (h1 : FixedPair s W.chg (s.cell c).cdr)
      (hf : IsFormals s W.chg (s.cell (s.cell c).cdr).car fs r) (hb : IsSeq s W mes (N.under fs r) (s.cell (s.cell c).cdr).cdr b) (hn : b ≠ []) :
      IsCode s W mes N c (.lam fs r b)
  | app {N : Idents} {c : Int} {f : Expr} {args : List Expr} (hc : FixedPair s W.chg c) (hh : ¬ SpecialForm (s.cell c).car)
      (hf : IsCode s W mes N (s.cell c).car f) (ha : IsSeq s W mes N (s.cell c).cdr args) (hs : mes = false → Direct f) :
      IsCode s W mes N c (.app f args)
  | begin {N : Idents} {c : Int} {es : List Expr} (hc : FixedPair s W.chg c) (hh : (s.cell c).car = c_symbol_begin)
      (hs : IsSeq s W mes N (s.cell c).cdr es) (hn : es ≠ []) : IsCode s W mes N c (.begin es)
  | set {N : Idents} {c x : Int} {e : Expr} (hc : FixedPair s W.chg c) (hh : (s.cell c).car = c_symbol_set_x)
      (h1 : FixedPair s W.chg (s.cell c).cdr) (hx : IsTarget s W N (s.cell (s.cell c).cdr).car x)
      (h2 : FixedPair s W.chg (s.cell (s.cell c).cdr).cdr)
      (he : IsCode s W mes N (s.cell (s.cell (s.cell c).cdr).cdr).car e) : IsCode s W mes N c (.set x e)
/-- The list of expressions at the address.  None of them is `(primitive-load …)`. -/
inductive IsSeq (s : St) (W : Ghost) (mes : Bool) : Idents → Int → List Expr → Prop
  | nil {N : Idents} : IsSeq s W mes N c_nil []
  | cons {N : Idents} {p : Int} {e : Expr} {es : List Expr} (hp : FixedPair s W.chg p) (he : IsCode s W mes N (s.cell p).car e)
      (hl : (s.cell (s.cell p).car).car ≠ c_symbol_primitive_load) (h : IsSeq s W mes N (s.cell p).cdr es) :
      IsSeq s W mes N p (e :: es)
end

/-- The top level form at the address.  The expression of a definition is a lambda expression, or the variable does not occur
in it. -/
inductive IsForm (s : St) (W : Ghost) (mes : Bool) (N : Idents) : Int → Toplevel → Prop
  | expr {c : Int} {e : Expr} (h : IsCode s W mes N c e) : IsForm s W mes N c (.expr e)
  | define {c x : Int} {e : Expr} (hc : FixedPair s W.chg c) (hh : (s.cell c).car = c_symbol_define)
      (h1 : FixedPair s W.chg (s.cell c).cdr) (hx : (s.cell (s.cell c).cdr).car = x) (hi : IsName s W x) (hn : N x)
      (h2 : FixedPair s W.chg (s.cell (s.cell c).cdr).cdr)
      (he : (∃ fs r b, e = .lam fs r b) ∧ IsCode s W mes N (s.cell (s.cell (s.cell c).cdr).cdr).car e ∨
        IsCode s W mes (N.without x) (s.cell (s.cell (s.cell c).cdr).cdr).car e) : IsForm s W mes N c (.define x e)

/-- The first pair of the association list at `r` whose car is `x`. -/
inductive Assq (W : Ghost) (x : Int) : Int → Option Int → Prop
  | nil : Assq W x c_nil none
  | here {r : Int} (hr : FixedPair s W.chg r) (hv : s.Valid (s.cell r).car) (ht : (s.cell (s.cell r).car).tag = .pair)
      (hs : ¬ W.src (s.cell r).car) (hx : (s.cell (s.cell r).car).car = x) : Assq W x r (some (s.cell r).car)
  | next {r : Int} {o : Option Int} (hr : FixedPair s W.chg r) (hv : s.Valid (s.cell r).car)
      (ht : (s.cell (s.cell r).car).tag = .pair) (hs : ¬ W.src (s.cell r).car) (hx : (s.cell (s.cell r).car).car ≠ x)
      (h : Assq W x (s.cell r).cdr o) : Assq W x r o

/-- The association list at `r` gives all names in `N` the locations of `ρ`. -/
def IsEnv (W : Ghost) (N : Idents) (r : Int) (ρ : Locals) : Prop :=
  ∀ x, N x → Assq s W x r ((ρ x).map W.loc) ∧ ∀ l, ρ x = some l → l < W.count

/-- The same behind a first entry that does not matter. -/
structure IsScope (W : Ghost) (N : Idents) (r : Int) (ρ : Locals) : Prop where
  pair : FixedPair s W.chg r
  valid : s.Valid (s.cell r).car
  tag : (s.cell (s.cell r).car).tag = .pair
  src : ¬ W.src (s.cell r).car
  key : ¬ N (s.cell (s.cell r).car).car
  mark : ¬ N c_closure
  env : IsEnv s W N (s.cell r).cdr ρ
  free : ∀ x, N.free x → ρ x = none

/-- The record of the builtin number `id`. -/
structure IsBuiltin (a n id : Int) : Prop where
  valid : s.Valid a
  tag : (s.cell a).tag = .struct
  length : (s.cell a).car = 6
  fixed : ¬ M a
  kvalid : s.Valid ((s.cell a).cdr + 2)
  ktag : (s.cell ((s.cell a).cdr + 2)).tag = .ref
  kind : (s.cell ((s.cell a).cdr + 2)).car = c_symbol_builtin
  kfixed : ¬ M ((s.cell a).cdr + 2)
  arity : IsNum s ((s.cell a).cdr + 4) n
  afixed : ¬ M ((s.cell a).cdr + 4)
  function : IsNum s ((s.cell a).cdr + 5) id
  ffixed : ¬ M ((s.cell a).cdr + 5)

/-- The value at the address. -/
inductive IsVal (s : St) (W : Ghost) (mes : Bool) : Int → Value → Prop
  | int {a n : Int} (h : IsNum s a n) (hm : ¬ W.chg a) : IsVal s W mes a (.int n)
  | char {a n : Int} (h : IsChar s a n) (hm : ¬ W.chg a) : IsVal s W mes a (.char n)
  | pair {p : Int} {x y : Value} (hp : FixedPair s W.chg p) (hx : IsVal s W mes (s.cell p).car x)
      (hy : IsVal s W mes (s.cell p).cdr y) : IsVal s W mes p (.pair x y)
  | obj {a : Int} (hv : s.Valid a) (ht : (s.cell a).tag ∉ [Tag.number, .char, .pair, .values, .brokenHeart])
      (hu : a ≠ c_undefined) : IsVal s W mes a (.obj a)
  | prim {a n id : Int} (h : IsBuiltin s W.chg a n id) : IsVal s W mes a (.prim n id)
  | clo {a : Int} {N : Idents} {fs : List Int} {r : Option Int} {b : List Expr} {ρ : Locals}
      (hv : s.Valid a) (ht : (s.cell a).tag = .closure) (hm : ¬ W.chg a) (h0 : FixedPair s W.chg (s.cell a).cdr)
      (h1 : FixedPair s W.chg (s.cell (s.cell a).cdr).car)
      (h2 : FixedPair s W.chg (s.cell (s.cell (s.cell a).cdr).car).cdr)
      (hρ : IsEnv s W (N.except (fs ++ r.toList)) (s.cell (s.cell (s.cell (s.cell a).cdr).car).cdr).cdr ρ)
      (h3 : FixedPair s W.chg (s.cell (s.cell a).cdr).cdr)
      (hf : IsFormals s W.chg (s.cell (s.cell (s.cell a).cdr).cdr).car fs r)
      (hb : IsSeq s W mes (N.under fs r) (s.cell (s.cell (s.cell a).cdr).cdr).cdr b) (hn : b ≠ []) (hN : ¬ N c_closure)
      (hfree : ∀ x, N.free x → ρ x = none) :
      IsVal s W mes a (.clo fs r b ρ)

/-- The list of values at the address. -/
inductive IsVals (s : St) (W : Ghost) (mes : Bool) : Int → List Value → Prop
  | nil : IsVals s W mes c_nil []
  | cons {p : Int} {v : Value} {vs : List Value} (hp : FixedPair s W.chg p) (hv : IsVal s W mes (s.cell p).car v)
      (h : IsVals s W mes (s.cell p).cdr vs) : IsVals s W mes p (v :: vs)

/-- The addresses of values. -/
inductive Args (s : St) (W : Ghost) (mes : Bool) : List Int → List Value → Prop
  | nil : Args s W mes [] []
  | cons {u : Int} {v : Value} {us : List Int} {vs : List Value} (h : IsVal s W mes u v) (hs : Args s W mes us vs) :
      Args s W mes (u :: us) (v :: vs)

/-- The list of the addresses `xs` at `p`. -/
inductive Items : Int → List Int → Prop
  | nil : Items c_nil []
  | cons {p : Int} {xs : List Int} (hp : FixedPair s M p) (h : Items (s.cell p).cdr xs) : Items p ((s.cell p).car :: xs)

/-- The table of global variables at `t` with `n` buckets: names and the addresses of their pairs (name . value). -/
structure Globals (W : Ghost) (t : Int) (n : Nat) (H : List (Int × Int)) : Prop where
  valid : s.Valid t
  tag : (s.cell t).tag = .struct
  length : (s.cell t).car = 5
  fixed : ¬ W.chg t
  size : IsNum s ((s.cell t).cdr + 3) n
  sfixed : ¬ W.chg ((s.cell t).cdr + 3)
  rvalid : s.Valid ((s.cell t).cdr + 4)
  rtag : (s.cell ((s.cell t).cdr + 4)).tag = .ref
  rfixed : ¬ W.chg ((s.cell t).cdr + 4)
  vvalid : s.Valid (bucketsOf s t)
  vtag : (s.cell (bucketsOf s t)).tag = .vector
  vlength : (s.cell (bucketsOf s t)).car = n
  vfixed : ¬ W.chg (bucketsOf s t)
  pos : 0 < n
  small : n ≤ 2147483647
  bvalid : ∀ i : Nat, i < n → s.Valid ((s.cell (bucketsOf s t)).cdr + i)
  btag : ∀ i : Nat, i < n → (s.cell ((s.cell (bucketsOf s t)).cdr + i)).tag = .ref
  bmut : ∀ i : Nat, i < n → W.chg ((s.cell (bucketsOf s t)).cdr + i)
  bsrc : ∀ i : Nat, i < n → ¬ W.src ((s.cell (bucketsOf s t)).cdr + i)
  bucket : ∀ i : Nat, i < n → (H.filter (fun e => slot n (W.name e.1) = i) = [] →
      (s.cell ((s.cell (bucketsOf s t)).cdr + i)).car = c_unspecified) ∧
    (H.filter (fun e => slot n (W.name e.1) = i) ≠ [] →
      Items s W.chg (s.cell ((s.cell (bucketsOf s t)).cdr + i)).car
        ((H.filter (fun e => slot n (W.name e.1) = i)).map (·.2)))
  entry : ∀ e ∈ H, s.Valid e.2 ∧ (s.cell e.2).tag = .pair ∧ (s.cell e.2).car = e.1 ∧
    ((s.cell e.1).tag = .symbol ∨ (s.cell e.1).tag = .special) ∧ s.Valid e.1 ∧
    ¬ W.src e.2
  ascii : ∀ e ∈ H, 0 ≤ hashSum (W.name e.1)

/-- The memory holds the store: every location is a pair (name . value), the locations are different, and the global
variables are those in the table of the module `M0`. -/
structure World (W : Ghost) (mes : Bool) (σ : Store) : Prop where
  base : c_symbol_max ≤ s.free
  tags : Fixed s
  begin : (s.cell c_symbol_begin).car = 5
  count : W.count = σ.vals.length
  below : ∀ a, W.chg a → a < s.free
  chg : ∀ l, l < W.count → W.chg (W.loc l)
  inj : ∀ l l', l < W.count → l' < W.count → W.loc l = W.loc l' → l = l'
  pair : ∀ l, l < W.count → s.Valid (W.loc l) ∧ (s.cell (W.loc l)).tag = .pair
  holds : ∀ l v, σ.vals[l]? = some v → IsVal s W mes (s.cell (W.loc l)).cdr v
  module : s.Valid s.m0 ∧ (s.cell s.m0).tag = .struct ∧ 5 < (s.cell s.m0).car ∧ ¬ W.chg s.m0 ∧
    s.Valid ((s.cell s.m0).cdr + 5) ∧ (s.cell ((s.cell s.m0).cdr + 5)).tag = .ref ∧ ¬ W.chg ((s.cell s.m0).cdr + 5)
  table : ∃ n H, Globals s W (s.cell ((s.cell s.m0).cdr + 5)).car n H ∧
    ∀ x, lookup x H = (σ.globals x).map W.loc
  global : ∀ x l, σ.globals x = some l → l < W.count
  glob : ∀ x l, W.glob x = some l → σ.globals x = some l
  source : ∀ a, W.src a → W.chg a
  lsrc : ∀ l, l < W.count → ¬ W.src (W.loc l)

/-- How the C function of a builtin gets its arguments: one by one, or as a list. -/
inductive Passed (s : St) (W : Ghost) (mes : Bool) : Int → List Int → List Value → Prop
  | list {a : Int} {vs : List Value} (h : IsVals s W mes a vs) : Passed s W mes (-1) [a] vs
  | args {us : List Int} {vs : List Value} (h : Args s W mes us vs) (h3 : vs.length ≤ 3) : Passed s W mes vs.length us vs

/-- The C functions compute `δ`, without changing any cell in use, and the number of cells they need depends only on the
arguments. -/
def Implements (builtin : Nat → Int → List Int → St → Res (Int × St)) (mes : Bool) (δ : Int → Int → List Value → Value → Prop) : Prop :=
  ∀ n id vs v, δ n id vs v → (n = -1 ∨ n = vs.length ∧ vs.length ≤ 3) ∧
    ∃ k : Nat, ∀ s W σ us, World s W mes σ → Room s k → Passed s W mes n us vs →
      ∃ F r s', (∀ fuel, F ≤ fuel → builtin fuel id us s = .ok (r, s')) ∧ Ext s s' ∧ s'.free ≤ s.free + k ∧ IsVal s' W mes r v

/-! ### What the machine needs and what it leaves -/

/-- What never changes. -/
structure Consts (s s' : St) : Prop where
  m0 : s'.m0 = s.m0
  arena : s'.arena = s.arena
  safety : s'.safety = s.safety
  size : s'.stackSize = s.stackSize
  macros : s'.macros = s.macros

/-- The stack above the local part is the same; the topmost frame may have another procedure slot. -/
structure SameStack (s s' : St) : Prop where
  consts : Consts s s'
  sp : s'.sp = s.sp
  stack : ∀ i, s.sp ≤ i → i ≠ s.sp + 4 → s'.stack i = s.stack i

/-- The topmost frame was popped; `r1` is the result. -/
structure Popped (s s' : St) : Prop where
  consts : Consts s s'
  sp : s'.sp = s.sp + 5
  r0 : s'.r0 = s.stack (s.sp + 3)
  r2 : s'.r2 = s.stack (s.sp + 1)
  r3 : s'.r3 = s.stack s.sp
  stack : ∀ i, s.sp + 5 ≤ i → s'.stack i = s.stack i

/-- There is room for `k` cells without garbage collection, and for `d` frames. -/
structure Ready (s : St) (k d : Nat) : Prop where
  base : c_symbol_max ≤ s.free
  safe : 0 ≤ s.safety
  slack : s.free + k + s.safety ≤ s.arena
  deep : 5 * (d : Int) ≤ s.sp
  top : s.sp + 5 ≤ s.stackSize

end Mes.Spec
