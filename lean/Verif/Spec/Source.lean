import Verif.Spec.Load
import Verif.Spec.Reading
import Verif.Spec.Writing
/-
The programs that texts stand for.

A text is read as data (`Spec/Syntax.lean`), where symbols are given by their names.  This file says which program such data
stand for, in the usual way, where `ν` gives the symbol for each name.
-/
namespace Mes.Spec

/-- The names of the special forms. -/
def nameQuote : List Byte := [113, 117, 111, 116, 101]
def nameIf : List Byte := [105, 102]
def nameLambda : List Byte := [108, 97, 109, 98, 100, 97]
def nameBegin : List Byte := [98, 101, 103, 105, 110]
def nameSet : List Byte := [115, 101, 116, 33]
def nameDefine : List Byte := [100, 101, 102, 105, 110, 101]

/-- The names of the special forms belong to the symbols that the evaluator knows. -/
structure Naming (ν : List Byte → Int) : Prop where
  quote : ν nameQuote = c_symbol_quote
  ifs : ν nameIf = c_symbol_if
  lambda : ν nameLambda = c_symbol_lambda
  begin : ν nameBegin = c_symbol_begin
  set : ν nameSet = c_symbol_set_x
  define : ν nameDefine = c_symbol_define

/-- The names that occur in a datum. -/
inductive Datum.Uses (name : List Byte) : Datum → Prop
  | here : Uses name (.sym name)
  | car {a d : Datum} (h : Uses name a) : Uses name (.pair a d)
  | cdr {a d : Datum} (h : Uses name d) : Uses name (.pair a d)

/-- Quoted data: empty lists, truth values, numbers, characters, symbols and pairs of them. -/
inductive IsDatum (ν : List Byte → Int) : Datum → Literal → Prop
  | nil : IsDatum ν .nil (.obj c_nil)
  | bool (b : Bool) : IsDatum ν (.bool b) (.obj (if b then c_t else c_f))
  | num (n : Int) : IsDatum ν (.num n) (.int n)
  | chr (n : Int) : IsDatum ν (.chr n) (.char n)
  | sym {name : List Byte} (h : ν name ≠ c_undefined) : IsDatum ν (.sym name) (.obj (ν name))
  | pair {a d : Datum} {x y : Literal} (ha : IsDatum ν a x) (hd : IsDatum ν d y) : IsDatum ν (.pair a d) (.pair x y)

/-- A list of parameters, possibly with a name for the rest; their symbols are in `N`. -/
inductive IsParams (ν : List Byte → Int) (N : Int → Prop) : Datum → List Int → Option Int → Prop
  | nil : IsParams ν N .nil [] none
  | rest {name : List Byte} (h : N (ν name)) : IsParams ν N (.sym name) [] (some (ν name))
  | cons {name : List Byte} {d : Datum} {xs : List Int} {r : Option Int} (h : N (ν name)) (hd : IsParams ν N d xs r) :
      IsParams ν N (.pair (.sym name) d) (ν name :: xs) r

/-- The evaluator does not take the datum for `(primitive-load …)` when it looks at the second word of the cell, which is the
length in the case of symbols: /repo/src/eval-apply.c:822-824, 870-872. -/
def NotLoad (ν : List Byte → Int) : Datum → Prop
  | .sym name => (name.length : Int) ≠ c_symbol_primitive_load
  | .pair (.sym name) _ => ν name ≠ c_symbol_primitive_load
  | _ => True

mutual
/-- The expression that a datum stands for; the symbols of its variables are in `N`.  With `mes = false` operators are
variables or lambda expressions. -/
inductive Means (ν : List Byte → Int) (mes : Bool) : (Int → Prop) → Datum → Expr → Prop
  | nil {N : Int → Prop} : Means ν mes N .nil (.const (.obj c_nil))
  | bool {N : Int → Prop} (b : Bool) : Means ν mes N (.bool b) (.const (.obj (if b then c_t else c_f)))
  | num {N : Int → Prop} (n : Int) : Means ν mes N (.num n) (.const (.int n))
  | chr {N : Int → Prop} (n : Int) : Means ν mes N (.chr n) (.const (.char n))
  | var {N : Int → Prop} {name : List Byte} (hn : N (ν name)) (hr : ¬ Reserved (ν name)) (hk : ¬ Keyword (ν name)) (hs : ν name ≠ c_symbol_set_x) :
      Means ν mes N (.sym name) (.var (ν name))
  /-- `(quote d)` -/
  | quote {N : Int → Prop} {d : Datum} {l : Literal} (h : IsDatum ν d l) : Means ν mes N (.pair (.sym nameQuote) (.pair d .nil)) (.quote l)
  /-- `(if e₀ e₁ e₂)` -/
  | ite {N : Int → Prop} {ds : Datum} {e₀ e₁ e₂ : Expr} (h : MeansSeq ν mes N ds [e₀, e₁, e₂]) : Means ν mes N (.pair (.sym nameIf) ds) (.ite e₀ e₁ e₂)
  /-- `(if e₀ e₁)` -/
  | ifOnly {N : Int → Prop} {ds : Datum} {e₀ e₁ : Expr} (h : MeansSeq ν mes N ds [e₀, e₁]) : Means ν mes N (.pair (.sym nameIf) ds) (.ifOnly e₀ e₁)
  /-- `(lambda params e …)` -/
  | lam {N : Int → Prop} {p ds : Datum} {fs : List Int} {r : Option Int} {b : List Expr} (hp : IsParams ν N p fs r) (hb : MeansSeq ν mes N ds b)
      (hn : b ≠ []) : Means ν mes N (.pair (.sym nameLambda) (.pair p ds)) (.lam fs r b)
  /-- `(f e …)` -/
  | app {N : Int → Prop} {df ds : Datum} {f : Expr} {args : List Expr} (hh : ∀ name, df = .sym name → ¬ SpecialForm (ν name))
      (hf : Means ν mes N df f) (ha : MeansSeq ν mes N ds args) (hs : mes = false → Direct f) : Means ν mes N (.pair df ds) (.app f args)
  /-- `(begin e …)` -/
  | begin {N : Int → Prop} {ds : Datum} {es : List Expr} (h : MeansSeq ν mes N ds es) (hn : es ≠ []) : Means ν mes N (.pair (.sym nameBegin) ds) (.begin es)
  /-- `(set! x e)` -/
  | set {N : Int → Prop} {name : List Byte} {ds : Datum} {e : Expr} (hn : N (ν name)) (hk : ¬ Keyword (ν name)) (h : MeansSeq ν mes N ds [e]) :
      Means ν mes N (.pair (.sym nameSet) (.pair (.sym name) ds)) (.set (ν name) e)
/-- A list of expressions. -/
inductive MeansSeq (ν : List Byte → Int) (mes : Bool) : (Int → Prop) → Datum → List Expr → Prop
  | nil {N : Int → Prop} : MeansSeq ν mes N .nil []
  | cons {N : Int → Prop} {d ds : Datum} {e : Expr} {es : List Expr} (h : Means ν mes N d e) (hl : NotLoad ν d) (hs : MeansSeq ν mes N ds es) :
      MeansSeq ν mes N (.pair d ds) (e :: es)
end

/-- The top level form that a datum stands for. -/
inductive MeansTop (ν : List Byte → Int) (mes : Bool) (N : Int → Prop) : Datum → Toplevel → Prop
  | expr {d : Datum} {e : Expr} (h : Means ν mes N d e) : MeansTop ν mes N d (.expr e)
  /-- `(define x e)`, where `e` is a lambda expression or does not use `x` -/
  | define {name : List Byte} {ds : Datum} {e : Expr} (hn : N (ν name)) (hf : ν name ∉ formNames)
      (h : (∃ fs r b, e = .lam fs r b) ∧ MeansSeq ν mes N ds [e] ∨ MeansSeq ν mes (fun y => N y ∧ y ≠ ν name) ds [e]) :
      MeansTop ν mes N (.pair (.sym nameDefine) (.pair (.sym name) ds)) (.define (ν name) e)
  /-- `(define (f . params) e …)` -/
  | function {name : List Byte} {p ds : Datum} {fs : List Int} {r : Option Int} {b : List Expr} (hn : N (ν name)) (hf : ν name ∉ formNames)
      (hp : IsParams ν N p fs r) (hb : MeansSeq ν mes N ds b) (hne : b ≠ []) :
      MeansTop ν mes N (.pair (.sym nameDefine) (.pair (.pair (.sym name) p) ds)) (.define (ν name) (.lam fs r b))

/-- The forms that the data of a text stand for; the elements of `(begin …)` count as forms of the program. -/
inductive MeansProgram (ν : List Byte → Int) (mes : Bool) (N : Int → Prop) : List Datum → List Toplevel → Prop
  | nil : MeansProgram ν mes N [] []
  | form {d : Datum} {ds : List Datum} {f : Toplevel} {fs : List Toplevel} (h : MeansTop ν mes N d f) (hl : NotLoad ν d)
      (hb : ∀ name d', d = .pair (.sym name) d' → ν name ≠ c_symbol_begin) (hs : MeansProgram ν mes N ds fs) : MeansProgram ν mes N (d :: ds) (f :: fs)
  | block {d : Datum} {ds ds' : List Datum} {f : Toplevel} {fs fs' : List Toplevel} (h : MeansTop ν mes N d f) (hl : NotLoad ν d)
      (hs : MeansProgram ν mes N ds fs) (hs' : MeansProgram ν mes N ds' fs') :
      MeansProgram ν mes N (.pair (.sym nameBegin) (.list (d :: ds)) :: ds') (f :: (fs ++ fs'))

/-- The address of the table of global variables. -/
def varTable (s : St) : Int := (s.cell ((s.cell s.m0).cdr + 5)).car

/-- The cell of the table of macros does not hold a macro whose name is in `N`. -/
structure MacroCell (s : St) (W : Ghost) (N : Int → Prop) (b : Int) : Prop where
  valid : s.Valid b
  tag : (s.cell b).tag = .ref
  fixed : ¬ W.chg b
  none : (s.cell b).car = c_unspecified ∨ FixedPair s W.chg (s.cell b).car ∧ ∀ x, N x → Assq s W x (s.cell b).car .none

/-- What `main` needs when it starts to read the program: the memory holds the store `σ`, the reader may change only cells that
the evaluator does not rely on, and no name of the program (these are in `N`) is the name of a macro. -/
structure BootPre (E : Env) (mes : Bool) (σ : Store) (W : Ghost) (n : Nat) (N : Int → Prop) (H : List (List Byte × Int)) (s : St) : Prop where
  world : World s W mes σ
  printable : Printable s
  chg : ∀ a, W.chg a → (s.cell a).tag ∈ [Tag.pair, .ref, .port]
  src : ∀ a, ¬ W.src a
  cur : ∀ a, ¬ W.cur a
  touch : ∀ a, E.touch a → W.chg a
  vars : ∀ i : Nat, (i : Int) < (s.cell (bucketsOf s (varTable s))).car → ¬ E.touch ((s.cell (bucketsOf s (varTable s))).cdr + i)
  names : ∀ name a, lookup name H = some a → N a → IsName s W a
  env : ∀ x, N x → Assq s W x s.r0 none
  keys : ¬ N c_symbol_program ∧ ¬ N c_closure
  forms : ∀ x ∈ formNames, N x ∧ σ.globals x = none
  heads : ∀ x ∈ c_symbol_portable_macro_expand :: c_symbol_define :: formNames, IsName s W x
  macros : MacroTable s W n
  buckets : ∀ i : Nat, i < n →
    MacroCell s W (fun x => N x ∨ x = c_symbol_portable_macro_expand ∨ x = c_symbol_define) ((s.cell (bucketsOf s s.macros)).cdr + i)

/-- The number of cells that reading a text of `l` bytes takes at most. -/
def readCells (E : Env) (l : Nat) : Int := (21 * l : Nat) + ((4 * l + 1 : Nat) : Int) * E.u

/-- There is room for a text of `l` bytes, for `k` more cells without garbage collection, and for `d` frames. -/
structure BootRoom (E : Env) (s : St) (l k d : Nat) : Prop where
  safe : 0 ≤ s.safety
  slack : s.free + (readCells E l + 2 + k) + s.safety ≤ s.arena
  deep : 5 * ((d : Int) + 1) ≤ s.sp
  top : s.sp ≤ s.stackSize

end Mes.Spec
