import Verif.Spec.Eval
import Verif.Spec.Machine
/-
Programs as they come from the reader, before their variables are expanded.

`expand_variable` (/repo/src/eval-apply.c:230-286) replaces names of global variables by cells that point to the variable, in the
pairs of the program themselves.  The program that is to be expanded therefore consists of cells that will change, and these have
to be different ones for different parts of the program.
-/
namespace Mes.Spec

/-- Names that `expand_variable` does not take as variables wherever they stand in a list: /repo/src/eval-apply.c:255-270. -/
def Keyword (x : Int) : Prop := x = c_symbol_lambda ∨ x = c_symbol_define ∨ x = c_symbol_define_macro ∨ x = c_symbol_quote

/-- Heads of special forms that `expand_variable` looks up like variables. -/
def formNames : List Int := [c_symbol_if, c_symbol_set_x, c_symbol_begin]

/-- A pair of a program that is not expanded yet. -/
structure SrcPair (s : St) (W : Ghost) (p : Int) : Prop where
  ne : p ≠ c_nil
  valid : s.Valid p
  tag : (s.cell p).tag = .pair
  src : W.src p

mutual
/-- The expression at the address, while its variables are expanded, and the pairs it consists of; literals, parameter lists and
names do not belong to them. -/
inductive IsSource (s : St) (W : Ghost) (mes : Bool) : Idents → Int → Expr → List Int → Prop
  | const {N : Idents} {c : Int} {d : Literal} (h : IsLiteral s W.chg c d)
      (ht : (s.cell c).tag ≠ .pair ∧ (s.cell c).tag ≠ .symbol ∧ (s.cell c).tag ≠ .variable) (hm : ¬ W.chg c) :
      IsSource s W mes N c (.const d) []
  | quote {N : Idents} {c : Int} {d : Literal} (hc : FixedPair s W.chg c) (hh : (s.cell c).car = c_symbol_quote)
      (h1 : FixedPair s W.chg (s.cell c).cdr) (hd : IsLiteral s W.chg (s.cell (s.cell c).cdr).car d) : IsSource s W mes N c (.quote d) []
  | var {N : Idents} {x : Int} (hx : IsName s W x) (hn : N x) (hr : ¬ Reserved x) (hk : ¬ Keyword x) (hs : x ≠ c_symbol_set_x) :
      IsSource s W mes N x (.var x) []
  | global {N : Idents} {c x : Int} (h : IsGlobal s W N c x) : IsSource s W mes N c (.var x) []
  | ite {N : Idents} {c : Int} {e₀ e₁ e₂ : Expr} {L : List Int} (hc : SrcPair s W c) (hh : (s.cell c).car = c_symbol_if)
      (h : IsSources s W mes N (s.cell c).cdr [e₀, e₁, e₂] L) : IsSource s W mes N c (.ite e₀ e₁ e₂) (c :: L)
  | ifOnly {N : Idents} {c : Int} {e₀ e₁ : Expr} {L : List Int} (hc : SrcPair s W c) (hh : (s.cell c).car = c_symbol_if)
      (h : IsSources s W mes N (s.cell c).cdr [e₀, e₁] L) : IsSource s W mes N c (.ifOnly e₀ e₁) (c :: L)
  | lam {N : Idents} {c : Int} {fs : List Int} {r : Option Int} {b : List Expr} {L : List Int} (hc : SrcPair s W c)
      (hh : (s.cell c).car = c_symbol_lambda) (h1 : SrcPair s W (s.cell c).cdr)
      (hf : IsFormals s W.chg (s.cell (s.cell c).cdr).car fs r)
      (hb : IsSources s W mes (N.under fs r) (s.cell (s.cell c).cdr).cdr b L) (hn : b ≠ []) :
      IsSource s W mes N c (.lam fs r b) (c :: (s.cell c).cdr :: L)
  | app {N : Idents} {c : Int} {f : Expr} {args : List Expr} {L L' : List Int} (hc : SrcPair s W c) (hh : ¬ SpecialForm (s.cell c).car)
      (hf : IsSource s W mes N (s.cell c).car f L) (ha : IsSources s W mes N (s.cell c).cdr args L') (hs : mes = false → Direct f) :
      IsSource s W mes N c (.app f args) (c :: (L ++ L'))
  | begin {N : Idents} {c : Int} {es : List Expr} {L : List Int} (hc : SrcPair s W c) (hh : (s.cell c).car = c_symbol_begin)
      (hs : IsSources s W mes N (s.cell c).cdr es L) (hn : es ≠ []) : IsSource s W mes N c (.begin es) (c :: L)
  | set {N : Idents} {c x : Int} {e : Expr} {L : List Int} (hc : SrcPair s W c) (hh : (s.cell c).car = c_symbol_set_x)
      (h1 : SrcPair s W (s.cell c).cdr) (hx : IsTarget s W N (s.cell (s.cell c).cdr).car x) (hk : ¬ Keyword x)
      (h : IsSources s W mes N (s.cell (s.cell c).cdr).cdr [e] L) : IsSource s W mes N c (.set x e) (c :: (s.cell c).cdr :: L)
/-- The list of expressions at the address, while their variables are expanded. -/
inductive IsSources (s : St) (W : Ghost) (mes : Bool) : Idents → Int → List Expr → List Int → Prop
  | nil {N : Idents} : IsSources s W mes N c_nil [] []
  | cons {N : Idents} {p : Int} {e : Expr} {es : List Expr} {L L' : List Int} (hp : SrcPair s W p) (he : IsSource s W mes N (s.cell p).car e L)
      (hl : (s.cell (s.cell p).car).car ≠ c_symbol_primitive_load) (h : IsSources s W mes N (s.cell p).cdr es L') :
      IsSources s W mes N p (e :: es) (p :: (L ++ L'))
end

/-- The number of cells for one more element of a list. -/
def extraCells : Expr → Nat
  | .lam fs _ _ => fs.length + 1
  | .var _ => 2
  | _ => 0

mutual
/-- A bound for the number of cells that expanding the variables of an expression takes. -/
def expandCells : Expr → Nat
  | .const _ => 0
  | .quote _ => 0
  | .var _ => 0
  | .ite a b c => 2 + (extraCells a + expandCells a) + (extraCells b + expandCells b) + (extraCells c + expandCells c)
  | .ifOnly a b => 2 + (extraCells a + expandCells a) + (extraCells b + expandCells b)
  | .lam fs _ b => fs.length + 1 + expandCellsSeq b
  | .app f args => extraCells f + expandCells f + expandCellsSeq args
  | .begin es => 2 + expandCellsSeq es
  | .set _ e => 4 + (extraCells e + expandCells e)
def expandCellsSeq : List Expr → Nat
  | [] => 0
  | e :: es => extraCells e + expandCells e + expandCellsSeq es
end

/-- The top level form at the address, while its variables are expanded, and the pairs it consists of: an expression,
`(define x e)`, or `(define (f . formals) body …)`. -/
inductive IsTop (s : St) (W : Ghost) (mes : Bool) (N : Idents) : Int → Toplevel → List Int → Prop
  | expr {c : Int} {e : Expr} {L : List Int} (h : IsSource s W mes N c e L) : IsTop s W mes N c (.expr e) L
  | define {c x : Int} {e : Expr} {L : List Int} (hc : SrcPair s W c) (hh : (s.cell c).car = c_symbol_define)
      (h1 : SrcPair s W (s.cell c).cdr) (hx : (s.cell (s.cell c).cdr).car = x) (hi : IsName s W x) (hn : N x) (hf : x ∉ formNames)
      (he : (∃ fs r b, e = .lam fs r b) ∧ IsSources s W mes N (s.cell (s.cell c).cdr).cdr [e] L ∨
        IsSources s W mes (N.without x) (s.cell (s.cell c).cdr).cdr [e] L) : IsTop s W mes N c (.define x e) (c :: (s.cell c).cdr :: L)
  | function {c t f : Int} {fs : List Int} {r : Option Int} {b : List Expr} {L : List Int} (hc : SrcPair s W c)
      (hh : (s.cell c).car = c_symbol_define) (h1 : SrcPair s W (s.cell c).cdr) (ht : (s.cell (s.cell c).cdr).car = t)
      (hp : FixedPair s W.chg t) (hx : (s.cell t).car = f) (hi : IsName s W f) (hn : N f) (hf : f ∉ formNames)
      (hs : IsFormals s W.chg (s.cell t).cdr fs r) (hb : IsSources s W mes (N.under fs r) (s.cell (s.cell c).cdr).cdr b L) (hne : b ≠ []) :
      IsTop s W mes N c (.define f (.lam fs r b)) (c :: (s.cell c).cdr :: L)

/-- A bound for the number of cells that expanding the variables of a form takes. -/
def topCells : Toplevel → Nat
  | .expr e => expandCells e
  | .define _ e => 1 + extraCells e + expandCells e

/-- The table of macros with `n` buckets; none of its cells may change. -/
structure MacroTable (s : St) (W : Ghost) (n : Nat) : Prop where
  valid : s.Valid s.macros
  tag : (s.cell s.macros).tag = .struct
  length : (s.cell s.macros).car = 5
  fixed : ¬ W.chg s.macros
  size : IsNum s ((s.cell s.macros).cdr + 3) n
  sfixed : ¬ W.chg ((s.cell s.macros).cdr + 3)
  rvalid : s.Valid ((s.cell s.macros).cdr + 4)
  rtag : (s.cell ((s.cell s.macros).cdr + 4)).tag = .ref
  rfixed : ¬ W.chg ((s.cell s.macros).cdr + 4)
  vvalid : s.Valid (bucketsOf s s.macros)
  vtag : (s.cell (bucketsOf s s.macros)).tag = .vector
  vlength : (s.cell (bucketsOf s s.macros)).car = n
  vfixed : ¬ W.chg (bucketsOf s s.macros)
  pos : 0 < n
  small : n ≤ 2147483647

/-- The cell of the bucket for `x` in the table of macros. -/
def macroBucket (s : St) (W : Ghost) (n : Nat) (x : Int) : Int := (s.cell (bucketsOf s s.macros)).cdr + slot n (W.name x)

/-- `x` is not the name of a macro: its bucket in the table of macros is not used or does not contain it. -/
structure NotMacro (s : St) (W : Ghost) (n : Nat) (x : Int) : Prop where
  valid : s.Valid (macroBucket s W n x)
  tag : (s.cell (macroBucket s W n x)).tag = .ref
  fixed : ¬ W.chg (macroBucket s W n x)
  none : (s.cell (macroBucket s W n x)).car = c_unspecified ∨
    FixedPair s W.chg (s.cell (macroBucket s W n x)).car ∧ Assq s W x (s.cell (macroBucket s W n x)).car .none

mutual
/-- A bound for the number of cells that looking for macros in an expression takes. -/
def macroCells : Expr → Nat
  | .const _ => 0
  | .quote _ => 0
  | .var _ => 0
  | .ite a b c => 2 + (2 + macroCells a + (2 + macroCells b + (2 + macroCells c)))
  | .ifOnly a b => 2 + (2 + macroCells a + (2 + macroCells b))
  | .lam _ _ b => macroCellsSeq b
  | .app f args => 2 + macroCells f + macroCellsSeq args
  | .begin es => 2 + macroCellsSeq es
  | .set _ e => 1 + (2 + macroCells e)
def macroCellsSeq : List Expr → Nat
  | [] => 0
  | e :: es => 2 + macroCells e + macroCellsSeq es
end

mutual
/-- The number of frames that looking for macros in an expression takes. -/
def macroDepth : Expr → Nat
  | .const _ => 0
  | .quote _ => 0
  | .var _ => 0
  | .ite a b c => max (macroDepth a) (max (macroDepth b) (macroDepth c + 1) + 1) + 2
  | .ifOnly a b => max (macroDepth a) (macroDepth b + 1) + 2
  | .lam _ _ b => macroDepthSeq b + 1
  | .app f args => max (macroDepth f) (macroDepthSeq args) + 1
  | .begin es => macroDepthSeq es + 1
  | .set _ e => macroDepth e + 2
def macroDepthSeq : List Expr → Nat
  | [] => 0
  | e :: es => max (macroDepth e) (macroDepthSeq es) + 1
end

/-- The same for top level forms. -/
def topMacroCells : Toplevel → Nat
  | .expr e => macroCells e
  | .define _ e => 1 + (2 + macroCells e)

def topMacroDepth : Toplevel → Nat
  | .expr e => macroDepth e
  | .define _ e => macroDepth e + 2

/-- The forms of a program one after the other; the value is that of the last form. -/
inductive Loads (mes : Bool) (δ : Int → Int → List Value → Value → Prop) : Nat → Store → Value → List Toplevel → Value → Store → Prop
  | nil {d σ v} : Loads mes δ d σ v [] v σ
  | cons {d σ₁ σ₂ σ₃ v₁ v₂ v₃ f fs} (h : EvalForm mes δ d σ₁ f v₂ σ₂) (hs : Loads mes δ d σ₂ v₂ fs v₃ σ₃) : Loads mes δ d σ₁ v₁ (f :: fs) v₃ σ₃

/-- The list of top level forms at the address, before they are expanded, and the pairs the forms consist of.  The elements of
`(begin …)` count as forms of the program. -/
inductive IsProgram (s : St) (W : Ghost) (mes : Bool) (N : Idents) : Int → List Toplevel → List Int → Prop
  | nil : IsProgram s W mes N c_nil [] []
  | form {p : Int} {f : Toplevel} {fs : List Toplevel} {L L' : List Int} (hp : FixedPair s W.chg p) (h : IsTop s W mes N (s.cell p).car f L)
      (hl : (s.cell (s.cell p).car).car ≠ c_symbol_primitive_load)
      (hb : ¬ ((s.cell (s.cell p).car).tag = .pair ∧ (s.cell (s.cell p).car).car = c_symbol_begin))
      (hs : IsProgram s W mes N (s.cell p).cdr fs L') : IsProgram s W mes N p (f :: fs) (L ++ L')
  | block {p q : Int} {f : Toplevel} {fs fs' : List Toplevel} {L L' L'' : List Int} (hp : FixedPair s W.chg p) (hc : FixedPair s W.chg (s.cell p).car)
      (hh : (s.cell (s.cell p).car).car = c_symbol_begin) (hq : (s.cell (s.cell p).car).cdr = q) (hp' : FixedPair s W.chg q)
      (h : IsTop s W mes N (s.cell q).car f L) (hl : (s.cell (s.cell q).car).car ≠ c_symbol_primitive_load)
      (hs : IsProgram s W mes N (s.cell q).cdr fs L') (hs' : IsProgram s W mes N (s.cell p).cdr fs' L'') :
      IsProgram s W mes N p (f :: (fs ++ fs')) (L ++ (L' ++ L''))

/-! ### What changes and what is needed -/

/-- What the expansion of a program that consists of the pairs `L` does to the memory: only the cars of these pairs change, and
they become addresses of new cells. -/
structure Expands (s : St) (L : List Int) (s' : St) (k : Nat) : Prop where
  frame : Frame (· ∈ L) s s'
  tags : ∀ a, a < s.free → (s'.cell a).tag = (s.cell a).tag
  cars : ∀ a, a < s.free → (s'.cell a).car = (s.cell a).car ∨ s.free ≤ (s'.cell a).car
  cdrs : ∀ a, a < s.free → (s'.cell a).cdr = (s.cell a).cdr
  free : s'.free ≤ s.free + k

/-- What holds when the expansion of a part of a program starts. -/
structure ExpandPre (mes : Bool) (σ : Store) (W : Ghost) (s : St) (N : Idents) (L : List Int) (fm : Int) (X : List Int) (q : Option Int) (k : Nat) : Prop where
  world : World s W mes σ
  glob : W.glob = σ.globals
  env : IsEnv s W N s.r0 fun _ => none
  formals : IsFormals s W.chg fm X q
  free : ∀ x, x ∉ X ++ q.toList → N.free x
  forms : ∀ x ∈ formNames, IsName s W x ∧ N x ∧ σ.globals x = none
  nodup : L.Nodup
  cur : ∀ a ∈ L, W.cur a
  room : Room s k

/-- What is known about the macros. -/
structure Macros (mes : Bool) (σ : Store) (W : Ghost) (n : Nat) (s : St) : Prop where
  world : World s W mes σ
  table : MacroTable s W n
  portable : IsName s W c_symbol_portable_macro_expand ∧ NotMacro s W n c_symbol_portable_macro_expand

/-- None of the names of a program is the name of a macro. -/
structure MacroFree (mes : Bool) (σ : Store) (W : Ghost) (n : Nat) (N : Idents) (s : St) : Prop where
  macros : Macros mes σ W n s
  names : ∀ x, N x → NotMacro s W n x
  heads : ∀ x ∈ c_symbol_define :: formNames, IsName s W x ∧ NotMacro s W n x

/-- What loading a program needs. -/
structure ProgramPre (mes : Bool) (σ : Store) (W : Ghost) (n : Nat) (N : Idents) (s : St) : Prop where
  free : MacroFree mes σ W n N s
  scope : IsScope s W N s.r0 fun _ => none
  key : (s.cell (s.cell s.r0).car).car ≠ c_closure
  names : ∀ x, N.free x
  forms : ∀ x ∈ formNames, N x ∧ σ.globals x = none

/-- C calls the evaluator for the form `f` that consists of the pairs `L`; it may be expanded or not. -/
structure AtSource (s : St) (W : Ghost) (mes : Bool) (N : Idents) (σ : Store) (f : Toplevel) (L : List Int) : Prop where
  called : Called c_vm_eval s
  world : World s W mes σ
  form : IsTop s W mes N s.r1 f L
  scope : IsScope s W N s.r0 fun _ => none
  top : (s.cell (s.cell s.r0).car).car ≠ c_closure
  names : ∀ x, N.free x
  forms : ∀ x ∈ formNames, IsName s W x ∧ N x ∧ σ.globals x = none
  cur : ∀ a ∈ L, W.cur a

/-- C calls the evaluator for the program that consists of the forms `fs`, and these of the pairs `L`. -/
structure AtProgram (s : St) (W : Ghost) (mes : Bool) (n : Nat) (N : Idents) (σ : Store) (fs : List Toplevel) (L : List Int) : Prop where
  called : Called c_vm_begin_expand s
  pre : ProgramPre mes σ W n N s
  program : IsProgram s W mes N s.r1 fs L
  fresh : ∀ a ∈ L, ¬ W.cur a

end Mes.Spec
