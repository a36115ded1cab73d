/-
A part of C: the syntax, as in the trees that Nyacc gives to MesCC, and the meaning, after ISO C (C99, 6.2.5, 6.3.1, 6.4.4, 6.5, 6.8)
with `char`, `short`, `int` and `long` of 1, 2, 4 and 4 bytes in two's complement, and `char` signed.  Undefined behaviour is `none`.

Only integer types; expressions have no side effects (assignments are statements).  Not fixed by the standard: the conversion of a value
that does not fit to a signed type wraps around; of a right shift of a negative value nothing is said (`none`).
-/
namespace Mes.CLang

/-- An integer type: signed or not, and the size in bytes. -/
structure Ty where
  signed : Bool
  size : Nat
deriving DecidableEq, Repr

def Ty.int : Ty := ⟨true, 4⟩
def Ty.uint : Ty := ⟨false, 4⟩

/-- The types there are. -/
def Ty.Ok (t : Ty) : Prop := t.size = 1 ∨ t.size = 2 ∨ t.size = 4

instance (t : Ty) : Decidable t.Ok := inferInstanceAs (Decidable (_ ∨ _))

inductive Suffix | none | u | l | ul
deriving DecidableEq, Repr

/-- A constant: whether it is written in decimal, its value and its suffix. -/
structure Const where
  decimal : Bool
  value : Nat
  suffix : Suffix
deriving DecidableEq, Repr

inductive Unop | neg | pos | bitNot | not
deriving DecidableEq, Repr

inductive Binop | add | sub | mul | div | mod | and | or | xor | shl | shr | eq | ne | lt | le | gt | ge
deriving DecidableEq, Repr

inductive Expr
  | fixed (c : Const)
  | chr (c : Nat)
  | ident (x : String)
  | un (op : Unop) (a : Expr)
  | bin (op : Binop) (a b : Expr)
  | land (a b : Expr)
  | lor (a b : Expr)
  | cond (a b c : Expr)
  | cast (t : Ty) (a : Expr)
deriving DecidableEq, Repr

/-- Statements; `seq` is a list of block items. -/
inductive Stmt
  | skip
  | expr (e : Expr)
  | assign (x : String) (e : Expr)
  | decl (t : Ty) (x : String) (e : Option Expr)
  | seq (s t : Stmt)
  | block (s : Stmt)
  | ifThen (c : Expr) (s : Stmt)
  | ifElse (c : Expr) (s t : Stmt)
  | while (c : Expr) (s : Stmt)
  | doWhile (s : Stmt) (c : Expr)
  | brk
  | cont
  | ret (e : Expr)
deriving DecidableEq, Repr

/-! ## Values and types -/

/-- The variables in scope, the innermost first: name, type, value (`none`: not yet initialised). -/
abbrev Store := List (String × Ty × Option Int)

/-- Conversion to a type. -/
def wrap (t : Ty) (v : Int) : Int := if t.signed then v.bmod (2 ^ (8 * t.size)) else v % 2 ^ (8 * t.size)

/-- Integer promotion. -/
def promote (t : Ty) : Ty := if t.size < 4 then .int else t

/-- The usual arithmetic conversions. -/
def common (a b : Ty) : Ty := if (promote a).signed && (promote b).signed then .int else .uint

/-- The type of a constant; the constants that need more than four bytes are left out. -/
def Const.ty (c : Const) : Option Ty :=
  match c.suffix with
  | .u | .ul => if c.value < 2 ^ 32 then some .uint else none
  | .none | .l =>
    if c.value < 2 ^ 31 then some .int
    else if c.decimal then none
    else if c.value < 2 ^ 32 then some .uint
    else none

def Store.find (ρ : Store) (x : String) : Option (Ty × Option Int) := (List.find? (fun e => e.1 = x) ρ).map (·.2)

def Binop.isCompare : Binop → Bool
  | .eq | .ne | .lt | .le | .gt | .ge => true
  | _ => false

def Binop.isShift : Binop → Bool
  | .shl | .shr => true
  | _ => false

def typeOf (ρ : Store) : Expr → Option Ty
  | .fixed c => c.ty
  | .chr _ => some .int
  | .ident x => (ρ.find x).map (·.1)
  | .un .not a => do let _ ← typeOf ρ a; some .int
  | .un _ a => do let t ← typeOf ρ a; some (promote t)
  | .bin op a b => do
    let t ← typeOf ρ a
    let u ← typeOf ρ b
    some (if op.isCompare then .int else if op.isShift then promote t else common t u)
  | .land a b | .lor a b => do let _ ← typeOf ρ a; let _ ← typeOf ρ b; some .int
  | .cond a b c => do
    let _ ← typeOf ρ a
    let t ← typeOf ρ b
    let u ← typeOf ρ c
    some (common t u)
  | .cast t a => do let _ ← typeOf ρ a; some t

/-- The result of an operation of a type: overflow of a signed type is undefined, an unsigned type wraps around. -/
def arith (t : Ty) (v : Int) : Option Int :=
  if t.signed then (if -2 ^ 31 ≤ v ∧ v < 2 ^ 31 then some v else none) else some (v % 2 ^ 32)

/-- The value of 32 bits as a number of a type. -/
def ofBits (t : Ty) (w : BitVec 32) : Int := if t.signed then w.toInt else w.toNat

def truth (b : Bool) : Int := if b then 1 else 0

/-- A binary operation (not a shift) on values of the common type. -/
def binop (op : Binop) (t : Ty) (x y : Int) : Option Int :=
  match op with
  | .add => arith t (x + y)
  | .sub => arith t (x - y)
  | .mul => arith t (x * y)
  | .div => if y = 0 then none else arith t (x.tdiv y)
  | .mod => if y = 0 then none else do let _ ← arith t (x.tdiv y); some (x.tmod y)
  | .and => some (ofBits t (BitVec.ofInt 32 x &&& BitVec.ofInt 32 y))
  | .or => some (ofBits t (BitVec.ofInt 32 x ||| BitVec.ofInt 32 y))
  | .xor => some (ofBits t (BitVec.ofInt 32 x ^^^ BitVec.ofInt 32 y))
  | .eq => some (truth (x = y))
  | .ne => some (truth (x ≠ y))
  | .lt => some (truth (x < y))
  | .le => some (truth (x ≤ y))
  | .gt => some (truth (y < x))
  | .ge => some (truth (y ≤ x))
  | .shl | .shr => none

/-- Shifts; `t` is the promoted type of the left operand. -/
def shift (left : Bool) (t : Ty) (x n : Int) : Option Int :=
  if n < 0 ∨ 32 ≤ n then none
  else if x < 0 then none
  else if left then arith t (x * 2 ^ n.toNat) else some (x / 2 ^ n.toNat)

/-- The value of an expression, of the type `typeOf`. -/
def eval (ρ : Store) : Expr → Option Int
  | .fixed c => c.ty.map fun _ => c.value
  | .chr c => if c < 128 then some c else none
  | .ident x => (ρ.find x).bind (·.2)
  | .un op a => do
    let t ← typeOf ρ a
    let x ← eval ρ a
    match op with
    | .neg => arith (promote t) (-x)
    | .pos => some x
    | .bitNot => some (ofBits (promote t) (~~~ BitVec.ofInt 32 x))
    | .not => some (truth (x = 0))
  | .bin op a b => do
    let t ← typeOf ρ a
    let u ← typeOf ρ b
    let x ← eval ρ a
    let y ← eval ρ b
    if op.isShift then shift (op = .shl) (promote t) x y
    else binop op (common t u) (wrap (common t u) x) (wrap (common t u) y)
  | .land a b => do
    let x ← eval ρ a
    if x = 0 then some 0 else do let y ← eval ρ b; some (truth (y ≠ 0))
  | .lor a b => do
    let x ← eval ρ a
    if x ≠ 0 then some 1 else do let y ← eval ρ b; some (truth (y ≠ 0))
  | .cond a b c => do
    let t ← typeOf ρ b
    let u ← typeOf ρ c
    let x ← eval ρ a
    let y ← (if x ≠ 0 then eval ρ b else eval ρ c)
    some (wrap (common t u) y)
  | .cast t a => do let x ← eval ρ a; some (wrap t x)

/-! ## Statements -/

/-- How a statement ends. -/
inductive Out
  | normal
  | brk
  | cont
  | ret (v : Int)
deriving DecidableEq, Repr

/-- Assignment to the innermost variable of that name. -/
def Store.set : Store → String → Int → Option Store
  | [], _, _ => none
  | (y, t, o) :: ρ, x, v => if y = x then some ((y, t, some (wrap t v)) :: ρ) else (Store.set ρ x v).map ((y, t, o) :: ·)

/-- The variables of the enclosing block are the last ones. -/
def Store.leave (outer inner : Store) : Store := inner.drop (inner.length - outer.length)

/-- The execution of a statement; `none` is undefined behaviour, or `n` is too small (every loop and every part takes one). -/
def run : Nat → Stmt → Store → Option (Store × Out)
  | 0, _, _ => none
  | n + 1, s, ρ =>
    match s with
    | .skip => some (ρ, .normal)
    | .expr e => do let _ ← eval ρ e; some (ρ, .normal)
    | .assign x e => do
      let v ← eval ρ e
      let ρ ← ρ.set x v
      some (ρ, .normal)
    | .decl t x none => some ((x, t, none) :: ρ, .normal)
    | .decl t x (some e) => do
      let v ← eval ((x, t, none) :: ρ) e
      some ((x, t, some (wrap t v)) :: ρ, .normal)
    | .seq s t => do
      let (ρ, o) ← run n s ρ
      match o with
      | .normal => run n t ρ
      | o => some (ρ, o)
    | .block s => do
      let (ρ', o) ← run n s ρ
      some (ρ.leave ρ', o)
    | .ifThen c s => do
      let v ← eval ρ c
      if v ≠ 0 then (do let (ρ', o) ← run n s ρ; some (ρ.leave ρ', o)) else some (ρ, .normal)
    | .ifElse c s t => do
      let v ← eval ρ c
      let (ρ', o) ← run n (if v ≠ 0 then s else t) ρ
      some (ρ.leave ρ', o)
    | .while c s => do
      let v ← eval ρ c
      if v = 0 then some (ρ, .normal)
      else do
        let (ρ', o) ← run n s ρ
        match o with
        | .normal | .cont => run n (.while c s) (ρ.leave ρ')
        | .brk => some (ρ.leave ρ', .normal)
        | .ret v => some (ρ.leave ρ', .ret v)
    | .doWhile s c => do
      let (ρ', o) ← run n s ρ
      match o with
      | .normal | .cont => do
        let v ← eval (ρ.leave ρ') c
        if v = 0 then some (ρ.leave ρ', .normal) else run n (.doWhile s c) (ρ.leave ρ')
      | .brk => some (ρ.leave ρ', .normal)
      | .ret v => some (ρ.leave ρ', .ret v)
    | .brk => some (ρ, .brk)
    | .cont => some (ρ, .cont)
    | .ret e => do
      let v ← eval ρ e
      some (ρ, .ret v)

/-- Declarations and lists of block items are not statements. -/
def Stmt.single : Stmt → Bool
  | .decl .. | .seq .. => false
  | _ => true

/-- The parts of a statement are statements where the grammar demands it. -/
def Stmt.Formed : Stmt → Prop
  | .seq s t => s.Formed ∧ t.Formed
  | .block s => s.Formed
  | .ifThen _ s => s.single ∧ s.Formed
  | .ifElse _ s t => s.single ∧ s.Formed ∧ t.single ∧ t.Formed
  | .while _ s => s.single ∧ s.Formed
  | .doWhile s _ => s.single ∧ s.Formed
  | _ => True

/-- A function with parameters of integer types, and a result of a type of four bytes. -/
structure Function where
  name : String
  params : List (String × Ty)
  body : Stmt
deriving DecidableEq, Repr

/-- The parameters get the arguments, converted to their types. -/
def enter : List (String × Ty) → List Int → Store
  | (x, t) :: ps, v :: vs => (x, t, some (wrap t v)) :: enter ps vs
  | _, _ => []

/-- The value that a call returns. -/
def call (n : Nat) (f : Function) (args : List Int) : Option Int :=
  match run n f.body (enter f.params args) with
  | some (_, .ret v) => some v
  | _ => none

end Mes.CLang
