import Verif.Model.Data
import Verif.Model.Math
import Verif.Model.Gc
import Verif.Spec.Gc
/-
Programs made of primitives, run with a collection before any chosen operations.  The variables are the entries of the
evaluation stack.
-/
namespace Mes.Spec
open Res

/-- A call of a primitive; variables are numbered from the top of the stack. -/
inductive Prim where
  | copy (x : Nat)
  /-- a predefined cell: `()`, `#t`, `#f`, a predefined symbol, … -/
  | const (a : Int)
  | number (n : Int)
  | char (n : Int)
  | cons (x y : Nat)
  | car (x : Nat)
  | cdr (x : Nat)
  | setCar (x y : Nat)
  | setCdr (x y : Nat)
  | eq (x y : Nat)
  | length (x : Nat)
  | plus (xs : List Nat)
  | minus (x : Nat) (xs : List Nat)
  | multiply (xs : List Nat)
  | less (xs : List Nat)
  | greater (xs : List Nat)
  | makeVector (k : Nat) (x : Nat)
  | vectorRef (v : Nat) (i : Nat)
  | vectorSet (v : Nat) (i : Nat) (x : Nat)
  | vectorLength (v : Nat)

/-- The value of a variable. -/
def var (s : St) (x : Nat) : Res Int := if s.sp + x < s.stackSize then ok (s.stack (s.sp + x)) else ub

/-- The values of variables. -/
def vars (s : St) : List Nat → Res (List Int)
  | [] => ok []
  | x :: xs => do
    let a ← var s x
    let as ← vars s xs
    ok (a :: as)

/-- The argument list for a primitive of any number of arguments, as `evlis` builds it. -/
def argList (s : St) : List Int → Res (Int × St)
  | [] => ok (c_nil, s)
  | a :: as => do
    let (r, s) ← argList s as
    Mes.cons s a r

/-- A primitive of any number of arguments. -/
def withArgs (s : St) (xs : List Nat) (p : St → Int → Res (Int × St)) : Res (Int × St) := do
  let as ← vars s xs
  let (l, s) ← argList s as
  p s l

/-- A primitive that does not change the memory. -/
def pure (s : St) (m : Res Int) : Res (Int × St) := do
  let r ← m
  ok (r, s)

/-- Calling a primitive; its result. -/
def Prim.run (s : St) (fuel : Nat) : Prim → Res (Int × St)
  | .copy x => pure s (var s x)
  | .const a => if c_nil ≤ a ∧ a < c_symbol_max then ok (a, s) else ub
  | .number n => makeNumber s n
  | .char n => makeChar s n
  | .cons x y => do let a ← var s x; let b ← var s y; Mes.cons s a b
  | .car x => do let a ← var s x; pure s (carP s a)
  | .cdr x => do let a ← var s x; pure s (cdrP s a)
  | .setCar x y => do let a ← var s x; let b ← var s y; setCarX s a b
  | .setCdr x y => do let a ← var s x; let b ← var s y; setCdrX s a b
  | .eq x y => do let a ← var s x; let b ← var s y; pure s (eqP s a b)
  | .length x => do let a ← var s x; lengthP s fuel a
  | .plus xs => withArgs s xs (fun s l => Mes.plus s fuel l)
  | .minus x xs => withArgs s (x :: xs) (fun s l => Mes.minus s fuel l)
  | .multiply xs => withArgs s xs (fun s l => Mes.multiply s fuel l)
  | .less xs => withArgs s xs (fun s l => pure s (lessP s fuel l))
  | .greater xs => withArgs s xs (fun s l => pure s (greaterP s fuel l))
  | .makeVector k x => do let a ← var s x; Mes.makeVector s k a
  | .vectorRef v i => do let a ← var s v; Mes.vectorRef s a i
  | .vectorSet v i x => do let a ← var s v; let b ← var s x; Mes.vectorSet s a i b
  | .vectorLength v => do let a ← var s v; Mes.vectorLength s a

/-- An operation of a program. -/
inductive Op where
  /-- call a primitive and store the result in a variable -/
  | set (d : Nat) (p : Prim)
  /-- show the value of a variable -/
  | print (x : Nat)

/-- What can be seen of a value: the data at the end of every access path. -/
abbrev Shown := List Move → Option ((Tag × Option Int × Option Int) × List Byte × List (Tag × Option Int × Option Int))

def shown (s : St) (a : Int) : Shown := fun p => (follow s a p).map (view s)

def Op.run (s : St) (fuel : Nat) : Op → Res (List Shown × St)
  | .set d p => do
    let (r, s) ← p.run s fuel
    if s.sp + d < s.stackSize then ok ([], { s with stack := fun j => if j = s.sp + d then r else s.stack j }) else ub
  | .print x => do
    let a ← var s x
    ok ([shown s a], s)

/-- Run a program, with a collection before the operations for which `sched` says so: what has been printed, and how it
ended. -/
def run (fuel : Nat) : (sched : List Bool) → List Op → St → List Shown × Res St
  | _, [], s => ([], ok s)
  | sched, op :: ops, s =>
    match if sched.head? = some true then gc s (s.arena + 3).toNat else ok s with
    | ok s =>
      match op.run s fuel with
      | ok (o, s) => let r := run fuel sched.tail ops s; (o ++ r.1, r.2)
      | err k => ([], err k)
      | abort => ([], abort)
      | ub => ([], ub)
      | loop => ([], loop)
    | err k => ([], err k)
    | abort => ([], abort)
    | ub => ([], ub)
    | loop => ([], loop)

end Mes.Spec
