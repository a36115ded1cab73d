import Verif.Spec.Blocks
import Verif.Model.CEnv
/-
The environment as a program sees it: a list of texts "name=value".
-/
namespace Mes.Spec
open Mes.C

/-- The value of the variable `k` if the entry `e` is "k=value". -/
def entryValue (k e : List UInt8) : Option (List UInt8) :=
  if (k ++ [61]).isPrefixOf e then some (e.drop (k.length + 1)) else none

/-- The value of a variable: the first entry counts. -/
def envValue (k : List UInt8) (es : List (List UInt8)) : Option (List UInt8) := es.findSome? (entryValue k)

/-- A name contains no `=`. -/
def VarName (k : List UInt8) : Prop := 61 ∉ k

instance (k : List UInt8) : Decidable (VarName k) := by unfold VarName; infer_instance

/-- The array `w` of the process holds the entries `es`, whose texts lie below address `b`. -/
def Environ (m : List UInt8) (w : Words) (es : List (List UInt8)) (b : Nat) : Prop :=
  ∃ ps rest, w = ps ++ 0 :: rest ∧ ps.length = es.length ∧
    ∀ (i p : Nat) (e : List UInt8), ps[i]? = some p → es[i]? = some e → p ≠ 0 ∧ CStr m p e ∧ p + e.length < b

/-- No variable has two entries. -/
def OneEntryEach (es : List (List UInt8)) : Prop :=
  es.Pairwise fun e f => ∀ k, VarName k → entryValue k e = none ∨ entryValue k f = none

/-- Calls of a program: the texts of name and value, and where they are. -/
inductive EnvCall where
  | set (k v : List UInt8) (name value : Nat) (overwrite : Int)
  | unset (k : List UInt8) (name : Nat)

def EnvCall.run (s : Proc) (w : Words) : EnvCall → Res (Proc × Words)
  | .set _ _ name value o => do
    let (s, w, _) ← C.setenv s w name value o
    .ok (s, w)
  | .unset _ name => do
    let w ← C.unsetenv s.mem w name
    .ok (s, w)

def runEnvCalls (s : Proc) (w : Words) : List EnvCall → Res (Proc × Words)
  | [] => .ok (s, w)
  | c :: cs => do
    let (s, w) ← c.run s w
    runEnvCalls s w cs

/-- What a call does to the map of variables. -/
def EnvCall.effect (f : List UInt8 → Option (List UInt8)) : EnvCall → List UInt8 → Option (List UInt8)
  | .set k v .. => fun k' => if k' = k then some v else f k'
  | .unset k _ => fun k' => if k' = k then none else f k'

/-- The texts of a call are in memory, below address `b`, and the name is one. -/
def EnvCall.Valid (m : List UInt8) (b : Nat) : EnvCall → Prop
  | .set k v name value _ => VarName k ∧ CStr m name k ∧ CStr m value v ∧ name + k.length < b ∧ value + v.length < b ∧ k.length < 2 ^ 31 ∧ v.length < 2 ^ 31 ∧
      (k.length + v.length + 2) % 8 ≠ 0
  | .unset k name => VarName k ∧ CStr m name k ∧ name + k.length < b ∧ k.length < 2 ^ 31

/-- The memory and the words that a call may need. -/
def EnvCall.need : EnvCall → Nat
  | .set k v .. => k.length + v.length + 9
  | .unset .. => 0

def EnvCall.words : EnvCall → Nat
  | .set .. => 1
  | .unset .. => 0

end Mes.Spec
