import Verif.Spec.Bytes
/-
Specification of the options of a command line, independent of the model: which options the arguments of a program hold, as in the
standard (POSIX.1, the Utility Syntax Guidelines and `getopt`).
-/
namespace Mes.Spec

/-- What an option letter takes. -/
inductive Takes where
  | nothing | argument | perhaps
  deriving DecidableEq

/-- What the letter `c` takes according to the string of options: the first place of `c` counts; a colon behind it means an argument,
two colons an optional one.  A colon is no option. -/
def takes (os : List UInt8) (c : UInt8) : Option Takes :=
  if c = 58 then none
  else match os.dropWhile (· ≠ c) with
    | [] => none
    | _ :: 58 :: 58 :: _ => some .perhaps
    | _ :: 58 :: _ => some .argument
    | _ => some .nothing

/-- One option found: its letter, or `none` if there is an error, and its argument. -/
structure Found where
  letter : Option UInt8
  arg : Option (List UInt8)
  deriving DecidableEq

mutual

/-- `Parsed os delim args found rest`: the arguments `args` hold the options `found`, and the operands `rest` follow.  The argument
`--` ends the options if `delim` is true; otherwise it is an argument as the others. -/
inductive Parsed (os : List UInt8) (delim : Bool) : List (List UInt8) → List Found → List (List UInt8) → Prop
  | done : Parsed os delim [] [] []
  /-- an argument that does not begin with `-`, or is only `-`, is the first operand -/
  | operand {a as} (h : (∀ cs, a ≠ 45 :: cs) ∨ a = [45]) : Parsed os delim (a :: as) [] (a :: as)
  | stop {as} (h : delim = true) : Parsed os delim ([45, 45] :: as) [] as
  | letters {cs as found rest} (h : cs ≠ []) (h' : delim = true → cs ≠ [45]) (p : Letters os delim cs as found rest) :
    Parsed os delim ((45 :: cs) :: as) found rest

/-- The letters that are left of an argument, then the arguments behind it. -/
inductive Letters (os : List UInt8) (delim : Bool) : List UInt8 → List (List UInt8) → List Found → List (List UInt8) → Prop
  | done {as found rest} (p : Parsed os delim as found rest) : Letters os delim [] as found rest
  | unknown {c cs as found rest} (h : takes os c = none) (p : Letters os delim cs as found rest) :
    Letters os delim (c :: cs) as (⟨none, none⟩ :: found) rest
  | flag {c cs as found rest} (h : takes os c = some .nothing) (p : Letters os delim cs as found rest) :
    Letters os delim (c :: cs) as (⟨some c, none⟩ :: found) rest
  /-- the argument is the rest of the letters -/
  | attached {c cs as found rest} (h : takes os c = some .argument ∨ takes os c = some .perhaps) (h' : cs ≠ [])
    (p : Parsed os delim as found rest) : Letters os delim (c :: cs) as (⟨some c, some cs⟩ :: found) rest
  | without {c as found rest} (h : takes os c = some .perhaps) (p : Parsed os delim as found rest) :
    Letters os delim [c] as (⟨some c, none⟩ :: found) rest
  /-- the argument is the next argument of the program -/
  | separate {c b as found rest} (h : takes os c = some .argument) (p : Parsed os delim as found rest) :
    Letters os delim [c] (b :: as) (⟨some c, some b⟩ :: found) rest
  | missing {c} (h : takes os c = some .argument) : Letters os delim [c] [] [⟨none, none⟩] []

end

/-- Which long option a name `n` selects in a list of names: the option of this very name, or else the only one whose name begins
with `n`. -/
inductive Selects (names : List (List UInt8)) (n : List UInt8) : Nat → Prop
  | exact {i} (h : names[i]? = some n) (first : ∀ j, j < i → names[j]? ≠ some n) : Selects names n i
  | only {i nm} (h : names[i]? = some nm) (p : n <+: nm) (no : n ∉ names)
    (only : ∀ j (nm' : List UInt8), names[j]? = some nm' → n <+: nm' → j = i) : Selects names n i

end Mes.Spec

namespace Mes.Spec

/-- The argument of a long option that takes `has` (0: nothing, 1: an argument, other: perhaps an argument), where `value` stands behind
`=` in the same argument, if there is a `=`, and `next` is the next argument of the program, if there is one.  The result is the
argument with the number of the arguments of the program that are used, or nothing if there is an error. -/
def longArg (has : Int) (value next : Option (List UInt8)) : Option (Option (List UInt8) × Nat) :=
  if has = 0 then (match value with | some _ => none | none => some (none, 1))
  else match value with
    | some v => some (some v, 1)
    | none => if has = 1 then next.map (fun b => (some b, 2)) else some (none, 1)

/-- The strings that the arguments from number `i` on point to. -/
def ArgVector (m : List UInt8) (argv : List Nat) (i : Nat) (as : List (List UInt8)) : Prop :=
  ∀ j s, as[j]? = some s → ∃ a, argv[i + j]? = some a ∧ CStr m a s

/-- The results of the calls are the options found. -/
def ShowsOptions (m : List UInt8) : List (Int × Option Nat) → List Found → Prop
  | [], [] => True
  | (code, arg) :: l, f :: fs =>
    (code = match f.letter with
      | some c => (c.toNat : Int)
      | none => 63) ∧
    (match arg, f.arg with
      | none, none => True
      | some p, some s => CStr m p s
      | _, _ => False) ∧ ShowsOptions m l fs
  | _, _ => False

/-- The text of the argument of a long option in the same argument of the program. -/
def valueText : Option (List UInt8) → List UInt8
  | none => []
  | some v => 61 :: v

end Mes.Spec
