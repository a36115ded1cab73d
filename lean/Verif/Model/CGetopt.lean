import Verif.Model.CEnv
/-
Model of /repo/lib/posix/getopt.c: `_getopt_internal`, `getopt`, `getopt_long` and `getopt_long_only`.

The array `argv` is a list of words; reading above it is undefined behaviour.  The array of `struct option` is a list of records
without its terminating element.  The messages that are printed when `opterr` is set are not modelled; they change nothing else.
A store through the pointer `flag` of a long option, and the store through `longind`, are part of the result.
-/
namespace Mes.C
open Res

/-- `struct option`: /repo/include/getopt.h:38-44; the name is an address, the flag an address, if it is not null. -/
structure LongOpt where
  name : Nat
  hasArg : Int
  flag : Option Nat
  val : Int

/-- The variables of /repo/lib/posix/getopt.c:31-69. -/
structure Opt where
  optarg : Option Nat
  optind : Nat
  nextchar : Option Nat
  first : Nat
  last : Nat

/-- What a call gives: the value returned, the variables, the index stored through `longind`, the store through `flag`. -/
structure OptResult where
  code : Int
  st : Opt
  longind : Option Nat := none
  flag : Option (Nat × Int) := none

/-- The options that match are searched: /repo/lib/posix/getopt.c:186-206.  The result is `pfound` with `indfound`, then `exact` and
`ambig`. -/
def longFind (m : Mem) (nextchar n : Nat) : (l : List LongOpt) → (i : Nat) → (found : Option (LongOpt × Nat)) → (ambig : Bool) →
    Res (Option (LongOpt × Nat) × Bool × Bool)
  | [], _, found, ambig => ok (found, false, ambig)
  | p :: l, i, found, ambig => do
    let r ← strncmp m p.name nextchar n
    if r = 0 then do
      let k ← strlen m p.name
      if n = k then ok (some (p, i), true, ambig)
      else match found with
        | none => longFind m nextchar n l (i + 1) (some (p, i)) ambig
        | some f => longFind m nextchar n l (i + 1) (some f) true
    else longFind m nextchar n l (i + 1) found ambig

/-- The end of the name of a long option: /repo/lib/posix/getopt.c:182-183. -/
def nameEnd (m : Mem) : (fuel : Nat) → (s : Nat) → Res Nat
  | 0, _ => loop
  | fuel + 1, s => do
    let c ← m.rd s
    if c ≠ 0 ∧ c ≠ 61 then nameEnd m fuel (s + 1) else ok s

/-- A long option was found: /repo/lib/posix/getopt.c:217-266. -/
def longFound (m : Mem) (argc : Nat) (argv : Words) (st : Opt) (nextchar s : Nat) (p : LongOpt) (i : Nat) : Res OptResult := do
  let st := { st with optind := st.optind + 1 }
  let c ← m.rd s
  let (r : Option Opt) ←
    if c ≠ 0 then
      if p.hasArg ≠ 0 then ok (some { st with optarg := some (s + 1) }) else ok none
    else if p.hasArg = 1 then
      if st.optind < argc then do
        let a ← argv.get st.optind
        ok (some { st with optarg := some a, optind := st.optind + 1 })
      else ok none
    else ok (some st)
  let n ← strlen m nextchar
  match r with
  | none => ok { code := 63, st := { st with nextchar := some (nextchar + n) } }
  | some st =>
    let st := { st with nextchar := some (nextchar + n) }
    match p.flag with
    | some f => ok { code := 0, st := st, longind := some i, flag := some (f, p.val) }
    | none => ok { code := p.val, st := st, longind := some i }

/-- An option of one letter: /repo/lib/posix/getopt.c:290-347. -/
def optShort (m : Mem) (argc : Nat) (argv : Words) (optstring : Nat) (st : Opt) (nextchar : Nat) : Res OptResult := do
  let c ← m.rd nextchar
  let nextchar := nextchar + 1
  let temp ← strchr m optstring (sc c)
  let d ← m.rd nextchar
  let st := if d = 0 then { st with optind := st.optind + 1 } else st
  match temp with
  | none => ok { code := 63, st := { st with nextchar := some nextchar } }
  | some t =>
    if c = 58 then ok { code := 63, st := { st with nextchar := some nextchar } }
    else do
      let t1 ← m.rd (t + 1)
      if t1 = 58 then do
        let t2 ← m.rd (t + 2)
        if t2 = 58 then
          if d ≠ 0 then
            ok { code := sc c, st := { st with optarg := some nextchar, optind := st.optind + 1, nextchar := none } }
          else ok { code := sc c, st := { st with optarg := none, nextchar := none } }
        else if d ≠ 0 then
          ok { code := sc c, st := { st with optarg := some nextchar, optind := st.optind + 1, nextchar := none } }
        else if st.optind = argc then ok { code := 63, st := { st with nextchar := none } }
        else do
          let a ← argv.get st.optind
          ok { code := sc c, st := { st with optarg := some a, optind := st.optind + 1, nextchar := none } }
      else ok { code := sc c, st := { st with nextchar := some nextchar } }

/-- The option at `nextchar`: /repo/lib/posix/getopt.c:173-347. -/
def optAt (m : Mem) (argc : Nat) (argv : Words) (optstring : Nat) (longopts : Option (List LongOpt)) (longOnly : Bool) (st : Opt)
    (nextchar : Nat) : Res OptResult :=
  match longopts with
  | none => optShort m argc argv optstring st nextchar
  | some l => do
    let a ← argv.get st.optind
    let c0 ← m.rd a
    if c0 = 45 then do
      let c1 ← m.rd (a + 1)
      if c1 = 45 ∨ longOnly then do
        let s ← nameEnd m (m.length + 1) nextchar
        let (found, exact, ambig) ← longFind m nextchar (s - nextchar) l 0 none false
        if ambig ∧ ¬ exact then do
          let n ← strlen m nextchar
          ok { code := 63, st := { st with nextchar := some (nextchar + n), optind := st.optind + 1 } }
        else match found with
          | some (p, i) => longFound m argc argv st nextchar s p i
          | none => do
            let c ← m.rd nextchar
            let t ← if ¬ longOnly ∨ c1 = 45 then ok none else strchr m optstring (sc c)
            match t with
            | none => do
              let n ← strlen m nextchar
              ok { code := 63, st := { st with nextchar := some (nextchar + n), optind := st.optind + 1 } }
            | some _ => optShort m argc argv optstring st nextchar
      else optShort m argc argv optstring st nextchar
    else optShort m argc argv optstring st nextchar

/-- `_getopt_internal`: /repo/lib/posix/getopt.c:127-348; EOF is -1. -/
def getoptInternal (m : Mem) (argc : Nat) (argv : Words) (optstring : Nat) (longopts : Option (List LongOpt)) (longOnly : Bool)
    (st : Opt) : Res OptResult := do
  let st := { st with optarg := none }
  let st := if st.optind = 0 then { st with first := 1, last := 1, optind := 1, nextchar := none } else st
  let here ← match st.nextchar with
    | none => ok none
    | some p => do
      let c ← m.rd p
      if c = 0 then ok none else ok (some p)
  match here with
  | some p => optAt m argc argv optstring longopts longOnly st p
  | none =>
    if st.optind = argc then
      ok { code := -1, st := if st.first ≠ st.last then { st with optind := st.first } else st }
    else do
      let a ← argv.get st.optind
      let c0 ← m.rd a
      if c0 ≠ 45 then ok { code := -1, st := st }
      else do
        let c1 ← m.rd (a + 1)
        if c1 = 0 then ok { code := -1, st := st }
        else
          let p := a + 1 + (if longopts.isSome ∧ c1 = 45 then 1 else 0)
          optAt m argc argv optstring longopts longOnly { st with nextchar := some p } p

/-- `getopt`: /repo/lib/posix/getopt.c:350-354. -/
def getopt (m : Mem) (argc : Nat) (argv : Words) (optstring : Nat) (st : Opt) : Res OptResult :=
  getoptInternal m argc argv optstring none false st

/-- `getopt_long`: /repo/lib/posix/getopt.c:356-361. -/
def getoptLong (m : Mem) (argc : Nat) (argv : Words) (optstring : Nat) (l : List LongOpt) (st : Opt) : Res OptResult :=
  getoptInternal m argc argv optstring (some l) false st

/-- `getopt_long_only`: /repo/lib/posix/getopt.c:363-368. -/
def getoptLongOnly (m : Mem) (argc : Nat) (argv : Words) (optstring : Nat) (l : List LongOpt) (st : Opt) : Res OptResult :=
  getoptInternal m argc argv optstring (some l) true st

/-- The variables at the start of the program: /repo/lib/posix/getopt.c:31-69. -/
def optStart : Opt := { optarg := none, optind := 0, nextchar := none, first := 0, last := 0 }

/-- The loop of a caller, `while ((c = getopt (argc, argv, optstring)) != EOF)`: the results before the last one, and the variables
after it. -/
def getoptAll (m : Mem) (argc : Nat) (argv : Words) (optstring : Nat) : (fuel : Nat) → Opt → Res (List (Int × Option Nat) × Opt)
  | 0, _ => loop
  | fuel + 1, st => do
    let r ← getopt m argc argv optstring st
    if r.code = -1 then ok ([], r.st)
    else do
      let (l, st) ← getoptAll m argc argv optstring fuel r.st
      ok ((r.code, r.st.optarg) :: l, st)

end Mes.C
