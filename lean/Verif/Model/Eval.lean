import Verif.Model.Gc
import Verif.Model.Data
/-
Model of the evaluator: /repo/src/eval-apply.c, /repo/src/module.c, and the builtin records of /repo/src/builtins.c.

`eval_apply` is one C function whose parts are connected by `goto`; here it is a machine with one label for every C label
(and a few more inside the `begin` loops), and `step` runs from one label to the next.  The C variables that live longer
than from one label to the next are `x` (in the loops of `begin` and `begin_expand`), `global_p` and `macro_p`; the last two
have no value before they are set.

What the machine calls is a parameter (`Calls`): the C function behind a builtin record, and reading a file for
`primitive-load`.  Theorems say what they assume of it.

Simplified: the diagnostics that `check_formals` and `check_apply` print before they raise the error, and the cells
allocated for the error object; `error` does not return (see Model/Data).  `assert_msg (0, …)` is `abort`.
-/
namespace Mes
open Res

/-- The C functions called by the machine. -/
structure Calls where
  /-- The builtin with the given number, applied to its arguments: /repo/src/cc.c:24-50. -/
  builtin : (fuel : Nat) → Int → List Int → St → Res (Int × St)
  /-- `primitive-load` of the port or file name at the address, reading all expressions of the file:
  /repo/src/eval-apply.c:883-903. -/
  load : (fuel : Nat) → Int → St → Res (Int × St)

/-! ### module.c -/

/-- `module_variable`: /repo/src/module.c:86-99. -/
def moduleVariable (s : St) (fuel : Nat) (module name : Int) : Res (Int × St) := do
  let x ← assq s fuel name module
  if x = c_f then do
    let (globals, s) ← structRef s s.m0 5
    hashqGetHandle s fuel globals name c_f
  else ok (x, s)

/-- `module_ref`: /repo/src/module.c:101-108. -/
def moduleRef (s : St) (fuel : Nat) (module name : Int) : Res (Int × St) := do
  let (x, s) ← moduleVariable s fuel module name
  if x = c_f then ok (c_undefined, s)
  else do
    let v ← s.cdr x
    ok (v, s)

/-- `module_define_x`: /repo/src/module.c:110-116. -/
def moduleDefine (s : St) (name value : Int) : Res (Int × St) := do
  let (globals, s) ← structRef s s.m0 5
  hashqSet s globals name value

/-! ### builtins.c -/

/-- `builtin_p`: /repo/src/builtins.c:68-75. -/
def builtinP (s : St) (x : Int) : Res (Bool × St) := do
  let c ← s.rd x
  if c.tag = .struct then do
    let (y, s) ← structRef s x 2
    ok (decide (y = c_symbol_builtin), s)
  else ok (false, s)

/-- `builtin_arity`: /repo/src/builtins.c:55-59. -/
def builtinArity (s : St) (x : Int) : Res (Int × St) := structRef s x 4

/-- `builtin_function`: /repo/src/builtins.c:61-66. -/
def builtinFunction (s : St) (x : Int) : Res (Int × St) := do
  let (y, s) ← structRef s x 5
  let f ← s.cdr y
  ok (f, s)

/-! ### eval-apply.c, before the machine -/

/-- `assert_defined`: /repo/src/eval-apply.c:26-32. -/
def assertDefined (e : Int) : Res Int := if e = c_undefined then err .unboundVariable else ok e

/-- `check_formals`: /repo/src/eval-apply.c:34-57. -/
def checkFormals (s : St) (fuel : Nat) (formals args : Int) : Res Unit := do
  let c ← s.rd formals
  let flen ← if c.tag = .number then ok c.cdr else length__ s fuel formals
  let alen ← length__ s fuel args
  if alen ≠ flen ∧ alen ≠ -1 ∧ flen ≠ -1 then err .wrongNumberOfArgs else ok ()

/-- `check_apply`: /repo/src/eval-apply.c:59-93. -/
def checkApply (s : St) (f : Int) : Res St := do
  let c ← s.rd f
  if f = c_f ∨ f = c_t ∨ f = c_nil ∨ f = c_unspecified ∨ f = c_undefined ∨ c.tag = .char ∨ c.tag = .number
      ∨ c.tag = .string ∨ c.tag = .brokenHeart then err .wrongTypeArg
  else if c.tag = .struct then do
    let (b, s) ← builtinP s f
    if b then ok s else err .wrongTypeArg
  else ok s

/-- `pairlis`: /repo/src/eval-apply.c:95-103; the first argument of `cons` is computed first. -/
def pairlis : (fuel : Nat) → (s : St) → (x y a : Int) → Res (Int × St)
  | 0, _, _, _, _ => loop
  | fuel + 1, s, x, y, a =>
    if x = c_nil then ok (a, s)
    else do
      let c ← s.rd x
      if c.tag ≠ .pair then do
        let (p, s) ← cons s x y
        cons s p a
      else do
        let x0 ← carP s x
        let y0 ← carP s y
        let (p, s) ← cons s x0 y0
        let x1 ← cdrP s x
        let y1 ← cdrP s y
        let (r, s) ← pairlis fuel s x1 y1 a
        cons s p r

/-- `set_env_x`: /repo/src/eval-apply.c:123-134. -/
def setEnvX (s : St) (fuel : Nat) (x e a : Int) : Res (Int × St) := do
  let c ← s.rd x
  let (p, s) ← if c.tag = .variable then ok (c.car, s) else do
    let (v, s) ← moduleVariable s fuel a x
    let p ← assertDefined v
    ok (p, s)
  let cp ← s.rd p
  if cp.tag ≠ .pair then err .notAPair else setCdrX s p e

/-- `call_lambda`: /repo/src/eval-apply.c:136-143. -/
def callLambda (s : St) (e x : Int) : Res St := do
  let (p, s) ← cons s c_closure x
  let (cl, s) ← cons s p x
  ok { s with r1 := e, r0 := cl }

/-- `make_closure_`: /repo/src/eval-apply.c:145-149; the arguments of `cons` are computed from left to right. -/
def makeClosure (s : St) (args body a : Int) : Res (Int × St) := do
  let (p, s) ← cons s c_circular a
  let (q, s) ← cons s args body
  let (d, s) ← cons s p q
  makeCell s .closure c_f d

/-- `make_variable_`: /repo/src/eval-apply.c:151-155. -/
def makeVariable (s : St) (var : Int) : Res (Int × St) := makeCell s .variable var 0

/-- `macro_get_handle`: /repo/src/eval-apply.c:157-163. -/
def macroGetHandle (s : St) (fuel : Nat) (name : Int) : Res (Int × St) := do
  let c ← s.rd name
  if c.tag = .symbol then hashqGetHandle s fuel s.macros name c_nil else ok (c_f, s)

/-- `get_macro`: /repo/src/eval-apply.c:165-175. -/
def getMacro (s : St) (fuel : Nat) (name : Int) : Res (Int × St) := do
  let (m, s) ← macroGetHandle s fuel name
  if m = c_f then ok (c_f, s)
  else do
    let d ← s.cdr m
    let x ← s.car d
    ok (x, s)

/-- `push_cc`: /repo/src/eval-apply.c:183-194. -/
def pushCc (s : St) (p1 p2 a c : Int) : Res St := do
  let x := s.r3
  let s ← gcPushFrame { s with r3 := c, r2 := p2 }
  ok { s with r1 := p1, r0 := a, r3 := x }

/-- `add_formals`: /repo/src/eval-apply.c:196-207. -/
def addFormals : (fuel : Nat) → (s : St) → (formals x : Int) → Res (Int × St)
  | 0, _, _, _ => loop
  | fuel + 1, s, formals, x => do
    let c ← s.rd x
    if c.tag = .pair then do
      let (formals, s) ← cons s c.car formals
      addFormals fuel s formals c.cdr
    else if c.tag = .symbol then cons s x formals
    else ok (formals, s)

/-- `formal_p`: /repo/src/eval-apply.c:209-228. -/
def formalP (s : St) (x : Int) : (fuel : Nat) → (formals : Int) → Res Bool
  | 0, _ => loop
  | fuel + 1, formals => do
    let c ← s.rd formals
    if c.tag = .symbol then ok (decide (x = formals))
    else if c.tag = .pair then if c.car = x then ok true else formalP s x fuel c.cdr
    else ok false

/-- `expand_variable_`: /repo/src/eval-apply.c:230-286.  The first step of the loop has `top`; the recursive call and the
next rounds have not. -/
def expandVariable : (fuel : Nat) → (s : St) → (x formals : Int) → (top : Bool) → Res St
  | 0, _, _, _, _ => loop
  | fuel + 1, s, x, formals, top => do
    let c ← s.rd x
    if c.tag ≠ .pair then ok s
    else do
      let a := c.car
      let ca ← s.rd a
      if ca.tag = .pair then do
        let (formals, s) ← if ca.car = c_symbol_lambda ∨ ca.car = c_symbol_define ∨ ca.car = c_symbol_define_macro then do
            let f ← s.car ca.cdr
            addFormals fuel s formals f
          else ok (formals, s)
        let s ← if ca.car ≠ c_symbol_quote then expandVariable fuel s a formals false else ok s
        let d ← s.cdr x
        expandVariable fuel s d formals false
      else if a = c_symbol_lambda then do
        let f ← s.car c.cdr
        let (formals, s) ← addFormals fuel s formals f
        let d ← s.cdr c.cdr
        expandVariable fuel s d formals false
      else if a = c_symbol_define ∨ a = c_symbol_define_macro then do
        let f ← s.car c.cdr
        let cf ← s.rd f
        let f := if top ∧ cf.tag = .pair then cf.cdr else f
        let (formals, s) ← addFormals fuel s formals f
        let d ← s.cdr c.cdr
        expandVariable fuel s d formals false
      else if a = c_symbol_quote then ok s
      else do
        let fp ← if ca.tag = .symbol ∧ a ≠ c_symbol_boot_module ∧ a ≠ c_symbol_current_module
            ∧ a ≠ c_symbol_primitive_load then formalP s a fuel formals else ok true
        let s ← if fp = false then do
            let (v, s) ← moduleVariable s fuel s.r0 a
            if v ≠ c_f then do
              let (w, s) ← makeVariable s v
              s.setCar x w
            else ok s
          else ok s
        let d ← s.cdr x
        expandVariable fuel s d formals false

/-- The replacement of multiple values in the first argument: /repo/src/eval-apply.c:301-306. -/
def firstValue (s : St) (arity x : Int) : Res (Int × St) :=
  if (0 < arity ∨ arity = -1) ∧ x ≠ c_nil then do
    let c ← s.rd x
    let a ← s.rd c.car
    if a.tag = .values then do
      let y ← s.car a.cdr
      cons s y c.cdr
    else ok (x, s)
  else ok (x, s)

/-- The replacement of multiple values in the second argument: /repo/src/eval-apply.c:307-314. -/
def secondValue (s : St) (arity x : Int) : Res (Int × St) :=
  if (1 < arity ∨ arity = -1) ∧ x ≠ c_nil then do
    let c ← s.rd x
    let d ← s.rd c.cdr
    if d.tag = .pair then do
      let e ← s.rd d.car
      if e.tag = .values then do
        let y ← s.car e.cdr
        let (z, s) ← cons s y c.cdr
        cons s c.car z
      else ok (x, s)
    else ok (x, s)
  else ok (x, s)

/-- `apply_builtin`: /repo/src/eval-apply.c:295-328. -/
def applyBuiltin (K : Calls) (s : St) (fuel : Nat) (fn x : Int) : Res (Int × St) := do
  let (a, s) ← builtinArity s fn
  let n ← s.cdr a
  let arity := toInt32 n
  let (x, s) ← firstValue s arity x
  let (x, s) ← secondValue s arity x
  if arity = 0 then do
    let (f, s) ← builtinFunction s fn
    K.builtin fuel f [] s
  else if arity = 1 then do
    let c ← s.rd x
    let (f, s) ← builtinFunction s fn
    K.builtin fuel f [c.car] s
  else if arity = 2 then do
    let c ← s.rd x
    let d ← s.rd c.cdr
    let (f, s) ← builtinFunction s fn
    K.builtin fuel f [c.car, d.car] s
  else if arity = 3 then do
    let c ← s.rd x
    let d ← s.rd c.cdr
    let e ← s.rd d.cdr
    let (f, s) ← builtinFunction s fn
    K.builtin fuel f [c.car, d.car, e.car] s
  else if arity = -1 then do
    let (f, s) ← builtinFunction s fn
    K.builtin fuel f [x] s
  else ok (c_unspecified, s)

/-! ### The machine -/

/-- The labels of `eval_apply`. -/
inductive Label where
  /-- `eval_apply:` 356-427 -/
  | dispatch
  | evlis | evlis2 | evlis3 | apply | apply2 | eval | evalPmatchCar | evalPmatchCdr | evalSetX
  | evalMacroExpandEval | evalMacroExpandExpand | evalDefine | evalCheckFunc | eval2
  | macroExpand | macroExpandLambda | macroExpandDefine | macroExpandDefineMacro | macroExpandSetX | macroExpandCar
  | macroExpandCdr
  | begin
  /-- the test of the loop, 819 -/
  | beginLoop
  | beginPrimitiveLoad
  /-- after the `primitive-load` part, 836 -/
  | beginSplice
  /-- after nested `begin`s are spliced, 845 -/
  | beginRest
  | beginEval
  | beginExpand
  /-- the test of the loop, 861 -/
  | beginExpandLoop
  | beginExpandWhile | beginExpandPrimitiveLoad | beginExpandMacro | beginExpandEval
  | vmIf | ifExpr | callCc | callCc2 | callWithValues | callWithValues2 | vmReturn
  /-- `return R1`, 423-424 -/
  | done
  deriving DecidableEq, Repr

/-- The state of the machine. -/
structure Vm where
  pc : Label
  s : St
  x : Int
  globalP : Option Bool
  macroP : Option Bool

/-- The label that `R3` stands for: /repo/src/eval-apply.c:356-427. -/
def labelOf (r3 : Int) : Option Label :=
  if r3 = c_vm_evlis2 then some .evlis2
  else if r3 = c_vm_evlis3 then some .evlis3
  else if r3 = c_vm_eval_check_func then some .evalCheckFunc
  else if r3 = c_vm_eval2 then some .eval2
  else if r3 = c_vm_apply2 then some .apply2
  else if r3 = c_vm_if_expr then some .ifExpr
  else if r3 = c_vm_begin_eval then some .beginEval
  else if r3 = c_vm_eval_set_x then some .evalSetX
  else if r3 = c_vm_macro_expand_car then some .macroExpandCar
  else if r3 = c_vm_return then some .vmReturn
  else if r3 = c_vm_macro_expand_cdr then some .macroExpandCdr
  else if r3 = c_vm_eval_define then some .evalDefine
  else if r3 = c_vm_macro_expand then some .macroExpand
  else if r3 = c_vm_macro_expand_lambda then some .macroExpandLambda
  else if r3 = c_vm_eval_pmatch_car then some .evalPmatchCar
  else if r3 = c_vm_begin_expand_macro then some .beginExpandMacro
  else if r3 = c_vm_macro_expand_define then some .macroExpandDefine
  else if r3 = c_vm_begin_expand_eval then some .beginExpandEval
  else if r3 = c_vm_call_with_current_continuation2 then some .callCc2
  else if r3 = c_vm_macro_expand_set_x then some .macroExpandSetX
  else if r3 = c_vm_eval_pmatch_cdr then some .evalPmatchCdr
  else if r3 = c_vm_macro_expand_define_macro then some .macroExpandDefineMacro
  else if r3 = c_vm_begin_primitive_load then some .beginPrimitiveLoad
  else if r3 = c_vm_evlis then some .evlis
  else if r3 = c_vm_apply then some .apply
  else if r3 = c_vm_eval then some .eval
  else if r3 = c_vm_eval_macro_expand_eval then some .evalMacroExpandEval
  else if r3 = c_vm_eval_macro_expand_expand then some .evalMacroExpandExpand
  else if r3 = c_vm_begin then some .begin
  else if r3 = c_vm_begin_expand then some .beginExpand
  else if r3 = c_vm_begin_expand_primitive_load then some .beginExpandPrimitiveLoad
  else if r3 = c_vm_if then some .vmIf
  else if r3 = c_vm_call_with_values2 then some .callWithValues2
  else if r3 = c_unspecified then some .done
  else none

/-- `vm_return`: /repo/src/eval-apply.c:973-977. -/
def vmReturn (s : St) : Res St := do
  let x := s.r1
  let s ← gcPopFrame s
  ok { s with r1 := x }

/-- Copying the vector of a continuation to the stack: /repo/src/eval-apply.c:474-475; `n` entries are left, the next one
is `i`. -/
def restoreStack : (n : Nat) → (s : St) → (v i base : Int) → Res St
  | 0, s, _, _, _ => ok s
  | n + 1, s, v, i, base => do
    let (x, s) ← vectorRef s v i
    let s ← s.setStack (base + i) x
    restoreStack n s v (i + 1) base

/-- Copying the stack to a vector: /repo/src/eval-apply.c:951-952, 959-960; `n` entries are left. -/
def saveStack : (n : Nat) → (s : St) → (v i base : Int) → Res St
  | 0, s, _, _, _ => ok s
  | n + 1, s, v, i, base => do
    let x ← s.getStack (base + i)
    let (_, s) ← vectorSet s v i x
    saveStack n s v (i + 1) base

/-- The vector with the contents of the stack: /repo/src/eval-apply.c:950-952, 958-960. -/
def stackVector (s : St) : Res (Int × St) := do
  let (v, s) ← makeVector s (s.stackSize - s.sp) c_unspecified
  let s ← saveStack (s.stackSize - s.sp).toNat s v 0 s.sp
  ok (v, s)

/-- `apply:` for a builtin: /repo/src/eval-apply.c:447-452. -/
def applyPrim (K : Calls) (s : St) (fuel : Nat) (f args : Int) : Res St := do
  let (a, s) ← builtinArity s f
  checkFormals s fuel a args
  let (r, s) ← applyBuiltin K s fuel f args
  ok { s with r1 := r }

/-- `apply:` for a closure: /repo/src/eval-apply.c:453-465. -/
def applyClosure (s : St) (fuel : Nat) (f args : Int) : Res St := do
  let cl ← s.cdr f
  let d ← s.cdr cl
  let body ← s.cdr d
  let formals ← s.car d
  let a ← s.car cl
  let aa ← s.cdr a
  let aa ← s.cdr aa
  checkFormals s fuel formals args
  let (p, s) ← pairlis fuel s formals args aa
  callLambda s body p

/-- `apply:` for a continuation: /repo/src/eval-apply.c:466-481. -/
def applyContinuation (s : St) (f : Int) : Res St := do
  let v ← s.cdr f
  let n ← s.car v
  let s ← if n ≠ 0 then do
      let s ← restoreStack n.toNat s v 0 (s.stackSize - n)
      ok { s with sp := s.stackSize - n }
    else ok s
  let x := s.r1
  let s ← gcPopFrame s
  let d ← s.cdr x
  let r ← s.car d
  ok { s with r1 := r }

/-- `define` and `define-macro` up to the evaluation of the value: /repo/src/eval-apply.c:615-661. -/
def evalDefineForm (s : St) (fuel : Nat) (isMacro : Bool) : Res (Bool × St) := do
  let e0 ← s.car s.r0
  let k ← s.car e0
  let globalP := decide (k ≠ c_closure)
  let d ← s.cdr s.r1
  let target ← s.car d
  let ct ← s.rd target
  let name := if ct.tag = .pair then ct.car else target
  let s ← if globalP then
      if isMacro then do
        let entry ← assq s fuel name s.macros
        if entry = c_f then do
          let (_, s) ← hashqSet s s.macros name c_f
          ok s
        else ok s
      else do
        let (entry, s) ← moduleVariable s fuel s.r0 name
        if entry = c_f then do
          let (_, s) ← moduleDefine s name c_f
          ok s
        else ok s
    else ok s
  let s := { s with r2 := s.r1 }
  if ct.tag ≠ .pair then do
    let dd ← s.cdr d
    let e ← s.car dd
    let (p, s) ← cons s target target
    let (a, s) ← cons s p s.r0
    let s ← pushCc s e s.r2 a c_vm_eval_define
    ok (globalP, s)
  else do
    let (p, s) ← pairlis fuel s target target s.r0
    let formals ← s.cdr target
    let body ← s.cdr d
    let s ← if isMacro ∨ globalP then expandVariable fuel s body formals true else ok s
    let (q, s) ← cons s formals body
    let (l, s) ← cons s c_symbol_lambda q
    let s := { s with r1 := l }
    let s ← pushCc s l s.r2 p c_vm_eval_define
    ok (globalP, s)

/-- `eval_define:` storing the value: /repo/src/eval-apply.c:662-688. -/
def storeDefine (s : St) (fuel : Nat) (globalP macroP : Bool) : Res St := do
  let d ← s.cdr s.r2
  let target ← s.car d
  let ct ← s.rd target
  let name := if ct.tag = .pair then ct.car else target
  let s ← if macroP then do
      let (entry, s) ← macroGetHandle s fuel name
      let (m, s) ← makeMacro s name s.r1
      let (_, s) ← setCdrX { s with r1 := m } entry m
      ok s
    else if globalP then do
      let (entry, s) ← moduleVariable s fuel s.r0 name
      let (_, s) ← setCdrX s entry s.r1
      ok s
    else do
      let (entry, s) ← cons s name s.r1
      let (aa, s) ← cons s entry c_nil
      let r ← cdrP s s.r0
      let (_, s) ← setCdrX s aa r
      let (_, s) ← setCdrX s s.r0 aa
      let (cl, s) ← moduleVariable s fuel s.r0 c_closure
      let (_, s) ← setCdrX s cl aa
      ok s
  ok { s with r1 := c_unspecified }

/-- The call of the portable expander in `macro_expand`: /repo/src/eval-apply.c:770-797; `none` when it does not apply. -/
def scExpand (s : St) (fuel : Nat) : Res (Bool × St) := do
  let c ← s.rd s.r1
  let a ← s.rd c.car
  if a.tag = .symbol ∧ c.car ≠ c_symbol_begin then do
    let (m, s) ← macroGetHandle s fuel c_symbol_portable_macro_expand
    if m = c_f then ok (false, s)
    else do
      let (expanders, s) ← moduleRef s fuel s.r0 c_symbol_sc_expander_alist
      if expanders = c_undefined then ok (false, s)
      else do
        let m ← assq s fuel c.car expanders
        if m = c_f then ok (false, s)
        else do
          let (e, s) ← moduleRef s fuel s.r0 c_symbol_macro_expand
          let s := { s with r2 := s.r1 }
          if e ≠ c_undefined ∧ e ≠ c_f then do
            let (p, s) ← cons s s.r1 c_nil
            let (q, s) ← cons s e p
            ok (true, { s with r1 := q })
          else ok (false, s)
  else ok (false, s)

/-- One step of the machine, from a label to the next one. -/
def step (K : Calls) (fuel : Nat) (v : Vm) : Res Vm :=
  let s := v.s
  let go (pc : Label) (s : St) : Res Vm := ok { v with pc := pc, s := s }
  match v.pc with
  | .done => ok v
  | .dispatch =>
    match labelOf s.r3 with
    | some l => go l s
    | none => abort
  | .vmReturn => do
    let s ← vmReturn s
    go .dispatch s
  | .evlis =>
    if s.r1 = c_nil then go .vmReturn s
    else do
      let c ← s.rd s.r1
      if c.tag ≠ .pair then go .eval s
      else do
        let s ← pushCc s c.car s.r1 s.r0 c_vm_evlis2
        go .eval s
  | .evlis2 => do
    let d ← s.cdr s.r2
    let s ← pushCc s d s.r1 s.r0 c_vm_evlis3
    go .evlis s
  | .evlis3 => do
    let (p, s) ← cons s s.r2 s.r1
    go .vmReturn { s with r1 := p }
  | .apply => do
    let c ← s.rd s.r1
    let f := c.car
    let args := c.cdr
    let s ← s.setStack (s.sp + 4) f
    let cf ← s.rd f
    let (prim, s) ← builtinP s f
    if prim then do
      let s ← applyPrim K s fuel f args
      go .vmReturn s
    else match cf.tag with
    | .closure => do
      let s ← applyClosure s fuel f args
      go .begin s
    | .continuation => do
      let s ← applyContinuation s f
      go .dispatch s
    | .special =>
      if f = c_vm_apply then do
        let a1 ← s.car args
        let d1 ← s.cdr args
        let a2 ← s.car d1
        let (p, s) ← cons s a1 a2
        let s ← pushCc s p s.r1 s.r0 c_vm_return
        go .apply s
      else if f = c_vm_eval then do
        let a1 ← s.car args
        let d1 ← s.cdr args
        let a2 ← s.car d1
        let s ← pushCc s a1 s.r1 a2 c_vm_return
        go .eval s
      else if f = c_vm_begin_expand then do
        let a1 ← s.car args
        let d1 ← s.cdr args
        let a2 ← s.car d1
        let (p, s) ← cons s a1 c_nil
        let s ← pushCc s p s.r1 a2 c_vm_return
        go .beginExpand s
      else do
        let _ ← checkApply s c_f
        ub
    | .symbol =>
      if f = c_symbol_call_with_current_continuation then go .callCc { s with r1 := args }
      else if f = c_symbol_call_with_values then go .callWithValues { s with r1 := args }
      else if f = c_symbol_current_module then go .vmReturn { s with r1 := s.r0 }
      else if f = c_symbol_boot_module then go .vmReturn { s with r1 := s.m0 }
      else do
        let s ← pushCc s f s.r1 s.r0 c_vm_apply2
        go .eval s
    | .pair =>
      if cf.car = c_symbol_lambda then do
        let formals ← s.car cf.cdr
        let body ← s.cdr cf.cdr
        let (p, s) ← pairlis fuel s formals args s.r0
        checkFormals s fuel formals args
        let s ← callLambda s body p
        go .begin s
      else do
        let s ← pushCc s f s.r1 s.r0 c_vm_apply2
        go .eval s
    | _ => do
      let s ← pushCc s f s.r1 s.r0 c_vm_apply2
      go .eval s
  | .apply2 => do
    let s ← checkApply s s.r1
    let d ← s.cdr s.r2
    let (p, s) ← cons s s.r1 d
    go .apply { s with r1 := p }
  | .eval => do
    let c ← s.rd s.r1
    match c.tag with
    | .pair =>
      if c.car = c_symbol_pmatch_car then do
        let e ← s.car c.cdr
        let s ← pushCc s e s.r1 s.r0 c_vm_eval_pmatch_car
        go .eval s
      else if c.car = c_symbol_pmatch_cdr then do
        let e ← s.car c.cdr
        let s ← pushCc s e s.r1 s.r0 c_vm_eval_pmatch_cdr
        go .eval s
      else if c.car = c_symbol_quote then do
        let s ← gcPopFrame s
        let e ← s.car c.cdr
        go .dispatch { s with r1 := e }
      else if c.car = c_symbol_begin then go .begin s
      else if c.car = c_symbol_lambda then do
        let d ← s.rd c.cdr
        let (f, s) ← makeClosure s d.car d.cdr s.r0
        go .vmReturn { s with r1 := f }
      else if c.car = c_symbol_if then go .vmIf { s with r1 := c.cdr }
      else if c.car = c_symbol_set_x then do
        let d ← s.cdr c.cdr
        let e ← s.car d
        let s ← pushCc s e s.r1 s.r0 c_vm_eval_set_x
        go .eval s
      else if c.car = c_vm_macro_expand then do
        let e ← s.car c.cdr
        let s ← pushCc s e s.r1 s.r0 c_vm_eval_macro_expand_eval
        go .eval s
      else if c.car = c_symbol_define ∨ c.car = c_symbol_define_macro then do
        let isMacro := decide (c.car = c_symbol_define_macro)
        let (g, s) ← evalDefineForm s fuel isMacro
        ok { v with pc := .eval, s := s, globalP := some g, macroP := some isMacro }
      else do
        let s ← pushCc s c.car s.r1 s.r0 c_vm_eval_check_func
        let s ← gcCheck s fuel
        go .eval s
    | .symbol =>
      if s.r1 = c_symbol_boot_module ∨ s.r1 = c_symbol_current_module ∨ s.r1 = c_symbol_begin
          ∨ s.r1 = c_symbol_call_with_current_continuation then go .vmReturn s
      else do
        let (x, s) ← moduleRef s fuel s.r0 s.r1
        let x ← assertDefined x
        go .vmReturn { s with r1 := x }
    | .variable => do
      let x ← s.cdr c.car
      go .vmReturn { s with r1 := x }
    | .brokenHeart => err .systemError
    | _ => go .vmReturn s
  | .evalPmatchCar => do
    let x := s.r1
    let s ← gcPopFrame s
    let y ← s.car x
    go .dispatch { s with r1 := y }
  | .evalPmatchCdr => do
    let x := s.r1
    let s ← gcPopFrame s
    let y ← s.cdr x
    go .dispatch { s with r1 := y }
  | .evalSetX => do
    let d ← s.cdr s.r2
    let x ← s.car d
    let (r, s) ← setEnvX s fuel x s.r1 s.r0
    go .vmReturn { s with r1 := r }
  | .evalMacroExpandEval => do
    let s ← pushCc s s.r1 s.r2 s.r0 c_vm_eval_macro_expand_expand
    go .macroExpand s
  | .evalMacroExpandExpand => go .vmReturn s
  | .evalDefine =>
    match v.globalP, v.macroP with
    | some g, some m => do
      let s ← storeDefine s fuel g m
      go .vmReturn s
    | _, _ => ub
  | .evalCheckFunc => do
    let d ← s.cdr s.r2
    let s ← pushCc s d s.r2 s.r0 c_vm_eval2
    go .evlis s
  | .eval2 => do
    let f ← s.car s.r2
    let (p, s) ← cons s f s.r1
    go .apply { s with r1 := p }
  | .macroExpand => do
    let c ← s.rd s.r1
    if c.tag ≠ .pair ∨ c.car = c_symbol_quote then go .vmReturn s
    else if c.car = c_symbol_lambda then do
      let d ← s.cdr c.cdr
      let s ← pushCc s d s.r1 s.r0 c_vm_macro_expand_lambda
      go .macroExpand s
    else do
      let (m, s) ← getMacro s fuel c.car
      if m ≠ c_f then do
        let (p, s) ← cons s m c.cdr
        let s ← pushCc { s with r1 := p } p c_nil s.r0 c_vm_macro_expand
        go .apply s
      else if c.car = c_symbol_define ∨ c.car = c_symbol_define_macro then do
        let d ← s.cdr c.cdr
        let s ← pushCc s d s.r1 s.r0 c_vm_macro_expand_define
        go .macroExpand s
      else if c.car = c_symbol_set_x then do
        let d ← s.cdr c.cdr
        let s ← pushCc s d s.r1 s.r0 c_vm_macro_expand_set_x
        go .macroExpand s
      else do
        let (b, s) ← scExpand s fuel
        if b then go .apply s
        else do
          let s ← pushCc s c.car s.r1 s.r0 c_vm_macro_expand_car
          go .macroExpand s
  | .macroExpandLambda | .macroExpandSetX => do
    let d ← s.cdr s.r2
    let s ← s.setCdr d s.r1
    go .vmReturn { s with r1 := s.r2 }
  | .macroExpandDefine => do
    let d ← s.cdr s.r2
    let s ← s.setCdr d s.r1
    let s := { s with r1 := s.r2 }
    let c ← s.rd s.r1
    if c.car = c_symbol_define_macro then do
      let s ← pushCc s s.r1 s.r1 s.r0 c_vm_macro_expand_define_macro
      go .eval s
    else go .vmReturn s
  | .macroExpandDefineMacro => go .vmReturn { s with r1 := s.r2 }
  | .macroExpandCar => do
    let s ← s.setCar s.r2 s.r1
    let s := { s with r1 := s.r2 }
    let c ← s.rd s.r1
    if c.cdr = c_nil then go .vmReturn s
    else do
      let s ← pushCc s c.cdr s.r1 s.r0 c_vm_macro_expand_cdr
      go .macroExpand s
  | .macroExpandCdr => do
    let s ← s.setCdr s.r2 s.r1
    go .vmReturn { s with r1 := s.r2 }
  | .begin => ok { v with pc := .beginLoop, x := c_unspecified }
  | .beginLoop =>
    if s.r1 = c_nil then go .vmReturn { s with r1 := v.x }
    else do
      let s ← gcCheck s fuel
      let c ← s.rd s.r1
      if c.tag = .pair then do
        let a ← s.rd c.car
        if a.car = c_symbol_primitive_load then do
          let (p, s) ← cons s c.car c_nil
          let s ← pushCc s p s.r1 s.r0 c_vm_begin_primitive_load
          go .beginExpand s
        else go .beginSplice s
      else go .beginSplice s
  | .beginPrimitiveLoad => do
    let s ← s.setCar s.r2 s.r1
    go .beginSplice { s with r1 := s.r2 }
  | .beginSplice => do
    let c ← s.rd s.r1
    if c.tag = .pair then do
      let a ← s.rd c.car
      if a.tag = .pair ∧ a.car = c_symbol_begin then do
        let (p, s) ← append2 s fuel a.cdr c.cdr
        go .beginRest { s with r1 := p }
      else go .beginRest s
    else go .beginRest s
  | .beginRest => do
    let c ← s.rd s.r1
    if c.cdr = c_nil then go .eval { s with r1 := c.car }
    else do
      let s ← pushCc s c.car s.r1 s.r0 c_vm_begin_eval
      go .eval s
  | .beginEval => do
    let d ← s.cdr s.r2
    ok { v with pc := .beginLoop, s := { s with r1 := d }, x := s.r1 }
  | .beginExpand => ok { v with pc := .beginExpandLoop, x := c_unspecified }
  | .beginExpandLoop =>
    if s.r1 = c_nil then go .vmReturn { s with r1 := v.x } else go .beginExpandWhile s
  | .beginExpandWhile => do
    let s ← gcCheck s fuel
    let c ← s.rd s.r1
    if c.tag = .pair then do
      let a ← s.rd c.car
      let s ← if a.tag = .pair ∧ a.car = c_symbol_begin then do
          let (p, s) ← append2 s fuel a.cdr c.cdr
          ok { s with r1 := p }
        else ok s
      let c ← s.rd s.r1
      let a ← s.rd c.car
      if a.car = c_symbol_primitive_load then do
        let e ← s.car a.cdr
        let s ← pushCc s e s.r1 s.r0 c_vm_begin_expand_primitive_load
        go .eval s
      else do
        let s ← pushCc s c.car s.r1 s.r0 c_vm_begin_expand_macro
        go .macroExpand s
    else do
      let s ← pushCc s c.car s.r1 s.r0 c_vm_begin_expand_macro
      go .macroExpand s
  | .beginExpandPrimitiveLoad => do
    let c ← s.rd s.r1
    if c.tag = .number ∧ c.cdr = 0 ∨ c.tag = .string ∨ c.tag = .port then do
      let (x, s) ← K.load fuel s.r1 s
      let (p, s) ← cons s c_symbol_begin x
      let s ← s.setCar s.r2 p
      go .beginExpandWhile { s with r1 := s.r2 }
    else abort
  | .beginExpandMacro => do
    let a ← s.car s.r2
    if s.r1 ≠ a then do
      let s ← s.setCar s.r2 s.r1
      go .beginExpandWhile { s with r1 := s.r2 }
    else do
      let s := { s with r1 := s.r2 }
      let s ← expandVariable fuel s a c_nil true
      let e ← s.car s.r1
      let s ← pushCc s e s.r1 s.r0 c_vm_begin_expand_eval
      go .eval s
  | .beginExpandEval => do
    let d ← s.cdr s.r2
    ok { v with pc := .beginExpandLoop, s := { s with r1 := d }, x := s.r1 }
  | .vmIf => do
    let c ← s.rd s.r1
    let s ← pushCc s c.car s.r1 s.r0 c_vm_if_expr
    go .eval s
  | .ifExpr => do
    let x := s.r1
    let d ← s.cdr s.r2
    let cd ← s.rd d
    if x ≠ c_f then go .eval { s with r1 := cd.car }
    else if cd.cdr ≠ c_nil then do
      let e ← s.car cd.cdr
      go .eval { s with r1 := e }
    else go .vmReturn { s with r1 := c_unspecified }
  | .callCc => do
    let s ← gcPushFrame s
    let (x, s) ← makeContinuation s s.continuations
    let s := { s with continuations := s.continuations + 1 }
    let (vec, s) ← stackVector s
    let s ← s.setCdr x vec
    let s ← gcPopFrame s
    let f ← s.car s.r1
    let (p, s) ← cons s x c_nil
    let (q, s) ← cons s f p
    let s ← pushCc s q x s.r0 c_vm_call_with_current_continuation2
    go .apply s
  | .callCc2 => do
    let (vec, s) ← stackVector s
    let s ← s.setCdr s.r2 vec
    go .vmReturn s
  | .callWithValues => do
    let f ← s.car s.r1
    let (p, s) ← cons s f c_nil
    let s ← pushCc s p s.r1 s.r0 c_vm_call_with_values2
    go .apply s
  | .callWithValues2 => do
    let c ← s.rd s.r1
    let s := if c.tag = .values then { s with r1 := c.cdr } else s
    let d ← s.cdr s.r2
    let f ← s.car d
    let (p, s) ← cons s f s.r1
    go .apply { s with r1 := p }

/-- `n` steps of the machine. -/
def run (K : Calls) (fuel : Nat) : Nat → Vm → Res Vm
  | 0, v => ok v
  | n + 1, v => do
    let v ← step K fuel v
    run K fuel n v

/-- `apply`: /repo/src/eval-apply.c:980-986, at most `n` steps. -/
def apply (K : Calls) (fuel n : Nat) (s : St) (f x : Int) : Res (Int × St) := do
  let (p, s) ← cons s f x
  let s ← pushCc s p c_unspecified s.r0 c_unspecified
  let v ← run K fuel n { pc := .dispatch, s := { s with r3 := c_vm_apply }, x := 0, globalP := none, macroP := none }
  if v.pc = .done then ok (v.s.r1, v.s) else loop

end Mes
