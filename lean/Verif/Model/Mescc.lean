import Verif.Spec.CLang
import Verif.Model.X86Defines

/-
MesCC, the C compiler of Mes, for the i386: /repo/module/mescc/compile.scm, /repo/module/mescc/as.scm,
/repo/module/mescc/i386/as.scm and /repo/module/mescc/i386/info.scm.

Modelled: expressions on integers (no pointers, arrays, structures, calls or assignments inside an expression), statements without
`switch`, `for`, `goto` and `asm`, local variables, functions with parameters.  The C source is taken as parsed (the parser is Nyacc, not part of Mes): a constant
stands for the text that `cstring->int` reads.  Everything runs with two registers (`%reduced-register-count`, compile.scm:48) and
without comments (`mes-or-reproducible?`, compile.scm:45, except the comment of `test-jump-label->info`, see `testJump`).
-/
namespace Mes.Mescc
open Mes.CLang

/-! ## The text -/

/-- The arguments of an instruction: `#:immediate1`, `#:immediate`, `#:offset`, `#:address`. -/
inductive Arg
  | imm1 (v : Int)
  | imm4 (v : Int)
  | offset (label : String)
  | address (label : String)
deriving DecidableEq, Repr

/-- A line: an instruction with its arguments, a label, a comment. -/
inductive Line
  | ins (name : String) (args : List Arg)
  | label (l : String)
  | comment
deriving DecidableEq, Repr

/-- A local variable: /repo/module/mescc/info.scm:238-244 `<local>`. -/
structure Local where
  type : Ty
  id : Int
deriving DecidableEq, Repr

/-- `<info>` (/repo/module/mescc/info.scm:122-139), the fields that matter here.  The text is a list of the results of `wrap-as`. -/
structure Info where
  locals : List (String × Local)
  function : String
  text : List (List Line)
  breaks : List String
  continues : List String
  registers : List String
  allocated : List String
  pushed : Nat
deriving DecidableEq, Repr

/-- /repo/module/mescc/i386/info.scm:33 -/
def registers : List String := ["eax", "ebx", "ecx", "edx", "esi", "edi"]

/-! ## The instructions -/

/-- /repo/module/mescc/as.scm:67-68 -/
def getR (i : Info) : String := if i.allocated = [] then i.registers.headD "" else i.allocated.headD ""

/-- /repo/module/mescc/as.scm:70-71 -/
def getR0 (i : Info) : String := i.allocated.getD 1 ""

/-- /repo/module/mescc/as.scm:73-74 -/
def getR1 (i : Info) : String := i.allocated.headD ""

/-- /repo/module/mescc/i386/as.scm:33-34 -/
def eToX (r : String) : String := String.ofList (r.toList.drop 1)

/-- /repo/module/mescc/i386/as.scm:36-37 -/
def eToL (r : String) : String := String.ofList ((r.toList.drop 1).dropLast ++ ['l'])

/-- /repo/module/mescc/i386/as.scm:40-42 -/
def functionPreamble : List Line := [.ins "push___%ebp" [], .ins "mov____%esp,%ebp" []]

/-- /repo/module/mescc/i386/as.scm:44-45 -/
def functionLocals : List Line := [.ins "sub____$i32,%esp" [.imm4 (4 * 1025 + 20 * 4)]]

/-- /repo/module/mescc/i386/as.scm:47-52 -/
def rToLocal (i : Info) (id : Int) : List Line :=
  let n := 0 - 4 * id
  if n.natAbs < 0x80 then [.ins ("mov____%" ++ getR i ++ ",0x8(%ebp)") [.imm1 n]]
  else [.ins ("mov____%" ++ getR i ++ ",0x32(%ebp)") [.imm4 n]]

/-- /repo/module/mescc/i386/as.scm:54-56 -/
def valueToR (i : Info) (v : Int) : List Line := [.ins ("mov____$i32,%" ++ getR i) [.imm4 v]]

/-- /repo/module/mescc/i386/as.scm:58-60 -/
def ret : List Line := [.ins "leave" [], .ins "ret" []]

/-- /repo/module/mescc/i386/as.scm:62-64 -/
def rZero (i : Info) : List Line := [.ins ("test___%" ++ getR i ++ "," ++ "%" ++ getR i) []]

/-- /repo/module/mescc/i386/as.scm:66-70 -/
def localToR (i : Info) (id : Int) : List Line :=
  let n := 0 - 4 * id
  if n.natAbs < 0x80 then [.ins ("mov____0x8(%ebp),%" ++ getR i) [.imm1 n]]
  else [.ins ("mov____0x32(%ebp),%" ++ getR i) [.imm4 n]]

/-- /repo/module/mescc/i386/as.scm:72-75 -/
def r0AddR1 (i : Info) : List Line := [.ins ("add____%" ++ getR1 i ++ ",%" ++ getR0 i) []]

/-- /repo/module/mescc/i386/as.scm:88-92 -/
def rNegate (i : Info) : List Line :=
  [.ins ("sete___%" ++ eToL (getR i)) [], .ins ("movzbl_%" ++ eToL (getR i) ++ ",%" ++ getR i) []]

/-- /repo/module/mescc/i386/as.scm:94-97 -/
def r0SubR1 (i : Info) : List Line := [.ins ("sub____%" ++ getR1 i ++ ",%" ++ getR0 i) []]

/-- /repo/module/mescc/i386/as.scm:99-103 -/
def zfToR (i : Info) : List Line :=
  [.ins ("sete___%" ++ eToL (getR i)) [], .ins ("movzbl_%" ++ eToL (getR i) ++ ",%" ++ getR i) []]

/-- /repo/module/mescc/i386/as.scm:105-108 -/
def xorZf : List Line := [.ins "lahf" [], .ins "xor____$i8,%ah" [.imm1 0x40], .ins "sahf" []]

/-- /repo/module/mescc/i386/as.scm:110-114 -/
def rToLocalN (i : Info) (id n : Int) : List Line :=
  let n := 0 - 4 * id + n
  if n.natAbs < 0x80 then [.ins ("mov____%" ++ getR i ++ ",0x8(%ebp)") [.imm1 n]]
  else [.ins ("mov____%" ++ getR i ++ ",0x32(%ebp)") [.imm4 n]]

/-- /repo/module/mescc/i386/as.scm:136-138 -/
def labelToR (i : Info) (label : String) : List Line := [.ins ("mov____$i32,%" ++ getR i) [.address label]]

/-- /repo/module/mescc/i386/as.scm:140-143 -/
def r0ToR1 (i : Info) : List Line := [.ins ("mov____%" ++ getR0 i ++ ",%" ++ getR1 i) []]

/-- /repo/module/mescc/i386/as.scm:149-152 -/
def byteR (i : Info) : List Line := [.ins ("movzbl_%" ++ eToL (getR i) ++ ",%" ++ getR i) []]

/-- /repo/module/mescc/i386/as.scm:154-157 -/
def byteSignedR (i : Info) : List Line := [.ins ("movsbl_%" ++ eToL (getR i) ++ ",%" ++ getR i) []]

/-- /repo/module/mescc/i386/as.scm:159-162 -/
def wordR (i : Info) : List Line := [.ins ("movzwl_%" ++ eToX (getR i) ++ ",%" ++ getR i) []]

/-- /repo/module/mescc/i386/as.scm:164-167 -/
def wordSignedR (i : Info) : List Line := [.ins ("movswl_%" ++ eToX (getR i) ++ ",%" ++ getR i) []]

/-- /repo/module/mescc/i386/as.scm:169-170; the blanks after the name are separators for M1. -/
def jump (label : String) : List Line := [.ins "jmp32" [.offset label]]

/-- /repo/module/mescc/i386/as.scm:172-173 -/
def jumpZ (label : String) : List Line := [.ins "je32" [.offset label]]

/-- /repo/module/mescc/i386/as.scm:175-176 -/
def jumpNz (label : String) : List Line := [.ins "jne32" [.offset label]]

/-- /repo/module/mescc/i386/as.scm:239-242 -/
def swapR0R1 (i : Info) : List Line := [.ins ("xchg___%" ++ getR0 i ++ ",%" ++ getR1 i) []]

/-- /repo/module/mescc/i386/as.scm:245-292: `g?->r`, `ge?->r`, `l?->r`, `le?->r`, `a?->r`, `ae?->r`, `b?->r`, `be?->r`; `set` is the
name of the instruction up to the register. -/
def ccToR (set : String) (i : Info) : List Line :=
  [.ins (set ++ "%" ++ eToL (getR i)) [], .ins ("movzbl_%" ++ eToL (getR i) ++ ",%" ++ getR i) []]

/-- /repo/module/mescc/i386/as.scm:294-296 -/
def testR (i : Info) : List Line := [.ins ("test___%" ++ getR i ++ ",%" ++ getR i) []]

/-- /repo/module/mescc/i386/as.scm:317-338 -/
def r0MulR1 (i : Info) : List Line :=
  let r0 := getR0 i
  let r1 := getR1 i
  if "edx" ∉ i.allocated then
    (if r0 = "eax" then [] else [.ins "push___%eax" [], .ins ("mov____%" ++ r0 ++ ",%eax") []]) ++
    [.ins ("mul____%" ++ r1) []] ++
    (if r0 = "eax" then [] else [.ins ("mov____%eax,%" ++ r0) [], .ins "pop____%eax" []])
  else
    [.ins "push___%eax" [], .ins "push___%ebx" [], .ins "push___%edx" [], .ins ("mov____%" ++ r1 ++ ",%ebx") [],
     .ins ("mov____%" ++ r0 ++ ",%eax") [], .ins ("mul____%" ++ r1) [], .ins "pop____%edx" [], .ins "pop____%ebx" [],
     .ins ("mov____%eax,%" ++ r0) [], .ins "pop____%eax" []]

/-- /repo/module/mescc/i386/as.scm:340-344 -/
def r0ShlR1 (i : Info) : List Line := [.ins ("mov____%" ++ getR1 i ++ ",%ecx") [], .ins ("shl____%cl,%" ++ getR0 i) []]

/-- /repo/module/mescc/i386/as.scm:346-350 -/
def r0ShrR1 (i : Info) : List Line := [.ins ("mov____%" ++ getR1 i ++ ",%ecx") [], .ins ("shr____%cl,%" ++ getR0 i) []]

/-- /repo/module/mescc/i386/as.scm:352-355 -/
def r0AndR1 (i : Info) : List Line := [.ins ("and____%" ++ getR1 i ++ ",%" ++ getR0 i) []]

/-- /repo/module/mescc/i386/as.scm:357-380 -/
def r0DivR1 (i : Info) (signed : Bool) : List Line :=
  let r0 := getR0 i
  let r1 := getR1 i
  if "edx" ∉ i.allocated then
    (if r0 = "eax" then [] else [.ins "push___%eax" [], .ins ("mov____%" ++ r0 ++ ",%eax") []]) ++
    [if signed then .ins "cltd" [] else .ins "xor____%edx,%edx" [],
     if signed then .ins ("idiv___%" ++ r1) [] else .ins ("div___%" ++ r1) []] ++
    (if r0 = "eax" then [] else [.ins ("mov____%eax,%" ++ r0) [], .ins "pop____%eax" []])
  else
    [.ins "push___%eax" [], .ins "push___%ebx" [], .ins "push___%edx" [], .ins ("mov____%" ++ r1 ++ ",%ebx") [],
     .ins ("mov____%" ++ r0 ++ ",%eax") [],
     if signed then .ins "cltd" [] else .ins "xor____%edx,%edx" [],
     if signed then .ins "idiv___%ebx" [] else .ins "div___%ebx" [],
     .ins "pop____%edx" [], .ins "pop____%ebx" [], .ins ("mov____%eax,%" ++ r0) [], .ins "pop____%eax" []]

/-- /repo/module/mescc/i386/as.scm:382-403 -/
def r0ModR1 (i : Info) (signed : Bool) : List Line :=
  let r0 := getR0 i
  let r1 := getR1 i
  if "edx" ∉ i.allocated then
    (if r0 = "eax" then [] else [.ins "push___%eax" [], .ins ("mov____%" ++ r0 ++ ",%eax") []]) ++
    [if signed then .ins "cltd" [] else .ins "xor____%edx,%edx" [],
     if signed then .ins ("idiv___%" ++ r1) [] else .ins ("div___%" ++ r1) [],
     .ins ("mov____%edx,%" ++ r0) []]
  else
    [.ins "push___%eax" [], .ins "push___%ebx" [], .ins "push___%edx" [], .ins ("mov____%" ++ r1 ++ ",%ebx") [],
     .ins ("mov____%" ++ r0 ++ ",%eax") [],
     if signed then .ins "cltd" [] else .ins "xor____%edx,%edx" [],
     if signed then .ins "idiv___%ebx" [] else .ins "div___%ebx" [],
     .ins "pop____%edx" [], .ins "pop____%ebx" [], .ins ("mov____%edx,%" ++ r0) [], .ins "pop____%eax" []]

/-- /repo/module/mescc/i386/as.scm:405-408 -/
def rAddValue (i : Info) (v : Int) : List Line :=
  if v.natAbs < 0x80 then [.ins ("add____$i8,%" ++ getR i) [.imm1 v]] else [.ins ("add____$i32,%" ++ getR i) [.imm4 v]]

/-- /repo/module/mescc/i386/as.scm:443-446 -/
def r0OrR1 (i : Info) : List Line := [.ins ("or_____%" ++ getR1 i ++ ",%" ++ getR0 i) []]

/-- /repo/module/mescc/i386/as.scm:456-458 -/
def notR (i : Info) : List Line := [.ins ("not____%" ++ getR i) []]

/-- /repo/module/mescc/i386/as.scm:460-463 -/
def r0XorR1 (i : Info) : List Line := [.ins ("xor____%" ++ getR1 i ++ ",%" ++ getR0 i) []]

/-- /repo/module/mescc/i386/as.scm:500-505 -/
def byteRToLocalN (i : Info) (id n : Int) : List Line :=
  let n := 0 - 4 * id + n
  if n.natAbs < 0x80 then [.ins ("mov____%" ++ eToL (getR i) ++ ",0x8(%ebp)") [.imm1 n]]
  else [.ins ("mov____%" ++ eToL (getR i) ++ ",0x32(%ebp)") [.imm4 n]]

/-- /repo/module/mescc/i386/as.scm:507-512 -/
def wordRToLocalN (i : Info) (id n : Int) : List Line :=
  let n := 0 - 4 * id + n
  if n.natAbs < 0x80 then [.ins ("mov____%" ++ eToX (getR i) ++ ",0x8(%ebp)") [.imm1 n]]
  else [.ins ("mov____%" ++ eToX (getR i) ++ ",0x32(%ebp)") [.imm4 n]]

/-- /repo/module/mescc/i386/as.scm:518-520 -/
def pushR0 (i : Info) : List Line := [.ins ("push___%" ++ getR0 i) []]

/-- /repo/module/mescc/i386/as.scm:522-525 -/
def r1ToR0 (i : Info) : List Line := [.ins ("mov____%" ++ getR1 i ++ ",%" ++ getR0 i) []]

/-- /repo/module/mescc/i386/as.scm:527-529 -/
def popR0 (i : Info) : List Line := [.ins ("pop____%" ++ getR0 i) []]

/-! ## Registers -/

/-- /repo/module/mescc/compile.scm:422-423 -/
def appendText (i : Info) (text : List (List Line)) : Info := { i with text := i.text ++ text }

/-- /repo/module/mescc/compile.scm:48-51 -/
def maxRegisters : Nat := 2

/-- /repo/module/mescc/compile.scm:667-675 -/
def allocateRegister (i : Info) : Info :=
  if i.allocated.length < maxRegisters then
    { i with allocated := i.registers.headD "" :: i.allocated, registers := i.registers.tail }
  else
    let i := { i with pushed := i.pushed + 1 }
    appendText i [pushR0 i ++ r1ToR0 i]

/-- /repo/module/mescc/compile.scm:677-685 -/
def freeRegister (i : Info) : Info :=
  if i.pushed = 0 then
    { i with allocated := i.allocated.tail, registers := i.allocated.headD "" :: i.registers }
  else
    let i := { i with pushed := i.pushed - 1 }
    appendText i [r0ToR1 i ++ popR0 i]

/-- `fold (lambda (x info) (free-register info)) info (.allocated info)` -/
def freeAll (i : Info) : Info := i.allocated.foldl (fun i _ => freeRegister i) i

/-! ## Expressions -/

/-- /repo/module/mescc/compile.scm:1451-1476, with registers of four bytes -/
def convertR0 (i : Info) (t : Ty) : List (List Line) :=
  if t.size = 1 ∧ t.signed then [byteSignedR i]
  else if t.size = 1 then [byteR i]
  else if t.size = 2 ∧ t.signed then [wordSignedR i]
  else if t.size = 2 then [wordR i]
  else []

/-- /repo/module/mescc/compile.scm:467-484; there are no statics, globals and constants, and variables are of integer types. -/
def identToR (i : Info) (x : String) : List (List Line) :=
  match i.locals.lookup x with
  | some l => [localToR i l.id] ++ convertR0 i l.type
  | none => [labelToR i x]

/-- The type of a constant goes by its suffix: /repo/module/mescc/compile.scm:117-124. -/
def constType (c : Const) : Ty :=
  match c.suffix with
  | .u | .ul => .uint
  | .none | .l => .int

/-- /repo/module/mescc/compile.scm:107-260 -/
def astType (locals : List (String × Local)) : Expr → Ty
  | .fixed c => constType c
  | .chr _ => ⟨true, 1⟩
  | .ident x => ((locals.lookup x).map (·.type)).getD .int
  | .un _ a => astType locals a
  | .bin _ a _ => astType locals a
  | .land a _ => astType locals a
  | .lor a _ => astType locals a
  | .cond _ b _ => astType locals b
  | .cast t _ => t

/-- `expr->register` and `test-jump-label->info` of an expression. -/
structure Code where
  reg : Info → Info
  test : String → Info → Info

/-- /repo/module/mescc/compile.scm:1478-1483 -/
def binopToR (a b : Code) (op : Info → List Line) (i : Info) : Info :=
  let i := a.reg i
  let i := b.reg i
  let i := appendText i [op i]
  freeRegister i

/-- The comparisons, /repo/module/mescc/compile.scm:1246-1288 -/
def compareToR (a b : Code) (set : String) (i : Info) : Info :=
  let i := binopToR a b r0SubR1 i
  let i := appendText i [ccToR set i]
  appendText i [testR i]

def isFixed : Expr → Option Const
  | .fixed c => some c
  | _ => none

/-- The arithmetic of `expr->register`, /repo/module/mescc/compile.scm:1126-1288, for operands that are no pointers; `fixed` is the
right operand if it is a constant. -/
def binToRegister (op : Binop) (a b : Code) (fixed : Option Const) (i : Info) (signedA unsigned : Bool) : Info :=
  match op, fixed with
  | .add, some c => let i := a.reg i; appendText i [rAddValue i c.value]
  | .sub, some c => let i := a.reg i; appendText i [rAddValue i (-c.value)]
  | .add, none => binopToR a b r0AddR1 i
  | .sub, none => binopToR a b r0SubR1 i
  | .and, _ => binopToR a b r0AndR1 i
  | .or, _ => binopToR a b r0OrR1 i
  | .xor, _ => binopToR a b r0XorR1 i
  | .shl, _ => binopToR a b r0ShlR1 i
  | .shr, _ => binopToR a b r0ShrR1 i
  | .div, _ => binopToR a b (r0DivR1 · signedA) i
  | .mod, _ => binopToR a b (r0ModR1 · signedA) i
  | .mul, _ => binopToR a b r0MulR1 i
  | .eq, _ => let i := binopToR a b r0SubR1 i; appendText i [zfToR i]
  | .ne, _ =>
    let i := binopToR a b r0SubR1 i
    let i := appendText i [testR i]
    let i := appendText i [xorZf]
    appendText i [zfToR i]
  | .ge, _ => compareToR a b (if unsigned then "setae__" else "setge__") i
  | .gt, _ => compareToR a b (if unsigned then "seta___" else "setg___") i
  | .le, _ => compareToR a b (if unsigned then "setbe__" else "setle__") i
  | .lt, _ => compareToR a b (if unsigned then "setb___" else "setl___") i

/-- `jump` of `test-jump-label->info`, /repo/module/mescc/compile.scm:1499-1507 -/
def jumpWith (reg : Info → Info) (type : String → List Line) (test : Option (Info → List Line)) (label : String) (i : Info) : Info :=
  let i := reg i
  let i := appendText i [[.comment]]
  let i := appendText i ((match test with | none => [] | some t => [t i]) ++ [type label])
  freeRegister i

/-- A number in a label. -/
def numberString (n : Nat) : String := toString n

/-- `expr->register`, /repo/module/mescc/compile.scm:889-1438, and `test-jump-label->info`, compile.scm:1498-1558: they call each
other, and are given here together. -/
def compile : Expr → Code
  | .fixed c =>
    let reg := fun i => let i := allocateRegister i; appendText i [valueToR i c.value]
    ⟨reg, jumpWith reg jumpZ (some rZero)⟩
  | .chr c =>
    let reg := fun i => let i := allocateRegister i; appendText i [valueToR i c]
    ⟨reg, jumpWith reg jumpZ (some rZero)⟩
  | .ident x =>
    let reg := fun i => let i := allocateRegister i; appendText i (identToR i x)
    ⟨reg, jumpWith reg jumpZ (some rZero)⟩
  | .un .neg a =>
    let reg := fun i =>
      match isFixed a with
      | some c => let i := allocateRegister i; appendText i [valueToR i (-c.value)]
      | none =>
        let i := (compile a).reg i
        let i := allocateRegister i
        let i := appendText i ([valueToR i 0] ++ [swapR0R1 i] ++ [r0SubR1 i])
        freeRegister i
    ⟨reg, jumpWith reg jumpZ (some rZero)⟩
  | .un .pos a =>
    let reg := (compile a).reg
    ⟨reg, jumpWith reg jumpZ (some rZero)⟩
  | .un .bitNot a =>
    let reg := fun i => let i := (compile a).reg i; appendText i [notR i]
    ⟨reg, jumpWith reg jumpZ (some rZero)⟩
  | .un .not a =>
    let reg := fun i =>
      let i := (compile a).reg i
      let i := appendText i [testR i]
      let i := appendText i [rNegate i]
      appendText i [testR i]
    ⟨reg, jumpWith reg jumpZ none⟩
  | .bin op a b =>
    let reg := fun i =>
      binToRegister op (compile a) (compile b) (isFixed b) i (astType i.locals a).signed
        (!(astType i.locals a).signed || !(astType i.locals b).signed)
    ⟨reg,
      match op with
      | .le | .lt | .ge | .gt => jumpWith reg jumpZ none
      | .ne | .eq => jumpWith reg jumpNz none
      | _ => jumpWith reg jumpZ (some rZero)⟩
  | .lor a b =>
    ⟨fun i =>
      let i := (compile a).reg i
      let skip := "_" ++ i.function ++ "_" ++ numberString i.text.length ++ "_or_skip_b"
      let i := appendText i [testR i]
      let i := appendText i [jumpNz skip]
      let i := appendText i [testR i]
      let i := freeRegister i
      let i := (compile b).reg i
      let i := appendText i [testR i]
      appendText i [[.label skip]],
     fun label i =>
      let here := numberString i.text.length
      let skip := label ++ "_skip_b_" ++ here
      let bLabel := label ++ "_b_" ++ here
      let i := (compile a).test bLabel i
      let i := appendText i [jump skip]
      let i := appendText i [[.label bLabel]]
      let i := (compile b).test label i
      appendText i [[.label skip]]⟩
  | .land a b =>
    ⟨fun i =>
      let i := (compile a).reg i
      let skip := "_" ++ i.function ++ "_" ++ numberString i.text.length ++ "_and_skip_b"
      let i := appendText i [testR i]
      let i := appendText i [jumpZ skip]
      let i := appendText i [testR i]
      let i := freeRegister i
      let i := (compile b).reg i
      let i := appendText i [testR i]
      appendText i [[.label skip]],
     fun label i =>
      let i := (compile a).test label i
      (compile b).test label i⟩
  | .cond a b c =>
    let reg := fun i =>
      let label := "_" ++ i.function ++ "_" ++ numberString i.text.length ++ "_"
      let i := (compile a).test (label ++ "else") i
      let i := (compile b).reg i
      let i := freeRegister i
      let i := appendText i [jump (label ++ "break")]
      let i := appendText i [[.label (label ++ "else")]]
      let i := (compile c).reg i
      let i := freeRegister i
      let i := appendText i [[.label (label ++ "break")]]
      allocateRegister i
    ⟨reg, jumpWith reg jumpZ (some rZero)⟩
  | .cast t a =>
    let reg := fun i => let i := (compile a).reg i; appendText i (convertR0 i t)
    ⟨reg, jumpWith reg jumpZ (some rZero)⟩

/-- `expr->register`, /repo/module/mescc/compile.scm:889-1438 -/
def exprToRegister (e : Expr) (i : Info) : Info := (compile e).reg i

/-- `test-jump-label->info`, /repo/module/mescc/compile.scm:1498-1558 -/
def testJump (label : String) (e : Expr) (i : Info) : Info := (compile e).test label i

/-! ## Statements -/

/-- `r->ident`, /repo/module/mescc/compile.scm:528-556 -/
def rToIdent (i : Info) (x : String) : List (List Line) :=
  match i.locals.lookup x with
  | some l => [rToLocal i l.id]
  | none => []

/-- `r->local+n-text`, /repo/module/mescc/compile.scm:506-526 -/
def rToLocalNText (i : Info) (l : Local) (n : Int) : List (List Line) :=
  if l.type.size = 4 then [rToLocalN i l.id n]
  else if l.type.size = 1 then [byteRToLocalN i l.id n]
  else if l.type.size = 2 then [wordRToLocalN i l.id n]
  else [rToLocalN i l.id n]

/-- The number of a new variable, `local->info`, /repo/module/mescc/compile.scm:2187-2190 -/
def newId : List (String × Local) → Int
  | [] => 1
  | (_, l) :: _ => if 0 < l.id then l.id + 1 else 1

/-- `ast->info`, /repo/module/mescc/compile.scm:1681-1905, with `local->info`, 2187-2215, and `init-local`, 2124-2185 -/
def astToInfo : Stmt → Info → Info
  | .skip, i => i
  | .expr e, i =>
    match e with
    | .cond .. => freeRegister (exprToRegister e i)
    | _ =>
      let i := exprToRegister e i
      let i := appendText i [rZero i]
      freeAll i
  | .assign x e, i =>
    let i := exprToRegister e i
    let i := appendText i (rToIdent i x)
    let i := appendText i [rZero i]
    freeAll i
  | .decl t x e, i =>
    let l : Local := ⟨t, newId i.locals⟩
    let i := { i with locals := (x, l) :: i.locals }
    match e with
    | none => i
    | some e =>
      let i := exprToRegister e i
      let i := appendText i (rToLocalNText i l 0)
      freeRegister i
  | .seq s t, i => astToInfo t (astToInfo s i)
  | .block s, i => { astToInfo s i with locals := i.locals }
  | .ifThen c s, i =>
    let locals := i.locals
    let label := "_" ++ i.function ++ "_" ++ numberString i.text.length ++ "_"
    let i := testJump (label ++ "break") c i
    let i := astToInfo s i
    let i := appendText i [jump (label ++ "break")]
    let i := appendText i [[.label (label ++ "break")]]
    { i with locals := locals }
  | .ifElse c s t, i =>
    let locals := i.locals
    let label := "_" ++ i.function ++ "_" ++ numberString i.text.length ++ "_"
    let i := testJump (label ++ "else") c i
    let i := astToInfo s i
    let i := appendText i [jump (label ++ "break")]
    let i := appendText i [[.label (label ++ "else")]]
    let i := astToInfo t i
    let i := appendText i [[.label (label ++ "break")]]
    { i with locals := locals }
  | .while c s, i =>
    let locals := i.locals
    let label := "_" ++ i.function ++ "_" ++ numberString i.text.length ++ "_"
    let i := appendText i [jump (label ++ "continue")]
    let i := { i with breaks := (label ++ "break") :: i.breaks }
    let i := { i with continues := (label ++ "continue") :: i.continues }
    let i := appendText i [[.label (label ++ "loop")]]
    let i := astToInfo s i
    let i := appendText i [[.label (label ++ "continue")]]
    let i := testJump (label ++ "break") c i
    let i := appendText i [jump (label ++ "loop")]
    let i := appendText i [[.label (label ++ "break")]]
    { i with locals := locals, breaks := i.breaks.tail, continues := i.continues.tail }
  | .doWhile s c, i =>
    let locals := i.locals
    let label := "_" ++ i.function ++ "_" ++ numberString i.text.length ++ "_"
    let i := { i with breaks := (label ++ "break") :: i.breaks }
    let i := { i with continues := (label ++ "continue") :: i.continues }
    let i := appendText i [[.label (label ++ "loop")]]
    let i := astToInfo s i
    let i := appendText i [[.label (label ++ "continue")]]
    let i := testJump (label ++ "break") c i
    let i := appendText i [jump (label ++ "loop")]
    let i := appendText i [[.label (label ++ "break")]]
    { i with locals := locals, breaks := i.breaks.tail, continues := i.continues.tail }
  | .brk, i => appendText i [jump (i.breaks.headD "")]
  | .cont, i => appendText i [jump (i.continues.headD "")]
  | .ret e, i =>
    let i := freeAll i
    let i := exprToRegister e i
    let i := freeRegister i
    appendText i [ret]

/-! ## Functions -/

/-- `param-list->locals`, /repo/module/mescc/compile.scm:2609-2617: the first parameter has the number -2. -/
def paramLocals : Int → List (String × Ty) → List (String × Local)
  | _, [] => []
  | id, (x, t) :: ps => (x, ⟨t, id⟩) :: paramLocals (id - 1) ps

/-- The state at the start of the body, with `param-list->text`, /repo/module/mescc/compile.scm:2600-2607 -/
def functionStart (f : Function) : Info :=
  { locals := paramLocals (-2) f.params, function := f.name, text := [functionPreamble ++ functionLocals], breaks := [], continues := [],
    registers := registers, allocated := [], pushed := 0 }

/-- `assert-return`, /repo/module/mescc/compile.scm:2645-2648 -/
def assertReturn (text : List (List Line)) : List (List Line) := if text.getLast? = some ret then text else text ++ [ret]

/-- `fctn-defn->info`, /repo/module/mescc/compile.scm:2644-2670: the text of a function -/
def functionText (f : Function) : List (List Line) := assertReturn (astToInfo (.block f.body) (functionStart f)).text

/-- `write-function`, /repo/module/mescc/M1.scm:193-217, for the functions of a program one after the other, with `--align=none` (the default puts `<` before each function, which hex2 takes as zeros up to a multiple of four). -/
def programText (fs : List Function) : List Line := fs.flatMap fun f => .label f.name :: (functionText f).flatten

/-! ## The assembler -/

/-- The bytes of a number: four bytes, the least first (C55 is about the way there, through the text of the numbers). -/
def le4 (w : X86.Word) : List X86.Byte8 := [w.extractLsb' 0 8, w.extractLsb' 8 8, w.extractLsb' 16 8, w.extractLsb' 24 8]

def Arg.size : Arg → Nat
  | .imm1 _ => 1
  | .imm4 _ => 4
  | .offset _ => 4
  | .address _ => 4

/-- The bytes of an argument at an address; an offset is relative to the end of its four bytes. -/
def Arg.bytes (env : String → X86.Word) (at_ : X86.Word) : Arg → List X86.Byte8
  | .imm1 v => [BitVec.ofInt 8 v]
  | .imm4 v => le4 (BitVec.ofInt 32 v)
  | .offset l => le4 (env l - (at_ + 4))
  | .address l => le4 (env l)

def Arg.bytesAll (env : String → X86.Word) : X86.Word → List Arg → List X86.Byte8
  | _, [] => []
  | a, x :: xs => x.bytes env a ++ Arg.bytesAll env (a + BitVec.ofNat 32 x.size) xs

/-- The bytes of a line, with the addresses of the labels; `none` if the mnemonic is not defined. -/
def Line.bytes (env : String → X86.Word) (at_ : X86.Word) : Line → Option (List X86.Byte8)
  | .ins name args => (defines.lookup name).map fun bs => bs ++ Arg.bytesAll env (at_ + BitVec.ofNat 32 bs.length) args
  | .label _ => some []
  | .comment => some []

def Line.size : Line → Nat
  | .ins name args => ((defines.lookup name).getD []).length + (args.map Arg.size).sum
  | .label _ => 0
  | .comment => 0

def textSize (ls : List Line) : Nat := (ls.map Line.size).sum

/-- The addresses of the labels of a text that starts at an address; of a label that occurs twice the first one. -/
def addresses : X86.Word → List Line → String → X86.Word
  | _, [], _ => 0
  | a, l :: ls, x =>
    match l with
    | .label y => if y = x then a else addresses a ls x
    | l => addresses (a + BitVec.ofNat 32 l.size) ls x

/-- The bytes of a text at an address. -/
def assemble (env : String → X86.Word) : X86.Word → List Line → Option (List X86.Byte8)
  | _, [] => some []
  | a, l :: ls => do
    let bs ← l.bytes env a
    let cs ← assemble env (a + BitVec.ofNat 32 bs.length) ls
    some (bs ++ cs)

end Mes.Mescc
