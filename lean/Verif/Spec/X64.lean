import Verif.Spec.X86
/-
The instructions of the processor x86_64 in 64-bit mode, as far as MesCC uses them, after the manuals of the processor: the prefixes 0x66 and REX,
the opcode, the ModRM and SIB bytes.  They are followed by the displacement and then the constant of the instruction, the sizes of which are in its
operands.  Operands are in the order of the assembly language of AT&T, the source before the destination.
-/
namespace Mes.X64
open X86 (Byte8)

inductive Width | b | w | l | q
deriving DecidableEq, Repr

/-- What an address in memory begins with: nothing, a register, or the place of the next instruction. -/
inductive Base | abs | reg (n : Nat) | rip
deriving DecidableEq, Repr

/-- `high` is `%ah`, `%ch`, `%dh` or `%bh`; `rel` is the displacement of a jump. -/
inductive Opd
  | reg (w : Width) (n : Nat)
  | high (n : Nat)
  | mem (base : Base) (bytes : Nat)
  | imm (bytes : Nat)
  | rel (bytes : Nat)
deriving DecidableEq, Repr

/-- The conditions have their numbers: 2 is `b`, 3 `ae`, 4 `e`, 5 `ne`, 6 `be`, 7 `a`, 12 `l`, 13 `ge`, 14 `le`, 15 `g`.  So have the operations of
arithmetic: 0 is `add`, 1 `or`, 2 `adc`, 3 `sbb`, 4 `and`, 5 `sub`, 6 `xor`, 7 `cmp`. -/
inductive Op
  | alu (n : Nat) | mov | movsx (w : Width) | movzx (w : Width) | test | xchg | lea | shl | shr | sar
  | push | pop | not | neg | mul | imul | div | idiv | call | jmp | jcc (c : Nat) | set (c : Nat)
  | convert | lahf | sahf | leave | ret | nop | hlt | syscall
deriving DecidableEq, Repr

structure Instr where
  op : Op
  w : Width
  args : List Opd
deriving DecidableEq, Repr

/-! ### Reading bytes -/

abbrev P (α : Type) := List Byte8 → Option (α × List Byte8)

def P.ret {α : Type} (a : α) : P α := fun bs => some (a, bs)
def P.fail {α : Type} : P α := fun _ => none
def P.byte : P Nat
  | [] => none
  | b :: bs => some (b.toNat, bs)
def P.bind {α β : Type} (p : P α) (f : α → P β) : P β := fun bs =>
  match p bs with
  | none => none
  | some (a, bs) => f a bs

/-- The prefixes. -/
structure Prefix where
  small : Bool
  rex : Option Nat

/-- The bits of REX: 3 for 64-bit operands, 2 to extend the register, 1 the index, 0 the register or base in ModRM. -/
def Prefix.bit (c : Prefix) (k : Nat) : Bool := c.rex.elim false fun r => r / 2 ^ k % 2 = 1

def Prefix.ext (c : Prefix) (k n : Nat) : Nat := if c.bit k then n + 8 else n

def Prefix.width (c : Prefix) : Width := if c.bit 3 then .q else if c.small then .w else .l

/-- The opcodes come in pairs, for bytes and for the width that the prefixes say. -/
def Prefix.sized (c : Prefix) (op : Nat) : Width := if op % 2 = 0 then .b else c.width

/-- A register.  Without REX the byte registers from 4 on are the high halves. -/
def Prefix.reg (c : Prefix) (w : Width) (n : Nat) : Opd := if w = .b ∧ c.rex = none ∧ 4 ≤ n then .high (n - 4) else .reg w n

/-- The size of a constant: no more than four bytes. -/
def immOf : Width → Opd
  | .b => .imm 1
  | .w => .imm 2
  | _ => .imm 4

/-- The second operand in ModRM. -/
inductive RM | reg (n : Nat) | mem (base : Base) (bytes : Nat)

def RM.opd (c : Prefix) (w : Width) : RM → Opd
  | .reg n => c.reg w n
  | .mem b n => .mem b n

def dispOf (mod : Nat) : Nat := if mod = 0 then 0 else if mod = 1 then 1 else 4

/-- SIB, without an index. -/
def sib (c : Prefix) (mod s : Nat) : P RM :=
  if s / 8 % 8 = 4 ∧ c.bit 1 = false then
    if s % 8 = 5 ∧ mod = 0 then .ret (.mem .abs 4) else .ret (.mem (.reg (c.ext 0 (s % 8))) (dispOf mod))
  else .fail

def modrmOf (c : Prefix) (m : Nat) : P RM :=
  if m / 64 = 3 then .ret (.reg (c.ext 0 (m % 8)))
  else if m % 8 = 4 then P.byte.bind (sib c (m / 64))
  else if m % 8 = 5 ∧ m / 64 = 0 then .ret (.mem .rip 4)
  else .ret (.mem (.reg (c.ext 0 (m % 8))) (dispOf (m / 64)))

/-- ModRM: the field of the register, without extension, and the operand. -/
def modrm (c : Prefix) : P (Nat × RM) := P.byte.bind fun m => (modrmOf c m).bind fun rm => .ret (m / 8 % 8, rm)

/-- The groups of operations that the field of the register selects. -/
def shiftOp (n : Nat) : Option Op := if n = 4 then some .shl else if n = 5 then some .shr else if n = 7 then some .sar else none
def group3 (n : Nat) : Option Op :=
  if n = 2 then some .not else if n = 3 then some .neg else if n = 4 then some .mul else if n = 5 then some .imul else if n = 6 then some .div
  else if n = 7 then some .idiv else none
def group5 (n : Nat) : Option Op := if n = 2 then some .call else if n = 4 then some .jmp else if n = 6 then some .push else none

def orFail (o : Option Op) (f : Op → Instr) : P Instr :=
  match o with
  | some o => .ret (f o)
  | none => .fail

/-- The opcodes that follow 0x0f. -/
def twoBytes (c : Prefix) (op : Nat) : P Instr :=
  if op = 0x05 then .ret ⟨.syscall, .q, []⟩
  else if op / 16 = 8 then .ret ⟨.jcc (op % 16), .q, [.rel 4]⟩
  else if op / 16 = 9 then (modrm c).bind fun (_, rm) => .ret ⟨.set (op % 16), .b, [rm.opd c .b]⟩
  else if op = 0xb6 then (modrm c).bind fun (r, rm) => .ret ⟨.movzx .b, c.width, [rm.opd c .b, c.reg c.width (c.ext 2 r)]⟩
  else if op = 0xb7 then (modrm c).bind fun (r, rm) => .ret ⟨.movzx .w, c.width, [rm.opd c .w, c.reg c.width (c.ext 2 r)]⟩
  else if op = 0xbe then (modrm c).bind fun (r, rm) => .ret ⟨.movsx .b, c.width, [rm.opd c .b, c.reg c.width (c.ext 2 r)]⟩
  else if op = 0xbf then (modrm c).bind fun (r, rm) => .ret ⟨.movsx .w, c.width, [rm.opd c .w, c.reg c.width (c.ext 2 r)]⟩
  else .fail

/-- Register to ModRM operand, or the other way round. -/
def toRM (c : Prefix) (o : Op) (w : Width) : P Instr := (modrm c).bind fun (r, rm) => .ret ⟨o, w, [c.reg w (c.ext 2 r), rm.opd c w]⟩
def ofRM (c : Prefix) (o : Op) (w : Width) : P Instr := (modrm c).bind fun (r, rm) => .ret ⟨o, w, [rm.opd c w, c.reg w (c.ext 2 r)]⟩

/-- The opcodes of arithmetic, 0x00 to 0x3f. -/
def arith (c : Prefix) (op : Nat) : P Instr :=
  if op % 8 ≤ 1 then toRM c (.alu (op / 8)) (c.sized op)
  else if op % 8 ≤ 3 then ofRM c (.alu (op / 8)) (c.sized op)
  else if op % 8 ≤ 5 then .ret ⟨.alu (op / 8), c.sized op, [immOf (c.sized op), c.reg (c.sized op) 0]⟩
  else .fail

def oneByte (c : Prefix) (op : Nat) : P Instr :=
  if op = 0x0f then P.byte.bind (twoBytes c)
  else if op < 0x40 then arith c op
  else if op / 8 = 10 then .ret ⟨.push, .q, [.reg .q (c.ext 0 (op % 8))]⟩
  else if op / 8 = 11 then .ret ⟨.pop, .q, [.reg .q (c.ext 0 (op % 8))]⟩
  else if op = 0x63 then (modrm c).bind fun (r, rm) => .ret ⟨.movsx .l, c.width, [rm.opd c .l, c.reg c.width (c.ext 2 r)]⟩
  else if op = 0x68 then .ret ⟨.push, .q, [.imm 4]⟩
  else if op / 16 = 7 then .ret ⟨.jcc (op % 16), .q, [.rel 1]⟩
  else if op = 0x80 ∨ op = 0x81 then (modrm c).bind fun (r, rm) => .ret ⟨.alu r, c.sized op, [immOf (c.sized op), rm.opd c (c.sized op)]⟩
  else if op = 0x83 then (modrm c).bind fun (r, rm) => .ret ⟨.alu r, c.width, [.imm 1, rm.opd c c.width]⟩
  else if op / 2 = 0x42 then toRM c .test (c.sized op)
  else if op / 2 = 0x43 then toRM c .xchg (c.sized op)
  else if op / 2 = 0x44 then toRM c .mov (c.sized op)
  else if op / 2 = 0x45 then ofRM c .mov (c.sized op)
  else if op = 0x8d then ofRM c .lea c.width
  else if op = 0x90 ∧ c.bit 0 = false then .ret ⟨.nop, .q, []⟩
  else if op / 8 = 18 then .ret ⟨.xchg, c.width, [.reg c.width 0, .reg c.width (c.ext 0 (op % 8))]⟩
  else if op = 0x99 then .ret ⟨.convert, c.width, []⟩
  else if op = 0x9e then .ret ⟨.sahf, .q, []⟩
  else if op = 0x9f then .ret ⟨.lahf, .q, []⟩
  else if op / 8 = 22 then .ret ⟨.mov, .b, [.imm 1, c.reg .b (c.ext 0 (op % 8))]⟩
  else if op / 8 = 23 then .ret ⟨.mov, c.width, [if c.width = .q then .imm 8 else immOf c.width, c.reg c.width (c.ext 0 (op % 8))]⟩
  else if op / 2 = 0x60 then (modrm c).bind fun (r, rm) => orFail (shiftOp r) fun o => ⟨o, c.sized op, [.imm 1, rm.opd c (c.sized op)]⟩
  else if op / 2 = 0x69 then (modrm c).bind fun (r, rm) => orFail (shiftOp r) fun o => ⟨o, c.sized op, [.reg .b 1, rm.opd c (c.sized op)]⟩
  else if op = 0xc3 then .ret ⟨.ret, .q, []⟩
  else if op / 2 = 0x63 then
    (modrm c).bind fun (r, rm) => orFail (if r = 0 then some .mov else none) fun o => ⟨o, c.sized op, [immOf (c.sized op), rm.opd c (c.sized op)]⟩
  else if op = 0xc9 then .ret ⟨.leave, .q, []⟩
  else if op = 0xe8 then .ret ⟨.call, .q, [.rel 4]⟩
  else if op = 0xe9 then .ret ⟨.jmp, .q, [.rel 4]⟩
  else if op = 0xf4 then .ret ⟨.hlt, .q, []⟩
  else if op / 2 = 0x7b then (modrm c).bind fun (r, rm) => orFail (group3 r) fun o => ⟨o, c.sized op, [rm.opd c (c.sized op)]⟩
  else if op = 0xff then (modrm c).bind fun (r, rm) => orFail (group5 r) fun o => ⟨o, .q, [rm.opd c .q]⟩
  else .fail

/-- REX is 0x40 to 0x4f. -/
def afterSmall (small : Bool) (b : Nat) : P Instr :=
  if b / 16 = 4 then P.byte.bind (oneByte ⟨small, some (b % 16)⟩) else oneByte ⟨small, none⟩ b

/-- An instruction up to its displacement. -/
def head : P Instr := P.byte.bind fun b => if b = 0x66 then P.byte.bind (afterSmall true) else afterSmall false b

def Opd.dispSize : Opd → Nat
  | .mem _ n => n
  | .rel n => n
  | _ => 0

def Opd.immSize : Opd → Nat
  | .imm n => n
  | _ => 0

def Instr.dispSize (i : Instr) : Nat := (i.args.map Opd.dispSize).sum
def Instr.immSize (i : Instr) : Nat := (i.args.map Opd.immSize).sum

/-- The first instruction of some bytes, with its displacement, its constant, and the rest of the bytes. -/
def decode (bs : List Byte8) : Option (Instr × List Byte8 × List Byte8 × List Byte8) :=
  match head bs with
  | none => none
  | some (i, bs) =>
    if i.dispSize + i.immSize ≤ bs.length then
      some (i, bs.take i.dispSize, (bs.drop i.dispSize).take i.immSize, bs.drop (i.dispSize + i.immSize))
    else none

/-! ### Mnemonics -/

/-
What a mnemonic of /repo/lib/x86_64-mes/x86_64.M1 says, read as in the assembly language of AT&T: the name of the operation, underscores, then the
operands, the source before the destination.  `$i8`, `$i32` and `$i64` are constants of one, four and eight bytes that follow the instruction;
`0x8(%r)`, `0x32(%r)` and `0x32` are memory with a displacement of one or four bytes that follows the instruction; a name of a jump or call ends in the
number of bits of the displacement.  The width of an operation is said by its last letter or by a register; otherwise it is 64 bits.
-/

def registerNamed (s : String) : Option Opd :=
  [("rax", Opd.reg .q 0), ("rcx", .reg .q 1), ("rdx", .reg .q 2), ("rbx", .reg .q 3), ("rsp", .reg .q 4), ("rbp", .reg .q 5), ("rsi", .reg .q 6),
   ("rdi", .reg .q 7), ("r8", .reg .q 8), ("r9", .reg .q 9), ("r10", .reg .q 10), ("r15", .reg .q 15),
   ("eax", .reg .l 0), ("ecx", .reg .l 1), ("edx", .reg .l 2), ("esi", .reg .l 6), ("edi", .reg .l 7),
   ("ax", .reg .w 0), ("cx", .reg .w 1), ("dx", .reg .w 2), ("si", .reg .w 6), ("di", .reg .w 7),
   ("al", .reg .b 0), ("cl", .reg .b 1), ("dl", .reg .b 2), ("sil", .reg .b 6), ("dil", .reg .b 7),
   ("ah", .high 0)].lookup s

def baseNamed (cs : List Char) (bytes : Nat) : Option Opd :=
  match cs with
  | '(' :: '%' :: a :: b :: c :: [')'] =>
    match registerNamed (String.ofList [a, b, c]) with
    | some (.reg .q n) => some (.mem (.reg n) bytes)
    | _ => none
  | _ => none

def opdNamed (cs : List Char) : Option Opd :=
  match cs with
  | '*' :: '%' :: r | '%' :: r => registerNamed (String.ofList r)
  | ['$', 'i', '8'] => some (.imm 1)
  | ['$', 'i', '3', '2'] => some (.imm 4)
  | ['$', 'i', '6', '4'] => some (.imm 8)
  | ['0', 'x', '3', '2'] => some (.mem .abs 4)
  | '0' :: 'x' :: '8' :: cs => baseNamed cs 1
  | '0' :: 'x' :: '3' :: '2' :: cs => baseNamed cs 4
  | cs => baseNamed cs 0

/-- A text up to a comma, and the rest. -/
def untilComma : List Char → List Char × Option (List Char)
  | [] => ([], none)
  | ',' :: cs => ([], some cs)
  | c :: cs => let (a, b) := untilComma cs; (c :: a, b)

/-- The operation and the operands of a mnemonic. -/
def parts (name : String) : Option (String × List Opd) :=
  let cs := name.toList
  let op := String.ofList (cs.takeWhile (· ≠ '_'))
  match (cs.dropWhile (· ≠ '_')).dropWhile (· = '_') with
  | [] => some (op, [])
  | cs =>
    match untilComma cs with
    | (a, none) => (opdNamed a).map fun a => (op, [a])
    | (a, some b) => (opdNamed a).bind fun a => (opdNamed b).map fun b => (op, [a, b])

def ccNamed (cs : List Char) : Option Nat :=
  [("b", 2), ("ae", 3), ("e", 4), ("ne", 5), ("be", 6), ("a", 7), ("l", 12), ("ge", 13), ("le", 14), ("g", 15)].lookup (String.ofList cs)

/-- Operations without operands, and those with the displacement of a jump. -/
def plainNamed (s : String) : Option Instr :=
  match s.toList with
  | ['c', 'a', 'l', 'l', '3', '2'] => some ⟨.call, .q, [.rel 4]⟩
  | ['j', 'm', 'p', '3', '2'] => some ⟨.jmp, .q, [.rel 4]⟩
  | ['j', c, '3', '2'] => (ccNamed [c]).map fun c => ⟨.jcc c, .q, [.rel 4]⟩
  | ['j', c, d, '3', '2'] => (ccNamed [c, d]).map fun c => ⟨.jcc c, .q, [.rel 4]⟩
  | ['j', c, '8'] => (ccNamed [c]).map fun c => ⟨.jcc c, .q, [.rel 1]⟩
  | _ => [("cqto", Instr.mk .convert .q []), ("lahf", ⟨.lahf, .q, []⟩), ("sahf", ⟨.sahf, .q, []⟩), ("ret", ⟨.ret, .q, []⟩), ("nop", ⟨.nop, .q, []⟩),
      ("hlt", ⟨.hlt, .q, []⟩), ("syscall", ⟨.syscall, .q, []⟩)].lookup s

/-- An operation, and its width if the name says it. -/
def opNamed (s : String) : Option (Op × Option Width) :=
  match s.toList with
  | 's' :: 'e' :: 't' :: cs => (ccNamed cs).map fun c => (.set c, some .b)
  | _ => [("add", Op.alu 0, none), ("addb", .alu 0, some .b), ("addw", .alu 0, some .w), ("addl", .alu 0, some .l), ("or", .alu 1, none),
      ("and", .alu 4, none), ("sub", .alu 5, none), ("xor", .alu 6, none), ("cmp", .alu 7, none), ("mov", .mov, none), ("movb", .mov, some .b),
      ("movw", .mov, some .w), ("movl", .mov, some .l), ("test", .test, none), ("xchg", .xchg, none), ("shl", .shl, none), ("shr", .shr, none),
      ("push", .push, some .q), ("pop", .pop, some .q), ("not", .not, none), ("mul", .mul, none), ("div", .div, none), ("idiv", .idiv, none),
      ("call", .call, some .q), ("jmp", .jmp, some .q), ("movsbq", .movsx .b, some .q), ("movswq", .movsx .w, some .q), ("movslq", .movsx .l, some .q),
      ("movzbq", .movzx .b, some .q), ("movzwq", .movzx .w, some .q)].lookup s

/-- The width of the destination, or else of the source. -/
def widthOf : List Opd → Width
  | [.reg w _] | [_, .reg w _] => w
  | [_, .high _] => .b
  | [.reg w _, _] => w
  | _ => .q

/-- What a mnemonic says.  `movzlq` is the move of 32 bits: the upper half of the register becomes 0. -/
def named (name : String) : Option Instr :=
  match parts name with
  | none => none
  | some (op, []) => plainNamed op
  | some (op, args) =>
    match op == "movzlq", args with
    | true, [src, .reg .q n] => some ⟨.mov, .l, [src, .reg .l n]⟩
    | _, _ => (opNamed op).map fun (o, w) => ⟨o, w.getD (widthOf args), args⟩

/-- The bytes are the instruction that the mnemonic says, whatever displacement and constant follow. -/
def Defined (name : String) (bytes : List Byte8) : Prop :=
  ∃ i, named name = some i ∧ ∀ db ib rest, db.length = i.dispSize → ib.length = i.immSize → decode (bytes ++ (db ++ (ib ++ rest))) = some (i, db, ib, rest)

end Mes.X64
