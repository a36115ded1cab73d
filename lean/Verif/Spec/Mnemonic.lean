import Verif.Spec.X86

/-
What a mnemonic of /repo/lib/x86-mes/x86.M1 says, read as in the assembly language of AT&T: the name of the operation, underscores,
then the operands, the source before the destination.  `$i8`, `$8` and `$i32`, `$0x32` are constants of one and of four bytes that
follow the instruction; `0x8(%r)`, `0x32(%r)` and `0x32` are memory with a displacement of one or four bytes that follows the
instruction; a name of a jump or call ends in the number of bits of the displacement.
-/
namespace Mes.X86

/-- An operand in the text. -/
inductive Arg
  | reg (w : Width) (n : Nat)
  | mem (base : Option Reg) (bytes : Nat)
  | imm (bytes : Nat)
  | const (v : Word)
deriving DecidableEq, Repr

def registerNamed (s : String) : Option (Width × Nat) :=
  [("eax", .l, 0), ("ecx", .l, 1), ("edx", .l, 2), ("ebx", .l, 3), ("esp", .l, 4), ("ebp", .l, 5), ("esi", .l, 6), ("edi", .l, 7),
   ("ax", .w, 0), ("cx", .w, 1), ("dx", .w, 2), ("bx", .w, 3),
   ("al", .b, 0), ("cl", .b, 1), ("dl", .b, 2), ("bl", .b, 3), ("ah", .b, 4), ("ch", .b, 5), ("dh", .b, 6), ("bh", .b, 7)].lookup s

/-- A base register in parentheses. -/
def baseNamed (cs : List Char) : Option Reg :=
  match cs with
  | '(' :: '%' :: a :: b :: c :: [')'] =>
    match registerNamed (String.ofList [a, b, c]) with
    | some (.l, n) => some (regOf n)
    | _ => none
  | _ => none

def argNamed (cs : List Char) : Option Arg :=
  match cs with
  | '*' :: '%' :: r | '%' :: r => (registerNamed (String.ofList r)).map fun (w, n) => .reg w n
  | ['$', 'i', '8'] | ['$', '8'] => some (.imm 1)
  | ['$', 'i', '3', '2'] | ['$', '0', 'x', '3', '2'] => some (.imm 4)
  | ['$', '0', 'x', '8', '0'] => some (.const 0x80)
  | ['0', 'x', '3', '2'] => some (.mem none 4)
  | '0' :: 'x' :: '8' :: cs => (baseNamed cs).map fun b => .mem (some b) 1
  | '0' :: 'x' :: '3' :: '2' :: cs => (baseNamed cs).map fun b => .mem (some b) 4
  | cs => (baseNamed cs).map fun b => .mem (some b) 0

/-- A text up to a comma, and the rest. -/
def untilComma : List Char → List Char × Option (List Char)
  | [] => ([], none)
  | ',' :: cs => ([], some cs)
  | c :: cs => let (a, b) := untilComma cs; (c :: a, b)

/-- The operation and the operands of a mnemonic. -/
def parts (name : String) : Option (String × List Arg) :=
  let cs := name.toList
  let op := String.ofList (cs.takeWhile (· ≠ '_'))
  match (cs.dropWhile (· ≠ '_')).dropWhile (· = '_') with
  | [] => some (op, [])
  | cs => do
    match untilComma cs with
    | (a, none) => some (op, [← argNamed a])
    | (a, some b) => some (op, [← argNamed a, ← argNamed b])

/-- The number of bytes that follow for an operand in memory and for a constant. -/
def dispSize : List Arg → Nat
  | [] => 0
  | .mem _ n :: as => n + dispSize as
  | _ :: as => dispSize as

def immSize : List Arg → Nat
  | [] => 0
  | .imm n :: as => n + immSize as
  | _ :: as => immSize as

/-- The value of the bytes that follow: a single byte is extended with its sign. -/
def fieldValue : List Byte8 → Word
  | [b] => b.signExtend 32
  | [b0, b1, b2, b3] => word4 b0 b1 b2 b3
  | _ => 0

def Arg.opd (disp imm : Word) : Arg → Opd
  | .reg _ n => .reg n
  | .mem b _ => .mem b disp
  | .imm _ => .imm imm
  | .const v => .imm v

/-- The width of an operation is that of the register it names. -/
def widthOf : List Arg → Width
  | .reg w _ :: _ => w
  | _ :: as => widthOf as
  | [] => .l

def ccNamed (s : String) : Option CC :=
  [("b", .b), ("ae", .ae), ("e", .e), ("ne", .ne), ("be", .be), ("a", .a), ("l", .l), ("ge", .ge), ("le", .le), ("g", .g)].lookup s

def aluNamed (s : String) : Option (Alu × Option Width) :=
  [("add", .add, none), ("addb", .add, some .b), ("addw", .add, some .w), ("or", .or, none), ("and", .and, none), ("sub", .sub, none),
   ("xor", .xor, none), ("cmp", .cmp, none)].lookup s

/-- Operations without operands. -/
def plainNamed (s : String) : Option Instr :=
  [("cltd", Instr.cltd), ("lahf", .lahf), ("sahf", .sahf), ("leave", .leave), ("ret", .ret), ("nop", .nop), ("hlt", .hlt)].lookup s

/-- Extensions: whether the sign is kept, and the width of the source. -/
def extNamed (s : String) : Option (Bool × Width) :=
  [("movsbl", true, .b), ("movswl", true, .w), ("movzbl", false, .b), ("movzwl", false, .w)].lookup s

/-- Jumps and calls with a displacement: its size and the instruction. -/
def jumpNamed (s : String) : Option (Nat × (Word → Instr)) :=
  match s.toList with
  | ['c', 'a', 'l', 'l', '3', '2'] => some (4, .call)
  | ['j', 'm', 'p', '3', '2'] => some (4, .jmp)
  | ['j', c, '3', '2'] => (ccNamed (String.ofList [c])).map fun c => (4, .jcc c)
  | ['j', c, d, '3', '2'] => (ccNamed (String.ofList [c, d])).map fun c => (4, .jcc c)
  | ['j', c, '8'] => (ccNamed (String.ofList [c])).map fun c => (1, .jcc c)
  | ['i', 'n', 't'] => some (1, .int)
  | _ => none

/-- `setX`. -/
def setNamed (s : String) : Option CC :=
  match s.toList with
  | 's' :: 'e' :: 't' :: cs => ccNamed (String.ofList cs)
  | _ => none

/-- The instruction with one operand. -/
def unary (op : String) (x : Opd) : Option Instr :=
  match setNamed op with
  | some c => some (.set c x)
  | none =>
    if op = "push" then some (.push x)
    else if op = "pop" then (match x with | .reg n => some (.pop (regOf n)) | _ => none)
    else if op = "not" then some (.not x)
    else if op = "mul" then some (.mul x)
    else if op = "div" then some (.div false x)
    else if op = "idiv" then some (.div true x)
    else if op = "call" then some (.callTo x)
    else if op = "jmp" then some (.jmpTo x)
    else if op = "int" then (match x with | .imm v => some (.int (v.setWidth 8 |>.signExtend 32)) | _ => none)
    else none

/-- The instruction with two operands. -/
def binary (op : String) (w : Width) (src dst : Opd) : Option Instr :=
  match aluNamed op with
  | some (o, w') => some (.alu o (w'.getD w) dst src)
  | none =>
  match extNamed op with
  | some (s, w) => (match dst with | .reg n => some (.movx s w (regOf n) src) | _ => none)
  | none =>
    if op = "mov" then some (.mov w dst src)
    else if op = "movb" then some (.mov .b dst src)
    else if op = "movw" then some (.mov .w dst src)
    else if op = "test" then some (.test w dst src)
    else if op = "shl" then some (.shift true dst src)
    else if op = "shr" then some (.shift false dst src)
    else if op = "xchg" then some (.xchg src dst)
    else if op = "lea" then (match dst with | .reg n => some (.lea (regOf n) src) | _ => none)
    else none

/-- What a mnemonic says: the size of the displacement, the size of the constant, and the instruction. -/
def named (name : String) : Option (Nat × Nat × (Word → Word → Option Instr)) :=
  match parts name with
  | none => none
  | some (op, []) =>
    match jumpNamed op with
    | some (n, f) => some (n, 0, fun d _ => some (f d))
    | none => some (0, 0, fun _ _ => plainNamed op)
  | some (op, [x]) => some (dispSize [x], immSize [x], fun d v => unary op (x.opd d v))
  | some (op, [x, y]) => some (dispSize [x, y], immSize [x, y], fun d v => binary op (widthOf [x, y]) (x.opd d v) (y.opd d v))
  | some _ => none

/-- The bytes are the instruction that the mnemonic says, whatever displacement and constant follow. -/
def Defined (name : String) (bytes : List Byte8) : Prop :=
  ∃ nd ni f, named name = some (nd, ni, f) ∧
    ∀ db ib rest, db.length = nd → ib.length = ni →
      ∃ i, f (fieldValue db) (fieldValue ib) = some i ∧ decode (bytes ++ (db ++ (ib ++ rest))) = some (i, rest)

end Mes.X86
