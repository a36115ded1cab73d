/-
A part of the i386 instruction set: what the processor does (Intel 64 and IA-32 Architectures Software Developer's Manual,
volumes 1 and 2).  It is independent of Mes: the bytes in memory at `eip` are decoded and executed.

Left out: segments (the memory is flat), paging and protection (every address can be read and written), interrupts, floating
point, and the instructions that do not occur in /repo/lib/x86-mes/x86.M1.  Flags that the manual calls undefined come from an
oracle.
-/
namespace Mes.X86

abbrev Word := BitVec 32
abbrev Byte8 := BitVec 8

/-- The general registers, in the order of their numbers. -/
inductive Reg | eax | ecx | edx | ebx | esp | ebp | esi | edi
deriving DecidableEq, Repr

def regOf : Nat → Reg
  | 0 => .eax | 1 => .ecx | 2 => .edx | 3 => .ebx | 4 => .esp | 5 => .ebp | 6 => .esi | _ => .edi

structure Flags where
  cf : Bool
  pf : Bool
  af : Bool
  zf : Bool
  sf : Bool
  of : Bool

/-- The state of the processor and the memory; `oracle t i` is the value of the `i`-th flag when step `t` leaves it undefined. -/
structure Mach where
  reg : Reg → Word
  eip : Word
  mem : Word → Byte8
  flags : Flags
  time : Nat
  oracle : Nat → Nat → Bool

/-- Operand sizes: a byte, two bytes, four bytes. -/
inductive Width | b | w | l
deriving DecidableEq, Repr

def Width.bits : Width → Nat
  | .b => 8 | .w => 16 | .l => 32

/-- Operands: a register by its number (for bytes 0-3 are `al` to `bl`, 4-7 `ah` to `bh`), memory at base plus displacement, a
constant. -/
inductive Opd
  | reg (n : Nat)
  | mem (base : Option Reg) (disp : Word)
  | imm (v : Word)
deriving DecidableEq, Repr

inductive Alu | add | or | and | sub | xor | cmp
deriving DecidableEq, Repr

/-- Conditions. -/
inductive CC | b | ae | e | ne | be | a | l | ge | le | g
deriving DecidableEq, Repr

inductive Instr
  | mov (w : Width) (dst src : Opd)
  | alu (op : Alu) (w : Width) (dst src : Opd)
  | test (w : Width) (x y : Opd)
  | movx (signed : Bool) (w : Width) (dst : Reg) (src : Opd)
  | set (c : CC) (dst : Opd)
  | push (src : Opd)
  | pop (dst : Reg)
  | not (dst : Opd)
  | mul (src : Opd)
  | div (signed : Bool) (src : Opd)
  | shift (left : Bool) (dst count : Opd)
  | xchg (x y : Opd)
  | lea (dst : Reg) (src : Opd)
  | cltd | lahf | sahf | leave | ret | nop | hlt
  | int (n : Word)
  | call (rel : Word)
  | callTo (x : Opd)
  | jmp (rel : Word)
  | jmpTo (x : Opd)
  | jcc (c : CC) (rel : Word)
deriving DecidableEq, Repr

/-! ## Decoding -/

def word4 (b0 b1 b2 b3 : Byte8) : Word := b3 ++ b2 ++ b1 ++ b0

/-- A constant of four bytes. -/
def imm32 : List Byte8 → Option (Word × List Byte8)
  | b0 :: b1 :: b2 :: b3 :: bs => some (word4 b0 b1 b2 b3, bs)
  | _ => none

/-- A constant of one byte, extended with its sign. -/
def imm8 : List Byte8 → Option (Word × List Byte8)
  | b :: bs => some (b.signExtend 32, bs)
  | _ => none

/-- A constant of two bytes. -/
def imm16 : List Byte8 → Option (Word × List Byte8)
  | b0 :: b1 :: bs => some ((b1 ++ b0).setWidth 32, bs)
  | _ => none

/-- The ModRM byte with what follows it: the middle field and the operand. -/
def modrm : List Byte8 → Option (Nat × Opd × List Byte8)
  | [] => none
  | m :: bs =>
    let mode := m.toNat / 64
    let reg := m.toNat / 8 % 8
    let rm := m.toNat % 8
    if mode = 3 then some (reg, .reg rm, bs)
    else if rm = 4 then
      match bs with
      | s :: bs => if s.toNat = 0x24 ∧ mode = 0 then some (reg, .mem (some .esp) 0, bs) else none
      | [] => none
    else if mode = 0 then
      if rm = 5 then (imm32 bs).map fun (d, bs) => (reg, .mem none d, bs)
      else some (reg, .mem (some (regOf rm)) 0, bs)
    else if mode = 1 then (imm8 bs).map fun (d, bs) => (reg, .mem (some (regOf rm)) d, bs)
    else (imm32 bs).map fun (d, bs) => (reg, .mem (some (regOf rm)) d, bs)

def aluOf : Nat → Option Alu
  | 0 => some .add | 1 => some .or | 4 => some .and | 5 => some .sub | 6 => some .xor | 7 => some .cmp | _ => none

def ccOf : Nat → Option CC
  | 2 => some .b | 3 => some .ae | 4 => some .e | 5 => some .ne | 6 => some .be | 7 => some .a | 12 => some .l | 13 => some .ge
  | 14 => some .le | 15 => some .g | _ => none

/-- The instructions whose first byte is 0x0f. -/
def decode0f : List Byte8 → Option (Instr × List Byte8)
  | [] => none
  | b :: bs =>
    let op := b.toNat
    if op / 16 = 8 then do
      let c ← ccOf (op % 16)
      let (d, bs) ← imm32 bs
      some (.jcc c d, bs)
    else if op / 16 = 9 then do
      let c ← ccOf (op % 16)
      let (_, x, bs) ← modrm bs
      some (.set c x, bs)
    else if op = 0xb6 ∨ op = 0xb7 ∨ op = 0xbe ∨ op = 0xbf then do
      let (r, x, bs) ← modrm bs
      some (.movx (0xbe ≤ op) (if op % 2 = 0 then .b else .w) (regOf r) x, bs)
    else none

/-- One instruction and the bytes behind it; `w` is the size of words, `.w` behind the prefix 0x66. -/
def decodeOp (w : Width) (op : Nat) (bs : List Byte8) : Option (Instr × List Byte8) :=
  let immw := if w = .w then imm16 else imm32
  if op < 0x40 ∧ op % 8 < 2 then do
    let o ← aluOf (op / 8)
    let (r, x, bs) ← modrm bs
    some (.alu o (if op % 2 = 0 then .b else w) x (.reg r), bs)
  else if op < 0x40 ∧ op % 8 = 5 then do
    let o ← aluOf (op / 8)
    let (v, bs) ← immw bs
    some (.alu o w (.reg 0) (.imm v), bs)
  else if op = 0x0f then decode0f bs
  else if op / 8 = 10 then some (.push (.reg (op % 8)), bs)
  else if op / 8 = 11 then some (.pop (regOf (op % 8)), bs)
  else if op = 0x68 then (imm32 bs).map fun (v, bs) => (.push (.imm v), bs)
  else if op = 0x74 then (imm8 bs).map fun (v, bs) => (.jcc .e v, bs)
  else if op = 0x80 then do
    let (r, x, bs) ← modrm bs
    let o ← aluOf r
    let (v, bs) ← imm8 bs
    some (.alu o .b x (.imm v), bs)
  else if op = 0x81 then do
    let (r, x, bs) ← modrm bs
    let o ← aluOf r
    let (v, bs) ← immw bs
    some (.alu o w x (.imm v), bs)
  else if op = 0x83 then do
    let (r, x, bs) ← modrm bs
    let o ← aluOf r
    let (v, bs) ← imm8 bs
    some (.alu o w x (.imm v), bs)
  else if op = 0x84 ∨ op = 0x85 then do
    let (r, x, bs) ← modrm bs
    some (.test (if op = 0x84 then .b else w) x (.reg r), bs)
  else if op = 0x87 then do
    let (r, x, bs) ← modrm bs
    some (.xchg (.reg r) x, bs)
  else if op = 0x88 ∨ op = 0x89 then do
    let (r, x, bs) ← modrm bs
    some (.mov (if op = 0x88 then .b else w) x (.reg r), bs)
  else if op = 0x8a ∨ op = 0x8b then do
    let (r, x, bs) ← modrm bs
    some (.mov (if op = 0x8a then .b else w) (.reg r) x, bs)
  else if op = 0x8d then do
    let (r, x, bs) ← modrm bs
    some (.lea (regOf r) x, bs)
  else if op = 0x90 then some (.nop, bs)
  else if op / 8 = 18 then some (.xchg (.reg 0) (.reg (op % 8)), bs)
  else if op = 0x99 then some (.cltd, bs)
  else if op = 0x9e then some (.sahf, bs)
  else if op = 0x9f then some (.lahf, bs)
  else if op = 0xa1 then (imm32 bs).map fun (d, bs) => (.mov w (.reg 0) (.mem none d), bs)
  else if op = 0xa2 ∨ op = 0xa3 then (imm32 bs).map fun (d, bs) => (.mov (if op = 0xa2 then .b else w) (.mem none d) (.reg 0), bs)
  else if op / 8 = 22 then (imm8 bs).map fun (v, bs) => (.mov .b (.reg (op % 8)) (.imm v), bs)
  else if op / 8 = 23 then (imm32 bs).map fun (v, bs) => (.mov w (.reg (op % 8)) (.imm v), bs)
  else if op = 0xc1 then do
    let (r, x, bs) ← modrm bs
    let (v, bs) ← imm8 bs
    if r = 4 ∨ r = 5 then some (.shift (r = 4) x (.imm v), bs) else none
  else if op = 0xc3 then some (.ret, bs)
  else if op = 0xc7 then do
    let (r, x, bs) ← modrm bs
    let (v, bs) ← immw bs
    if r = 0 then some (.mov w x (.imm v), bs) else none
  else if op = 0xc9 then some (.leave, bs)
  else if op = 0xcd then (imm8 bs).map fun (v, bs) => (.int v, bs)
  else if op = 0xd3 then do
    let (r, x, bs) ← modrm bs
    if r = 4 ∨ r = 5 then some (.shift (r = 4) x (.reg 1), bs) else none
  else if op = 0xe8 then (imm32 bs).map fun (v, bs) => (.call v, bs)
  else if op = 0xe9 then (imm32 bs).map fun (v, bs) => (.jmp v, bs)
  else if op = 0xf4 then some (.hlt, bs)
  else if op = 0xf7 then do
    let (r, x, bs) ← modrm bs
    if r = 2 then some (.not x, bs)
    else if r = 4 then some (.mul x, bs)
    else if r = 6 ∨ r = 7 then some (.div (r = 7) x, bs)
    else none
  else if op = 0xff then do
    let (r, x, bs) ← modrm bs
    if r = 2 then some (.callTo x, bs)
    else if r = 4 then some (.jmpTo x, bs)
    else if r = 6 then some (.push x, bs)
    else none
  else none

/-- The first instruction of a list of bytes, and the rest. -/
def decode : List Byte8 → Option (Instr × List Byte8)
  | [] => none
  | b :: bs =>
    if b.toNat = 0x66 then
      match bs with
      | b :: bs => decodeOp .w b.toNat bs
      | [] => none
    else decodeOp .l b.toNat bs

/-! ## Execution -/

def setReg (m : Mach) (r : Reg) (v : Word) : Mach := { m with reg := fun r' => if r' = r then v else m.reg r' }

def read32 (m : Mach) (a : Word) : Word := word4 (m.mem a) (m.mem (a + 1)) (m.mem (a + 2)) (m.mem (a + 3))

def read (m : Mach) (w : Width) (a : Word) : Word :=
  match w with
  | .b => (m.mem a).setWidth 32
  | .w => (m.mem (a + 1) ++ m.mem a).setWidth 32
  | .l => read32 m a

def write8 (m : Mach) (a : Word) (v : Byte8) : Mach := { m with mem := fun x => if x = a then v else m.mem x }

def write32 (m : Mach) (a v : Word) : Mach :=
  write8 (write8 (write8 (write8 m a (v.extractLsb' 0 8)) (a + 1) (v.extractLsb' 8 8)) (a + 2) (v.extractLsb' 16 8)) (a + 3) (v.extractLsb' 24 8)

def write (m : Mach) (w : Width) (a v : Word) : Mach :=
  match w with
  | .b => write8 m a (v.extractLsb' 0 8)
  | .w => write8 (write8 m a (v.extractLsb' 0 8)) (a + 1) (v.extractLsb' 8 8)
  | .l => write32 m a v

def address (m : Mach) (base : Option Reg) (disp : Word) : Word :=
  match base with
  | some r => m.reg r + disp
  | none => disp

/-- The value of an operand, extended with zeros. -/
def get (m : Mach) (w : Width) : Opd → Word
  | .reg n =>
    match w with
    | .l => m.reg (regOf n)
    | .w => ((m.reg (regOf n)).extractLsb' 0 16).setWidth 32
    | .b => if n < 4 then ((m.reg (regOf n)).extractLsb' 0 8).setWidth 32 else ((m.reg (regOf (n - 4))).extractLsb' 8 8).setWidth 32
  | .mem b d => read m w (address m b d)
  | .imm v => (v.setWidth w.bits).setWidth 32

/-- The assignment to an operand: the other parts of a register stay. -/
def put (m : Mach) (w : Width) (x : Opd) (v : Word) : Mach :=
  match x with
  | .reg n =>
    match w with
    | .l => setReg m (regOf n) v
    | .w => setReg m (regOf n) ((m.reg (regOf n)).extractLsb' 16 16 ++ v.extractLsb' 0 16)
    | .b =>
      if n < 4 then setReg m (regOf n) ((m.reg (regOf n)).extractLsb' 8 24 ++ v.extractLsb' 0 8)
      else setReg m (regOf (n - 4)) ((m.reg (regOf (n - 4))).extractLsb' 16 16 ++ v.extractLsb' 0 8 ++ (m.reg (regOf (n - 4))).extractLsb' 0 8)
  | .mem b d => write m w (address m b d) v
  | .imm _ => m

/-- The number of bits that are one in the lowest byte is even. -/
def parity (v : Word) : Bool :=
  !(v.getLsbD 0 ^^ v.getLsbD 1 ^^ v.getLsbD 2 ^^ v.getLsbD 3 ^^ v.getLsbD 4 ^^ v.getLsbD 5 ^^ v.getLsbD 6 ^^ v.getLsbD 7)

/-- The flags of a sum. -/
def addFlags {n : Nat} (x y : BitVec n) : Flags :=
  let r := x + y
  { cf := 2 ^ n ≤ x.toNat + y.toNat, pf := parity (r.setWidth 32), af := 16 ≤ x.toNat % 16 + y.toNat % 16, zf := r = 0, sf := r.msb,
    of := x.msb = y.msb ∧ r.msb ≠ x.msb }

/-- The flags of a difference. -/
def subFlags {n : Nat} (x y : BitVec n) : Flags :=
  let r := x - y
  { cf := x.toNat < y.toNat, pf := parity (r.setWidth 32), af := x.toNat % 16 < y.toNat % 16, zf := r = 0, sf := r.msb,
    of := x.msb ≠ y.msb ∧ r.msb ≠ x.msb }

/-- The flags of a logical operation; `af` is undefined. -/
def logicFlags {n : Nat} (u : Nat → Bool) (r : BitVec n) : Flags :=
  { cf := false, pf := parity (r.setWidth 32), af := u 2, zf := r = 0, sf := r.msb, of := false }

/-- All flags undefined. -/
def anyFlags (u : Nat → Bool) : Flags := { cf := u 0, pf := u 1, af := u 2, zf := u 3, sf := u 4, of := u 5 }

/-- The result and the flags of an operation on `n` bits. -/
def aluOp {n : Nat} (u : Nat → Bool) : Alu → BitVec n → BitVec n → BitVec n × Flags
  | .add, x, y => (x + y, addFlags x y)
  | .or, x, y => (x ||| y, logicFlags u (x ||| y))
  | .and, x, y => (x &&& y, logicFlags u (x &&& y))
  | .sub, x, y => (x - y, subFlags x y)
  | .xor, x, y => (x ^^^ y, logicFlags u (x ^^^ y))
  | .cmp, x, y => (x, subFlags x y)

/-- Whether a condition holds. -/
def CC.holds (f : Flags) : CC → Bool
  | .b => f.cf
  | .ae => !f.cf
  | .e => f.zf
  | .ne => !f.zf
  | .be => f.cf || f.zf
  | .a => !(f.cf || f.zf)
  | .l => f.sf != f.of
  | .ge => f.sf == f.of
  | .le => f.zf || f.sf != f.of
  | .g => !f.zf && f.sf == f.of

def bit (b : Bool) : Byte8 := if b then 1 else 0

/-- The byte of flags: SF ZF 0 AF 0 PF 1 CF. -/
def flagByte (f : Flags) : Byte8 :=
  bit f.sf <<< 7 ||| bit f.zf <<< 6 ||| bit f.af <<< 4 ||| bit f.pf <<< 2 ||| 2 ||| bit f.cf

/-- The flags after a shift by `c` places, where `0 < c`; `last` is the last bit shifted out. -/
def shiftFlags (u : Nat → Bool) (c : Nat) (r : Word) (last of : Bool) : Flags :=
  { cf := last, pf := parity r, af := u 2, zf := r = 0, sf := r.msb, of := if c = 1 then of else u 5 }

def pushWord (m : Mach) (v : Word) : Mach :=
  let m := setReg m .esp (m.reg .esp - 4)
  write32 m (m.reg .esp) v

/-- What an instruction does, when `eip` is the address behind it; `none` is an exception. -/
def exec (m : Mach) : Instr → Option Mach
  | .mov w dst src => some (put m w dst (get m w src))
  | .alu op w dst src =>
    let u := m.oracle m.time
    let x := (get m w dst).setWidth w.bits
    let y := (get m w src).setWidth w.bits
    let (r, f) := aluOp u op x y
    let m := { m with flags := f }
    some (if op = .cmp then m else put m w dst (r.setWidth 32))
  | .test w x y =>
    let r := (get m w x).setWidth w.bits &&& (get m w y).setWidth w.bits
    some { m with flags := logicFlags (m.oracle m.time) r }
  | .movx signed w dst src =>
    let v := (get m w src).setWidth w.bits
    some (setReg m dst (if signed then v.signExtend 32 else v.setWidth 32))
  | .set c dst => some (put m .b dst (if c.holds m.flags then 1 else 0))
  | .push src => some (pushWord m (get m .l src))
  | .pop dst =>
    let v := read32 m (m.reg .esp)
    some (setReg (setReg m .esp (m.reg .esp + 4)) dst v)
  | .not dst => some (put m .l dst (~~~ (get m .l dst)))
  | .mul src =>
    let p := (m.reg .eax).toNat * (get m .l src).toNat
    let hi : Word := BitVec.ofNat 32 (p / 2 ^ 32)
    let u := m.oracle m.time
    let m := setReg (setReg m .eax (BitVec.ofNat 32 p)) .edx hi
    some { m with flags := { anyFlags u with cf := hi ≠ 0, of := hi ≠ 0 } }
  | .div false src =>
    let d := (get m .l src).toNat
    let n := (m.reg .edx).toNat * 2 ^ 32 + (m.reg .eax).toNat
    if d = 0 then none
    else if 2 ^ 32 ≤ n / d then none
    else
      let u := m.oracle m.time
      let m := setReg (setReg m .eax (BitVec.ofNat 32 (n / d))) .edx (BitVec.ofNat 32 (n % d))
      some { m with flags := anyFlags u }
  | .div true src =>
    let d := (get m .l src).toInt
    let n := (m.reg .edx ++ m.reg .eax).toInt
    if d = 0 then none
    else if n.tdiv d < -2 ^ 31 ∨ 2 ^ 31 ≤ n.tdiv d then none
    else
      let u := m.oracle m.time
      let m := setReg (setReg m .eax (BitVec.ofInt 32 (n.tdiv d))) .edx (BitVec.ofInt 32 (n.tmod d))
      some { m with flags := anyFlags u }
  | .shift left dst count =>
    let c := (get m .b count).toNat % 32
    let x := get m .l dst
    let u := m.oracle m.time
    if c = 0 then some m
    else if left then
      let r := x <<< c
      some (put { m with flags := shiftFlags u c r (x.getLsbD (32 - c)) (r.msb ^^ x.getLsbD (32 - c)) } .l dst r)
    else
      let r := x >>> c
      some (put { m with flags := shiftFlags u c r (x.getLsbD (c - 1)) x.msb } .l dst r)
  | .xchg x y =>
    let v := get m .l x
    let v' := get m .l y
    some (put (put m .l y v) .l x v')
  | .lea dst (.mem b d) => some (setReg m dst (address m b d))
  | .lea _ _ => none
  | .cltd => some (setReg m .edx (if (m.reg .eax).msb then -1 else 0))
  | .lahf => some (put m .b (.reg 4) ((flagByte m.flags).setWidth 32))
  | .sahf =>
    let v := get m .b (.reg 4)
    some { m with flags := { cf := v.getLsbD 0, pf := v.getLsbD 2, af := v.getLsbD 4, zf := v.getLsbD 6, sf := v.getLsbD 7, of := m.flags.of } }
  | .leave =>
    let m := setReg m .esp (m.reg .ebp)
    let v := read32 m (m.reg .esp)
    some (setReg (setReg m .esp (m.reg .esp + 4)) .ebp v)
  | .ret =>
    let v := read32 m (m.reg .esp)
    some { setReg m .esp (m.reg .esp + 4) with eip := v }
  | .nop => some m
  | .hlt => none
  | .int _ => none
  | .call rel => some { pushWord m m.eip with eip := m.eip + rel }
  | .callTo x =>
    let v := get m .l x
    some { pushWord m m.eip with eip := v }
  | .jmp rel => some { m with eip := m.eip + rel }
  | .jmpTo x => some { m with eip := get m .l x }
  | .jcc c rel => some (if c.holds m.flags then { m with eip := m.eip + rel } else m)

/-- The sixteen bytes from an address on. -/
def fetch (m : Mach) (a : Word) : List Byte8 := (List.range 16).map fun i => m.mem (a + BitVec.ofNat 32 i)

/-- One step of the processor. -/
def step (m : Mach) : Option Mach :=
  match decode (fetch m m.eip) with
  | none => none
  | some (i, rest) => (exec { m with eip := m.eip + BitVec.ofNat 32 (16 - rest.length) } i).map fun m => { m with time := m.time + 1 }

/-- Any number of steps. -/
inductive Steps : Mach → Mach → Prop
  | refl (m : Mach) : Steps m m
  | step {m m' m'' : Mach} (h : X86.step m = some m') (hs : Steps m' m'') : Steps m m''

end Mes.X86
