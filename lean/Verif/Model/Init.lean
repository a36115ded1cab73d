import Verif.Model.Symbol
import Verif.Model.Eval
import Verif.Model.Main
/-
What `main` does before it reads the program: /repo/src/mes.c:31-76, 184-193, /repo/src/symbol.c:178-221, /repo/src/gc.c:54-118,
/repo/src/builtins.c:24-46, 100-293, /repo/src/posix.c:390-395, /repo/src/module.c:24-66.

Where a call has several arguments that allocate (`init_builtin`), C leaves their order open; the model takes them from left to
right.  Not modelled: the search for the file of the program (`open_boot`), the other buffers that `init` allocates, the `getenv`
and `atoi` of `gc_init`, and the messages for `MES_DEBUG`.
-/
namespace Mes
open Res

/-- What the C code takes from the compiler, the environment and the command line. -/
structure Setup where
  version : List Byte
  datadir : List Byte
  compiler : List Byte
  arch : List Byte
  argv : List (List Byte)
  /-- `TIME_UNITS_PER_SECOND` -/
  ticks : Int
  /-- `g_mini` -/
  mini : Bool
  /-- `init_time` has no return statement, so that its value is undefined.  On most machines it is the value that the call of
  `acons` leaves behind; this tells whether it is. -/
  kept : Bool

/-- The sizes of the memory: `ARENA_SIZE`, `JAM_SIZE`, `GC_SAFETY`, `STACK_SIZE` and `MAX_STRING`. -/
structure Sizes where
  arena : Int
  jam : Int
  safety : Int
  stack : Int
  maxString : Nat

/-- `gc_init`: /repo/src/gc.c:54-118.  The memory that `malloc` gives has any contents. -/
def gcInit (z : Sizes) (junk : Int → Cell) (stack : Int → Int) : St where
  cell a := if a = 1 then { tag := .vector, car := 1000, cdr := 2 } else if a = 2 then { tag := .char, car := (junk 2).car, cdr := 99 } else junk a
  free := g_cells + 1
  arena := z.arena
  jam := z.jam
  safety := z.safety
  limit := 1 + (z.arena + z.jam)
  maxString := z.maxString
  stackSize := z.stack
  stack := stack
  sp := 0
  r0 := 0
  r1 := 0
  r2 := 0
  r3 := 0
  m0 := 0
  symbols := 0
  macros := 0
  ports := 0
  continuations := 0

/-! ### The association list -/

/-- `acons (key, make_number (n), a)` -/
def aconsNumber (s : St) (key n a : Int) : Res (Int × St) := do
  let (x, s) ← makeNumber s n
  acons s key x a

/-- `acons (key, make_string0 (bs), a)` -/
def aconsString (s : St) (key : Int) (bs : List Byte) (a : Int) : Res (Int × St) := do
  let (x, s) ← makeString s bs
  acons s key x a

/-- Names of the types and their numbers: /repo/src/symbol.c:199-216. -/
def typeNumbers : List (Int × Tag) :=
  [(c_type_bytes, .bytes), (c_type_char, .char), (c_type_closure, .closure), (c_type_continuation, .continuation),
   (c_type_keyword, .keyword), (c_type_macro, .macro), (c_type_number, .number), (c_type_pair, .pair), (c_type_port, .port),
   (c_type_ref, .ref), (c_type_special, .special), (c_type_string, .string), (c_type_struct, .struct), (c_type_symbol, .symbol),
   (c_type_values, .values), (c_type_variable, .variable), (c_type_vector, .vector), (c_type_broken_heart, .brokenHeart)]

/-- /repo/src/symbol.c:199-216 -/
def aconsTypes : List (Int × Tag) → St → Int → Res (Int × St)
  | [], s, a => ok (a, s)
  | e :: l, s, a => do
    let (a, s) ← aconsNumber s e.1 e.2.toInt a
    aconsTypes l s a

/-- The constants that `init_symbols` returns: /repo/src/symbol.c:191-220. -/
def initConstants (s : St) (o : Setup) : Res (Int × St) := do
  let (a, s) ← acons s c_symbol_call_with_values c_symbol_call_with_values c_nil
  let (a, s) ← acons s c_symbol_boot_module c_symbol_boot_module a
  let (a, s) ← acons s c_symbol_current_module c_symbol_current_module a
  let (a, s) ← aconsString s c_symbol_mes_version o.version a
  let (a, s) ← aconsString s c_symbol_mes_datadir o.datadir a
  let (a, s) ← aconsTypes typeNumbers s a
  acons s c_closure a a

/-- The list of the command line arguments, from the last one on: /repo/src/mes.c:68-71. -/
def argvList : (rev : List (List Byte)) → (s : St) → (lst : Int) → Res (Int × St)
  | [], s, lst => ok (lst, s)
  | bs :: l, s, lst => do
    let (x, s) ← makeString s bs
    let (lst, s) ← cons s x lst
    argvList l s lst

/-- `mes_g_stack`: /repo/src/mes.c:31-40. -/
def mesGStack (s : St) (a : Int) : Res (Int × St) := do
  let s := { s with sp := s.stackSize, r0 := a }
  let (x, s) ← makeChar s 0
  let s := { s with r1 := x }
  let (x, s) ← makeChar s 0
  let s := { s with r2 := x }
  let (x, s) ← makeChar s 0
  let s := { s with r3 := x }
  ok (s.r0, s)

/-- `mes_environment`: /repo/src/mes.c:42-76. -/
def mesEnvironment (s : St) (fuel : Nat) (o : Setup) : Res (Int × St) := do
  let s ← initSymbols s fuel
  let (a, s) ← initConstants s o
  let (a, s) ← aconsString s c_symbol_compiler o.compiler a
  let (a, s) ← aconsString s c_symbol_arch o.arch a
  let (lst, s) ← argvList o.argv.reverse s c_nil
  let (a, s) ← acons s c_symbol_argv lst a
  mesGStack s a

/-! ### The builtins -/

/-- `make_builtin_type`: /repo/src/builtins.c:24-35. -/
def makeBuiltinType (s : St) (fuel : Nat) : Res (Int × St) := do
  let (x, s) ← cstringToSymbol s fuel (ascii ['a', 'd', 'd', 'r', 'e', 's', 's'])
  let (f, s) ← cons s x c_nil
  let (x, s) ← cstringToSymbol s fuel (ascii ['a', 'r', 'i', 't', 'y'])
  let (f, s) ← cons s x f
  let (x, s) ← cstringToSymbol s fuel (ascii ['n', 'a', 'm', 'e'])
  let (f, s) ← cons s x f
  let (f, s) ← cons s f c_nil
  let (f, s) ← cons s c_symbol_builtin f
  makeStruct s fuel c_symbol_record_type f c_unspecified

/-- `make_builtin`: /repo/src/builtins.c:37-46. -/
def makeBuiltin (s : St) (fuel : Nat) (type name arity function : Int) : Res (Int × St) := do
  let (v, s) ← cons s function c_nil
  let (v, s) ← cons s arity v
  let (v, s) ← cons s name v
  let (v, s) ← cons s c_symbol_builtin v
  let (p, s) ← cstringToSymbol s fuel (ascii ['b', 'u', 'i', 'l', 't', 'i', 'n', '-', 'p', 'r', 'i', 'n', 't', 'e', 'r'])
  makeStruct s fuel type v p

/-- `init_builtin`: /repo/src/builtins.c:100-108. -/
def initBuiltin (s : St) (fuel : Nat) (type : Int) (name : List Byte) (arity id a : Int) : Res (Int × St) := do
  let (x, s) ← cstringToSymbol s fuel name
  let (str, s) ← symbolToString s x
  let (n, s) ← makeNumber s arity
  let (f, s) ← makeNumber s id
  let (b, s) ← makeBuiltin s fuel type str n f
  acons s x b a

/-- Names, arities and numbers of the builtins: /repo/src/builtins.c:134-290.  The number stands for the address of the C function;
it is the line of the builtin. -/
def builtinNames : List (List Char × Int × Int) :=
  [(['m', 'a', 'k', 'e', '-', 'b', 'u', 'i', 'l', 't', 'i', 'n'], 4, 135),
   (['b', 'u', 'i', 'l', 't', 'i', 'n', '-', 'n', 'a', 'm', 'e'], 1, 136),
   (['b', 'u', 'i', 'l', 't', 'i', 'n', '-', 'a', 'r', 'i', 't', 'y'], 1, 137),
   (['b', 'u', 'i', 'l', 't', 'i', 'n', '?'], 1, 138),
   (['b', 'u', 'i', 'l', 't', 'i', 'n', '-', 'p', 'r', 'i', 'n', 't', 'e', 'r'], 1, 139),
   (['c', 'a', 'r'], 1, 141),
   (['c', 'd', 'r'], 1, 142),
   (['l', 'i', 's', 't'], -1, 143),
   (['n', 'u', 'l', 'l', '?'], 1, 144),
   (['e', 'q', '?'], 2, 145),
   (['v', 'a', 'l', 'u', 'e', 's'], -1, 146),
   (['a', 'c', 'o', 'n', 's'], 3, 147),
   (['l', 'e', 'n', 'g', 't', 'h'], 1, 148),
   (['e', 'r', 'r', 'o', 'r'], 2, 149),
   (['a', 'p', 'p', 'e', 'n', 'd', '2'], 2, 150),
   (['a', 'p', 'p', 'e', 'n', 'd', '-', 'r', 'e', 'v', 'e', 'r', 's', 'e'], 2, 151),
   (['c', 'o', 'r', 'e', ':', 'r', 'e', 'v', 'e', 'r', 's', 'e', '!'], 2, 152),
   (['a', 's', 's', 'q'], 2, 153),
   (['a', 's', 's', 'o', 'c'], 2, 154),
   (['c', 'o', 'r', 'e', ':', 'd', 'i', 's', 'p', 'l', 'a', 'y'], 1, 156),
   (['c', 'o', 'r', 'e', ':', 'd', 'i', 's', 'p', 'l', 'a', 'y', '-', 'e', 'r', 'r', 'o', 'r'], 1, 157),
   (['c', 'o', 'r', 'e', ':', 'd', 'i', 's', 'p', 'l', 'a', 'y', '-', 'p', 'o', 'r', 't'], 2, 158),
   (['c', 'o', 'r', 'e', ':', 'w', 'r', 'i', 't', 'e'], 1, 159),
   (['c', 'o', 'r', 'e', ':', 'w', 'r', 'i', 't', 'e', '-', 'e', 'r', 'r', 'o', 'r'], 1, 160),
   (['c', 'o', 'r', 'e', ':', 'w', 'r', 'i', 't', 'e', '-', 'p', 'o', 'r', 't'], 2, 161),
   (['p', 'a', 'i', 'r', 'l', 'i', 's'], 3, 163),
   (['s', 'e', 't', '-', 'c', 'a', 'r', '!'], 2, 164),
   (['s', 'e', 't', '-', 'c', 'd', 'r', '!'], 2, 165),
   (['s', 'e', 't', '-', 'e', 'n', 'v', '!'], 3, 166),
   (['a', 'd', 'd', '-', 'f', 'o', 'r', 'm', 'a', 'l', 's'], 2, 167),
   (['e', 'v', 'a', 'l', '-', 'a', 'p', 'p', 'l', 'y'], 0, 168),
   (['g', 'c', '-', 's', 't', 'a', 't', 's'], 0, 170),
   (['c', 'o', 'n', 's'], 2, 171),
   (['g', 'c', '-', 'c', 'h', 'e', 'c', 'k'], 0, 172),
   (['g', 'c'], 0, 173),
   (['h', 'a', 's', 'h', 'q'], 2, 175),
   (['h', 'a', 's', 'h'], 2, 176),
   (['h', 'a', 's', 'h', 'q', '-', 'g', 'e', 't', '-', 'h', 'a', 'n', 'd', 'l', 'e'], 3, 177),
   (['h', 'a', 's', 'h', 'q', '-', 'r', 'e', 'f'], 3, 178),
   (['h', 'a', 's', 'h', '-', 'r', 'e', 'f'], 3, 179),
   (['h', 'a', 's', 'h', 'q', '-', 's', 'e', 't', '!'], 3, 180),
   (['h', 'a', 's', 'h', '-', 's', 'e', 't', '!'], 3, 181),
   (['h', 'a', 's', 'h', '-', 't', 'a', 'b', 'l', 'e', '-', 'p', 'r', 'i', 'n', 't', 'e', 'r'], 1, 182),
   (['m', 'a', 'k', 'e', '-', 'h', 'a', 's', 'h', '-', 't', 'a', 'b', 'l', 'e'], 1, 183),
   (['c', 'o', 'r', 'e', ':', 't', 'y', 'p', 'e'], 1, 185),
   (['c', 'o', 'r', 'e', ':', 'c', 'a', 'r'], 1, 186),
   (['c', 'o', 'r', 'e', ':', 'c', 'd', 'r'], 1, 187),
   (['x', 'a', 's', 's', 'q'], 2, 188),
   (['m', 'e', 'm', 'q'], 2, 189),
   (['e', 'q', 'u', 'a', 'l', '2', '?'], 2, 190),
   (['l', 'a', 's', 't', '-', 'p', 'a', 'i', 'r'], 1, 191),
   (['p', 'a', 'i', 'r', '?'], 1, 192),
   (['c', 'h', 'a', 'r', '-', '>', 'i', 'n', 't', 'e', 'g', 'e', 'r'], 1, 193),
   (['i', 'n', 't', 'e', 'g', 'e', 'r', '-', '>', 'c', 'h', 'a', 'r'], 1, 194),
   (['>'], -1, 196),
   (['<'], -1, 197),
   (['='], -1, 198),
   (['-'], -1, 199),
   (['+'], -1, 200),
   (['/'], -1, 201),
   (['m', 'o', 'd', 'u', 'l', 'o'], 2, 202),
   (['*'], -1, 203),
   (['l', 'o', 'g', 'a', 'n', 'd'], -1, 204),
   (['l', 'o', 'g', 'i', 'o', 'r'], -1, 205),
   (['l', 'o', 'g', 'n', 'o', 't'], 1, 206),
   (['l', 'o', 'g', 'x', 'o', 'r'], -1, 207),
   (['a', 's', 'h'], 2, 208),
   (['m', 'a', 'k', 'e', '-', 'm', 'o', 'd', 'u', 'l', 'e', '-', 't', 'y', 'p', 'e'], 0, 210),
   (['m', 'o', 'd', 'u', 'l', 'e', '-', 'p', 'r', 'i', 'n', 't', 'e', 'r'], 1, 211),
   (['m', 'o', 'd', 'u', 'l', 'e', '-', 'v', 'a', 'r', 'i', 'a', 'b', 'l', 'e'], 2, 212),
   (['m', 'o', 'd', 'u', 'l', 'e', '-', 'r', 'e', 'f'], 2, 213),
   (['m', 'o', 'd', 'u', 'l', 'e', '-', 'd', 'e', 'f', 'i', 'n', 'e', '!'], 3, 214),
   (['a', 'b', 'o', 'r', 't'], 0, 216),
   (['e', 'x', 'i', 't'], 1, 217),
   (['p', 'e', 'e', 'k', '-', 'b', 'y', 't', 'e'], 0, 218),
   (['r', 'e', 'a', 'd', '-', 'b', 'y', 't', 'e'], 0, 219),
   (['u', 'n', 'r', 'e', 'a', 'd', '-', 'b', 'y', 't', 'e'], 1, 220),
   (['p', 'e', 'e', 'k', '-', 'c', 'h', 'a', 'r'], 0, 221),
   (['r', 'e', 'a', 'd', '-', 'c', 'h', 'a', 'r'], -1, 222),
   (['u', 'n', 'r', 'e', 'a', 'd', '-', 'c', 'h', 'a', 'r'], 1, 223),
   (['w', 'r', 'i', 't', 'e', '-', 'c', 'h', 'a', 'r'], -1, 224),
   (['w', 'r', 'i', 't', 'e', '-', 'b', 'y', 't', 'e'], -1, 225),
   (['g', 'e', 't', 'e', 'n', 'v'], 1, 226),
   (['s', 'e', 't', 'e', 'n', 'v'], 2, 227),
   (['a', 'c', 'c', 'e', 's', 's', '?'], 2, 228),
   (['c', 'u', 'r', 'r', 'e', 'n', 't', '-', 'i', 'n', 'p', 'u', 't', '-', 'p', 'o', 'r', 't'], 0, 229),
   (['o', 'p', 'e', 'n', '-', 'i', 'n', 'p', 'u', 't', '-', 'f', 'i', 'l', 'e'], 1, 230),
   (['o', 'p', 'e', 'n', '-', 'i', 'n', 'p', 'u', 't', '-', 's', 't', 'r', 'i', 'n', 'g'], 1, 231),
   (['s', 'e', 't', '-', 'c', 'u', 'r', 'r', 'e', 'n', 't', '-', 'i', 'n', 'p', 'u', 't', '-', 'p', 'o', 'r', 't'], 1, 232),
   (['c', 'u', 'r', 'r', 'e', 'n', 't', '-', 'o', 'u', 't', 'p', 'u', 't', '-', 'p', 'o', 'r', 't'], 0, 233),
   (['c', 'u', 'r', 'r', 'e', 'n', 't', '-', 'e', 'r', 'r', 'o', 'r', '-', 'p', 'o', 'r', 't'], 0, 234),
   (['o', 'p', 'e', 'n', '-', 'o', 'u', 't', 'p', 'u', 't', '-', 'f', 'i', 'l', 'e'], -1, 235),
   (['s', 'e', 't', '-', 'c', 'u', 'r', 'r', 'e', 'n', 't', '-', 'o', 'u', 't', 'p', 'u', 't', '-', 'p', 'o', 'r', 't'], 1, 236),
   (['s', 'e', 't', '-', 'c', 'u', 'r', 'r', 'e', 'n', 't', '-', 'e', 'r', 'r', 'o', 'r', '-', 'p', 'o', 'r', 't'], 1, 237),
   (['c', 'h', 'm', 'o', 'd'], 2, 238),
   (['i', 's', 'a', 't', 't', 'y', '?'], 1, 239),
   (['p', 'r', 'i', 'm', 'i', 't', 'i', 'v', 'e', '-', 'f', 'o', 'r', 'k'], 0, 240),
   (['e', 'x', 'e', 'c', 'l'], 2, 241),
   (['c', 'o', 'r', 'e', ':', 'w', 'a', 'i', 't', 'p', 'i', 'd'], 2, 242),
   (['c', 'u', 'r', 'r', 'e', 'n', 't', '-', 't', 'i', 'm', 'e'], 0, 243),
   (['g', 'e', 't', 't', 'i', 'm', 'e', 'o', 'f', 'd', 'a', 'y'], 0, 244),
   (['g', 'e', 't', '-', 'i', 'n', 't', 'e', 'r', 'n', 'a', 'l', '-', 'r', 'u', 'n', '-', 't', 'i', 'm', 'e'], 0, 245),
   (['g', 'e', 't', 'c', 'w', 'd'], 0, 246),
   (['d', 'u', 'p'], 1, 247),
   (['d', 'u', 'p', '2'], 2, 248),
   (['d', 'e', 'l', 'e', 't', 'e', '-', 'f', 'i', 'l', 'e'], 1, 249),
   (['c', 'o', 'r', 'e', ':', 'r', 'e', 'a', 'd', '-', 'i', 'n', 'p', 'u', 't', '-', 'f', 'i', 'l', 'e', '-', 'e', 'n', 'v'], 2, 251),
   (['r', 'e', 'a', 'd', '-', 'i', 'n', 'p', 'u', 't', '-', 'f', 'i', 'l', 'e', '-', 'e', 'n', 'v'], 1, 252),
   (['r', 'e', 'a', 'd', '-', 'e', 'n', 'v'], 1, 253),
   (['r', 'e', 'a', 'd', 'e', 'r', '-', 'r', 'e', 'a', 'd', '-', 's', 'e', 'x', 'p'], 3, 254),
   (['r', 'e', 'a', 'd', 'e', 'r', '-', 'r', 'e', 'a', 'd', '-', 'c', 'h', 'a', 'r', 'a', 'c', 't', 'e', 'r'], 0, 255),
   (['r', 'e', 'a', 'd', 'e', 'r', '-', 'r', 'e', 'a', 'd', '-', 'b', 'i', 'n', 'a', 'r', 'y'], 0, 256),
   (['r', 'e', 'a', 'd', 'e', 'r', '-', 'r', 'e', 'a', 'd', '-', 'o', 'c', 't', 'a', 'l'], 0, 257),
   (['r', 'e', 'a', 'd', 'e', 'r', '-', 'r', 'e', 'a', 'd', '-', 'h', 'e', 'x'], 0, 258),
   (['r', 'e', 'a', 'd', 'e', 'r', '-', 'r', 'e', 'a', 'd', '-', 's', 't', 'r', 'i', 'n', 'g'], 0, 259),
   (['f', 'r', 'a', 'm', 'e', '-', 'p', 'r', 'i', 'n', 't', 'e', 'r'], 1, 261),
   (['m', 'a', 'k', 'e', '-', 's', 't', 'a', 'c', 'k'], -1, 262),
   (['s', 't', 'a', 'c', 'k', '-', 'l', 'e', 'n', 'g', 't', 'h'], 1, 263),
   (['s', 't', 'a', 'c', 'k', '-', 'r', 'e', 'f'], 2, 264),
   (['s', 't', 'r', 'i', 'n', 'g', '=', '?'], 2, 266),
   (['s', 'y', 'm', 'b', 'o', 'l', '-', '>', 's', 't', 'r', 'i', 'n', 'g'], 1, 267),
   (['s', 'y', 'm', 'b', 'o', 'l', '-', '>', 'k', 'e', 'y', 'w', 'o', 'r', 'd'], 1, 268),
   (['k', 'e', 'y', 'w', 'o', 'r', 'd', '-', '>', 's', 't', 'r', 'i', 'n', 'g'], 1, 269),
   (['s', 't', 'r', 'i', 'n', 'g', '-', '>', 's', 'y', 'm', 'b', 'o', 'l'], 1, 270),
   (['m', 'a', 'k', 'e', '-', 's', 'y', 'm', 'b', 'o', 'l'], 1, 271),
   (['s', 't', 'r', 'i', 'n', 'g', '-', '>', 'l', 'i', 's', 't'], 1, 272),
   (['l', 'i', 's', 't', '-', '>', 's', 't', 'r', 'i', 'n', 'g'], 1, 273),
   (['r', 'e', 'a', 'd', '-', 's', 't', 'r', 'i', 'n', 'g'], -1, 274),
   (['s', 't', 'r', 'i', 'n', 'g', '-', 'a', 'p', 'p', 'e', 'n', 'd'], -1, 275),
   (['s', 't', 'r', 'i', 'n', 'g', '-', 'l', 'e', 'n', 'g', 't', 'h'], 1, 276),
   (['s', 't', 'r', 'i', 'n', 'g', '-', 'r', 'e', 'f'], 2, 277),
   (['m', 'a', 'k', 'e', '-', 's', 't', 'r', 'u', 'c', 't'], 3, 279),
   (['s', 't', 'r', 'u', 'c', 't', '-', 'l', 'e', 'n', 'g', 't', 'h'], 1, 280),
   (['s', 't', 'r', 'u', 'c', 't', '-', 'r', 'e', 'f'], 2, 281),
   (['s', 't', 'r', 'u', 'c', 't', '-', 's', 'e', 't', '!'], 3, 282),
   (['m', 'a', 'k', 'e', '-', 'v', 'e', 'c', 't', 'o', 'r'], -1, 284),
   (['v', 'e', 'c', 't', 'o', 'r', '-', 'l', 'e', 'n', 'g', 't', 'h'], 1, 285),
   (['v', 'e', 'c', 't', 'o', 'r', '-', 'r', 'e', 'f'], 2, 286),
   (['v', 'e', 'c', 't', 'o', 'r', '-', 'e', 'n', 't', 'r', 'y'], 1, 287),
   (['v', 'e', 'c', 't', 'o', 'r', '-', 's', 'e', 't', '!'], 3, 288),
   (['l', 'i', 's', 't', '-', '>', 'v', 'e', 'c', 't', 'o', 'r'], 1, 289),
   (['v', 'e', 'c', 't', 'o', 'r', '-', '>', 'l', 'i', 's', 't'], 1, 290)]

/-- The builtins with `MES_MINI`: /repo/src/builtins.c:117-130. -/
def miniNames : List (List Char × Int × Int) :=
  [(['c', 'o', 'n', 's'], 2, 171),
   (['c', 'a', 'r'], 1, 141),
   (['l', 'i', 's', 't'], -1, 143),
   (['e', 'q', '?'], 2, 145),
   (['-'], -1, 199),
   (['+'], -1, 200),
   (['c', 'o', 'r', 'e', ':', 'd', 'i', 's', 'p', 'l', 'a', 'y'], 1, 156),
   (['c', 'o', 'r', 'e', ':', 'w', 'r', 'i', 't', 'e'], 1, 159),
   (['c', 'o', 'r', 'e', ':', 'd', 'i', 's', 'p', 'l', 'a', 'y', '-', 'e', 'r', 'r', 'o', 'r'], 1, 157),
   (['g', 'e', 't', 'e', 'n', 'v'], 1, 226),
   (['g', 'c'], 0, 173),
   (['>'], -1, 196),
   (['<'], -1, 197),
   (['m', 'a', 'k', 'e', '-', 'v', 'e', 'c', 't', 'o', 'r'], -1, 284)]

/-- The builtins of the program: name, arity, number. -/
def builtinTable (mini : Bool) : List (List Byte × Int × Int) :=
  (if mini then miniNames else builtinNames).map fun e => (ascii e.1, e.2)

/-- The calls of `init_builtin`: /repo/src/builtins.c:115-292. -/
def initBuiltins (fuel : Nat) (type : Int) : List (List Byte × Int × Int) → St → Int → Res (Int × St)
  | [], s, a => ok (a, s)
  | e :: l, s, a => do
    let (a, s) ← initBuiltin s fuel type e.1 e.2.1 e.2.2 a
    initBuiltins fuel type l s a

/-- `mes_builtins`: /repo/src/builtins.c:110-293. -/
def mesBuiltins (s : St) (fuel : Nat) (o : Setup) (a : Int) : Res (Int × St) := do
  let (type, s) ← makeBuiltinType s fuel
  initBuiltins fuel type (builtinTable o.mini) s a

/-- `init_time`: /repo/src/posix.c:390-395.  The function ends without a return statement, and `main` uses its value. -/
def initTime (s : St) (o : Setup) (a : Int) : Res (Int × St) := do
  let (a, s) ← aconsNumber s c_symbol_internal_time_units_per_second o.ticks a
  if o.kept then ok (a, s) else ub

/-! ### The module -/

/-- `make_module_type`: /repo/src/module.c:24-34. -/
def makeModuleType (s : St) (fuel : Nat) : Res (Int × St) := do
  let (x, s) ← cstringToSymbol s fuel (ascii ['g', 'l', 'o', 'b', 'a', 'l', 's'])
  let (f, s) ← cons s x c_nil
  let (x, s) ← cstringToSymbol s fuel (ascii ['l', 'o', 'c', 'a', 'l', 's'])
  let (f, s) ← cons s x f
  let (x, s) ← cstringToSymbol s fuel (ascii ['n', 'a', 'm', 'e'])
  let (f, s) ← cons s x f
  let (f, s) ← cons s f c_nil
  let (f, s) ← cons s c_symbol_module f
  makeStruct s fuel c_symbol_record_type f c_unspecified

/-- The loop of `make_initial_module`: /repo/src/module.c:59-63. -/
def defineAll : (fuel : Nat) → (s : St) → (a : Int) → Res St
  | 0, _, _ => loop
  | fuel + 1, s, a => do
    let c ← s.rd a
    if c.tag = .pair then do
      let e ← s.rd c.car
      let (_, s) ← moduleDefine s e.car e.cdr
      let next ← s.cdr a
      defineAll fuel s next
    else ok s

/-- `make_initial_module`: /repo/src/module.c:36-66. -/
def makeInitialModule (s : St) (fuel more : Nat) (a : Int) : Res (Int × St) := do
  let (mtype, s) ← makeModuleType s fuel
  let (a, s) ← acons s c_symbol_module mtype a
  let (htype, s) ← makeHashqType s fuel
  let (a, s) ← acons s c_symbol_hashq_table htype a
  let (x, s) ← cstringToSymbol s fuel (ascii ['b', 'o', 'o', 't'])
  let (name, s) ← cons s x c_nil
  let (globals, s) ← makeHashTable s fuel 0
  let (v, s) ← cons s globals c_nil
  let (v, s) ← cons s c_nil v
  let (v, s) ← cons s name v
  let (v, s) ← cons s c_symbol_module v
  let (p, s) ← cstringToSymbol s fuel (ascii ['m', 'o', 'd', 'u', 'l', 'e', '-', 'p', 'r', 'i', 'n', 't', 'e', 'r'])
  let (module, s) ← makeStruct s fuel mtype v p
  let s := { s with r0 := c_nil }
  let rest ← s.cdr a
  let second ← s.car rest
  let (r0, s) ← cons s second s.r0
  let s := { s with r0 := r0 }
  let first ← s.car a
  let (r0, s) ← cons s first s.r0
  let s := { s with r0 := r0, m0 := module }
  let s ← defineAll more s a
  ok (module, s)

/-- `main` up to the reading of the program: /repo/src/mes.c:189-193.  `fuel` bounds the lengths of the lists in the symbol
table, `more` that of the association list. -/
def mainSetup (s : St) (fuel more : Nat) (o : Setup) : Res St := do
  let (a, s) ← mesEnvironment s fuel o
  let (a, s) ← mesBuiltins s fuel o a
  let (a, s) ← initTime s o a
  let (module, s) ← makeInitialModule s fuel more a
  let s := { s with m0 := module }
  let (macros, s) ← makeHashTable s fuel 0
  ok { s with macros := macros }

end Mes
