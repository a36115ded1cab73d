import Verif.Model.CMem
/-
The interpreter's memory: /repo/include/mes/mes.h:27-54 (struct scm), /repo/src/gc.c (arena, allocation, constructors).

Conventions of this model:
* An address (a `struct scm *`) is an `Int` counting cells; the malloc'ed arena starts at address 1 and 0 is NULL.  The
  distance of two addresses is the C pointer difference (M2_CELL_SIZE = 1, i.e. every build except M2-Planet's).
* Both `car` and `cdr` of a cell are words: an address, a `long`, or a `char *`, as in the C unions.
* The bytes of a TBYTES object lie in memory from the second word of its first cell on, and run over the following
  cells.  The model keeps them in the field `bytes` of the first cell; the following cells belong to the object but their
  contents are not modelled.  `long` and pointers have 64 bits.
* Reading or writing a cell that is not (or no longer) allocated is `ub`.
-/
namespace Mes

/-- Cell types: /repo/include/mes/constants.h:26-62. -/
inductive Tag where
  | char | bytes | closure | continuation | keyword | macro | number | pair | port | ref | special | string | struct
  | symbol | values | variable | vector | brokenHeart
  deriving DecidableEq, Repr, Inhabited

/-- The numeric value of a type: /repo/include/mes/constants.h:26-62. -/
def Tag.toInt : Tag → Int
  | .char => 0 | .bytes => 1 | .closure => 2 | .continuation => 3 | .keyword => 4 | .macro => 5 | .number => 6
  | .pair => 7 | .port => 8 | .ref => 9 | .special => 10 | .string => 11 | .struct => 12 | .symbol => 13
  | .values => 14 | .variable => 15 | .vector => 16 | .brokenHeart => 17

/-- `struct scm`: /repo/include/mes/mes.h:27-54. -/
structure Cell where
  tag : Tag
  car : Int
  cdr : Int
  bytes : List Byte := []
  deriving DecidableEq, Repr, Inhabited

/-! Addresses of the predefined cells, in the order of /repo/src/symbol.c:54-176, starting at `cell_nil = g_cells + 1`
(/repo/src/symbol.c:181-184, /repo/src/gc.c:105-114). -/

/-- `cell_nil`, `()`: /repo/src/symbol.c:58 -/
abbrev c_nil : Int := 3
/-- `cell_f`, `#f`: /repo/src/symbol.c:59 -/
abbrev c_f : Int := 4
/-- `cell_t`, `#t`: /repo/src/symbol.c:60 -/
abbrev c_t : Int := 5
/-- `cell_dot`, `.`: /repo/src/symbol.c:61 -/
abbrev c_dot : Int := 6
/-- `cell_arrow`, `=>`: /repo/src/symbol.c:62 -/
abbrev c_arrow : Int := 7
/-- `cell_undefined`, `*undefined*`: /repo/src/symbol.c:63 -/
abbrev c_undefined : Int := 8
/-- `cell_unspecified`, `*unspecified*`: /repo/src/symbol.c:64 -/
abbrev c_unspecified : Int := 9
/-- `cell_closure`, `*closure*`: /repo/src/symbol.c:65 -/
abbrev c_closure : Int := 10
/-- `cell_circular`, `*circular*`: /repo/src/symbol.c:66 -/
abbrev c_circular : Int := 11
/-- `cell_vm_apply`, `core:apply`: /repo/src/symbol.c:68 -/
abbrev c_vm_apply : Int := 12
/-- `cell_vm_apply2`, `*vm-apply2*`: /repo/src/symbol.c:69 -/
abbrev c_vm_apply2 : Int := 13
/-- `cell_vm_begin`, `*vm-begin*`: /repo/src/symbol.c:70 -/
abbrev c_vm_begin : Int := 14
/-- `cell_vm_begin_eval`, `*vm:begin-eval*`: /repo/src/symbol.c:71 -/
abbrev c_vm_begin_eval : Int := 15
/-- `cell_vm_begin_expand`, `core:eval`: /repo/src/symbol.c:72 -/
abbrev c_vm_begin_expand : Int := 16
/-- `cell_vm_begin_expand_eval`, `*vm:begin-expand-eval*`: /repo/src/symbol.c:73 -/
abbrev c_vm_begin_expand_eval : Int := 17
/-- `cell_vm_begin_expand_macro`, `*vm:begin-expand-macro*`: /repo/src/symbol.c:74 -/
abbrev c_vm_begin_expand_macro : Int := 18
/-- `cell_vm_begin_expand_primitive_load`, `*vm:core:begin-expand-primitive-load*`: /repo/src/symbol.c:75 -/
abbrev c_vm_begin_expand_primitive_load : Int := 19
/-- `cell_vm_begin_primitive_load`, `*vm:core:begin-primitive-load*`: /repo/src/symbol.c:76 -/
abbrev c_vm_begin_primitive_load : Int := 20
/-- `cell_vm_begin_read_input_file`, `*vm-begin-read-input-file*`: /repo/src/symbol.c:77 -/
abbrev c_vm_begin_read_input_file : Int := 21
/-- `cell_vm_call_with_current_continuation2`, `*vm-call-with-current-continuation2*`: /repo/src/symbol.c:78 -/
abbrev c_vm_call_with_current_continuation2 : Int := 22
/-- `cell_vm_call_with_values2`, `*vm-call-with-values2*`: /repo/src/symbol.c:79 -/
abbrev c_vm_call_with_values2 : Int := 23
/-- `cell_vm_eval`, `core:eval-expanded`: /repo/src/symbol.c:80 -/
abbrev c_vm_eval : Int := 24
/-- `cell_vm_eval2`, `*vm-eval2*`: /repo/src/symbol.c:81 -/
abbrev c_vm_eval2 : Int := 25
/-- `cell_vm_eval_check_func`, `*vm-eval-check-func*`: /repo/src/symbol.c:82 -/
abbrev c_vm_eval_check_func : Int := 26
/-- `cell_vm_eval_define`, `*vm-eval-define*`: /repo/src/symbol.c:83 -/
abbrev c_vm_eval_define : Int := 27
/-- `cell_vm_eval_macro_expand_eval`, `*vm:eval-macro-expand-eval*`: /repo/src/symbol.c:84 -/
abbrev c_vm_eval_macro_expand_eval : Int := 28
/-- `cell_vm_eval_macro_expand_expand`, `*vm:eval-macro-expand-expand*`: /repo/src/symbol.c:85 -/
abbrev c_vm_eval_macro_expand_expand : Int := 29
/-- `cell_vm_eval_pmatch_car`, `*vm-eval-pmatch-car*`: /repo/src/symbol.c:86 -/
abbrev c_vm_eval_pmatch_car : Int := 30
/-- `cell_vm_eval_pmatch_cdr`, `*vm-eval-pmatch-cdr*`: /repo/src/symbol.c:87 -/
abbrev c_vm_eval_pmatch_cdr : Int := 31
/-- `cell_vm_eval_set_x`, `*vm-eval-set!*`: /repo/src/symbol.c:88 -/
abbrev c_vm_eval_set_x : Int := 32
/-- `cell_vm_evlis`, `*vm-evlis*`: /repo/src/symbol.c:89 -/
abbrev c_vm_evlis : Int := 33
/-- `cell_vm_evlis2`, `*vm-evlis2*`: /repo/src/symbol.c:90 -/
abbrev c_vm_evlis2 : Int := 34
/-- `cell_vm_evlis3`, `*vm-evlis3*`: /repo/src/symbol.c:91 -/
abbrev c_vm_evlis3 : Int := 35
/-- `cell_vm_if`, `*vm-if*`: /repo/src/symbol.c:92 -/
abbrev c_vm_if : Int := 36
/-- `cell_vm_if_expr`, `*vm-if-expr*`: /repo/src/symbol.c:93 -/
abbrev c_vm_if_expr : Int := 37
/-- `cell_vm_macro_expand`, `core:macro-expand`: /repo/src/symbol.c:94 -/
abbrev c_vm_macro_expand : Int := 38
/-- `cell_vm_macro_expand_car`, `*vm:core:macro-expand-car*`: /repo/src/symbol.c:95 -/
abbrev c_vm_macro_expand_car : Int := 39
/-- `cell_vm_macro_expand_cdr`, `*vm:macro-expand-cdr*`: /repo/src/symbol.c:96 -/
abbrev c_vm_macro_expand_cdr : Int := 40
/-- `cell_vm_macro_expand_define`, `*vm:core:macro-expand-define*`: /repo/src/symbol.c:97 -/
abbrev c_vm_macro_expand_define : Int := 41
/-- `cell_vm_macro_expand_define_macro`, `*vm:core:macro-expand-define-macro*`: /repo/src/symbol.c:98 -/
abbrev c_vm_macro_expand_define_macro : Int := 42
/-- `cell_vm_macro_expand_lambda`, `*vm:core:macro-expand-lambda*`: /repo/src/symbol.c:99 -/
abbrev c_vm_macro_expand_lambda : Int := 43
/-- `cell_vm_macro_expand_set_x`, `*vm:core:macro-expand-set!*`: /repo/src/symbol.c:100 -/
abbrev c_vm_macro_expand_set_x : Int := 44
/-- `cell_vm_return`, `*vm-return*`: /repo/src/symbol.c:101 -/
abbrev c_vm_return : Int := 45
/-- `cell_symbol_lambda`, `lambda`: /repo/src/symbol.c:103 -/
abbrev c_symbol_lambda : Int := 46
/-- `cell_symbol_begin`, `begin`: /repo/src/symbol.c:104 -/
abbrev c_symbol_begin : Int := 47
/-- `cell_symbol_if`, `if`: /repo/src/symbol.c:105 -/
abbrev c_symbol_if : Int := 48
/-- `cell_symbol_quote`, `quote`: /repo/src/symbol.c:106 -/
abbrev c_symbol_quote : Int := 49
/-- `cell_symbol_define`, `define`: /repo/src/symbol.c:107 -/
abbrev c_symbol_define : Int := 50
/-- `cell_symbol_define_macro`, `define-macro`: /repo/src/symbol.c:108 -/
abbrev c_symbol_define_macro : Int := 51
/-- `cell_symbol_quasiquote`, `quasiquote`: /repo/src/symbol.c:109 -/
abbrev c_symbol_quasiquote : Int := 52
/-- `cell_symbol_unquote`, `unquote`: /repo/src/symbol.c:110 -/
abbrev c_symbol_unquote : Int := 53
/-- `cell_symbol_unquote_splicing`, `unquote-splicing`: /repo/src/symbol.c:111 -/
abbrev c_symbol_unquote_splicing : Int := 54
/-- `cell_symbol_syntax`, `syntax`: /repo/src/symbol.c:112 -/
abbrev c_symbol_syntax : Int := 55
/-- `cell_symbol_quasisyntax`, `quasisyntax`: /repo/src/symbol.c:113 -/
abbrev c_symbol_quasisyntax : Int := 56
/-- `cell_symbol_unsyntax`, `unsyntax`: /repo/src/symbol.c:114 -/
abbrev c_symbol_unsyntax : Int := 57
/-- `cell_symbol_unsyntax_splicing`, `unsyntax-splicing`: /repo/src/symbol.c:115 -/
abbrev c_symbol_unsyntax_splicing : Int := 58
/-- `cell_symbol_set_x`, `set!`: /repo/src/symbol.c:116 -/
abbrev c_symbol_set_x : Int := 59
/-- `cell_symbol_sc_expand`, `sc-expand`: /repo/src/symbol.c:117 -/
abbrev c_symbol_sc_expand : Int := 60
/-- `cell_symbol_macro_expand`, `macro-expand`: /repo/src/symbol.c:118 -/
abbrev c_symbol_macro_expand : Int := 61
/-- `cell_symbol_portable_macro_expand`, `portable-macro-expand`: /repo/src/symbol.c:119 -/
abbrev c_symbol_portable_macro_expand : Int := 62
/-- `cell_symbol_sc_expander_alist`, `*sc-expander-alist*`: /repo/src/symbol.c:120 -/
abbrev c_symbol_sc_expander_alist : Int := 63
/-- `cell_symbol_call_with_values`, `call-with-values`: /repo/src/symbol.c:121 -/
abbrev c_symbol_call_with_values : Int := 64
/-- `cell_symbol_call_with_current_continuation`, `call-with-current-continuation`: /repo/src/symbol.c:122 -/
abbrev c_symbol_call_with_current_continuation : Int := 65
/-- `cell_symbol_boot_module`, `boot-module`: /repo/src/symbol.c:123 -/
abbrev c_symbol_boot_module : Int := 66
/-- `cell_symbol_current_module`, `current-module`: /repo/src/symbol.c:124 -/
abbrev c_symbol_current_module : Int := 67
/-- `cell_symbol_primitive_load`, `primitive-load`: /repo/src/symbol.c:125 -/
abbrev c_symbol_primitive_load : Int := 68
/-- `cell_symbol_car`, `car`: /repo/src/symbol.c:126 -/
abbrev c_symbol_car : Int := 69
/-- `cell_symbol_cdr`, `cdr`: /repo/src/symbol.c:127 -/
abbrev c_symbol_cdr : Int := 70
/-- `cell_symbol_not_a_number`, `not-a-number`: /repo/src/symbol.c:128 -/
abbrev c_symbol_not_a_number : Int := 71
/-- `cell_symbol_not_a_pair`, `not-a-pair`: /repo/src/symbol.c:129 -/
abbrev c_symbol_not_a_pair : Int := 72
/-- `cell_symbol_system_error`, `system-error`: /repo/src/symbol.c:130 -/
abbrev c_symbol_system_error : Int := 73
/-- `cell_symbol_throw`, `throw`: /repo/src/symbol.c:131 -/
abbrev c_symbol_throw : Int := 74
/-- `cell_symbol_unbound_variable`, `unbound-variable`: /repo/src/symbol.c:132 -/
abbrev c_symbol_unbound_variable : Int := 75
/-- `cell_symbol_wrong_number_of_args`, `wrong-number-of-args`: /repo/src/symbol.c:133 -/
abbrev c_symbol_wrong_number_of_args : Int := 76
/-- `cell_symbol_wrong_type_arg`, `wrong-type-arg`: /repo/src/symbol.c:134 -/
abbrev c_symbol_wrong_type_arg : Int := 77
/-- `cell_symbol_buckets`, `buckets`: /repo/src/symbol.c:136 -/
abbrev c_symbol_buckets : Int := 78
/-- `cell_symbol_builtin`, `<builtin>`: /repo/src/symbol.c:137 -/
abbrev c_symbol_builtin : Int := 79
/-- `cell_symbol_frame`, `<frame>`: /repo/src/symbol.c:138 -/
abbrev c_symbol_frame : Int := 80
/-- `cell_symbol_hashq_table`, `<hashq-table>`: /repo/src/symbol.c:139 -/
abbrev c_symbol_hashq_table : Int := 81
/-- `cell_symbol_module`, `<module>`: /repo/src/symbol.c:140 -/
abbrev c_symbol_module : Int := 82
/-- `cell_symbol_procedure`, `procedure`: /repo/src/symbol.c:141 -/
abbrev c_symbol_procedure : Int := 83
/-- `cell_symbol_record_type`, `<record-type>`: /repo/src/symbol.c:142 -/
abbrev c_symbol_record_type : Int := 84
/-- `cell_symbol_size`, `size`: /repo/src/symbol.c:143 -/
abbrev c_symbol_size : Int := 85
/-- `cell_symbol_stack`, `<stack>`: /repo/src/symbol.c:144 -/
abbrev c_symbol_stack : Int := 86
/-- `cell_symbol_argv`, `%argv`: /repo/src/symbol.c:145 -/
abbrev c_symbol_argv : Int := 87
/-- `cell_symbol_mes_datadir`, `%datadir`: /repo/src/symbol.c:146 -/
abbrev c_symbol_mes_datadir : Int := 88
/-- `cell_symbol_mes_version`, `%version`: /repo/src/symbol.c:147 -/
abbrev c_symbol_mes_version : Int := 89
/-- `cell_symbol_internal_time_units_per_second`, `internal-time-units-per-second`: /repo/src/symbol.c:148 -/
abbrev c_symbol_internal_time_units_per_second : Int := 90
/-- `cell_symbol_compiler`, `%compiler`: /repo/src/symbol.c:149 -/
abbrev c_symbol_compiler : Int := 91
/-- `cell_symbol_arch`, `%arch`: /repo/src/symbol.c:150 -/
abbrev c_symbol_arch : Int := 92
/-- `cell_symbol_pmatch_car`, `pmatch-car`: /repo/src/symbol.c:151 -/
abbrev c_symbol_pmatch_car : Int := 93
/-- `cell_symbol_pmatch_cdr`, `pmatch-cdr`: /repo/src/symbol.c:152 -/
abbrev c_symbol_pmatch_cdr : Int := 94
/-- `cell_type_bytes`, `<cell:bytes>`: /repo/src/symbol.c:154 -/
abbrev c_type_bytes : Int := 95
/-- `cell_type_char`, `<cell:char>`: /repo/src/symbol.c:155 -/
abbrev c_type_char : Int := 96
/-- `cell_type_closure`, `<cell:closure>`: /repo/src/symbol.c:156 -/
abbrev c_type_closure : Int := 97
/-- `cell_type_continuation`, `<cell:continuation>`: /repo/src/symbol.c:157 -/
abbrev c_type_continuation : Int := 98
/-- `cell_type_function`, `<cell:function>`: /repo/src/symbol.c:158 -/
abbrev c_type_function : Int := 99
/-- `cell_type_keyword`, `<cell:keyword>`: /repo/src/symbol.c:159 -/
abbrev c_type_keyword : Int := 100
/-- `cell_type_macro`, `<cell:macro>`: /repo/src/symbol.c:160 -/
abbrev c_type_macro : Int := 101
/-- `cell_type_number`, `<cell:number>`: /repo/src/symbol.c:161 -/
abbrev c_type_number : Int := 102
/-- `cell_type_pair`, `<cell:pair>`: /repo/src/symbol.c:162 -/
abbrev c_type_pair : Int := 103
/-- `cell_type_port`, `<cell:port>`: /repo/src/symbol.c:163 -/
abbrev c_type_port : Int := 104
/-- `cell_type_ref`, `<cell:ref>`: /repo/src/symbol.c:164 -/
abbrev c_type_ref : Int := 105
/-- `cell_type_special`, `<cell:special>`: /repo/src/symbol.c:165 -/
abbrev c_type_special : Int := 106
/-- `cell_type_string`, `<cell:string>`: /repo/src/symbol.c:166 -/
abbrev c_type_string : Int := 107
/-- `cell_type_struct`, `<cell:struct>`: /repo/src/symbol.c:167 -/
abbrev c_type_struct : Int := 108
/-- `cell_type_symbol`, `<cell:symbol>`: /repo/src/symbol.c:168 -/
abbrev c_type_symbol : Int := 109
/-- `cell_type_values`, `<cell:values>`: /repo/src/symbol.c:169 -/
abbrev c_type_values : Int := 110
/-- `cell_type_variable`, `<cell:variable>`: /repo/src/symbol.c:170 -/
abbrev c_type_variable : Int := 111
/-- `cell_type_vector`, `<cell:vector>`: /repo/src/symbol.c:171 -/
abbrev c_type_vector : Int := 112
/-- `cell_type_broken_heart`, `<cell:broken-heart>`: /repo/src/symbol.c:172 -/
abbrev c_type_broken_heart : Int := 113
/-- `cell_symbol_program`, `%program`: /repo/src/symbol.c:174 -/
abbrev c_symbol_program : Int := 114
/-- `cell_symbol_test`, `%%test`: /repo/src/symbol.c:175 -/
abbrev c_symbol_test : Int := 115
/-- `g_symbol_max`: /repo/src/symbol.c:186 -/
abbrev c_symbol_max : Int := 116
/-- `g_cells`: /repo/src/gc.c:97-105; the first cell of the arena is `cell_arena`. -/
abbrev g_cells : Int := 2

/-- The global variables of the interpreter (/repo/include/mes/mes.h:56-100). -/
structure St where
  /-- contents of the arena -/
  cell : Int → Cell
  /-- `g_free` -/
  free : Int
  /-- `ARENA_SIZE` -/
  arena : Int
  /-- `JAM_SIZE` -/
  jam : Int
  /-- `GC_SAFETY` -/
  safety : Int
  /-- First address behind the block malloc'ed for cells: /repo/src/gc.c:93-98. -/
  limit : Int
  /-- `MAX_STRING`; `g_buf` has this many bytes (/repo/src/gc.c:117). -/
  maxString : Nat
  /-- `STACK_SIZE` -/
  stackSize : Int
  /-- `g_stack_array` -/
  stack : Int → Int
  /-- `g_stack` -/
  sp : Int
  r0 : Int
  r1 : Int
  r2 : Int
  r3 : Int
  /-- `M0` -/
  m0 : Int
  /-- `g_symbols` -/
  symbols : Int
  /-- `g_macros` -/
  macros : Int
  /-- `g_ports` -/
  ports : Int
  /-- `g_continuations` -/
  continuations : Int

open Res

namespace St

/-- `a` is the address of an allocated cell. -/
def Valid (s : St) (a : Int) : Prop := 1 ≤ a ∧ a < s.free

instance (s : St) (a : Int) : Decidable (s.Valid a) := by unfold Valid; infer_instance

/-- Dereference `a`. -/
def rd (s : St) (a : Int) : Res Cell := if s.Valid a then ok (s.cell a) else ub

/-- `a->type` -/
def tag (s : St) (a : Int) : Res Tag := do let c ← s.rd a; ok c.tag
/-- `a->car`, `a->length`, `a->ref`, `a->variable`, … : the first word. -/
def car (s : St) (a : Int) : Res Int := do let c ← s.rd a; ok c.car
/-- `a->cdr`, `a->value`, `a->string`, `a->vector`, … : the second word. -/
def cdr (s : St) (a : Int) : Res Int := do let c ← s.rd a; ok c.cdr
/-- The bytes at `cell_bytes (a)`: /repo/src/gc.c:36-41. -/
def bytes (s : St) (a : Int) : Res (List Byte) := do let c ← s.rd a; ok c.bytes

/-- The memory with one cell replaced. -/
def upd (s : St) (a : Int) (c : Cell) : St := { s with cell := fun i => if i = a then c else s.cell i }

/-- Store a cell at an allocated address (/repo/src/gc.c:214-220, `copy_cell`, with the new contents). -/
def put (s : St) (a : Int) (c : Cell) : Res St := if s.Valid a then ok (s.upd a c) else ub

/-- `a->car = v` -/
def setCar (s : St) (a v : Int) : Res St := do let c ← s.rd a; s.put a { c with car := v }
/-- `a->cdr = v` -/
def setCdr (s : St) (a v : Int) : Res St := do let c ← s.rd a; s.put a { c with cdr := v }
/-- `a->type = t` -/
def setTag (s : St) (a : Int) (t : Tag) : Res St := do let c ← s.rd a; s.put a { c with tag := t }

/-- `copy_cell (to, from)`: /repo/src/gc.c:214-220. -/
def copyCell (s : St) (to frm : Int) : Res St := do
  let c ← s.rd frm
  s.put to { c with bytes := [] }

end St

/-- `alloc`: /repo/src/gc.c:156-167.  `i > ARENA_SIZE` compares a `long` with a `size_t`, so a negative `i` counts as
huge; a negative `n` that keeps `i ≥ 0` moves `g_free` backwards.  The arena has room for `ARENA_SIZE` cells; the
cells are not initialised. -/
def alloc (s : St) (n : Int) : Res (Int × St) :=
  let i := s.free + n - g_cells
  if i < 0 ∨ s.arena < i then abort else ok (s.free, { s with free := s.free + n })

/-- `make_cell` (/repo/src/gc.c:169-182), `make_pointer_cell` (184-197) and `make_value_cell` (199-212), which differ
only in the C types of the two words. -/
def makeCell (s : St) (t : Tag) (a d : Int) : Res (Int × St) :=
  let i := s.free + 1 - g_cells
  if i < 0 ∨ s.arena < i then abort
  else ok (s.free, { s.upd s.free { tag := t, car := a, cdr := d } with free := s.free + 1 })

/-- `cons`: /repo/src/gc.c:242-246. -/
def cons (s : St) (x y : Int) : Res (Int × St) := makeCell s .pair x y

/-- `bytes_cells`: /repo/src/gc.c:248-252 with `sizeof (long) = sizeof (struct scm *) = 8`. -/
def bytesCells (length : Nat) : Int := ((8 + 8 + length - 1 + 8) / 8 : Nat)

/-- `make_bytes`: /repo/src/gc.c:254-268, for the `length` bytes `bs`. -/
def makeBytes (s : St) (bs : List Byte) : Res (Int × St) := do
  let (x, s) ← alloc s (bytesCells bs.length)
  let s ← s.put x { tag := .bytes, car := bs.length, cdr := 0, bytes := bs }
  ok (x, s)

/-- Conversion of a `long` to `int` (gcc, MesCC: modulo 2^32). -/
def toInt32 (n : Int) : Int := (n + 2147483648) % 4294967296 - 2147483648

/-- `make_char`: /repo/src/gc.c:270-274; the argument is an `int`. -/
def makeChar (s : St) (n : Int) : Res (Int × St) := makeCell s .char 0 (toInt32 n)
/-- `make_number`: /repo/src/gc.c:288-292. -/
def makeNumber (s : St) (n : Int) : Res (Int × St) := makeCell s .number 0 n
/-- `make_continuation`: /repo/src/gc.c:276-280. -/
def makeContinuation (s : St) (n : Int) : Res (Int × St) := makeCell s .continuation n s.sp
/-- `make_macro`: /repo/src/gc.c:282-286. -/
def makeMacro (s : St) (name x : Int) : Res (Int × St) := do
  let d ← s.cdr name
  makeCell s .macro x d
/-- `make_ref`: /repo/src/gc.c:294-298. -/
def makeRef (s : St) (x : Int) : Res (Int × St) := makeCell s .ref x 0

/-- `make_string`: /repo/src/gc.c:300-309, for the bytes `bs` followed by a NUL in the source buffer.  A string longer
than `MAX_STRING` is reported by `assert_max_string` (/repo/src/string.c:27-41), which raises `system-error`. -/
def makeString (s : St) (bs : List Byte) : Res (Int × St) :=
  if s.maxString < bs.length then err .systemError
  else do
    let (x, s) ← makeCell s .string bs.length 0
    let (v, s) ← makeBytes s (bs ++ [0])
    let s ← s.setCdr x v
    ok (x, s)

end Mes
