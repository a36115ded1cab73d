import Verif.Model.Init
import Verif.Spec.Source
/-
The variables with which a program starts.
-/
namespace Mes.Spec

/-- The variable `name` has the value `v`. -/
def VarIs (H : List (List Byte × Int)) (σ : Store) (name : List Byte) (v : Value) : Prop :=
  ∃ x loc, lookup name H = some x ∧ σ.globals x = some loc ∧ σ.vals[loc]? = some v

/-- The strings at `ys` have these texts. -/
def Texts (s : St) : List Int → List (List Byte) → Prop
  | [], [] => True
  | y :: ys, t :: ts => IsString s y t ∧ Texts s ys ts
  | _, _ => False

/-- Cells for a list of strings. -/
def argCells : List (List Byte) → Nat
  | [] => 0
  | t :: ts => t.length / 8 + 6 + argCells ts

/-- The variables for the types and their numbers: /repo/src/symbol.c:154-172, 199-216, /repo/include/mes/constants.h:27-62. -/
def typeValues : List (List Byte × Int) :=
  [(ascii ['<', 'c', 'e', 'l', 'l', ':', 'b', 'y', 't', 'e', 's', '>'], 1),
   (ascii ['<', 'c', 'e', 'l', 'l', ':', 'c', 'h', 'a', 'r', '>'], 0),
   (ascii ['<', 'c', 'e', 'l', 'l', ':', 'c', 'l', 'o', 's', 'u', 'r', 'e', '>'], 2),
   (ascii ['<', 'c', 'e', 'l', 'l', ':', 'c', 'o', 'n', 't', 'i', 'n', 'u', 'a', 't', 'i', 'o', 'n', '>'], 3),
   (ascii ['<', 'c', 'e', 'l', 'l', ':', 'k', 'e', 'y', 'w', 'o', 'r', 'd', '>'], 4),
   (ascii ['<', 'c', 'e', 'l', 'l', ':', 'm', 'a', 'c', 'r', 'o', '>'], 5),
   (ascii ['<', 'c', 'e', 'l', 'l', ':', 'n', 'u', 'm', 'b', 'e', 'r', '>'], 6),
   (ascii ['<', 'c', 'e', 'l', 'l', ':', 'p', 'a', 'i', 'r', '>'], 7),
   (ascii ['<', 'c', 'e', 'l', 'l', ':', 'p', 'o', 'r', 't', '>'], 8),
   (ascii ['<', 'c', 'e', 'l', 'l', ':', 'r', 'e', 'f', '>'], 9),
   (ascii ['<', 'c', 'e', 'l', 'l', ':', 's', 'p', 'e', 'c', 'i', 'a', 'l', '>'], 10),
   (ascii ['<', 'c', 'e', 'l', 'l', ':', 's', 't', 'r', 'i', 'n', 'g', '>'], 11),
   (ascii ['<', 'c', 'e', 'l', 'l', ':', 's', 't', 'r', 'u', 'c', 't', '>'], 12),
   (ascii ['<', 'c', 'e', 'l', 'l', ':', 's', 'y', 'm', 'b', 'o', 'l', '>'], 13),
   (ascii ['<', 'c', 'e', 'l', 'l', ':', 'v', 'a', 'l', 'u', 'e', 's', '>'], 14),
   (ascii ['<', 'c', 'e', 'l', 'l', ':', 'v', 'a', 'r', 'i', 'a', 'b', 'l', 'e', '>'], 15),
   (ascii ['<', 'c', 'e', 'l', 'l', ':', 'v', 'e', 'c', 't', 'o', 'r', '>'], 16),
   (ascii ['<', 'c', 'e', 'l', 'l', ':', 'b', 'r', 'o', 'k', 'e', 'n', '-', 'h', 'e', 'a', 'r', 't', '>'], 17)]

/-- The parameters of the C functions behind the builtins, as their definitions and the annotations there give them; -1 when the
function takes the list of its arguments. -/
def signatures : List (List Char × Int) :=
  [(['m', 'a', 'k', 'e', '-', 'b', 'u', 'i', 'l', 't', 'i', 'n'], 4),  -- src/builtins.c:38 make_builtin
   (['b', 'u', 'i', 'l', 't', 'i', 'n', '-', 'n', 'a', 'm', 'e'], 1),  -- src/builtins.c:49 builtin_name
   (['b', 'u', 'i', 'l', 't', 'i', 'n', '-', 'a', 'r', 'i', 't', 'y'], 1),  -- src/builtins.c:55 builtin_arity
   (['b', 'u', 'i', 'l', 't', 'i', 'n', '?'], 1),  -- src/builtins.c:68 builtin_p
   (['b', 'u', 'i', 'l', 't', 'i', 'n', '-', 'p', 'r', 'i', 'n', 't', 'e', 'r'], 1),  -- src/builtins.c:77 builtin_printer
   (['c', 'a', 'r'], 1),  -- src/core.c:50 car
   (['c', 'd', 'r'], 1),  -- src/core.c:60 cdr
   (['l', 'i', 's', 't'], -1),  -- src/core.c:70 list
   (['n', 'u', 'l', 'l', '?'], 1),  -- src/core.c:76 null_p
   (['e', 'q', '?'], 2),  -- src/core.c:84 eq_p
   (['v', 'a', 'l', 'u', 'e', 's'], -1),  -- src/core.c:115 values
   (['a', 'c', 'o', 'n', 's'], 3),  -- src/core.c:123 acons
   (['l', 'e', 'n', 'g', 't', 'h'], 1),  -- src/core.c:143 length
   (['e', 'r', 'r', 'o', 'r'], 2),  -- src/core.c:149 error
   (['a', 'p', 'p', 'e', 'n', 'd', '2'], 2),  -- src/core.c:165 append2
   (['a', 'p', 'p', 'e', 'n', 'd', '-', 'r', 'e', 'v', 'e', 'r', 's', 'e'], 2),  -- src/core.c:181 append_reverse
   (['c', 'o', 'r', 'e', ':', 'r', 'e', 'v', 'e', 'r', 's', 'e', '!'], 2),  -- src/core.c:196 reverse_x_
   (['a', 's', 's', 'q'], 2),  -- src/core.c:212 assq
   (['a', 's', 's', 'o', 'c'], 2),  -- src/core.c:256 assoc
   (['c', 'o', 'r', 'e', ':', 'd', 'i', 's', 'p', 'l', 'a', 'y'], 1),  -- src/display.c:261 display_
   (['c', 'o', 'r', 'e', ':', 'd', 'i', 's', 'p', 'l', 'a', 'y', '-', 'e', 'r', 'r', 'o', 'r'], 1),  -- src/display.c:268 display_error_
   (['c', 'o', 'r', 'e', ':', 'd', 'i', 's', 'p', 'l', 'a', 'y', '-', 'p', 'o', 'r', 't'], 2),  -- src/display.c:275 display_port_
   (['c', 'o', 'r', 'e', ':', 'w', 'r', 'i', 't', 'e'], 1),  -- src/display.c:282 write_
   (['c', 'o', 'r', 'e', ':', 'w', 'r', 'i', 't', 'e', '-', 'e', 'r', 'r', 'o', 'r'], 1),  -- src/display.c:289 write_error_
   (['c', 'o', 'r', 'e', ':', 'w', 'r', 'i', 't', 'e', '-', 'p', 'o', 'r', 't'], 2),  -- src/display.c:296 write_port_
   (['p', 'a', 'i', 'r', 'l', 'i', 's'], 3),  -- src/eval-apply.c:96 pairlis
   (['s', 'e', 't', '-', 'c', 'a', 'r', '!'], 2),  -- src/eval-apply.c:106 set_car_x
   (['s', 'e', 't', '-', 'c', 'd', 'r', '!'], 2),  -- src/eval-apply.c:115 set_cdr_x
   (['s', 'e', 't', '-', 'e', 'n', 'v', '!'], 3),  -- src/eval-apply.c:124 set_env_x
   (['a', 'd', 'd', '-', 'f', 'o', 'r', 'm', 'a', 'l', 's'], 2),  -- src/eval-apply.c:197 add_formals
   (['e', 'v', 'a', 'l', '-', 'a', 'p', 'p', 'l', 'y'], 0),  -- src/eval-apply.c:331 eval_apply
   (['g', 'c', '-', 's', 't', 'a', 't', 's'], 0),  -- src/gc.c:142 gc_stats
   (['c', 'o', 'n', 's'], 2),  -- src/gc.c:243 cons
   (['g', 'c', '-', 'c', 'h', 'e', 'c', 'k'], 0),  -- src/gc.c:596 gc_check
   (['g', 'c'], 0),  -- src/gc.c:657 gc
   (['h', 'a', 's', 'h', 'q'], 2),  -- src/hash.c:59 hashq
   (['h', 'a', 's', 'h'], 2),  -- src/hash.c:66 hash
   (['h', 'a', 's', 'h', 'q', '-', 'g', 'e', 't', '-', 'h', 'a', 'n', 'd', 'l', 'e'], 3),  -- src/hash.c:73 hashq_get_handle
   (['h', 'a', 's', 'h', 'q', '-', 'r', 'e', 'f'], 3),  -- src/hash.c:89 hashq_ref
   (['h', 'a', 's', 'h', '-', 'r', 'e', 'f'], 3),  -- src/hash.c:98 hash_ref
   (['h', 'a', 's', 'h', 'q', '-', 's', 'e', 't', '!'], 3),  -- src/hash.c:130 hashq_set_x
   (['h', 'a', 's', 'h', '-', 's', 'e', 't', '!'], 3),  -- src/hash.c:139 hash_set_x
   (['h', 'a', 's', 'h', '-', 't', 'a', 'b', 'l', 'e', '-', 'p', 'r', 'i', 'n', 't', 'e', 'r'], 1),  -- src/hash.c:148 hash_table_printer
   (['m', 'a', 'k', 'e', '-', 'h', 'a', 's', 'h', '-', 't', 'a', 'b', 'l', 'e'], 1),  -- src/hash.c:208 make_hash_table
   (['c', 'o', 'r', 'e', ':', 't', 'y', 'p', 'e'], 1),  -- src/lib.c:33 type_
   (['c', 'o', 'r', 'e', ':', 'c', 'a', 'r'], 1),  -- src/lib.c:39 car_
   (['c', 'o', 'r', 'e', ':', 'c', 'd', 'r'], 1),  -- src/lib.c:48 cdr_
   (['x', 'a', 's', 's', 'q'], 2),  -- src/lib.c:57 xassq
   (['m', 'e', 'm', 'q'], 2),  -- src/lib.c:69 memq
   (['e', 'q', 'u', 'a', 'l', '2', '?'], 2),  -- src/lib.c:104 equal2_p
   (['l', 'a', 's', 't', '-', 'p', 'a', 'i', 'r'], 1),  -- src/lib.c:146 last_pair
   (['p', 'a', 'i', 'r', '?'], 1),  -- src/lib.c:158 pair_p
   (['c', 'h', 'a', 'r', '-', '>', 'i', 'n', 't', 'e', 'g', 'e', 'r'], 1),  -- src/lib.c:166 char_to_integer
   (['i', 'n', 't', 'e', 'g', 'e', 'r', '-', '>', 'c', 'h', 'a', 'r'], 1),  -- src/lib.c:172 integer_to_char
   (['>'], -1),  -- src/math.c:41 greater_p
   (['<'], -1),  -- src/math.c:64 less_p
   (['='], -1),  -- src/math.c:87 is_p
   (['-'], -1),  -- src/math.c:108 minus
   (['+'], -1),  -- src/math.c:129 plus
   (['/'], -1),  -- src/math.c:146 divide
   (['m', 'o', 'd', 'u', 'l', 'o'], 2),  -- src/math.c:189 modulo
   (['*'], -1),  -- src/math.c:216 multiply
   (['l', 'o', 'g', 'a', 'n', 'd'], -1),  -- src/math.c:233 logand
   (['l', 'o', 'g', 'i', 'o', 'r'], -1),  -- src/math.c:250 logior
   (['l', 'o', 'g', 'n', 'o', 't'], 1),  -- src/math.c:267 lognot
   (['l', 'o', 'g', 'x', 'o', 'r'], -1),  -- src/math.c:275 logxor
   (['a', 's', 'h'], 2),  -- src/math.c:292 ash
   (['m', 'a', 'k', 'e', '-', 'm', 'o', 'd', 'u', 'l', 'e', '-', 't', 'y', 'p', 'e'], 0),  -- src/module.c:25 make_module_type
   (['m', 'o', 'd', 'u', 'l', 'e', '-', 'p', 'r', 'i', 'n', 't', 'e', 'r'], 1),  -- src/module.c:69 module_printer
   (['m', 'o', 'd', 'u', 'l', 'e', '-', 'v', 'a', 'r', 'i', 'a', 'b', 'l', 'e'], 2),  -- src/module.c:87 module_variable
   (['m', 'o', 'd', 'u', 'l', 'e', '-', 'r', 'e', 'f'], 2),  -- src/module.c:102 module_ref
   (['m', 'o', 'd', 'u', 'l', 'e', '-', 'd', 'e', 'f', 'i', 'n', 'e', '!'], 3),  -- src/module.c:111 module_define_x
   (['a', 'b', 'o', 'r', 't'], 0),  -- src/posix.c:42 abort_
   (['e', 'x', 'i', 't'], 1),  -- src/posix.c:56 exit_
   (['p', 'e', 'e', 'k', '-', 'b', 'y', 't', 'e'], 0),  -- src/posix.c:117 peek_byte
   (['r', 'e', 'a', 'd', '-', 'b', 'y', 't', 'e'], 0),  -- src/posix.c:123 read_byte
   (['u', 'n', 'r', 'e', 'a', 'd', '-', 'b', 'y', 't', 'e'], 1),  -- src/posix.c:129 unread_byte
   (['p', 'e', 'e', 'k', '-', 'c', 'h', 'a', 'r'], 0),  -- src/posix.c:136 peek_char
   (['r', 'e', 'a', 'd', '-', 'c', 'h', 'a', 'r'], -1),  -- src/posix.c:142 read_char
   (['u', 'n', 'r', 'e', 'a', 'd', '-', 'c', 'h', 'a', 'r'], 1),  -- src/posix.c:154 unread_char
   (['w', 'r', 'i', 't', 'e', '-', 'c', 'h', 'a', 'r'], -1),  -- src/posix.c:161 write_char
   (['w', 'r', 'i', 't', 'e', '-', 'b', 'y', 't', 'e'], -1),  -- src/posix.c:168 write_byte
   (['g', 'e', 't', 'e', 'n', 'v'], 1),  -- src/posix.c:194 getenv_
   (['s', 'e', 't', 'e', 'n', 'v'], 2),  -- src/posix.c:204 setenv_
   (['a', 'c', 'c', 'e', 's', 's', '?'], 2),  -- src/posix.c:213 access_p
   (['c', 'u', 'r', 'r', 'e', 'n', 't', '-', 'i', 'n', 'p', 'u', 't', '-', 'p', 'o', 'r', 't'], 0),  -- src/posix.c:222 current_input_port
   (['o', 'p', 'e', 'n', '-', 'i', 'n', 'p', 'u', 't', '-', 'f', 'i', 'l', 'e'], 1),  -- src/posix.c:239 open_input_file
   (['o', 'p', 'e', 'n', '-', 'i', 'n', 'p', 'u', 't', '-', 's', 't', 'r', 'i', 'n', 'g'], 1),  -- src/posix.c:248 open_input_string
   (['s', 'e', 't', '-', 'c', 'u', 'r', 'r', 'e', 'n', 't', '-', 'i', 'n', 'p', 'u', 't', '-', 'p', 'o', 'r', 't'], 1),  -- src/posix.c:256 set_current_input_port
   (['c', 'u', 'r', 'r', 'e', 'n', 't', '-', 'o', 'u', 't', 'p', 'u', 't', '-', 'p', 'o', 'r', 't'], 0),  -- src/posix.c:273 current_output_port
   (['c', 'u', 'r', 'r', 'e', 'n', 't', '-', 'e', 'r', 'r', 'o', 'r', '-', 'p', 'o', 'r', 't'], 0),  -- src/posix.c:279 current_error_port
   (['o', 'p', 'e', 'n', '-', 'o', 'u', 't', 'p', 'u', 't', '-', 'f', 'i', 'l', 'e'], -1),  -- src/posix.c:285 open_output_file
   (['s', 'e', 't', '-', 'c', 'u', 'r', 'r', 'e', 'n', 't', '-', 'o', 'u', 't', 'p', 'u', 't', '-', 'p', 'o', 'r', 't'], 1),  -- src/posix.c:300 set_current_output_port
   (['s', 'e', 't', '-', 'c', 'u', 'r', 'r', 'e', 'n', 't', '-', 'e', 'r', 'r', 'o', 'r', '-', 'p', 'o', 'r', 't'], 1),  -- src/posix.c:310 set_current_error_port
   (['c', 'h', 'm', 'o', 'd'], 2),  -- src/posix.c:320 chmod_
   (['i', 's', 'a', 't', 't', 'y', '?'], 1),  -- src/posix.c:327 isatty_p
   (['p', 'r', 'i', 'm', 'i', 't', 'i', 'v', 'e', '-', 'f', 'o', 'r', 'k'], 0),  -- src/posix.c:335 primitive_fork
   (['e', 'x', 'e', 'c', 'l'], 2),  -- src/posix.c:341 execl_
   (['c', 'o', 'r', 'e', ':', 'w', 'a', 'i', 't', 'p', 'i', 'd'], 2),  -- src/posix.c:373 waitpid_
   (['c', 'u', 'r', 'r', 'e', 'n', 't', '-', 't', 'i', 'm', 'e'], 0),  -- src/posix.c:398 current_time
   (['g', 'e', 't', 't', 'i', 'm', 'e', 'o', 'f', 'd', 'a', 'y'], 0),  -- src/posix.c:404 gettimeofday_
   (['g', 'e', 't', '-', 'i', 'n', 't', 'e', 'r', 'n', 'a', 'l', '-', 'r', 'u', 'n', '-', 't', 'i', 'm', 'e'], 0),  -- src/posix.c:426 get_internal_run_time
   (['g', 'e', 't', 'c', 'w', 'd'], 0),  -- src/posix.c:436 getcwd_
   (['d', 'u', 'p'], 1),  -- src/posix.c:442 dup_
   (['d', 'u', 'p', '2'], 2),  -- src/posix.c:448 dup2_
   (['d', 'e', 'l', 'e', 't', 'e', '-', 'f', 'i', 'l', 'e'], 1),  -- src/posix.c:455 delete_file
   (['c', 'o', 'r', 'e', ':', 'r', 'e', 'a', 'd', '-', 'i', 'n', 'p', 'u', 't', '-', 'f', 'i', 'l', 'e', '-', 'e', 'n', 'v'], 2),  -- src/reader.c:30 read_input_file_env_
   (['r', 'e', 'a', 'd', '-', 'i', 'n', 'p', 'u', 't', '-', 'f', 'i', 'l', 'e', '-', 'e', 'n', 'v'], 1),  -- src/reader.c:38 read_input_file_env
   (['r', 'e', 'a', 'd', '-', 'e', 'n', 'v'], 1),  -- src/reader.c:194 read_env
   (['r', 'e', 'a', 'd', 'e', 'r', '-', 'r', 'e', 'a', 'd', '-', 's', 'e', 'x', 'p'], 3),  -- src/reader.c:269 reader_read_sexp
   (['r', 'e', 'a', 'd', 'e', 'r', '-', 'r', 'e', 'a', 'd', '-', 'c', 'h', 'a', 'r', 'a', 'c', 't', 'e', 'r'], 0),  -- src/reader.c:275 reader_read_character
   (['r', 'e', 'a', 'd', 'e', 'r', '-', 'r', 'e', 'a', 'd', '-', 'b', 'i', 'n', 'a', 'r', 'y'], 0),  -- src/reader.c:361 reader_read_binary
   (['r', 'e', 'a', 'd', 'e', 'r', '-', 'r', 'e', 'a', 'd', '-', 'o', 'c', 't', 'a', 'l'], 0),  -- src/reader.c:385 reader_read_octal
   (['r', 'e', 'a', 'd', 'e', 'r', '-', 'r', 'e', 'a', 'd', '-', 'h', 'e', 'x'], 0),  -- src/reader.c:409 reader_read_hex
   (['r', 'e', 'a', 'd', 'e', 'r', '-', 'r', 'e', 'a', 'd', '-', 's', 't', 'r', 'i', 'n', 'g'], 0),  -- src/reader.c:438 reader_read_string
   (['f', 'r', 'a', 'm', 'e', '-', 'p', 'r', 'i', 'n', 't', 'e', 'r'], 1),  -- src/stack.c:28 frame_printer
   (['m', 'a', 'k', 'e', '-', 's', 't', 'a', 'c', 'k'], -1),  -- src/stack.c:78 make_stack
   (['s', 't', 'a', 'c', 'k', '-', 'l', 'e', 'n', 'g', 't', 'h'], 1),  -- src/stack.c:97 stack_length
   (['s', 't', 'a', 'c', 'k', '-', 'r', 'e', 'f'], 2),  -- src/stack.c:104 stack_ref
   (['s', 't', 'r', 'i', 'n', 'g', '=', '?'], 2),  -- src/string.c:65 string_equal_p
   (['s', 'y', 'm', 'b', 'o', 'l', '-', '>', 's', 't', 'r', 'i', 'n', 'g'], 1),  -- src/string.c:97 symbol_to_string
   (['s', 'y', 'm', 'b', 'o', 'l', '-', '>', 'k', 'e', 'y', 'w', 'o', 'r', 'd'], 1),  -- src/string.c:103 symbol_to_keyword
   (['k', 'e', 'y', 'w', 'o', 'r', 'd', '-', '>', 's', 't', 'r', 'i', 'n', 'g'], 1),  -- src/string.c:109 keyword_to_string
   (['s', 't', 'r', 'i', 'n', 'g', '-', '>', 's', 'y', 'm', 'b', 'o', 'l'], 1),  -- src/string.c:115 string_to_symbol
   (['m', 'a', 'k', 'e', '-', 's', 'y', 'm', 'b', 'o', 'l'], 1),  -- src/string.c:124 make_symbol
   (['s', 't', 'r', 'i', 'n', 'g', '-', '>', 'l', 'i', 's', 't'], 1),  -- src/string.c:159 string_to_list
   (['l', 'i', 's', 't', '-', '>', 's', 't', 'r', 'i', 'n', 'g'], 1),  -- src/string.c:165 list_to_string
   (['r', 'e', 'a', 'd', '-', 's', 't', 'r', 'i', 'n', 'g'], -1),  -- src/string.c:173 read_string
   (['s', 't', 'r', 'i', 'n', 'g', '-', 'a', 'p', 'p', 'e', 'n', 'd'], -1),  -- src/string.c:198 string_append
   (['s', 't', 'r', 'i', 'n', 'g', '-', 'l', 'e', 'n', 'g', 't', 'h'], 1),  -- src/string.c:219 string_length
   (['s', 't', 'r', 'i', 'n', 'g', '-', 'r', 'e', 'f'], 2),  -- src/string.c:226 string_ref
   (['m', 'a', 'k', 'e', '-', 's', 't', 'r', 'u', 'c', 't'], 3),  -- src/struct.c:25 make_struct
   (['s', 't', 'r', 'u', 'c', 't', '-', 'l', 'e', 'n', 'g', 't', 'h'], 1),  -- src/struct.c:51 struct_length
   (['s', 't', 'r', 'u', 'c', 't', '-', 'r', 'e', 'f'], 2),  -- src/struct.c:82 struct_ref
   (['s', 't', 'r', 'u', 'c', 't', '-', 's', 'e', 't', '!'], 3),  -- src/struct.c:88 struct_set_x
   (['m', 'a', 'k', 'e', '-', 'v', 'e', 'c', 't', 'o', 'r'], -1),  -- src/vector.c:48 make_vector
   (['v', 'e', 'c', 't', 'o', 'r', '-', 'l', 'e', 'n', 'g', 't', 'h'], 1),  -- src/vector.c:61 vector_length
   (['v', 'e', 'c', 't', 'o', 'r', '-', 'r', 'e', 'f'], 2),  -- src/vector.c:83 vector_ref
   (['v', 'e', 'c', 't', 'o', 'r', '-', 'e', 'n', 't', 'r', 'y'], 1),  -- src/vector.c:89 vector_entry
   (['v', 'e', 'c', 't', 'o', 'r', '-', 's', 'e', 't', '!'], 3),  -- src/vector.c:106 vector_set_x
   (['l', 'i', 's', 't', '-', '>', 'v', 'e', 'c', 't', 'o', 'r'], 1),  -- src/vector.c:112 list_to_vector
   (['v', 'e', 'c', 't', 'o', 'r', '-', '>', 'l', 'i', 's', 't'], 1)]  -- src/vector.c:126 vector_to_list

/-- The other variables that are not builtins. -/
def otherNames : List (List Byte) :=
  [ascii ['<', 'h', 'a', 's', 'h', 'q', '-', 't', 'a', 'b', 'l', 'e', '>'],
   ascii ['<', 'm', 'o', 'd', 'u', 'l', 'e', '>'],
   ascii ['i', 'n', 't', 'e', 'r', 'n', 'a', 'l', '-', 't', 'i', 'm', 'e', '-', 'u', 'n', 'i', 't', 's', '-', 'p', 'e', 'r', '-', 's', 'e', 'c', 'o', 'n', 'd'],
   ascii ['%', 'a', 'r', 'g', 'v'], ascii ['%', 'a', 'r', 'c', 'h'], ascii ['%', 'c', 'o', 'm', 'p', 'i', 'l', 'e', 'r'],
   ascii ['%', 'd', 'a', 't', 'a', 'd', 'i', 'r'], ascii ['%', 'v', 'e', 'r', 's', 'i', 'o', 'n'], ascii ['*', 'c', 'l', 'o', 's', 'u', 'r', 'e', '*'],
   ascii ['c', 'u', 'r', 'r', 'e', 'n', 't', '-', 'm', 'o', 'd', 'u', 'l', 'e'],
   ascii ['b', 'o', 'o', 't', '-', 'm', 'o', 'd', 'u', 'l', 'e'],
   ascii ['c', 'a', 'l', 'l', '-', 'w', 'i', 't', 'h', '-', 'v', 'a', 'l', 'u', 'e', 's']]

/-- All variables with which a program starts. -/
def startVariables (mini : Bool) : List (List Byte) := (builtinTable mini).map Prod.fst ++ (typeValues.map Prod.fst ++ otherNames)

/-- The variables with which a program starts have their values, and there are no others. -/
structure Started (o : Setup) (s : St) (H : List (List Byte × Int)) (σ : Store) : Prop where
  builtins : ∀ e ∈ builtinTable o.mini, VarIs H σ e.1 (.prim e.2.1 e.2.2)
  types : ∀ e ∈ typeValues, VarIs H σ e.1 (.int e.2)
  ticks : VarIs H σ (ascii ['i', 'n', 't', 'e', 'r', 'n', 'a', 'l', '-', 't', 'i', 'm', 'e', '-', 'u', 'n', 'i', 't', 's', '-', 'p', 'e', 'r', '-', 's', 'e', 'c', 'o', 'n', 'd']) (.int o.ticks)
  version : ∃ x, VarIs H σ (ascii ['%', 'v', 'e', 'r', 's', 'i', 'o', 'n']) (.obj x) ∧ IsString s x o.version
  datadir : ∃ x, VarIs H σ (ascii ['%', 'd', 'a', 't', 'a', 'd', 'i', 'r']) (.obj x) ∧ IsString s x o.datadir
  compiler : ∃ x, VarIs H σ (ascii ['%', 'c', 'o', 'm', 'p', 'i', 'l', 'e', 'r']) (.obj x) ∧ IsString s x o.compiler
  arch : ∃ x, VarIs H σ (ascii ['%', 'a', 'r', 'c', 'h']) (.obj x) ∧ IsString s x o.arch
  argv : ∃ ys : List Int, VarIs H σ (ascii ['%', 'a', 'r', 'g', 'v']) (listVal (ys.map .obj)) ∧ Texts s ys o.argv
  only : ∀ x loc, σ.globals x = some loc → ∃ name ∈ startVariables o.mini, lookup name H = some x

/-- The memory that the set-up needs. -/
def setupCells (o : Setup) : Nat :=
  11000 + o.version.length / 8 + o.datadir.length / 8 + o.compiler.length / 8 + o.arch.length / 8 + argCells o.argv

/-- The texts from the environment and the command line fit into strings. -/
def SetupTexts (o : Setup) (m : Nat) : Prop :=
  o.version.length ≤ m ∧ o.datadir.length ≤ m ∧ o.compiler.length ≤ m ∧ o.arch.length ≤ m ∧ ∀ t ∈ o.argv, t.length ≤ m

/-- The names a program can use for variables: not those of the constants, of the types in the first environment and
of the loader. -/
def startScope (x : Int) : Prop := 46 ≤ x ∧ x ≠ c_symbol_program ∧ x ≠ c_symbol_module ∧ x ≠ c_symbol_hashq_table

/-- The symbol of a name. -/
def symbolIn (H : List (List Byte × Int)) (name : List Byte) : Int := (lookup name H).getD 0

/-- What is known about the symbol table after the set-up: the special forms have their symbols, different names have different
symbols, and names that are not predefined have new symbols. -/
structure TableKnown (H : List (List Byte × Int)) : Prop where
  naming : Naming (symbolIn H)
  inj : ∀ n n' x, lookup n H = some x → lookup n' H = some x → n = n'
  new : ∀ name x, lookup name H = some x → name ∈ predefined.map Prod.snd ∨ c_symbol_max ≤ x

/-- Cells for reading a text of `l` bytes. -/
def textRoom (l : Nat) : Nat := 21 * l + (4 * l + 1) * 5 + 2

end Mes.Spec
