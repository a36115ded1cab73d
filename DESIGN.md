# Formal model of GNU Mes in Lean 4

This file says what is modelled, how each property of `properties.jsonl` is stated and proved, and what has to be
trusted.  The model is written by reading `/repo` as text; nothing of it is built or run.

## Layout

* `lean/Verif/Model/*.lean`: the model of the code, function by function.  Every definition cites file and lines.
* `lean/Verif/Spec/*.lean`: independent specifications (sequences, maps, trees, arithmetic, formats, a semantics of
  Scheme) that the property theorems are stated against.  They do not mention the model's helper functions.
* `lean/Verif/Proof/*.lean`: helper lemmas.
* `lean/Verif/Props/*.lean`: property theorems, each with an `example` that a concrete case meets its hypotheses.
* `MANIFEST.json`: property → theorem names; generated by `tools/manifest.py` from the names `Cnn_…` and `tools/notes.json`.
* `seeded/LOG.jsonl`: wrong programs the theorems were tried against.

Names: `Cnn_full` is the property as stated, as a definition; `Cnn_…_false` proves that it does not hold, by a concrete
witness; `Cnn_…_partial` is proved under the hypotheses written there.  A theorem without suffix is the full claim for
the functions it names.

## Conventions of the model

* **Outcomes.**  Every function that can go wrong returns `Res α`: `ok a`, `err` (Scheme error raised with a key),
  `abort` (assertion / `exit` with a diagnostic), `ub` (C undefined behaviour: out-of-bounds access, signed
  overflow, NULL dereference, use of an uninitialised variable) or `loop` (the fuel of the model ran out).  UB is never
  silently totalised, and `loop` is never a normal result.
* **Machine integers.**  `long` is a 64-bit two's complement integer unless the property says otherwise (x86_64);
  the model uses `Int` with an explicit range check where overflow is UB, and arithmetic modulo 2^w where the C code
  uses unsigned wrap-around.  `char` is signed (x86/x86_64, gcc and MesCC).  The libc number functions take the width of
  `long` as a parameter.
* **libc memory.**  A flat finite byte memory `Mem` (list of bytes, address = index); access outside it is `ub`.
  Objects are sub-ranges; that a function stays inside its objects is part of the theorems ("nothing else changes").
* **Scheme heap.**  An arena of cells with index addresses.  Both words of a cell are kept as in the C unions.  The payload of
  `TBYTES`, which the C code lays over the following cells, is a byte list in the head cell, and the following
  `bytes_cells(n)-1` cells are unspecified filler.  Addresses count cells (every build except M2-Planet's).
* **Loops** become structural recursion on a counter, or recursion with a fuel argument.  Theorems say that there is an
  amount of fuel from which on the result is the one claimed (lists in memory can be circular, so no amount works for all).
* **Systems.**  What the kernel does (short reads, errors, break, limits) is a universally quantified parameter with the
  assumptions written next to it.
* **Collections.**  A collection can happen only where the C code can start one: at the points of `eval_apply` that call
  `gc_check` and in the builtin `gc`.  The data primitives never collect.

## What is modelled

| files of /repo | module | what is left out |
|---|---|---|
| `src/gc.c`, `include/mes/mes.h` | `Heap`, `Gc` | printing of statistics and dumps, the clock, `gc_up_arena` (unreachable unless built by M2-Planet), `gc_stats` |
| `src/core.c`, `src/lib.c`, `src/vector.c`, `src/struct.c`, `src/string.c`, `src/hash.c` | `Data` | the cells of the error object in `error`; exit; the handler `throw` is assumed not to return |
| `src/stack.c` | `Stack` | `frame_printer` |
| `src/math.c` | `Math` | – |
| `src/symbol.c` | `Symbol` | – |
| `src/mes.c`: `main` up to `read_boot`, `mes_environment`; `src/builtins.c`: `init_builtin`, `mes_builtins`; `src/module.c`: `make_module_type`, `make_initial_module`; `src/posix.c`: `init_time`; `gc_init` | `Init` | reading of environment variables and of sizes, messages; which source file is opened |
| `src/posix.c`: character input, string ports; `lib/mes/fdgetc.c`, `fdungetc.c` | `Port` | files, processes, time; output ports |
| `src/reader.c` | `Reader` | messages on standard error |
| `src/display.c` | `Display` | structs, whose printing runs a Scheme procedure |
| `src/eval-apply.c`, `src/module.c`, `src/builtins.c` | `Eval`, `Builtins` | diagnostics; files for `primitive-load` (parameter); C functions behind builtin records are a parameter, with a table of 20 of them |
| `lib/string/*.c`, `lib/ctype/*.c` | `CString`, `CType` | locale functions |
| `lib/mes/ntoab.c`, `abtol.c`, wrappers in `lib/mes`, `lib/stdlib`; `lib/mes/div.c` | `CNum`, `CDiv` | floating point (`dtoab`, `abtod`) |
| `lib/stdlib/qsort.c` | `CSort` | comparison functions with side effects |
| `lib/linux/malloc.c`, `brk.c`, `lib/stdlib/calloc.c`, `realloc.c`, `free.c` | `CAlloc` | other users of the break |
| `lib/posix/getenv.c`, `setenv.c`, `unsetenv.c` | `CEnv` | the array `environ` is a list of words apart from the byte memory |
| `lib/mes/__buffered_read.c`, `lib/posix/buffered-read.c`, `write.c`, `lib/linux/lseek.c` | `CRead` | `errno`, debug messages, pipes and devices, the variant for `__MESC__` |
| `lib/stdio/fgetc.c`, `ungetc.c`, `fgets.c`, `fread.c`, `feof.c`, `fseek.c`, `ftell.c`, `lib/mes/fdgetc.c`, `fdungetc.c` | `CStdio` | a stream is one descriptor with its entry of `__ungetc_buf`; debug messages, `errno` |
| `lib/posix/getopt.c` | `CGetopt` | the messages; the array of `struct option` is a list |
| `lib/stdio/vsnprintf.c`, `vfprintf.c` | `CPrintf` | messages about unknown conversions; arguments are words in the form of a `long`; `dtoab` is a parameter |
| `lib/stdio/vsscanf.c` | `CScan` | the conversions of floating point numbers are a parameter; arguments are addresses |
| `lib/mes/search-path.c`, `lib/posix/execvp.c` | `CExec` | `access` is a function of the name, `execve` is the name that it gets; debug messages |
| `lib/dirent/readdir.c`, the stream of `opendir.c`, `lib/linux/getdents.c` | `CDir` | the kernel is a list of answers; `open`, `fstat`, `fcntl` and the allocation in `opendir` |
| `lib/stdio/fputc.c`, `fputs.c`, `fwrite.c`, `lib/stdlib/puts.c`, `lib/mes/fdputc.c`, `fdputs.c`, `oputs.c` | `COut` | streams are descriptors of regular files; debug messages |
| `lib/stdio/fopen.c` | `COpen` | the file system is one file; permissions, directories and other errors of `open`; debug messages |
| `lib/posix/execl.c`, `execlp.c` | `CExecl` | the variable arguments are a list; `execv` is the texts that it gets; debug messages |
| `lib/stdlib/atexit.c`, `exit.c` | `CExit` | a function is its address; the calls are the result |
| `lib/posix/mktemp.c` | `CTemp` | the value of a pointer is the address in the memory |
| `lib/x86_64-mes/x86_64.M1` | `X64Defines` | the definitions in comments, the numbers of system calls |
| `module/mescc/x86_64/as.scm`: the functions for constants; `module/mescc/M1.scm`: `hex2:immediate`, `1`, `8` | `X64As` | the other functions of `as.scm` (`X64Fns` has their mnemonics); the way through the text of the numbers is C55 |
| `module/mescc/x86_64/as.scm`: the mnemonics of all functions; `module/mescc/compile.scm`: `allocate-register`, `free-register` | `X64Fns` | the constants and labels of a line (C79 has those for constants); `push-register`, `pop-register`; the text that `allocate-register` and `free-register` add |
| `module/mescc/x86_64/as.scm`: `r->local`, `local->r`, `r->local+n` | `X64Local` | the variants for bytes, words and longs |
| `module/mescc/compile.scm`: `expr->register`, `test-jump-label->info`, `ast->info`, `fctn-defn->info` and what they call; `module/mescc/as.scm`, `i386/as.scm`, `i386/info.scm`; `module/mescc/M1.scm`: `write-function` | `Mescc` | the parser (Nyacc); pointers, arrays, structures, calls, assignments inside expressions, `for`, `switch`, `goto`, `asm`, globals; alignment; the assembler and linker are taken as ideal (`assemble`); C itself is a specification (`Spec/CLang`) |
| `lib/x86-mes/x86.M1` | `X86Defines` | the processor and the notation of mnemonics are specifications (`Spec/X86`, `Spec/Mnemonic`), for the instructions that occur, without segments, paging and interrupts |
| `mes/module/mes/boot-0.scm`, `base.mes`, `let.mes`, `scm.mes`, `mes/module/srfi/srfi-1.mes`, `srfi-1.scm`: the procedures named in the model | `Library` | programs after macro expansion; the rest of these files |
| `mes/module/mes/scm.mes`: `number->string`, `string->number`, `abs`, `remainder`; `module/mescc/bytevectors.scm`, `as.scm`: `int->bv8` … `int->bv64`; `M1.scm`: `text->M1` of numbers, `hex2:immediate…` | `Scheme` | transcribed by hand into functions on numbers and texts, with the arithmetic of `Math`; strings are lists of ASCII characters |

Not modelled: nyacc and the rest of MesCC (`module/`), except where a property names a part; the M2-Planet and ARM specific
files; processes, signals and time in `lib/`; `syntax-case` and the other macro systems; the Guile compatibility modules.

## The evaluator

`Model/Eval` is a machine with one label for every C label of `eval_apply`.  `Spec/Eval` is a big-step semantics of a core language on
values and stores, independent of cells; `Spec/Failure` says which programs fail with which error.  `World`, `IsCode`, `IsVal` (in
`Spec/Eval`) say how expressions, values and stores lie in memory.  The simulation theorem behind C30–C39 and C54: if the semantics gives
a value, the machine, started in any memory that holds the program, with enough free cells and stack, reaches the state with that value and that
store, with the stack as before; if the semantics fails, the machine raises that error.

Restrictions that the representation makes, found necessary by proofs:

* The flag `mes` of the semantics: with `mes = true` an operator that is not a variable or a lambda expression is evaluated twice, as the
  code does.  C30_false and C33_false show that this differs from standard Scheme.
* A closure value is its parameters, body and locations; the code drops the first entry of the environment when it makes a closure, which
  the representation of scopes reflects.
* Global variables are looked up by symbol in `M0`, or through the `TVARIABLE` cells that `expand_variable` writes into a program.  Cells
  of programs that are yet to be expanded are ghost state (`src`, `cur` in `Ghost`): when a form has been expanded its pairs become fixed
  code.  C58 and C59 are about this expansion and about loading whole programs; in them all pairs of a program have to be different,
  without which they are false (C58_false, C59_false), and no name may be that of a macro.
* C60 joins this with the reader: from the text on the input to the evaluation of the forms (`Model/Main`).  `BootPre` says what the
  memory has to be like when `main` starts to read; the reader may change only buckets of the symbol table and the port.
* C61 proves `BootPre` of what `main` does before it reads: symbols, builtins, types, the first module.  `init_time` has no return
  statement although its value is used, so that C61 is false of C programs in general (C61_false); C61_setup_partial assumes the value that
  `acons` left.  `C61_run_partial` joins set-up, reader and evaluator.  There the memory needed depends on the program, while symbols and
  locations are fixed before the size of the memory is chosen; for this `Proof/Sizes` and `Proof/SizesRead` show that set-up and
  reader do the same things in memories of all sizes (`St.as`).
* In a `begin` the first form must not be a pair whose car word is the address of the symbol `begin` by accident (number cells have no such word in
  typed programs); see `IsSeq.cons`.
* The simulation assumes enough free cells and stack (`Ready`).  C57 extends it to memories of any size, where `gc_check` collects during
  the evaluation.  Its proof follows the machine in the real memory beside the machine in a copy that is never collected: every step of
  the evaluator and every builtin either stops for lack of memory or keeps the two memories isomorphic (`Proof/GcSim`, `Moves`,
  `MovesEnv`, `MovesCall`, `MovesPrim`).  A C variable that lives across a collection would break this, so the proof checks every one.

Facts about `eval_apply` that were found by reading and that restrict the theorems: the operator is evaluated twice; `(define x e)`
evaluates `e` where `x` is bound to the symbol `x`; applying a pair evaluates it as code; applying a vector or port loops forever;
`(begin (begin))` gives an arbitrary value; `global_p` and `macro_p` are shared between nested definitions; `begin_expand` writes variables into the program.

## The library

`Model/Library` has the programs of the list library as expressions of the core language, after macro expansion, with the macros `let`,
named `let`, `or`, `and`, `cond` as functions on expressions as they are defined in the sources.  C54 is proved for any procedure argument, also one
with side effects, by describing the argument with a relation on abstract states (`Behaves`); the theorems end at the machine, through the
simulation theorem.  They give the depth of the stack, so that loops that should run in constant space are seen to do so.

## Per property

The properties that hold are theorems; for the others the negation is proved with a witness, and what remains as `_partial`.

<!-- generated by tools/design.py from here on -->

| property | status | theorems | what is proved, what is missing |
|---|---|---|---|
| C01 Garbage collection is invisible to the program | partial | 3 | Every access path and all sharing survive a collection, for every sound memory (Spec.Sound) with room for a copy. False in general: lists made by vector->list point into the vector and make the collector stop (C01_vector_to_list_false). |
| C02 Garbage collection reclaims everything unreachable and compacts | partial | 1 | Exact size after a collection, packing, idempotence, for every sound memory with room for a copy. Sound excludes the aliasing of vector->list, see C01. |
| C03 Garbage collection never writes outside its arena | partial | 4 | No access outside the arena if the live data fit, in particular when MES_JAM is larger than MES_ARENA. False for the default ratio of 1 to 10 (C03_gc_in_arena_false): the collector has no bounds check. |
| C04 Allocation returns fresh cells and changes nothing else | partial | 4 | Proved for every request kind and every history of requests (blocks disjoint, contents kept, arena bound, otherwise out-of-memory). A negative vector size is the exception: C04_vector_size_false shows the header written to an unallocated cell. |
| C05 The moment of garbage collection cannot influence a result | partial | 5 | Any program of the 20 modelled list, vector and arithmetic primitives (Spec.Prim), any schedule, any sound memory with room for a copy; and in an arena of any other size (C05_arena_partial), where it may only stop for lack of memory. False for = (C05_is_p_false), which compares a number with an address. vector->list, append and list->vector on arbitrary data are left out. |
| C06 Vectors behave as fixed-length mutable arrays | proved | 5 | Over all histories of make-vector, list->vector, vector-set!, vector-ref, structs, other allocation and pair mutation (ArrRun). |
| C07 An out-of-range vector or struct index is rejected | partial | 3 | Index at or above the length stops with an assertion. Negative indexes are not checked by the code: C07_index_false (vector-set! at -1 overwrites the header). |
| C08 list->vector and vector->list are inverse | partial | 4 | The round trip and the length are proved. The independence of the result is false in the code: C08_shared_false (numbers and characters in the list are the element cells of the vector). |
| C09 Structs behave as records | proved | 4 | Over the same histories as C06. |
| C10 List primitives agree with mathematical sequences | proved | 7 | length, append2, append-reverse, reverse! for all lists and any tail; no existing cell changes (reverse!: only the pairs of its argument). |
| C11 assq/memq/assoc find the first eq?/equal? entry | partial | 5 | assoc proved; assq and memq find the first match for keys that are not numbers, characters or keywords compared across types; full statement false: C11_assq_false, C11_memq_false (a number key matches a character with the same value). |
| C12 equal? is structural equality | proved | 4 | eq?, equal? against an independent tree semantics of the heap, for all acyclic data. |
| C13 Hash tables behave as finite maps | partial | 8 | All histories of make-hash-table, hash(q)-set!, hash(q)-ref and unrelated heap changes, for keys whose hash is not negative (ASCII). Full statement false: the default is ignored (C13_default_false, C13_default_list_false), bytes >= 128 abort (C13_key_false). |
| C14 Interning: one symbol per name | partial | 7 | All histories of interning from the initial symbol table on (C14_start), for names whose hash is not negative. Full statement false: C14_name_false (byte >= 128 aborts), C14_symbol_false ((string->symbol "()") is the empty list). |
| C15 list->string and string->list are inverse | proved | 5 | list->string, string->list, both round trips and string-length for byte strings below MAX_STRING. |
| C16 string-append, string=? and string-ref follow the byte sequence | partial | 5 | string-append and string=? proved; string-ref is wrong for bytes >= 128 and accepts index = length (counterexamples), the partial theorem covers bytes < 128 and the rest of the index range. |
| C17 Oversized strings are rejected without memory corruption | partial | 4 | list->string and string-append overflow a fixed buffer at MAX_STRING (counterexamples); below the limit nothing is truncated; make-string style construction reports the error. Reader and read-string are not covered here. |
| C18 +, - and * are exact within the machine word | proved | 6 | Variadic sum, difference, negation and product for every heap argument list whose partial results fit a 64-bit word; overflow of a partial sum is shown to be undefined, a non-number an error. |
| C19 Numeric comparison chains | proved | 3 | <, > and = chains for every list of numbers. |
| C20 Division truncates and rejects zero | partial | 3 | False for negative divisors ((/ 6 -2) = 0) and for a zero divisor behind a zero quotient: negation with witness. Proved for positive divisors and any dividend except the smallest word, and the zero-divisor error when the quotient before it is not zero. |
| C21 modulo is the floor remainder | partial | 4 | False for negative moduli: negation with witness and the exact set of arguments with the right answer. Proved for all positive moduli and the zero-modulus error. |
| C22 Bitwise operators and shifts | partial | 6 | logand, logior, logxor, lognot proved bit by bit for every argument list. ash proved for counts below the word size; a count of 64 or more is undefined in C: negation with witness. |
| C23 What write prints, read reads back | partial | 4 | Every datum of Spec.Writable, from files and string ports, followed by any delimiter, in any memory; with equal? to the original. False beyond it: 64-bit integers (C23_int_false), symbols with a backslash (C23_symbol_false), a list that begins with *circular* (C23_circular_false). Characters without a name above 127 or below 32 are left out. |
| C24 Integer literals denote their value | partial | 6 | All decimal and radix literals up to Spec.maxLiteral, all signs, any leading zeros; printing up to 32 bits. False: the largest long overflows in the reader (C24_overflow_false); +1b is read as the symbol 1b (C24_sign_false). |
| C25 Comments and blank space do not change what is read | partial | 2 | Every text of the grammar Spec.Written, with white space, line, block and datum comments anywhere the grammar has them, is read as its datum. False: a datum comment in front of a closing parenthesis (C25_last_false). |
| C26 The reader consumes exactly one datum | partial | 4 | Every sequence of texts of the grammar, read one by one (C26_one, C26_end) or all at once (C26_partial), nothing lost. False when a datum is the empty list (C26_nil_false). |
| C27 String literal escapes | partial | 4 | All byte strings shorter than MAX_STRING, all texts with escapes. False from that length on (C27_length_false). |
| C28 Reader always makes progress or fails | partial | 6 | False as stated: an unclosed block comment is read forever (C28_comment_false), and a carriage return outside of parentheses gives infinitely many numbers 0 (C28_return_false). Proved: C28_ends_partial: on every ASCII text of a file in which each #\| and #! is closed and which has no #( or no dot that stands alone - well formed or not: open lists and strings, too many parentheses, unknown syntax - the reader ends with an object, an error, an abort or undefined behaviour, with an explicit bound on the number of steps, and an object takes at least one character unless the text starts with a vertical tab or carriage return. C28_all_partial: reading all data of such a file ends if it has neither of these two characters. C28_started_partial: the same from the start of the interpreter. C28_partial: on texts of data the reader succeeds. Missing: names with bytes above 127 (their hash is negative); vectors together with dots that stand alone, where the C code takes the car of a non-pair for a list; string ports for malformed texts. |
| C29 Character input: peek and unread laws | partial | 4 | All interleavings of read-char, peek-char and unread-char where a character is pushed back directly after it was read, for files and ASCII string ports; opening a string port. False: push back after peek (C29_unread_false), bytes above 127 of a string port (C29_byte_false). |
| C30 Evaluation computes the meaning of the program | partial | 4 | Every terminating program of the core language (constants, quote, variables, if, lambda with rest parameters, application, begin, set!, top level define), any depth and number of steps, with values, errors and the final store; builtins of Spec/Builtins. With garbage collections: C57. The semantics evaluates a non-variable operator twice as mes does; against the standard semantics this is false (C30_false). Missing: macros, quasiquote, call/cc in programs. |
| C31 Tail calls run in constant stack space | partial | 3 | Tail calls of any number need the frames of a single one (C31_partial), with a loop of any number of rounds as instance (C31_loop); with collections in a memory of any size the value is the same (C31_collected_partial). Missing: a bound for the memory that a loop needs. |
| C32 Continuations restore the captured control state | partial | 7 | Capturing copies the stack and re-entering restores it, for every state (C32_capture, C32_return, C32_apply, C32_later). False in general: a continuation applied inside the extent of call/cc has its value applied again (C32_false). |
| C33 Operator and operands are evaluated exactly once, left to right | partial | 4 | Operands once, from left to right, when the operator is a variable or a lambda expression. False for other operators: they are evaluated twice (C33_false, C33_twice_partial). |
| C34 Only #f is false | proved | 7 | C34_test and C34_branch hold for every state of the machine; C34_if for every program of the core language; C34_if_collected in memories of any size, with collections. |
| C35 Procedures check their argument count | partial | 11 | All numbers of parameters and arguments, rest parameters, builtins, and apply with a procedure and a list; with collections C35_collected_partial and C35_call_collected_partial. False: too few arguments for a lambda expression raise not-a-pair instead (C35_false, C35_few_partial). |
| C36 Applying a non-procedure is an error | partial | 3 | Numbers, characters, booleans, the empty list and strings raise wrong-type-arg. False for quoted symbols: they are applied as the procedure that the symbol names (C36_false). |
| C37 Lexical scope | proved | 7 | A closure keeps the locations of its free variables, parameters get new locations, pairlis. The theorems named partial assume enough memory; C37_lambda_collected, C37_variable_collected and C37_call_collected do not: they hold with collections in memories of any size. |
| C38 The evaluation stack never overruns | partial | 4 | Push and pop of a frame are inverse, pushing on a full stack stops, calls return with the stack as before. False: popping from an empty stack reads outside of it (C38_false). |
| C39 define binds and set! updates the visible variable | partial | 8 | define of a lambda expression or of an expression without the variable, set! of local and global variables, errors for unbound ones. False: (define x (+ x 1)) sees the symbol x (C39_false). |
| C40 memcpy, memmove and memset | proved | 5 | memcpy, memmove, memset, bcopy, bzero for all memories, sizes and overlaps. |
| C41 String copying functions | proved | 7 | strlen, strcpy, strcat, strncpy, strncat for all strings and placements; strings up to INT_MAX where the code counts in int. One finding: strncpy reads one byte beyond an unterminated source array. |
| C42 String and memory comparison | partial | 8 | Zero iff equal is proved for all bytes. The unsigned order is false (signed char difference): negations with witnesses, and order theorems for 7-bit data. |
| C43 String search functions | partial | 12 | strspn, strcspn, memmem, strstr proved in full. strchr/memchr fail for characters >= 128 passed as unsigned value, strrchr for NUL in the empty string, strpbrk when there is no match: negations with witnesses plus partial theorems for the rest. |
| C44 Number formatting and parsing are inverse | partial | 11 | itoa/utoa with a 32-bit long proved for every number. With a 64-bit long numbers of twelve or more characters are written before the buffer; ultoa prints the upper half as negative; abtol (atoi, strtol) misreads decimal digits after a letter and overflows int for the largest 48 decimal values: negations with witnesses, and partial theorems with the exact range where formatting, parsing and the round trip are right. |
| C45 Software division is correct | partial | 5 | Unsigned software division proved for all 32- and 64-bit operands; signed division proved for every dividend (including LONG_MIN) and every divisor except LONG_MIN, for which the code stops the program: negation with witness. |
| C46 qsort sorts | partial | 3 | Every array, element size and order: qsort ends, permutes, and changes nothing else (C46_permutation); sorted when no two elements are equal in the order (C46_partial). False with equal elements (C46_false). |
| C47 malloc returns disjoint aligned blocks | partial | 7 | Proved for every reachable state of the allocator and every history of malloc, calloc, realloc and assignments that the limit of the process has room for: blocks are aligned, disjoint, below the break and keep their contents; calloc blocks are zero; realloc keeps the old contents. The full statement is false: C47_false (brk never returns -1, so exhaustion is not noticed), C47_wrap_false (a size near 2^64 wraps and takes memory away from an earlier block), C47_calloc_false (overflow of the product). |
| C48 The environment functions implement a map | partial | 9 | getenv proved in full; setenv (existing or new variable, all other variables and all blocks unchanged) and unsetenv proved, and a history theorem: after any sequence of calls getenv agrees with a map. Missing because false: overwrite 0 (C48_overwrite_false), the byte written behind the block when it ends with a page (C48_bound_false), unsetenv with two adjacent entries of the same name (C48_unsetenv_false). |
| C49 Buffered reading delivers the file unchanged | partial | 7 | Proved for one descriptor of a regular file, all request sizes and all chunkings by the system that contain no error: each read gives the next bytes of the file and changes no other memory, histories of reads give the file, lseek to an existing position and write use the position that the program sees. Missing because false: a failing lseek throws the cache away and so skips bytes (C49_lseek_false), and an error of the system after bytes came from the cache loses them (C49_error_false). |
| C50 printf family respects format and buffer size | partial | 14 | The full properties (SnprintfCorrect, SnprintfText, FprintfCorrect) are refuted: no terminator when the text does not fit, a precision truncates numbers, zero padding comes before the sign, vfprintf returns 0, and others. Proved for all formats made of handled directives: the text is that of ISO C, truncated at the buffer size, memory elsewhere unchanged, value the length of the text. Proved for all formats and arguments whatever: termination, writes only to the buffer and to objects of %n, terminator if there is room. Floating conversion is an arbitrary function parameter. |
| C51 Character classes | partial | 16 | All classifications and case maps proved for every int argument, except isxdigit (upper-case A-F missing) and iscntrl (DEL missing): negations with witnesses and partial theorems. |
| C52 argz vectors | proved | 2 | argz_extract and argz_count for all well-formed argz vectors, including empty strings. |
| C53 number->string and string->number are inverse | partial | 10 | number->string gives the usual signed numeral for all numbers but the smallest (undefined, C53_smallest) and all radixes to 36; string->number gives for each numeral its number in the radixes 2 to 10 and 16, and reads back what number->string wrote; texts with other characters, or with a digit beyond the radix 16 letters or a sign elsewhere, are refused (C53_refused, C53_digits), capitals count as small letters (C53_capitals); C53_string_to_number_false: other radixes do not know their letters. The functions are transcribed from scm.mes; the division is proved to be that of math.c. |
| C54 SRFI-1 list library | partial | 31 | Proved on the program text of the library, for all lists and any procedure argument, also with side effects: filter, remove, find, fold and fold-right (one to three lists; further lists are ignored), map (one to four lists; the fourth must not be the shortest), for-each (one and two lists), filter-map (one list; two lists if the second is not shorter), take-while, any1, every1, list-index, member with a predicate, reverse, make-list, list-ref, list-head, list-tail; with their stack depth, down to the machine. delete-duplicates keeps the last instead of the first of equal elements, filter-map fails if its second list is the shorter one, map if the fourth list is the shortest: negations with witnesses and theorems for what they do. Missing: delete, append-map, last, unfold, iota, list-index with several lists, the default equal?. |
| C55 Compiler emits integers in little-endian two's complement | partial | 7 | All bytes of int->bv8 … int->bv64 for every long, the text of a byte, and constants of 1, 2 and 4 bytes, stand for the little-endian two's complement form. C55_immediate8_false: the 8-byte constants below -2^32 are wrong (upper half always -1); proved for the others. The meaning of M1 texts is part of the specification (the assembler is not in this repository). Missing: labels, addresses and strings in M1. |
| C56 Evaluation is deterministic | proved | 4 | For the core language of Spec/Eval with the builtins of Spec/Builtins. Machine results: unique for states ready to evaluate (enough free cells and stack). |
| C57 Evaluation survives garbage collections | proved | 5 | For the core language of Spec/Eval with the builtins of Spec/Builtins, top level define included; the memory before the call may already be a moved copy of one that represents the program. Sound memory: Spec.Sound, with room for the copy. Macros, call/cc in programs and the C callers of eval_apply are outside. |
| C58 Expanding variables does not change the meaning of a program | partial | 2 | Expressions, (define x e) and (define (f ...) ...) of the core language; also that only cars of the program change. C58_false: the property fails when two parts of a form share a pair (possible in the output of macros), so all pairs are assumed different. The memory must suffice, without collections. Names of the special forms must not be global variables. |
| C59 Loading a program evaluates its forms in order | partial | 3 | Any number of forms, with the search for macros (none of the names is one), expansion and evaluation of each, and splicing of top level (begin ...). C59_false as for C58. C59_error_partial: the first form that raises an error, after any number that do not, gives the error. Missing: macros, primitive-load forms, collections while loading; (begin) without forms at the end of a program reads the cell of the empty list. |
| C60 Running a program text evaluates the forms it stands for | partial | 3 | C60_main_partial, C60_known_partial: texts without () at top level, when the memory suffices without collections and no name in the program is that of a macro. C60_error_partial: the same for a program one of whose forms raises an error. |
| C61 main starts a program with its symbols and variables, and then evaluates its text | partial | 6 | C61_setup_partial, C61_run_partial: when init_time returns the list it made. C61_false: init_time has no return statement, so its value is undefined. The sizes are those that suffice without a collection; environment variables and finding the source file are not modelled. C61_error_partial: the same for programs that raise an error. |
| C62 apply_builtin calls the C function with the arguments | partial | 5 | C62_arity_false: builtins with four parameters (make-builtin) are never called, the result is unspecified; C62_values_false: (list #f (values #t)) gets three elements, because the rest of the arguments is attached to the object itself. C62_first_partial, C62_two_partial are what holds, C62_many what happens with more than three parameters. |
| C63 getopt finds the options of a command line | partial | 7 | Holds for command lines without the argument -- (C63_options_partial, C63_long_partial); C63_calls says what the calls do with -- as well. C63_false and C63_long_false: -- does not end the options. getopt_long_only is modelled, without a theorem. |
| C64 Input streams give the bytes of the file | partial | 14 | Characters (C64_getc, C64_all), lines (C64_gets, C64_lines) and feof (C64_feof) hold in full for a file without read errors. fread gives a prefix, all of it if it fits the cache (C64_fread_partial); fseek and ftell are right when nothing is pushed back (C64_seek_partial, C64_tell_partial), ungetc when nothing is pushed back already (C64_ungetc_partial). The full properties are FreadSpec, FtellSpec, FseekSpec and UngetcSpec, each refuted by a witness. |
| C65 The definitions of x86.M1 are the instructions their mnemonics name | partial | 3 | C65_partial: all 197 definitions but eight, for all displacements and constants. C65_wrong: each of the eight is something else (C65_false): cmp____$i8,%ebx and addw___$i8 take more bytes, mov____$i8,%eax sets %al only, mov____%cl,(%ebx) and mov____%cx,(%ebx) are loads, the two subtractions of bytes are exchanged. The decoder of Spec/X86 is written after the processor's manual, for the opcodes that occur. |
| C66 Functions compiled by MesCC compute what C says | partial | 6 | C66_full is false (C66_false): C66_division_wrong, -2 / 2u gives -1, and C66_or_wrong, 2 \|\| 0 gives 2. Proved for plain functions (C66_mescc_partial: signed types; \|\| and && as values only of truth values; != only where no other value is alive; ?: only where at most one is), more generally for calls in which every expression fits (C66_mescc_run_partial), and for the functions of a whole assembled program (C66_program_partial, which has no assumption about the text that C67 and C68 do not prove). Missing: the constructs that are not modelled, see DESIGN.md. |
| C67 The labels of a compiled program are unique and every jump has its label | partial | 4 | C67_full is false (C67_false: C67_twice, an if whose condition begins with a ?:; C67_clash, a function with the name of a label). Proved for programs without such conditions and names (C67_labels_partial); nothing else is missing for the modelled part of C. |
| C68 The assembler knows every mnemonic that MesCC writes | partial | 3 | C68_full is false (C68_false: C68_crowded, a char with an initial value after 31 other variables). Proved for functions with at most 31 variables or without initialised variables of one or two bytes (C68_assembles_partial); nothing else is missing for the modelled part of C. |
| C69 sscanf stores the values of a matching text, and reads back what snprintf writes | partial | 7 | The full property is false (C69_white_false; also C69_large, C69_mismatch, C69_no_number, C69_past_end). Proved for templates of ordinary characters, single white-space characters, %d, %i, %u and %c, and numbers up to INT_MAX - 48; not covered: widths, %s, %x and floating point, other bases of %i, texts that do not match. |
| C70 execvp runs the first executable file in the directories of PATH | partial | 10 | The full property is false (C70_beyond_false, C70_runs_on, C70_current_false, C70_long_false, C70_unset). Proved: a name with a slash is used as it is; with non-empty directories whose names fit in the buffer, the first executable file is run if there is one; a missing program is reported if an empty text follows PATH in the memory. |
| C71 readdir gives every file of a directory once, in order | proved | 4 | C71_readdir for each call, C71_list and C71_error for a whole listing. In addition C71_errno_false: calls that succeed may set errno to 0. |
| C72 Output functions write what they are given, and say so when they cannot | partial | 7 | The full property is false: fputs and puts ignore errors and short writes (C72_error_false, C72_short_false), fputc returns 0 (C72_char_false). Proved: fwrite in full (C72_fwrite, C72_blocks_partial), and for all the functions the bytes in the file for every sequence of calls when the kernel takes every write as a whole (C72_program_partial). |
| C73 fopen opens the file as the mode says | partial | 7 | The full property is false: C73_truncate_false, C73_missing_false, C73_update_false, C73_append_false. Proved: r, rb, w, wb for every file, r+ and a+ (with b too) for an existing file; a without + on an existing file keeps the contents and appends, but allows to read as well. |
| C74 Backtraces show the procedures that are being called | proved | 3 | C74_make_stack, C74_stack_length, C74_stack_ref. The symbol frame-printer is in the symbol table (it is the name of a builtin), frames need not be. The memory has to have room, without collections, as in the code. |
| C75 execl and execlp give a new program its arguments | partial | 7 | The full property is false: the first argument is dropped and the name of the file given instead (C75_execl_false, C75_first), 1000 arguments overflow the array (C75_many), and a call without variable arguments reads beyond (C75_unended). Proved: execl for a first argument that is the name of the file and at most 999 arguments; execlp with a name that contains a slash, or that is found in PATH, where C70 holds. |
| C76 exit calls the functions registered with atexit | partial | 5 | The full property is false: only the function that was registered last is called (C76_last, C76_false), functions registered meanwhile are not called (C76_during_false), and atexit has no result (C76_result_false). Proved for at most one function that registers no other. |
| C77 mktemp makes a name that is not taken | partial | 5 | The full property is false: the letters depend on the address only (C77_same, C77_false), and a short template lets the characters before it be overwritten (C77_before, C77_short_false). Proved: the last six characters become letters and nothing else changes. |
| C78 The definitions of x86_64.M1 are the instructions their mnemonics name | partial | 5 | The full property is false for twelve definitions (C78_wrong): six operations on memory without a width have 32 bits instead of 64 (C78_add), two additions take a constant of two bytes instead of one, mov____$i8,%rax sets %al only, and three mnemonics name no instruction. Proved for the other 200 definitions; no mnemonic is defined twice (C78_once). |
| C79 Constants in the code that MesCC writes for x86_64 | partial | 19 | The full property is false: constants from 0x80000000 to 0xfffffffe get a sign (C79_value_sign, C79_value_false, C79_and_false), the upper half is wrong below -0x100000000 (C79_negative_false) and for MesCC compiled with mesc (C79_mesc_false), value->r0 drops what is beyond 32 bits (C79_value_r0_false), and many lines cannot be assembled because a mnemonic is missing or parentheses are (C79_add_unknown, C79_and_unknown, C79_cmp_unknown). Proved for all other constants; local-ptr->r for all offsets of 31 bits (C79_local). |
| C80 The x86_64 back end writes mnemonics that the assembler knows | partial | 7 | False as stated: nineteen mnemonics are written and not defined (C80_missing, C80_false). C80_partial is the rest, for all reachable allocations and all constants; C80_defined adds that the definition is the instruction named. |
| C81 What the x86_64 back end does with registers | proved | 10 | The processor is Spec/X64Run.lean, after its manuals; flags are represented as the operands of the last comparison. Functions that use memory, the stack or constants are not in this claim (C79 has constants, C80 the mnemonics of all). |
| C82 Local variables in the code that MesCC writes for x86_64 | proved | 5 | Memory wraps around at 2^64 and has no pages that cannot be written. C82_far is what happens beyond displacements of four bytes. |

## Trusted base

* Lean's kernel (4.33.0), and single modules of Mathlib, which the kernel checks too.
* The axioms `propext`, `Classical.choice`, `Quot.sound`; no other axiom, no `sorry`, no `native_decide` or `bv_decide`.  Witnesses and complete
  finite tables are computed by the kernel (`decide +kernel`).
* The faithfulness of the reading of the C and Scheme sources, which the citations in the model make checkable, and the
  simplifications listed above and at the head of each file of `Model`.
* That the statements in `Props`, with the definitions of `Spec`, say what the English properties say.
* Assumptions about the system, each a hypothesis or a definition in the model: `brk` as in Linux; a read delivers at least
  one byte unless it fails or the file ends; a write writes everything; the handler `throw` does not return.

### Axioms of each theorem

`propext` (58 theorems): C04_vector_size_false, C07_index_false, C07_not_a_vector, C11_memq_false, C12_stable, C16_string_ref_false, C16_string_ref_end_false, C17_list_to_string_false, C17_string_append_false, C17_make_string, C20_divide_false, C21_modulo_false, C29_unread_false, C29_byte_false, C32_false, C32_later, C41_strncpy_unterminated_overread, C42_strcmp_order_false, C42_memcmp_order_false, C43_strchr_false, C43_memchr_false, C43_strrchr_false, C43_strpbrk_false, C44_itoa_64_false, C44_ultoa_32_false, C44_abtol_overflow, C45_ldiv_false, C47_calloc_false, C50_terminator_false, C50_zero_minus, C50_string_short, C50_star_negative, C50_octal_minus, C50_blank_flag, C50_fprintf_false, C53_string_to_number_false, C53_default, C63_false, C63_long_false, C64_tell_false, C64_seek_false, C64_ungetc_false, C69_large, C69_mismatch, C69_no_number, C69_past_end, C72_error_false, C72_short_false, C72_false, C73_truncate_false, C73_missing_false, C73_update_false, C73_append_false, C73_false, C75_unended, C77_short_false, C79_and_unknown, C80_registers.

no axioms (7 theorems): C53_smallest, C55_immediate8_false, C76_during_false, C76_result_false, C78_once, C80_one, C80_two.

`Quot.sound`, `propext` (78 theorems): C04_allocation, C04_bytes_fit, C04_history, C07_index_partial, C10_length, C10_length_improper, C10_append_reverse, C10_append2_error, C10_reverse_x, C11_assq_false, C13_key_false, C14_name_false, C15_list_to_string, C15_string_length, C16_string_append, C17_not_truncated_partial, C21_modulo_zero, C22_ash_false, C29_open, C34_branch, C34_false_only, C38_false, C38_push_full_partial, C41_strlen, C43_memchr_partial, C43_strspn, C43_strcspn, C43_strpbrk_partial, C44_abtol_false, C45_div_zero, C47_false, C49_lseek_false, C49_error_false, C49_false, C50_text_false, C51_isxdigit_false, C51_iscntrl_false, C52_argz_extract, C52_argz_count, C53_quotient, C53_refused, C53_digits, C53_capitals, C55_modulo, C55_shift, C61_false, C61_names, C61_arities, C62_arity_false, C62_values_false, C62_first_partial, C62_two_partial, C62_many, C63_parse, C63_long_short, C64_ungetc_partial, C64_fread_false, C64_false, C69_white_false, C70_slash, C71_readdir, C71_errno_false, C75_execl_partial, C75_first, C75_many, C75_execl_false, C75_execlp_slash, C76_last, C76_partial, C76_false, C77_false, C78_add, C79_value_r0_partial, C79_add_partial, C79_add_unknown, C79_add_r0_partial, C79_cmp_unknown, C79_local.

`Classical.choice`, `Quot.sound`, `propext` (365 theorems): C01_gc_invisible_partial, C01_gc_invisible_roomy_partial, C01_vector_to_list_false, C02_gc_compacts_partial, C03_gc_in_arena_partial, C03_gc_in_arena_jam_partial, C03_gc_check_partial, C03_gc_in_arena_false, C05_schedule_partial, C05_schedule_error_partial, C05_arena_partial, C05_sound_partial, C05_is_p_false, C06_vector_ref, C06_read_stays, C06_vector_set, C06_make_vector, C06_vector_length, C08_list_to_vector, C08_vector_to_list, C08_round_trip_partial, C08_shared_false, C09_struct_ref, C09_struct_set, C09_make_struct, C09_struct_length, C10_append2, C10_append2_lists, C11_assq_partial, C11_memq_partial, C11_assoc, C12_eq, C12_equal, C12_equivalence, C13_hash_ref_partial, C13_hash_set_partial, C13_hashq_ref_partial, C13_hashq_set_partial, C13_make, C13_default_false, C13_default_list_false, C14_intern, C14_reader, C14_same_symbol, C14_symbol_to_string, C14_start, C14_symbol_false, C15_string_to_list, C15_list_round_trip, C15_string_round_trip, C16_string_equal, C16_string_ref_partial, C18_plus, C18_plus_overflow, C18_minus, C18_minus_one, C18_multiply, C18_plus_type, C19_less, C19_greater, C19_equal, C20_divide_partial, C20_divide_zero_partial, C21_modulo_partial, C21_modulo_negative_partial, C22_logand, C22_logior, C22_logxor, C22_lognot, C22_ash_partial, C23_partial, C23_int_false, C23_symbol_false, C23_circular_false, C24_decimal_partial, C24_radix_partial, C24_symbol_partial, C24_print_partial, C24_overflow_false, C24_sign_false, C25_partial, C25_last_false, C26_partial, C26_one, C26_end, C26_nil_false, C27_read_partial, C27_write, C27_partial, C27_length_false, C28_ends_partial, C28_all_partial, C28_started_partial, C28_comment_false, C28_partial, C28_return_false, C29_partial, C30_false, C30_partial, C30_expr_partial, C30_error_partial, C31_partial, C31_loop, C31_collected_partial, C32_capture, C32_return, C32_apply, C32_after_partial, C32_during_partial, C33_false, C33_partial, C33_twice_partial, C33_collected_partial, C34_if, C34_if_only, C34_test, C34_if_collected, C34_if_only_collected, C35_false, C35_partial, C35_few_partial, C35_rest_partial, C35_fixed_partial, C35_builtin_partial, C35_apply_partial, C35_spread_partial, C35_spread_count_partial, C35_call_collected_partial, C35_collected_partial, C36_false, C36_partial, C36_collected_partial, C37_call_partial, C37_lambda_partial, C37_variable_partial, C37_pairlis, C37_lambda_collected, C37_variable_collected, C37_call_collected, C38_push_pop_partial, C38_return_partial, C39_false, C39_define_partial, C39_set_partial, C39_set_unbound_partial, C39_unbound_partial, C39_value_partial, C39_set_collected, C39_unbound_collected, C40_memcpy, C40_memmove, C40_bcopy, C40_memset, C40_bzero, C41_strcpy, C41_strcat, C41_strcat_result, C41_strncpy, C41_strncat, C42_strcmp_eq, C42_strncmp_eq, C42_memcmp_eq, C42_strcmp_order_partial, C42_strcmp_signed_order, C42_memcmp_order_partial, C43_strchr_partial, C43_strrchr_partial, C43_memmem, C43_strstr, C44_itoa_32, C44_utoa_32, C44_ltoab_partial, C44_ultoa_32_partial, C44_abtol_partial, C44_abtol_hex_partial, C44_atoi_itoa_partial, C45_uldiv, C45_udiv_umod, C45_ldiv_partial, C46_false, C46_permutation, C46_partial, C47_wrap_false, C47_malloc_partial, C47_calloc_partial, C47_realloc_partial, C47_history_partial, C48_unsetenv_false, C48_overwrite_false, C48_bound_false, C48_false, C48_getenv, C48_setenv_partial, C48_unsetenv_other, C48_unsetenv_partial, C48_history_partial, C49_read_partial, C49_lseek_partial, C49_write_partial, C49_history_partial, C50_snprintf_partial, C50_fits_partial, C50_sprintf_partial, C50_fprintf_partial, C50_bounded, C50_fprintf_bounded, C51_isdigit, C51_islower, C51_isupper, C51_isalpha, C51_isalnum, C51_isspace, C51_isascii, C51_ispunct, C51_isgraph, C51_isprint, C51_tolower, C51_toupper, C51_isxdigit_partial, C51_iscntrl_partial, C53_number_to_string_partial, C53_string_to_number_partial, C53_inverse_partial, C54_filter, C54_remove, C54_find, C54_fold, C54_fold2, C54_fold_right, C54_fold_right2, C54_map, C54_map2, C54_for_each, C54_for_each2, C54_filter_map, C54_take_while, C54_any1, C54_every1, C54_list_index_partial, C54_member_partial, C54_reverse, C54_make_list, C54_list_ref, C54_list_head, C54_list_tail, C54_delete_duplicates_partial, C54_delete_duplicates_false, C54_map3, C54_map4_partial, C54_map4_false, C54_fold3, C54_fold_right3, C54_filter_map2_partial, C54_filter_map2_false, C55_bytes, C55_byte_text, C55_immediate, C55_immediate8_partial, C56_value, C56_call, C56_builtin, C56_machines, C57_form, C57_value, C57_call, C57_error, C57_only, C58_false, C58_value_partial, C59_false, C59_load_partial, C59_error_partial, C60_main_partial, C60_known_partial, C60_error_partial, C61_setup_partial, C61_run_partial, C61_error_partial, C63_calls, C63_options_partial, C63_long_partial, C64_getc, C64_all, C64_feof, C64_gets, C64_lines, C64_fread_partial, C64_seek_partial, C64_tell_partial, C65_partial, C65_wrong, C65_false, C66_mescc_partial, C66_mescc_run_partial, C66_division_wrong, C66_false, C66_or_wrong, C66_program_partial, C67_labels_partial, C67_twice, C67_false, C67_clash, C68_assembles_partial, C68_crowded, C68_false, C69_sscanf_partial, C69_inverse_partial, C70_found_partial, C70_execvp_partial, C70_unset, C70_runs_on, C70_missing_partial, C70_beyond_false, C70_current_false, C70_long_false, C70_false, C71_list, C71_error, C72_char_false, C72_fwrite, C72_blocks_partial, C72_program_partial, C73_modes_partial, C73_append_partial, C74_make_stack, C74_stack_length, C74_stack_ref, C75_execlp_partial, C77_partial, C77_same, C77_before, C78_partial, C78_wrong, C78_false, C79_value_partial, C79_value_sign, C79_value_false, C79_negative_false, C79_mesc_false, C79_value_r0_false, C79_add_false, C79_and_partial, C79_and_false, C79_cmp_partial, C79_cmp_false, C79_false, C80_partial, C80_defined, C80_missing, C80_false, C81_binary, C81_unary, C81_compare, C81_test, C81_truth, C81_div, C81_div_signed, C81_move, C81_relation, C81_shift_sign, C82_store, C82_load, C82_offset, C82_variables, C82_far.

