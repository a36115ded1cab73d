{"id": "C01", "title": "Garbage collection is invisible to the program", "statement": "After a garbage collection every value reachable from the interpreter registers, the global tables and the evaluation stack is the same object graph as before: following any access path (car, cdr, vector element, struct field, string contents, closure part, hash bucket) from any root gives a value of the same type and contents, and two paths lead to the same object afterwards exactly when they did before.", "quantifier": "every well-formed heap, every root set, every pair of access paths of any length, including cyclic and shared structure", "why_tests_cant": "A collection can happen at any allocation point and over any heap shape; a lost or duplicated cell shows only for the shapes where forwarding, sharing or multi-cell blocks interact.", "anchors": ["src/gc.c:gc_", "src/gc.c:gc_copy", "src/gc.c:gc_loop", "src/gc.c:gc_cellcpy"]}
{"id": "C02", "title": "Garbage collection reclaims everything unreachable and compacts", "statement": "After a collection the heap occupies exactly the cells of the reachable objects, packed one after the other from the start of the arena; a second collection right after it copies the same number of cells; and the amount of memory used never exceeds what was used before.", "quantifier": "every well-formed heap and root set", "why_tests_cant": "A leak of one cell in a rare shape is invisible in a finite test run but exhausts the arena of a bootstrap compiler run.", "anchors": ["src/gc.c:gc_", "src/gc.c:gc_loop", "src/gc.c:gc_copy", "src/gc.c:gc_flip"]}
{"id": "C03", "title": "Garbage collection never writes outside its arena", "statement": "A collection neither reads nor writes a cell outside the allocated arena (including the copy area above the limit), for any live heap the mutator can build without an out-of-memory abort.", "quantifier": "every heap reachable by allocation, any arena and jam size", "why_tests_cant": "Needs a live set close to the arena limit; a test with plenty of room never touches the boundary.", "anchors": ["src/gc.c:gc_", "src/gc.c:gc_copy", "src/gc.c:alloc", "src/gc.c:gc_init"]}
{"id": "C04", "title": "Allocation returns fresh cells and changes nothing else", "statement": "Each successful allocation (cons, number, char, vector, struct, string, bytes) returns a block of cells disjoint from all earlier allocated cells, leaves every earlier cell unchanged, stays inside the arena, and otherwise stops the program with an out-of-memory message.", "quantifier": "every heap state, every requested size and every allocation history", "why_tests_cant": "Overlap of two blocks only shows up through a later write to one of them.", "anchors": ["src/gc.c:alloc", "src/gc.c:cons", "src/gc.c:make_cell", "src/gc.c:make_bytes", "src/gc.c:make_string", "src/vector.c:make_vector_", "src/struct.c:make_struct"]}
{"id": "C05", "title": "The moment of garbage collection cannot influence a result", "statement": "For any sequence of list, vector and arithmetic primitives, running it with a collection inserted before any subset of the operations produces the same printed results as running it with none.", "quantifier": "every operation history and every subset of collection points", "why_tests_cant": "The schedule of collections depends on the arena size; the number of schedules is exponential.", "anchors": ["src/gc.c:gc", "src/gc.c:gc_", "src/gc.c:gc_check"]}
{"id": "C06", "title": "Vectors behave as fixed-length mutable arrays", "statement": "A vector read returns the value last stored at that index or the initial fill, a store at one index does not change any other index, any other vector or the length, for every history of make-vector, vector-set! and vector-ref inside the bounds.", "quantifier": "all lengths, all indexes, all operation histories, all element kinds (immediate-like number/char elements stored inline and other elements stored by reference)", "why_tests_cant": "Elements are stored in two different ways depending on their type; aliasing between the two needs particular histories.", "anchors": ["src/vector.c:make_vector_", "src/vector.c:vector_ref_", "src/vector.c:vector_set_x_", "src/vector.c:vector_entry", "src/vector.c:vector_length"]}
{"id": "C07", "title": "An out-of-range vector or struct index is rejected", "statement": "vector-ref, vector-set!, struct-ref and struct-set! with an index that is negative or not below the length stop with an assertion and never touch memory outside the object.", "quantifier": "all objects and all machine integers as index", "why_tests_cant": "Negative indexes and huge indexes read plausible neighbouring cells instead of failing.", "anchors": ["src/vector.c:vector_ref_", "src/vector.c:vector_set_x_", "src/struct.c:struct_ref_", "src/struct.c:struct_set_x_"]}
{"id": "C08", "title": "list->vector and vector->list are inverse", "statement": "vector->list of list->vector of a proper list has the same elements in the same order, and the vector has the length of the list; the result shares no mutable storage with the vector.", "quantifier": "all proper lists of any length with any elements", "why_tests_cant": "Element order bugs show only on some lengths; storage sharing needs a later mutation.", "anchors": ["src/vector.c:list_to_vector", "src/vector.c:vector_to_list"]}
{"id": "C09", "title": "Structs behave as records", "statement": "struct-ref after make-struct and any history of struct-set! returns the last stored value; a store changes only the named field of the named struct.", "quantifier": "all field counts, indexes and histories", "why_tests_cant": "Same representation as vectors with two hidden header fields; off-by-two errors hit only edge fields.", "anchors": ["src/struct.c:make_struct", "src/struct.c:struct_ref_", "src/struct.c:struct_set_x_", "src/struct.c:struct_length"]}
{"id": "C10", "title": "List primitives agree with mathematical sequences", "statement": "length, append2, append-reverse, reverse! compute the length, concatenation, reversed concatenation and reversal of the sequence the list denotes; append2 and append-reverse leave their first argument unchanged; length of an improper list is -1.", "quantifier": "all proper and improper lists", "why_tests_cant": "In-place reversal on shared tails, improper tails and empty lists are all different paths.", "anchors": ["src/core.c:length__", "src/core.c:append2", "src/core.c:append_reverse", "src/core.c:reverse_x_"]}
{"id": "C11", "title": "assq/memq/assoc find the first eq?/equal? entry", "statement": "assq and memq return the first entry whose key is eq? to the argument and #f when there is none; assoc does the same with equal?.", "quantifier": "all association lists, all key types", "why_tests_cant": "The code has a separate fast loop per key type; disagreement with eq? shows only for mixed-type keys.", "anchors": ["src/core.c:assq", "src/core.c:assoc", "src/lib.c:memq", "src/core.c:eq_p", "src/lib.c:equal2_p"]}
{"id": "C12", "title": "equal? is structural equality", "statement": "equal? answers #t exactly when both arguments denote the same tree of pairs, vectors, strings, keywords, numbers, chars and identical other objects; it is reflexive, symmetric and transitive.", "quantifier": "all pairs of finite acyclic values", "why_tests_cant": "Recursion over arbitrary nesting of pairs in vectors in pairs.", "anchors": ["src/lib.c:equal2_p", "src/core.c:eq_p"]}
{"id": "C13", "title": "Hash tables behave as finite maps", "statement": "hashq-ref/hash-ref return the value of the latest hashq-set!/hash-set! for that key and otherwise the default, whatever other keys were stored in between, for every history.", "quantifier": "all histories, all key sets including colliding keys, all table sizes", "why_tests_cant": "Collisions within a bucket and update of an existing key inside a shared bucket need specific key sets.", "anchors": ["src/hash.c:hashq_ref", "src/hash.c:hash_ref", "src/hash.c:hashq_set_x", "src/hash.c:hash_set_x", "src/hash.c:hash_set_x_", "src/hash.c:hash_table_p"]}
{"id": "C14", "title": "Interning: one symbol per name", "statement": "string->symbol and the reader return the same symbol object for the same name and different objects for different names, however many symbols were interned before, and symbol->string gives back the name.", "quantifier": "all interning histories and all names", "why_tests_cant": "The identity of every symbol ever created against every later one; bucket collisions.", "anchors": ["src/string.c:string_to_symbol", "src/string.c:make_symbol", "src/hash.c:hash_ref", "src/hash.c:hash_cstring", "src/string.c:symbol_to_string"]}
{"id": "C15", "title": "list->string and string->list are inverse", "statement": "string->list (list->string l) = l for every list of byte characters and list->string (string->list s) is string=? to s; string-length is the number of characters.", "quantifier": "all byte sequences up to the string size limit", "why_tests_cant": "Signedness, NUL and the fixed buffer limit matter only for particular contents and lengths.", "anchors": ["src/string.c:list_to_string", "src/string.c:string_to_list", "src/string.c:bytes_to_list", "src/string.c:list_to_cstring", "src/string.c:string_length"]}
{"id": "C16", "title": "string-append, string=? and string-ref follow the byte sequence", "statement": "string-append concatenates its arguments, string=? holds exactly for equal byte sequences, string-ref k is the k-th character and agrees with string->list.", "quantifier": "all strings and indexes", "why_tests_cant": "High bytes, embedded NULs and the boundary index.", "anchors": ["src/string.c:string_append", "src/string.c:string_equal_p", "src/string.c:string_ref"]}
{"id": "C17", "title": "Oversized strings are rejected without memory corruption", "statement": "Building a string longer than the limit (by list->string, string-append, the reader or read-string) stops with a diagnostic before any byte is written outside the buffer.", "quantifier": "all lengths around and beyond the limit", "why_tests_cant": "An off-by-one at the limit of a megabyte buffer is silent in tests.", "anchors": ["src/string.c:list_to_cstring", "src/string.c:string_append", "src/string.c:read_string", "src/reader.c:reader_read_string", "src/string.c:assert_max_string"]}
{"id": "C18", "title": "+, - and * are exact within the machine word", "statement": "The variadic +, - and * return the mathematical sum, difference and product whenever every prefix result fits a machine word.", "quantifier": "all argument lists of any length", "why_tests_cant": "Any number of arguments with any values.", "anchors": ["src/math.c:plus", "src/math.c:minus", "src/math.c:multiply"]}
{"id": "C19", "title": "Numeric comparison chains", "statement": "(< a b c ...), (> ...) and (= ...) hold exactly when each neighbouring pair is related; zero or one argument gives #t.", "quantifier": "all argument lists", "why_tests_cant": "Chained comparisons of any length.", "anchors": ["src/math.c:greater_p", "src/math.c:less_p", "src/math.c:is_p"]}
{"id": "C20", "title": "Division truncates and rejects zero", "statement": "(/ n d ...) is the quotient truncated towards zero, successively, for every sign combination, and a zero divisor is an error.", "quantifier": "all machine integers, any number of divisors", "why_tests_cant": "Sign combinations and extreme values.", "anchors": ["src/math.c:divide"]}
{"id": "C21", "title": "modulo is the floor remainder", "statement": "(modulo n m) has the sign of m, is smaller than m in magnitude and differs from n by a multiple of m, for all signs of n and m; m = 0 is an error.", "quantifier": "all pairs of machine integers", "why_tests_cant": "Sign combinations and extreme values.", "anchors": ["src/math.c:modulo"]}
{"id": "C22", "title": "Bitwise operators and shifts", "statement": "logand, logior, logxor and lognot act bit by bit on the two's-complement words; (ash n k) is n*2^k for k>=0 and floor(n/2^-k) for k<0 when it fits.", "quantifier": "all words and all argument lists", "why_tests_cant": "64-bit domain.", "anchors": ["src/math.c:logand", "src/math.c:logior", "src/math.c:logxor", "src/math.c:lognot", "src/math.c:ash"]}
{"id": "C23", "title": "What write prints, read reads back", "statement": "Reading the text printed by write for a datum built from lists (proper and improper), vectors, integers, strings, symbols, keywords, booleans and printable characters gives an equal? datum.", "quantifier": "all such data of any size and nesting", "why_tests_cant": "Printer and reader are separately hand-written; every nesting and every character matters.", "anchors": ["src/display.c:write_", "src/display.c:display_helper", "src/display.c:fdwrite_string", "src/reader.c:read_input_file_env_", "src/reader.c:reader_read_string", "src/reader.c:reader_read_hash", "src/reader.c:reader_read_list"]}
{"id": "C24", "title": "Integer literals denote their value", "statement": "The reader turns an optional sign followed by decimal digits into exactly that integer and prints it back as the canonical numeral, and anything that is not a number literal into the symbol of that name; #x, #o and #b literals are the hexadecimal, octal and binary values.", "quantifier": "all integers in range; all identifier texts", "why_tests_cant": "Infinite literal domain; the 32/64-bit boundary.", "anchors": ["src/reader.c:reader_read_identifier_or_number", "src/reader.c:reader_read_hex", "src/reader.c:reader_read_octal", "src/reader.c:reader_read_binary", "lib/mes/ntoab.c:ntoab", "src/display.c:display_helper"]}
{"id": "C25", "title": "Comments and blank space do not change what is read", "statement": "Inserting spaces, newlines, line comments, block comments or datum comments between tokens does not change the datum read.", "quantifier": "all data and all insertions at token boundaries", "why_tests_cant": "Infinite set of layouts.", "anchors": ["src/reader.c:read_input_file_env_", "src/reader.c:reader_read_line_comment", "src/reader.c:reader_read_block_comment", "src/reader.c:reader_read_list"]}
{"id": "C26", "title": "The reader consumes exactly one datum", "statement": "Reading from a port that holds the text of several data returns them one by one, in order, and then end of file; nothing is lost or read twice.", "quantifier": "all sequences of data", "why_tests_cant": "A one-character lookahead slip only shows for particular neighbours.", "anchors": ["src/reader.c:read_input_file_env_", "src/reader.c:read_input_file_env", "src/mes.c", "src/reader.c:read_env"]}
{"id": "C27", "title": "String literal escapes", "statement": "A written string literal, with its escapes for newline, tab, quote, backslash, escape and other control characters, is read back as the same bytes.", "quantifier": "all byte strings", "why_tests_cant": "All combinations of escapes.", "anchors": ["src/display.c:fdwrite_string_char", "src/display.c:fdwrite_string", "src/reader.c:reader_read_string"]}
{"id": "C28", "title": "Reader always makes progress or fails", "statement": "On any input text the reader returns, consuming at least one character per returned datum until end of file, or reports an error; it never loops forever or produces infinitely many data from finite text.", "quantifier": "all finite input texts", "why_tests_cant": "Malformed and control-character input is an infinite space.", "anchors": ["src/reader.c:read_input_file_env_", "src/reader.c:reader_read_block_comment", "src/reader.c:reader_read_identifier_or_number", "src/reader.c:reader_read_string"]}
{"id": "C29", "title": "Character input: peek and unread laws", "statement": "peek-char returns what the next read-char returns without consuming it, unread-char followed by read-char gives that character back, and the sequence of characters read from a string port or a file is its content.", "quantifier": "all port contents and interleavings of read-char, peek-char and unread-char", "why_tests_cant": "All interleavings; all byte values.", "anchors": ["src/posix.c:peek_byte", "src/posix.c:read_byte", "src/posix.c:unread_byte", "src/posix.c:readchar", "src/posix.c:unreadchar", "lib/mes/fdgetc.c:fdgetc", "lib/mes/fdungetc.c:fdungetc"]}
{"id": "C30", "title": "Evaluation computes the meaning of the program", "statement": "Evaluating a terminating expression of the core language (literals, quote, variables, if, begin, lambda, application, define, set!) gives the value the standard call-by-value semantics assigns to it, and leaves the evaluation stack as it was.", "quantifier": "all expressions of the core language, all environments, all nesting depths", "why_tests_cant": "Infinite program space; the evaluator is a hand-written abstract machine with explicit stack and shared C variables.", "anchors": ["src/eval-apply.c:eval_apply", "src/eval-apply.c:push_cc", "src/gc.c:gc_push_frame", "src/gc.c:gc_pop_frame"]}
{"id": "C31", "title": "Tail calls run in constant stack space", "statement": "A call in tail position (body end of lambda/begin, branch of if) leaves no frame on the evaluation stack, so a loop of any number of tail calls needs no more stack than one iteration.", "quantifier": "all programs consisting of tail calls, any iteration count", "why_tests_cant": "Unbounded iteration count.", "anchors": ["src/eval-apply.c:eval_apply", "src/gc.c:gc_push_frame"]}
{"id": "C32", "title": "Continuations restore the captured control state", "statement": "Applying a continuation captured by call/cc to a value resumes with that value as the result of the call/cc expression, whether it is applied during or after the call.", "quantifier": "all programs, capture points and invocation points", "why_tests_cant": "All relative positions of capture and invocation.", "anchors": ["src/eval-apply.c:eval_apply", "src/gc.c:gc_pop_frame"]}
{"id": "C33", "title": "Operator and operands are evaluated exactly once, left to right", "statement": "In a procedure application each operand expression is evaluated exactly once, from left to right, and the operator expression is evaluated exactly once.", "quantifier": "all applications with any number of operands", "why_tests_cant": "Double evaluation is visible only with side effects in operator position.", "anchors": ["src/eval-apply.c:eval_apply"]}
{"id": "C34", "title": "Only #f is false", "statement": "if evaluates its test, then exactly one of its branches: the alternative when the test is #f and the consequent for every other value, including the empty list and 0.", "quantifier": "all test values and branches", "why_tests_cant": "All values.", "anchors": ["src/eval-apply.c:eval_apply"]}
{"id": "C35", "title": "Procedures check their argument count", "statement": "Applying a lambda with fixed parameters to the wrong number of arguments raises wrong-number-of-args; a rest parameter takes exactly the remaining arguments.", "quantifier": "all parameter lists and argument lists", "why_tests_cant": "All combinations of lengths.", "anchors": ["src/eval-apply.c:check_formals", "src/eval-apply.c:pairlis", "src/eval-apply.c:check_apply"]}
{"id": "C36", "title": "Applying a non-procedure is an error", "statement": "Applying a number, string, character, boolean, empty list, symbol or unspecified value raises wrong-type-arg and never runs anything.", "quantifier": "all non-procedure values and operands", "why_tests_cant": "All value types.", "anchors": ["src/eval-apply.c:check_apply"]}
{"id": "C37", "title": "Lexical scope", "statement": "A variable reference denotes the innermost enclosing binding at the place where the lambda was written, not at the place it is called; pairlis bindings shadow outer ones and leave them intact.", "quantifier": "all environments and nestings", "why_tests_cant": "Infinite nesting.", "anchors": ["src/eval-apply.c:pairlis", "src/eval-apply.c:make_closure_", "src/core.c:assq", "src/eval-apply.c:expand_variable"]}
{"id": "C38", "title": "The evaluation stack never overruns", "statement": "Pushing a frame on a full stack stops with a STACK FULL diagnostic, popping an empty one is rejected, and push then pop restores all registers exactly.", "quantifier": "all stack depths and register contents", "why_tests_cant": "Depth limit is large; all register contents.", "anchors": ["src/gc.c:gc_push_frame", "src/gc.c:gc_peek_frame", "src/gc.c:gc_pop_frame"]}
{"id": "C39", "title": "define binds and set! updates the visible variable", "statement": "After define the global variable has the given value until redefined; set! changes the innermost visible binding only, and is an error for an unbound variable.", "quantifier": "all programs made of define, set! and references", "why_tests_cant": "Nested defines inside evaluated right-hand sides.", "anchors": ["src/eval-apply.c:eval_apply", "src/eval-apply.c:set_env_x", "src/module.c:module_define_x", "src/module.c:module_variable"]}
{"id": "C40", "title": "memcpy, memmove and memset", "statement": "memcpy (disjoint) and memmove (any overlap) make the destination range equal to the previous source range, memset fills the range; no byte outside the destination changes; the destination is returned.", "quantifier": "all memories, addresses, sizes and overlaps", "why_tests_cant": "All overlap configurations.", "anchors": ["lib/string/memcpy.c", "lib/string/memmove.c", "lib/string/memset.c", "lib/string/__memcpy.c", "lib/string/__memmove.c", "lib/string/__memset.c", "lib/string/bcopy.c", "lib/string/bzero.c"]}
{"id": "C41", "title": "String copying functions", "statement": "strlen returns the index of the first NUL; strcpy, strcat, strncpy and strncat produce exactly the specified destination bytes, change nothing outside them, and never read past the source terminator.", "quantifier": "all memories and placements", "why_tests_cant": "All lengths, all paddings.", "anchors": ["lib/string/strlen.c", "lib/string/strcpy.c", "lib/string/strcat.c", "lib/string/strncpy.c", "lib/string/strncat.c"]}
{"id": "C42", "title": "String and memory comparison", "statement": "strcmp, strncmp and memcmp return zero exactly for equal (prefix) sequences, and otherwise a value whose sign is that of the first differing byte pair compared as unsigned chars.", "quantifier": "all byte sequences", "why_tests_cant": "High-bit bytes.", "anchors": ["lib/string/strcmp.c", "lib/string/strncmp.c", "lib/string/memcmp.c"]}
{"id": "C43", "title": "String search functions", "statement": "strchr/index/memchr return the first and strrchr/rindex the last occurrence or NULL; strspn/strcspn the length of the longest prefix inside/outside the set; strpbrk the first member or NULL; memmem/strstr the first occurrence of the needle or NULL.", "quantifier": "all haystacks and needles", "why_tests_cant": "Infinite pattern space; needle overlapping itself, empty needles, NUL searches.", "anchors": ["lib/string/strchr.c", "lib/string/strrchr.c", "lib/string/memchr.c", "lib/string/strspn.c", "lib/string/strcspn.c", "lib/string/strpbrk.c", "lib/string/memmem.c", "lib/string/strstr.c"]}
{"id": "C44", "title": "Number formatting and parsing are inverse", "statement": "The text ntoab/itoa/ltoab produces for an integer in a base is its canonical numeral, and abtol/strtol/atoi read that text back as the same integer.", "quantifier": "all machine integers and all bases 2..36", "why_tests_cant": "All values, in particular the extremes and values needing many digits.", "anchors": ["lib/mes/ntoab.c:ntoab", "lib/mes/itoa.c", "lib/mes/ltoab.c", "lib/mes/abtol.c:abtol", "lib/stdlib/strtol.c", "lib/stdlib/atoi.c"]}
{"id": "C45", "title": "Software division is correct", "statement": "__mesabi_uldiv returns the quotient and stores the remainder with q*d + r = n and r < d; __mesabi_ldiv truncates towards zero with the remainder taking the sign of the dividend; the (un)signed /, % entry points agree; division by zero aborts.", "quantifier": "all dividends and non-zero divisors of the machine word", "why_tests_cant": "2^64 pairs at 32 bits; shift/subtract boundary at the top bit.", "anchors": ["lib/mes/div.c:__mesabi_uldiv", "lib/mes/div.c:__mesabi_ldiv", "lib/mes/div.c:__mesabi_imod"]}
{"id": "C46", "title": "qsort sorts", "statement": "qsort leaves the array a permutation of its previous contents, ordered by the comparison function, for every consistent total order, and always terminates.", "quantifier": "all arrays, element sizes and comparison functions", "why_tests_cant": "All permutations with duplicates.", "anchors": ["lib/stdlib/qsort.c"]}
{"id": "C47", "title": "malloc returns disjoint aligned blocks", "statement": "Blocks returned by successive malloc/calloc/realloc calls do not overlap one another, are suitably aligned, lie below the program break, calloc blocks are zero, and realloc keeps the old contents.", "quantifier": "all request sequences", "why_tests_cant": "All histories.", "anchors": ["lib/linux/malloc.c", "lib/stdlib/calloc.c", "lib/stdlib/realloc.c", "lib/stdlib/free.c"]}
{"id": "C48", "title": "The environment functions implement a map", "statement": "After setenv(k,v) getenv(k) is v and other variables are unchanged (an existing one is replaced only when overwrite is non-zero); after unsetenv(k) getenv(k) is NULL and all other variables are still there.", "quantifier": "all environments and histories", "why_tests_cant": "Prefix-related names, position of the entry.", "anchors": ["lib/posix/getenv.c", "lib/posix/setenv.c", "lib/posix/unsetenv.c"]}
{"id": "C49", "title": "Buffered reading delivers the file unchanged", "statement": "The concatenation of the bytes returned by successive reads through the buffer equals the file contents, for any request sizes and any sizes in which the system delivers data, and the reported file position is consistent.", "quantifier": "all files, all request sequences, all chunkings by the system call", "why_tests_cant": "All interleavings of request sizes and short reads.", "anchors": ["lib/mes/__buffered_read.c", "lib/posix/buffered-read.c", "lib/mes/fdgetc.c", "lib/linux/lseek.c", "lib/linux/read.c"]}
{"id": "C50", "title": "printf family respects format and buffer size", "statement": "snprintf writes at most size bytes including the terminator, always terminates when size > 0, and the text is the formatting of the arguments; printf returns the number of characters written.", "quantifier": "all formats, arguments and buffer sizes", "why_tests_cant": "Boundary of the buffer size against the output length.", "anchors": ["lib/stdio/vsnprintf.c", "lib/stdio/vfprintf.c", "lib/stdio/vsprintf.c", "lib/stdio/snprintf.c"]}
{"id": "C51", "title": "Character classes", "statement": "isdigit, isalpha, islower, isupper, isspace, isxdigit, iscntrl, isprint, ispunct, isalnum, isascii, tolower and toupper agree with the C-locale tables of ISO C.", "quantifier": "all 256 character values", "why_tests_cant": "Finite but exhaustive table; usually sampled.", "anchors": ["lib/ctype/isalnum.c", "lib/ctype/isalpha.c", "lib/ctype/isascii.c", "lib/ctype/iscntrl.c", "lib/ctype/isdigit.c", "lib/ctype/islower.c", "lib/ctype/isnumber.c", "lib/ctype/isprint.c", "lib/ctype/ispunct.c", "lib/ctype/isspace.c", "lib/ctype/isupper.c", "lib/ctype/isxdigit.c", "lib/ctype/tolower.c", "lib/ctype/toupper.c"]}
{"id": "C52", "title": "argz vectors", "statement": "argz_count returns the number of NUL-terminated strings in the buffer and argz_extract stores a pointer to each of them in order followed by NULL.", "quantifier": "all argz buffers", "why_tests_cant": "Empty strings inside, empty buffers.", "anchors": ["lib/string/argz-count.c", "lib/string/argz-extract.c"]}
{"id": "C53", "title": "number->string and string->number are inverse", "statement": "The Scheme number->string gives the canonical numeral of the number in the given radix and string->number reads it back.", "quantifier": "all integers and radixes", "why_tests_cant": "Infinite domain.", "anchors": ["mes/module/mes/scm.mes:number->string", "src/string.c", "mes/module/mes/scm.mes:string->number"]}
{"id": "C54", "title": "SRFI-1 list library", "statement": "fold, fold-right, filter, delete, remove, last, append-map, filter-map, reverse, take/drop style functions compute the sequences their specification gives.", "quantifier": "all lists and procedures", "why_tests_cant": "Infinite domain, higher-order arguments.", "anchors": ["mes/module/srfi/srfi-1.mes", "mes/module/mes/scm.mes", "mes/module/mes/base.mes"]}
{"id": "C55", "title": "Compiler emits integers in little-endian two's complement", "statement": "int->bv8/16/32/64 produce the little-endian two's complement bytes of the integer, and the M1 text for a value denotes these bytes.", "quantifier": "all integers in range", "why_tests_cant": "Sign and byte boundaries.", "anchors": ["module/mescc/bytevectors.scm", "module/mescc/M1.scm"]}
{"id": "C56", "title": "Evaluation is deterministic", "statement": "An expression has at most one value and leaves at most one store, whatever the size of the stack; machines that hold the same expression, variables and store, wherever in memory, give the same value and no other outcome.", "quantifier": "all expressions, variables, stores and memories", "why_tests_cant": "A test runs one memory layout; dependence on addresses, on free memory or on the depth of the stack shows only elsewhere.", "anchors": ["src/eval-apply.c:eval_apply", "src/builtins.c"]}
{"id": "C57", "title": "Evaluation survives garbage collections", "statement": "Evaluating an expression, a top level form or a procedure call in a memory of any size, with the collections that gc_check makes inside eval_apply whenever it is due, gives the value, the store and the error of the semantics, up to the addresses of objects; the only other outcome is that the memory or the stack is exhausted. The memory it leaves is sound again.", "quantifier": "all programs of the core language, all sound memories of any arena and stack size, all moments of collection that follow from them", "why_tests_cant": "Whether a collection happens between two given steps depends on the number of free cells; a register or a stack slot that is not updated, or a C local kept over a collection, shows only when a collection falls on that step.", "anchors": ["src/eval-apply.c:eval_apply", "src/gc.c:gc_check", "src/gc.c:gc", "src/stack.c"]}
{"id": "C58", "title": "Expanding variables does not change the meaning of a program", "statement": "expand_variable, applied to a top level form, replaces occurrences of global variables by direct references to their bindings, in the pairs of the form itself; evaluating the form afterwards gives the same value, and leaves the same variables, as evaluating it before.", "quantifier": "all top level forms of the core language of any size and nesting, all memories and stores", "why_tests_cant": "A name must be expanded exactly where it is not a parameter of an enclosing procedure and not quoted; a wrong decision shows only for a particular combination of scopes and global names, or when two parts of a program share a pair.", "anchors": ["src/eval-apply.c:expand_variable", "src/eval-apply.c:expand_variable_", "src/eval-apply.c:add_formals", "src/eval-apply.c:formal_p"]}
{"id": "C59", "title": "Loading a program evaluates its forms in order", "statement": "begin_expand looks for macros in each top level form, expands its variables and evaluates it, one form after the other, with the variables that the forms before it left; a (begin ...) at top level is replaced by its forms; the result is the value of the last form.", "quantifier": "all programs of any number and size of forms, all stores and memories", "why_tests_cant": "Forms are rewritten in place while the program is being loaded, and definitions change what later forms mean; a form that is skipped, repeated or evaluated with stale bindings shows only for particular sequences of forms.", "anchors": ["src/eval-apply.c:eval_apply", "src/eval-apply.c:macro_expand", "src/eval-apply.c:expand_variable"]}
{"id": "C60", "title": "Running a program text evaluates the forms it stands for", "statement": "main reads the text of the program from the input to its end, calls eval_apply with the list of forms, and the result is the value of the last form, with the variables as the forms leave them in order: comments, blanks and the way data are written do not matter.", "quantifier": "all program texts of any length, all stores and memories", "why_tests_cant": "It joins reader, interning, macro search, variable expansion and evaluation, which share the symbol table, the list of cells and the registers; a form that is lost at the end of the input, or a symbol that is created twice, shows only for particular texts.", "anchors": ["src/mes.c:main", "src/reader.c:read_input_file_env_", "src/mes.c:read_boot", "src/eval-apply.c:eval_apply"]}
{"id": "C61", "title": "main starts a program with its symbols and variables, and then evaluates its text", "statement": "Before it reads the program, main makes the symbol table with the predefined symbols, and variables for all builtins (with their arities), the numbers of the types, the clock, the version, directories, machine and the command line, and no others, whatever memory holds before; from there, what the text of a program stands for is the result of eval_apply.", "quantifier": "all contents of uninitialised memory, all sizes of memory that suffice, all command lines, all program texts of any length", "why_tests_cant": "A run starts with one content of memory, one size and one command line; a missing entry, a wrong arity or a cell that is used before it is set shows only for particular programs or memories.", "anchors": ["src/mes.c:main", "src/symbol.c:init_symbols_", "src/symbol.c:init_symbols", "src/builtins.c:mes_builtins", "src/module.c:make_initial_module", "src/mes.c:init", "src/posix.c:init_time"]}
{"id": "C62", "title": "apply_builtin calls the C function with the arguments", "statement": "apply_builtin calls the C function of a builtin with as many arguments as it has parameters, or with the list of all arguments when its arity is -1; an argument that is a multiple values object counts as its first value; nothing that existed is changed.", "quantifier": "all builtins of all arities, all lists of arguments, all memories", "why_tests_cant": "The arguments are rearranged depending on the arity and on which of them are multiple values; tests that pass multiple values to builtins in each position and arity are not written.", "anchors": ["src/eval-apply.c:apply_builtin", "src/cc.c:apply_builtin1", "src/cc.c:apply_builtin2", "src/cc.c:apply_builtin3", "src/core.c:values"]}
{"id": "C63", "title": "getopt finds the options of a command line", "statement": "A program that calls getopt until it returns EOF is told the options of its command line as POSIX defines them, in their order and with their arguments, and optind is then the index of the first operand. getopt_long selects the long option whose name is given, or the only one whose name begins with the given text, with its argument; otherwise the result is '?'. An argument -- ends the options. (The last part does not hold: -- is taken for an option; it selects the only long option of a program that has one.)", "quantifier": "all memories, all numbers and contents of arguments, all option strings of ASCII letters, all lists of long options, all numbers of calls", "why_tests_cant": "the set of command lines and option strings is infinite, and the state between the calls (nextchar, optind) must be right after every prefix of calls", "anchors": ["lib/posix/getopt.c: _getopt_internal, getopt, getopt_long", "include/getopt.h: struct option"]}
{"id": "C64", "title": "Input streams give the bytes of the file", "statement": "fgetc gives the bytes of a file one after the other as numbers from 0 to 255 and then EOF; a character that was pushed back comes first; fgets gives the lines, each as far as its buffer allows, with a NUL; fread gives the following bytes and the number of whole items; feof is true at the end only; fseek and ftell set and give the position. (Not so: fread reads only once and may give fewer items before the end of the file; fseek keeps a character that was pushed back and ftell does not count it; after feof the program cannot push back the character it has read.)", "quantifier": "all file contents, all ways the system divides them into pieces, all buffer sizes, all numbers of calls", "why_tests_cant": "Tests read small regular files that the system delivers in one piece; the faults need short reads or a particular order of calls.", "anchors": ["lib/stdio/fgetc.c:fgetc", "lib/stdio/ungetc.c:ungetc", "lib/mes/fdgetc.c:fdgetc", "lib/mes/fdungetc.c:fdungetc", "lib/stdio/fgets.c:fgets", "lib/stdio/fread.c:fread", "lib/stdio/feof.c:feof", "lib/stdio/fseek.c:fseek", "lib/stdio/ftell.c:ftell"]}
{"id": "C65", "title": "The definitions of x86.M1 are the instructions their mnemonics name", "statement": "For every DEFINE of lib/x86-mes/x86.M1, the bytes, followed by the displacement and the constant that the mnemonic announces, are decoded by an IA-32 processor as exactly the instruction that the mnemonic names in the notation of AT&T, with these operands, and nothing that follows is taken for a part of it. (It does not hold for eight of the 197 definitions.)", "quantifier": "all definitions of the file, all displacements and constants, all bytes that follow", "why_tests_cant": "The test programs use few of the mnemonics, with few operands; a wrong length or operand shows only when that mnemonic is emitted.", "anchors": ["lib/x86-mes/x86.M1"]}
{"id": "C66", "title": "Functions compiled by MesCC compute what C says", "statement": "When a call of a C function has a value by the rules of C, the i386 machine that starts at the text which MesCC emits for the function, assembled with x86.M1, comes back to its caller with this value in %eax, with %esp and %ebp as the calling convention demands, and has written to its own part of the stack only. (Not so for -2 / 2u and 2 || 0; it holds for signed types, comparisons, conditions and loops as far as said in the theorem.)", "quantifier": "all functions of the modelled part of C (expressions of any depth, any nesting of statements, any number of variables up to the size of the frame), all arguments, all numbers of iterations, all addresses of code and stack", "why_tests_cant": "The set of programs is infinite, and the faults need an operator at a particular depth of an expression or operands of particular types and signs.", "anchors": ["module/mescc/compile.scm: expr->register, test-jump-label->info, ast->info, fctn-defn->info", "module/mescc/as.scm", "module/mescc/i386/as.scm", "lib/x86-mes/x86.M1"]}
{"id": "C67", "title": "The labels of a compiled program are unique and every jump has its label", "statement": "In the text that MesCC writes for a program, no two labels are the same, neither within a function nor of two functions, and none is the name of a function; every jump of the text goes to a label of the text if break and continue are inside of loops. (Not so when the condition of an if or a ?: begins with a ?:, or when a function is called _f_N_break.)", "quantifier": "all programs of functions with different names, all expressions and statements of the modelled part of C at any depth", "why_tests_cant": "Label names are made from the length of the text so far; two of them meet only for particular programs, and the assembler silently takes one of the two.", "anchors": ["module/mescc/compile.scm: expr->register, test-jump-label->info, ast->info", "module/mescc/M1.scm: write-function"]}
{"id": "C68", "title": "The assembler knows every mnemonic that MesCC writes", "statement": "The text of every program consists of labels and of mnemonics that are defined in lib/x86-mes/x86.M1, so it can be assembled, wherever it is put. (Not so for a char or short with an initial value beyond the reach of an 8-bit displacement: mov____%al,0x32(%ebp) is not defined.)", "quantifier": "all programs of the modelled part of C, all addresses", "why_tests_cant": "Mnemonics are put together from pieces at run time; a missing one shows only when a program needs that register, width and distance together.", "anchors": ["module/mescc/i386/as.scm", "module/mescc/compile.scm: r->local+n-text", "lib/x86-mes/x86.M1"]}
{"id": "C69", "title": "sscanf stores the values of a matching text, and reads back what snprintf writes", "statement": "If the text matches the template (ordinary characters, white space, %d %i %u %c %%), sscanf stores each value in its place, changes no other byte and returns the number of values; with the format of snprintf it gives back the arguments of snprintf. (Not so in general: white space in the template takes exactly one character of any kind, INT_MAX is undefined, a mismatch or an absent number is not noticed, and an unsupported conversion runs past the end of the template.)", "quantifier": "all templates of these pieces, all texts that match them, all places and memories", "why_tests_cant": "Templates, texts and places in memory are unbounded, and an error in counting or advancing shows only for some order of pieces.", "anchors": ["lib/stdio/vsscanf.c: vsscanf", "lib/stdio/sscanf.c: sscanf", "lib/mes/abtol.c: abtol"]}
{"id": "C70", "title": "execvp runs the first executable file in the directories of PATH", "statement": "A name with a slash is used as it is. A name without a slash is looked up in the directories of PATH in their order: execve gets the first one that is executable, and nothing but the buffer of search_path changes. (Not so in general: if no directory has the program, the search runs past the end of PATH into the following environment string; an empty directory means the root instead of the current directory; names of 256 bytes and more overflow the buffer; without PATH a null pointer is read.)", "quantifier": "all environments, lists of directories, names, sets of executable files and memories", "why_tests_cant": "Which file is found depends on the file system, the environment and what lies behind PATH in memory; the search beyond PATH shows only when the program is missing and the next environment string happens to look like a directory.", "anchors": ["lib/mes/search-path.c: search_path", "lib/posix/execvp.c: execvp", "lib/posix/getenv.c: getenv"]}
{"id": "C71", "title": "readdir gives every file of a directory once, in order", "statement": "However the kernel cuts a directory into blocks, each call of readdir returns a pointer to the next entry that is not deleted, with the bytes of that entry behind the pointer; at the end it returns a null pointer and leaves errno as it was; when reading fails it returns a null pointer and errno is the error. A program that calls it until the null pointer gets the names of all files, each once and in order. (On other calls errno may be set to 0.)", "quantifier": "all directories, names, deleted entries, divisions into blocks, sizes of the buffer and both sizes of long", "why_tests_cant": "How entries fall into blocks depends on the file system; a deleted entry at the end of a block or a block of deleted entries only is rare.", "anchors": ["lib/dirent/readdir.c: readdir", "lib/dirent/opendir.c: opendir", "lib/linux/getdents.c: getdents", "include/dirent.h: struct dirent"]}
{"id": "C72", "title": "Output functions write what they are given, and say so when they cannot", "statement": "fputc, fputs, puts and fwrite write their bytes at the position of the file, over what is there or at its end, also after reading ahead; the value they return is that of success in ISO C exactly when all bytes are in the file. (fwrite does; the others ignore errors and short writes, and fputc never returns the character.)", "quantifier": "all texts, blocks, element sizes and counts, contents and positions of files, states of the read buffer, sequences of calls, and behaviours of the kernel (errors, short writes)", "why_tests_cant": "Errors and short writes hardly ever happen in tests; the number of sequences of reads and writes is unbounded.", "anchors": ["lib/stdio/fputc.c: fputc", "lib/stdio/fputs.c: fputs", "lib/stdio/fwrite.c: fwrite", "lib/stdlib/puts.c: puts", "lib/mes/fdputc.c: fdputc", "lib/mes/fdputs.c: fdputs", "lib/mes/oputs.c: oputs", "lib/posix/write.c: write"]}
{"id": "C73", "title": "fopen opens the file as the mode says", "statement": "For each mode of ISO C (r, w, a, with b and + in either order) and each file, existing or not, fopen opens or creates the file with the contents kept or removed, readable, writable and appending as the mode says, or fails. (False for w+, which keeps the contents, r+ without a file, r+b and rb+, which do not allow to write, and a on a new file, which does not append.)", "quantifier": "all modes of ISO C, all files and contents, all places of the mode in memory", "why_tests_cant": "The contents of files are unbounded; tests open files in the usual modes only.", "anchors": ["lib/stdio/fopen.c: fopen", "include/fcntl.h: O_RDONLY"]}
{"id": "C74", "title": "Backtraces show the procedures that are being called", "statement": "make-stack gives a stack with as many frames as the evaluator has pushed. Frame 0 shows #f; the others show the procedures of the frames of the evaluator, the oldest first, without the newest one, which belongs to the call of make-stack. stack-length gives their number, and stack-ref each of them for its index. The stack of the evaluator and all data stay as they are.", "quantifier": "all states of the memory, all depths of the stack of the evaluator, all procedures on it", "why_tests_cant": "The index arithmetic has to be right for every depth; tests of backtraces look at a few calls.", "anchors": ["src/stack.c: make_stack", "src/stack.c: make_frame", "src/stack.c: stack_length", "src/stack.c: stack_ref", "include/mes/constants.h: GC_FRAME_PROCEDURE"]}
{"id": "C75", "title": "execl and execlp give a new program its arguments", "statement": "For every memory, name of a file and list of arguments arg0 to argn followed by a null pointer, execl runs the file with the arguments arg0 to argn; execlp does the same with the program that is found in the directories of PATH.", "quantifier": "all memories, names, environments, lists of arguments of every length, and whatever follows the null pointer", "why_tests_cant": "The number and the texts of the arguments are unbounded. The test of execlp uses echo, which does not print its first argument, so that it cannot see that this argument is replaced.", "anchors": ["lib/posix/execl.c: vexec, execl", "lib/posix/execlp.c: execlp", "lib/mes/search-path.c: search_path"]}
{"id": "C76", "title": "exit calls the functions registered with atexit", "statement": "For every sequence of registrations, exit calls every registered function, the last one first, also the functions that are registered meanwhile, and then ends the process with the given code; atexit gives 0.", "quantifier": "all sequences of registrations, all behaviours of the registered functions in registering others, all codes", "why_tests_cant": "The sequences are unbounded, and a test that registers one function cannot show that the others are lost.", "anchors": ["lib/stdlib/atexit.c: atexit", "lib/stdlib/exit.c: exit, __call_at_exit"]}
{"id": "C77", "title": "mktemp makes a name that is not taken", "statement": "For every template that ends in six characters that may be replaced, mktemp replaces them by letters so that no file has the name, leaves the rest of the memory as it is and returns the template; a template that is too short is left as it is.", "quantifier": "all memories, templates of every length, addresses, and all sets of names that are taken", "why_tests_cant": "The letters depend on the address of the template: whether a name is taken again depends on where the caller keeps it, which no test of one program covers.", "anchors": ["lib/posix/mktemp.c: mktemp"]}
{"id": "C78", "title": "The definitions of x86_64.M1 are the instructions their mnemonics name", "statement": "For every definition of lib/x86_64-mes/x86_64.M1 and all bytes that follow, the bytes of the definition, the displacement and the constant that the mnemonic announces are one instruction of the processor, the one that the mnemonic names, with operands of the width that it names.", "quantifier": "all 212 definitions, all displacements and constants, and whatever bytes follow", "why_tests_cant": "A wrong width shows only if the upper half of a value in memory changes; a wrong definition that the tests of the compiler do not reach shows nowhere; the processor runs wrong bytes without complaint.", "anchors": ["lib/x86_64-mes/x86_64.M1"]}
{"id": "C79", "title": "Constants in the code that MesCC writes for x86_64", "statement": "For every constant of 64 bits, the lines that MesCC writes for x86_64 to load a constant into a register, to add it, to form the conjunction or to compare with it, and to get the address of a local variable, can be assembled, and the processor does with the constant what C says, changing no other register but the scratch register.", "quantifier": "all constants from -2^63 to 2^64 - 1, both registers, all contents of the registers, all numbers of local variables", "why_tests_cant": "There are 2^64 constants with several encodings; the boundaries between them (0x7f, 0x7fffffff, 0xfffffffe, -0x100000000) are where the code is wrong, and tests use small constants.", "anchors": ["module/mescc/x86_64/as.scm: x86_64:value->r, x86_64:value->r0, x86_64:r+value, x86_64:r0+value, x86_64:r-and, x86_64:r-cmp-value, x86_64:local-ptr->r", "module/mescc/M1.scm: hex2:immediate, hex2:immediate1, hex2:immediate8", "lib/x86_64-mes/x86_64.M1"]}
{"id": "C80", "title": "The x86_64 back end writes mnemonics that the assembler knows", "statement": "Whatever sequence of allocations, releases and calls MesCC has made, at most the registers rax and rdi are allocated, in this order, and each line of each function of x86_64:instructions has, for every constant and every local variable, a mnemonic that lib/x86_64-mes/x86_64.M1 defines. This is false for nineteen mnemonics (among them storing a byte in a global variable, storing a byte or a word in a local variable from rdi, adding to a global variable, comparing rdi with a constant that needs 32 bits, masking rax with a constant, and copying a byte or a word from memory to memory), each of which is written for some registers and is not defined; it is true for all others, and these are the instructions they name except for those of C78.", "quantifier": "all sequences of allocate-register, free-register and calls, all functions of x86_64:instructions except push-register and pop-register, and all integers as constants and offsets", "why_tests_cant": "A mnemonic depends on which registers are allocated and on the size of a constant; a missing definition shows only when a program is compiled that needs exactly that combination.", "anchors": ["module/mescc/x86_64/as.scm: x86_64:instructions", "module/mescc/as.scm: get-r, get-r0, get-r1", "module/mescc/compile.scm: allocate-register, free-register, max-registers", "lib/x86_64-mes/x86_64.M1"]}
{"id": "C81", "title": "What the x86_64 back end does with registers", "statement": "Whatever registers MesCC has allocated, the lines of its x86_64 functions on registers can be assembled, and the processor running their bytes does the following for all contents of the registers. With two registers allocated, r0+r1, r0-r1, r0-and-r1, r0-or-r1, r0-xor-r1, r0*r1, r0<<r1, r0>>r1 and r1->r0 leave the result modulo 2^64 in rax, shifts taking the count modulo 64 and r0>>r1 being the shift without sign also for negative numbers; r0/r1 and r0%r1 leave quotient and remainder, without sign or with sign towards 0, if the divisor is not 0 and the quotient fits; r0->r1 and swap-r0-r1 move. With any number allocated, not-r, r+r and the extensions of a byte, a word and a long, with and without sign, act on the current register; r-zero? and test-r compare it with 0; and each of the ten conditions a, ae, b, be, g, ge, l, le, zf->r and r-negate makes it 1 or 0 according to the last comparison. So r0-r1, releasing a register, and a condition give the value of a C comparison. No other register changes, except rcx in shifts and rdx in multiplication, division and remainder, which MesCC never allocates.", "quantifier": "all reachable allocations of registers, all 64-bit contents of all registers, both values of the compiler flag of M1.scm", "why_tests_cant": "The results are for all pairs of 64-bit numbers, and tests of compiled programs see a register that is changed by mistake only if the program uses it later.", "anchors": ["module/mescc/x86_64/as.scm: x86_64:r0+r1, x86_64:r0-r1, x86_64:r0*r1, x86_64:r0/r1, x86_64:r0%r1, x86_64:r0<<r1, x86_64:r0>>r1, x86_64:byte-signed-r, x86_64:zf->r, x86_64:g?->r", "lib/x86_64-mes/x86_64.M1", "module/mescc/compile.scm: allocate-register, free-register"]}
{"id": "C82", "title": "Local variables in the code that MesCC writes for x86_64", "statement": "For every local variable whose displacement from the frame pointer fits into four bytes, and with rax or rdi as the current register, r->local assembles to one instruction that puts the register into the eight bytes at rbp - 8 * id and changes no other byte of memory and no register; local->r assembles to one that loads the register from there and changes nothing else; r->local+n stores n bytes further. So a variable that was stored is loaded again, and storing one variable leaves every other as it was. Beyond four bytes the store goes to another address, without an error.", "quantifier": "all variables and offsets in range, both registers, all contents of registers and memory", "why_tests_cant": "The form of the instruction changes at a displacement of 128 bytes, where a wrong sign or width would hit another variable; tests use few variables and few values.", "anchors": ["module/mescc/x86_64/as.scm: x86_64:r->local, x86_64:local->r, x86_64:r->local+n", "lib/x86_64-mes/x86_64.M1", "module/mescc/M1.scm: hex2:immediate, hex2:immediate1"]}
