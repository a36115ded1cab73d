{
 "C40": {
  "status": "proved",
  "note": "memcpy, memmove, memset, bcopy, bzero for all memories, sizes and overlaps."
 },
 "C41": {
  "status": "proved",
  "note": "strlen, strcpy, strcat, strncpy, strncat for all strings and placements; strings up to INT_MAX where the code counts in int. One finding: strncpy reads one byte beyond an unterminated source array."
 },
 "C42": {
  "status": "partial",
  "note": "Zero iff equal is proved for all bytes. The unsigned order is false (signed char difference): negations with witnesses, and order theorems for 7-bit data."
 },
 "C43": {
  "status": "partial",
  "note": "strspn, strcspn, memmem, strstr proved in full. strchr/memchr fail for characters >= 128 passed as unsigned value, strrchr for NUL in the empty string, strpbrk when there is no match: negations with witnesses plus partial theorems for the rest."
 },
 "C52": {
  "status": "proved",
  "note": "argz_extract and argz_count for all well-formed argz vectors, including empty strings."
 },
 "C44": {
  "status": "partial",
  "note": "itoa/utoa with a 32-bit long proved for every number. With a 64-bit long numbers of twelve or more characters are written before the buffer; ultoa prints the upper half as negative; abtol (atoi, strtol) misreads decimal digits after a letter and overflows int for the largest 48 decimal values: negations with witnesses, and partial theorems with the exact range where formatting, parsing and the round trip are right."
 },
 "C45": {
  "status": "partial",
  "note": "Unsigned software division proved for all 32- and 64-bit operands; signed division proved for every dividend (including LONG_MIN) and every divisor except LONG_MIN, for which the code stops the program: negation with witness."
 },
 "C51": {
  "status": "partial",
  "note": "All classifications and case maps proved for every int argument, except isxdigit (upper-case A-F missing) and iscntrl (DEL missing): negations with witnesses and partial theorems."
 },
 "C18": {
  "status": "proved",
  "note": "Variadic sum, difference, negation and product for every heap argument list whose partial results fit a 64-bit word; overflow of a partial sum is shown to be undefined, a non-number an error."
 },
 "C19": {
  "status": "proved",
  "note": "<, > and = chains for every list of numbers."
 },
 "C20": {
  "status": "partial",
  "note": "False for negative divisors ((/ 6 -2) = 0) and for a zero divisor behind a zero quotient: negation with witness. Proved for positive divisors and any dividend except the smallest word, and the zero-divisor error when the quotient before it is not zero."
 },
 "C21": {
  "status": "partial",
  "note": "False for negative moduli: negation with witness and the exact set of arguments with the right answer. Proved for all positive moduli and the zero-modulus error."
 },
 "C22": {
  "status": "partial",
  "note": "logand, logior, logxor, lognot proved bit by bit for every argument list. ash proved for counts below the word size; a count of 64 or more is undefined in C: negation with witness."
 },
 "C10": {
  "status": "proved",
  "note": "length, append2, append-reverse, reverse! for all lists and any tail; no existing cell changes (reverse!: only the pairs of its argument)."
 },
 "C04": {
  "status": "partial",
  "note": "Proved for every request kind and every history of requests (blocks disjoint, contents kept, arena bound, otherwise out-of-memory). A negative vector size is the exception: C04_vector_size_false shows the header written to an unallocated cell."
 },
 "C06": {
  "status": "proved",
  "note": "Over all histories of make-vector, list->vector, vector-set!, vector-ref, structs, other allocation and pair mutation (ArrRun)."
 },
 "C07": {
  "status": "partial",
  "note": "Index at or above the length stops with an assertion. Negative indexes are not checked by the code: C07_index_false (vector-set! at -1 overwrites the header)."
 },
 "C08": {
  "status": "partial",
  "note": "The round trip and the length are proved. The independence of the result is false in the code: C08_shared_false (numbers and characters in the list are the element cells of the vector)."
 },
 "C09": {
  "status": "proved",
  "note": "Over the same histories as C06."
 },
 "C15": {
  "status": "proved",
  "note": "list->string, string->list, both round trips and string-length for byte strings below MAX_STRING."
 },
 "C16": {
  "status": "partial",
  "note": "string-append and string=? proved; string-ref is wrong for bytes >= 128 and accepts index = length (counterexamples), the partial theorem covers bytes < 128 and the rest of the index range."
 },
 "C17": {
  "status": "partial",
  "note": "list->string and string-append overflow a fixed buffer at MAX_STRING (counterexamples); below the limit nothing is truncated; make-string style construction reports the error. Reader and read-string are not covered here."
 },
 "C11": {
  "status": "partial",
  "note": "assoc proved; assq and memq find the first match for keys that are not numbers, characters or keywords compared across types; full statement false: C11_assq_false, C11_memq_false (a number key matches a character with the same value)."
 },
 "C12": {
  "status": "proved",
  "note": "eq?, equal? against an independent tree semantics of the heap, for all acyclic data."
 },
 "C13": {
  "status": "partial",
  "note": "All histories of make-hash-table, hash(q)-set!, hash(q)-ref and unrelated heap changes, for keys whose hash is not negative (ASCII). Full statement false: the default is ignored (C13_default_false, C13_default_list_false), bytes >= 128 abort (C13_key_false)."
 },
 "C14": {
  "status": "partial",
  "note": "All histories of interning from the initial symbol table on (C14_start), for names whose hash is not negative. Full statement false: C14_name_false (byte >= 128 aborts), C14_symbol_false ((string->symbol \"()\") is the empty list)."
 },
 "C01": {
  "status": "partial",
  "note": "Every access path and all sharing survive a collection, for every sound memory (Spec.Sound) with room for a copy. False in general: lists made by vector->list point into the vector and make the collector stop (C01_vector_to_list_false)."
 },
 "C02": {
  "status": "partial",
  "note": "Exact size after a collection, packing, idempotence, for every sound memory with room for a copy. Sound excludes the aliasing of vector->list, see C01."
 },
 "C03": {
  "status": "partial",
  "note": "No access outside the arena if the live data fit, in particular when MES_JAM is larger than MES_ARENA. False for the default ratio of 1 to 10 (C03_gc_in_arena_false): the collector has no bounds check."
 },
 "C05": {
  "status": "partial",
  "note": "Any program of the 20 modelled list, vector and arithmetic primitives (Spec.Prim), any schedule, any sound memory with room for a copy; and in an arena of any other size (C05_arena_partial), where it may only stop for lack of memory. False for = (C05_is_p_false), which compares a number with an address. vector->list, append and list->vector on arbitrary data are left out."
 },
 "C23": {
  "status": "partial",
  "note": "Every datum of Spec.Writable, from files and string ports, followed by any delimiter, in any memory; with equal? to the original. False beyond it: 64-bit integers (C23_int_false), symbols with a backslash (C23_symbol_false), a list that begins with *circular* (C23_circular_false). Characters without a name above 127 or below 32 are left out."
 },
 "C24": {
  "status": "partial",
  "note": "All decimal and radix literals up to Spec.maxLiteral, all signs, any leading zeros; printing up to 32 bits. False: the largest long overflows in the reader (C24_overflow_false); +1b is read as the symbol 1b (C24_sign_false)."
 },
 "C25": {
  "status": "partial",
  "note": "Every text of the grammar Spec.Written, with white space, line, block and datum comments anywhere the grammar has them, is read as its datum. False: a datum comment in front of a closing parenthesis (C25_last_false)."
 },
 "C26": {
  "status": "partial",
  "note": "Every sequence of texts of the grammar, read one by one (C26_one, C26_end) or all at once (C26_partial), nothing lost. False when a datum is the empty list (C26_nil_false)."
 },
 "C27": {
  "status": "partial",
  "note": "All byte strings shorter than MAX_STRING, all texts with escapes. False from that length on (C27_length_false)."
 },
 "C28": {
  "status": "partial",
  "note": "False as stated: an unclosed block comment is read forever (C28_comment_false), and a carriage return outside of parentheses gives infinitely many numbers 0 (C28_return_false). Proved: C28_ends_partial: on every ASCII text of a file in which each #| and #! is closed and which has no #( or no dot that stands alone - well formed or not: open lists and strings, too many parentheses, unknown syntax - the reader ends with an object, an error, an abort or undefined behaviour, with an explicit bound on the number of steps, and an object takes at least one character unless the text starts with a vertical tab or carriage return. C28_all_partial: reading all data of such a file ends if it has neither of these two characters. C28_started_partial: the same from the start of the interpreter. C28_partial: on texts of data the reader succeeds. Missing: names with bytes above 127 (their hash is negative); vectors together with dots that stand alone, where the C code takes the car of a non-pair for a list; string ports for malformed texts."
 },
 "C29": {
  "status": "partial",
  "note": "All interleavings of read-char, peek-char and unread-char where a character is pushed back directly after it was read, for files and ASCII string ports; opening a string port. False: push back after peek (C29_unread_false), bytes above 127 of a string port (C29_byte_false)."
 },
 "C30": {
  "status": "partial",
  "note": "Every terminating program of the core language (constants, quote, variables, if, lambda with rest parameters, application, begin, set!, top level define), any depth and number of steps, with values, errors and the final store; builtins of Spec/Builtins. With garbage collections: C57. The semantics evaluates a non-variable operator twice as mes does; against the standard semantics this is false (C30_false). Missing: macros, quasiquote, call/cc in programs."
 },
 "C31": {
  "status": "partial",
  "note": "Tail calls of any number need the frames of a single one (C31_partial), with a loop of any number of rounds as instance (C31_loop); with collections in a memory of any size the value is the same (C31_collected_partial). Missing: a bound for the memory that a loop needs."
 },
 "C32": {
  "status": "partial",
  "note": "Capturing copies the stack and re-entering restores it, for every state (C32_capture, C32_return, C32_apply, C32_later). False in general: a continuation applied inside the extent of call/cc has its value applied again (C32_false)."
 },
 "C33": {
  "status": "partial",
  "note": "Operands once, from left to right, when the operator is a variable or a lambda expression. False for other operators: they are evaluated twice (C33_false, C33_twice_partial)."
 },
 "C34": {
  "status": "proved",
  "note": "C34_test and C34_branch hold for every state of the machine; C34_if for every program of the core language; C34_if_collected in memories of any size, with collections."
 },
 "C35": {
  "status": "partial",
  "note": "All numbers of parameters and arguments, rest parameters, builtins, and apply with a procedure and a list; with collections C35_collected_partial and C35_call_collected_partial. False: too few arguments for a lambda expression raise not-a-pair instead (C35_false, C35_few_partial)."
 },
 "C36": {
  "status": "partial",
  "note": "Numbers, characters, booleans, the empty list and strings raise wrong-type-arg. False for quoted symbols: they are applied as the procedure that the symbol names (C36_false)."
 },
 "C37": {
  "status": "proved",
  "note": "A closure keeps the locations of its free variables, parameters get new locations, pairlis. The theorems named partial assume enough memory; C37_lambda_collected, C37_variable_collected and C37_call_collected do not: they hold with collections in memories of any size."
 },
 "C38": {
  "status": "partial",
  "note": "Push and pop of a frame are inverse, pushing on a full stack stops, calls return with the stack as before. False: popping from an empty stack reads outside of it (C38_false)."
 },
 "C39": {
  "status": "partial",
  "note": "define of a lambda expression or of an expression without the variable, set! of local and global variables, errors for unbound ones. False: (define x (+ x 1)) sees the symbol x (C39_false)."
 },
 "C46": {
  "status": "partial",
  "note": "Every array, element size and order: qsort ends, permutes, and changes nothing else (C46_permutation); sorted when no two elements are equal in the order (C46_partial). False with equal elements (C46_false)."
 },
 "C47": {
  "status": "partial",
  "note": "Proved for every reachable state of the allocator and every history of malloc, calloc, realloc and assignments that the limit of the process has room for: blocks are aligned, disjoint, below the break and keep their contents; calloc blocks are zero; realloc keeps the old contents. The full statement is false: C47_false (brk never returns -1, so exhaustion is not noticed), C47_wrap_false (a size near 2^64 wraps and takes memory away from an earlier block), C47_calloc_false (overflow of the product)."
 },
 "C48": {
  "status": "partial",
  "note": "getenv proved in full; setenv (existing or new variable, all other variables and all blocks unchanged) and unsetenv proved, and a history theorem: after any sequence of calls getenv agrees with a map. Missing because false: overwrite 0 (C48_overwrite_false), the byte written behind the block when it ends with a page (C48_bound_false), unsetenv with two adjacent entries of the same name (C48_unsetenv_false)."
 },
 "C49": {
  "status": "partial",
  "note": "Proved for one descriptor of a regular file, all request sizes and all chunkings by the system that contain no error: each read gives the next bytes of the file and changes no other memory, histories of reads give the file, lseek to an existing position and write use the position that the program sees. Missing because false: a failing lseek throws the cache away and so skips bytes (C49_lseek_false), and an error of the system after bytes came from the cache loses them (C49_error_false)."
 },
 "C50": {
  "status": "partial",
  "note": "The full properties (SnprintfCorrect, SnprintfText, FprintfCorrect) are refuted: no terminator when the text does not fit, a precision truncates numbers, zero padding comes before the sign, vfprintf returns 0, and others. Proved for all formats made of handled directives: the text is that of ISO C, truncated at the buffer size, memory elsewhere unchanged, value the length of the text. Proved for all formats and arguments whatever: termination, writes only to the buffer and to objects of %n, terminator if there is room. Floating conversion is an arbitrary function parameter."
 },
 "C54": {
  "status": "partial",
  "note": "Proved on the program text of the library, for all lists and any procedure argument, also with side effects: filter, remove, find, fold and fold-right (one to three lists; further lists are ignored), map (one to four lists; the fourth must not be the shortest), for-each (one and two lists), filter-map (one list; two lists if the second is not shorter), take-while, any1, every1, list-index, member with a predicate, reverse, make-list, list-ref, list-head, list-tail; with their stack depth, down to the machine. delete-duplicates keeps the last instead of the first of equal elements, filter-map fails if its second list is the shorter one, map if the fourth list is the shortest: negations with witnesses and theorems for what they do. Missing: delete, append-map, last, unfold, iota, list-index with several lists, the default equal?."
 },
 "C56": {
  "status": "proved",
  "note": "For the core language of Spec/Eval with the builtins of Spec/Builtins. Machine results: unique for states ready to evaluate (enough free cells and stack)."
 },
 "C53": {
  "status": "partial",
  "note": "number->string gives the usual signed numeral for all numbers but the smallest (undefined, C53_smallest) and all radixes to 36; string->number gives for each numeral its number in the radixes 2 to 10 and 16, and reads back what number->string wrote; texts with other characters, or with a digit beyond the radix 16 letters or a sign elsewhere, are refused (C53_refused, C53_digits), capitals count as small letters (C53_capitals); C53_string_to_number_false: other radixes do not know their letters. The functions are transcribed from scm.mes; the division is proved to be that of math.c."
 },
 "C55": {
  "status": "partial",
  "note": "All bytes of int->bv8 … int->bv64 for every long, the text of a byte, and constants of 1, 2 and 4 bytes, stand for the little-endian two's complement form. C55_immediate8_false: the 8-byte constants below -2^32 are wrong (upper half always -1); proved for the others. The meaning of M1 texts is part of the specification (the assembler is not in this repository). Missing: labels, addresses and strings in M1."
 },
 "C57": {
  "status": "proved",
  "note": "For the core language of Spec/Eval with the builtins of Spec/Builtins, top level define included; the memory before the call may already be a moved copy of one that represents the program. Sound memory: Spec.Sound, with room for the copy. Macros, call/cc in programs and the C callers of eval_apply are outside."
 },
 "C58": {
  "status": "partial",
  "note": "Expressions, (define x e) and (define (f ...) ...) of the core language; also that only cars of the program change. C58_false: the property fails when two parts of a form share a pair (possible in the output of macros), so all pairs are assumed different. The memory must suffice, without collections. Names of the special forms must not be global variables."
 },
 "C59": {
  "status": "partial",
  "note": "Any number of forms, with the search for macros (none of the names is one), expansion and evaluation of each, and splicing of top level (begin ...). C59_false as for C58. C59_error_partial: the first form that raises an error, after any number that do not, gives the error. Missing: macros, primitive-load forms, collections while loading; (begin) without forms at the end of a program reads the cell of the empty list."
 },
 "C60": {
  "status": "partial",
  "note": "C60_main_partial, C60_known_partial: texts without () at top level, when the memory suffices without collections and no name in the program is that of a macro. C60_error_partial: the same for a program one of whose forms raises an error."
 },
 "C61": {
  "status": "partial",
  "note": "C61_setup_partial, C61_run_partial: when init_time returns the list it made. C61_false: init_time has no return statement, so its value is undefined. The sizes are those that suffice without a collection; environment variables and finding the source file are not modelled. C61_error_partial: the same for programs that raise an error."
 },
 "C62": {
  "status": "partial",
  "note": "C62_arity_false: builtins with four parameters (make-builtin) are never called, the result is unspecified; C62_values_false: (list #f (values #t)) gets three elements, because the rest of the arguments is attached to the object itself. C62_first_partial, C62_two_partial are what holds, C62_many what happens with more than three parameters."
 },
 "C63": {
  "status": "partial",
  "note": "Holds for command lines without the argument -- (C63_options_partial, C63_long_partial); C63_calls says what the calls do with -- as well. C63_false and C63_long_false: -- does not end the options. getopt_long_only is modelled, without a theorem."
 },
 "C64": {
  "status": "partial",
  "note": "Characters (C64_getc, C64_all), lines (C64_gets, C64_lines) and feof (C64_feof) hold in full for a file without read errors. fread gives a prefix, all of it if it fits the cache (C64_fread_partial); fseek and ftell are right when nothing is pushed back (C64_seek_partial, C64_tell_partial), ungetc when nothing is pushed back already (C64_ungetc_partial). The full properties are FreadSpec, FtellSpec, FseekSpec and UngetcSpec, each refuted by a witness."
 },
 "C65": {
  "status": "partial",
  "note": "C65_partial: all 197 definitions but eight, for all displacements and constants. C65_wrong: each of the eight is something else (C65_false): cmp____$i8,%ebx and addw___$i8 take more bytes, mov____$i8,%eax sets %al only, mov____%cl,(%ebx) and mov____%cx,(%ebx) are loads, the two subtractions of bytes are exchanged. The decoder of Spec/X86 is written after the processor's manual, for the opcodes that occur."
 },
 "C66": {
  "status": "partial",
  "note": "C66_full is false (C66_false): C66_division_wrong, -2 / 2u gives -1, and C66_or_wrong, 2 || 0 gives 2. Proved for plain functions (C66_mescc_partial: signed types; || and && as values only of truth values; != only where no other value is alive; ?: only where at most one is), more generally for calls in which every expression fits (C66_mescc_run_partial), and for the functions of a whole assembled program (C66_program_partial, which has no assumption about the text that C67 and C68 do not prove). Missing: the constructs that are not modelled, see DESIGN.md."
 },
 "C67": {
  "status": "partial",
  "note": "C67_full is false (C67_false: C67_twice, an if whose condition begins with a ?:; C67_clash, a function with the name of a label). Proved for programs without such conditions and names (C67_labels_partial); nothing else is missing for the modelled part of C."
 },
 "C68": {
  "status": "partial",
  "note": "C68_full is false (C68_false: C68_crowded, a char with an initial value after 31 other variables). Proved for functions with at most 31 variables or without initialised variables of one or two bytes (C68_assembles_partial); nothing else is missing for the modelled part of C."
 },
 "C69": {
  "status": "partial",
  "note": "The full property is false (C69_white_false; also C69_large, C69_mismatch, C69_no_number, C69_past_end). Proved for templates of ordinary characters, single white-space characters, %d, %i, %u and %c, and numbers up to INT_MAX - 48; not covered: widths, %s, %x and floating point, other bases of %i, texts that do not match."
 },
 "C70": {
  "status": "partial",
  "note": "The full property is false (C70_beyond_false, C70_runs_on, C70_current_false, C70_long_false, C70_unset). Proved: a name with a slash is used as it is; with non-empty directories whose names fit in the buffer, the first executable file is run if there is one; a missing program is reported if an empty text follows PATH in the memory."
 },
 "C71": {
  "status": "proved",
  "note": "C71_readdir for each call, C71_list and C71_error for a whole listing. In addition C71_errno_false: calls that succeed may set errno to 0."
 },
 "C72": {
  "status": "partial",
  "note": "The full property is false: fputs and puts ignore errors and short writes (C72_error_false, C72_short_false), fputc returns 0 (C72_char_false). Proved: fwrite in full (C72_fwrite, C72_blocks_partial), and for all the functions the bytes in the file for every sequence of calls when the kernel takes every write as a whole (C72_program_partial)."
 },
 "C73": {
  "status": "partial",
  "note": "The full property is false: C73_truncate_false, C73_missing_false, C73_update_false, C73_append_false. Proved: r, rb, w, wb for every file, r+ and a+ (with b too) for an existing file; a without + on an existing file keeps the contents and appends, but allows to read as well."
 },
 "C74": {
  "status": "proved",
  "note": "C74_make_stack, C74_stack_length, C74_stack_ref. The symbol frame-printer is in the symbol table (it is the name of a builtin), frames need not be. The memory has to have room, without collections, as in the code."
 },
 "C75": {
  "status": "partial",
  "note": "The full property is false: the first argument is dropped and the name of the file given instead (C75_execl_false, C75_first), 1000 arguments overflow the array (C75_many), and a call without variable arguments reads beyond (C75_unended). Proved: execl for a first argument that is the name of the file and at most 999 arguments; execlp with a name that contains a slash, or that is found in PATH, where C70 holds."
 },
 "C76": {
  "status": "partial",
  "note": "The full property is false: only the function that was registered last is called (C76_last, C76_false), functions registered meanwhile are not called (C76_during_false), and atexit has no result (C76_result_false). Proved for at most one function that registers no other."
 },
 "C77": {
  "status": "partial",
  "note": "The full property is false: the letters depend on the address only (C77_same, C77_false), and a short template lets the characters before it be overwritten (C77_before, C77_short_false). Proved: the last six characters become letters and nothing else changes."
 },
 "C78": {
  "status": "partial",
  "note": "The full property is false for twelve definitions (C78_wrong): six operations on memory without a width have 32 bits instead of 64 (C78_add), two additions take a constant of two bytes instead of one, mov____$i8,%rax sets %al only, and three mnemonics name no instruction. Proved for the other 200 definitions; no mnemonic is defined twice (C78_once)."
 },
 "C79": {
  "status": "partial",
  "note": "The full property is false: constants from 0x80000000 to 0xfffffffe get a sign (C79_value_sign, C79_value_false, C79_and_false), the upper half is wrong below -0x100000000 (C79_negative_false) and for MesCC compiled with mesc (C79_mesc_false), value->r0 drops what is beyond 32 bits (C79_value_r0_false), and many lines cannot be assembled because a mnemonic is missing or parentheses are (C79_add_unknown, C79_and_unknown, C79_cmp_unknown). Proved for all other constants; local-ptr->r for all offsets of 31 bits (C79_local)."
 },
 "C80": {
  "status": "partial",
  "note": "False as stated: nineteen mnemonics are written and not defined (C80_missing, C80_false). C80_partial is the rest, for all reachable allocations and all constants; C80_defined adds that the definition is the instruction named."
 },
 "C81": {
  "status": "proved",
  "note": "The processor is Spec/X64Run.lean, after its manuals; flags are represented as the operands of the last comparison. Functions that use memory, the stack or constants are not in this claim (C79 has constants, C80 the mnemonics of all)."
 },
 "C82": {
  "status": "proved",
  "note": "Memory wraps around at 2^64 and has no pages that cannot be written. C82_far is what happens beyond displacements of four bytes."
 }
}