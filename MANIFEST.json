{
 "claims": [
  {
   "property": "C01",
   "status": "partial",
   "theorems": [
    "Mes.Props.C01_gc_invisible_partial",
    "Mes.Props.C01_gc_invisible_roomy_partial",
    "Mes.Props.C01_vector_to_list_false"
   ],
   "note": "Every access path and all sharing survive a collection, for every sound memory (Spec.Sound) with room for a copy. False in general: lists made by vector->list point into the vector and make the collector stop (C01_vector_to_list_false)."
  },
  {
   "property": "C02",
   "status": "partial",
   "theorems": [
    "Mes.Props.C02_gc_compacts_partial"
   ],
   "note": "Exact size after a collection, packing, idempotence, for every sound memory with room for a copy. Sound excludes the aliasing of vector->list, see C01."
  },
  {
   "property": "C03",
   "status": "partial",
   "theorems": [
    "Mes.Props.C03_gc_in_arena_partial",
    "Mes.Props.C03_gc_in_arena_jam_partial",
    "Mes.Props.C03_gc_check_partial",
    "Mes.Props.C03_gc_in_arena_false"
   ],
   "note": "No access outside the arena if the live data fit, in particular when MES_JAM is larger than MES_ARENA. False for the default ratio of 1 to 10 (C03_gc_in_arena_false): the collector has no bounds check."
  },
  {
   "property": "C04",
   "status": "partial",
   "theorems": [
    "Mes.Props.C04_allocation",
    "Mes.Props.C04_bytes_fit",
    "Mes.Props.C04_history",
    "Mes.Props.C04_vector_size_false"
   ],
   "note": "Proved for every request kind and every history of requests (blocks disjoint, contents kept, arena bound, otherwise out-of-memory). A negative vector size is the exception: C04_vector_size_false shows the header written to an unallocated cell."
  },
  {
   "property": "C05",
   "status": "partial",
   "theorems": [
    "Mes.Props.C05_schedule_partial",
    "Mes.Props.C05_schedule_error_partial",
    "Mes.Props.C05_arena_partial",
    "Mes.Props.C05_sound_partial",
    "Mes.Props.C05_is_p_false"
   ],
   "note": "Any program of the 20 modelled list, vector and arithmetic primitives (Spec.Prim), any schedule, any sound memory with room for a copy; and in an arena of any other size (C05_arena_partial), where it may only stop for lack of memory. False for = (C05_is_p_false), which compares a number with an address. vector->list, append and list->vector on arbitrary data are left out."
  },
  {
   "property": "C06",
   "status": "proved",
   "theorems": [
    "Mes.Props.C06_vector_ref",
    "Mes.Props.C06_read_stays",
    "Mes.Props.C06_vector_set",
    "Mes.Props.C06_make_vector",
    "Mes.Props.C06_vector_length"
   ],
   "note": "Over all histories of make-vector, list->vector, vector-set!, vector-ref, structs, other allocation and pair mutation (ArrRun)."
  },
  {
   "property": "C07",
   "status": "partial",
   "theorems": [
    "Mes.Props.C07_index_false",
    "Mes.Props.C07_index_partial",
    "Mes.Props.C07_not_a_vector"
   ],
   "note": "Index at or above the length stops with an assertion. Negative indexes are not checked by the code: C07_index_false (vector-set! at -1 overwrites the header)."
  },
  {
   "property": "C08",
   "status": "partial",
   "theorems": [
    "Mes.Props.C08_list_to_vector",
    "Mes.Props.C08_vector_to_list",
    "Mes.Props.C08_round_trip_partial",
    "Mes.Props.C08_shared_false"
   ],
   "note": "The round trip and the length are proved. The independence of the result is false in the code: C08_shared_false (numbers and characters in the list are the element cells of the vector)."
  },
  {
   "property": "C09",
   "status": "proved",
   "theorems": [
    "Mes.Props.C09_struct_ref",
    "Mes.Props.C09_struct_set",
    "Mes.Props.C09_make_struct",
    "Mes.Props.C09_struct_length"
   ],
   "note": "Over the same histories as C06."
  },
  {
   "property": "C10",
   "status": "proved",
   "theorems": [
    "Mes.Props.C10_length",
    "Mes.Props.C10_length_improper",
    "Mes.Props.C10_append_reverse",
    "Mes.Props.C10_append2",
    "Mes.Props.C10_append2_lists",
    "Mes.Props.C10_append2_error",
    "Mes.Props.C10_reverse_x"
   ],
   "note": "length, append2, append-reverse, reverse! for all lists and any tail; no existing cell changes (reverse!: only the pairs of its argument)."
  },
  {
   "property": "C11",
   "status": "partial",
   "theorems": [
    "Mes.Props.C11_assq_false",
    "Mes.Props.C11_memq_false",
    "Mes.Props.C11_assq_partial",
    "Mes.Props.C11_memq_partial",
    "Mes.Props.C11_assoc"
   ],
   "note": "assoc proved; assq and memq find the first match for keys that are not numbers, characters or keywords compared across types; full statement false: C11_assq_false, C11_memq_false (a number key matches a character with the same value)."
  },
  {
   "property": "C12",
   "status": "proved",
   "theorems": [
    "Mes.Props.C12_eq",
    "Mes.Props.C12_equal",
    "Mes.Props.C12_equivalence",
    "Mes.Props.C12_stable"
   ],
   "note": "eq?, equal? against an independent tree semantics of the heap, for all acyclic data."
  },
  {
   "property": "C13",
   "status": "partial",
   "theorems": [
    "Mes.Props.C13_hash_ref_partial",
    "Mes.Props.C13_hash_set_partial",
    "Mes.Props.C13_hashq_ref_partial",
    "Mes.Props.C13_hashq_set_partial",
    "Mes.Props.C13_make",
    "Mes.Props.C13_default_false",
    "Mes.Props.C13_default_list_false",
    "Mes.Props.C13_key_false"
   ],
   "note": "All histories of make-hash-table, hash(q)-set!, hash(q)-ref and unrelated heap changes, for keys whose hash is not negative (ASCII). Full statement false: the default is ignored (C13_default_false, C13_default_list_false), bytes >= 128 abort (C13_key_false)."
  },
  {
   "property": "C14",
   "status": "partial",
   "theorems": [
    "Mes.Props.C14_intern",
    "Mes.Props.C14_reader",
    "Mes.Props.C14_same_symbol",
    "Mes.Props.C14_symbol_to_string",
    "Mes.Props.C14_start",
    "Mes.Props.C14_name_false",
    "Mes.Props.C14_symbol_false"
   ],
   "note": "All histories of interning from the initial symbol table on (C14_start), for names whose hash is not negative. Full statement false: C14_name_false (byte >= 128 aborts), C14_symbol_false ((string->symbol \"()\") is the empty list)."
  },
  {
   "property": "C15",
   "status": "proved",
   "theorems": [
    "Mes.Props.C15_list_to_string",
    "Mes.Props.C15_string_to_list",
    "Mes.Props.C15_list_round_trip",
    "Mes.Props.C15_string_round_trip",
    "Mes.Props.C15_string_length"
   ],
   "note": "list->string, string->list, both round trips and string-length for byte strings below MAX_STRING."
  },
  {
   "property": "C16",
   "status": "partial",
   "theorems": [
    "Mes.Props.C16_string_append",
    "Mes.Props.C16_string_equal",
    "Mes.Props.C16_string_ref_false",
    "Mes.Props.C16_string_ref_end_false",
    "Mes.Props.C16_string_ref_partial"
   ],
   "note": "string-append and string=? proved; string-ref is wrong for bytes >= 128 and accepts index = length (counterexamples), the partial theorem covers bytes < 128 and the rest of the index range."
  },
  {
   "property": "C17",
   "status": "partial",
   "theorems": [
    "Mes.Props.C17_list_to_string_false",
    "Mes.Props.C17_string_append_false",
    "Mes.Props.C17_not_truncated_partial",
    "Mes.Props.C17_make_string"
   ],
   "note": "list->string and string-append overflow a fixed buffer at MAX_STRING (counterexamples); below the limit nothing is truncated; make-string style construction reports the error. Reader and read-string are not covered here."
  },
  {
   "property": "C18",
   "status": "proved",
   "theorems": [
    "Mes.Props.C18_plus",
    "Mes.Props.C18_plus_overflow",
    "Mes.Props.C18_minus",
    "Mes.Props.C18_minus_one",
    "Mes.Props.C18_multiply",
    "Mes.Props.C18_plus_type"
   ],
   "note": "Variadic sum, difference, negation and product for every heap argument list whose partial results fit a 64-bit word; overflow of a partial sum is shown to be undefined, a non-number an error."
  },
  {
   "property": "C19",
   "status": "proved",
   "theorems": [
    "Mes.Props.C19_less",
    "Mes.Props.C19_greater",
    "Mes.Props.C19_equal"
   ],
   "note": "<, > and = chains for every list of numbers."
  },
  {
   "property": "C20",
   "status": "partial",
   "theorems": [
    "Mes.Props.C20_divide_false",
    "Mes.Props.C20_divide_partial",
    "Mes.Props.C20_divide_zero_partial"
   ],
   "note": "False for negative divisors ((/ 6 -2) = 0) and for a zero divisor behind a zero quotient: negation with witness. Proved for positive divisors and any dividend except the smallest word, and the zero-divisor error when the quotient before it is not zero."
  },
  {
   "property": "C21",
   "status": "partial",
   "theorems": [
    "Mes.Props.C21_modulo_false",
    "Mes.Props.C21_modulo_partial",
    "Mes.Props.C21_modulo_negative_partial",
    "Mes.Props.C21_modulo_zero"
   ],
   "note": "False for negative moduli: negation with witness and the exact set of arguments with the right answer. Proved for all positive moduli and the zero-modulus error."
  },
  {
   "property": "C22",
   "status": "partial",
   "theorems": [
    "Mes.Props.C22_logand",
    "Mes.Props.C22_logior",
    "Mes.Props.C22_logxor",
    "Mes.Props.C22_lognot",
    "Mes.Props.C22_ash_false",
    "Mes.Props.C22_ash_partial"
   ],
   "note": "logand, logior, logxor, lognot proved bit by bit for every argument list. ash proved for counts below the word size; a count of 64 or more is undefined in C: negation with witness."
  },
  {
   "property": "C23",
   "status": "partial",
   "theorems": [
    "Mes.Props.C23_partial",
    "Mes.Props.C23_int_false",
    "Mes.Props.C23_symbol_false",
    "Mes.Props.C23_circular_false"
   ],
   "note": "Every datum of Spec.Writable, from files and string ports, followed by any delimiter, in any memory; with equal? to the original. False beyond it: 64-bit integers (C23_int_false), symbols with a backslash (C23_symbol_false), a list that begins with *circular* (C23_circular_false). Characters without a name above 127 or below 32 are left out."
  },
  {
   "property": "C24",
   "status": "partial",
   "theorems": [
    "Mes.Props.C24_decimal_partial",
    "Mes.Props.C24_radix_partial",
    "Mes.Props.C24_symbol_partial",
    "Mes.Props.C24_print_partial",
    "Mes.Props.C24_overflow_false",
    "Mes.Props.C24_sign_false"
   ],
   "note": "All decimal and radix literals up to Spec.maxLiteral, all signs, any leading zeros; printing up to 32 bits. False: the largest long overflows in the reader (C24_overflow_false); +1b is read as the symbol 1b (C24_sign_false)."
  },
  {
   "property": "C25",
   "status": "partial",
   "theorems": [
    "Mes.Props.C25_partial",
    "Mes.Props.C25_last_false"
   ],
   "note": "Every text of the grammar Spec.Written, with white space, line, block and datum comments anywhere the grammar has them, is read as its datum. False: a datum comment in front of a closing parenthesis (C25_last_false)."
  },
  {
   "property": "C26",
   "status": "partial",
   "theorems": [
    "Mes.Props.C26_partial",
    "Mes.Props.C26_one",
    "Mes.Props.C26_end",
    "Mes.Props.C26_nil_false"
   ],
   "note": "Every sequence of texts of the grammar, read one by one (C26_one, C26_end) or all at once (C26_partial), nothing lost. False when a datum is the empty list (C26_nil_false)."
  },
  {
   "property": "C27",
   "status": "partial",
   "theorems": [
    "Mes.Props.C27_read_partial",
    "Mes.Props.C27_write",
    "Mes.Props.C27_partial",
    "Mes.Props.C27_length_false"
   ],
   "note": "All byte strings shorter than MAX_STRING, all texts with escapes. False from that length on (C27_length_false)."
  },
  {
   "property": "C28",
   "status": "partial",
   "theorems": [
    "Mes.Props.C28_ends_partial",
    "Mes.Props.C28_all_partial",
    "Mes.Props.C28_started_partial",
    "Mes.Props.C28_comment_false",
    "Mes.Props.C28_partial",
    "Mes.Props.C28_return_false"
   ],
   "note": "False as stated: an unclosed block comment is read forever (C28_comment_false), and a carriage return outside of parentheses gives infinitely many numbers 0 (C28_return_false). Proved: C28_ends_partial: on every ASCII text of a file in which each #| and #! is closed and which has no #( or no dot that stands alone - well formed or not: open lists and strings, too many parentheses, unknown syntax - the reader ends with an object, an error, an abort or undefined behaviour, with an explicit bound on the number of steps, and an object takes at least one character unless the text starts with a vertical tab or carriage return. C28_all_partial: reading all data of such a file ends if it has neither of these two characters. C28_started_partial: the same from the start of the interpreter. C28_partial: on texts of data the reader succeeds. Missing: names with bytes above 127 (their hash is negative); vectors together with dots that stand alone, where the C code takes the car of a non-pair for a list; string ports for malformed texts."
  },
  {
   "property": "C29",
   "status": "partial",
   "theorems": [
    "Mes.Props.C29_partial",
    "Mes.Props.C29_open",
    "Mes.Props.C29_unread_false",
    "Mes.Props.C29_byte_false"
   ],
   "note": "All interleavings of read-char, peek-char and unread-char where a character is pushed back directly after it was read, for files and ASCII string ports; opening a string port. False: push back after peek (C29_unread_false), bytes above 127 of a string port (C29_byte_false)."
  },
  {
   "property": "C30",
   "status": "partial",
   "theorems": [
    "Mes.Props.C30_false",
    "Mes.Props.C30_partial",
    "Mes.Props.C30_expr_partial",
    "Mes.Props.C30_error_partial"
   ],
   "note": "Every terminating program of the core language (constants, quote, variables, if, lambda with rest parameters, application, begin, set!, top level define), any depth and number of steps, with values, errors and the final store; builtins of Spec/Builtins. With garbage collections: C57. The semantics evaluates a non-variable operator twice as mes does; against the standard semantics this is false (C30_false). Missing: macros, quasiquote, call/cc in programs."
  },
  {
   "property": "C31",
   "status": "partial",
   "theorems": [
    "Mes.Props.C31_partial",
    "Mes.Props.C31_loop",
    "Mes.Props.C31_collected_partial"
   ],
   "note": "Tail calls of any number need the frames of a single one (C31_partial), with a loop of any number of rounds as instance (C31_loop); with collections in a memory of any size the value is the same (C31_collected_partial). Missing: a bound for the memory that a loop needs."
  },
  {
   "property": "C32",
   "status": "partial",
   "theorems": [
    "Mes.Props.C32_false",
    "Mes.Props.C32_capture",
    "Mes.Props.C32_return",
    "Mes.Props.C32_apply",
    "Mes.Props.C32_after_partial",
    "Mes.Props.C32_during_partial",
    "Mes.Props.C32_later"
   ],
   "note": "Capturing copies the stack and re-entering restores it, for every state (C32_capture, C32_return, C32_apply, C32_later). False in general: a continuation applied inside the extent of call/cc has its value applied again (C32_false)."
  },
  {
   "property": "C33",
   "status": "partial",
   "theorems": [
    "Mes.Props.C33_false",
    "Mes.Props.C33_partial",
    "Mes.Props.C33_twice_partial",
    "Mes.Props.C33_collected_partial"
   ],
   "note": "Operands once, from left to right, when the operator is a variable or a lambda expression. False for other operators: they are evaluated twice (C33_false, C33_twice_partial)."
  },
  {
   "property": "C34",
   "status": "proved",
   "theorems": [
    "Mes.Props.C34_if",
    "Mes.Props.C34_if_only",
    "Mes.Props.C34_test",
    "Mes.Props.C34_branch",
    "Mes.Props.C34_false_only",
    "Mes.Props.C34_if_collected",
    "Mes.Props.C34_if_only_collected"
   ],
   "note": "C34_test and C34_branch hold for every state of the machine; C34_if for every program of the core language; C34_if_collected in memories of any size, with collections."
  },
  {
   "property": "C35",
   "status": "partial",
   "theorems": [
    "Mes.Props.C35_false",
    "Mes.Props.C35_partial",
    "Mes.Props.C35_few_partial",
    "Mes.Props.C35_rest_partial",
    "Mes.Props.C35_fixed_partial",
    "Mes.Props.C35_builtin_partial",
    "Mes.Props.C35_apply_partial",
    "Mes.Props.C35_spread_partial",
    "Mes.Props.C35_spread_count_partial",
    "Mes.Props.C35_call_collected_partial",
    "Mes.Props.C35_collected_partial"
   ],
   "note": "All numbers of parameters and arguments, rest parameters, builtins, and apply with a procedure and a list; with collections C35_collected_partial and C35_call_collected_partial. False: too few arguments for a lambda expression raise not-a-pair instead (C35_false, C35_few_partial)."
  },
  {
   "property": "C36",
   "status": "partial",
   "theorems": [
    "Mes.Props.C36_false",
    "Mes.Props.C36_partial",
    "Mes.Props.C36_collected_partial"
   ],
   "note": "Numbers, characters, booleans, the empty list and strings raise wrong-type-arg. False for quoted symbols: they are applied as the procedure that the symbol names (C36_false)."
  },
  {
   "property": "C37",
   "status": "proved",
   "theorems": [
    "Mes.Props.C37_call_partial",
    "Mes.Props.C37_lambda_partial",
    "Mes.Props.C37_variable_partial",
    "Mes.Props.C37_pairlis",
    "Mes.Props.C37_lambda_collected",
    "Mes.Props.C37_variable_collected",
    "Mes.Props.C37_call_collected"
   ],
   "note": "A closure keeps the locations of its free variables, parameters get new locations, pairlis. The theorems named partial assume enough memory; C37_lambda_collected, C37_variable_collected and C37_call_collected do not: they hold with collections in memories of any size."
  },
  {
   "property": "C38",
   "status": "partial",
   "theorems": [
    "Mes.Props.C38_false",
    "Mes.Props.C38_push_full_partial",
    "Mes.Props.C38_push_pop_partial",
    "Mes.Props.C38_return_partial"
   ],
   "note": "Push and pop of a frame are inverse, pushing on a full stack stops, calls return with the stack as before. False: popping from an empty stack reads outside of it (C38_false)."
  },
  {
   "property": "C39",
   "status": "partial",
   "theorems": [
    "Mes.Props.C39_false",
    "Mes.Props.C39_define_partial",
    "Mes.Props.C39_set_partial",
    "Mes.Props.C39_set_unbound_partial",
    "Mes.Props.C39_unbound_partial",
    "Mes.Props.C39_value_partial",
    "Mes.Props.C39_set_collected",
    "Mes.Props.C39_unbound_collected"
   ],
   "note": "define of a lambda expression or of an expression without the variable, set! of local and global variables, errors for unbound ones. False: (define x (+ x 1)) sees the symbol x (C39_false)."
  },
  {
   "property": "C40",
   "status": "proved",
   "theorems": [
    "Mes.C.C40_memcpy",
    "Mes.C.C40_memmove",
    "Mes.C.C40_bcopy",
    "Mes.C.C40_memset",
    "Mes.C.C40_bzero"
   ],
   "note": "memcpy, memmove, memset, bcopy, bzero for all memories, sizes and overlaps."
  },
  {
   "property": "C41",
   "status": "proved",
   "theorems": [
    "Mes.C.C41_strlen",
    "Mes.C.C41_strcpy",
    "Mes.C.C41_strcat",
    "Mes.C.C41_strcat_result",
    "Mes.C.C41_strncpy",
    "Mes.C.C41_strncpy_unterminated_overread",
    "Mes.C.C41_strncat"
   ],
   "note": "strlen, strcpy, strcat, strncpy, strncat for all strings and placements; strings up to INT_MAX where the code counts in int. One finding: strncpy reads one byte beyond an unterminated source array."
  },
  {
   "property": "C42",
   "status": "partial",
   "theorems": [
    "Mes.C.C42_strcmp_eq",
    "Mes.C.C42_strncmp_eq",
    "Mes.C.C42_memcmp_eq",
    "Mes.C.C42_strcmp_order_false",
    "Mes.C.C42_memcmp_order_false",
    "Mes.C.C42_strcmp_order_partial",
    "Mes.C.C42_strcmp_signed_order",
    "Mes.C.C42_memcmp_order_partial"
   ],
   "note": "Zero iff equal is proved for all bytes. The unsigned order is false (signed char difference): negations with witnesses, and order theorems for 7-bit data."
  },
  {
   "property": "C43",
   "status": "partial",
   "theorems": [
    "Mes.C.C43_strchr_false",
    "Mes.C.C43_strchr_partial",
    "Mes.C.C43_memchr_partial",
    "Mes.C.C43_memchr_false",
    "Mes.C.C43_strrchr_false",
    "Mes.C.C43_strrchr_partial",
    "Mes.C.C43_strspn",
    "Mes.C.C43_strcspn",
    "Mes.C.C43_strpbrk_false",
    "Mes.C.C43_strpbrk_partial",
    "Mes.C.C43_memmem",
    "Mes.C.C43_strstr"
   ],
   "note": "strspn, strcspn, memmem, strstr proved in full. strchr/memchr fail for characters >= 128 passed as unsigned value, strrchr for NUL in the empty string, strpbrk when there is no match: negations with witnesses plus partial theorems for the rest."
  },
  {
   "property": "C44",
   "status": "partial",
   "theorems": [
    "Mes.C.C44_itoa_32",
    "Mes.C.C44_utoa_32",
    "Mes.C.C44_ltoab_partial",
    "Mes.C.C44_itoa_64_false",
    "Mes.C.C44_ultoa_32_false",
    "Mes.C.C44_ultoa_32_partial",
    "Mes.C.C44_abtol_false",
    "Mes.C.C44_abtol_overflow",
    "Mes.C.C44_abtol_partial",
    "Mes.C.C44_abtol_hex_partial",
    "Mes.C.C44_atoi_itoa_partial"
   ],
   "note": "itoa/utoa with a 32-bit long proved for every number. With a 64-bit long numbers of twelve or more characters are written before the buffer; ultoa prints the upper half as negative; abtol (atoi, strtol) misreads decimal digits after a letter and overflows int for the largest 48 decimal values: negations with witnesses, and partial theorems with the exact range where formatting, parsing and the round trip are right."
  },
  {
   "property": "C45",
   "status": "partial",
   "theorems": [
    "Mes.C.C45_uldiv",
    "Mes.C.C45_udiv_umod",
    "Mes.C.C45_div_zero",
    "Mes.C.C45_ldiv_false",
    "Mes.C.C45_ldiv_partial"
   ],
   "note": "Unsigned software division proved for all 32- and 64-bit operands; signed division proved for every dividend (including LONG_MIN) and every divisor except LONG_MIN, for which the code stops the program: negation with witness."
  },
  {
   "property": "C46",
   "status": "partial",
   "theorems": [
    "Mes.Props.C46_false",
    "Mes.Props.C46_permutation",
    "Mes.Props.C46_partial"
   ],
   "note": "Every array, element size and order: qsort ends, permutes, and changes nothing else (C46_permutation); sorted when no two elements are equal in the order (C46_partial). False with equal elements (C46_false)."
  },
  {
   "property": "C47",
   "status": "partial",
   "theorems": [
    "Mes.Props.C47_false",
    "Mes.Props.C47_wrap_false",
    "Mes.Props.C47_calloc_false",
    "Mes.Props.C47_malloc_partial",
    "Mes.Props.C47_calloc_partial",
    "Mes.Props.C47_realloc_partial",
    "Mes.Props.C47_history_partial"
   ],
   "note": "Proved for every reachable state of the allocator and every history of malloc, calloc, realloc and assignments that the limit of the process has room for: blocks are aligned, disjoint, below the break and keep their contents; calloc blocks are zero; realloc keeps the old contents. The full statement is false: C47_false (brk never returns -1, so exhaustion is not noticed), C47_wrap_false (a size near 2^64 wraps and takes memory away from an earlier block), C47_calloc_false (overflow of the product)."
  },
  {
   "property": "C48",
   "status": "partial",
   "theorems": [
    "Mes.Props.C48_unsetenv_false",
    "Mes.Props.C48_overwrite_false",
    "Mes.Props.C48_bound_false",
    "Mes.Props.C48_false",
    "Mes.Props.C48_getenv",
    "Mes.Props.C48_setenv_partial",
    "Mes.Props.C48_unsetenv_other",
    "Mes.Props.C48_unsetenv_partial",
    "Mes.Props.C48_history_partial"
   ],
   "note": "getenv proved in full; setenv (existing or new variable, all other variables and all blocks unchanged) and unsetenv proved, and a history theorem: after any sequence of calls getenv agrees with a map. Missing because false: overwrite 0 (C48_overwrite_false), the byte written behind the block when it ends with a page (C48_bound_false), unsetenv with two adjacent entries of the same name (C48_unsetenv_false)."
  },
  {
   "property": "C49",
   "status": "partial",
   "theorems": [
    "Mes.Props.C49_lseek_false",
    "Mes.Props.C49_error_false",
    "Mes.Props.C49_false",
    "Mes.Props.C49_read_partial",
    "Mes.Props.C49_lseek_partial",
    "Mes.Props.C49_write_partial",
    "Mes.Props.C49_history_partial"
   ],
   "note": "Proved for one descriptor of a regular file, all request sizes and all chunkings by the system that contain no error: each read gives the next bytes of the file and changes no other memory, histories of reads give the file, lseek to an existing position and write use the position that the program sees. Missing because false: a failing lseek throws the cache away and so skips bytes (C49_lseek_false), and an error of the system after bytes came from the cache loses them (C49_error_false)."
  },
  {
   "property": "C50",
   "status": "partial",
   "theorems": [
    "Mes.C.C50_terminator_false",
    "Mes.C.C50_text_false",
    "Mes.C.C50_zero_minus",
    "Mes.C.C50_string_short",
    "Mes.C.C50_star_negative",
    "Mes.C.C50_octal_minus",
    "Mes.C.C50_blank_flag",
    "Mes.C.C50_snprintf_partial",
    "Mes.C.C50_fits_partial",
    "Mes.C.C50_sprintf_partial",
    "Mes.C.C50_fprintf_false",
    "Mes.C.C50_fprintf_partial",
    "Mes.C.C50_bounded",
    "Mes.C.C50_fprintf_bounded"
   ],
   "note": "The full properties (SnprintfCorrect, SnprintfText, FprintfCorrect) are refuted: no terminator when the text does not fit, a precision truncates numbers, zero padding comes before the sign, vfprintf returns 0, and others. Proved for all formats made of handled directives: the text is that of ISO C, truncated at the buffer size, memory elsewhere unchanged, value the length of the text. Proved for all formats and arguments whatever: termination, writes only to the buffer and to objects of %n, terminator if there is room. Floating conversion is an arbitrary function parameter."
  },
  {
   "property": "C51",
   "status": "partial",
   "theorems": [
    "Mes.C.C51_isdigit",
    "Mes.C.C51_islower",
    "Mes.C.C51_isupper",
    "Mes.C.C51_isalpha",
    "Mes.C.C51_isalnum",
    "Mes.C.C51_isspace",
    "Mes.C.C51_isascii",
    "Mes.C.C51_ispunct",
    "Mes.C.C51_isgraph",
    "Mes.C.C51_isprint",
    "Mes.C.C51_tolower",
    "Mes.C.C51_toupper",
    "Mes.C.C51_isxdigit_false",
    "Mes.C.C51_isxdigit_partial",
    "Mes.C.C51_iscntrl_false",
    "Mes.C.C51_iscntrl_partial"
   ],
   "note": "All classifications and case maps proved for every int argument, except isxdigit (upper-case A-F missing) and iscntrl (DEL missing): negations with witnesses and partial theorems."
  },
  {
   "property": "C52",
   "status": "proved",
   "theorems": [
    "Mes.C.C52_argz_extract",
    "Mes.C.C52_argz_count"
   ],
   "note": "argz_extract and argz_count for all well-formed argz vectors, including empty strings."
  },
  {
   "property": "C53",
   "status": "partial",
   "theorems": [
    "Mes.Props.C53_quotient",
    "Mes.Props.C53_number_to_string_partial",
    "Mes.Props.C53_smallest",
    "Mes.Props.C53_string_to_number_false",
    "Mes.Props.C53_string_to_number_partial",
    "Mes.Props.C53_inverse_partial",
    "Mes.Props.C53_default",
    "Mes.Props.C53_refused",
    "Mes.Props.C53_digits",
    "Mes.Props.C53_capitals"
   ],
   "note": "number->string gives the usual signed numeral for all numbers but the smallest (undefined, C53_smallest) and all radixes to 36; string->number gives for each numeral its number in the radixes 2 to 10 and 16, and reads back what number->string wrote; texts with other characters, or with a digit beyond the radix 16 letters or a sign elsewhere, are refused (C53_refused, C53_digits), capitals count as small letters (C53_capitals); C53_string_to_number_false: other radixes do not know their letters. The functions are transcribed from scm.mes; the division is proved to be that of math.c."
  },
  {
   "property": "C54",
   "status": "partial",
   "theorems": [
    "Mes.Props.C54_filter",
    "Mes.Props.C54_remove",
    "Mes.Props.C54_find",
    "Mes.Props.C54_fold",
    "Mes.Props.C54_fold2",
    "Mes.Props.C54_fold_right",
    "Mes.Props.C54_fold_right2",
    "Mes.Props.C54_map",
    "Mes.Props.C54_map2",
    "Mes.Props.C54_for_each",
    "Mes.Props.C54_for_each2",
    "Mes.Props.C54_filter_map",
    "Mes.Props.C54_take_while",
    "Mes.Props.C54_any1",
    "Mes.Props.C54_every1",
    "Mes.Props.C54_list_index_partial",
    "Mes.Props.C54_member_partial",
    "Mes.Props.C54_reverse",
    "Mes.Props.C54_make_list",
    "Mes.Props.C54_list_ref",
    "Mes.Props.C54_list_head",
    "Mes.Props.C54_list_tail",
    "Mes.Props.C54_delete_duplicates_partial",
    "Mes.Props.C54_delete_duplicates_false",
    "Mes.Props.C54_map3",
    "Mes.Props.C54_map4_partial",
    "Mes.Props.C54_map4_false",
    "Mes.Props.C54_fold3",
    "Mes.Props.C54_fold_right3",
    "Mes.Props.C54_filter_map2_partial",
    "Mes.Props.C54_filter_map2_false"
   ],
   "note": "Proved on the program text of the library, for all lists and any procedure argument, also with side effects: filter, remove, find, fold and fold-right (one to three lists; further lists are ignored), map (one to four lists; the fourth must not be the shortest), for-each (one and two lists), filter-map (one list; two lists if the second is not shorter), take-while, any1, every1, list-index, member with a predicate, reverse, make-list, list-ref, list-head, list-tail; with their stack depth, down to the machine. delete-duplicates keeps the last instead of the first of equal elements, filter-map fails if its second list is the shorter one, map if the fourth list is the shortest: negations with witnesses and theorems for what they do. Missing: delete, append-map, last, unfold, iota, list-index with several lists, the default equal?."
  },
  {
   "property": "C55",
   "status": "partial",
   "theorems": [
    "Mes.Props.C55_modulo",
    "Mes.Props.C55_shift",
    "Mes.Props.C55_bytes",
    "Mes.Props.C55_byte_text",
    "Mes.Props.C55_immediate",
    "Mes.Props.C55_immediate8_false",
    "Mes.Props.C55_immediate8_partial"
   ],
   "note": "All bytes of int->bv8 … int->bv64 for every long, the text of a byte, and constants of 1, 2 and 4 bytes, stand for the little-endian two's complement form. C55_immediate8_false: the 8-byte constants below -2^32 are wrong (upper half always -1); proved for the others. The meaning of M1 texts is part of the specification (the assembler is not in this repository). Missing: labels, addresses and strings in M1."
  },
  {
   "property": "C56",
   "status": "proved",
   "theorems": [
    "Mes.Props.C56_value",
    "Mes.Props.C56_call",
    "Mes.Props.C56_builtin",
    "Mes.Props.C56_machines"
   ],
   "note": "For the core language of Spec/Eval with the builtins of Spec/Builtins. Machine results: unique for states ready to evaluate (enough free cells and stack)."
  },
  {
   "property": "C57",
   "status": "proved",
   "theorems": [
    "Mes.Props.C57_form",
    "Mes.Props.C57_value",
    "Mes.Props.C57_call",
    "Mes.Props.C57_error",
    "Mes.Props.C57_only"
   ],
   "note": "For the core language of Spec/Eval with the builtins of Spec/Builtins, top level define included; the memory before the call may already be a moved copy of one that represents the program. Sound memory: Spec.Sound, with room for the copy. Macros, call/cc in programs and the C callers of eval_apply are outside."
  },
  {
   "property": "C58",
   "status": "partial",
   "theorems": [
    "Mes.Props.C58_false",
    "Mes.Props.C58_value_partial"
   ],
   "note": "Expressions, (define x e) and (define (f ...) ...) of the core language; also that only cars of the program change. C58_false: the property fails when two parts of a form share a pair (possible in the output of macros), so all pairs are assumed different. The memory must suffice, without collections. Names of the special forms must not be global variables."
  },
  {
   "property": "C59",
   "status": "partial",
   "theorems": [
    "Mes.Props.C59_false",
    "Mes.Props.C59_load_partial",
    "Mes.Props.C59_error_partial"
   ],
   "note": "Any number of forms, with the search for macros (none of the names is one), expansion and evaluation of each, and splicing of top level (begin ...). C59_false as for C58. C59_error_partial: the first form that raises an error, after any number that do not, gives the error. Missing: macros, primitive-load forms, collections while loading; (begin) without forms at the end of a program reads the cell of the empty list."
  },
  {
   "property": "C60",
   "status": "partial",
   "theorems": [
    "Mes.Props.C60_main_partial",
    "Mes.Props.C60_known_partial",
    "Mes.Props.C60_error_partial"
   ],
   "note": "C60_main_partial, C60_known_partial: texts without () at top level, when the memory suffices without collections and no name in the program is that of a macro. C60_error_partial: the same for a program one of whose forms raises an error."
  },
  {
   "property": "C61",
   "status": "partial",
   "theorems": [
    "Mes.Props.C61_false",
    "Mes.Props.C61_setup_partial",
    "Mes.Props.C61_names",
    "Mes.Props.C61_arities",
    "Mes.Props.C61_run_partial",
    "Mes.Props.C61_error_partial"
   ],
   "note": "C61_setup_partial, C61_run_partial: when init_time returns the list it made. C61_false: init_time has no return statement, so its value is undefined. The sizes are those that suffice without a collection; environment variables and finding the source file are not modelled. C61_error_partial: the same for programs that raise an error."
  },
  {
   "property": "C62",
   "status": "partial",
   "theorems": [
    "Mes.Props.C62_arity_false",
    "Mes.Props.C62_values_false",
    "Mes.Props.C62_first_partial",
    "Mes.Props.C62_two_partial",
    "Mes.Props.C62_many"
   ],
   "note": "C62_arity_false: builtins with four parameters (make-builtin) are never called, the result is unspecified; C62_values_false: (list #f (values #t)) gets three elements, because the rest of the arguments is attached to the object itself. C62_first_partial, C62_two_partial are what holds, C62_many what happens with more than three parameters."
  },
  {
   "property": "C63",
   "status": "partial",
   "theorems": [
    "Mes.Props.C63_parse",
    "Mes.Props.C63_calls",
    "Mes.Props.C63_options_partial",
    "Mes.Props.C63_false",
    "Mes.Props.C63_long_false",
    "Mes.Props.C63_long_partial",
    "Mes.Props.C63_long_short"
   ],
   "note": "Holds for command lines without the argument -- (C63_options_partial, C63_long_partial); C63_calls says what the calls do with -- as well. C63_false and C63_long_false: -- does not end the options. getopt_long_only is modelled, without a theorem."
  },
  {
   "property": "C64",
   "status": "partial",
   "theorems": [
    "Mes.Props.C64_getc",
    "Mes.Props.C64_all",
    "Mes.Props.C64_ungetc_partial",
    "Mes.Props.C64_feof",
    "Mes.Props.C64_gets",
    "Mes.Props.C64_lines",
    "Mes.Props.C64_fread_partial",
    "Mes.Props.C64_seek_partial",
    "Mes.Props.C64_tell_partial",
    "Mes.Props.C64_fread_false",
    "Mes.Props.C64_tell_false",
    "Mes.Props.C64_seek_false",
    "Mes.Props.C64_ungetc_false",
    "Mes.Props.C64_false"
   ],
   "note": "Characters (C64_getc, C64_all), lines (C64_gets, C64_lines) and feof (C64_feof) hold in full for a file without read errors. fread gives a prefix, all of it if it fits the cache (C64_fread_partial); fseek and ftell are right when nothing is pushed back (C64_seek_partial, C64_tell_partial), ungetc when nothing is pushed back already (C64_ungetc_partial). The full properties are FreadSpec, FtellSpec, FseekSpec and UngetcSpec, each refuted by a witness."
  },
  {
   "property": "C65",
   "status": "partial",
   "theorems": [
    "Mes.Props.C65_partial",
    "Mes.Props.C65_wrong",
    "Mes.Props.C65_false"
   ],
   "note": "C65_partial: all 197 definitions but eight, for all displacements and constants. C65_wrong: each of the eight is something else (C65_false): cmp____$i8,%ebx and addw___$i8 take more bytes, mov____$i8,%eax sets %al only, mov____%cl,(%ebx) and mov____%cx,(%ebx) are loads, the two subtractions of bytes are exchanged. The decoder of Spec/X86 is written after the processor's manual, for the opcodes that occur."
  },
  {
   "property": "C66",
   "status": "partial",
   "theorems": [
    "Mes.Props.C66_mescc_partial",
    "Mes.Props.C66_mescc_run_partial",
    "Mes.Props.C66_division_wrong",
    "Mes.Props.C66_false",
    "Mes.Props.C66_or_wrong",
    "Mes.Props.C66_program_partial"
   ],
   "note": "C66_full is false (C66_false): C66_division_wrong, -2 / 2u gives -1, and C66_or_wrong, 2 || 0 gives 2. Proved for plain functions (C66_mescc_partial: signed types; || and && as values only of truth values; != only where no other value is alive; ?: only where at most one is), more generally for calls in which every expression fits (C66_mescc_run_partial), and for the functions of a whole assembled program (C66_program_partial, which has no assumption about the text that C67 and C68 do not prove). Missing: the constructs that are not modelled, see DESIGN.md."
  },
  {
   "property": "C67",
   "status": "partial",
   "theorems": [
    "Mes.Props.C67_labels_partial",
    "Mes.Props.C67_twice",
    "Mes.Props.C67_false",
    "Mes.Props.C67_clash"
   ],
   "note": "C67_full is false (C67_false: C67_twice, an if whose condition begins with a ?:; C67_clash, a function with the name of a label). Proved for programs without such conditions and names (C67_labels_partial); nothing else is missing for the modelled part of C."
  },
  {
   "property": "C68",
   "status": "partial",
   "theorems": [
    "Mes.Props.C68_assembles_partial",
    "Mes.Props.C68_crowded",
    "Mes.Props.C68_false"
   ],
   "note": "C68_full is false (C68_false: C68_crowded, a char with an initial value after 31 other variables). Proved for functions with at most 31 variables or without initialised variables of one or two bytes (C68_assembles_partial); nothing else is missing for the modelled part of C."
  },
  {
   "property": "C69",
   "status": "partial",
   "theorems": [
    "Mes.Props.C69_white_false",
    "Mes.Props.C69_large",
    "Mes.Props.C69_mismatch",
    "Mes.Props.C69_no_number",
    "Mes.Props.C69_past_end",
    "Mes.Props.C69_sscanf_partial",
    "Mes.Props.C69_inverse_partial"
   ],
   "note": "The full property is false (C69_white_false; also C69_large, C69_mismatch, C69_no_number, C69_past_end). Proved for templates of ordinary characters, single white-space characters, %d, %i, %u and %c, and numbers up to INT_MAX - 48; not covered: widths, %s, %x and floating point, other bases of %i, texts that do not match."
  },
  {
   "property": "C70",
   "status": "partial",
   "theorems": [
    "Mes.Props.C70_found_partial",
    "Mes.Props.C70_execvp_partial",
    "Mes.Props.C70_slash",
    "Mes.Props.C70_unset",
    "Mes.Props.C70_runs_on",
    "Mes.Props.C70_missing_partial",
    "Mes.Props.C70_beyond_false",
    "Mes.Props.C70_current_false",
    "Mes.Props.C70_long_false",
    "Mes.Props.C70_false"
   ],
   "note": "The full property is false (C70_beyond_false, C70_runs_on, C70_current_false, C70_long_false, C70_unset). Proved: a name with a slash is used as it is; with non-empty directories whose names fit in the buffer, the first executable file is run if there is one; a missing program is reported if an empty text follows PATH in the memory."
  },
  {
   "property": "C71",
   "status": "proved",
   "theorems": [
    "Mes.Props.C71_readdir",
    "Mes.Props.C71_list",
    "Mes.Props.C71_error",
    "Mes.Props.C71_errno_false"
   ],
   "note": "C71_readdir for each call, C71_list and C71_error for a whole listing. In addition C71_errno_false: calls that succeed may set errno to 0."
  },
  {
   "property": "C72",
   "status": "partial",
   "theorems": [
    "Mes.Props.C72_error_false",
    "Mes.Props.C72_short_false",
    "Mes.Props.C72_char_false",
    "Mes.Props.C72_false",
    "Mes.Props.C72_fwrite",
    "Mes.Props.C72_blocks_partial",
    "Mes.Props.C72_program_partial"
   ],
   "note": "The full property is false: fputs and puts ignore errors and short writes (C72_error_false, C72_short_false), fputc returns 0 (C72_char_false). Proved: fwrite in full (C72_fwrite, C72_blocks_partial), and for all the functions the bytes in the file for every sequence of calls when the kernel takes every write as a whole (C72_program_partial)."
  },
  {
   "property": "C73",
   "status": "partial",
   "theorems": [
    "Mes.Props.C73_truncate_false",
    "Mes.Props.C73_missing_false",
    "Mes.Props.C73_update_false",
    "Mes.Props.C73_append_false",
    "Mes.Props.C73_false",
    "Mes.Props.C73_modes_partial",
    "Mes.Props.C73_append_partial"
   ],
   "note": "The full property is false: C73_truncate_false, C73_missing_false, C73_update_false, C73_append_false. Proved: r, rb, w, wb for every file, r+ and a+ (with b too) for an existing file; a without + on an existing file keeps the contents and appends, but allows to read as well."
  },
  {
   "property": "C74",
   "status": "proved",
   "theorems": [
    "Mes.Props.C74_make_stack",
    "Mes.Props.C74_stack_length",
    "Mes.Props.C74_stack_ref"
   ],
   "note": "C74_make_stack, C74_stack_length, C74_stack_ref. The symbol frame-printer is in the symbol table (it is the name of a builtin), frames need not be. The memory has to have room, without collections, as in the code."
  },
  {
   "property": "C75",
   "status": "partial",
   "theorems": [
    "Mes.Props.C75_execl_partial",
    "Mes.Props.C75_first",
    "Mes.Props.C75_many",
    "Mes.Props.C75_unended",
    "Mes.Props.C75_execl_false",
    "Mes.Props.C75_execlp_slash",
    "Mes.Props.C75_execlp_partial"
   ],
   "note": "The full property is false: the first argument is dropped and the name of the file given instead (C75_execl_false, C75_first), 1000 arguments overflow the array (C75_many), and a call without variable arguments reads beyond (C75_unended). Proved: execl for a first argument that is the name of the file and at most 999 arguments; execlp with a name that contains a slash, or that is found in PATH, where C70 holds."
  },
  {
   "property": "C76",
   "status": "partial",
   "theorems": [
    "Mes.Props.C76_last",
    "Mes.Props.C76_partial",
    "Mes.Props.C76_false",
    "Mes.Props.C76_during_false",
    "Mes.Props.C76_result_false"
   ],
   "note": "The full property is false: only the function that was registered last is called (C76_last, C76_false), functions registered meanwhile are not called (C76_during_false), and atexit has no result (C76_result_false). Proved for at most one function that registers no other."
  },
  {
   "property": "C77",
   "status": "partial",
   "theorems": [
    "Mes.Props.C77_partial",
    "Mes.Props.C77_same",
    "Mes.Props.C77_before",
    "Mes.Props.C77_false",
    "Mes.Props.C77_short_false"
   ],
   "note": "The full property is false: the letters depend on the address only (C77_same, C77_false), and a short template lets the characters before it be overwritten (C77_before, C77_short_false). Proved: the last six characters become letters and nothing else changes."
  },
  {
   "property": "C78",
   "status": "partial",
   "theorems": [
    "Mes.Props.C78_partial",
    "Mes.Props.C78_wrong",
    "Mes.Props.C78_false",
    "Mes.Props.C78_once",
    "Mes.Props.C78_add"
   ],
   "note": "The full property is false for twelve definitions (C78_wrong): six operations on memory without a width have 32 bits instead of 64 (C78_add), two additions take a constant of two bytes instead of one, mov____$i8,%rax sets %al only, and three mnemonics name no instruction. Proved for the other 200 definitions; no mnemonic is defined twice (C78_once)."
  },
  {
   "property": "C79",
   "status": "partial",
   "theorems": [
    "Mes.Props.C79_value_partial",
    "Mes.Props.C79_value_sign",
    "Mes.Props.C79_value_false",
    "Mes.Props.C79_negative_false",
    "Mes.Props.C79_mesc_false",
    "Mes.Props.C79_value_r0_partial",
    "Mes.Props.C79_value_r0_false",
    "Mes.Props.C79_add_partial",
    "Mes.Props.C79_add_unknown",
    "Mes.Props.C79_add_false",
    "Mes.Props.C79_add_r0_partial",
    "Mes.Props.C79_and_partial",
    "Mes.Props.C79_and_unknown",
    "Mes.Props.C79_and_false",
    "Mes.Props.C79_cmp_partial",
    "Mes.Props.C79_cmp_unknown",
    "Mes.Props.C79_cmp_false",
    "Mes.Props.C79_local",
    "Mes.Props.C79_false"
   ],
   "note": "The full property is false: constants from 0x80000000 to 0xfffffffe get a sign (C79_value_sign, C79_value_false, C79_and_false), the upper half is wrong below -0x100000000 (C79_negative_false) and for MesCC compiled with mesc (C79_mesc_false), value->r0 drops what is beyond 32 bits (C79_value_r0_false), and many lines cannot be assembled because a mnemonic is missing or parentheses are (C79_add_unknown, C79_and_unknown, C79_cmp_unknown). Proved for all other constants; local-ptr->r for all offsets of 31 bits (C79_local)."
  },
  {
   "property": "C80",
   "status": "partial",
   "theorems": [
    "Mes.Props.C80_partial",
    "Mes.Props.C80_defined",
    "Mes.Props.C80_registers",
    "Mes.Props.C80_one",
    "Mes.Props.C80_two",
    "Mes.Props.C80_missing",
    "Mes.Props.C80_false"
   ],
   "note": "False as stated: nineteen mnemonics are written and not defined (C80_missing, C80_false). C80_partial is the rest, for all reachable allocations and all constants; C80_defined adds that the definition is the instruction named."
  },
  {
   "property": "C81",
   "status": "proved",
   "theorems": [
    "Mes.Props.C81_binary",
    "Mes.Props.C81_unary",
    "Mes.Props.C81_compare",
    "Mes.Props.C81_test",
    "Mes.Props.C81_truth",
    "Mes.Props.C81_div",
    "Mes.Props.C81_div_signed",
    "Mes.Props.C81_move",
    "Mes.Props.C81_relation",
    "Mes.Props.C81_shift_sign"
   ],
   "note": "The processor is Spec/X64Run.lean, after its manuals; flags are represented as the operands of the last comparison. Functions that use memory, the stack or constants are not in this claim (C79 has constants, C80 the mnemonics of all)."
  },
  {
   "property": "C82",
   "status": "proved",
   "theorems": [
    "Mes.Props.C82_store",
    "Mes.Props.C82_load",
    "Mes.Props.C82_offset",
    "Mes.Props.C82_variables",
    "Mes.Props.C82_far"
   ],
   "note": "Memory wraps around at 2^64 and has no pages that cannot be written. C82_far is what happens beyond displacements of four bytes."
  }
 ]
}