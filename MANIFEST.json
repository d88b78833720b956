{
 "claims": [
  {
   "property": "C01",
   "status": "proved",
   "theorems": [
    "Nk.Props.C01_limit",
    "Nk.Props.C01_over_limit_refused",
    "Nk.Props.C01_within_limit_granted"
   ],
   "note": ""
  },
  {
   "property": "C02",
   "status": "proved",
   "theorems": [
    "Nk.Props.C02_accounting",
    "Nk.Props.C02_no_undefined_behaviour"
   ],
   "note": ""
  },
  {
   "property": "C03",
   "status": "proved",
   "theorems": [
    "Nk.Props.C03_array",
    "Nk.Props.C03_overflow_refused"
   ],
   "note": ""
  },
  {
   "property": "C04",
   "status": "partial",
   "theorems": [
    "Nk.Props.C04_calls_return",
    "Nk.Props.C04_sticky",
    "Nk.Props.C04_inert_partial",
    "Nk.Props.C04_failure_reported",
    "Nk.Props.C04_failing_allocation_ends_call",
    "Nk.Props.C04_nested_failure_propagates",
    "Nk.Props.C04_error_count_positive",
    "Nk.Props.C04_violation_serializeData"
   ],
   "note": "Proved for every API function that uses the recovery wrapper, with arbitrary bodies and nested callbacks. Violated by nkxSerializeData called outside serialization, which has no wrapper and hits the allocator assertion."
  },
  {
   "property": "C05",
   "status": "proved",
   "theorems": [
    "Nk.Props.C05_delete_releases_once"
   ],
   "note": ""
  },
  {
   "property": "C06",
   "status": "proved",
   "theorems": [
    "Nk.Props.C06_realloc"
   ],
   "note": ""
  },
  {
   "property": "C07",
   "status": "proved",
   "theorems": [
    "Nk.Props.C07_lifo"
   ],
   "note": ""
  },
  {
   "property": "C08",
   "status": "proved",
   "theorems": [
    "Nk.Props.C08_bounded",
    "Nk.Props.C08_push",
    "Nk.Props.C08_underflow"
   ],
   "note": "The bound is relative to the largest limit in force so far; capacities are powers of two, so the effective limit rounds down. Clearing with freeing of memory (internal, not in the API) is excluded from the histories."
  },
  {
   "property": "C09",
   "status": "proved",
   "theorems": [
    "Nk.Props.C09_lookup",
    "Nk.Props.C09_fresh",
    "Nk.Props.C09_reused",
    "Nk.Props.C09_refused_only_when_full",
    "Nk.Props.C09_defined"
   ],
   "note": ""
  },
  {
   "property": "C10",
   "status": "proved",
   "theorems": [
    "Nk.Props.C10_ids",
    "Nk.Props.C10_no_copy",
    "Nk.Props.C10_intern",
    "Nk.Props.C10_sweep"
   ],
   "note": ""
  },
  {
   "property": "C11",
   "status": "partial",
   "theorems": [
    "Nk.Props.C11_read_partial",
    "Nk.Props.C11_write_partial",
    "Nk.Props.C11_collect",
    "Nk.Props.C11_read_all",
    "Nk.Props.C11_violated"
   ],
   "note": "Keys without identity (NaN, unknown tags, released strings) are outside the quantifier.  C11_read_partial and C11_write_partial: all histories up to the first assignment that is refused because of the field limit.  C11_read_all: all histories, with refused assignments counting as assignments of 0.  That is what violates the claim (C11_violated): a field whose only assignment was refused reads as 0 instead of nil, once the host has cleared the error."
  },
  {
   "property": "C12",
   "status": "partial",
   "theorems": [
    "Nk.Props.C12_len_partial",
    "Nk.Props.C12_len_all",
    "Nk.Props.C12_violated"
   ],
   "note": "C12_len_partial: all histories up to the first refused assignment.  C12_len_all: all histories; len is the number of fields less the number of refused assignments to the object.  So the claim is violated when assignments go on after a refused one (C12_violated)."
  },
  {
   "property": "C13",
   "status": "partial",
   "theorems": [
    "Nk.Props.C13_limit_partial",
    "Nk.Props.C13_limit_all",
    "Nk.Props.C13_assign_all",
    "Nk.Props.C13_refused",
    "Nk.Props.C13_violation",
    "Nk.Props.C13_removal_violated",
    "Nk.Props.C13_removal_example"
   ],
   "note": "A refused assignment records an error but leaves the element linked with value 0, so the object then has one field too many (C13_violation).  C13_limit_partial: the limit holds for all histories up to the first refusal; C13_limit_all: in general it is exceeded by at most the number of refused assignments.  C13_assign_all says exactly what every assignment does, also after refusals; when an object has no more fields than refused assignments, removing one fails the assertion of nkiVmObjectClearEntry (C13_removal_violated)."
  },
  {
   "property": "C14",
   "status": "partial",
   "theorems": [
    "Nk.Props.C14_counts_partial",
    "Nk.Props.C14_pins",
    "Nk.Props.C14_link",
    "Nk.Props.C14_unlink",
    "Nk.Props.C14_violation"
   ],
   "note": "Proved for balanced histories, and the intrusive linked list is proved to represent the list used there. Releasing an unheld object wraps its count, so it cannot be pinned any more (C14_violation)."
  },
  {
   "property": "C15",
   "status": "partial",
   "theorems": [
    "Nk.Props.C15_cleanup_partial",
    "Nk.Props.C15_violation"
   ],
   "note": "After a catastrophic failure deletion runs no external-object cleanup (C15_violation). Proved for all other histories."
  },
  {
   "property": "C16",
   "status": "proved",
   "theorems": [
    "Nk.Props.C16_keeps_reachable"
   ],
   "note": "For fewer than 2^32 collections (the pass number wraps)."
  },
  {
   "property": "C17",
   "status": "proved",
   "theorems": [
    "Nk.Props.C17_frees_unreachable"
   ],
   "note": "For fewer than 2^32 collections (the pass number wraps)."
  },
  {
   "property": "C18",
   "status": "proved",
   "theorems": [
    "Nk.Props.C18_terminates",
    "Nk.Props.C18_idempotent"
   ],
   "note": ""
  },
  {
   "property": "C19",
   "status": "proved",
   "theorems": [
    "Nk.Props.C19_identity",
    "Nk.Props.C19_transitive",
    "Nk.Props.C19_equivalence",
    "Nk.Props.C19_operator"
   ],
   "note": ""
  },
  {
   "property": "C20",
   "status": "proved",
   "theorems": [
    "Nk.Props.C20_integers",
    "Nk.Props.C20_negation",
    "Nk.Props.C20_symmetry"
   ],
   "note": ""
  },
  {
   "property": "C21",
   "status": "proved",
   "theorems": [
    "Nk.Props.C21_bucket"
   ],
   "note": ""
  },
  {
   "property": "C22",
   "status": "proved",
   "theorems": [
    "Nk.Props.C22_roundtrip"
   ],
   "note": ""
  },
  {
   "property": "C23",
   "status": "proved",
   "theorems": [
    "Nk.Props.C23_exact",
    "Nk.Props.C23_division_total",
    "Nk.Props.C23_refused",
    "Nk.Props.C23_negate",
    "Nk.Props.C23_overflow_undefined"
   ],
   "note": "Where the exact result of +, -, *, or unary minus is not representable the C code has undefined behaviour, which the model reports as such."
  },
  {
   "property": "C24",
   "status": "partial",
   "theorems": [
    "Nk.Props.C24_not",
    "Nk.Props.C24_and_partial",
    "Nk.Props.C24_or_partial",
    "Nk.Props.C24_violation"
   ],
   "note": "&& and || truncate their operands to 8 bits: non-zero multiples of 256 count as false (C24_violation). Proved for all other operands; ! is proved in full."
  },
  {
   "property": "C25",
   "status": "proved",
   "theorems": [
    "Nk.Props.C25_memory_safe",
    "Nk.Props.C25_no_out_of_bounds",
    "Nk.Props.C25_any_program"
   ],
   "note": "Relative to the contract HostOK for native functions, and while the 32-bit collection pass number does not wrap. Signed overflow, out-of-range float to integer conversion, and (after a refused assignment, C13) the failing assertion on the field count remain possible ends of an instruction; none of them is a memory access."
  },
  {
   "property": "C26",
   "status": "partial",
   "theorems": [
    "Nk.Props.C26_clock_new",
    "Nk.Props.C26_limit_partial",
    "Nk.Props.C26_execute_partial",
    "Nk.Props.C26_violated"
   ],
   "note": "Proved from every state whose countdown is between one and the collection interval. An earlier limit error leaves the countdown at zero, and after clearing the errors the limit is then not checked for 2^32 - 1 instructions (C26_violated). Relative to the contract KeepsLimit for native functions."
  },
  {
   "property": "C27",
   "status": "partial",
   "theorems": [
    "Nk.Props.C27_errors_kept",
    "Nk.Props.C27_errors_kept_api",
    "Nk.Props.C27_stops_partial",
    "Nk.Props.C27_count_partial",
    "Nk.Props.C27_violated"
   ],
   "note": "Errors are kept in order by everything that executes code. A second nkxVmExecuteProgram executes one instruction despite recorded errors, nkxVmIterate executes END despite errors, and after a catastrophic failure the count is 1 (C27_violated). Relative to the contract KeepsErrors for native functions."
  },
  {
   "property": "C28",
   "status": "partial",
   "theorems": [
    "Nk.Props.C28_at_most",
    "Nk.Props.C28_split_partial",
    "Nk.Props.C28_at_end_partial",
    "Nk.Props.C28_violated"
   ],
   "note": "Iterating at the end executes the END instruction again: this counts down the collection clock and the instruction limit (C28_violated); everything else about the state is unchanged."
  },
  {
   "property": "C29",
   "status": "proved",
   "theorems": [
    "Nk.Props.C29_call_return",
    "Nk.Props.C29_wrong_count"
   ],
   "note": "For every stack, argument list, function value and call site: the call pushes the return address and jumps, and a return that finds its frame in place removes callee, arguments and frame and leaves exactly the result; a wrong argument count is an error. The body must leave its frame in place, as the quantifier says."
  },
  {
   "property": "C30",
   "status": "proved",
   "theorems": [
    "Nk.Props.C30_only_declared",
    "Nk.Props.C30_only_declared_run",
    "Nk.Props.C30_refused",
    "Nk.Props.C30_called"
   ],
   "note": "Replacing the host's callback by any other that agrees on admissible calls changes nothing, for one instruction and for any number of instructions; refused calls record an error and change nothing else."
  },
  {
   "property": "C31",
   "status": "proved",
   "theorems": [
    "Nk.Props.C31_function",
    "Nk.Props.C31_error"
   ],
   "note": "For every object graph (cyclic ones included), value called, arguments and stack with room for the prepended values: either a function is reached within ten redirections and is entered or called with the data values before the arguments, or an error is recorded. Assumes the fields of the objects are as C11 establishes (OWF) and that the names _exec and _data can be interned."
  },
  {
   "property": "C32",
   "status": "proved",
   "theorems": [
    "Nk.Props.C32_script",
    "Nk.Props.C32_native",
    "Nk.Props.C32_not_function"
   ],
   "note": "For every state, function and argument list with room on the stack. A script function completes when it executes its return in the context it was called in with its frame in place; a native one when it returns without error, leaving stack, instruction pointer and context as it found them."
  },
  {
   "property": "C33",
   "status": "proved",
   "theorems": [
    "Nk.Props.C33_chain",
    "Nk.Props.C33_active_not_resumed",
    "Nk.Props.C33_root_cannot_yield"
   ],
   "note": "Relative to the contract HostOK for native functions."
  },
  {
   "property": "C34",
   "status": "proved",
   "theorems": [
    "Nk.Props.C34_forever",
    "Nk.Props.C34_is_finished",
    "Nk.Props.C34_is_finished_iff",
    "Nk.Props.C34_resume_nil",
    "Nk.Props.C34_return_finishes"
   ],
   "note": "Gone is preserved by every execution (contexts of finished coroutines never change and never become current again); is_finished and resume at the instruction level for every stack; the return of the outermost function establishes Gone. Host contract: KeepsFinished"
  },
  {
   "property": "C35",
   "status": "proved",
   "theorems": [
    "Nk.Props.C35_yield",
    "Nk.Props.C35_resume",
    "Nk.Props.C35_first_resume",
    "Nk.Props.C35_isolation",
    "Nk.Props.C35_round_trip"
   ],
   "note": "yield and resume as exact state changes for all stacks and values; any instruction leaves the contexts that are not running before or after it unchanged (or collected); round trip over executions of any length. Host contract: KeepsOthers"
  },
  {
   "property": "C36",
   "status": "partial",
   "theorems": [
    "Nk.Props.C36_save_load_partial",
    "Nk.Props.C36_no_functions_violated",
    "Nk.Props.C36_save_caps_interval"
   ],
   "note": "every VM in order with at least one function; the code violates the claim for a VM without functions (its image is rejected, proved)"
  },
  {
   "property": "C37",
   "status": "partial",
   "theorems": [
    "Nk.Props.C37_consumes",
    "Nk.Props.C37_prefix_partial",
    "Nk.Props.C37_prefix_violated"
   ],
   "note": "consumption proved in full; a prefix that ends inside a coroutine is accepted (proved), but then an error is recorded (proved)"
  },
  {
   "property": "C38",
   "status": "partial",
   "theorems": [
    "Nk.Props.C38_accepted_partial",
    "Nk.Props.C38_stacks_partial",
    "Nk.Props.C38_stack_violated"
   ],
   "note": "proved for everything but coroutines' stacks when the loader has recorded an error and still reports success (violation proved)"
  },
  {
   "property": "C39",
   "status": "proved",
   "theorems": [
    "Nk.Props.C39_by_name",
    "Nk.Props.C39_missing_rejected",
    "Nk.Props.C39_unused_not_needed"
   ],
   "note": ""
  },
  {
   "property": "C40",
   "status": "proved",
   "theorems": [
    "Nk.Props.C40_stable",
    "Nk.Props.C40_refused",
    "Nk.Props.C40_accepted",
    "Nk.Props.C40_execution"
   ],
   "note": "for every history of registrations of all kinds and executions since creation; natives are assumed to change registries only by registering (HostRegisters)"
  },
  {
   "property": "C41",
   "status": "proved",
   "theorems": [
    "Nk.Props.C41_same",
    "Nk.Props.C41_distinct",
    "Nk.Props.C41_one_value"
   ],
   "note": "for every history since creation (RegHist)"
  },
  {
   "property": "C42",
   "status": "proved",
   "theorems": [
    "Nk.Props.C42_find",
    "Nk.Props.C42_set",
    "Nk.Props.C42_cleanup"
   ],
   "note": "for every history since creation; destruction in the normal and in the failed state"
  },
  {
   "property": "C43",
   "status": "partial",
   "theorems": [
    "Nk.Props.C43_file_once",
    "Nk.Props.C43_latest_partial",
    "Nk.Props.C43_position_partial",
    "Nk.Props.C43_markers",
    "Nk.Props.C43_lines_partial",
    "Nk.Props.C43_first_line_wrong",
    "Nk.Props.C43_after_reset_wrong"
   ],
   "note": "the code violates the claim for the first line of every script (no marker is made) and after an error in interactive use; proved for everything else"
  },
  {
   "property": "C44",
   "status": "proved",
   "theorems": [
    "Nk.Props.C44_visits"
   ],
   "note": "for every well formed table"
  },
  {
   "property": "C45",
   "status": "partial",
   "theorems": [
    "Nk.Props.C45_partial",
    "Nk.Props.C45_no_directive",
    "Nk.Props.C45_unclosed_quote",
    "Nk.Props.C45_escaped_quote",
    "Nk.Props.C45_line_overflow"
   ],
   "note": "the code violates the claim for quotation marks in preprocessor directives that are unclosed or follow an escaped one (proved); proved for all other texts, up to overflow of the line counter (witness)"
  },
  {
   "property": "C46",
   "status": "proved",
   "theorems": [
    "Nk.Props.C46_unescape",
    "Nk.Props.C46_too_long",
    "Nk.Props.C46_escapes",
    "Nk.Props.C46_plain"
   ],
   "note": "every literal text; texts too long for 32 bits end in the catastrophic failure path"
  },
  {
   "property": "C47",
   "status": "partial",
   "theorems": [
    "Nk.Props.C47_copy_partial",
    "Nk.Props.C47_copy_overruns",
    "Nk.Props.C47_copy_whole",
    "Nk.Props.C47_duplicate",
    "Nk.Props.C47_append",
    "Nk.Props.C47_append_too_long",
    "Nk.Props.C47_join"
   ],
   "note": "the copy helper's size argument is one less than the buffer it needs, so with the buffer size it overruns by one (proved); exact sizes proved for the rest"
  },
  {
   "property": "C48",
   "status": "proved",
   "theorems": [
    "Nk.Props.C48_exists",
    "Nk.Props.C48_unique",
    "Nk.Props.C48_parse",
    "Nk.Props.C48_sequence"
   ],
   "note": "For every sequence of operands and binary operators there is exactly one tree grouped by the precedence table with equal precedence to the left, and the parser returns it. The expression grammar (atoms, parentheses, calls, indexing, field access, method calls, prefix and postfix operators, nested expressions) is in Spec/Parse.lean; anonymous functions are not part of it. The hypothesis on s.depth is the recursion limit of the code."
  },
  {
   "property": "C49",
   "status": "partial",
   "theorems": [
    "Nk.Props.C49_partial",
    "Nk.Props.C49_violated",
    "Nk.Props.C49_violated_source"
   ],
   "note": "False as stated: the source text (len(x))(y); stops the parser at an assertion (proved from the tokens and from the source text). C49_partial: for every token sequence and every state a host can bring the compiler into, the parser ends with a tree or with an error, the assertion being possible only if a word like len is among the tokens; overflow and the memory limit can also end it (inside anonymous functions)."
  },
  {
   "property": "C50",
   "status": "proved",
   "theorems": [
    "Nk.Props.C50_expression",
    "Nk.Props.C50_frame",
    "Nk.Props.C50_integers",
    "Nk.Props.C50_field",
    "Nk.Props.C50_len",
    "Nk.Props.C50_method",
    "Nk.Props.C50_method_error"
   ],
   "note": "For all trees over literals, local and global variables, object creation, unary and binary operators, indexing, assignment to variables and fields, calls, method calls (o->f(..)) and the built-in functions object, len, resume, yield and coroutine. The meaning of an operator is what its instruction does (C20 to C24, C59 to C61); C50_integers spells it out for integers, C50_field, C50_len, C50_method and C50_method_error for objects. The instruction count and the garbage collector, which nkiVmIterate interleaves, are not part of the step relation; C68 adds the count. The built-in function is_finished is not in the expression type (see C51)."
  },
  {
   "property": "C51",
   "status": "partial",
   "theorems": [
    "Nk.Props.C51_read_partial",
    "Nk.Props.C51_write_partial",
    "Nk.Props.C51_violated"
   ],
   "note": "False as stated: after is_finished() the compiler's idea of the stack height is one too high (stack offset table), and local variables are looked for in the wrong slots; proved with a source text. For expressions built without is_finished, reads and writes refer to the variable's slot whatever temporaries there are."
  },
  {
   "property": "C52",
   "status": "proved",
   "theorems": [
    "Nk.Props.C52_statement",
    "Nk.Props.C52_height",
    "Nk.Props.C52_program"
   ],
   "note": "For every program made of expression statements, declarations, blocks, if, if/else, while, do, for, break and return, nested in any way, that compiles without an error: running the code has the outcome of the source (normal end, return, error, or any intermediate point, so that endless loops are covered), and the stack is at its height at the end of each block. Function definitions are not in the statement type; their bodies are blocks and covered by C52_statement. Hypotheses: the tokens nest within the recursion limit of the compiler (see C54), and the machine has room on the stack."
  },
  {
   "property": "C53",
   "status": "proved",
   "theorems": [
    "Nk.Props.C53_innermost",
    "Nk.Props.C53_redeclared",
    "Nk.Props.C53_declared",
    "Nk.Props.C53_leave",
    "Nk.Props.C53_statement",
    "Nk.Props.C53_closed"
   ],
   "note": "Lookup and redeclaration hold for every name and every state of the compiler. C53_statement: at top level, for all token sequences (well formed or not), a statement that is no declaration leaves the names as they were; C53_closed: no scope is left open between two calls, even by failing scripts. C53_leave is the version for blocks at any depth, for the statements of C52, whose meaning at run time is C52_program."
  },
  {
   "property": "C54",
   "status": "partial",
   "theorems": [
    "Nk.Props.C54_levels_partial",
    "Nk.Props.C54_violated"
   ],
   "note": "False as stated: every var and return statement uses up one of the 256 levels for good, so a flat program with 256 of them is refused. Proved: that these two are the only statements of C52 that do so, and the number of levels used up is exactly their number."
  },
  {
   "property": "C55",
   "status": "partial",
   "theorems": [
    "Nk.Props.C55_value_partial",
    "Nk.Props.C55_code_partial",
    "Nk.Props.C55_integers_partial",
    "Nk.Props.C55_violated",
    "Nk.Props.C55_mixed_violated"
   ],
   "note": "False as stated for floats: a folded float is printed with six decimals and read again. Proved for all expression trees without float literals (any calls, objects, variables around the constants), and with floats for hosts whose printing of floats can be read back exactly; operations on an integer constant and a float constant are excluded, because the optimizer converts the right one from its text and the machine from its value, which is not the same (C55_mixed_violated). A constant integer operation that overflows is undefined behaviour at compile time as it would be at run time."
  },
  {
   "property": "C56",
   "status": "proved",
   "theorems": [
    "Nk.Props.C56_value",
    "Nk.Props.C56_compiled"
   ],
   "note": "For local and global variables holding any integer whose neighbour is a 32-bit integer (otherwise the C code overflows, which is undefined). C56_compiled goes from the tokens to the running code; C56_value is the meaning inside larger expressions, whose code is C50."
  },
  {
   "property": "C57",
   "status": "partial",
   "theorems": [
    "Nk.Props.C57_partial",
    "Nk.Props.C57_fields_partial",
    "Nk.Props.C57_violated_key",
    "Nk.Props.C57_violated_coroutine"
   ],
   "note": "Proved for the whole of nkiVmShrink, including that the VM's invariants hold again, when coroutines other than the running one hold nothing movable on their stacks; field lookup is proved for all keys but moved objects. Both exceptions are proved to be violated by the code: a field under a moved object is not found again, and a suspended coroutine's stack keeps stale ids."
  },
  {
   "property": "C58",
   "status": "partial",
   "theorems": [
    "Nk.Props.C58_violation_user_data",
    "Nk.Props.C58_violation_libc_free",
    "Nk.Props.C58_null_user_data_partial"
   ],
   "note": "The code violates the property: user data is never stored, and deleting a failed VM uses libc free."
  },
  {
   "property": "C59",
   "status": "proved",
   "theorems": [
    "Nk.Props.C59_int_left",
    "Nk.Props.C59_float_left",
    "Nk.Props.C59_no_meaning",
    "Nk.Props.C59_negate_float"
   ],
   "note": "floating point operations are the host's (abstract); results that overflow an integer are undefined in C and covered by C23"
  },
  {
   "property": "C60",
   "status": "proved",
   "theorems": [
    "Nk.Props.C60_jump",
    "Nk.Props.C60_jump_if_zero"
   ],
   "note": ""
  },
  {
   "property": "C61",
   "status": "proved",
   "theorems": [
    "Nk.Props.C61_stack_read",
    "Nk.Props.C61_stack_write",
    "Nk.Props.C61_static_read",
    "Nk.Props.C61_static_write",
    "Nk.Props.C61_collects_when_due",
    "Nk.Props.C61_no_collection"
   ],
   "note": ""
  },
  {
   "property": "C62",
   "status": "proved",
   "theorems": [
    "Nk.Props.C62_loader_safe",
    "Nk.Props.create_ready"
   ],
   "note": "all byte strings; the host's own type serializers are assumed to do nothing"
  },
  {
   "property": "C63",
   "status": "partial",
   "theorems": [
    "Nk.Props.C63_tokens_partial",
    "Nk.Props.C63_source_partial",
    "Nk.Props.C63_finish",
    "Nk.Props.C63_global"
   ],
   "note": "For all states of a compiler a host can reach (Spec/Session) and all texts whose directives close their quotation marks: compiling ends with success or a recorded error, or by the memory limit, or by an overflow (folded constants C55, line counter), or, only with a word like len in the text, by the assertion of C49. Everything else (out of bounds, null, missing scope, unbounded recursion) is excluded. Finishing and declaring variables only fail for want of memory. Missing: those overflows and the assertion really happen, and the unclosed quotes of C45. Assumed: Session.run, what running code and the host do to the VM, keeps the code, script function entries and a well-formed string table."
  },
  {
   "property": "C64",
   "status": "proved",
   "theorems": [
    "Nk.Props.C64_program",
    "Nk.Props.C64_finished",
    "Nk.Props.C64_kept",
    "Nk.Props.C64_stays",
    "Nk.Props.C64_known",
    "Nk.Props.C64_jump_runs",
    "Nk.Props.C64_branch_runs",
    "Nk.Props.C64_finalized"
   ],
   "note": "For all states of a compiler a host can reach, so after any compiled texts, failed ones included. Shape and Entry (Spec/Layout) say what a program is; C64_jump_runs and C64_branch_runs connect it to the instructions. C64_finalized is about nkxCompilerFinalize."
  },
  {
   "property": "C65",
   "status": "proved",
   "theorems": [
    "Nk.Props.C65_program",
    "Nk.Props.C65_value",
    "Nk.Props.C65_error"
   ],
   "note": "From the tokens of the program to the running code. CallsAs (Spec/Func) says what a call does, and C65_value and C65_error connect it to the meaning of expressions that contain calls, so recursive functions are handled by induction, as in the example (sum(n) = 1 + ... + n, for all n up to 900 and, through the compiled program, for n = 4). Not in the program type: functions defined inside other functions or in expressions. A definition that cannot be reached (after an endless loop or a return) is not claimed to be callable."
  },
  {
   "property": "C66",
   "status": "proved",
   "theorems": [
    "Nk.Props.C66_tokens",
    "Nk.Props.C66_bad",
    "Nk.Props.C66_total"
   ],
   "note": "Lex (Spec/Lex) is the grammar of tokens; C66_total says that every text without NUL bytes is of one of the kinds the other two theorems are about, or gets to a preprocessor directive. Finding: a string literal without its closing quotation mark at the end of the text is accepted without an error, and a number of more than 255 characters becomes several numbers."
  },
  {
   "property": "C67",
   "status": "proved",
   "theorems": [
    "Nk.Props.C67_in_order",
    "Nk.Props.C67_run",
    "Nk.Props.C67_session"
   ],
   "note": "C67_in_order and C67_run are about the VM, C67_session about the compiler: it says that the histories here are ones that C49, C53, C63 and C64 are about. Native functions that call the compiler themselves are not covered, and a catastrophic failure (longjmp) ends the history."
  },
  {
   "property": "C68",
   "status": "proved",
   "theorems": [
    "Nk.Props.C68_run",
    "Nk.Props.C68_source",
    "Nk.Props.C68_kept",
    "Nk.Props.C68_start"
   ],
   "note": "C68_source goes from the source text (Lex, C66) and C68_run from the tokens, through compiling and making ready, to nkxVmExecuteProgram with its instruction countdown. AtRest (Spec/Script) is the state between two scripts: C68_start says that a new VM is in it, and C68_run that a successful execution leads back to it, with the names of the script bound. After a failed execution nothing more is claimed (the error stays until it is cleared, C27). Collections during a script are excluded by hypothesis; that they free nothing reachable is C16. Hypotheses on the sizes: the recursion limit of the compiler (C54) and room on the stack."
  },
  {
   "property": "C69",
   "status": "proved",
   "theorems": [
    "Nk.Props.C69_call",
    "Nk.Props.C69_refused",
    "Nk.Props.C69_declare",
    "Nk.Props.C69_global",
    "Nk.Props.C69_taken"
   ],
   "note": "C69_declare and C69_global lead from AtRest (C68) to AtRest, so declarations and scripts can follow each other in any order; C69_call and C69_refused give the meaning of calls in the expressions of C50, C52, C65 and C68. Gives (Spec/Native) is what is asked of the callback: what it does depends on the machine, not on the instruction pointer or the stack of its caller. Each declaration uses two places for variables, only one of which is used (documented in Env.declare)."
  },
  {
   "property": "C70",
   "status": "partial",
   "theorems": [
    "Nk.Props.C70_ready",
    "Nk.Props.C70_kept",
    "Nk.Props.C70_found",
    "Nk.Props.C70_with_partial",
    "Nk.Props.C70_distinct",
    "Nk.Props.C70_set",
    "Nk.Props.C70_missing_violated",
    "Nk.Props.FindEx.C70_executed_violated"
   ],
   "note": "All of it holds except for looking for a name that has not been declared with the compiler: nkiCompilerLookupVariable is the function the compiler uses for names in scripts, and records the error of an undefined variable, after which nkxVmExecuteProgram fails (C70_missing_violated, C70_executed_violated)."
  },
  {
   "property": "C71",
   "status": "proved",
   "theorems": [
    "Nk.Props.C71_add",
    "Nk.Props.C71_length",
    "Nk.Props.C71_text",
    "Nk.Props.C71_tight",
    "Nk.Props.C71_failed",
    "Nk.Props.C71_too_long",
    "Nk.Props.C71_all"
   ],
   "note": "On the bytes of the texts and buffers (Model/ErrText). C71_all puts them together for every history of recorded errors; that all texts together take less than 4 GiB is the VM's memory limit (C01), whose counter has 32 bits."
  },
  {
   "property": "C72",
   "status": "proved",
   "theorems": [
    "Nk.Props.C72_in_order",
    "Nk.Props.C72_no_out_of_bounds",
    "Nk.Props.C72_errors",
    "Nk.Props.C72_names",
    "Nk.Props.C72_code",
    "Nk.Props.C72_registers",
    "Nk.Props.C72_finished",
    "Nk.Props.C72_invalid",
    "Nk.Props.C72_limit",
    "Nk.Props.C72_call",
    "Nk.Props.C72_iterate",
    "Nk.Props.C72_rule_needed",
    "Nk.Props.C72_others",
    "Nk.Props.C72_plain",
    "Nk.Props.C72_others_violated"
   ],
   "note": "Native functions are programs of API calls (Api); apiHost runs them, with calls between scripts and native functions followed to any depth. Discharges HostOK, KeepsErrors, KeepsNames, NoCompiling, HostRegisters, KeepsFinished and KeepsLimit for such hosts, and KeepsOthers and Plain for those that execute nothing. Outcome fuel: runs not followed because a called function has not returned yet, the pass number of the collector would wrap (C16), or the external type or data of a coroutine is set; C72_rule_needed shows that the last leads to an access through a wrong pointer. Not among the calls: subsystems, saving, shrinking, compiling, and pointers to fields that are used after further calls. C72_others_violated is about something the property does not claim: KeepsOthers (C35) fails for a native function that calls a script function which yields (and holds, C72_others, for those that call nothing)."
  },
  {
   "property": "C73",
   "status": "proved",
   "theorems": [
    "Nk.Props.C73_count",
    "Nk.Props.C73_right",
    "Nk.Props.C73_accepted",
    "Nk.Props.C73_wrong_count",
    "Nk.Props.C73_wrong_type",
    "Nk.Props.C73_data",
    "Nk.Props.C73_data_only",
    "Nk.Props.C73_data_beyond",
    "Nk.Props.C73_data_no_object",
    "Nk.Props.C73_data_bad_type",
    "Nk.Props.C73_data_mismatch",
    "Nk.Props.C73_data_dead",
    "Nk.Props.C73_null",
    "Nk.Props.C73_subsystem",
    "Nk.Props.C73_only_errors",
    "Nk.Props.C73_in_native"
   ],
   "note": "The variable arguments of nkxFunctionCallbackCheckArguments are a list of as many types as announced (fewer are undefined behaviour). Two observations: NULL does not always mean that an error was recorded (C73_null), and an object that does not exist any more is reported three times (C73_data_dead). C73_in_native and C73_only_errors make the checks parts of the native functions of C72."
  },
  {
   "property": "C74",
   "status": "partial",
   "theorems": [
    "Nk.Props.C74_safe_partial",
    "Nk.Props.C74_listing_partial",
    "Nk.Props.C74_compiled",
    "Nk.Props.C74_string",
    "Nk.Props.C74_violated"
   ],
   "note": "The full statement is false (C74_violated): a program with a number that is not an instruction, as it can come out of a saved image, makes the listing read the name of the instruction through a NULL pointer. C74_safe_partial and C74_listing_partial exclude these programs; C74_compiled shows that programs from the compiler never are of that kind, at any point of running them. Prints asks that %f prints a float in less than 79 characters. That nothing is changed is part of the model (the dump only reads; its two trackers are assumed to be allocated)."
  },
  {
   "property": "C75",
   "status": "partial",
   "theorems": [
    "Nk.Props.C75_clears",
    "Nk.Props.C75_given_up",
    "Nk.Props.C75_forever",
    "Nk.Props.C75_resume",
    "Nk.Props.C75_program",
    "Nk.Props.C75_in_order_partial",
    "Nk.Props.C75_session_partial",
    "Nk.Props.C75_place_violated",
    "Nk.Props.C75_violated",
    "Nk.Props.C75_violated_call",
    "Nk.Props.C75_levels_violated"
   ],
   "note": "Proved: what clearing the errors does to every VM in order (Cleared, Spec/Repl), that coroutines given up stay so and cannot be resumed, that the program is the one from before, for all histories, and that the whole session stays in order if failed texts declare no functions, do not stop inside a coroutine and refuse no assignment. False in general: functions of a failed text can be called after their code was replaced; levels of recursion are not given back, so that after 257 bad lines nothing compiles; the given place is not checked."
  },
  {
   "property": "C76",
   "status": "partial",
   "theorems": [
    "Nk.Props.C76_contents",
    "Nk.Props.C76_missing",
    "Nk.Props.C76_memory",
    "Nk.Props.C76_safe_partial",
    "Nk.Props.C76_size_violated",
    "Nk.Props.C76_large_violated",
    "Nk.Props.C76_short_violated"
   ],
   "note": "Proved for all files whose reported size is the number of bytes that can be read and is below 2^32 - 1. False otherwise: a size of -1 (or that of a directory) makes it write outside of memory, larger files are cut off silently, and after a short read old memory contents are compiled."
  },
  {
   "property": "C77",
   "status": "proved",
   "theorems": [
    "Nk.Props.C77_literals",
    "Nk.Props.C77_later",
    "Nk.Props.C77_script",
    "Nk.Props.C77_tokens",
    "Nk.Props.C77_code",
    "Nk.Props.C77_literal",
    "Nk.Props.C77_collect",
    "Nk.Props.C77_run",
    "Nk.Props.C77_api",
    "Nk.Props.C77_shrink",
    "Nk.Props.C77_save"
   ],
   "note": "Used (Props/Literal) lists what can happen to a VM with a compiler; C77_literals and C77_code are about all histories of it, and C77_code gives the hypothesis about literals that the theorems about compiled code (C50, C52, C68) have. Native functions are assumed to keep literals (HostLiterals), which C77_api proves for those written with the API. C77_script and C77_tokens say that every instruction of compiled code that pushes a string has the id of a protected one, for all scripts (the layout invariant of C64 carries it), and C77_later puts it together. Shrinking is covered under the conditions of C57."
  },
  {
   "property": "C78",
   "status": "proved",
   "theorems": [
    "Nk.Props.C78_stays",
    "Nk.Props.C78_life",
    "Nk.Props.C78_cleared",
    "Nk.Props.C78_shrink",
    "Nk.Props.C78_save"
   ],
   "note": "C78_stays is about all histories of a compiler and its VM (After: scripts that compile or fail, declared variables and native functions, finishing, anything a running program and API calls do), C78_life about those where programs are really run, C78_cleared about interactive sessions, C78_shrink about compaction (under the conditions of C57) and C78_save about saving and loading (under those of C36). Functions of the failed line itself are the finding of C75. NoCompiling is assumed of native functions and proved for those written with the API (C72_code)."
  },
  {
   "property": "C79",
   "status": "proved",
   "theorems": [
    "Nk.Props.C79_host_data",
    "Nk.Props.C79_subsystem",
    "Nk.Props.C79_object",
    "Nk.Props.C79_only",
    "Nk.Props.C79_no_callbacks",
    "Nk.Props.C79_unframed"
   ],
   "note": "C79_host_data is the round trip of the whole VM with callbacks: the calls when loading are subCalls ++ objCalls (Spec/SaveHost), that is, for each saved subsystem and object the bytes its callback wrote, and the VM is Restored as in C36. C79_subsystem, C79_object and C79_only read this off for one subsystem or object and say that there are no other calls. C79_no_callbacks ties the model with callbacks to the one without. C79_unframed shows that the condition is needed: nothing in an image marks where the data of a callback ends. Assumed: callbacks do nothing else to the VM while saving and loading; the pointer made by a type's callback is not put into its object in the model."
  },
  {
   "property": "C80",
   "status": "partial",
   "theorems": [
    "Nk.Props.C80_complete",
    "Nk.Props.C80_sticky_partial",
    "Nk.Props.C80_room",
    "Nk.Props.C80_accepts",
    "Nk.Props.C80_harmless",
    "Nk.Props.C80_violated"
   ],
   "note": "saveTo (Model/SaveSink) is saving call by call of an arbitrary writer with a state of its own; save is saving with a writer that takes everything. C80_sticky_partial: if the writer takes nothing more after a refusal and saving returns true, then it took the whole image in order. C80_complete: the same for every writer when no error was added. C80_room: into a file with room for n bytes saving succeeds if and only if the image fits, for every n. C80_harmless: whatever the writer does there is no undefined behaviour and the VM only gets errors and the cap of its collection interval. Missing because the code violates it (C80_violated): the serializer of coroutines cannot return a failure, so a writer that refuses one piece of a coroutine and goes on gets a mutilated image from a save that returns true. Callbacks of the host are left out, their use of the writer is their own."
  },
  {
   "property": "C81",
   "status": "proved",
   "theorems": [
    "Nk.Props.C81_moves",
    "Nk.Props.C81_again",
    "Nk.Props.C81_one_result"
   ],
   "note": "Moved (Spec/SaveAgain) is a sequence of saves and loads through a list of new VMs, of any length; Prepared says what the host has to set up in them. C81_again: what loading gives is again a VM that satisfies everything C36 asks of a VM to be saved. C81_moves: by induction, all moves succeed and the last VM is Restored (the relation of C36) from the first one. VMs without functions are outside (C36_no_functions_violated). The images of successive moves are not the same bytes, since loading turns round the order of fields in a hash bucket (example in Props/SaveAgain)."
  },
  {
   "property": "C82",
   "status": "proved",
   "theorems": [
    "Nk.Props.C82_objects",
    "Nk.Props.C82_strings",
    "Nk.Props.C82_tables",
    "Nk.Props.C82_stacks",
    "Nk.Props.C82_half",
    "Nk.Props.C82_again"
   ],
   "note": "Compaction is followed with its two cursors: behind the hole cursor every hole has only entries after it that must not be moved. That the entries are still the same ones is C57. VMs with errors are not shrunk at all (nkshrink.c:186). Capacities stand for memory: the byte counts of the allocator are the subject of C01 and C02."
  },
  {
   "property": "C83",
   "status": "proved",
   "theorems": [
    "Nk.Props.C83_create",
    "Nk.Props.C83_sweep",
    "Nk.Props.C83_shrink",
    "Nk.Props.C83_subsystem",
    "Nk.Props.C83_agrees",
    "Nk.Props.C83_collect",
    "Nk.Props.C83_collect_agrees"
   ],
   "note": "Model/Fault has creating, sweeping and table shrinking with every allocation as a point of failure; C83_agrees: without failures they are the operations of the rest of the model. Cleanup callbacks of the host are recorded and do nothing else. Model/FaultGC has the whole collection, marking and deleting strings included (C83_collect): reachable objects are kept wherever it fails. Outside: failures during loading."
  },
  {
   "property": "C84",
   "status": "proved",
   "theorems": [
    "Nk.Props.C84_operator",
    "Nk.Props.C84_literal",
    "Nk.Props.C84_string"
   ],
   "note": "About one step of the tokenizer (token), at any place in any text. Operators of one character that begin no other operator are in a table of their own (single). What unescaping does to the text of a literal is not part of it."
  }
 ]
}