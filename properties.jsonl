{"id": "C01", "title": "Successful allocations respect the memory limit", "statement": "Whenever a nkxMalloc / nkxMallocArray / nkxRealloc / nkxReallocArray call returns normally, the VM's current memory usage (payload plus headers) is at most the limit set with nkxSetMaxAllocatedMemory at that moment; a request that would exceed it never succeeds and instead raises the catastrophic failure state.", "quantifier": "all histories of allocate/free/reallocate/set-limit calls with all 32-bit sizes and limits", "why_tests_cant": "The check involves 32-bit additions that can wrap; a test tries a handful of sizes, while the claim is about every history and every size including those near 2^32.", "anchors": ["src/nkmem.c:nkiMalloc_real", "src/nkmem.c:nkiRealloc", "src/nkx.c:nkxMalloc", "src/nkx.c:nkxSetMaxAllocatedMemory"]}
{"id": "C02", "title": "Reported memory usage is exactly the live allocations", "statement": "nkxVmGetCurrentMemoryUsage always equals the sum over blocks that have been allocated and not yet freed of (requested size + header size), and the peak-usage figure is the maximum that current usage has ever reached. In particular freeing everything brings usage back to zero, with no underflow.", "quantifier": "all histories of allocate/free/reallocate calls, including failing ones", "why_tests_cant": "Accounting drift only shows after particular interleavings of frees and failing reallocations; tests only sample histories.", "anchors": ["src/nkmem.c:nkiMalloc_real", "src/nkmem.c:nkiFree", "src/nkmem.c:nkiRealloc", "src/nkx.c:nkxVmGetCurrentMemoryUsage"]}
{"id": "C03", "title": "Array allocations are never undersized", "statement": "If nkxMallocArray(size,count) or nkxReallocArray(size,count) returns a block, its usable length is the exact mathematical product size*count; any product that does not fit in 32 bits is refused.", "quantifier": "all 32-bit element sizes greater than zero and all 32-bit counts", "why_tests_cant": "2^64 argument pairs; wrap-around cases are precisely those tests do not hit.", "anchors": ["src/nkmem.c:nkiMallocArray", "src/nkmem.c:nkiReallocArray"]}
{"id": "C04", "title": "Catastrophic failure is sticky and makes the API inert", "statement": "After an allocation has failed, the failure state is never cleared, the error count stays non-zero, and every further API call that runs, compiles, allocates, registers or edits VM data returns its documented failure value without changing the VM (only queries, the plain configuration setters and deletion still act).", "quantifier": "all API call sequences after a failure, with the failure striking at any allocation inside any call, at any nesting of API calls", "why_tests_cant": "The failure can strike at any of an unbounded number of allocation points (a crash-point property).", "anchors": ["src/nkfail.h:NK_SET_FAILURE_RECOVERY", "src/nkfail.h:NK_CATASTROPHE", "src/nkx.c", "src/nkerror.c:nkiGetErrorCount"]}
{"id": "C05", "title": "Deleting a failed VM releases every block exactly once", "statement": "Whatever the history, and at whatever allocation the catastrophic failure struck, deleting the VM after it releases every block that was still live exactly once and releases no block that was already released.", "quantifier": "all allocation histories and all crash points", "why_tests_cant": "Double frees and leaks depend on the exact interruption point; crash points are unbounded.", "anchors": ["src/nkvm.c:nkiVmDestroy", "src/nkmem.c:nkiMalloc_real", "src/nkmem.c:nkiFree"]}
{"id": "C06", "title": "Reallocation preserves contents", "statement": "A successful nkxRealloc(p,n) returns a block whose first min(old size, n) bytes are those of p, frees p, and leaves all other blocks untouched; a failing one leaves p and its contents intact.", "quantifier": "all block contents, all old and new sizes, all other live blocks", "why_tests_cant": "Quantifies over all contents and sizes.", "anchors": ["src/nkmem.c:nkiRealloc"]}
{"id": "C07", "title": "The value stack is a bounded LIFO stack", "statement": "Any sequence of pushes and pops on the VM stack behaves like a mathematical stack: each pop yields the most recent un-popped push, unless an error has been reported.", "quantifier": "all sequences of push, pop, pop-n and clear, all values, all stack-size limits", "why_tests_cant": "Growth/doubling boundaries and clear interact; the claim is over all op sequences.", "anchors": ["src/nkstack.c:nkiVmStackPush_internal", "src/nkstack.c:nkiVmStackPop", "src/nkstack.c:nkiVmStackPopN", "src/nkstack.c:nkiVmStackClear"]}
{"id": "C08", "title": "Stack overflow and underflow are reported and contained", "statement": "The stack never holds more values than the configured maximum stack size (for limits of at least one) nor more than 65536; a push that would exceed it, and a pop on an empty stack, record a VM error and every memory access they make stays inside the allocated stack storage.", "quantifier": "all op sequences, all limits set with nkxSetMaxStackSize, any index passed to peek", "why_tests_cant": "Memory-safety for every sequence and index, not for sampled ones.", "anchors": ["src/nkstack.c:nkiVmStackPush_internal", "src/nkstack.c:nkiVmStackPop", "src/nkstack.c:nkiVmStackPeek", "src/nkx.c:nkxSetMaxStackSize"]}
{"id": "C09", "title": "Live handles are unique and stable", "statement": "Every string id and object id handed out is different from all ids currently in use, refers to what was stored under it until that entry is released, and released ids are reused rather than lost.", "quantifier": "all sequences of creations, deletions and compactions of table entries", "why_tests_cant": "A free-list bug shows only for particular interleavings of allocation and release.", "anchors": ["src/nktable.c:nkiTableAddEntry", "src/nktable.c:nkiTableEraseEntry", "src/nktable.c:nkiTableShrink", "src/nktable.c:nkiTableResetHoles"]}
{"id": "C10", "title": "Equal strings have equal ids and different strings different ids", "statement": "At any time two live string ids are equal exactly when their texts are equal, whatever the hash collisions; looking up a text that is present never creates a second copy.", "quantifier": "all sequences of string creation and string garbage collection over all byte strings", "why_tests_cant": "Hash collisions and deletions from the middle of chains are unbounded in variety.", "anchors": ["src/nkstring.c:nkiVmStringTableFindOrAddString", "src/nkstring.c:nkiVmStringTableCleanOldStrings", "src/nkstring.c:nkiVmStringHash"]}
{"id": "C11", "title": "Objects behave as finite maps", "statement": "Reading a field returns the value most recently assigned to an identical key on the same object, or nil if there is none or nil was assigned last; writes to one key or object never affect another.", "quantifier": "all sequences of field writes and reads with all keys and values (integers, non-NaN floats, strings, functions, objects)", "why_tests_cant": "Depends on bucket chains, key identity across types, and deletion from chains, for every history.", "anchors": ["src/nkobjs.c:nkiVmObjectFindOrAddEntry", "src/nkobjs.c:nkiVmObjectClearEntry", "src/nkopcode.c:nkiOpcode_objectFieldGet", "src/nkopcode.c:nkiOpcode_objectFieldSet"]}
{"id": "C12", "title": "len() of an object is its number of fields", "statement": "len(object) always equals the number of distinct keys that currently have a non-nil value assigned.", "quantifier": "all sequences of field assignments including overwriting and nil removal", "why_tests_cant": "A counter drifting from the contents appears only under particular histories.", "anchors": ["src/nkobjs.c:nkiVmObjectFindOrAddEntry", "src/nkobjs.c:nkiVmObjectClearEntry", "src/nkopcode.c:nkiOpcode_len"]}
{"id": "C13", "title": "The field limit is enforced", "statement": "No sequence of script assignments makes an object hold more fields than nkxSetMaxFieldsPerObject allows; the offending assignment records an error.", "quantifier": "all histories and all limits", "why_tests_cant": "Needs an invariant over all histories.", "anchors": ["src/nkobjs.c:nkiVmObjectFindOrAddEntry", "src/nkx.c:nkxSetMaxFieldsPerObject"]}
{"id": "C14", "title": "External handles keep an object alive and are counted exactly", "statement": "After any balanced sequence of nkxVmObjectAcquireHandle/ReleaseHandle, an object is a garbage-collection root exactly when it has been acquired more often than released, and the set of pinned objects is tracked without duplicates; releasing a handle that is not held records an error and has no other effect.", "quantifier": "all interleavings of acquire and release over all objects", "why_tests_cant": "Doubly linked list surgery for every interleaving.", "anchors": ["src/nkobjs.c:nkiVmObjectAcquireHandle", "src/nkobjs.c:nkiVmObjectReleaseHandle", "src/nkx.h"]}
{"id": "C15", "title": "External data cleanup runs exactly once", "statement": "For each object carrying external data of a type with a cleanup callback, the callback runs exactly once over the life of the VM: when the object is collected or when the VM is deleted.", "quantifier": "all object graphs, histories and collection points", "why_tests_cant": "Exactly-once over every history.", "anchors": ["src/nkobjs.c:nkiVmObjectTableCleanupObject", "src/nkobjs.c:nkiVmObjectTableCleanOldObjects", "src/nkvm.c:nkiVmDestroy"]}
{"id": "C16", "title": "Garbage collection never frees a reachable value", "statement": "nkxVmGarbageCollect keeps every object and string that can be reached from the running coroutine's stack, its resume chain, global (static) storage or an externally held object, following fields, keys and coroutine stacks, and leaves its contents unchanged.", "quantifier": "all heaps, including cyclic ones, and all root sets", "why_tests_cant": "All object graphs; needs a reachability argument.", "anchors": ["src/nkgc.c:nkiVmGarbageCollect", "src/nkgc.c:nkiVmGarbageCollect_markValue", "src/nkgc.c:nkiVmGarbageCollect_markObject", "src/nkcorout.c:nkiCoroutineLibrary_coroutineGCMark"]}
{"id": "C17", "title": "Garbage collection frees everything unreachable", "statement": "After nkxVmGarbageCollect no object remains that is unreachable from the roots, and no string remains that is unreachable and not a literal of the program.", "quantifier": "all heaps, including cyclic garbage", "why_tests_cant": "All object graphs.", "anchors": ["src/nkgc.c:nkiVmGarbageCollect", "src/nkstring.c:nkiVmStringTableCleanOldStrings", "src/nkobjs.c:nkiVmObjectTableCleanOldObjects"]}
{"id": "C18", "title": "Garbage collection terminates and is idempotent", "statement": "A collection pass terminates on every heap, however large or cyclic, and running a second pass immediately afterwards frees nothing and runs no cleanup callback.", "quantifier": "all heaps", "why_tests_cant": "Termination for every graph cannot be tested.", "anchors": ["src/nkgc.c:nkiVmGarbageCollect"]}
{"id": "C19", "title": "Identity comparison is an equivalence and a total order", "statement": "The identity comparison used for === and for object keys is reflexive, symmetric and transitive on values other than NaN, never identifies values of different type, and orders all such values totally.", "quantifier": "all pairs and triples of values", "why_tests_cant": "2^64+ pairs and triples, including mixed types.", "anchors": ["src/nkvalue.c:nkiValueCompare"]}
{"id": "C20", "title": "Loose comparison of integers agrees with arithmetic", "statement": "For integers ==, !=, <, <=, >, >= agree with the mathematical order: exactly one of <, ==, > holds, >= is the negation of <, and a<b iff b>a.", "quantifier": "all pairs of values for the negation laws; all pairs of same-type values for symmetry", "why_tests_cant": "All pairs of values.", "anchors": ["src/nkvalue.c:nkiValueCompare", "src/nkopcode.c:nkiOpcode_gt", "src/nkopcode.c:nkiOpcode_lt", "src/nkopcode.c:nkiOpcode_ge", "src/nkopcode.c:nkiOpcode_le"]}
{"id": "C21", "title": "Identical keys have identical hashes", "statement": "Two values that are identical under === land in the same object bucket, so lookup cannot miss a present key.", "quantifier": "all pairs of values including +0.0 and -0.0", "why_tests_cant": "All pairs of values.", "anchors": ["src/nkvalue.c:nkiValueHash", "src/nkvalue.c:nkiValueCompare"]}
{"id": "C22", "title": "Integer to string to integer conversion is lossless", "statement": "Converting any integer to a string and that string back to an integer gives the same integer.", "quantifier": "all 32-bit integers", "why_tests_cant": "Unit tests check a few; includes the minimum integer and sign handling.", "anchors": ["src/nkvalue.c:nkiValueToString", "src/nkvalue.c:nkiValueToInt"]}
{"id": "C23", "title": "Integer arithmetic is exact or reported", "statement": "On integers +, -, *, /, % and unary - give the mathematically exact (truncating for / and %) result whenever it is representable in 32 bits; division or modulo by zero and INT_MIN divided by -1 (/ or %) record an error and never trap.", "quantifier": "all pairs of 32-bit integers", "why_tests_cant": "2^64 pairs.", "anchors": ["src/nkopcode.c:nkiOpcode_add", "src/nkopcode.c:nkiOpcode_subtract", "src/nkopcode.c:nkiOpcode_multiply", "src/nkopcode.c:nkiOpcode_divide", "src/nkopcode.c:nkiOpcode_modulo", "src/nkopcode.c:nkiOpcode_negate"]}
{"id": "C24", "title": "Logical operators follow truthiness", "statement": "a && b is true exactly when both operands are non-zero as integers, a || b exactly when at least one is, !a exactly when a is zero.", "quantifier": "all pairs of values", "why_tests_cant": "All 2^64 pairs; tests use 0 and 1.", "anchors": ["src/nkopcode.c:nkiOpcode_and", "src/nkopcode.c:nkiOpcode_or", "src/nkopcode.c:nkiOpcode_not"]}
{"id": "C25", "title": "No bytecode can read or write outside VM memory", "statement": "Executing any instruction sequence whatsoever, from any instruction pointer, with any operands, accesses only the allocated instruction, static and stack arrays and live table entries.", "quantifier": "all bytecode programs, all machine states and any number of steps", "why_tests_cant": "All possible (hostile) bytecode images; fuzzing only samples.", "anchors": ["src/nkvm.c:nkiVmIterate", "src/nkopcode.c", "src/nkstack.c"]}
{"id": "C26", "title": "The instruction limit stops every program", "statement": "With an instruction limit set, execution of any program (including infinite loops) through the API reports an error after a bounded number of instructions: at most the limit plus two GC intervals.", "quantifier": "all programs, all states, all limits and GC intervals of at least one", "why_tests_cant": "Non-terminating programs and all interval/limit pairs.", "anchors": ["src/nkvm.c:nkiVmIterate", "src/nkx.c:nkxSetRemainingInstructionLimit", "src/nkx.c:nkxSetGarbageCollectionInterval"]}
{"id": "C27", "title": "Errors stop execution and are kept in order", "statement": "Once an error is recorded, program execution through the API executes no further instruction; errors are never dropped or reordered and the reported count equals the number recorded, plus one for a catastrophic failure.", "quantifier": "all programs and all error sequences", "why_tests_cant": "All histories.", "anchors": ["src/nkerror.c:nkiAddErrorEx", "src/nkerror.c:nkiGetErrorCount", "src/nkvm.c:nkiVmExecuteProgram", "src/nkx.c:nkxVmIterate"]}
{"id": "C28", "title": "nkxVmIterate respects its count", "statement": "nkxVmIterate(vm, n) executes at most n instructions, and splitting n into a+b steps reaches the same state as running a then b; iterating past the end of the program changes nothing.", "quantifier": "all programs, states and counts", "why_tests_cant": "All programs and all splits.", "anchors": ["src/nkx.c:nkxVmIterate", "src/nkvm.c:nkiVmIterate", "src/nkopcode.c:nkiOpcode_end"]}
{"id": "C29", "title": "Calls and returns are balanced", "statement": "Calling a script function with n arguments and later returning from it replaces function and arguments on the caller's stack by exactly one result, leaves everything below untouched and resumes right after the call.", "quantifier": "all stacks, argument counts, call sites and function bodies that leave k locals", "why_tests_cant": "All stack depths and nesting of calls.", "anchors": ["src/nkopcode.c:nkiOpcode_call", "src/nkopcode.c:nkiOpcode_return"]}
{"id": "C30", "title": "Native functions only run with arguments they declared", "statement": "A C function registered with an argument count or argument types is only ever invoked with exactly that many arguments of those types (and external types); otherwise an error is recorded and it is not called.", "quantifier": "all calls from any bytecode with any arguments", "why_tests_cant": "All argument vectors.", "anchors": ["src/nkopcode.c:nkiOpcode_call", "src/nkx.c:nkxVmSetupExternalFunction", "src/nkx.c:nkxFunctionCallbackCheckArguments"]}
{"id": "C31", "title": "Callable objects resolve in bounded time", "statement": "Calling an object follows its _exec fields for a bounded number of redirections even if they form a cycle; it ends in a call of a function with the _data values prepended in order, or in an error.", "quantifier": "all object graphs including cyclic _exec chains", "why_tests_cant": "All graphs.", "anchors": ["src/nkopcode.c:nkiOpcode_call"]}
{"id": "C32", "title": "Host calls into the VM are transparent", "statement": "nkxVmCallFunction on a native or script function that completes without error leaves the instruction pointer and the stack of the caller exactly as before and delivers the function's result.", "quantifier": "all states, functions and argument lists", "why_tests_cant": "All states.", "anchors": ["src/nkfunc.c:nkiVmCallFunction", "src/nkopcode.c:nkiOpcode_call"]}
{"id": "C33", "title": "The chain of active coroutines is acyclic and ends at the main program", "statement": "At all times the chain from the running coroutine through its resumers is finite, duplicate-free and ends at the root program; a coroutine that is already active cannot be resumed, and the root cannot yield.", "quantifier": "all sequences of create, resume, yield and finish", "why_tests_cant": "All schedules.", "anchors": ["src/nkcorout.c:nkiVmPushExecutionContext", "src/nkcorout.c:nkiVmPopExecutionContext", "src/nkopcode.c:nkiOpcode_coroutineResume", "src/nkopcode.c:nkiOpcode_coroutineYield"]}
{"id": "C34", "title": "A finished coroutine never runs again", "statement": "Once a coroutine has finished, is_finished stays true for ever, and resuming it yields nil without executing any of its instructions.", "quantifier": "all schedules", "why_tests_cant": "All schedules.", "anchors": ["src/nkopcode.c:nkiOpcode_coroutineResume", "src/nkopcode.c:nkiOpcode_return", "src/nkopcode.c:nkiOpcode_coroutineIsFinished"]}
{"id": "C35", "title": "Resume and yield exchange exactly one value and isolate stacks", "statement": "resume(c,v) makes v the result of c's pending yield, yield(w) makes w the result of the pending resume; no other value on either stack changes, and c continues right after its yield.", "quantifier": "all stacks, values and schedules", "why_tests_cant": "All schedules and values.", "anchors": ["src/nkopcode.c:nkiOpcode_coroutineResume", "src/nkopcode.c:nkiOpcode_coroutineYield"]}
{"id": "C36", "title": "Saved state loads back identically", "statement": "Loading what nkxVmSerialize wrote restores the same instructions, statics, stacks, strings (with the same ids), objects (same ids, same fields), functions, globals, error list, source files and position markers.", "quantifier": "all VM states reachable by the API", "why_tests_cant": "All heaps and programs.", "anchors": ["src/nksave.c:nkiVmSerialize", "src/nksave.c"]}
{"id": "C37", "title": "Loading is exact about length", "statement": "Loading consumes exactly the bytes that were written, and every strict prefix of a saved image is rejected with a failure result.", "quantifier": "all saved images and all truncation points", "why_tests_cant": "All images and cut points.", "anchors": ["src/nksave.c:nkiVmSerialize"]}
{"id": "C38", "title": "Loaded structures are validated before use", "statement": "Whatever bytes are fed to the loader, an accepted stack has power-of-two capacity at least one and within the limit, size not above capacity; accepted instruction and static arrays have size mask+1; accepted table entries lie inside the table capacity.", "quantifier": "all byte strings", "why_tests_cant": "All (hostile) inputs.", "anchors": ["src/nksave.c:nkiSerializeStack", "src/nksave.c:nkiSerializeInstructions", "src/nksave.c:nkiSerializeStatics", "src/nksave.c:nkiSerializeObjectTable", "src/nksave.c:nkiSerializeStringTable"]}
{"id": "C39", "title": "Native functions re-bind by name after loading", "statement": "After loading an image every saved native function refers to the host function registered under the same name, and an image in which a function stands for a native function that is not registered is rejected.", "quantifier": "all function tables and all registration orders on the loading side", "why_tests_cant": "All permutations of registration orders.", "anchors": ["src/nksave.c:nkiSerializeFunctionTable"]}
{"id": "C40", "title": "External type names are unique and ids stable", "statement": "Registering an external type returns an id by which the same name is found for ever after; a second registration of the name is refused with an error and does not disturb the first.", "quantifier": "all registration sequences", "why_tests_cant": "All sequences.", "anchors": ["src/nkvm.c:nkiVmRegisterExternalType", "src/nkvm.c:nkiVmFindExternalType"]}
{"id": "C41", "title": "Registering the same native function twice yields the same id", "statement": "nkxVmRegisterExternalFunction with the same name and callback always returns the id first returned, distinct pairs get distinct ids, and each native function has one function value.", "quantifier": "all registration sequences", "why_tests_cant": "All sequences.", "anchors": ["src/nkfunc.c:nkiVmRegisterExternalFunction", "src/nkfunc.c:nkiVmGetOrCreateInternalFunctionForExternalFunction"]}
{"id": "C42", "title": "Subsystem data is stored per name", "statement": "The data set for a subsystem name is what is later found for that name, is unaffected by other names, and each subsystem's cleanup runs exactly once when the VM is deleted.", "quantifier": "all sequences of set/find/remove over all names", "why_tests_cant": "All sequences and hash collisions.", "anchors": ["src/nkvm.c:nkiGetExternalSubsystemData", "src/nkx.c:nkxInitSubsystem", "src/nkvm.c:nkiVmDestroy"]}
{"id": "C43", "title": "Source positions map to the latest marker at or before the instruction", "statement": "The file and line reported for an instruction are those of the last position marker whose instruction index is not greater; files added twice share one index.", "quantifier": "all marker lists as produced by compilation and all instruction indices", "why_tests_cant": "All programs and instruction positions.", "anchors": ["src/nkvm.c:nkiVmFindSourceMarker", "src/nkvm.c:nkiVmAddSourceFile", "src/nkcompil.c:nkiCompilerNextToken"]}
{"id": "C44", "title": "Iterating objects of an external type visits each exactly once", "statement": "Repeatedly calling nkxGetNextObjectOfExternalType from the start visits every live object of the type exactly once, in id order, and then stops.", "quantifier": "all object tables", "why_tests_cant": "All tables including sparse ones.", "anchors": ["src/nkx.c:nkxGetNextObjectOfExternalType"]}
{"id": "C45", "title": "Tokenizing stays inside the source text and terminates", "statement": "Compiling any NUL-terminated source text reads no byte beyond its terminator and the tokenizer terminates.", "quantifier": "all byte strings", "why_tests_cant": "All inputs; unterminated constructs are the typical failures.", "anchors": ["src/nktoken.c:nkiCompilerTokenize", "src/nktoken.c:nkiCompilerGetPreprocessorTokens"]}
{"id": "C46", "title": "String unescaping fits its buffer and is correct", "statement": "Processing escape sequences of any string literal never writes beyond the buffer allocated for it, turns the escapes for newline, tab, carriage return and quote into the characters they name and leaves all other text unchanged.", "quantifier": "all literal texts, including ones ending in a backslash", "why_tests_cant": "All inputs.", "anchors": ["src/nktoken.c:nkiCompilerTokenizerUnescapeString"]}
{"id": "C47", "title": "String functions never overrun", "statement": "The string copy helper used for fixed buffers always terminates the destination and never writes more than the buffer size; concatenation helpers allocate exactly enough.", "quantifier": "all strings and buffer sizes", "why_tests_cant": "All lengths.", "anchors": ["src/nkstring.c:nkiStrcpy_s", "src/nkstring.c:nkiStrcat", "src/nkdynstr.c:nkiDynStrAppend"]}
{"id": "C48", "title": "Expressions parse according to precedence and left associativity", "statement": "The tree built for an infix expression has the operands and operators in source order and groups them by the precedence table, equal precedence grouping to the left; this tree is unique.", "quantifier": "all sequences of operands and binary operators of any length", "why_tests_cant": "All expression shapes and lengths.", "anchors": ["src/nkexpr.c:nkiCompilerParseExpression", "src/nkexpr.c:nkiCompilerExpressionReduce", "src/nkexpr.c:nkiCompilerGetPrecedence"]}
{"id": "C49", "title": "The expression parser never reaches its internal assertion", "statement": "For every token sequence the parser either reports an error or ends with exactly one tree; its operand and operator stacks can never end unbalanced without an error.", "quantifier": "all token sequences", "why_tests_cant": "All inputs.", "anchors": ["src/nkexpr.c:nkiCompilerParseExpression"]}
{"id": "C50", "title": "Compiled expressions compute their value", "statement": "Running the code generated for an expression pushes exactly the value the expression denotes (operands evaluated left to right), changes nothing else on the stack below, and ends at the instruction after the code; if the denotation is an error, the run records an error.", "quantifier": "all expression trees over literals, local and global variables, unary and binary operators and assignment, all stacks and all variable contents", "why_tests_cant": "All programs and all runtime states.", "anchors": ["src/nkexpr.c:nkiCompilerEmitExpression", "src/nkcompil.c:nkiCompilerEmitPushLiteralInt", "src/nkopcode.c"]}
{"id": "C51", "title": "Compile-time stack offsets match the run-time stack", "statement": "Every local variable access in compiled code refers to the stack slot of that variable, whatever temporaries are on the stack at that point.", "quantifier": "all programs, nesting depths and positions of the access", "why_tests_cant": "All programs.", "anchors": ["src/nkvm.c:nkiCompilerStackOffsetTable", "src/nkcompil.c:nkiCompilerAddInstruction", "src/nkexpr.c:nkiCompilerEmitFetchVariable"]}
{"id": "C52", "title": "Compiled control flow follows the source", "statement": "if/else, while, do-while, for and blocks compiled to jumps execute the statements in the order the source prescribes, and at the end of each block the stack is back at its height before the block.", "quantifier": "all nestings of statements and all initial states", "why_tests_cant": "All programs.", "anchors": ["src/nkcompil.c:nkiCompilerCompileIfStatement", "src/nkcompil.c:nkiCompilerCompileWhileStatement", "src/nkcompil.c:nkiCompilerModifyJump", "src/nkcompil.c:nkiCompilerPopContext"]}
{"id": "C53", "title": "Variable lookup is lexically scoped", "statement": "A variable name refers to the innermost enclosing declaration; redeclaring a name in the same scope is an error; leaving a scope restores the outer meaning of all names.", "quantifier": "all nestings of scopes and declarations", "why_tests_cant": "All programs.", "anchors": ["src/nkcompil.c:nkiCompilerLookupVariable", "src/nkcompil.c:nkiCompilerAddVariable", "src/nkcompil.c:nkiCompilerPopContext"]}
{"id": "C54", "title": "The nesting limit counts nesting, not program length", "statement": "Compilation is refused for recursion depth only if statements or expressions are actually nested deeper than the limit; a program of any length with shallow nesting is not refused for that reason.", "quantifier": "all programs", "why_tests_cant": "Program length is unbounded; tests use short programs.", "anchors": ["src/nkcompil.c:nkiCompilerCompileStatement", "src/nkcompil.c:nkiCompilerPushRecursion", "src/nkcompil.c:nkiCompilerPopRecursion"]}
{"id": "C55", "title": "Constant folding does not change results", "statement": "Replacing constant subexpressions at compile time gives the same value, or the same run-time error, as evaluating them at run time.", "quantifier": "all constant expressions", "why_tests_cant": "All operand pairs.", "anchors": ["src/nkopt.c:nkiCompilerOptimizeConstants"]}
{"id": "C56", "title": "Increment and decrement operators mean what they say", "statement": "x++ and x-- on an integer variable update it by one and yield the old value, ++x and --x yield the new value.", "quantifier": "all integer values that do not overflow and all variable positions", "why_tests_cant": "All values and states.", "anchors": ["src/nkexpr.c:nkiCompilerExpressionExpandIncrementsAndDecrements"]}
{"id": "C57", "title": "Shrinking memory does not change program-visible state", "statement": "nkxVmShrink renames ids consistently: every variable, stack slot and object field refers to the same object or string contents as before.", "quantifier": "all heaps and all coroutine configurations", "why_tests_cant": "All heaps.", "anchors": ["src/nkshrink.c:nkiVmShrink", "src/nkshrink.c:nkiVmMoveObject", "src/nkshrink.c:nkiVmMoveString"]}
{"id": "C58", "title": "The host allocator receives the host's user data", "statement": "Every call the VM makes to a replacement malloc/free supplied in nkxVmCreateEx passes the user data given there, and memory is always released through the function family it came from.", "quantifier": "all allocations in the life of a VM", "why_tests_cant": "All histories.", "anchors": ["src/nkx.c:nkxVmCreateEx", "src/nkmem.c:nkiMalloc_real", "src/nkvm.c:nkiVmDestroy"]}
{"id": "C59", "title": "Arithmetic on mixed operands follows the left operand", "statement": "The result of an arithmetic operator has the numeric type of its left operand, the right operand is converted to it, and negation of a float only flips its sign.", "quantifier": "all operand values", "why_tests_cant": "All pairs of 32-bit payloads and types.", "anchors": ["src/nkopcode.c:nkiOpcode_add", "src/nkopcode.c:nkiOpcode_negate", "src/nkvalue.c:nkiValueToInt", "src/nkvalue.c:nkiValueToFloat"]}
{"id": "C60", "title": "Jumps go where they say", "statement": "A jump instruction removes its operand and adds it to the position; a conditional jump removes both operands and is taken exactly if the tested value is zero as an integer; nothing else changes.", "quantifier": "all machine states and operand values", "why_tests_cant": "All states and all 2^32 offsets.", "anchors": ["src/nkopcode.c:nkiOpcode_jumpRelative", "src/nkopcode.c:nkiOpcode_jz"]}
{"id": "C61", "title": "Variables are read and written at their own place, and garbage is collected when due", "statement": "Reading or writing a stack slot or a global accesses exactly the addressed slot and changes nothing else; when the instruction countdown ends and enough objects were created, the next instruction runs in a collected heap, and otherwise no collection happens.", "quantifier": "all machine states", "why_tests_cant": "All states; the effects are only visible through further execution.", "anchors": ["src/nkopcode.c:nkiOpcode_stackPeek", "src/nkopcode.c:nkiOpcode_stackPoke", "src/nkopcode.c:nkiOpcode_staticPeek", "src/nkopcode.c:nkiOpcode_staticPoke", "src/nkvm.c:nkiVmIterate"]}
{"id": "C62", "title": "Loading arbitrary bytes is memory safe", "statement": "Whatever bytes are fed to the loader of a VM that holds no objects for the host, it never accesses memory outside of its allocations, never uses a missing object and fails no assertion: it reports failure or success, or runs out of memory.", "quantifier": "all byte strings and all VMs set up for loading", "why_tests_cant": "All byte strings of all lengths.", "anchors": ["src/nksave.c:nkiVmSerialize", "src/nkx.c:nkxVmSerialize"]}
{"id": "C63", "title": "Compiling arbitrary source text is safe", "statement": "Whatever the host compiled, declared or ran before, and whatever the source text is, nkxCompilerCompileScript ends: it returns true, or returns false with an error recorded, or the call is ended by the memory limit; it never accesses memory outside of its buffers, never uses a missing scope or a null pointer, fails no assertion and does not overflow. Afterwards the program can always be finished and more can be compiled.", "quantifier": "all source texts, after all histories of earlier calls", "why_tests_cant": "All texts and all histories.", "anchors": ["src/nkcompil.c:nkiCompilerCompileScript", "src/nkcompil.c:nkiCompilerCompileStatement", "src/nkcompil.c:nkiCompilerPartiallyFinalize", "src/nkcompil.c:nkiCompilerCreateGlobalVariable", "src/nkexpr.c:nkiCompilerCompileExpression"]}
{"id": "C64", "title": "Compiled code is a well-formed program", "statement": "After every sequence of compiled scripts, successful or not, the code consists of whole instructions, every jump has its distance right before it and leads to the start of an instruction (or to the end, where finishing puts END), and the entry of every script function is such a place; so a program never runs into the middle of an instruction or beyond its end by a jump.", "quantifier": "all source texts and all histories of compiler calls", "why_tests_cant": "All texts; unit tests see only the code of the scripts they contain.", "anchors": ["src/nkcompil.c:nkiCompilerAddInstruction", "src/nkcompil.c:nkiCompilerModifyJump", "src/nkcompil.c:nkiCompilerEmitJump", "src/nkcompil.c:nkiCompilerCompileFunctionDefinition", "src/nkcompil.c:nkiCompilerPartiallyFinalize"]}
{"id": "C65", "title": "Functions run their bodies on their arguments", "statement": "In a program of statements and named function definitions, a definition only puts the function in a new variable. Calling it, from anywhere (also from itself), with as many arguments as it has parameters runs its body, in which the parameters are the arguments and other names mean what they mean at the definition; the call has the value of the return statement that is reached, or 0 at the end of the body, and everything else on the stack is as before the call. A call with another number of arguments is an error.", "quantifier": "all programs of any size with function definitions at top level, whose bodies do not assign to the hidden variables _argumentCount and _returnPointer; all arguments, all states of the machine with room on the stack", "why_tests_cant": "All programs, all arguments and all depths of recursion.", "anchors": ["src/nkcompil.c:nkiCompilerCompileFunctionDefinition", "src/nkcompil.c:nkiCompilerCompileReturnStatement", "src/nkopcode.c:nkiOpcode_call", "src/nkopcode.c:nkiOpcode_return", "src/nkexpr.c:nkiCompilerEmitExpression"]}
{"id": "C66", "title": "Source texts split into the longest tokens", "statement": "A text that consists of words, numbers, string literals, operators, punctuation marks, white space and comments is split into exactly these, each as long as it can be (numbers: up to 255 characters), keywords and names told apart, string literals unescaped and joined with those that follow, each token with the line it is in. A text with anything else in it (an unknown character, a single & or |, a newline in a string literal) is refused with one error. A string literal that the end of the text cuts off is accepted.", "quantifier": "all source texts without NUL bytes and preprocessor directives, of any length below 2^31 - 1", "why_tests_cant": "All texts: tests see the tokens of a few.", "anchors": ["src/nktoken.c:nkiCompilerTokenize", "src/nktoken.c:nkiCompilerConsolidateStringLiterals", "src/nktoken.c:nkiCompilerTokenizerUnescapeString", "src/nktoken.c:nkiCompilerAddToken", "src/nkvm.c:nkiVmAddSourceFile"]}
{"id": "C67", "title": "Compiling and running can be mixed in any way", "statement": "Whatever scripts are compiled into a VM, successfully or not, and however often and for however long what was compiled is run in between: the tables, arrays and coroutines of the VM stay in order, so that no instruction of the program and no later call of the compiler reads or writes outside them.", "quantifier": "all histories of compiling, declaring variables and native functions, finishing and running, in any order, with native functions that keep the VM in order and do not compile", "why_tests_cant": "All histories: tests run a few, usually one script once.", "anchors": ["src/nkcompil.c:nkiCompilerAllocateStaticSpace", "src/nkcompil.c:nkiCompilerAddInstruction", "src/nkcompil.c:nkiCompilerEmitPushLiteralString", "src/nkcompil.c:nkiCompilerCreateCFunctionVariable", "src/nkx.c:nkxVmExecuteProgram", "src/nkx.c:nkxCompilerCompileScript", "src/nkcompil.c:nkiCompilerPartiallyFinalize"]}
{"id": "C68", "title": "A script can be compiled and executed, again and again, with the effects its source describes", "statement": "On a new VM, and on one that has executed scripts before, nkxCompilerCompileScript followed by nkxVmExecuteProgram has exactly the outcome the source text describes: if the program ends, the call succeeds and leaves the variables, objects and stack the program's statements lead to; if it meets a run-time error, the call fails and the error is recorded; if it goes on, for ever perhaps, the execution passes through the states the statements lead to. The next script finds the variables and functions of the earlier ones under their names with the values they were left with, and compiling it changes none of them.", "quantifier": "all sequences of scripts of any size (statements and named functions at top level), all values left by earlier ones; native functions that leave the instruction counters alone; no instruction limit, fewer objects created than make a collection due", "why_tests_cant": "All programs and all sequences of them; tests run a few scripts, each on a new VM.", "anchors": ["src/nkvm.c:nkiVmExecuteProgram", "src/nkx.c:nkxVmExecuteProgram", "src/nkvm.c:nkiVmIterate", "src/nkcompil.c:nkiCompilerCompileScript", "src/nkcompil.c:nkiCompilerPartiallyFinalize", "src/nkcompil.c:nkiCompilerCreate"]}
{"id": "C69", "title": "Scripts call the host's functions and see the host's variables", "statement": "After nkxCompilerCreateCFunctionVariable has declared a native function between two scripts, the name denotes that function in the scripts that follow. A call of it in an expression passes the argument values in order, the call's value is what the function returns, and its effects on the VM are those of the function; if the arguments are not what the function is declared to take, the call is an error and the function is not called. nkxCompilerCreateGlobalVariable likewise gives the name a place of its own. Neither changes what other names mean or the value of another variable, and a name that is already taken is refused with an error.", "quantifier": "all states between two scripts, all names, functions, arguments and positions in expressions", "why_tests_cant": "All histories of declarations and scripts, all arguments; tests declare a few functions at the start.", "anchors": ["src/nkcompil.c:nkiCompilerCreateCFunctionVariable", "src/nkcompil.c:nkiCompilerCreateGlobalVariable", "src/nkopcode.c:nkiOpcode_call", "src/nkfunc.c:nkiVmRegisterExternalFunction", "src/nkfunc.c:nkiVmGetOrCreateInternalFunctionForExternalFunction", "src/nkx.c:nkxCompilerCreateCFunctionVariable"]}
{"id": "C70", "title": "The host finds global variables by their names, and looking changes nothing", "statement": "Once a program has been made ready, nkxVmFindGlobalVariable without a compiler finds exactly the global variables declared so far, by scripts or by the host: for such a name it returns the place where scripts keep that variable, and NULL for any other. After a script has been executed, the value found is the one the script has left, and no execution changes what is found. With a compiler the same holds without making ready. Different names are different variables; storing a value through the pointer changes that variable and nothing else, and further scripts can be compiled and executed. Looking for a variable has no other effect, whether it exists or not.", "quantifier": "every history of declarations and scripts, every name, every execution", "why_tests_cant": "All histories and all names; tests look for a few variables that exist.", "anchors": ["src/nkx.c:nkxVmFindGlobalVariable", "src/nkvm.c:nkiVmFindGlobalVariable", "src/nkcompil.c:nkiCompilerLookupVariable", "src/nkcompil.c:nkiCompilerGenerateGlobalVariables", "src/nkx.h:nkxVmFindGlobalVariable"]}
{"id": "C71", "title": "The errors can be read, completely, into a buffer of the reported length", "statement": "nkxGetErrorLength returns exactly the number of bytes nkxGetErrorText writes: for the errors recorded so far, oldest first, file name, line number and message of each on a line of its own, and a NUL at the end. The line and file are those the error was reported with or, while a program runs, those of the instruction. A buffer of that length is never overrun, and a shorter one always is. Recording an error allocates enough for its text, whatever file name, line number and message; if no 32-bit length could hold it, a fixed message is recorded instead. After an allocation failure both calls give the fixed text about that.", "quantifier": "all messages, file names, line numbers, positions, numbers of errors and buffers", "why_tests_cant": "All lengths, up to the limits of 32-bit lengths; tests read a few short messages.", "anchors": ["src/nkerror.c:nkiAddErrorEx", "src/nkerror.c:nkiAddError", "src/nkerror.c:nkiGetErrorLength", "src/nkerror.c:nkiGetErrorText", "src/nkx.c:nkxGetErrorLength", "src/nkx.c:nkxGetErrorText"]}
{"id": "C72", "title": "Native functions that use the API cannot damage the VM", "statement": "A native function that acts on the VM only through the API leaves it in order, whatever calls it makes, in whatever order, and however they depend on the results of earlier ones: reading and converting values, creating objects, reading, writing and clearing fields, acquiring and releasing handles, setting external types and data (of objects that are not coroutines), registering types and functions, setting limits, collecting, executing instructions, and calling functions of the script that call native functions again. Such functions and scripts together never access memory out of bounds. They do not take back errors, change the program or the names of variables, or revive finished coroutines, and those that do not set the instruction limit do not get around it.", "quantifier": "all native functions made of API calls, all scripts, all depths of calls between scripts and native functions, all states in order", "why_tests_cant": "All programs against the API, combined with all scripts; tests have a few native functions that make a few calls.", "anchors": ["src/nkx.c:nkxVmCallFunction", "src/nkx.c:nkxVmObjectFindOrAddEntry", "src/nkx.c:nkxVmObjectClearEntry", "src/nkx.c:nkxVmSetupExternalFunction", "src/nkx.c:nkxVmObjectSetExternalData", "src/nkx.c:nkxVmObjectSetExternalType", "src/nkx.c:nkxVmObjectAcquireHandle", "src/nkx.c:nkxVmGarbageCollect", "src/nkx.c:nkxCreateObject", "src/nkobjs.c:nkiVmObjectClearEntry_public"]}
{"id": "C73", "title": "The argument checks for native functions decide correctly and say what is wrong", "statement": "nkxFunctionCallbackCheckArguments and nkxFunctionCallbackCheckArgCount return true exactly if the native function was called with arguments of the number (and types) asked for, and then change nothing; otherwise they return false and record exactly one error, which names the function, the numbers, or the first argument of a wrong type with both types. nkxFunctionCallbackGetExternalDataArgument returns data only of an existing object whose external type is the one asked for, and it is that object's data; for an argument that was not passed, a value that is not an object, a type that is not registered and an object of another type it returns NULL and records the fitting error. nkxGetExternalSubsystemDataOrError returns the subsystem's data or records that there is none. None of them does anything to the VM except recording errors.", "quantifier": "all argument lists, expected types, names, objects and states", "why_tests_cant": "All combinations of arguments and expectations; tests make a few calls.", "anchors": ["src/nkx.c:nkxFunctionCallbackCheckArgCount", "src/nkx.c:nkxFunctionCallbackCheckArguments", "src/nkx.c:nkxFunctionCallbackGetExternalDataArgument", "src/nkx.c:nkxGetExternalSubsystemDataOrError", "src/nkvalue.c:nkiValueGetTypeNameOfValue", "src/nkvm.c:nkiVmGetExternalTypeName", "src/nkdynstr.c:nkiDynStrAppendUint32"]}
{"id": "C74", "title": "Dumping the state of a VM is safe and shows the program", "statement": "nkxDbgDumpState can be called on any VM that is in order, whatever values, strings, objects, coroutines and program there are, with any source text or none: it stays within its line buffers and the tables, follows no NULL pointer, fails no assertion, and changes nothing. Its listing has a line for every instruction up to the end of the program, with its address, its name and a mark at the instruction that is executed next; every line is one line of at most 79 characters. Strings are shown with quotes, tabs and newlines escaped, in full if they fit.", "quantifier": "All VMs in order, all programs, all source texts.", "why_tests_cant": "All programs, addresses, string lengths and source lines, in particular those at the ends of the buffers; tests dump a few programs and compare nothing.", "anchors": ["src/nkx.c:nkxDbgDumpState", "src/nkdbg.c:nkiDbgDumpState", "src/nkdbg.c:nkiDbgDumpListing", "src/nkdbg.c:nkiDbgAppendEscaped", "src/nkdbg.c:nkiDbgAppendLine", "src/nkdbg.c:nkiDbgPadLine", "src/nkdbg.c:nkiValueDump", "src/nkvm.c:nkiVmGetOpcodeName"]}
{"id": "C75", "title": "An interactive session goes on after an error", "statement": "When nkxCompilerClearReplErrorState is called with the instruction write index from before a text that failed to compile or to run, the program is the one from before, execution has ended at its end, the errors are gone, coroutines that were running can only be resumed with an error, everything else (variables, objects, other coroutines) is untouched, and later texts can be compiled and run as if the failed one had not been entered.", "quantifier": "all states of the VM and the compiler, all texts and runs since the index was taken, all numbers of failed texts", "why_tests_cant": "The failed text can stop anywhere, at any depth of coroutines, with any code emitted and any functions declared, and the session can go on for any number of texts.", "anchors": ["src/nkx.c: nkxCompilerClearReplErrorState", "src/nkcompil.c: nkiCompilerClearReplErrorState, nkiCompilerPushRecursion, nkiCompilerPopRecursion", "src/interp/main.c: main", "src/nkvm.c: nkiVmInitExecutionContext"]}
{"id": "C76", "title": "Compiling a file is compiling its contents", "statement": "nkxCompilerCompileScriptFile compiles exactly the bytes of the named file, under that name, with the result that nkxCompilerCompileScript gives for them; a file that cannot be opened is reported as an error, and no file makes it access memory outside of its buffer.", "quantifier": "all files (sizes, contents, failures of the C library), all states of the compiler and contents of uninitialised memory", "why_tests_cant": "The size is a 32-bit number computed from what ftell reports, and the buffer is not initialised: what happens depends on sizes near and above 4 GB, on failing calls and on old memory contents.", "anchors": ["src/nkx.c: nkxCompilerCompileScriptFile"]}
{"id": "C77", "title": "String literals of a script stay what they are", "statement": "A string literal in a script has the text that was written, whenever the code is executed: the strings that compiled code refers to are kept by every garbage collection, also while nothing else refers to them, they are not moved when the tables are made smaller, and no running program, native function, later script or cleared error changes or removes them.", "quantifier": "all scripts, all histories of compiling, running, collecting, calling the API, clearing errors and shrinking", "why_tests_cant": "A literal is lost only if a collection or compaction comes at the wrong moment, between compiling the code and executing it, and the loss shows only when the slot has been used again.", "anchors": ["src/nkcompil.c: nkiCompilerEmitPushLiteralString", "src/nkstring.c: nkiVmStringTableCleanOldStrings, nkiVmStringTableFindOrAddString", "src/nkshrink.c: nkiVmShrink", "src/nkgc.c: nkiVmGarbageCollect"]}
{"id": "C78", "title": "Functions stay what they are", "statement": "A function value calls the function it was made for, with the code and the number of arguments it had when it was compiled, whatever happens later: other scripts are compiled, successfully or not, also with functions of the same name, native functions are declared, programs run, errors of an interactive session are cleared, tables are made smaller, or the VM is saved and loaded.", "quantifier": "all scripts, all histories of compiling, declaring, running, calling the API, clearing errors, shrinking, saving and loading", "why_tests_cant": "Function ids are indices into a table that every later script and every native function extends and writes to, and the code buffer is reallocated and overwritten after errors: a wrong index or a wrong place to go back to shows only in particular histories.", "anchors": ["src/nkfunc.c: nkiVmCreateFunction, nkiVmGetOrCreateInternalFunctionForExternalFunction", "src/nkcompil.c: nkiCompilerCompileFunctionDefinition, nkiCompilerAddInstruction", "src/nkx.c: nkxCompilerClearReplErrorState", "src/nksave.c: nkiSerializeFunctionTable"]}
{"id": "C79", "title": "Host data in saved images", "statement": "Whatever the serialization callbacks of subsystems and external types write into an image, the callbacks get back when the image is loaded: each subsystem's callback the bytes that were written for the subsystem of the same name, and each type's callback the bytes written for the object with the same id, once and in the same order, wherever the subsystem's data is now and whatever follows in the stream, and the VM itself is restored as without them. This holds provided that every callback reads as many bytes as were written.", "quantifier": "all VMs that can be saved, all VMs set up in the same way, all callbacks that read as much as was written, all data", "why_tests_cant": "The data of the host are interleaved with the names, objects and coroutines of the VM without any marks, so that one byte too many or too few, for any combination of subsystems, types and objects, shifts everything behind it.", "anchors": ["src/nksave.c: nkiVmSerialize, nkiSerializeExternalSubsystemData, nkiSerializeExternalObjects", "src/nkx.c: nkxSerializeData, nkxInitSubsystem", "src/nkvm.c: nkiFindExternalSubsystemData"]}
{"id": "C80", "title": "A save that reports success delivered everything", "statement": "If nkxVmSerialize returns true when saving, then the writer of the host took every piece it was offered, and the pieces are the whole image in order; if the writer refuses a piece (a full disk, a closed connection), at whatever point, then nkxVmSerialize returns false. Whatever the writer answers, saving does not harm the VM.", "quantifier": "all VMs that can be saved, all writers with their own state, all points at which they refuse", "why_tests_cant": "An image consists of hundreds of pieces, and the refusal can come at any of them; a lost failure shows only when the image is needed.", "anchors": ["src/nksave.c: nkiVmSerialize, NKI_WRAPSERIALIZE, nkiSerializeExternalObjects", "src/nkcorout.c: nkiCoroutineLibrary_coroutineSerializeData", "src/nkx.c: nkxVmSerialize", "src/nktypes.h: NKVMSerializationWriter"]}
{"id": "C81", "title": "A program can be moved from VM to VM any number of times", "statement": "When a VM that can be saved is saved and loaded into a new VM, that VM can itself be saved and loaded into another new VM, and so on. However often this is done, every save and every load reports success, and the last VM has the instructions, statics, strings, objects with all their fields, functions, globals, errors, and coroutines of the first one.", "quantifier": "all VMs that can be saved and have a function, all numbers of moves, all new VMs with the needed native functions in whatever order, the same types, limits and subsystems", "why_tests_cant": "A test moves a program once or twice; a state that loads but cannot be saved again, or something that is lost a little at each move, depends on the program and on the number of moves.", "anchors": ["src/nksave.c: nkiVmSerialize, nkiSerializeFunctionTable, nkiSerializeObjectTable", "src/nkx.c: nkxVmSerialize", "src/nkcorout.c: nkiCoroutineLibrary_coroutineSerializeData"]}
{"id": "C82", "title": "Shrinking a VM gives memory back", "statement": "After shrinking a VM that has no errors: an object after an empty slot of the object table is one with an external handle or a coroutine, a string after an empty slot of the string table is one the code refers to; no table and no stack is larger than before; each table needs more than half of its slots to reach its last entry, and the stacks of the main program and of every coroutine are at least half full (unless they have one slot only). If the host holds no handles and there are no coroutines, the first half of the object table is full. Shrinking again changes nothing.", "quantifier": "all consistent VMs without errors, whatever their holes, handles, coroutines and stacks", "why_tests_cant": "What is left over depends on the pattern of holes and of entries that must not be moved, of which there are exponentially many.", "anchors": ["src/nkshrink.c: nkiVmShrink, nkiVmShrinkStack", "src/nktable.c: nkiTableShrink", "src/nkx.c: nkxVmShrink"]}
{"id": "C83", "title": "Running out of memory loses no object with external data", "statement": "Whichever allocation fails while an object is created, while a collection deletes objects, or while the object table is made smaller: afterwards nkxGetNextObjectOfExternalType stays within the table and delivers, once each, exactly the objects of the type that have not been deleted, with their data. An object whose cleanup function has been called is not delivered any more, and one that is delivered has not been cleaned up. If an allocation fails while a subsystem is set up, the data of all other subsystems stays and their cleanup functions are still called once each on deletion. Wherever a collection fails, marking and deleting strings included, every reachable object is still there with everything it holds. So a subsystem's cleanup function can release the data of every object exactly once when the failed VM is deleted.", "quantifier": "all VMs with a consistent object table, all points at which memory can run out, all external types", "why_tests_cant": "There are as many crash points as allocations, and growing a table of n slots makes n of them.", "anchors": ["src/nktable.c: nkiTableAddEntry, nkiTableEraseEntry, nkiTableResetHoles, nkiTableShrink", "src/nkobjs.c: nkiVmObjectTableCreateObject, nkiVmObjectTableCleanOldObjects, nkiVmObjectTableCleanupObject", "src/nkx.c: nkxGetNextObjectOfExternalType", "src/nkvm.c: nkiVmDestroy", "src/nkx.c: nkxInitSubsystem"]}
{"id": "C84", "title": "Operators are read as long as possible, and string literals to their closing quotation mark", "statement": "Where an operator begins in a script, the longest operator that fits is read, and the next token is looked for right after it. A string literal ends at the first quotation mark that is not escaped by a backslash; what is unescaped is exactly the text in between, and the next token is looked for after the closing quotation mark.", "quantifier": "all source texts, all positions in them, all operators, all bodies of literals", "why_tests_cant": "Texts are unbounded, and runs of backslashes before a quotation mark can have any length.", "anchors": ["src/nktoken.c: nkiCompilerTokenize"]}
