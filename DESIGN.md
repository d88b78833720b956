# Ninkasi in Lean 4: design of the model and the proofs

Subject: ExpiredPopsicle/Ninkasi at the pinned commit in `/repo` (C, about 13k lines).
The code was read, never built or run. All theorems are about the Lean model in
`lean/Verif/`; each model definition cites the C file and lines it transcribes and
says where it simplifies.

## Layout

* `Verif/Model/*.lean`  - executable model, one file per C module or group of modules.
* `Verif/Spec/*.lean`   - small independent specifications (mathematical stack, finite map,
  interner, reachability, precedence grammar, meaning of expressions and statements, histories of
  API calls, contracts asked of the host).
* `Verif/Lemmas/*.lean` - helper lemmas and invariants.
* `Verif/Props/*.lean`  - the property theorems `Cnn_...` and, beside each, `example`s that
  show a concrete non-trivial case meeting the hypotheses. Where the code violates the
  property, a theorem `Cnn_viol...` proves the negation on a concrete witness and the
  part that holds is `Cnn_..._partial`.
* `properties.jsonl` has the English statements, `MANIFEST.json` the status and theorem names,
  `seeded/LOG.jsonl` the wrong programs the theorems were tested against. Outcomes there: `caught` (a theorem or example
  failed), `survived`, `inconclusive` (the build was killed for memory before any theorem was seen to fail) and `invalid` (the edited
  definition did not typecheck). Nine entries first logged as `caught` were corrected
  to the last two. Their edits were tried again without the examples, except that of `Nk.Api.run`, which is open; two of them, in the
  tokenizer, turned out to survive, and C84 was added for them. The other entries name the theorems that failed; a named theorem is a
  proof that no longer goes through, often a lemma below the property.

## Modelling conventions

* `nkuint32_t` counters are `Nat` with explicit `% 2^32` wherever the C code can wrap.
  Value payloads are `BitVec 32` (the 32-bit union of `struct NKValue`).
* Signed overflow, out-of-range float to int casts, NULL dereference, failing assertions, division
  by zero, reads or writes outside an allocation are undefined behaviour (or an abort) in C. The model
  has a distinct outcome for these (`Res.ub kind`), never a default value. Theorems that promise
  safety prove that outcome away. The catastrophic failure path (`longjmp`) is a kind of its own.
* Loops without a bound in the code take a bound in the model and have an outcome of their own when it is
  used up (`fuel`); theorems show that it is not used up, or hold for every bound.
* Floating point: values are 32-bit patterns. Comparison is defined from the IEEE-754 bit
  layout; arithmetic, `atof` and `sprintf("%f")` are a parameter (`FloatOps`), and the theorems hold
  for every instance of it.
* C strings are lists of bytes without terminator, except in `Model/CStr` and `Model/Token`,
  where a string is the block of memory it lives in and each access is checked.
* Pointers to heap structures are ids: objects and strings by their table index (as in the
  code), execution contexts by the number of their creation. Allocator headers and the list of objects with
  handles are modelled with their actual back pointers.
* Callbacks supplied by the host (C functions, cleanup, GC mark, serialize, allocator) are
  parameters or events recorded in a trace.
* Error messages are kept as texts without the parts filled in at run time and without the
  `file:line:` prefix.

## Plan per property

| property | modelled | proof | status |
|----------|----------|-------|--------|
| C01 Successful allocations respect the memory limit | `nkmem.c` allocator at pointer level; host malloc as oracle | invariant over all operation lists | proved |
| C02 Reported memory usage is exactly the live allocations | same | usage equals the sum over the linked list of headers, for all histories | proved |
| C03 Array allocations are never undersized | `nkiMallocArray` | products in `Nat`, no size bound | proved |
| C04 Catastrophic failure is sticky and makes the API inert | `nkfail.h` macros and `nkx.c` wrappers around arbitrary bodies and nested callbacks | induction over programs; witness for `nkxSerializeData` | partial |
| C05 Deleting a failed VM releases every block exactly once | catastrophic branch of `nkiVmDestroy` | trace of frees is a permutation of the live blocks | proved |
| C06 Reallocation preserves contents | `nkiReallocate` | block contents as byte lists | proved |
| C07 The value stack is a bounded LIFO stack | `nkstack.c` | refinement to a list | proved |
| C08 Stack overflow and underflow are reported and contained | `nkstack.c`, limits | accesses checked against the allocation; error per refused operation | proved |
| C09 Live handles are unique and stable | `nktable.c` | invariant: hole list = free slots without duplicates; refinement to a partial map | proved |
| C10 Equal strings have equal ids and different strings different ids | string table of `nkstring.c` with buckets and sweep | invariant: buckets partition live strings; injectivity for all histories | proved |
| C11 Objects behave as finite maps | `nkobjs.c` fields | refinement to a finite map over all histories, collections included; with refused assignments as assignments of 0; witness for the violation | partial |
| C12 len() of an object is its number of fields | `nkobjs.c`, `len` opcode | cardinality of the map, less the refused assignments; witness for the violation | partial |
| C13 The field limit is enforced | field limit in `nkobjs.c` | invariant for objects with uncounted elements, over all histories; witnesses for the violations | partial |
| C14 External handles keep an object alive and are counted exactly | handles in `nkobjs.c`, plus the intrusive list at pointer level | counting over balanced histories; witness for over-release | partial |
| C15 External data cleanup runs exactly once | cleanup in `nkgc.c`, `nkobjs.c`, `nkiVmDestroy` | trace of callbacks; witness for destruction after failure | partial |
| C16 Garbage collection never frees a reachable value | `nkgc.c` mark/sweep with cycles, coroutine stacks, external data | inductive reachability is a subset of the marked set | proved |
| C17 Garbage collection frees everything unreachable | same | marked set is a subset of reachability | proved |
| C18 Garbage collection terminates and is idempotent | same | measure for the work list; second collection changes nothing | proved |
| C19 Identity comparison is an equivalence and a total order | `nkiValueCompare` strict mode | order theory on (type, payload) | proved |
| C20 Loose comparison of integers agrees with arithmetic | `nkiValueCompare` loose mode and compare opcodes | arithmetic on 32-bit integers | proved |
| C21 Identical keys have identical hashes | `nkiValueHash` | case analysis over all values | proved |
| C22 Integer to string to integer conversion is lossless | decimal printing and `atoi` | induction on digits | proved |
| C23 Integer arithmetic is exact or reported | arithmetic opcodes | integer arithmetic; overflow is the outcome `ub overflow` | proved |
| C24 Logical operators follow truthiness | the logical opcodes | case analysis; witness for multiples of 256 | partial |
| C25 No bytecode can read or write outside VM memory | every opcode and the interpreter loop on arbitrary bytecode | invariant `Inv` kept by each opcode; no memory `ub` outcome | proved |
| C26 The instruction limit stops every program | `nkiVmIterate`, instruction limit | measure on the countdown; witness | partial |
| C27 Errors stop execution and are kept in order | `nkerror.c`, execute and iterate loops | error list is only appended to; witnesses | partial |
| C28 nkxVmIterate respects its count | `nkxVmIterate` | induction on the count; witness at END | partial |
| C29 Calls and returns are balanced | call and return opcodes | symbolic execution for all stacks | proved |
| C30 Native functions only run with arguments they declared | native calls with declared argument counts | two hosts that agree on admissible calls are indistinguishable | proved |
| C31 Callable objects resolve in bounded time | `_exec`/`_data` redirection | induction on the redirection count, cyclic graphs included | proved |
| C32 Host calls into the VM are transparent | `nkiVmCallFunction` | execution of a frame from a host call, any length | proved |
| C33 The chain of active coroutines is acyclic and ends at the main program | coroutine opcodes, `nkcorout.c` | invariant over all schedules | proved |
| C34 A finished coroutine never runs again | same | preservation of `Gone` by all executions | proved |
| C35 Resume and yield exchange exactly one value and isolate stacks | same | exact state change of yield and resume; isolation for all executions | proved |
| C36 Saved state loads back identically | `nksave.c` in both directions, bytes | round trip for each section, composed | partial |
| C37 Loading is exact about length | same | exact consumption; prefix rejection; witness | partial |
| C38 Loaded structures are validated before use | same | invariant established by the loader for arbitrary bytes; witness | partial |
| C39 Native functions re-bind by name after loading | function section of `nksave.c` | search by name; witness per direction | proved |
| C40 External type names are unique and ids stable | external type registry | induction over registration histories | proved |
| C41 Registering the same native function twice yields the same id | native function registry | same | proved |
| C42 Subsystem data is stored per name | subsystem table, destruction | same, with trace of cleanup | proved |
| C43 Source positions map to the latest marker at or before the instruction | position markers, source files; the whole compiler | induction over markers; an invariant kept by every part of the compiler, for the markers of a compiled script; two witnesses | partial |
| C44 Iterating objects of an external type visits each exactly once | iteration API over objects | induction over the table | proved |
| C45 Tokenizing stays inside the source text and terminates | `nktoken.c` over a NUL-terminated block | every read checked; witnesses for directives | partial |
| C46 String unescaping fits its buffer and is correct | unescaping in `nktoken.c` | induction over the literal | proved |
| C47 String functions never overrun | `nkstring.c`, `nkdynstr.c` helpers over blocks | induction; witness for `nkiStrcpy_s` | partial |
| C48 Expressions parse according to precedence and left associativity | `nkexpr.c` shunting-yard parser | invariant of the two stacks; uniqueness of precedence trees | proved |
| C49 The expression parser never reaches its internal assertion | same, all token sequences | invariant of the parser; witness from source text | partial |
| C50 Compiled expressions compute their value | `nkexpr.c` code generation | simulation of a denotational meaning by the instructions | proved |
| C51 Compile-time stack offsets match the run-time stack | stack offsets in code generation | same; witness with `is_finished` | partial |
| C52 Compiled control flow follows the source | `nkcompil.c` statements | simulation of a big-step and partial-execution meaning | proved |
| C53 Variable lookup is lexically scoped | scopes and variables of `nkcompil.c` | scope chain as a list of name lists | proved |
| C54 The nesting limit counts nesting, not program length | recursion counter of `nkcompil.c` | exact count of leaked levels; witness of 256 statements | partial |
| C55 Constant folding does not change results | `nkopt.c` | meaning kept by each rewrite; witness for floats | partial |
| C56 Increment and decrement operators mean what they say | increment expansion in `nkexpr.c` | evaluation of the rewritten tree, compiled by C50 | proved |
| C57 Shrinking memory does not change program-visible state | `nkshrink.c` | renaming is an isomorphism of held values; two witnesses | partial |
| C58 The host allocator receives the host's user data | allocator set-up in `nkx.c`, `nkvm.c` | trace of host calls; witnesses | partial |
| C59 Arithmetic on mixed operands follows the left operand | arithmetic opcodes on mixed operands | case analysis, floats abstract | proved |
| C60 Jumps go where they say | jump opcodes | symbolic execution | proved |
| C61 Variables are read and written at their own place, and garbage is collected when due | variable opcodes, collection clock | symbolic execution | proved |
| C62 Loading arbitrary bytes is memory safe | the loader on arbitrary bytes | no memory `ub` outcome, invariant at the end | proved |
| C63 Compiling arbitrary source text is safe | tokenizer, parser and compiler on arbitrary text | invariant of the compiler kept by every function; allowed outcomes enumerated | partial |
| C64 Compiled code is a well-formed program | everything the compiler emits | layout invariant over all sessions; jumps lead to instruction starts; words below the write index never change | proved |
| C65 Functions run their bodies on their arguments | function definitions and calls, from tokens to runs | inversion of the compiler; simulation; frames kept by an invariant on assigned names | proved |
| C66 Source texts split into the longest tokens | tokens of a text | a grammar with longest match; each token by running the loops on it; totality by induction on the length | proved |
| C67 Compiling and running can be mixed in any way | the VM while scripts are compiled and run | an invariant kept by every function of the compiler (CFrame) and by every instruction | proved |
| C68 A script can be compiled and executed, again and again, with the effects its source describes | compiling and executing scripts one after the other | C65 and C66; instructions do not look at the counters (Clk), so steps become iterations; an invariant of the compiler for what it leaves alone (Held) | proved |
| C69 Scripts call the host's functions and see the host's variables | declaring variables and native functions; native calls in scripts | inversion of the declaring functions; AtRest kept; the call instruction on a machine up to its stack | proved |
| C70 The host finds global variables by their names, and looking changes nothing | finding global variables by name, with and without the compiler | the table made when a program is made ready against the places of names (C68); an invariant for executions; the failing case as a theorem and a run | partial |
| C71 The errors can be read, completely, into a buffer of the reported length | recording errors and reading them back, byte by byte | buffers of exact contents; each loop by induction on the errors; the overflow check against the 32-bit sums | proved |
| C72 Native functions that use the API cannot damage the VM | native functions as programs of API calls, on the VM model | each API call keeps Inv; induction on the program and on the depth of calls; frames for what is left alone; a witness for the rule on coroutines | proved |
| C73 The argument checks for native functions decide correctly and say what is wrong | the argument checks, with their error texts, on the VM model | case distinction; induction on the arguments; reduction to API programs (C72) | proved |
| C74 Dumping the state of a VM is safe and shows the program | the dump as the text it writes, its line buffers as memory blocks | exact contents of the buffers after each helper; induction on the listing; every instruction the compiler writes is one of the 43 (part of the layout of C64) | partial |
| C75 An interactive session goes on after an error | clearing the errors of an interactive session, on VM and compiler, and the interpreter's loop | induction along the chain of coroutines; layout invariant for the code; sessions with clearing by induction; counterexamples run by the kernel | partial |
| C76 Compiling a file is compiling its contents | reading the file, with the file as what the C library says about it | exact contents of the buffer by arithmetic on sizes; reduction to C63 | partial |
| C77 String literals of a script stay what they are | string literals: the ids in the code and the protected entries of the string table | preservation by every operation of the VM, the API and the compiler; induction on the history | proved |
| C78 Functions stay what they are | function ids, entries of the function table and their code | invariant of the compiler that the first entries and words stay; preservation by the VM and the API; induction on the history | proved |
| C79 Host data in saved images | saving and loading with serialization callbacks of the host | the section lemmas of C36 with the two sections of callbacks replaced; induction over the subsystems and the object table; equality of the two models for callbacks that do nothing | proved |
| C80 A save that reports success delivered everything | saving call by call of a writer that may refuse | what each section offers to the writer as a list of pieces, whose concatenation is the section of C36; the pieces in sequence; invariants of writers over them; witness for a refused piece of a coroutine | partial |
| C81 A program can be moved from VM to VM any number of times | saves and loads in sequence | the conditions of C36 hold again for the loaded VM; the relation of C36 is transitive (renumberings of coroutines composed); induction over the list of VMs | proved |
| C82 Shrinking a VM gives memory back | shrinkVM: compaction, tables, stacks | invariant of the compaction loop over both cursors: entries that may move lie before all holes passed; halving stops at twice the highest entry; stacks by induction over the objects; a VM in which all this holds is a fixed point of every step | proved |
| C83 Running out of memory loses no object with external data | Model/Fault: table operations, object creation and sweeping with failing allocations | the number of allocations that still succeed is a parameter; induction over the loops gives the table at the point of failure; what was swept is described by a relation (Swept) that composes; the whole collection (Model/FaultGC) is written in a monad of failing operations, in which agreement with Model/GC and keeping the objects are proved per function, and the theorem on marking gives the reachable objects | proved |
| C84 Operators are read as long as possible, and string literals to their closing quotation mark | Model/Token: token, operator, quoteLoop | induction over the body of a literal; cases over the operators, with what longest says about the next character | proved |

## What is modelled

* `nkmem.c` whole; `nkfail.h` macros; allocator entry points of `nkx.c` and the catastrophic part of
  `nkiVmDestroy` (`Model/Mem`, `Model/Fail`).
* `nktable.c`, `nkstack.c`, `nkstring.c`, `nkobjs.c`, `nkvalue.c`, `nkerror.c` (`Model/Table`, `Model/VM`,
  `Model/Value`, `Model/CStr`, `Model/Handles`). `nkdynstr.c` (`Model/CStr`). `nkerror.c` also byte by byte
  (`Model/ErrText`; `sprintf` with the two formats used there is taken to do what C says). Finding globals by name
  (`Model/Find`).
* `nkgc.c` whole, with the coroutine type's mark and cleanup callbacks of `nkcorout.c` (`Model/GC`).
* `nkopcode.c`: all 42 instructions; `nkiVmIterate` of `nkvm.c` (`Model/Opcode`).
* Running from the host: execute, iterate, call function, REPL partial compile and error clearing
  (`Model/Exec`, `Model/Repl`, with the loop of the interactive interpreter); destruction (`Model/Destroy`).
* Native functions that use the API, and the argument checks (`Model/Api`, `Model/ArgCheck`).
* Registries: external types, native functions, subsystem data, source files and positions, iteration over
  objects (`Model/Registry`).
* `nksave.c`, both directions, with the coroutine serializer (`Model/Save`), with serialization callbacks of the host
  (`Model/SaveHost`), and call by call of a writer that may refuse data (`Model/SaveSink`).
* `nkxCompilerCompileScriptFile` (`Model/File`). `nktoken.c` whole (`Model/Token`). `nkexpr.c`, `nkopt.c`, `nkfse.c`, `nkcompil.c` (`Model/Expr`,
  `Model/Compile`).
* `nkshrink.c` (`Model/Shrink`).
* Creating and deleting objects and shrinking the object table once more, with every allocation as a point where memory can run out
  (`Model/Fault`, C83), and so the whole collection (`Model/FaultGC`).

## What is not modelled

* `nkdbg.c` apart from `nkiDbgDumpState` and what it calls (C74): the consistency checks and the dumps to standard output that only debug builds use; the rest of the interpreter and the test programs in `src/interp`, `src/test`.
* Thin `nkx.c` wrappers beyond what is listed above (value constructors and getters, string conversion
  entry points that only forward).
* Allocation failure inside the VM model: `Model/VM` and what builds on it take allocations to succeed;
  what happens when one fails is the subject of `Model/Mem` and `Model/Fail`, for arbitrary API bodies.
  Exceptions: the object table (`Model/Fault`); array sizes that overflow 32 bits end in the outcome `longjmp` also in the loader and the
  compiler.
* Allocation and freeing of compiler structures (tree nodes, contexts, tokens). Leaks and double frees there are
  outside the model; recursion of `Delete`, `Clone` and `Optimize` on deep trees is not bounded by the C code and
  stack exhaustion of the C program is not modelled.
* Host serialization callbacks for subsystems and external types: in `Model/Save` they are taken to write and read
  nothing; in `Model/SaveHost` (C79) they write and read bytes, but do nothing else to the VM. Saved images: 32-bit little-endian words, 64-bit pointers.
* The step relation of C50, C52, C55 and C56 is the instructions themselves; the instruction countdown and the
  collection `nkiVmIterate` puts between them are C26, C61 and C16. C68 is about `nkxVmExecuteProgram` with the
  countdown, for scripts during which no collection is due and without an instruction limit.

## Assumptions on the host

Native functions and callbacks are arbitrary functions on the VM state, restricted only where a theorem says so.

* `HostOK` (C25, C33): a native function that is called on a state in order leaves a state in order.
* `KeepsErrors` (C27): it does not remove errors. `KeepsLimit` (C26): it does not raise the instruction limit.
* `KeepsFinished` (C34), `KeepsOthers` (C35): it does not touch the contexts of finished coroutines, or of
  coroutines that are not running.
* `Plain` (C68): it does not depend on the instruction counters or change them, does not put off the next
  collection, and does not remove errors.
* `HostRegisters` (C40): it changes the registries only by registering.
* All of these are theorems (C72) for native functions that use the VM only through the API calls in `Model/Api`;
  `KeepsOthers` and `Plain` only for those that call no functions and execute no instructions, and `Plain` only for
  those that do not look at the instruction counters either. A native function that calls a script function which
  yields may return in another context (`C72_others_violated`).
* Cleanup callbacks are recorded and do not change the VM. Mark callbacks mark a list of values.
* `Session.run`/`LeavesCode` (C49, C53, C63, C64): between two calls to the compiler, running code and the host
  leave the code, the script function entries and a well-formed string table in place.
* C16 to C18: fewer than 2^32 collections (the pass number wraps).
* C31: the objects' field lists are in order (as C11 establishes for every history) and the names `_exec` and
  `_data` can be interned.
* C55_violated: a host whose `"%f"` prints six decimals, as C says; C55_mixed_violated: one on which `0.99999999` is read as the
  nearest single-precision float, which is 1.0.
* C57: `NoDangling` (held references refer to something; what a collection establishes, C16), `HandlesCounted`
  (the list of handles holds objects with a count, as C14 establishes).

## Findings: where the code does not do what the property says

Each is proved on a concrete witness unless marked (observed), which means read in the code and reflected in the
model but without a theorem of its own.

* C04: `nkxSerializeData` has no recovery wrapper; outside serialization it runs into the allocator's assertion.
* C11, C12, C13: a refused field assignment leaves the element linked with the value 0 and uncounted, so the object has one field
  too many, which reads as 0, and `len` is one too small for good; removing all the fields later fails the assertion on the field
  count. `Props/Refuse` describes objects after any number of refused assignments exactly.
* C14: releasing an object that is not held wraps its count, after which it cannot be pinned.
* C15: after a catastrophic failure, deletion runs no cleanup for external objects.
* C24: `&&` and `||` look at the low 8 bits, so 256 is false. They do not short-circuit (observed).
* C26: after a limit error is cleared, the countdown wraps and the limit is not checked for 2^32 - 1
  instructions.
* C27: a second `nkxVmExecuteProgram` executes one instruction despite errors; `nkxVmIterate` executes END despite
  errors; after a catastrophic failure the error count is 1.
* C28: iterating at the end counts down the instruction limit.
* C36: a VM without functions saves an image its own loader rejects. C37, C38: an error inside a coroutine section
  is recorded but the loader reports success, and the coroutine's stack may be out of order.
* C43: the first line of a script gets no marker; positions are wrong after an error in interactive use.
* C45: quotation marks in preprocessor directives that are unclosed, or follow an escaped one, make the tokenizer read
  past the text.
* C47: `nkiStrcpy_s` with the size of the buffer overruns it by one.
* C49: `(len(x))(y)` fails an assertion in the parser.
* C51: after `is_finished()` the compiler's stack height is one too high; later variables are read from the wrong slot.
* C54: each `var` and `return` uses up one of 256 nesting levels for good.
* C55: folding floats prints them with six decimals and reads them again; a float to the right of an integer constant is read by `atol`
  (`1 + 0.99999999` is 1 when folded and 2 when executed).
* C57: shrinking loses fields whose key is an object that moved; stacks of suspended coroutines keep old ids.
* C58: the host's user data is never stored; deleting a failed VM calls libc `free`.
* C70: looking for a global variable that does not exist, with a compiler, records an error, and the program cannot be
  executed any more.
* Undefined behaviour kept by the properties' quantifiers: signed overflow in arithmetic (C23), in constant folding
  (C55, C63) and in the line counter (C45).
* (observed) C08: stack limits round down to a power of two. C20: `1 == 1.5` but not `1.5 == 1`. NaN keys are never
  found. C32: a host-called function that yields runs its parent inside the nested loop, and the loop has no END
  check. C34/C35: a coroutine over a native function runs at once and stays CREATED; `coroutine()` without arguments
  pushes -1 as its count. C48: assignment is left-associative, so `a = b = c` is an error; `(1+2]` and `f(a,)` are
  accepted. `(yield())(y)` becomes `yield(y)`. `var x;` gives integer 0. `break` in the first part of a `for` is accepted.
  `a[i++]++` is an error. A failed script leaves its errors, so that later scripts fail too. A failed `while` leaves
  a branch to instruction 0. Saving changes the collection interval (proved, `C36_save_caps_interval`). Native functions
  of the same name collapse on loading. Loading into a VM with handles leaves a dangling handle list.

* C72: coroutines are objects with external data, and nothing stops a native function from setting that data; the
  next `resume` then uses it as a context.
* C73: `nkxFunctionCallbackGetExternalDataArgument` returns NULL without an error for an object of the right type that has
  no data, and reports an object that does not exist any more three times.
* C74: the table of opcode names has no entries for the padding opcodes 43..63, so `nkxDbgDumpState` of a program that
  contains one (no compiler makes one, a loaded image may) reads through NULL (`C74_violated`). The source lines in the
  listing are off by one, because line numbers start at 0 (a FIXME in the source).
* C75: clearing the errors of an interactive session takes back the code of the failed text, but not its functions: they can
  still be called and then run whatever is compiled in their place (`C75_violated`, `C75_violated_call`; a FIXME in the
  interpreter mentions only variables). The recursion count is not reset, so after 257 lines with one brace too many nothing
  compiles (`C75_levels_violated`). The place to go back to is not checked (`C75_place_violated`). Position markers of the
  failed text stay as well (observed). Coroutines that were running are invalidated for good.
* C76: `nkxCompilerCompileScriptFile` does not check what `ftell` and `fread` return: for a size of -1, or a directory, it
  allocates nothing and writes 4 GB behind it (`C76_size_violated`); files of 4 GB and more are cut off silently
  (`C76_large_violated`); after a short read old memory contents are compiled (`C76_short_violated`).
* C80: the serializer of coroutines cannot return a failure; when the writer refuses a piece of a coroutine, saving records an
  error in the VM, goes on, and returns true if the writer takes the rest (`C80_violated`). The error is recorded after the errors
  were written, so the image does not show it either.
* `nkiSetupExternalFunction_addArgs` frees the argument types but not the external argument types when a function is
  set up again (observed; memory is reclaimed when the VM is deleted).

## Trusted base

* The Lean 4.33.0 kernel.
* Axioms: at most `propext`, `Classical.choice`, `Quot.sound`. No axioms are added, and there is no `sorry`,
  `native_decide` or `bv_decide`. Of the 362 theorems named in the manifest (output of `#print axioms`):

* no axioms: `C27_count_partial`, `C43_after_reset_wrong`.
* `propext`: `C04_error_count_positive`, `C19_equivalence`, `C45_no_directive`, `C46_escapes`, `C58_violation_libc_free`, `C70_distinct`.
* `propext`, `Quot.sound`: `C04_calls_return`, `C04_sticky`, `C04_inert_partial`, `C04_failure_reported`, `C04_failing_allocation_ends_call`, `C04_violation_serializeData`, `C08_underflow`, `C14_link`, `C14_violation`, `C43_first_line_wrong`, `C46_too_long`, `C46_plain`, `C47_copy_partial`, `C47_copy_overruns`, `C47_copy_whole`, `C47_duplicate`, `C47_join`, `C48_exists`, `C53_innermost`, `C53_redeclared`, `C58_violation_user_data`, `C58_null_user_data_partial`, `C69_taken`, `C75_clears`, `C75_place_violated`, `C76_large_violated`, `C76_short_violated`, `C77_collect`, `C79_subsystem`, `C83_agrees`, `C83_collect_agrees`, `C84_literal`.
* `propext`, `Classical.choice`, `Quot.sound`: the other 322 theorems.

* The reading of the C code: the model is a hand transcription.
* C language facts: 32-bit `unsigned`/`int`, 8-bit `nkbool`, two's complement, IEEE-754 `float`.
