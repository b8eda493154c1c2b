{"id": "C01", "title": "Run-length position table behaves like a plain list", "statement": "After any history of push(v) and push_n(v,n) calls, get(i), indexing and len of the run-length table return exactly what a plain list that received the same elements would return; get is None exactly when i is past the end; compression never merges or reorders different values. last()/first() agree with the plain list whenever no zero-length push_n was made.", "quantifier": "every element type with decidable equality, every finite history of push/push_n, every index", "why_tests_cant": "the run layout depends on the whole history; a unit test fixes one history and a few indices", "anchors": ["common/src/rlevec.rs: RleVec::push, push_n, get, len, last, first, Index"]}
{"id": "C02", "title": "Byte buffer write/read/patch laws", "statement": "A u8/u16 written to a bytecode buffer is read back unchanged at the offset where it was written; patching a u16 at an offset changes exactly those two bytes, leaves the length unchanged, and is read back; inserting shifts later bytes and keeps earlier ones; out-of-range reads and patches panic rather than return data.", "quantifier": "every buffer, offset and value", "why_tests_cant": "the value/offset space is 2^16 x unbounded; endianness or off-by-one mistakes can hide outside the sampled points", "anchors": ["bytecode/src/bytecode.rs: impl ByteCode for Vec<u8>"]}
{"id": "C03", "title": "Each bytecode byte keeps the source span it was written with", "statement": "After any history of write/patch operations on a chunk the position table has exactly one entry per byte, get_span(i) is the span passed by the write that produced byte i, and patching never changes any span; past the end get_span is the default span.", "quantifier": "every history of chunk operations, every byte offset", "why_tests_cant": "the table is compressed incrementally and writes have different widths; agreement for all histories is an invariant, not a sample", "anchors": ["bytecode/src/chunk.rs: Chunk::write_op, write_u8, write_u16, patch_*, get_span, last_span"]}
{"id": "C04", "title": "Interning pool: stable, unique, invertible ids", "statement": "As long as fewer than 65536 distinct values were added, add returns the same id for equal values and different ids for different values, get(id) returns the value that was added, id(value) finds it, and ids never change as the pool grows. When the 65537th entry is added the guarantee is lost: it receives id 0 and get(0) still returns the first value.", "quantifier": "every value type, every history of add calls (any length, including beyond 65536)", "why_tests_cant": "uniqueness is over all pairs in all histories; the wrap-around needs 65537 distinct entries", "anchors": ["common/src/pool.rs: Pool::add, add_force, id, get, PoolID::from_usize"]}
{"id": "C05", "title": "Memory-limited array accounting", "statement": "For arrays built with a limit, any history of push, pop, insert, remove, swap_remove, truncate, clear keeps the recorded size equal to the sum of the element sizes and never above the limit; an operation that would exceed the limit fails and leaves the array unchanged. (set and a failing extend break the accounting; try_new_from enforces the limit, the other constructors do not.)", "quantifier": "every element size function, every limit, every history of operations", "why_tests_cant": "the invariant ranges over all histories; drift only becomes visible after specific sequences", "anchors": ["common/src/vecc.rs: Vecc::push, pop, set, insert, remove, extend, swap_remove, truncate, clear, try_new_from, force_new, new_from"]}
{"id": "C06", "title": "Reusable buffer behaves like a stack", "statement": "After any history of push, pop, clear, init, peek, len and drain the reusable buffer returns exactly what an ordinary stack would: stale entries left in the backing storage are never observable.", "quantifier": "every element type and every history of operations", "why_tests_cant": "stale data only shows up for particular interleavings of clear/pop and push", "anchors": ["common/src/bluff.rs: Bluff"]}
{"id": "C07", "title": "Index normalisation", "statement": "Indexing a sequence of length n with integer i succeeds exactly when -n <= i < n and addresses element i (or n+i when negative); otherwise an IndexError carrying i is returned. Holds in release builds for all i; in builds with overflow checks a negative in-range index panics instead.", "quantifier": "all 2^64 indices, all lengths below 2^63, both build modes", "why_tests_cant": "boundary behaviour at the extremes of i64 and at wrap-around of usize cannot be enumerated", "anchors": ["interpreter/src/arith.rs: fix_index", "interpreter/src/vm.rs: IndexGet"]}
{"id": "C08", "title": "Integer arithmetic is exact or wraps, never silently anything else", "statement": "For +, -, *, unary - on integers: if the mathematical result fits in 64 bits that is the result in every build; otherwise the release build returns the unique 64-bit value congruent mod 2^64 and a checked build panics. ** with a non-negative exponent below 2^32 is repeated multiplication under the same rule. &, |, ^, ~ act bitwise; << and >> by 0..63 are multiplication/flooring division by powers of two modulo 2^64.", "quantifier": "all pairs of 64-bit integers, both build modes", "why_tests_cant": "2^128 operand pairs", "anchors": ["interpreter/src/arith.rs: add, subtract, multiply, negate, power, bitwise_*"]}
{"id": "C09", "title": "Division and remainder", "statement": "Dividing (or taking the remainder of) anything by integer 0 or float 0.0 is a ZeroDivisionError; for integers otherwise the quotient is truncated toward zero and q*b + r = a with |r|<|b| and r having the sign of a; the only remaining failure is MIN / -1 (and MIN % -1), which panics.", "quantifier": "all operand pairs of all value kinds", "why_tests_cant": "2^128 integer pairs plus every other value kind", "anchors": ["interpreter/src/arith.rs: divide, modulo"]}
{"id": "C10", "title": "Operator type table", "statement": "Each unary/binary operator is defined exactly on its documented operand kinds; for every other combination it returns the TypeError naming the operator and both operand kinds and never panics or returns a value; the success kind is determined by the operand kinds. (/ and % report division by zero before looking at the left operand.)", "quantifier": "all operators and all pairs of values (arbitrarily nested)", "why_tests_cant": "the table is over all values, including nested arrays/pairs/closures", "anchors": ["interpreter/src/arith.rs"]}
{"id": "C11", "title": "String size limit", "statement": "When +, * or .. produce a string it is exactly the (repeated) concatenation of the operands' text, and its byte length does not exceed string_max_size; the StringTooLarge error is returned exactly when it would. (* is subject to this only while length x count fits in a machine word.)", "quantifier": "all strings, repeat counts and limits", "why_tests_cant": "all lengths and limits, including those around wrap-around", "anchors": ["interpreter/src/arith.rs: add, multiply, join"]}
{"id": "C12", "title": "Array join", "statement": "a .. b is the concatenation in order, never exceeds the array limit, and does not modify either operand. The result succeeds exactly when the combined size fits both the VM array limit and the left operand's own recorded limit; for arrays written as constant literals that recorded limit is their own size, so joining a right operand of non-zero size to a literal always fails.", "quantifier": "all arrays and limits", "why_tests_cant": "depends on hidden per-value limits carried by arrays of any history", "anchors": ["interpreter/src/arith.rs: join (Array, Array)", "compiler/src/lib.rs: literal_to_value", "common/src/vecc.rs: extend, force_new"]}
{"id": "C13", "title": "Colour arithmetic", "statement": "+, -, * on colours saturate per channel into 0..255 (never wrap); / divides channels and panics when a divisor channel is 0; .. averages channels only when each channel sum is at most 255, otherwise it wraps (release) or panics (checked).", "quantifier": "all 2^64 colour pairs, both build modes", "why_tests_cant": "2^64 pairs; a sample misses the overflow region", "anchors": ["interpreter/src/arith.rs: add, subtract, multiply, divide, join (Color, Color)"]}
{"id": "C14", "title": "Equality and ordering laws", "statement": "== never returns an error (comparing closures that capture themselves may exhaust the native stack); it is symmetric, and reflexive and transitive on values free of floats and functions; != is its negation; arrays compare element-wise regardless of their limits. On integers <,<=,>,>= form the usual total order and are mutually consistent (a<=b iff not b<a, a>=b iff b<=a, a==b iff a<=b and b<=a).", "quantifier": "all values (arbitrary nesting), all triples", "why_tests_cant": "laws over all pairs/triples of nested values", "anchors": ["interpreter/src/arith.rs: equal, not_equal, greater_than, less_than, ...", "interpreter/src/value.rs: PartialEq", "common/src/vecc.rs: PartialEq"]}
{"id": "C15", "title": "Truthiness decides branches", "statement": "A condition is taken as false exactly for false, 0, 0.0, the empty string, none and the all-zero colour, as true for every other bool/int/float/string/colour, and is a TypeError for every other kind; if/else and while follow this verdict.", "quantifier": "all values, all programs containing the construct", "why_tests_cant": "all values and all bodies", "anchors": ["interpreter/src/arith.rs: is_truthy", "interpreter/src/vm.rs: JumpIfFalse"]}
{"id": "C16", "title": "Value stack bound", "statement": "Whatever bytecode is run, the number of live stack values never exceeds the configured stack size when an instruction completes, no instruction writes outside the stack, and exceeding the limit yields a StackOverflow error; pushes that skip the check can never overflow.", "quantifier": "every bytecode program (compiled or not), every configuration, every execution prefix", "why_tests_cant": "a reachability invariant over all executions", "anchors": ["interpreter/src/vm.rs: push, push_unchecked, push_many, pop_*"]}
{"id": "C17", "title": "Call depth bound", "statement": "The number of suspended frames never exceeds call_stack_size; a call at the limit returns StackOverflow and does not enter the callee.", "quantifier": "every bytecode program, every configuration, every execution prefix", "why_tests_cant": "reachability invariant over all executions", "anchors": ["interpreter/src/vm.rs: CallFunction, Return"]}
{"id": "C18", "title": "Run-time limit latency", "statement": "If the clock passes max_runtime while a script is running, at most 66 further instructions are executed before run returns RuntimeLimitExceeded (the documentation says 64), for any script including infinite loops; with a clock that never passes the limit the error is never produced.", "quantifier": "every bytecode program, every monotone clock, every point of the execution", "why_tests_cant": "quantifies over all schedules of the clock and infinite executions", "anchors": ["interpreter/src/vm.rs: run (n counter), has_runtime_exceeded, VmOptions::max_runtime"]}
{"id": "C19", "title": "Compiled code never corrupts the machine", "statement": "Running a successfully compiled script never underflows the stack, never reads outside its bytecode, constants or captured variables, never executes an unknown opcode or operand as an opcode, never falls off the end of a function: the only outcomes are a value, a reported error, or the explicitly listed arithmetic/host panics.", "quantifier": "every parser-shaped program within the 16-bit size limits, every execution prefix (also of non-terminating runs)", "why_tests_cant": "safety over all programs and all execution prefixes", "anchors": ["compiler/src/lib.rs", "interpreter/src/vm.rs: run"]}
{"id": "C20", "title": "Compiler correctness: results", "statement": "Compiling a program and running it on the VM gives the value (and final global variables and host data) prescribed by a direct source-level semantics of the language with lexically scoped mutable variables, whenever the machine limits are large enough.", "quantifier": "every program of the language (within 16-bit table limits and the stack-slot discipline stated in C25), every host data, builtin table and starting globals", "why_tests_cant": "semantic preservation over all programs and inputs", "anchors": ["compiler/src/lib.rs: compile_stmnt, compile_expr", "interpreter/src/vm.rs: run"]}
{"id": "C21", "title": "Compiler correctness: errors and their location", "statement": "If the source semantics raises an error, the VM raises the same error, and (for all errors raised by operators, variables, indexing, unpacking, iteration and builtins) reports the span of the source construct that failed.", "quantifier": "every program, as C20", "why_tests_cant": "quantifies over all programs; location depends on a compressed position table and patched code", "anchors": ["interpreter/src/vm.rs: error_1", "bytecode/src/chunk.rs: get_span", "compiler/src/lib.rs"]}
{"id": "C22", "title": "Compiler correctness: non-termination", "statement": "If the source semantics runs forever, the VM never returns a value: it keeps running until it hits a configured limit.", "quantifier": "every program, as C20", "why_tests_cant": "infinite executions cannot be tested", "anchors": ["interpreter/src/vm.rs: run", "compiler/src/lib.rs"]}
{"id": "C23", "title": "Closures share captured variables", "statement": "All closures capturing the same variable instance, and the scope that declared it, observe each other's assignments, both while the declaring scope is active and after it has exited; distinct instances (separate calls/iterations) are independent.", "quantifier": "every program and interleaving of captures, calls, assignments and scope exits", "why_tests_cant": "aliasing over arbitrary histories of capture/close events", "anchors": ["interpreter/src/vm.rs: capture_upvalue, close_upvalues, LoadUpvalue, SetUpvalue, CloseUpvalue, Return", "interpreter/src/value.rs: Upvalue", "compiler/src/lib.rs: resolve_upvalue, add_upvalue, exit_scope"]}
{"id": "C24", "title": "Loop variables are fresh per iteration", "statement": "Each iteration of a for loop binds a new variable instance: closures created in different iterations do not affect each other.", "quantifier": "every for loop, body and iterable", "why_tests_cant": "needs aliasing reasoning over arbitrary bodies and iteration counts", "anchors": ["compiler/src/lib.rs: ForLoop, MultiForLoop, exit_scope", "interpreter/src/vm.rs: CloseUpvalue, IterNext"]}
{"id": "C25", "title": "Lexical scoping and slot discipline", "statement": "A name refers to the innermost enclosing declaration visible at that point, variables declared in a block disappear at its end and shadowed ones are restored, and evaluating a block leaves all other variables and pending operands unchanged. For blocks that declare variables this is guaranteed only where no operand of an enclosing expression is pending; e.g. 1 + { let a = 2; a } evaluates to 4.", "quantifier": "every program", "why_tests_cant": "scoping of all nested programs; the failure needs a declaration below a pending operand", "anchors": ["compiler/src/lib.rs: define_local, resolve_local, exit_scope, get_variable, set_variable", "interpreter/src/vm.rs: LoadLocal, SetLocal"]}
{"id": "C26", "title": "Jumps are patched correctly or rejected", "statement": "Every jump emitted for if/switch/while/for lands exactly on the intended instruction boundary; when the distance does not fit in 16 bits compilation fails with JumpTooLarge instead of producing a wrong jump.", "quantifier": "every program, any body size", "why_tests_cant": "distances depend on arbitrary code sizes; truncation would only show beyond 65535 bytes", "anchors": ["compiler/src/lib.rs: write_jump, patch_jump, write_jump_backward"]}
{"id": "C27", "title": "Calls and returns preserve the caller", "statement": "A call evaluates callee then arguments left to right, binds them positionally, rejects wrong arity before running anything, and on return the caller's pending operands, variables and position are exactly as before apart from assignments made through captured variables or globals; the result is pushed once.", "quantifier": "every program and call depth", "why_tests_cant": "frame discipline over all executions and recursion depths", "anchors": ["interpreter/src/vm.rs: CallFunction, Return", "compiler/src/lib.rs: Node::Call, Node::Function"]}
{"id": "C28", "title": "Iteration visits each element exactly once in order", "statement": "for over an array, string, colour or range a:b visits exactly the elements (characters, channels, integers a..b-1) in order, each once, then stops; the loop's value is the last body value or none; iterating any other kind is a TypeError. For ranges this holds in release builds for all bounds.", "quantifier": "every iterable of any length, every pair of 32-bit bounds", "why_tests_cant": "all lengths and bounds, including spans over 2^31", "anchors": ["interpreter/src/vm.rs: IterNext, NewLoopCtx", "compiler/src/lib.rs: ForLoop"]}
{"id": "C29", "title": "Destructuring", "statement": "let a, b, ... = v binds the k-th name to the k-th component of a pair, array or colour; a length mismatch for pairs and arrays is an InsufficientValues error; a colour may be unpacked into at most its first four channels (more names panic); other kinds are Unpackable errors.", "quantifier": "all values, all name counts 0..255", "why_tests_cant": "all lengths and kinds", "anchors": ["interpreter/src/vm.rs: Unpack", "compiler/src/lib.rs: MultiDeclaration, MultiForLoop"]}
{"id": "C30", "title": "Global variables", "statement": "Reading or assigning a global that was never defined is NameError::Undefined with that very name and does not create it; after definition or assignment, reads return the last value stored; different names never interfere; host-inserted globals are visible to scripts.", "quantifier": "every program/history of global operations and names (within 65536 names)", "why_tests_cant": "histories over unbounded sets of names", "anchors": ["interpreter/src/vm.rs: LoadGlobal, DefineGlobal, SetGlobal, insert_global", "compiler/src/lib.rs: get_variable, set_variable"]}
{"id": "C31", "title": "External inputs", "statement": "set_external succeeds exactly for names the script declared external; a value set before the run is what the script sees, otherwise the declared default; declaring the same external twice or below top level is a compile error. (After update_script the set of declared names is not refreshed.)", "quantifier": "every script and every history of set_external calls", "why_tests_cant": "combinations of declarations, host calls and script updates", "anchors": ["interpreter/src/vm.rs: set_external, DefineGlobalDefaulted, update_script", "compiler/src/lib.rs: ExternalDeclaration", "interpreter/src/lib.rs: Script::check_external"]}
{"id": "C32", "title": "REPL sessions keep definitions", "statement": "When lines are compiled one after another with the same compiler and run on the same VM via update_script, each name keeps its id, so globals defined by earlier lines keep their values for later lines, whatever is defined in between.", "quantifier": "every sequence of successfully compiled lines", "why_tests_cant": "unbounded session histories", "anchors": ["compiler/src/lib.rs: clone_as_script, reset_state", "interpreter/src/vm.rs: update_script", "cli/src/repl.rs"]}
{"id": "C33", "title": "REPL sessions: failed lines and builtin ids", "statement": "A line that fails to compile has no effect on later lines, and calling an undefined builtin is always reported as UndefinedBuiltin. (Violated: partially emitted code of a failed line is run with the next line, and stale builtin ids stay callable under new names.)", "quantifier": "every sequence of lines", "why_tests_cant": "depends on session history", "anchors": ["compiler/src/lib.rs: compile_stmnts, reset_state", "interpreter/src/vm.rs: update_script, add_builtins_list, CallBuiltin", "cli/src/repl.rs"]}
{"id": "C34", "title": "Context managers exit in LIFO order", "statement": "with @ctx(...) { body } runs the exit function of that very context exactly once after body completes normally, innermost first. (Violated when a plain builtin is used as a context inside another context, and when body returns out of the block.)", "quantifier": "every nesting of contexts and bodies", "why_tests_cant": "all nestings and early exits", "anchors": ["interpreter/src/vm.rs: EnterContext, ExitContext", "compiler/src/lib.rs: ContextWrapped"]}
{"id": "C35", "title": "Host call hooks are balanced", "statement": "on_enter_function is invoked once per completed call and on_exit_function once per return to a caller, properly nested: in any execution prefix (#enter - #exit) equals the current call depth.", "quantifier": "every bytecode program and execution prefix", "why_tests_cant": "invariant over all executions", "anchors": ["interpreter/src/vm.rs: CallFunction, Return", "interpreter/src/builtins/mod.rs: VmData"]}
{"id": "C36", "title": "Builtin argument protocol", "statement": "A builtin with k required and m optional parameters accepts exactly the argument counts k..k+m, receives arguments in call order, defaults the missing optional ones, and rejects wrong kinds with a TypeError before producing a result.", "quantifier": "every parameter list and argument list", "why_tests_cant": "all signatures and argument lists", "anchors": ["interpreter/src/builtins/mod.rs: BuiltinArgsContainer, Consumable", "interpreter/src/builtins/macros.rs"]}
{"id": "C37", "title": "Sequence builtins get, set, slice", "statement": "@get/@set follow the same index rule as indexing; @set returns a copy differing only at that position (reading it back gives the new value, other positions are unchanged); @slice(s,i,j) with 0<=i<=j<=len returns exactly elements i..j-1. (slice panics when j > len.)", "quantifier": "all arrays, indices and values", "why_tests_cant": "all lengths and index pairs", "anchors": ["qstd/src/core.rs: get, set, slice"]}
{"id": "C38", "title": "Includes", "statement": "Including files whose contents include nothing further splices each file once, in order, and including the same file twice or a missing file is reported as an error. (Violated for nesting: a file that itself contains an include is always reported as circular, and a genuinely cyclic include is not detected but recurses forever.)", "quantifier": "every file system and include graph", "why_tests_cant": "all graphs, including cyclic ones", "anchors": ["parser/src/includes.rs: resolve_includes, DefaultIncludeResolver::resolve"]}
{"id": "C39", "title": "Colour literals", "statement": "A 3-, 6- or 8-digit hex colour denotes the expected channels (3 digits doubled, alpha 255 unless given), printing a colour yields 8 digits that read back to the same colour, and digit strings of other lengths are rejected. (Violated for 7 digits, which are accepted with the last digit ignored.)", "quantifier": "all digit strings, all 2^32 colours", "why_tests_cant": "2^32 colours and unbounded strings", "anchors": ["parser/src/parser.rs: hex_to_rgba, HEX", "interpreter/src/value.rs: Display"]}
{"id": "C40", "title": "Printed literals read back", "statement": "For every value built from none, booleans, integers, ranges, colours, pairs and arrays, parsing its printed form as a literal yields that value again, independent of nesting.", "quantifier": "all such values of any nesting depth", "why_tests_cant": "unbounded nesting and value ranges", "anchors": ["interpreter/src/value.rs: Display", "parser/src/parser.rs: literal", "parser/src/lib.rs: parse_literal"]}
{"id": "C41", "title": "Every block yields a value, every function returns", "statement": "After parsing, every block ends with an expression or a return, every function body ends with a return, the rewriting adds at most one statement per body, preserves all existing statements, and is idempotent.", "quantifier": "all parsed programs", "why_tests_cant": "all block shapes and nestings", "anchors": ["parser/src/parser.rs: add_implicit_none, block, code"]}
{"id": "C42", "title": "Traceback shape", "statement": "A traceback starts with the running function, never has more than 11 entries whatever the recursion depth, lists the most recent callers innermost first, and ends with the main script whenever a call is active.", "quantifier": "all call stacks of any depth", "why_tests_cant": "all depths", "anchors": ["interpreter/src/vm.rs: trace_back"]}
{"id": "C43", "title": "Disassembly agrees with execution", "statement": "The instruction boundaries and jump targets shown by the disassembler for compiled code are exactly those the VM uses.", "quantifier": "all compiled chunks", "why_tests_cant": "all programs; operand widths must agree opcode by opcode, including variable-length closure creation", "anchors": ["disassembler/src/lib.rs: disassemble_op, disassemble_chunk", "interpreter/src/vm.rs: run"]}
{"id": "C44", "title": "switch picks the first equal case", "statement": "switch evaluates its subject once, compares case values in order, runs only the body of the first equal case (later case values are not evaluated), otherwise the default, otherwise yields none.", "quantifier": "all subjects, case lists and bodies", "why_tests_cant": "all case lists and side-effecting case values", "anchors": ["compiler/src/lib.rs: SwitchCase", "interpreter/src/vm.rs: JumpIfNotEq"]}
{"id": "C45", "title": "Compile-time size limits are errors, not truncation", "statement": "Array displays with more than 255 elements, calls with more than 255 arguments, functions with more than 255 parameters and destructurings of more than 255 names are rejected with the corresponding OverflowError; anything up to 255 is encoded without loss.", "quantifier": "all element/argument counts", "why_tests_cant": "all counts, nesting positions", "anchors": ["compiler/src/lib.rs: Array, Call, BuiltinCall, ContextWrapped, Function, Lambda, Declaration, MultiForLoop"]}
{"id": "C46", "title": "Number/text conversions", "statement": "@int(@str(n)) = n for every integer; @int_from_radix(@bin(n), 2), (@oct(n), 8), (@hex(n), 16) return n for every non-negative n; text that is not a number is a ParseError.", "quantifier": "all 64-bit integers", "why_tests_cant": "2^64 inputs per function", "anchors": ["qstd/src/core.rs: str, int, bin, oct, hex, int_from_radix"]}
{"id": "C47", "title": "String indexing is by character", "statement": "s[i] is the i-th character of s for 0<=i<number of characters, s[-i] counts from the end, iteration yields the same characters in the same order; @len counts bytes, so it agrees with the index bound exactly for ASCII strings.", "quantifier": "all strings and indices", "why_tests_cant": "all Unicode strings", "anchors": ["interpreter/src/vm.rs: IndexGet, IterNext", "qstd/src/core.rs: len"]}
{"id": "C48", "title": "Equal values hash equally", "statement": "Values that compare equal feed the same data to the hasher. (Violated for arrays, whose hash includes their size limit, and for 0.0 / -0.0.) For values free of arrays, floats and functions it holds.", "quantifier": "all pairs of values", "why_tests_cant": "all pairs of nested values", "anchors": ["interpreter/src/value.rs: Hash for Value", "common/src/vecc.rs: derive(Hash)", "qstd/src/math.rs: hash"]}
{"id": "C49", "title": "VM can be reused after an error", "statement": "After any run, including one that ended with an error at any point, reset_state/update_script followed by run behaves as on a VM with the same globals, builtins and host data that never ran before.", "quantifier": "every previous execution (any prefix, any error point)", "why_tests_cant": "all error points and leftover states", "anchors": ["interpreter/src/vm.rs: reset_state, update_script, run"]}
{"id": "C50", "title": "Captured-variable table invariants", "statement": "In every reachable VM state at most one open cell exists per stack position, every open cell is registered, and closing a position snapshots exactly the value stored there, for any bytecode.", "quantifier": "every bytecode program and execution prefix", "why_tests_cant": "reachability invariant", "anchors": ["interpreter/src/vm.rs: capture_upvalue, close_upvalues"]}
{"id": "C51", "title": "Parsing terminates", "statement": "For every text and every float reader, parsing as program code and parsing as a literal end with a tree or a parse error; no rule recurses without consuming input.", "quantifier": "all texts", "why_tests_cant": "left recursion or empty repetition would show only on some texts, of any length", "anchors": ["parser/src/parser.rs: the grammar", "parser/src/lib.rs: parse_code, parse_literal"]}
{"id": "C52", "title": "Positions and names lie in the source", "statement": "Every span in a parsed tree (nodes, variables, parameters, builtins, included files) belongs to the parsed source, lies within its text and starts and ends between characters; all names are identifiers and no keywords.", "quantifier": "all texts", "why_tests_cant": "all texts including multi-byte characters; slicing outside of character boundaries panics", "anchors": ["parser/src/parser.rs: spanned, IDENT", "common/src/span.rs"]}
{"id": "C53", "title": "From program text to result", "statement": "For every program text that parses (with includes), compiles and whose declarations do not occur under pending operands, everything the correctness theorems assume holds, and a value returned by the VM under any limits and clock is the value the direct semantics prescribes for the parsed program.", "quantifier": "all texts, include worlds, hosts, limits, clocks", "why_tests_cant": "all programs and all executions", "anchors": ["parser/src/parser.rs", "parser/src/includes.rs", "compiler/src/lib.rs", "interpreter/src/vm.rs"]}
{"id": "C54", "title": "The parser reads the reference grammar", "statement": "Take any program of a reference grammar (trees of expressions and statements, written with any blanks, comments and line ends between the tokens, parentheses where the levels of the operators demand them): the parser accepts its text and builds exactly the syntax tree the program stands for. In particular the grammar is unambiguous, blanks and comments do not change the meaning, and of two operators the one at the higher level (at the same level the left one) takes the operand between them.", "quantifier": "every program of the reference grammar, all literals, names, blanks and comments, any nesting", "why_tests_cant": "infinitely many texts; ordered choice hides alternatives in ways that depend on all the text that follows", "anchors": ["parser/src/parser.rs: code, node, expr, if_condition, switch_case, block, commasep, literal", "parser/src/lib.rs: parse_code"]}
{"id": "C55", "title": "String builtins", "statement": "@split(s, sep) returns exactly the pieces between the leftmost non-overlapping occurrences of sep, and @join(@split(s, sep), sep) = s; @replace(s, old, new) = @join(@split(s, old), new); @trim/@trim_start/@trim_end remove exactly the white space at the ends; @contains/@starts_with/@ends_with hold exactly when the text decomposes accordingly; @chars lists the characters and joins back to s; @title capitalises the words and separates them by one space; @truncate(s, n, e) leaves short text alone and otherwise returns a beginning of s followed by e, of at most n characters. (The last clause fails for text that is not ASCII and for an ellipsis longer than n; no string builtin obeys the string size limit.)", "quantifier": "all strings, separators and lengths", "why_tests_cant": "strings and separators are unbounded; overlapping occurrences and empty pieces are easy to miss", "anchors": ["qstd/src/strings.rs"]}
{"id": "C56", "title": "Numeric and colour builtins", "statement": "@min and @max of integers are the minimum and maximum, of mixed numbers they convert the integer; @abs is the absolute value except for the least integer; @round/@floor/@ceil keep integers; @clamp reports bad bounds and never aborts; @hash lies in 0..2^31-1; @rgb/@rgba cut integers off at 0 and 255 and @r/@g/@b/@a read the channels back; @invert is an involution; @color undoes @str on colours and takes the four low bytes of integers; @char is the character with the code; @len counts items or bytes.", "quantifier": "all integers, colours and values", "why_tests_cant": "2^64 integers and 2^32 colours; boundary values abort", "anchors": ["qstd/src/math.rs", "qstd/src/colors.rs", "qstd/src/core.rs"]}
{"id": "C57", "title": "Compiled programs with the standard library", "statement": "Compiler correctness (C19-C22, C53) applies to programs that call the standard library: adding the library to a prepared VM keeps it prepared, with the direct semantics using the very same library functions, because the builtins act alike on source-level and machine values (they see functions only through their names).", "quantifier": "every program text, host configuration and set of inputs", "why_tests_cant": "all programs and all builtins on all argument lists", "anchors": ["qstd/src/lib.rs: std", "qstd/src/core.rs", "qstd/src/strings.rs", "qstd/src/math.rs", "interpreter/src/vm.rs: add_builtins_list"]}
{"id": "C58", "title": "The compiler never panics", "statement": "Every program text that the parser accepts is either compiled or rejected with an error; no program text brings down the process by reaching an unreachable!() or an unwrap in the compiler, also not as a line of an interactive session.", "quantifier": "every program text with its included files, every state of the compiler", "why_tests_cant": "all program texts and all histories of lines", "anchors": ["compiler/src/lib.rs: compile_node, optimize", "parser/src/parser.rs: expr"]}
{"id": "C59", "title": "Tracebacks show the lines of the calls", "statement": "For a text and a position in it, get_lineno gives one more than the number of line breaks before the position, and an entry of a printed traceback names the file, the line and the function and quotes that line; the entries for waiting frames are at the calls they wait for; printing a traceback never panics.", "quantifier": "every text, position, program and moment of a run", "why_tests_cant": "every combination of text and position; the calls of all programs", "anchors": ["common/src/sourcecache.rs", "common/src/error.rs: TraceBack", "interpreter/src/vm.rs: trace_back"]}
{"id": "C60", "title": "Errors are reported where they arise", "statement": "Every byte of compiled code carries a span of the syntax tree it was compiled from, namely that of the node the instruction was made for, and these spans lie in the text (or in the texts of included files). A runtime error is reported at the node whose instruction raised it.", "quantifier": "every program, every history of a VM, every error", "why_tests_cant": "all programs and failing instructions", "anchors": ["compiler/src/lib.rs: emit", "bytecode/src/chunk.rs", "interpreter/src/vm.rs: error"]}
{"id": "C61", "title": "Control flow stays in compiled code", "statement": "Whatever a host does with a VM in whatever order - adding builtins, setting globals and externals, running it to values, errors or limits, resetting it, giving it other scripts - the instruction pointer is always at an instruction of a function compiled from one of the programs (or behind the last one), the waiting frames are behind call instructions, and every reachable function value is one of these functions.", "quantifier": "every history of a VM", "why_tests_cant": "all histories and programs, including after errors", "anchors": ["interpreter/src/vm.rs", "compiler/src/lib.rs"]}
{"id": "C63", "title": "Input, output, random numbers and time", "statement": "@print, @println and @debug append the texts of their arguments, each followed by a space, to the output and do nothing else. No builtin removes output; those that are not about the outside neither print nor ask, and their results depend on arguments and limits only. @input prints its prompt and returns the line typed without white space around it. @readfile returns the text of the file. @randint(a, b) is at least a and below b and every such integer is possible; @randchoice gives any element and no other value; @randbool both; random colours are opaque. @date shows the time of day, and the same date all day. @assert_eq and @assert_ne follow ==. Violated: the end of the input cannot be told from an empty line, @input and @readfile ignore the limit on strings, @randfloat with NaN crashes, dates are wrong.", "quantifier": "every argument, every sequence of answers from the outside, limits", "why_tests_cant": "all answers of the outside; random results need all numbers of the generator", "anchors": ["qstd/src/io.rs", "qstd/src/math.rs", "qstd/src/time.rs", "qstd/src/colors.rs", "qstd/src/testing.rs"]}
{"id": "C64", "title": "The command line program", "statement": "The command `quilt file` ends with status 0 and reports nothing, or with status 1 and a report. Status 0: the program has a value in the direct semantics, and printed is exactly what the semantics prescribes, followed by the value if it was asked for and is not none. Status 1: the file could not be read, parsed or compiled, a limit asked for was reached, or the error is the prescribed one at the prescribed place, and the output before the traceback is as prescribed. It crashes only where the semantics prescribes a panic. Conversely every prescribed value, error, panic and divergence shows, given enough of the two stacks and no time limit.", "quantifier": "every file, arguments, standard input, files included and read, random numbers, clock", "why_tests_cant": "all programs and environments", "anchors": ["cli/src/main.rs", "qstd/src"]}
{"id": "C65", "title": "Kinds of errors", "statement": "A running program only ever reports errors of the language, messages of builtins, a stack overflow or the runtime limit: no compiler error, no stack underflow, no memory limit, no halt. Every builtin of the standard library fails, if at all, with an error of the language or a message.", "quantifier": "every program, host, limits, execution", "why_tests_cant": "all programs", "anchors": ["common/src/error.rs", "interpreter/src/vm.rs", "qstd/src"]}
{"id": "C66", "title": "Conversions of the standard library", "statement": "@gettype names the kind of every value. @bool of integers and floats tells whether they are not 0; of texts it accepts true and false only. @char accepts exactly the codes of characters. @color of a text reads two hexadecimal digits per channel, or three doubled digits, with any number of # around, and rejects all else. @alpha keeps the colour channels, @interp(a, b, t) is a + (b - a) * t up to 2^-50 of the larger end for t from 0 to 1, @assert accepts true only, white space is Unicode's.", "quantifier": "every value, text, integer", "why_tests_cant": "all texts and values", "anchors": ["qstd/src/core.rs", "qstd/src/colors.rs", "qstd/src/math.rs", "qstd/src/testing.rs"]}
{"id": "C67", "title": "Floats", "statement": "+, -, *, / of finite floats give the float nearest to the exact result, ties to even, and infinity beyond the greatest float; division by a zero of either sign is an error; % is exact. Comparisons are those of the values; NaN compares false and stays NaN; infinities behave as prescribed. @float of an integer is the nearest float, exact and undone by @int up to 53 bits; @int drops the fraction and clips to the range of integers; @floor, @ceil and @round give the integer below, above and the nearest, half away from zero; @sqrt is the float nearest to the root, NaN below 0; @min, @max, @abs and @clamp are those of the values, @min and @max prefer numbers to NaN. The hypotheses on floats of C14 and C56 hold.", "quantifier": "every pair of 64-bit floats", "why_tests_cant": "2^128 pairs of floats", "anchors": ["interpreter/src/value.rs", "qstd/src/math.rs", "qstd/src/core.rs"]}
{"id": "C68", "title": "Floats as texts", "statement": "@float(@str(x)) is x for every float x. A float with a fraction is printed as a decimal with a point; in a program this text is a literal with exactly this value, also inside of printed arrays and pairs (C40 with floats). Violated for floats without a fraction: they are printed without a point and read as integers, beyond 2^53 as possibly another number, beyond 64 bits as 0.", "quantifier": "every 64-bit float, every nested value", "why_tests_cant": "2^64 floats; correctness of shortest decimals is known to depend on rare cases", "anchors": ["interpreter/src/value.rs", "qstd/src/core.rs", "parser/src/parser.rs"]}
{"id": "C62", "title": "Colour arithmetic", "statement": "Every channel of @mix, @lighten and @darken (also the opacity) is within 1/2 + 2^-42 of the weighted mean of its ends, never outside of them, and exact at both ends; weights outside of 0..1 and NaN count as the nearest end and 0. @luma and @brightness are the weighted sums of their documentation up to 2^-42, @contrast and @cdifference exact up to one rounding; @contrast_color is black exactly for bright colours. Every channel of @hsl and @hsv is within 1/2 + 2^-39 of the one on the colour wheel, for hues from 0 to 360; without saturation they are greys, lightness 0 and 1 are black and white for every hue and saturation, the fourth argument is the opacity. Violated: @complement of every colour is transparent black; @saturate and @desaturate change nothing; hues outside of 0..360 are wrong.", "quantifier": "all colours, all 64-bit floats as weights, all finite hues", "why_tests_cant": "2^128 arguments of @mix; results depend on rounding errors of five float operations", "anchors": ["qstd/src/colors.rs"]}
{"id": "C69", "title": "Reading and printing decimals", "statement": "@float accepts exactly the decimals (sign, digits, point, digits, exponent; at least one digit before the exponent) and the words inf, infinity and nan in any case; every other text is an error. The result is the float nearest to the decimal, ties to even, infinity on overflow, with the sign of the text. @str of a finite float other than zero is its sign and digits without an exponent; no text that @float reads as this float has fewer significant digits, and of those with the last digit at the same place none is nearer to the float.", "quantifier": "all texts, all 64-bit floats", "why_tests_cant": "2^64 floats, infinitely many texts of each; errors of float parsers and printers show at single rare inputs", "anchors": ["qstd/src/core.rs", "interpreter/src/value.rs"]}
{"id": "C70", "title": "The interactive loop", "statement": "Without a main file the program greets, and then for ever prints the prompt, reads a line and runs it in the session of all lines before: a blank line does nothing; a line with a value under the direct semantics prints what it prints itself, then its value and a line end, or nothing for none; a line with an error prints a traceback and reports this error at its position; a text that cannot be read is reported and changes nothing; in each case the loop then waits in the state the direct semantics prescribes. Only limits can make a difference. The process crashes only if the outside fails or the line panics. Violated: at the end of the input the loop does not end but prints the prompt for ever; the traceback of a line that cannot be read is about the line before.", "quantifier": "all sequences of lines and answers of the outside, all arguments and limits, all states of the session", "why_tests_cant": "sessions are unbounded and their lines depend on each other through globals, closures and the input that lines read themselves", "anchors": ["cli/src/repl.rs", "cli/src/main.rs"]}
{"id": "C71", "title": "Layout and names of locals do not matter", "statement": "Programs that differ only in positions and in the names of local variables (consistently renamed, without capture) compute the same value, up to the code of functions, or the same error, with the same effects on data and globals, whatever the host's builtins do; compiled and run, if one ends without hitting a limit so does the other on large enough stacks, with the same result. Two texts of one syntax tree, with other blanks, comments, line ends, parentheses or notations of numbers and strings, are, with the files they include, both read as the same program up to positions, or neither is read.", "quantifier": "all pairs of programs, all hosts with builtins that treat functions alike, all limits, all layouts of all texts of the grammar", "why_tests_cant": "a pair of programs per test; capture and shadowing go wrong only for particular nestings of scopes", "anchors": ["compiler/src/lib.rs", "parser/src/parser.rs", "interpreter/src/vm.rs"]}
{"id": "C72", "title": "Size limits hold for every value of a run", "statement": "If the literals of a program and its globals respect the limits on the sizes of texts and arrays, and builtins keep to them, then every value in every state of a run (on the stack, in captured variables, inside other values, in constants of functions) and the result respect them: texts have at most string_max_size bytes, arrays count at most array_max_size bytes and their recorded size is that of their items. So an array has at most array_max_size items that are not empty. All but eleven builtins of the standard library keep to the limits; the other ones do not. Violated beyond that: empty items count nothing, so arrays grow without bound under a limit of 0, and so do pairs.", "quantifier": "all programs, hosts, limits, states of runs, ended or not", "why_tests_cant": "limits are global claims over all values of all states; a single unchecked way of making a text or array is enough to break them, and needs the right program to show", "anchors": ["interpreter/src/vm.rs", "interpreter/src/value.rs", "common/src/vecc.rs", "qstd/src/strings.rs", "qstd/src/core.rs"]}
{"id": "C73", "title": "Messages tell errors apart", "statement": "Errors with the same message are the same error: the message identifies the category, the kind and everything the error carries (names of types hold no backquotes). The kind can be read off the message without that condition, and titles of reports are one-to-one with kinds. A name or path printed with escapes is recovered exactly, whatever characters it has. Violated: messages about numbers of items, arguments and parameters say that more than 256 are not allowed, but 256 are not allowed either.", "quantifier": "all errors with all names, texts, numbers they carry; all tables of printable characters", "why_tests_cant": "injectivity is a claim over all pairs of errors, including names with quotes, escapes and backquotes", "anchors": ["common/src/error.rs"]}
{"id": "C74", "title": "The time limit ends every run", "statement": "The limit is looked at before every 66th instruction and after every call of a builtin. A run ends at the first of these moments at which the limit is exceeded, with all instructions before it executed, or by an instruction with the limit not exceeded at any of them before. If the limit is exceeded from some instruction on, at most 65 more instructions are executed, then the run ends; so the command with --max-runtime ms always ends if time goes by. A limit that is never exceeded changes nothing, and a limited run ends as the unlimited one or with the error of the limit. Violated: the option promises at most 64 more instructions.", "quantifier": "all programs, hosts, states, clocks, limits", "why_tests_cant": "about all clocks and all programs, including those that do not end; real clocks cannot be steered", "anchors": ["interpreter/src/vm.rs", "cli/src/main.rs"]}
{"id": "C75", "title": "Listings can be read back", "statement": "The text of a listing, printed without colours, determines everything it shows: for each line the line number (shown only where it changes), the jump mark, the offset, the opcode, the operand and the hint, and where the line ends. Opcodes have different names. A hint that is a jump shows its target and whether it is further on, and no other hint looks like one. Texts in constants never break a line.", "quantifier": "all listings, all constants, all float formats without line breaks, all tables of printable characters", "why_tests_cant": "injectivity over all listings, including numbers wider than their column and constants with any characters", "anchors": ["disassembler/src/structure.rs", "disassembler/src/lib.rs"]}
{"id": "C76", "title": "Flags only add lines", "statement": "With --debug, --disassemble and --timeit the command ends exactly when it does without them, with the same status and report; the output is the same but for lines before it and one line between what the program printed and what the command prints after it. Without flags nothing is added. The listing can be made for every program that compiles, and shows all functions with all instructions whose line is known; all lines are known, if the files are ASCII. Violated: after other characters instructions are missing in the listing.", "quantifier": "all programs, included files, hosts, arguments, flags, clocks", "why_tests_cant": "a comparison of two executables over all programs, including those that do not end or crash", "anchors": ["cli/src/main.rs", "disassembler/src/lib.rs", "common/src/sourcecache.rs"]}
{"id": "C77", "title": "Programs without while end", "statement": "A program that has no while loop, neither in its functions nor in its included files, ends: under any limit on the call stack the machine stops within a number of instructions that does not depend on the clock, with a value, an error or a crash; so the command ends, without a time limit as well. It suffices that the word while does not occur in the files that are read. (Loops with for range over finite values, and a recursion that does not end exceeds the call stack.)", "quantifier": "all programs without while, hosts, builtins, limits, clocks", "why_tests_cant": "termination over all programs of a syntactic class, including recursive and higher-order ones", "anchors": ["interpreter/src/vm.rs", "compiler/src/lib.rs", "cli/src/main.rs"]}
{"id": "C78", "title": "Positions and the text", "statement": "In the tree read from a file the position of a part lies in the position of the whole, in the same file; where a name is said to stand, it stands in the text; in the text of a construct its keyword or operator occurs. So the position reported with an error that ends a run shows the construct that failed: builtins and contexts at exactly their name, operators, calls, indexing, arrays, ranges, loops and conditions with their sign or word. Violated: in x op= e the operation has the position of e only.", "quantifier": "all program texts and included files; all runs, hosts, clocks", "why_tests_cant": "a relation between every node of every parse tree and the text, carried through the compiler to all errors of all runs", "anchors": ["parser/src/parser.rs", "parser/src/node.rs", "compiler/src/lib.rs", "interpreter/src/vm.rs"]}
{"id": "C79", "title": "The documentation of builtins tells the truth", "statement": "The builtins that exist are exactly those documented in the groups of the standard library, each once. A call whose arguments do not match the documented parameters (a wrong type, too few, too many) fails with the error that the documentation gives and does nothing else. What a builtin returns has a documented type, and is none if no type is documented. A documented default is the value used when the argument is left out. Each builtin is described (violated: alpha has an empty description).", "quantifier": "all builtins of the standard library, all argument lists, hosts, limits and answers from outside", "why_tests_cant": "argument lists of all lengths and types for every builtin, and every result it can give", "anchors": ["interpreter/src/builtins/docs.rs", "interpreter/src/builtins/macros.rs", "qstd/src/core.rs", "qstd/src/math.rs", "qstd/src/colors.rs", "qstd/src/strings.rs", "qstd/src/io.rs"]}
{"id": "C80", "title": "Programs that compare no functions", "statement": "A program without functions never compares functions, and neither does one in which one side of each == and != and, for each case of a switch, the case or what is switched over is a literal, a range, or the result of an operator other than '..'. So for files in which fn occurs nowhere, or in which none of ==, != and switch does, whatever the command does is prescribed by the direct semantics or is a limit that was reached; and if while does not occur either, the command ends.", "quantifier": "all programs, program texts and included files of this form; all flags, inputs, clocks, limits", "why_tests_cant": "an invariant of all values in all reachable states of all such programs", "anchors": ["interpreter/src/arith.rs:252-259", "interpreter/src/value.rs", "interpreter/src/vm.rs", "cli/src/main.rs"]}
{"id": "C81", "title": "Values made from data of the host", "statement": "A value made from a number, text, colour, pair, option or vector of the host stands for the same data: integers keep their number (violated for u64 from 2^63, which become negative), different data give different values (violated for an Option in an Option), and a builtin whose parameter has the matching type gets the data back. Values are at least as large as the data. The array made from a vector holds its items in order; its limit is the size of the host data, so nothing can ever be appended to it. Violated: an array of numbers is larger than its limit from the start, which arrays that programs make never are.", "quantifier": "all types of host data built from those with a From implementation, all data of them, all limits", "why_tests_cant": "Types nest without end and integers of 64 bits cannot be enumerated; the tests of the project make no values from host data beyond a few integers.", "anchors": ["interpreter/src/value.rs:320-415", "common/src/vecc.rs:6-73", "common/src/vecc.rs:139-146", "interpreter/src/builtins/args.rs"]}
{"id": "C82", "title": "Where and how syntax errors are reported", "statement": "A text that is not a program is reported by an error, never a panic, and exactly then. The error points between two characters, with the line and the column (in characters, from 1) of that place; it does not point before the end of the statements that were read, so not into a whole program that is followed by a stray bracket. It lists what was expected there: at least one name, sorted, none twice, and nothing listed stands at that place. With includes, it is about the last file read, under the number of that file. The list should name everything that could stand there (violated: keywords are never listed). The same for single literals.", "quantifier": "all texts, all programs of the reference grammar followed by any text after a stray closer, all file systems", "why_tests_cant": "The position is the furthest of all failures of a backtracking parser, over all alternatives at all places; that slicing the text there never panics, and that nothing listed is there, concerns every text. The project has no tests of error messages.", "anchors": ["parser/src/lib.rs:14-46", "parser/src/parser.rs:8-297", "parser/src/includes.rs:71-114", "common/src/error.rs:368-403"]}
{"id": "C83", "title": "Compile errors are true and point at the guilty place; nothing else is rejected", "statement": "When the compiler rejects a program, the program has a place at fault in the way the error says, and the position of the error is that of the place: a declaration, include or return used as an expression; a return at top level; an external declaration or an include in a block or function; an unresolved include; more than 255 items, arguments, parameters or unpacked names; a conditional, switch or loop of size above 8191, too large to jump over; or the second declaration of an external name, also across included files. Conversely a program is accepted only if no place is at fault (except for size), and up to size 8191 exactly the programs without faults are accepted. For program texts the position lies in one of the files read, and includes are never reported as unresolved.", "quantifier": "all syntax trees (of size up to 65535 for redefined names), all program texts with all file systems, all compiler configurations", "why_tests_cant": "It is a statement about all nestings of all constructs, in both directions: that nothing wrong is accepted and nothing right is rejected, and that the position named is the guilty one. The length of code that a jump must cross depends on everything inside, including captured variables closed at scope ends.", "anchors": ["compiler/src/lib.rs:100-125", "compiler/src/lib.rs:293-480", "compiler/src/lib.rs:482-960"]}
{"id": "C84", "title": "build_script reports errors with the sources they are about, for any include resolver", "statement": "The library entry point reads the program, resolves its includes with the resolver given, and compiles. With DefaultIncludeResolver it gives the script that the command runs or the error that the command reports. With any resolver that only adds sources and returns trees and errors that stand in them, an error comes back with sources it points into, the first of which is the program under its name. The compiler never finds an include left unresolved. The name of the program only shows as the name of the first source. A resolver of named texts that marks a name when it reads it always comes to an end, reads each text at most once, and resolves nested includes.", "quantifier": "all resolvers (any state, any behaviour, within the stated condition), all program texts and names, all collections of included texts", "why_tests_cant": "The resolver is code of the host: a test can only try particular ones. Inclusion is recursive through resolver and reader in turn.", "anchors": ["src/lib.rs:34-71", "parser/src/includes.rs:12-42", "parser/src/includes.rs:71-114", "cli/src/main.rs:61-177"]}
{"id": "C85", "title": "Every run-time error has a culprit in the program, and points at it", "statement": "When running a program fails, with an error other than the limits of stack and time, some expression or statement of the program is at fault in the way the error says, and the error points at the place that belongs to it: an operator whose name the error quotes; a division or remainder for a division by zero; an index expression for an index out of range; a call for something not callable or, with a function of that name and number of parameters written in the program and another number of arguments, for a wrong number of arguments; a conditional or loop for a condition; a declaration, loop or context of n variables for values of another number of parts; a builtin that can raise the error, at its name; a variable or builtin that is not declared, at its name. So texts without / and % that call no builtins never report a division by zero, and so on for each kind of error.", "quantifier": "all program texts, all hosts whose builtins raise no stack overflows, all machine limits and clocks; the whole standard library for the command", "why_tests_cant": "The error is raised by an instruction of the machine deep in calls, loops and closures; that its kind, its numbers and its position all agree with one construct of the text is a claim about all programs and all runs.", "anchors": ["interpreter/src/vm.rs:257-1095", "interpreter/src/vm.rs:1145-1171", "interpreter/src/arith.rs:1-330", "compiler/src/lib.rs:482-960", "common/src/error.rs:204-336"]}
{"id": "C86", "title": "Programs that declare their names before use never fail because of undeclared names", "statement": "If every variable a program reads or assigns is declared before its use in the scopes around it, as a global, local, parameter, loop variable or the name of the function around it, and every builtin it calls is registered, then running it never reports an undeclared variable or builtin, no matter how functions are passed around, capture variables, outlive their scopes and are called from elsewhere. Globals set by the host may be used as well.", "quantifier": "all programs of this form, all executions, all hosts whose builtins raise no errors about names; the whole standard library for the command", "why_tests_cant": "Names are resolved while compiling to slots, captures and global numbers, and globals only when an instruction runs; that static scoping agrees with all of this along every execution needs an invariant over all closures that exist.", "anchors": ["compiler/src/lib.rs:482-960", "compiler/src/lib.rs:1064-1125", "interpreter/src/vm.rs:380-450", "interpreter/src/vm.rs:715-765"]}
{"id": "C87", "title": "Every crash of a run has a culprit in the program", "statement": "When running a program brings down the process, some expression or statement of the program is to blame, and its parts can evaluate to the values that are needed for this: the least integer divided by -1 (or its remainder), a colour divided by one with a zero channel, a string repeated beyond 2^64 bytes, a colour taken apart into more than four variables, a builtin that crashes with these arguments; in builds that check arithmetic also a result out of range, a shift by 64 or more, a negative index, a sum of channels above 255 in the mean of two colours, a loop over a range longer than 2^31, or a return outside of functions. Of the standard library only slice, randfloat and clamp crash (clamp not with IEEE floats), with checks also get, set and abs. So programs of steady parts (divisors written as numbers other than -1, no strings repeated, at most four variables at once, none of these builtins) never crash a release build of the command.", "quantifier": "all program texts, all hosts whose builtins raise no stack overflows, all machine limits and clocks; the whole standard library for the command", "why_tests_cant": "Panics are spread over unchecked arithmetic, slicing and assertions of the machine, the values and the library; that nothing else can crash, in any execution of any program, includes all the stack and register accesses of the machine.", "anchors": ["interpreter/src/vm.rs:257-1171", "interpreter/src/arith.rs:1-550", "interpreter/src/value.rs:1-420", "qstd/src/core.rs:15-69", "qstd/src/math.rs:123-216"]}
{"id": "C88", "title": "Error reports point into the files that were read, and can be drawn", "statement": "Every error that is reported - by the parser, the include resolver, the compiler or a run, also on a machine that ran other programs before - comes with a position that begins and ends at characters of one of the files that were read, and does not end before it begins; so does every frame of a traceback. The report that is made of it starts at that position, its source is found, and drawing it does not panic; for ASCII files the place in its first line is the line and column of the first character marked, and no frame of the traceback is passed over.", "quantifier": "all program texts and includes, all errors, all machine histories, limits and clocks", "why_tests_cant": "Positions are attached to every instruction by a run-length encoded table and looked up with offsets that may lie behind the code; the report is drawn by a library that panics on reversed or foreign positions. That none of the many places that raise errors picks a bad one needs an invariant over all code and executions.", "anchors": ["common/src/error.rs:65-175", "common/src/sourcecache.rs:14-50", "interpreter/src/vm.rs:218-255", "interpreter/src/vm.rs:1145-1171", "parser/src/lib.rs:15-32", "cli/src/main.rs:104-177"]}
{"id": "C89", "title": "How much stack a program needs can be read off its text: only nested calls can overflow the stack", "statement": "There is a number that is computed from the syntax tree of a program alone - the largest number of operands and local variables that one call of one of its functions has at once - such that in every state a run reaches the value stack holds at most this many values for each call in progress. Hence a program is stopped with a stack overflow only if as many calls are in progress as the machine admits, provided its stack has this many values for each; loops, long programs and long runs never fill the stack. A program with a value has that value on every machine that admits enough nested calls and has this many values for each. The command with its default limits (500000 values, 1000 calls) reports a stack overflow for programs of functions that need at most 500 values each only if 1000 calls are in progress.", "quantifier": "all programs read from text, all hosts with builtins that do not report stack overflows themselves, all limits, clocks and states reached", "why_tests_cant": "The compiler drops, keeps and reuses stack slots in every construct, and a single value left behind in one path of a loop body would fill the stack only after many iterations. That every path through every instruction sequence leaves the same height needs a typing of all generated code.", "anchors": ["compiler/src/lib.rs:330-1131", "interpreter/src/vm.rs:14-63", "interpreter/src/vm.rs:257-1060", "interpreter/src/vm.rs:1173-1215", "cli/src/main.rs:68-80"]}
{"id": "C90", "title": "Builds with and without checks agree, unless the one with checks crashes", "statement": "A build with overflow checks and debug assertions either crashes or does exactly what a build without them does: the operators, the compiler, the builtins of the standard library, the machine from any state, the command with any flags (output, report and exit status), and the interactive session after any number of lines (output, reports, state). Hence whatever a program prints in a checked build it prints in a release build, and a crash of the release build is a crash of the checked one. Programs with no part to blame for a crash, for instance those made only of comparisons, concatenations with literals, functions, loops over lists and builtins other than slice, clamp, randfloat, get, set, abs, do the same in both.", "quantifier": "all operands, syntax trees, bytecodes, machine states, files, flags, limits, clocks, sequences of lines, resolvers of includes and hosts whose builtins agree in the same way", "why_tests_cant": "Tests run in one build; that no path of the interpreter silently takes a wrapped value in one build and another path in the other concerns all programs and both builds at once.", "anchors": ["interpreter/src/arith.rs:1-520", "interpreter/src/vm.rs:257-1060", "interpreter/src/vm.rs:1203-1280", "compiler/src/lib.rs:922-952", "qstd/src/core.rs:15-69", "qstd/src/math.rs:10-190", "cli/src/main.rs:61-177", "cli/src/repl.rs:36-96", "src/lib.rs:53-71"]}
{"id": "C91", "title": "Programs that do not ask the world do the same in every world", "statement": "A program that calls none of the twelve builtins that ask for random numbers, the time, input or files prints the same, reports the same and exits with the same status whatever the input, the contents of files, the random numbers and the clocks are (with a limit of time: whenever it is checked at the same moments). More generally, two machines that were prepared in the same steps but with different functions registered under some names do the same, step for step, for every program that does not call these names, even if it passes functions around. These twelve are exactly the builtins of the library whose result depends on the world. That a program calls none of them can be seen from its text: their names do not occur in the files.", "quantifier": "all programs read from text, includes, flags, limits, clocks, worlds, hosts, preparations and amounts of steps", "why_tests_cant": "Worlds are unbounded and tests see one of them; that a builtin is not called concerns every path of a program, including calls through functions that are passed as values, and that no other builtin looks at the world concerns all arguments.", "anchors": ["interpreter/src/vm.rs:162-216", "interpreter/src/vm.rs:685-765", "qstd/src/lib.rs:1-39", "qstd/src/math.rs:189-227", "qstd/src/io.rs:7-62", "qstd/src/time.rs:1-42", "qstd/src/colors.rs:195-218", "cli/src/main.rs:61-177"]}
{"id": "C92", "title": "Larger limits only remove limit errors", "statement": "With a larger stack, more nested calls, longer strings or more time (four of the five limits of VmOptions and of the flags of the command; the limit of arrays stays the same), a program does exactly what it did before - output, value, error and place of the error, crash, state of the machine - after any number of instructions, unless what stopped it before was the error that says that a limit was reached (stack overflow, string too large, runtime limit exceeded). No builtin of the library looks at the limit of strings.", "quantifier": "all programs read from text, includes, hosts, flags, pairs of limits, clocks and amounts of steps; comparison of functions excluded (C80)", "why_tests_cant": "It relates two runs of every program under every pair of limits; that a limit is consulted nowhere else, and that no instruction reads a place of the stack whose existence depends on the size of the stack, concerns all code that the compiler can emit.", "anchors": ["interpreter/src/vm.rs:14-64", "interpreter/src/vm.rs:257-300", "interpreter/src/vm.rs:755-830", "interpreter/src/vm.rs:1123-1240", "interpreter/src/arith.rs:70-160", "interpreter/src/arith.rs:339-452", "cli/src/main.rs:45-87"]}
{"id": "C93", "title": "Included files and lines of a session are parts of one program", "statement": "A program with includes means what it means with the statements of the included files written in place of the includes (without the none that the parser adds to a file that does not end with an expression): the same value, error or crash and the same state in the end. Two programs one after the other mean the first one and then the second one from the state the first one led to. So the command ends in the same way, with the same output and status or error, for a file with includes and for one file that is read as the whole program, given enough of the two stacks; and the last of several lines typed into a session has the value, and leaves the data and globals, that the lines have as one program. (The statements, not the texts: a line break does not end a statement.)", "quantifier": "all programs, included files, hosts, states, lines and sessions", "why_tests_cant": "It relates two programs, or a program and a history of a session, for every way of splitting one program into files or lines.", "anchors": ["parser/src/includes.rs:71-116", "compiler/src/lib.rs:446-470", "cli/src/main.rs:45-110", "cli/src/repl.rs:5-60"]}
{"id": "C94", "title": "Output is only ever added, and a run stopped by a limit printed the beginning of what it would have printed", "statement": "What the builtins do to the data of the host is all that happens to them: a relation that every builtin, context exit and hook keeps holds between the data before and after any run, however it ends. So output is only ever added. A program that is stopped by a limit (stack, calls, length of strings, time) has printed the beginning of what it prints with larger limits, and the beginning of what the semantics prescribes; a program that is not stopped by a limit has printed exactly that. In the library println, print, debug and input print and no other builtin does; a program that calls none of these prints nothing but the line of the result or the traceback.", "quantifier": "all programs read from text, includes, hosts, flags, pairs of limits, clocks and amounts of steps; comparison of functions excluded (C80) except for the claim that output is only added", "why_tests_cant": "It relates the output of a run cut at any place to that of the whole run, for every program and every pair of limits, and says of every program that does not name four builtins that it is silent.", "anchors": ["qstd/src/io.rs:6-62", "interpreter/src/vm.rs:257-300", "interpreter/src/vm.rs:699-713", "interpreter/src/vm.rs:755-830", "cli/src/main.rs:45-87", "cli/src/main.rs:161-177"]}
{"id": "C95", "title": "Programs without recursion need no more nested calls than their functions have ranks, so explicit limits are enough", "statement": "If every call of a program goes to a function by its name, and the functions at the top level of its files can be ranked below N so that each calls functions of lower rank only, then a run never has more than N calls in progress, whatever the limits are. A program of this kind that has a value or an error gets exactly this from a machine that allows N+1 nested calls and more than N+1 times frameSize values on the stack (a number read off the text, C89), and the command ends with exactly the prescribed status and output under such limits; the stack never overflows. Without `while` such a program always has an outcome.", "quantifier": "all programs read from text, rankings, includes, hosts, library functions, limits, clocks and amounts of steps; for the bound on calls, programs that end in a value or an error and not in a crash", "why_tests_cant": "It bounds the depth of calls of every run of every program of a kind by a number read off its text, and says which limits suffice for all of them.", "anchors": ["interpreter/src/vm.rs:755-830", "interpreter/src/vm.rs:257-300", "cli/src/main.rs:45-87"]}
{"id": "C96", "title": "Names and places do not matter: consistent renaming changes only the names in the code and in what it does", "statement": "If the names of a program are replaced by other names, different names by different names, and its places by other places (with the names that the compiler itself invents left alone), then the compiler gives what it gave before with these names and places put in: the same instructions and constants in every function, the same externals, the same tables of places and of names up to the replacement. A program that is rejected is rejected with the same error at the corresponding place, a program that is accepted is accepted, and a program on which the compiler panics is one on which it panics. In particular shadowing, capture by closures and the order of the tables depend on which names are equal and on nothing else. Run by a host that registers its functions and globals under the new names, the renamed program takes the same number of steps under every limit and every clock and ends in the same way, with the new names and places in its value, error, state and traceback.", "quantifier": "all programs (as syntax trees), all one-to-one replacements of names and of places that leave the invented names, all configurations; for runs all limits, clocks, amounts of steps, data and hosts whose functions treat functions alike that differ in names and places only", "why_tests_cant": "It compares the results of the compiler for infinitely many programs under infinitely many renamings; a test compares two.", "anchors": ["compiler/src/lib.rs:295-960", "compiler/src/lib.rs:962-1115", "common/src/pool.rs:42-75", "interpreter/src/vm.rs:97-255", "interpreter/src/vm.rs:257-1095"]}
{"id": "C97", "title": "Definitions that nothing uses can be left out", "statement": "Let a set of names be given, and leave out of a program the top-level functions with these names and the top-level declarations of these names whose value is a literal or a function. If what is left mentions none of these names as a variable (it neither reads nor assigns one, nor declares one as external), then it does what the whole program does: the same value, or the same error at the same place, the same effects on the host, the same variables and the same globals but for those left out, within the same bounds on loops and calls. The functions left out may use each other and anything else. Compiled and run, one of the two programs ends without hitting a limit if and only if, given enough stack, the other one does, with the same result. The command, run with a file that includes a library and with a file that has just the needed parts of it, ends with the same status and the same output.", "quantifier": "all programs and all sets of names that the rest does not mention; all hosts whose functions do not look into functions; all start states, limits and inputs; for the command all pairs of files that are read as such programs", "why_tests_cant": "That a definition has no influence is a statement about all programs around it and all runs of them; a test sees one program with and without one definition.", "anchors": ["compiler/src/lib.rs:295-960", "interpreter/src/vm.rs:257-1095", "cli/src/main.rs:1-120"]}
{"id": "C98", "title": "Definitions next to each other may be in any order", "statement": "If neighbouring top-level definitions of different names (functions, and declarations of a literal or of a function) change places any number of times, the program keeps its meaning exactly: the same value or the same error at the same place, the same effects on the host, the same variables and globals, within the same bounds. So functions may use functions and constants defined after them. Whether the compiler accepts a program does not depend on the order of its statements at all. Compiled and run, the reordered program ends with the same result, given enough stack, although its tables of names and places are in another order. The command ends with the same status and the same output, also if includes of files with such definitions change places with definitions.", "quantifier": "all programs and all sequences of such exchanges, all permutations of the statements for acceptance; all hosts, start states, limits and inputs; for the command all pairs of files that are read as such programs", "why_tests_cant": "The order changes the number of every name and every position in the code; that no run of any program shows it is a statement about all programs and all runs.", "anchors": ["compiler/src/lib.rs:295-960", "interpreter/src/vm.rs:257-1095", "cli/src/main.rs:1-120"]}
{"id": "C99", "title": "What comes after a failure does not matter", "statement": "If the beginning of a program (some of its first top-level statements, as a program of their own) does not succeed - it ends with an error, a crash or a return, or never -, then the whole program does exactly this, whatever statements come after: the same error at the same place, with the same effects on the host and the same variables. If the beginning succeeds, the rest starts in the state it ended with. Compiled and run, two programs with the same failing beginning end in the same way, given enough stack, although the code and the tables of names and constants differ; the command prints the same output up to the traceback and ends with the same error, for files that begin with the same statements up to layout, directly or by includes. So nothing after a failure is run, and later functions, constants and jumps do not affect earlier statements.", "quantifier": "all programs and all ways to split them, all continuations; all hosts, start states, limits and inputs; for the command all pairs of files that are read as such programs", "why_tests_cant": "It compares every program with all programs that begin alike; the compiled codes of the common beginning differ in the indices of names and constants shared with the rest.", "anchors": ["compiler/src/lib.rs:295-960", "interpreter/src/vm.rs:257-1095", "cli/src/main.rs:1-120"]}
{"id": "C100", "title": "A definition that is replaced before anything is computed can be left out", "statement": "If a top-level definition (a function, or a declaration of a literal or of a function) is followed by a definition of the same name, with only definitions in between, it can be left out; neighbouring definitions of different names may change places as well (C98). The program keeps its meaning exactly: the same value or the same error at the same place, the same effects, variables and globals, within the same bounds. In particular a group of definitions that is repeated later, with only definitions in between, can be left out at first. The program without them is accepted by the compiler if the program is. Compiled and run, both end in the same way or both hit limits, given enough stack. The command ends with the same status and output for a file that replaces definitions of the libraries it includes and for one without the replaced definitions.", "quantifier": "all programs and all sequences of such steps; all hosts, start states, limits and inputs; for the command all pairs of files that are read as such programs", "why_tests_cant": "It compares infinitely many pairs of programs in all their runs.", "anchors": ["compiler/src/lib.rs:295-960", "interpreter/src/vm.rs:257-1095", "cli/src/main.rs:1-120"]}
{"id": "C101", "title": "Parts of a program may be replaced by parts with the same meaning", "statement": "If expressions and blocks of a program are replaced, anywhere (in functions, loops, cases, contexts, arguments and included files) and any number of times, one inside the other, by expressions and blocks that have the same meaning with every host and in every scope and state, then the program keeps its meaning up to positions: the same value or error, the same effects on the host, within the same bound on loops and calls, although functions carry their changed code as values. Compiled and run, the new program ends with the same result, given enough stack; the command ends with the same status and output. Examples of such replacements, all of them proved: an if with a constant condition by its block, a block with one expression by the expression, an operator on literals by the literal it gives in all builds, a block at the end of a block by its statements, not a == b by a != b, a switch with one case by an if, statements after a return and literals in the middle of a block by nothing. These are the usual optimisations on syntax trees, so an optimiser made of them would be correct.", "quantifier": "all programs and all such replacements; all hosts, start states, limits and inputs; for the command all pairs of files that are read as such programs", "why_tests_cant": "It quantifies over all pairs of equivalent parts and over all programs around them; values that are functions differ in code, so results can only be compared by an invariant on states.", "anchors": ["compiler/src/lib.rs:295-960", "interpreter/src/vm.rs:257-1095", "cli/src/main.rs:1-120"]}
