# Design: a Lean 4 model of quilt and what is proved about it

quilt is a small language: a PEG parser, a single-pass compiler to bytecode with back-patched jumps,
a stack machine with captured variables, context managers and host builtins, a standard library, a
disassembler and a REPL. The model follows the Rust sources function by function; the theorems are about
all programs, texts, values, byte sequences, hosts and limits.

Properties are listed in `properties.jsonl`, their theorems in `MANIFEST.json`, mutation tests in
`seeded/LOG.jsonl`.

## 1. What is modelled

| Lean module (under `lean/Verif`) | source (under `/repo`) | how |
|---|---|---|
| `Common/Basic` | `common/src/span.rs`, `error.rs` | spans, error kinds, outcomes |
| `Common/Rle`, `Pool`, `Vecc`, `Bluff` | `common/src/{rlevec,pool,vecc,bluff}.rs` | function by function |
| `Bytecode` | `bytecode/src/{bytecode,chunk}.rs` | byte buffers, little-endian 16-bit reads, writes, patches |
| `Value`, `Arith`, `Hash`, `Show` | `interpreter/src/{value,arith}.rs` | operators, sizes, hash stream, printing |
| `Ast` | `parser/src/{node,literal}.rs` | same constructors |
| `Parser/Peg`, `Grammar`, `Implicit`, `Includes` | `parser/src/parser.rs`, `includes.rs` | all rules, from characters |
| `Compiler/State`, `Compile` | `compiler/src/lib.rs` | state passing, bytes, back-patching |
| `Vm/Prims`, `Instr`, `Machine`, `Api` | `interpreter/src/vm.rs` | one `step` per loop iteration, byte-level fetch; host interface |
| `Disasm`, `Listing` | `disassembler/src/{lib,structure}.rs` | listing as data and as text |
| `Message` | `common/src/error.rs` | titles and messages of errors |
| `Lib/Args`, `Core`, `Math`, `Colors`, `Strings`, `Std`, `Io` | `interpreter/src/builtins/*`, `qstd/src/*` | argument macros, all builtins |
| `Lib/Ieee` | `f64` of the Rust standard library | operations, rounding, parsing and printing of 64-bit floats |
| `Cli`, `Listing` | `cli/src/main.rs` | the command that runs a file; with flags |
| `Repl` | `cli/src/repl.rs:22-59` | sessions |
| `ReplLoop` | `cli/src/repl.rs:61-96` | the interactive loop |
| `Facade` | `src/lib.rs`, `parser/src/includes.rs` | `build_script` with any include resolver |
| `Parser/Traced` | `parser/src/lib.rs`, `parser.rs` | the grammar with the failures that syntax errors list |
| `HostValue`, `Lib/Docs` | `interpreter/src/value.rs:320-415`, `builtins/docs.rs`, `qstd/src` | values from host data; documentation of builtins |
| `Report` | `common/src/sourcecache.rs`, `error.rs` (tracebacks) | line table, text of tracebacks |

Specifications, not models of code:

| module | what |
|---|---|
| `Sem/Source` | direct semantics: an evaluator on syntax trees with a store of variables; no stack, no code |
| `Sem/Wf` | which programs obey the slot discipline (C25) and the placement of declarations |
| `Vm/Instr` | instructions as data, their encoding |
| `Compiler/Gen` | a code generator without back-patching (an intermediate step of proofs, never part of a statement) |

Everything else contains proofs. Property theorems are in `Props/*`, namespace `Quilt.Props`.

### General decisions

* **Outcomes.** `Res α = ok | err | panic`. Every Rust panic that the code can reach (index out of bounds,
  `unwrap`, overflow, subtraction below zero, failing `RefCell` borrow) is the explicit outcome `panic`;
  errors are explicit; nothing is given a default value.
* **Build mode.** `Cfg.chk` selects overflow checks and debug assertions: `true` = debug build, `false` =
  release. Theorems quantify over it unless they say otherwise.
* **Floats** are 64-bit patterns with operations supplied by an arbitrary structure `FOps`. Theorems
  assume no IEEE fact except where a hypothesis says so (`FloatOrder` of `C56_clamp`, symmetry of `==` in C14);
  `Lib/Ieee.lean` is one such structure, IEEE 754 binary64, for C62 and C67-C69, and satisfies these (`C67_order`). Its operations were
  compared with the processor's on 729 pairs of floats, its decimals with those of CPython on 1500.
* **`Rc`, `RefCell`.** Immutable shared data is a value. `Rc<RefCell<Upvalue>>` is an index into a heap of
  cells in the machine state (`open i | closed v`), because sharing is observable there.
* **Host.** Builtins are arbitrary functions of host data, arguments and limits; hooks and clock are
  parameters. `C20`-`C22` require of builtins only that they treat functions uniformly (`BRel`), which is
  proved for the standard library (`C57`).
* **Sizes.** `usize` is `Nat` where wrap-around would need an allocation of 2^64 bytes; where 8-, 16-,
  32- or 64-bit arithmetic can wrap, it does so in the model.
* **Unsafe code**: the machine reads code bytes, constants and stack slots unchecked in release builds.
  The model panics; `C19` shows that compiled programs never get there.

### The proof of compiler correctness (C19-C22)

1. `Compiler/Gen*`: the back-patching compiler writes exactly the bytes of the functional generator
   `genNode` (`GenEq`), whose tables only grow (`GenExt`) and keep their invariants (`GenInv`).
2. `Sem/World`: a correspondence between source states and machine states: `γ` maps cells to variables,
   `slots` maps stack positions to variables, values correspond up to the representation of functions.
3. `Sem/Sim*`: every construct's code simulates its direct semantics, by induction on the evaluation fuel;
   unlimited machine.
4. `Vm/Limits`, `Sem/Api`: the limited machine does the same or stops with the limit's error.
5. `Sem/Shaped`, `Parser/*`: parsed and compiled programs always have an outcome in the direct semantics.

## 2. Trusted base

* The Lean 4.33 kernel, and the axioms `propext`, `Classical.choice`, `Quot.sound`; each theorem of
  `MANIFEST.json` depends on no other axiom (`#print axioms`). No Mathlib module is used.
* The reading of the Rust sources embodied in the definitions, each of which cites file and lines. The code
  itself was not built or run.
* **`peg` 0.8.1.** The macro crate was not available as source. Assumed: ordered choice, greedy repetition
  without backtracking into it, `precedence!` by climbing: prefix and atom rules are tried in the order
  written whatever the minimal level, then infix and postfix rules of at least the minimal level in the order written,
  as long as one matches; `(@)` is the same level, `@` the next; `position!()` is a byte offset. For syntax errors (C82):
  literals, classes, `expected!` and `Err` of conditional actions note their failure unless in `quiet!` or lookahead, custom
  methods note nothing, the furthest position is reported, lines and columns count from 1 (columns in characters).
* **`ariadne` 0.1.5.** The line table (`Source`) is modelled from its documentation: offsets count characters, lines end
  after one of seven line break characters, `get_offset_line` is the last line that starts at or before the offset. A report is drawn (C88) by fetching the label's source,
  asserting that the label does not end before it starts, looking up the lines of its ends, and showing name, line and column first.
* **Rust standard library** functions as documented: `str::parse::<i64>`, `from_str_radix`, `char` methods
  (`is_whitespace` through a parameter), `split`, `replace`, `trim`, saturating and wrapping arithmetic,
  `HashMap` as a finite map.
* Char-level text: a source text is a list of characters; byte offsets are computed from UTF-8 lengths.

Not modelled: the coloured report of `ariadne` but for its first line (C59, C88) and terminal IO; file IO (the file system is a function from
names to texts); the random number generator, clock and standard input (arbitrary sequences of answers, `Outside`); transcendental functions and powers of floats (parameters); the hasher's mixing function (C48 is about the data fed to
it); memory exhaustion; native stack overflow by deep recursion (parser, compiler, comparison, printing).

## 3. Properties

| id | property | modelled | proved how | status | theorems (`Quilt.Props.`) |
|---|---|---|---|---|---|
| C01 | Run-length position table behaves like a plain list | `RleVec` operations | abstraction to the list of pushed values; every operation refines it; induction over histories. A zero-length run is visible to iteration (`C01_zero_run_visible`). | proved | `C01_rle_refines_list`, `C01_rle_ends`, `C01_zero_run_visible` |
| C02 | Byte buffer write/read/patch laws | byte buffer reads, writes, 16-bit patches | list reasoning, little-endian arithmetic of 16-bit words | proved | `C02_write_read`, `C02_patch`, `C02_insert`, `C02_read_oob` |
| C03 | Each bytecode byte keeps the source span it was written with | chunks: bytes and run-length spans | history of writes against the list of spans written | proved | `C03_spans` |
| C04 | Interning pool: stable, unique, invertible ids | `Pool<V, u16>` | invariant over histories; ids repeat after 65536 entries: proved for all histories that get there | proved | `C04_pool`, `C04_force`, `C04_update`, `C04_pool_wraps`, `C04_full_pool_exists` |
| C05 | Memory-limited array accounting | `Vecc`: `push`, `set`, `extend` | invariant over histories; counterexamples for `set` (size drifts) and failing `extend` | proved | `C05_accounting`, `C05_limit_enforced`, `C05_set_drifts`, `C05_extend_corrupts` |
| C06 | Reusable buffer behaves like a stack | `Bluff` | refinement of a list used as a stack | proved | `C06_bluff_refines_stack` |
| C07 | Index normalisation | `fix_index`, both build modes | case analysis over all indices and lengths against integers | proved | `C07_fix_index`, `C07_fix_index_checked` |
| C08 | Integer arithmetic is exact or wraps, never silently anything else | integer operators | 64-bit words against mathematical integers; wrap or panic exactly when out of range | proved | `C08_int_arith`, `C08_pow`, `C08_pow_reduces`, `C08_pow_negative`, `C08_bitwise`, `C08_shift`, `C08_shift_masks` |
| C09 | Division and remainder | `/`, `%` | against integer division truncating towards zero | proved | `C09_zero`, `C09_zero_only`, `C09_int` |
| C10 | Operator type table | all binary and unary operators | complete case analysis over kinds: result kind, error, or panic | proved | `C10_table`, `C10_unary`, `C10_float_arith`, `C10_float_compare`, `C10_logic`, `C10_string_division`, `C10_release_panics` |
| C11 | String size limit | string `+`, `*`, limits | lengths in UTF-8 bytes; overflow of the product recorded | proved | `C11_concat`, `C11_repeat`, `C11_repeat_overflow`, `C11_limit` |
| C12 | Array join | array `..`, sizes of values | sum of the sizes of items against an independent inductive count; literal arrays fail to join (witness) | proved | `C12_join`, `C12_size`, `C12_literal`, `C12_literal_join_fails`, `C12_closed` |
| C13 | Colour arithmetic | colour operators | per channel, against saturating integers | proved | `C13_saturate`, `C13_div`, `C13_average`, `C13_average_overflow` |
| C14 | Equality and ordering laws | `==`, `!=`, `<`, ...; closures: `closEq` | induction over nested values; plain values: equivalence, and total order per kind; closures by their cells | proved | `C14_decides`, `C14_neq`, `C14_symmetric`, `C14_symmetric_vm`, `C14_closures`, `C14_equivalence`, `C14_order`, `C14_int_float` |
| C15 | Truthiness decides branches | truthiness, `if`, `while` | decision table; direct semantics; compiled programs by C20 | proved | `C15_truthy`, `C15_if`, `C15_while`, `C15_if_program`, `C15_while_program` |
| C16 | Value stack bound | stack bound | invariant of `step` over arbitrary bytecode | proved | `C16_stack_bound`, `C16_overflow_is_error`, `C16_below_limit_same` |
| C17 | Call depth bound | call depth | invariant of `step` over arbitrary bytecode | proved | `C17_call_depth`, `C17_call_at_limit` |
| C18 | Run-time limit latency | runtime limit | loop counter against an arbitrary monotone clock; latency bound and that it is attained | proved | `C18_runtime_limit`, `C18_counter`, `C18_no_false_alarm`, `C18_bound_attained` |
| C19 | Compiled code never corrupts the machine | whole pipeline | no reachable state of a compiled program is stuck or corrupt; from the simulation | proved | `C19_safe`, `C19_shape_suffices` |
| C20 | Compiler correctness: results | compiler + VM against `Sem/Source` | simulation, see section 1 | proved | `C20_value`, `C20_value_or_limit`, `C20_return`, `C20_outcome_unique` |
| C21 | Compiler correctness: errors and their location | the same, errors and positions | simulation | proved | `C21_error`, `C21_error_or_limit`, `C21_panic` |
| C22 | Compiler correctness: non-termination | the same, divergence | simulation, fuel | proved | `C22_diverges`, `C22_keeps_running`, `C22_value_only_if_prescribed` |
| C23 | Closures share captured variables | captured variables | VM cells for arbitrary bytecode; direct semantics | proved | `C23_set`, `C23_get`, `C23_declaring_scope`, `C23_survives_scope`, `C23_survives_return`, `C23_shared`, `C23_captures`, `C50_capture_shares` |
| C24 | Loop variables are fresh per iteration | loop variables | direct semantics; compiled programs by C20 | proved | `C24_iterations`, `C24_distinct`, `C24_independent`, `C24_program` |
| C25 | Lexical scoping and slot discipline | name resolution, slots | resolution and shadowing for all programs; operands survive under the slot discipline; negation by witness without it | partial | `C25_resolves`, `C25_unnamed_unchanged`, `C25_shadowing`, `C25_expression_partial`, `C25_violated` |
| C26 | Jumps are patched correctly or rejected | jump patching | all jumps of all functions of compiled programs lead to instruction boundaries; too large bodies are rejected | proved | `C26_jumps`, `C26_machine`, `C26_while_too_large`, `C26_if_too_large`, `C26_while_too_large_case` |
| C27 | Calls and returns preserve the caller | calls | callee frame, arguments, arity; direct semantics and programs | proved | `C27_call`, `C27_rejects`, `C27_body`, `C27_call_program`, `C25_expression_partial` |
| C28 | Iteration visits each element exactly once in order | iteration | instruction level for every iterable kind; `for` in the direct semantics and compiled | proved | `C28_items`, `C28_items_checked`, `C28_checked_panics`, `C28_not_iterable`, `C28_iter_next`, `C28_for`, `C28_for_not_iterable`, `C28_for_program` |
| C29 | Destructuring | destructuring | instruction level, direct semantics, compiled | proved | `C29_unpack`, `C29_positions`, `C29_local`, `C29_errors`, `C29_program` |
| C30 | Global variables | global variables | instruction level, histories | proved | `C30_read`, `C30_define`, `C30_assign`, `C30_insert` |
| C31 | External inputs | external inputs | declared names, values seen by programs; stale after `update_script` (proved) | proved | `C31_declared`, `C31_value_seen`, `C31_update_script_stale`, `C31_declared_once`, `C31_redeclared`, `C31_not_global` |
| C32 | REPL sessions keep definitions | `Repl.new/load/line/read/execute` (`Repl.lean`), `CState.reset`, `Machine.updateScript`, `addBuiltins` | every history of lines corresponds to a source state (`SessInv`, by induction over `Session`); one line is the simulation of C20–C22 from that state; ids by `CM.gr_stmts` | proved | `C32_value`, `C32_value_or_limit`, `C32_error`, `C32_error_or_limit`, `C32_panic`, `C32_diverges`, `C32_text`, `C32_session`, `C32_ids`, `C32_globals_kept` |
| C33 | REPL sessions: failed lines and builtin ids | as C32 | three witnesses by evaluation of the model; partial theorems for what remains true | partial | `C33_failed_line_violated`, `C33_stale_builtin_violated`, `C33_dangling_violated`, `C33_failed_line_partial`, `C33_unread`, `C33_undefined_builtin_partial`, `C33_first_line` |
| C34 | Context managers exit in LIFO order | contexts | LIFO exits in the direct semantics and programs; two violations with witnesses | partial | `C34_exits_partial`, `C34_balanced_partial`, `C34_program_partial`, `C34_violated_plain`, `C34_violated_return` |
| C35 | Host call hooks are balanced | host hooks | invariant over arbitrary bytecode | proved | `C35_hooks_balanced` |
| C36 | Builtin argument protocol | argument macros of builtins | any signature; exhaustive cases | proved | `C36_accepts`, `C36_too_few`, `C36_too_many`, `C36_wrong_kind`, `C36_cases`, `C36_rest` |
| C37 | Sequence builtins get, set, slice | `@get`, `@set`, `@slice` | against lists and integer positions; a panic recorded | proved | `C37_get`, `C37_set`, `C37_set_range`, `C37_slice`, `C37_slice_order`, `C37_slice_panics` |
| C38 | Includes | include resolver | exact success condition; three violations | partial | `C38_includes`, `C38_errors`, `C38_violated_nested`, `C38_violated_nested_circular`, `C38_violated_cycle` |
| C39 | Colour literals | colour literals | digits to channels; seven digits accepted (violation) | partial | `C39_channels`, `C39_byte`, `C39_read`, `C39_rejected_partial`, `C39_violated_seven`, `C39_roundtrip` |
| C40 | Printed literals read back | printed literals | print then parse gives the value back, any nesting | proved | `C40_roundtrip`, `C40_literals` |
| C41 | Every block yields a value, every function returns | implicit `none`/`return` | every body of a parsed program ends properly; idempotent | proved | `C41_bodies_end`, `C41_ends`, `C41_preserves`, `C41_idempotent`, `C41_shaped` |
| C42 | Traceback shape | traceback | shape and the off-by-one count of omitted calls | proved | `C42_traceback`, `C42_omitted_count` |
| C43 | Disassembly agrees with execution | disassembler | offsets, operands and targets agree with decoding; violations for marks and names | partial | `C43_listing_partial`, `C43_offsets`, `C43_violated_marks`, `C43_violated_local_names` |
| C44 | switch picks the first equal case | `switch` | direct semantics and compiled programs | proved | `C44_switch`, `C44_switch_program` |
| C45 | Compile-time size limits are errors, not truncation | compile-time limits | within limits encoded exactly, beyond rejected | proved | `C45_within`, `C45_rejected`, `C45_encoded` |
| C46 | Number/text conversions | number/text conversions | accepted texts characterised inductively; round trips for all integers | proved | `C46_int_str`, `C46_parse`, `C46_radix`, `C46_radix_negative`, `C46_bad_radix` |
| C47 | String indexing is by character | string indexing | by character; agreement with iteration | proved | `C47_string_index`, `C47_iteration_agrees`, `C47_len_ascii` |
| C48 | Equal values hash equally | hash stream | equal values feed equal data (without arrays and floats); different values of the same kinds feed different data; violations and a collision recorded | partial | `C48_hash_partial`, `C48_hash_distinguishes`, `C48_hash_collision`, `C48_hash_violated`, `C48_hash_violated_float` |
| C49 | VM can be reused after an error | `Machine.reset`, `Machine.updateScript` | no instruction changes the outermost frame (`Vm/Bottom.lean`, all bytecode); `AtStart` (`Sem/Reuse.lean`): after a reset the VM corresponds to the source state again, then simulation as in C20; violation with witness | partial | `C49_update_state`, `C49_reset_state_partial`, `C49_rerun_value_partial`, `C49_rerun_value_or_limit_partial`, `C49_rerun_error_partial`, `C49_reset_violated` |
| C50 | Captured-variable table invariants | captured-variable table | invariants over arbitrary bytecode | proved | `C50_cells`, `C50_close_snapshots`, `C50_capture_shares` |
| C51 | Parsing terminates | parser | every text is decided with fuel proportional to its length | proved | `C51_code_terminates`, `C51_literal_terminates` |
| C52 | Positions and names lie in the source | spans and names | all spans lie in the text that was parsed | proved | `C52_spans` |
| C53 | From program text to result | text to result | parser theorems provide the hypotheses of C19-C22 | proved | `C53_hypotheses`, `C53_specified`, `C53_value_only_if_prescribed` |
| C54 | The parser reads the reference grammar | reference grammar `Cst`/`Prog` with `text`, `ok`, `ast` (`Parser/Concrete.lean`, independent of the parser); parser as in C51 | structural induction over the trees (`Parser/Complete.lean`): each form is read, whatever follows, if what follows cannot continue it (`After`, `Stop`, `ReadsTo`); earlier alternatives of the ordered choice fail (`Forms`, `Stmts`, `Conds`) | proved | `C54_parse`, `C54_unambiguous`, `C54_blanks`, `C54_precedence`, `C54_violated_semicolon`, `C54_violated_comment`, `C54_violated_range`, `C54_violated_return`, `C54_violated_minus`, `C54_violated_call` |
| C55 | String builtins | string builtins | against inductive splittings and words; `@truncate` violations | partial | `C55_split`, `C55_join_split`, `C55_replace`, `C55_replace_pieces`, `C55_contains`, `C55_trim`, `C55_trim_unique`, `C55_chars`, `C55_title`, `C55_truncate`, `C55_violated_truncate`, `C55_violated_truncate_long`, `C55_violated_limit` |
| C56 | Numeric and colour builtins | numeric and colour builtins | against integers and saturation | proved | `C56_min_max`, `C56_min_max_mixed`, `C56_abs`, `C56_abs_least`, `C56_round`, `C56_clamp`, `C56_hash`, `C56_rgba`, `C56_channels`, `C56_invert`, `C56_color_int`, `C56_color_str`, `C56_char`, `C56_len` |
| C57 | Compiled programs with the standard library | standard library under C20-C22 | the builtins treat functions uniformly | proved | `C57_prepared`, `C57_lookup`, `C57_runs` |
| C58 | The compiler never panics | compiler (`compileStmts`, with `unreachable!` as `COut.panic`), parser | `np_node` … (induction over the tree: generator actions panic only on misplaced operators); `ops_of_parsed`: which operators the grammar puts where (part of the soundness proof of the parser) | partial | `C58_trees`, `C58_text_partial`, `C58_line_partial`, `C58_violated`, `C58_line_violated` |
| C59 | Tracebacks show the lines of the calls | `Report.lean`: line table of `ariadne` 0.1.5, `lineno`, `entryText`, `traceText`; `Machine.traceBack` | lists of lines against the text (`ReportLemmas.lean`); calls by C60 and C61; three violations with witnesses | partial | `C59_lineno`, `C59_entry_partial`, `C59_calls`, `C59_total`, `C59_text`, `C59_violated_number`, `C59_violated_main`, `C59_violated_bytes` |
| C60 | Errors are reported where they arise | spans written by the compiler, `err1`, `errAt` | judgement `GS` over the code generator (`Compiler/Spans.lean`): each instruction carries the span of its node; `exec_located` (`Vm/Place.lean`): which instruction raises which error where; `parsed_spans` (`Parser/Sources.lean`) for texts with includes | partial | `C60_origin`, `C60_in_text`, `C60_error_partial`, `C60_violated_arity` |
| C61 | Control flow stays in compiled code | the machine with host interface | invariant `Cfi` (`Vm/Flow.lean`) over steps, runs and host actions; every instruction, every builtin that only returns functions it was given | proved | `C61_frames`, `C61_values`, `C61_decodes` |
| C62 | Colour arithmetic | `Lib/Colors.lean` with `Ieee.ops` | bounds on the error of each float operation (`roundMag_error`), added up; exactness of sums of small multiples of 1/2; `@hsl` and `@hsv` by an error analysis in rational numbers (`Lib/IeeeRat.lean`, `Props/Hues.lean`) | partial | `C62_mix`, `C62_mixed`, `C62_lighten`, `C62_darken`, `C62_violated_saturate`, `C62_violated_complement`, `C62_luma`, `C62_brightness`, `C62_contrast_color`, `C62_contrast`, `C62_cdifference`, `C62_hsl`, `C62_hsv`, `C62_violated_hue`, `C62_grey`, `C62_black_white`, `C62_opacity` |
| C63 | Input, output, random numbers and time | `Lib/Io.lean`: `io.rs`, `time.rs`, random builtins, comparisons of `testing.rs`; the outside is any sequence of answers (`Outside`) | case analysis over the library for what no builtin does; arithmetic of 64-bit ranges; separate calendar (`dayAfter`) | partial | `C63_print`, `C63_quiet`, `C63_append`, `C63_input`, `C63_violated_end`, `C63_readfile`, `C63_violated_size`, `C63_randint`, `C63_randchoice`, `C63_randbool`, `C63_randfloat`, `C63_violated_randfloat`, `C63_random_color`, `C63_now`, `C63_date_partial`, `C63_violated_date`, `C63_assert` |
| C64 | The command line program | `Cli.main` (`Cli.lean`: file, parse, compile, machine with the whole library, run, exit status, output), `Lib/Io.lean` | C20-C22 and C53 for the CLI's host (`CliSem.lean`); the library never raises a stack overflow of its own (`Lib/Errors.lean`) | proved | `C64_status`, `C64_rejected`, `C64_success`, `C64_failure`, `C64_crash`, `C64_value`, `C64_error`, `C64_diverges`, `C64_return`, `C64_panic` |
| C65 | Kinds of errors | errors of the direct semantics (`Sem/Errors.lean`) and of all builtins (`Lib/Errors.lean`) | induction over the fuel of the evaluator; case analysis over the library; machine by C20-C22 | proved | `C65_semantics`, `C65_kinds`, `C65_library`, `C65_reported` |
| C66 | Conversions of the standard library | `core.rs`, parts of `colors.rs`, `math.rs`, `testing.rs` | exhaustive cases; hexadecimal digits against a separate table | partial | `C66_gettype`, `C66_bool`, `C66_char`, `C66_color`, `C66_alpha`, `C66_interp`, `C66_rainbow`, `C66_assert`, `C66_space`, `C66_handles`, `C66_violated_char`, `C66_violated_color` |
| C67 | Floats | `Lib/Ieee.lean`: the operations of `f64` on bit patterns | values as integers in units of 2^-1074; rounding against all floats (`Lib/IeeeLemmas.lean`: `roundMag_nearest`, `roundMag_even`), no bound on inputs | proved | `C67_arith`, `C67_remainder`, `C67_compare`, `C67_nan`, `C67_infinite`, `C67_div_zero`, `C67_negate`, `C67_order`, `C67_of_int`, `C67_to_int`, `C67_round`, `C67_sqrt`, `C67_sqrt_special`, `C67_min_max`, `C67_abs`, `C67_clamp` |
| C68 | Floats as texts | `Ieee.toStr`, `Ieee.parse` (`Lib/Ieee.lean`); `FLOAT` of the grammar | 17 digits always suffice (`shortest_spec`, from the distance of neighbouring floats); shapes of decimals (`plain_shape`); parser as in C40 | partial | `C68_roundtrip`, `C68_literals`, `C68_integral_partial`, `C68_violated_integral` |
| C69 | Reading and printing decimals | `Ieee.parse`, `Ieee.toStr` (`Lib/Ieee.lean`) | rounding is monotonic (`roundMag_mono`), so the decimals of one float are an interval; a shorter decimal would have a neighbour with a higher last place (`Lib/IeeeShortest.lean`); parser inverted | proved | `C69_parse`, `C69_shortest`, `C69_special` |
| C70 | The interactive loop | `Cli.round`, `Cli.rounds` (`ReplLoop.lean`: prompt, line, execute, value or traceback and report) | C32 with the library of C57 and C63 as the session's builtins; C59_total for the traceback | partial | `C70_start`, `C70_blank`, `C70_value`, `C70_error`, `C70_unread`, `C70_crash`, `C70_session`, `C70_violated_end`, `C70_violated_trace` |
| C71 | Layout and names of locals do not matter | the direct semantics (`Sem/Source.lean`), parser and include resolution | `Sem/Alpha.lean`: lockstep of the evaluator on related programs, closures and environments; that builtins respect renaming follows from `BuiltinRel` by coding pairs of closures as values; C20 and C54 carry it to bytecode and texts | proved | `C71_semantics`, `C71_runs`, `C71_blanks`, `C71_reference` |
| C72 | Size limits hold for every value of a run | VM (`Vm/Step.lean`), compiler constants, values and the whole library | a rule for invariants of all values of a state (`Vm/Values.lean`: `steps_vals`, one case per opcode, for any predicate kept by the operators); constants of compiled programs come from literals (`Compiler/Consts.lean`); library audited entry by entry (`Props/MemoryLib.lean`) | partial | `C72_sizes_partial`, `C72_items`, `C72_std`, `C72_stdio`, `C72_growing`, `C72_case`, `C72_violated_items`, `C72_violated_pairs`, `C72_violated_builtin` |
| C73 | Messages tell errors apart | messages and titles of all errors (`Message.lean`, error.rs), `{:?}` of strings with the Unicode tables as a parameter | messages begin with literals none of which is a prefix of another (checked on all pairs of kinds); what is carried is split at delimiters it cannot contain, from the left or from the right; escapes are a prefix code (`C73_quoted`) | partial | `C73_identifies`, `C73_kind`, `C73_title`, `C73_quoted`, `C73_violated_limits`, `C73_violated_names` |
| C74 | The time limit ends every run | main loop of the VM with an arbitrary clock (`VM.run`), `--max-runtime` of the command | the counter is the number of instructions modulo 66; induction over the run gives the first moment at which the limit is looked at and exceeded | partial | `C74_ends`, `C74_stops`, `C74_idle`, `C74_either`, `C74_command`, `C74_command_idle`, `C74_violated_64` |
| C75 | Listings can be read back | `Listing.lean`: `Display` of listings (structure.rs), opcode names (bytecode/src/bytecode.rs), colours as a parameter | columns are split off from the left: padded numbers and names hold no blanks; lines by induction | proved | `C75_lines`, `C75_line`, `C75_names`, `C75_called`, `C75_jump`, `C75_breaks` |
| C76 | Flags only add lines | `Cli.mainWith` (`Listing.lean`): main.rs with `--debug`, `--disassemble`, `--timeit` | case analysis of both programs in parallel; listings fail only if an instruction has a known line only in its later bytes, which cannot be: the name of a builtin stands after the start of its call (C78) | partial | `C76_flags`, `C76_none`, `C76_listed`, `C76_listed_partial`, `C76_violated_characters` |
| C77 | Programs without while end | direct semantics with a bound on nested calls that is told apart from other bounds (`callD`, `Sem/Ends.lean`), VM | structural induction over the program: given large enough bounds on loops always the same outcome (`Ends`), by induction on the bound on calls; the simulation of C20 carries the outcome, or frames beyond the limit, to the machine (`Bd`, `Sem/Post.lean`) | proved | `C77_semantics`, `C77_ends`, `C77_command`, `C77_text` |
| C78 | Positions and the text | the grammar (`Parser/Grammar.lean`), implicit statements, include resolution, spans of the compiler | partial correctness with positions (`From` and `Pos`, `Parser/Nest.lean`): what a rule returns when it starts at a place lies between that place and where it ends; one lemma per rule; `addImplicitNone` and `respan` keep nesting; errors by C60 | partial | `C78_nested_partial`, `C78_names`, `C78_keywords`, `C78_error_partial`, `C78_violated_compound` |
| C79 | The documentation of builtins tells the truth | `Lib/Docs.lean`: the constants that `generate_builtins!` makes (docs.rs, macros.rs) from the signatures and comments of qstd | the documentation is read as a checker of argument lists (`complaint`) and compared with `takeReq`/`takeOpt`/`stop` by induction over the parameters; results are audited entry by entry over all ends of each body | partial | `C79_names`, `C79_arguments`, `C79_returns`, `C79_defaults`, `C79_described_partial`, `C79_violated_description` |
| C80 | Programs that compare no functions | `Node.tame`, `Node.safe` (conditions on programs), the direct semantics | an invariant of the direct semantics: functions in all values have such bodies (`Sem/Compare.lean`); values without functions can be compared with all values; from the text by C78 | proved | `C80_never`, `C80_text`, `C80_command`, `C80_total` |
| C81 | Values made from data of the host | `HostValue.lean`: the `From` implementations of `Value`, `GetSize` of host data, over a universe of types | induction over types; integer conversions by their integer values; arguments by `PKind.accept` | partial | `C81_int_partial`, `C81_back`, `C81_distinct`, `C81_size`, `C81_vec`, `C81_full`, `C81_violated_u64`, `C81_violated_option`, `C81_violated_limit` |
| C82 | Where and how syntax errors are reported | `Parser/Traced.lean`: the grammar once more, noting failures as the code generated by `peg` does; `syntax_error`, `position_repr` | forgetting the notes gives the grammar of C51 (`Parser/Forget.lean`); one lemma per rule that what is noted lies at a character and is not there (`Fine`, `Parser/Marks.lean`; `Lacks` is the specification); `code` never fails, so the end of the text is noted where it stops; stray brackets by the completeness of the parser (C54) | partial | `C82_same`, `C82_report_partial`, `C82_after`, `C82_stray`, `C82_literal`, `C82_include`, `C82_violated_keyword`, `C82_violated_list` |
| C83 | Compile errors are true and point at the guilty place; nothing else is rejected | the compiler as code generator (`Compiler/Gen.lean`, equal to the compiler by `Ref.ref_stmts`), `Compiler/Places.lean` is the specification: places of a program and their faults | one induction over the generator per claim: lengths of code against the size of the node (`Compiler/Lengths.lean`), each error against the faults (`Compiler/Blame.lean`), external names against those declared so far, and accepted nodes have no fault (`Compiler/Exact.lean`) | proved | `C83_blame`, `C83_blame_any`, `C83_accepts`, `C83_exact`, `C83_text`, `C83_text_exact` |
| C84 | build_script reports errors with the sources they are about, for any include resolver | `Facade.lean`: `build_script`, `EZError`, `parse_with_includes` and `resolve_includes` for any implementation of `IncludeResolver`, with state | equality with `Parser/Includes.lean` for the default resolver; one invariant per claim through `bind`, the loop and the recursion (`FacadeLemmas.lean`): sources only grow and errors lie in them, the first name is not looked at, names are marked once; the number of unmarked names bounds the depth | proved | `C84_default`, `C84_command`, `C84_sources`, `C84_honest`, `C84_resolved`, `C84_name`, `C84_blind`, `C84_once`, `C84_ends`, `C84_depth`, `C84_panic_partial` |
| C85 | Every run-time error has a culprit in the program, and points at it | `Sem/BlameSpec.lean`: which errors a construct can be blamed for and where they are reported, apart from the semantics | one invariant of the direct semantics (`Sem/Blame.lean`: all values, closures and builtins in reach hold functions of the program only), by induction over the fuel; machine by C20-C22, command by C64, text by C78 | proved | `C85_semantics`, `C85_machine`, `C85_library`, `C85_command`, `C85_signs` |
| C86 | Programs that declare their names before use never fail because of undeclared names | `scopedL`: names are declared before use, on syntax trees | the same induction as C85 with the additional invariant that the scope of every closure holds the names its body may use | proved | `C86_semantics`, `C86_names`, `C86_machine`, `C86_command` |
| C87 | Every crash of a run has a culprit in the program | `Crashes` in `Sem/BlameSpec.lean`: which constructs can crash and with which values of their parts; `Lib/Crash.lean`: the builtins that can crash | the same induction as C85, which also follows panics; misplaced operators, which would crash too, do not get past the compiler (`Compiler/Misplaced.lean`); machine by C20-C22, command by C64 | proved | `C87_semantics`, `C87_machine`, `C87_library`, `C87_clamp`, `C87_crashers`, `C87_command`, `C87_steady` |
| C88 | Error reports point into the files that were read, and can be drawn | `Drawn.lean`: `Sources.fetch`/`display`, `Report` and `report` for all errors (with the whole text of syntax errors), the start of `ariadne`'s drawing (`Report.head`); `Vm/Reported.lean`: where the machine takes positions from | `run_reported`: positions come from the code of the frame the machine is left in; control-flow invariant (C61) and C60 for the code, C84/C83/C82 for errors before the run; then arithmetic on lines of a text | partial | `C88_run`, `C88_command`, `C88_drawn_partial`, `C88_place_partial`, `C88_trace_partial`, `C88_violated_empty`, `C88_violated_characters`, `C88_violated_end` |
| C89 | How much stack a program needs can be read off its text: only nested calls can overflow the stack | `Compiler/RoomSpec.lean` (`frameSize`) is the specification; the code generator (`Compiler/Gen.lean`), the machine | a height for every position of generated code (`Compiler/Heights.lean`), by induction over the generator (`Compiler/Rooms.lean`); an invariant of the machine: each frame holds as many values as the height of its code says (`Vm/Room.lean`) | proved | `C89_stack`, `C89_overflow`, `C89_depth`, `C89_value`, `C89_value_or_limit`, `C89_library`, `C89_command` |
| C90 | Builds with and without checks agree, unless the one with checks crashes | `cfg.chk` of all models | a relation (crash or equal) kept by every operation: operators, builtins, the compiler monad (structural induction over syntax trees), one step of the machine, the loop; sessions by a relation of their states; `C90_same` by C87 | proved | `C90_operators`, `C90_library`, `C90_compile`, `C90_build`, `C90_machine`, `C90_flags`, `C90_command`, `C90_ends`, `C90_same`, `C90_alike`, `C90_session` |
| C91 | Programs that do not ask the world do the same in every world | `Outside` of the library, `Twins` (`Sem/Twins.lean`): two preparations of a machine that differ in some functions | a third machine whose differing functions all fail with one error about names; each real machine does what it does unless it fails so (`Vm/Spoil.lean`, `Sem/Spoil.lean`, inductions over runs and syntax trees); by C85 such an error needs a part of the program that calls such a name | proved | `C91_machine`, `C91_library`, `C91_command`, `C91_text` |
| C92 | Larger limits only remove limit errors | `Opts` and the clock of the machine, the flags of the command (`Cli.lean`) | one step with the smaller limit reports the limit or is the same (`Sem/Raise.lean`), case by case over the instructions, for each limit; then induction over the run. A larger stack could make an access valid that was a crash before: the semantics (C20) excludes such accesses | proved | `C92_machine`, `C92_library`, `C92_command`, `C92_text` |
| C93 | Included files and lines of a session are parts of one program | `inPlaceL` (`Sem/Splice.lean`) on syntax trees read with includes | equations of the direct semantics (`evalTop_then`, `evalTop_seq`, induction over the included statements), then C64 and C71 for the command and C32 for sessions | proved | `C93_semantics`, `C93_sequence`, `C93_lines`, `C93_session`, `C93_command` |
| C94 | Output is only ever added, and a run stopped by a limit printed the beginning of what it would have printed | `Io` of the library, the data of the host; `Wrote` and `Limited` (`Props/Output.lean`) say what the command wrote | one step leaves the data, or applies one builtin or hook to them (`Vm/Keeps.lean`, case by case); induction over the run. Cut runs: both machines do the same steps until the smaller one reports a limit, then the larger one goes on from these data (C92 for each step). Silence: the machine with other builtins of these names (C91) | proved | `C94_grows`, `C94_uncalled`, `C94_cut`, `C94_prescribed`, `C94_library`, `C94_command`, `C94_meant`, `C94_silent`, `C94_text` |
| C95 | Programs without recursion need no more nested calls than their functions have ranks, so explicit limits are enough | `rankedTopL` (`Sem/Flat.lean`): ranks of the functions of a program, read off the text | the direct semantics never gives up a call as too deep (`Sem/Flat.lean`, induction over programs). The machine: the same host with a counter of calls carried along in its data (`Sem/Worn.lean`, `Vm/Worn.lean`) takes the same steps; the counter is the number of frames, its maximum is part of the data in the end, and these are prescribed by the semantics (C20, C21). Explicit limits: C89 | proved | `C95_semantics`, `C95_ends`, `C95_calls`, `C95_value`, `C95_error`, `C95_no_overflow`, `C95_command_value`, `C95_command_error`, `C95_command` |
| C96 | Names and places do not matter: consistent renaming changes only the names in the code and in what it does | `Relabel` (`Compiler/Relabel.lean`): one-to-one replacements of names and places; on programs, on the state of the compiler and on compiled programs | every operation of the compiler on its state commutes with the replacement; then induction over programs. Names are compared by the compiler only for equality (scopes, captured variables, table of symbols), and the names it invents begin with `@` or `#`. Runs: every instruction commutes with the replacement in the state of the machine (`Vm/Relabel.lean`), comparison of functions included. | proved | `C96_compile`, `C96_code`, `C96_rejected`, `C96_accepts`, `C96_run`, `C96_value`, `C96_trace` |
| C97 | Definitions that nothing uses can be left out | `dropIdle`, `Avoids` (`Sem/Unused.lean`): a filter on top-level statements, and a condition on all nodes of the rest | evaluation in lockstep of the two programs, in states that agree up to the globals left out; invariant: no function in a variable mentions these names. A definition left out changes one of these globals and nothing else. Machine and command through C20, C21, C71 and C93 | proved | `C97_semantics`, `C97_accepts`, `C97_runs`, `C97_command` |
| C98 | Definitions next to each other may be in any order | `defined`, `Reordered` (`Props/Order.lean`): exchanges of neighbouring definitions, read off the syntax | writing two different globals commutes, so the meanings are equal; acceptance by C83 (the faults of a program do not depend on the order of its statements); runs by correctness of the compiler in both directions (C20, C21), the command as in C97 | proved | `C98_semantics`, `C98_accepts`, `C98_runs`, `C98_command` |
| C99 | What comes after a failure does not matter | `alone`, `FailsAlike` (`Props/Fail.lean`): a beginning of a program as a program of its own | the meaning of a program is that of its beginning followed by that of the rest (C93); runs by correctness of the compiler in both directions (C20, C21), the command as in C97 | proved | `C99_semantics`, `C99_goes_on`, `C99_runs`, `C99_command` |
| C100 | A definition that is replaced before anything is computed can be left out | `Tidied` (`Props/Tidy.lean`): exchanges of neighbouring definitions and removal of replaced ones, read off the syntax | writing a global twice is writing it once; otherwise as C98 | proved | `C100_semantics`, `C100_doubled`, `C100_accepts`, `C100_runs`, `C100_command` |
| C101 | Parts of a program may be replaced by parts with the same meaning | `Node.Equiv`, `EquivB`, `Node.Cong` (`Sem/Cong.lean`), `Replaced` (`Props/Replace.lean`): same meaning in all scopes and states; replacements first inside, then of the whole | lockstep of the evaluations of both programs, with values related up to the code of functions (as in C71), by induction on the bound and on the syntax tree; runs by correctness of the compiler in both directions (C20, C21), the command as in C97 | proved | `C101_semantics`, `C101_runs`, `C101_runs_back`, `C101_command`, `C101_if_true`, `C101_if_false`, `C101_block`, `C101_fold`, `C101_after_return`, `C101_literal`, `C101_if_none`, `C101_last_block`, `C101_fold_unary`, `C101_not_eq`, `C101_if_neq`, `C101_switch_one`, `C101_equiv` |

## 4. Where the code departs from what one would expect

Each item marked with a theorem is proved, the others are part of the model and were noticed while writing it.

Language

* `1 + { let a = 2; a }` is 4: a declaration inside an operand takes the operand's stack slot (`C25_violated`).
* `[1, 2] .. [3]` fails with *array too large*: array literals get their own size as limit (`C12_literal_join_fails`).
* `with` on a plain builtin never exits (`C34_violated_plain`); `return` inside `with` skips the exit
  (`C34_violated_return`).
* Integers and floats are never `==` (`C14_int_float`). Comparing closures that capture themselves need not end.
* Ranges are truncated to 32 bits when created; iterating far enough panics in debug builds
  (`C28_checked_panics`). Negative indices panic in debug builds (`C07_fix_index_checked`).
* `let a, a = ...` makes `a` one of the two values for locals and the other for globals.

Parser

* `a; b` (a space after `;`) is an error, `a;b` and `a ; b` are not. Newlines do not end an expression before an
  operator. `**=` never parses. Integers out of range read as 0. Seven hex digits are a colour
  (`C39_violated_seven`).
* A nested include is always reported as circular, a cycle recurses forever (`C38_violated_*`).

Compiler and VM

* `1 ~ 2` panics in the compiler. `return` in a top-level block is accepted.
* Tables wrap after 65536 entries (`C04_pool_wraps`).
* Wrong argument counts are reported at the next instruction's position (`C21_error` leaves it open).
* After an error inside a call, `reset_state` keeps the callee as current function (`C49_reset_violated`).
* The clock is read every 66 instructions, the comment says 64 (`C18_bound_attained`).
* Traceback: the number of omitted calls is off by one (`C42_omitted_count`).
* Disassembler: marks of jump targets and names of locals are wrong in some listings (`C43_violated_*`).

Library

* `@slice` panics for an end beyond the length (`C37_slice_panics`). `@abs` of the least integer panics in
  debug builds (`C56_abs_least`). `@bin`, `@oct`, `@hex` of negative numbers do not read back
  (`C46_radix_negative`). `@truncate` may lengthen (`C55_violated_truncate*`). String builtins ignore the
  string limit (`C55_violated_limit`). `@complement` is always 0; `@saturate` and `@desaturate` are the same.
* Hashes include an array's limits (`C48_hash_violated`).
* `1 ~ 2`, and any line that begins with `~` after an expression, crashes the compiler: the grammar (parser.rs:252) reads a binary `~`, for which the compiler has `unreachable!` (lib.rs:916) (`C58_violated`, `C58_line_violated`).
* A REPL line that the compiler rejects leaves its code in the compiler; it is run with the next line (`C33_failed_line_violated`).
* After a REPL line, builtins stay callable under ids the compiler later gives to other names (`C33_stale_builtin_violated`).
* A REPL line that fails at run time while a captured variable is on the stack leaves closures that read unrelated stack slots (`C33_dangling_violated`).
* `a; b` and `a;` followed by a line end and `b` are syntax errors: the separator is `";" / _` (parser.rs:284, 291), and nothing is skipped after a semicolon. `a;b` and `a ; b` work (`C54_violated_semicolon`).
* A `;` ends a comment, so `a // x;b` runs `b` (parser.rs:15-17, `C54_violated_comment`).
* `x + 1 : 2` is `x + (1:2)`, whereas `x + y : z` is `(x + y) : z`, because ranges of integers are literals (`C54_violated_range`).
* `return` on a line of its own takes an `if` or `switch` on the next line for its value (`C54_violated_return`).
* A line that begins with `-` (or `~`, `[`) continues the expression of the line before, even after `;`; a line that begins with `(` calls an `if` or `switch` before it (`C54_violated_minus`, `C54_violated_call`).
* `x **= 2` is a syntax error although `**` is an operator (parser.rs:126-132: `op` tries `*` first).
* Integer literals outside the range of 64 bits are silently 0.
* Tracebacks number lines from 0 (error.rs:109-172), the report above them from 1 (`C59_violated_number`); the repository's own `error.png` shows 13 and 14 for the same line.
* The main program's entry in a traceback is at the instruction after the call, which may be on another line (vm.rs:248-252, `C59_violated_main`).
* Spans are byte offsets, but `ariadne` counts characters: after non-ASCII characters errors are shown at wrong lines (`C59_violated_bytes`).
* A call with the wrong number of arguments is reported at the instruction after the call (`C60_violated_arity`).
* `@char(4294967361)` is `A`: the code is truncated to 32 bits (core.rs, `C66_violated_char`).
* `@color("xyz")` is black, `@color("+1+2+3")` is a colour, text after eight digits is ignored (`C66_violated_color`).
* `@print(1)` prints a space after the last value, too (io.rs, `C63_print`).
* `@input` gives the empty text at the end of the input, as for an empty line (`C63_violated_end`); what `@input` and `@readfile` return is not subject to the limit on strings (`C63_violated_size`).
* `@randfloat(0.0, nan)` panics (math.rs, `C63_violated_randfloat`).
* `@date()` counts months and days from 0, and all years have 365 days: 1970-01-31 is `1970-1-0`, 1972-12-31 is `1973-0-0` (time.rs, `C63_violated_date`).
* `@str(1.0)` is `1`: floats without a fraction are printed without a point and are integers when read back; 2^60 is printed as `1152921504606847000`, 1e20 is read back as 0 (`C68_violated_integral`).
* `@complement(c)` is transparent black for every colour: channels are multiplied by -1 and clipped (colors.rs:175-183, `C62_violated_complement`).
* `@saturate` and `@desaturate` return the colour unchanged (colors.rs:139-161, `C62_violated_saturate`); `@hue` returns the brightness, `@saturation` the contrast, `@fade` is `@darken`; `@lighten` and `@darken` also change the opacity.
* `@hsl(480, 1, 0.5)` and `@hsl(-120, 1, 0.5)` are red, not the green and blue of 120 and 240 degrees: hues are not reduced (colors.rs:240-267, `C62_violated_hue`).
* At the end of the input the interactive loop prints prompts for ever: `read_line` returns 0 bytes, which counts as a blank line (repl.rs:68-76, `C70_violated_end`).
* In the interactive loop the traceback of a line that cannot be read or compiled is that of the line run before (repl.rs:87-91, `C70_violated_trace`).
* Empty texts and arrays have size 0, so an array of 2^40 empty texts passes a limit of 0 bytes (value.rs:17-30, `C72_violated_items`); pairs are not limited and shared, and `get_size` visits both halves, so `a = (a, a)` forty times makes the next size computation take 2^40 calls inside one instruction, which no time limit interrupts (`C72_violated_pairs`).
* `@slice`, `@str`, `@truncate`, `@join`, `@replace`, `@capitalize`, `@title`, `@uppercase`, `@lowercase`, `@input`, `@readfile` ignore the size limits (`C72_growing`, `C72_case`, C63_violated_size); the others respect them (`C72_std`, `C72_stdio`; `@chars` if the limit for arrays is not less than that for texts).
* The messages of TooManyItems, TooManyArgs and TooManyParams say "more than 256", but exactly 256 are rejected as well (error.rs:304-315, `C73_violated_limits`). ExternalRedefined says "aldready".
* `max_runtime` may be exceeded by 65 instructions and the one in progress, not 64 as documented (vm.rs:15-16, 257-268, `C74_violated_64`).
* `--disassemble` looks byte offsets up as character offsets; after non-ASCII text the last instructions are missing, in short programs all (disassembler/src/lib.rs:72-107, `C76_violated_characters`).
* Hints of the listing: texts and closures are never coloured, since `write_str(&x.green())` writes the text without the colour (structure.rs).
* In `x op= e` the operation `x op e` gets the position of `e` (parser.rs:151-171), so its errors underline only the right side (`C78_violated_compound`).
* `@alpha` has no description (colors.rs:98, `C79_violated_description`). Documented types `int32` and `double` are called `int` and `float` in errors.
* `Value::from` of a `u64` from 2^63 is negative (value.rs:342-365, `C81_violated_u64`). The limit of an array made from a `Vec` is the size of the host data (8 bytes per i64) while its size counts values (16 bytes), so it is over its limit from the start (value.rs:404-415, `C81_violated_limit`) and nothing can be appended to any such array (`C81_full`).
* Keywords are never listed in syntax errors, as `KW` calls a method of the input (parser.rs:28): for `for x [1] {}` only a comma is asked for (`C82_violated_keyword`). A colour of two digits is said to expect "Invalid hex color", an open string is reported at its first quote (`C82_violated_list`).
* `build_script` gives back the sources only with an error (lib.rs:53-71): an error while running the script cannot be shown with its text. `EZError::print` takes the sources as an argument and ignores those the error carries (lib.rs:44-46).
* An error in an empty main file (`--stack-size 0`) crashes the command while the report is drawn (`C88_violated_empty`); the message of a syntax error behind the last line break and the
  drawing of it name different places (`C88_violated_end`).

## 5. Conformance

`Check/Repo.lean` runs the programs of `/repo/src/tests` and of the readme in the model; results and output agree with
the assertions and comments there. The listing of the readme's image `fib_dis.png` is reproduced byte for byte. This
is a check of the model, not a property. (The readme's `error.png` shows the zero-based line of C59 and the
count of omitted frames of `C42_omitted_count`.)
