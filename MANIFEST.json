{
 "claims": [
  {
   "property": "C01",
   "status": "proved",
   "theorems": [
    "Quilt.Props.C01_rle_refines_list",
    "Quilt.Props.C01_rle_ends",
    "Quilt.Props.C01_zero_run_visible"
   ],
   "note": "all histories; zero-length push_n exception shown by witness"
  },
  {
   "property": "C02",
   "status": "proved",
   "theorems": [
    "Quilt.Props.C02_write_read",
    "Quilt.Props.C02_patch",
    "Quilt.Props.C02_insert",
    "Quilt.Props.C02_read_oob"
   ],
   "note": ""
  },
  {
   "property": "C03",
   "status": "proved",
   "theorems": [
    "Quilt.Props.C03_spans"
   ],
   "note": ""
  },
  {
   "property": "C04",
   "status": "proved",
   "theorems": [
    "Quilt.Props.C04_pool",
    "Quilt.Props.C04_force",
    "Quilt.Props.C04_update",
    "Quilt.Props.C04_pool_wraps",
    "Quilt.Props.C04_full_pool_exists"
   ],
   "note": "within 65536 entries; ids repeat beyond that (C04_pool_wraps)"
  },
  {
   "property": "C05",
   "status": "proved",
   "theorems": [
    "Quilt.Props.C05_accounting",
    "Quilt.Props.C05_limit_enforced",
    "Quilt.Props.C05_set_drifts",
    "Quilt.Props.C05_extend_corrupts"
   ],
   "note": "set/extend violations shown by witnesses"
  },
  {
   "property": "C06",
   "status": "proved",
   "theorems": [
    "Quilt.Props.C06_bluff_refines_stack"
   ],
   "note": ""
  },
  {
   "property": "C07",
   "status": "proved",
   "theorems": [
    "Quilt.Props.C07_fix_index",
    "Quilt.Props.C07_fix_index_checked"
   ],
   "note": "both build modes"
  },
  {
   "property": "C08",
   "status": "proved",
   "theorems": [
    "Quilt.Props.C08_int_arith",
    "Quilt.Props.C08_pow",
    "Quilt.Props.C08_pow_reduces",
    "Quilt.Props.C08_pow_negative",
    "Quilt.Props.C08_bitwise",
    "Quilt.Props.C08_shift",
    "Quilt.Props.C08_shift_masks"
   ],
   "note": ""
  },
  {
   "property": "C09",
   "status": "proved",
   "theorems": [
    "Quilt.Props.C09_zero",
    "Quilt.Props.C09_zero_only",
    "Quilt.Props.C09_int"
   ],
   "note": ""
  },
  {
   "property": "C10",
   "status": "proved",
   "theorems": [
    "Quilt.Props.C10_table",
    "Quilt.Props.C10_unary",
    "Quilt.Props.C10_float_arith",
    "Quilt.Props.C10_float_compare",
    "Quilt.Props.C10_logic",
    "Quilt.Props.C10_string_division",
    "Quilt.Props.C10_release_panics"
   ],
   "note": ""
  },
  {
   "property": "C11",
   "status": "proved",
   "theorems": [
    "Quilt.Props.C11_concat",
    "Quilt.Props.C11_repeat",
    "Quilt.Props.C11_repeat_overflow",
    "Quilt.Props.C11_limit"
   ],
   "note": ""
  },
  {
   "property": "C12",
   "status": "proved",
   "theorems": [
    "Quilt.Props.C12_join",
    "Quilt.Props.C12_size",
    "Quilt.Props.C12_literal",
    "Quilt.Props.C12_literal_join_fails",
    "Quilt.Props.C12_closed"
   ],
   "note": ""
  },
  {
   "property": "C13",
   "status": "proved",
   "theorems": [
    "Quilt.Props.C13_saturate",
    "Quilt.Props.C13_div",
    "Quilt.Props.C13_average",
    "Quilt.Props.C13_average_overflow"
   ],
   "note": ""
  },
  {
   "property": "C14",
   "status": "proved",
   "theorems": [
    "Quilt.Props.C14_decides",
    "Quilt.Props.C14_neq",
    "Quilt.Props.C14_symmetric",
    "Quilt.Props.C14_symmetric_vm",
    "Quilt.Props.C14_closures",
    "Quilt.Props.C14_equivalence",
    "Quilt.Props.C14_order",
    "Quilt.Props.C14_int_float"
   ],
   "note": ""
  },
  {
   "property": "C15",
   "status": "proved",
   "theorems": [
    "Quilt.Props.C15_truthy",
    "Quilt.Props.C15_if",
    "Quilt.Props.C15_while",
    "Quilt.Props.C15_if_program",
    "Quilt.Props.C15_while_program"
   ],
   "note": "value level, direct semantics, and compiled programs (through C20/C21)"
  },
  {
   "property": "C16",
   "status": "proved",
   "theorems": [
    "Quilt.Props.C16_stack_bound",
    "Quilt.Props.C16_overflow_is_error",
    "Quilt.Props.C16_below_limit_same"
   ],
   "note": "arbitrary bytecode"
  },
  {
   "property": "C17",
   "status": "proved",
   "theorems": [
    "Quilt.Props.C17_call_depth",
    "Quilt.Props.C17_call_at_limit"
   ],
   "note": "arbitrary bytecode"
  },
  {
   "property": "C18",
   "status": "proved",
   "theorems": [
    "Quilt.Props.C18_runtime_limit",
    "Quilt.Props.C18_counter",
    "Quilt.Props.C18_no_false_alarm",
    "Quilt.Props.C18_bound_attained"
   ],
   "note": "arbitrary bytecode and clock"
  },
  {
   "property": "C19",
   "status": "proved",
   "theorems": [
    "Quilt.Props.C19_safe",
    "Quilt.Props.C19_shape_suffices"
   ],
   "note": "For every compiled program of parser shape within the table limits and slot discipline that does not compare functions, every execution prefix under any limits: the next instruction proceeds, ends as the direct semantics prescribes, overflows the stack, or panics where the direct semantics panics."
  },
  {
   "property": "C20",
   "status": "proved",
   "theorems": [
    "Quilt.Props.C20_value",
    "Quilt.Props.C20_value_or_limit",
    "Quilt.Props.C20_return",
    "Quilt.Props.C20_outcome_unique"
   ],
   "note": "Against the direct semantics evalProgram, for every way a host prepares a VM (builtins, globals, externals), programs with wfProgram (slot discipline of C25) and at most 65535 size units. Functions in results are compared by name and arity."
  },
  {
   "property": "C21",
   "status": "proved",
   "theorems": [
    "Quilt.Props.C21_error",
    "Quilt.Props.C21_error_or_limit",
    "Quilt.Props.C21_panic"
   ],
   "note": "Same error and position; position is not prescribed only for MismatchedArity and for calling a context manager (reported at the next instruction)."
  },
  {
   "property": "C22",
   "status": "proved",
   "theorems": [
    "Quilt.Props.C22_diverges",
    "Quilt.Props.C22_keeps_running",
    "Quilt.Props.C22_value_only_if_prescribed"
   ],
   "note": "Divergence of the direct semantics = timeout for every bound."
  },
  {
   "property": "C23",
   "status": "proved",
   "theorems": [
    "Quilt.Props.C23_set",
    "Quilt.Props.C23_get",
    "Quilt.Props.C23_declaring_scope",
    "Quilt.Props.C23_survives_scope",
    "Quilt.Props.C23_survives_return",
    "Quilt.Props.C23_shared",
    "Quilt.Props.C23_captures",
    "Quilt.Props.C50_capture_shares"
   ],
   "note": "for arbitrary bytecode on the VM, and in the direct semantics (carried over to compiled programs by C20)"
  },
  {
   "property": "C24",
   "status": "proved",
   "theorems": [
    "Quilt.Props.C24_iterations",
    "Quilt.Props.C24_distinct",
    "Quilt.Props.C24_independent",
    "Quilt.Props.C24_program"
   ],
   "note": ""
  },
  {
   "property": "C25",
   "status": "partial",
   "theorems": [
    "Quilt.Props.C25_resolves",
    "Quilt.Props.C25_unnamed_unchanged",
    "Quilt.Props.C25_shadowing",
    "Quilt.Props.C25_expression_partial",
    "Quilt.Props.C25_violated"
   ],
   "note": "Resolution and shadowing for all programs; preservation of pending operands is violated without the slot discipline (witness) and proved with it."
  },
  {
   "property": "C26",
   "status": "proved",
   "theorems": [
    "Quilt.Props.C26_jumps",
    "Quilt.Props.C26_machine",
    "Quilt.Props.C26_while_too_large",
    "Quilt.Props.C26_if_too_large",
    "Quilt.Props.C26_while_too_large_case"
   ],
   "note": "Every jump of every function of a compiled program (at most 65535 size units) leads to an instruction boundary; that the targets are the intended ones is part of C20-C22 (same behaviour as the direct semantics). The error side is stated for while and if, and for a concrete family."
  },
  {
   "property": "C27",
   "status": "proved",
   "theorems": [
    "Quilt.Props.C27_call",
    "Quilt.Props.C27_rejects",
    "Quilt.Props.C27_body",
    "Quilt.Props.C27_call_program",
    "Quilt.Props.C25_expression_partial"
   ],
   "note": "caller preserved: C25_expression_partial for a call node"
  },
  {
   "property": "C28",
   "status": "proved",
   "theorems": [
    "Quilt.Props.C28_items",
    "Quilt.Props.C28_items_checked",
    "Quilt.Props.C28_checked_panics",
    "Quilt.Props.C28_not_iterable",
    "Quilt.Props.C28_iter_next",
    "Quilt.Props.C28_for",
    "Quilt.Props.C28_for_not_iterable",
    "Quilt.Props.C28_for_program"
   ],
   "note": "instruction level, direct semantics, and compiled programs"
  },
  {
   "property": "C29",
   "status": "proved",
   "theorems": [
    "Quilt.Props.C29_unpack",
    "Quilt.Props.C29_positions",
    "Quilt.Props.C29_local",
    "Quilt.Props.C29_errors",
    "Quilt.Props.C29_program"
   ],
   "note": "instruction level, direct semantics, and compiled programs"
  },
  {
   "property": "C30",
   "status": "proved",
   "theorems": [
    "Quilt.Props.C30_read",
    "Quilt.Props.C30_define",
    "Quilt.Props.C30_assign",
    "Quilt.Props.C30_insert"
   ],
   "note": ""
  },
  {
   "property": "C31",
   "status": "proved",
   "theorems": [
    "Quilt.Props.C31_declared",
    "Quilt.Props.C31_value_seen",
    "Quilt.Props.C31_update_script_stale",
    "Quilt.Props.C31_declared_once",
    "Quilt.Props.C31_redeclared",
    "Quilt.Props.C31_not_global"
   ],
   "note": ""
  },
  {
   "property": "C32",
   "status": "proved",
   "theorems": [
    "Quilt.Props.C32_value",
    "Quilt.Props.C32_value_or_limit",
    "Quilt.Props.C32_error",
    "Quilt.Props.C32_error_or_limit",
    "Quilt.Props.C32_panic",
    "Quilt.Props.C32_diverges",
    "Quilt.Props.C32_text",
    "Quilt.Props.C32_session",
    "Quilt.Props.C32_ids",
    "Quilt.Props.C32_globals_kept"
   ],
   "note": "Stronger than stated: every line behaves as the direct semantics prescribes from the state in which the line before it ended."
  },
  {
   "property": "C33",
   "status": "partial",
   "theorems": [
    "Quilt.Props.C33_failed_line_violated",
    "Quilt.Props.C33_stale_builtin_violated",
    "Quilt.Props.C33_dangling_violated",
    "Quilt.Props.C33_failed_line_partial",
    "Quilt.Props.C33_unread",
    "Quilt.Props.C33_undefined_builtin_partial",
    "Quilt.Props.C33_first_line"
   ],
   "note": "Violated in three ways (witnesses): code of rejected lines runs with the next line; stale builtin ids; closures over variables of a failed line read unrelated stack slots. The _partial theorems say what holds."
  },
  {
   "property": "C34",
   "status": "partial",
   "theorems": [
    "Quilt.Props.C34_exits_partial",
    "Quilt.Props.C34_balanced_partial",
    "Quilt.Props.C34_program_partial",
    "Quilt.Props.C34_violated_plain",
    "Quilt.Props.C34_violated_return"
   ],
   "note": "violated (two witnesses) in general; proved if only context managers are used as contexts and no return leaves a context"
  },
  {
   "property": "C35",
   "status": "proved",
   "theorems": [
    "Quilt.Props.C35_hooks_balanced"
   ],
   "note": "arbitrary bytecode"
  },
  {
   "property": "C36",
   "status": "proved",
   "theorems": [
    "Quilt.Props.C36_accepts",
    "Quilt.Props.C36_too_few",
    "Quilt.Props.C36_too_many",
    "Quilt.Props.C36_wrong_kind",
    "Quilt.Props.C36_cases",
    "Quilt.Props.C36_rest"
   ],
   "note": "Any list of required and optional parameters: the accepted counts are exactly k..k+m, arguments arrive in call order, missing optionals take their defaults, a wrong kind is a type error naming the wanted kind, and these cases are exhaustive. A trailing rest parameter takes everything that is left."
  },
  {
   "property": "C37",
   "status": "proved",
   "theorems": [
    "Quilt.Props.C37_get",
    "Quilt.Props.C37_set",
    "Quilt.Props.C37_set_range",
    "Quilt.Props.C37_slice",
    "Quilt.Props.C37_slice_order",
    "Quilt.Props.C37_slice_panics"
   ],
   "note": "@get is indexing; @set replaces exactly one item or reports the size or index error; @slice returns exactly the requested items, counting negative bounds from the end. C37_slice_panics records that an end beyond the last item aborts."
  },
  {
   "property": "C38",
   "status": "partial",
   "theorems": [
    "Quilt.Props.C38_includes",
    "Quilt.Props.C38_errors",
    "Quilt.Props.C38_violated_nested",
    "Quilt.Props.C38_violated_nested_circular",
    "Quilt.Props.C38_violated_cycle"
   ],
   "note": "Exact success condition and errors proved; the intended behaviour (nested includes work, cycles are reported) is violated: witnesses for nested includes and for a cycle that recurses forever."
  },
  {
   "property": "C39",
   "status": "partial",
   "theorems": [
    "Quilt.Props.C39_channels",
    "Quilt.Props.C39_byte",
    "Quilt.Props.C39_read",
    "Quilt.Props.C39_rejected_partial",
    "Quilt.Props.C39_violated_seven",
    "Quilt.Props.C39_roundtrip"
   ],
   "note": "proved except for seven digits, which are accepted (witness)"
  },
  {
   "property": "C40",
   "status": "proved",
   "theorems": [
    "Quilt.Props.C40_roundtrip",
    "Quilt.Props.C40_literals"
   ],
   "note": "values of none, bool, int, range, colour, pair, array of any nesting; strings and floats are excluded by the property"
  },
  {
   "property": "C41",
   "status": "proved",
   "theorems": [
    "Quilt.Props.C41_bodies_end",
    "Quilt.Props.C41_ends",
    "Quilt.Props.C41_preserves",
    "Quilt.Props.C41_idempotent",
    "Quilt.Props.C41_shaped"
   ],
   "note": ""
  },
  {
   "property": "C42",
   "status": "proved",
   "theorems": [
    "Quilt.Props.C42_traceback",
    "Quilt.Props.C42_omitted_count"
   ],
   "note": ""
  },
  {
   "property": "C43",
   "status": "partial",
   "theorems": [
    "Quilt.Props.C43_listing_partial",
    "Quilt.Props.C43_offsets",
    "Quilt.Props.C43_violated_marks",
    "Quilt.Props.C43_violated_local_names"
   ],
   "note": "Offsets, opcodes, operands, hints (constants, names of globals and functions, signs of operators), line numbers, spans, jump addresses and marks of forward targets proved, for the instructions whose line is known; the marks are violated for backward jumps and stale in later functions, and names of locals come from the wrong table (witnesses)."
  },
  {
   "property": "C44",
   "status": "proved",
   "theorems": [
    "Quilt.Props.C44_switch",
    "Quilt.Props.C44_switch_program"
   ],
   "note": "direct semantics (carried over to the VM by C20/C21) and compiled programs"
  },
  {
   "property": "C45",
   "status": "proved",
   "theorems": [
    "Quilt.Props.C45_within",
    "Quilt.Props.C45_rejected",
    "Quilt.Props.C45_encoded"
   ],
   "note": "any nesting; arity of compiled functions is part of C27/C20"
  },
  {
   "property": "C46",
   "status": "proved",
   "theorems": [
    "Quilt.Props.C46_int_str",
    "Quilt.Props.C46_parse",
    "Quilt.Props.C46_radix",
    "Quilt.Props.C46_radix_negative",
    "Quilt.Props.C46_bad_radix"
   ],
   "note": "Accepted texts are characterised by the inductive Numeral (Lib/Radix.lean). C46_radix_negative records that negative numbers print as two's complement and do not read back."
  },
  {
   "property": "C47",
   "status": "proved",
   "theorems": [
    "Quilt.Props.C47_string_index",
    "Quilt.Props.C47_iteration_agrees",
    "Quilt.Props.C47_len_ascii"
   ],
   "note": ""
  },
  {
   "property": "C48",
   "status": "partial",
   "theorems": [
    "Quilt.Props.C48_hash_partial",
    "Quilt.Props.C48_hash_distinguishes",
    "Quilt.Props.C48_hash_collision",
    "Quilt.Props.C48_hash_violated",
    "Quilt.Props.C48_hash_violated_float"
   ],
   "note": "violated for arrays and floats; proved for the rest"
  },
  {
   "property": "C49",
   "status": "partial",
   "theorems": [
    "Quilt.Props.C49_update_state",
    "Quilt.Props.C49_reset_state_partial",
    "Quilt.Props.C49_rerun_value_partial",
    "Quilt.Props.C49_rerun_value_or_limit_partial",
    "Quilt.Props.C49_rerun_error_partial",
    "Quilt.Props.C49_reset_violated"
   ],
   "note": "reset_state is violated after an error inside a call (witness), and captured variables of a failed run dangle (C33_dangling_violated). Proved: exactly what update_script and reset_state leave of the old state; and any number of runs, with externals set in between, follow the direct semantics, for runs that end with a value or fail outside of calls with no captured variable on the stack. For update_script see also C32 (sessions)."
  },
  {
   "property": "C50",
   "status": "proved",
   "theorems": [
    "Quilt.Props.C50_cells",
    "Quilt.Props.C50_close_snapshots",
    "Quilt.Props.C50_capture_shares"
   ],
   "note": "arbitrary bytecode"
  },
  {
   "property": "C51",
   "status": "proved",
   "theorems": [
    "Quilt.Props.C51_code_terminates",
    "Quilt.Props.C51_literal_terminates"
   ],
   "note": ""
  },
  {
   "property": "C52",
   "status": "proved",
   "theorems": [
    "Quilt.Props.C52_spans"
   ],
   "note": ""
  },
  {
   "property": "C53",
   "status": "proved",
   "theorems": [
    "Quilt.Props.C53_hypotheses",
    "Quilt.Props.C53_specified",
    "Quilt.Props.C53_value_only_if_prescribed"
   ],
   "note": "with C20-C22 and C19, whose hypotheses C53_hypotheses provides"
  },
  {
   "property": "C54",
   "status": "proved",
   "theorems": [
    "Quilt.Props.C54_parse",
    "Quilt.Props.C54_unambiguous",
    "Quilt.Props.C54_blanks",
    "Quilt.Props.C54_precedence",
    "Quilt.Props.C54_violated_semicolon",
    "Quilt.Props.C54_violated_comment",
    "Quilt.Props.C54_violated_range",
    "Quilt.Props.C54_violated_return",
    "Quilt.Props.C54_violated_minus",
    "Quilt.Props.C54_violated_call"
   ],
   "note": "The reference grammar (Parser/Concrete.lean) excludes texts that the parser rejects or reads in a surprising way; the C54_violated_* witnesses show these. Positions are the subject of C52."
  },
  {
   "property": "C55",
   "status": "partial",
   "theorems": [
    "Quilt.Props.C55_split",
    "Quilt.Props.C55_join_split",
    "Quilt.Props.C55_replace",
    "Quilt.Props.C55_replace_pieces",
    "Quilt.Props.C55_contains",
    "Quilt.Props.C55_trim",
    "Quilt.Props.C55_trim_unique",
    "Quilt.Props.C55_chars",
    "Quilt.Props.C55_title",
    "Quilt.Props.C55_truncate",
    "Quilt.Props.C55_violated_truncate",
    "Quilt.Props.C55_violated_truncate_long",
    "Quilt.Props.C55_violated_limit"
   ],
   "note": "All clauses proved, except that @truncate's length bound is false for text that is not ASCII and for a long ellipsis (witnesses); C55_violated_limit shows that string builtins ignore the string size limit."
  },
  {
   "property": "C56",
   "status": "proved",
   "theorems": [
    "Quilt.Props.C56_min_max",
    "Quilt.Props.C56_min_max_mixed",
    "Quilt.Props.C56_abs",
    "Quilt.Props.C56_abs_least",
    "Quilt.Props.C56_round",
    "Quilt.Props.C56_clamp",
    "Quilt.Props.C56_hash",
    "Quilt.Props.C56_rgba",
    "Quilt.Props.C56_channels",
    "Quilt.Props.C56_invert",
    "Quilt.Props.C56_color_int",
    "Quilt.Props.C56_color_str",
    "Quilt.Props.C56_char",
    "Quilt.Props.C56_len"
   ],
   "note": "Float operations are abstract; C56_clamp assumes that two numbers not ordered one way are ordered the other (FloatOrder)."
  },
  {
   "property": "C57",
   "status": "proved",
   "theorems": [
    "Quilt.Props.C57_prepared",
    "Quilt.Props.C57_lookup",
    "Quilt.Props.C57_runs"
   ],
   "note": "All builtins that do not act on the outside; those that do (IO, time, randomness, assert_eq, assert_ne) are in C63 and C64."
  },
  {
   "property": "C58",
   "status": "partial",
   "theorems": [
    "Quilt.Props.C58_trees",
    "Quilt.Props.C58_text_partial",
    "Quilt.Props.C58_line_partial",
    "Quilt.Props.C58_violated",
    "Quilt.Props.C58_line_violated"
   ],
   "note": "Violated: the grammar has a binary ~ which the compiler declares unreachable. Proved for all texts without it (and, with overflow checks, without a negated literal of the smallest integer)."
  },
  {
   "property": "C59",
   "status": "partial",
   "theorems": [
    "Quilt.Props.C59_lineno",
    "Quilt.Props.C59_entry_partial",
    "Quilt.Props.C59_calls",
    "Quilt.Props.C59_total",
    "Quilt.Props.C59_text",
    "Quilt.Props.C59_violated_number",
    "Quilt.Props.C59_violated_main",
    "Quilt.Props.C59_violated_bytes"
   ],
   "note": "Violated: the printed number counts from 0 while get_lineno and the report count from 1; the main program's entry is at the instruction after the call; positions are bytes where the line table counts characters. C59_lineno and C59_entry_partial are about positions in characters. C59_text is the whole text of a traceback: header, main entry, how many frames are left out, at most eight frames oldest first, the running function."
  },
  {
   "property": "C60",
   "status": "partial",
   "theorems": [
    "Quilt.Props.C60_origin",
    "Quilt.Props.C60_in_text",
    "Quilt.Props.C60_error_partial",
    "Quilt.Props.C60_violated_arity"
   ],
   "note": "Violated for arity mismatches and stack over- and underflow, which are reported at the next instruction, and the runtime limit, reported at the function's name. The remaining errors: C60_error_partial. Positions of code: C60_origin, C60_in_text, without exception."
  },
  {
   "property": "C61",
   "status": "proved",
   "theorems": [
    "Quilt.Props.C61_frames",
    "Quilt.Props.C61_values",
    "Quilt.Props.C61_decodes"
   ],
   "note": "Histories as in the inductive definition History; REPL sessions, which compile against the state of earlier lines, are C32. Builtins must not make functions of their own (FromArgs)."
  },
  {
   "property": "C62",
   "status": "partial",
   "theorems": [
    "Quilt.Props.C62_mix",
    "Quilt.Props.C62_mixed",
    "Quilt.Props.C62_lighten",
    "Quilt.Props.C62_darken",
    "Quilt.Props.C62_violated_saturate",
    "Quilt.Props.C62_violated_complement",
    "Quilt.Props.C62_luma",
    "Quilt.Props.C62_brightness",
    "Quilt.Props.C62_contrast_color",
    "Quilt.Props.C62_contrast",
    "Quilt.Props.C62_cdifference",
    "Quilt.Props.C62_hsl",
    "Quilt.Props.C62_hsv",
    "Quilt.Props.C62_violated_hue",
    "Quilt.Props.C62_grey",
    "Quilt.Props.C62_black_white",
    "Quilt.Props.C62_opacity"
   ],
   "note": "Violated: @complement gives transparent black, @saturate and @desaturate are the identity, hues outside of 0..360 do not go round. @hue is @brightness, @saturation is @contrast, @fade is @darken (also in the code). With the model of binary64 in Lib/Ieee.lean."
  },
  {
   "property": "C63",
   "status": "partial",
   "theorems": [
    "Quilt.Props.C63_print",
    "Quilt.Props.C63_quiet",
    "Quilt.Props.C63_append",
    "Quilt.Props.C63_input",
    "Quilt.Props.C63_violated_end",
    "Quilt.Props.C63_readfile",
    "Quilt.Props.C63_violated_size",
    "Quilt.Props.C63_randint",
    "Quilt.Props.C63_randchoice",
    "Quilt.Props.C63_randbool",
    "Quilt.Props.C63_randfloat",
    "Quilt.Props.C63_violated_randfloat",
    "Quilt.Props.C63_random_color",
    "Quilt.Props.C63_now",
    "Quilt.Props.C63_date_partial",
    "Quilt.Props.C63_violated_date",
    "Quilt.Props.C63_assert"
   ],
   "note": "Violated: @date is wrong (months and days from 0, leap years), the end of the input reads as an empty line, @input and @readfile are not subject to the limit on strings, @randfloat panics with NaN. C63_date_partial: the time of day is right. The distribution of random numbers is not modelled, only which results are possible."
  },
  {
   "property": "C64",
   "status": "proved",
   "theorems": [
    "Quilt.Props.C64_status",
    "Quilt.Props.C64_rejected",
    "Quilt.Props.C64_success",
    "Quilt.Props.C64_failure",
    "Quilt.Props.C64_crash",
    "Quilt.Props.C64_value",
    "Quilt.Props.C64_error",
    "Quilt.Props.C64_diverges",
    "Quilt.Props.C64_return",
    "Quilt.Props.C64_panic"
   ],
   "note": "With the whole standard library; what is outside (input, files, random numbers, clock) is arbitrary. Hypotheses on the program as in C53 (MainFile). hcmp: the program never compares functions with different captured variables (C14)."
  },
  {
   "property": "C65",
   "status": "proved",
   "theorems": [
    "Quilt.Props.C65_semantics",
    "Quilt.Props.C65_kinds",
    "Quilt.Props.C65_library",
    "Quilt.Props.C65_reported"
   ],
   "note": "Builtins of the library fail with errors of operations on values or with a message, never with errors about names (C65_library)."
  },
  {
   "property": "C66",
   "status": "partial",
   "theorems": [
    "Quilt.Props.C66_gettype",
    "Quilt.Props.C66_bool",
    "Quilt.Props.C66_char",
    "Quilt.Props.C66_color",
    "Quilt.Props.C66_alpha",
    "Quilt.Props.C66_interp",
    "Quilt.Props.C66_rainbow",
    "Quilt.Props.C66_assert",
    "Quilt.Props.C66_space",
    "Quilt.Props.C66_handles",
    "Quilt.Props.C66_violated_char",
    "Quilt.Props.C66_violated_color"
   ],
   "note": "Violated: @char looks at the low 32 bits only; @color reads digits that are not hexadecimal as 0, accepts +, and ignores what follows eight digits. C66_char and C66_color say exactly what is accepted."
  },
  {
   "property": "C67",
   "status": "proved",
   "theorems": [
    "Quilt.Props.C67_arith",
    "Quilt.Props.C67_remainder",
    "Quilt.Props.C67_compare",
    "Quilt.Props.C67_nan",
    "Quilt.Props.C67_infinite",
    "Quilt.Props.C67_div_zero",
    "Quilt.Props.C67_negate",
    "Quilt.Props.C67_order",
    "Quilt.Props.C67_of_int",
    "Quilt.Props.C67_to_int",
    "Quilt.Props.C67_round",
    "Quilt.Props.C67_sqrt",
    "Quilt.Props.C67_sqrt_special",
    "Quilt.Props.C67_min_max",
    "Quilt.Props.C67_abs",
    "Quilt.Props.C67_clamp"
   ],
   "note": "With the model of binary64 in Lib/Ieee.lean (round to nearest even, one NaN). powf, powi and transcendental functions, whose precision Rust leaves open, are parameters."
  },
  {
   "property": "C68",
   "status": "partial",
   "theorems": [
    "Quilt.Props.C68_roundtrip",
    "Quilt.Props.C68_literals",
    "Quilt.Props.C68_integral_partial",
    "Quilt.Props.C68_violated_integral"
   ],
   "note": "Violated for floats without a fraction (C68_violated_integral): printed without a point. C68_integral_partial: below 2^53 the literal is the same number as an integer. With the model of binary64 in Lib/Ieee.lean; printing is the shortest decimal that is rounded to the float, as documented for Rust."
  },
  {
   "property": "C69",
   "status": "proved",
   "theorems": [
    "Quilt.Props.C69_parse",
    "Quilt.Props.C69_shortest",
    "Quilt.Props.C69_special"
   ],
   "note": "from_str and Display of f64 are modelled (Lib/Ieee.lean), compared with CPython on samples."
  },
  {
   "property": "C70",
   "status": "partial",
   "theorems": [
    "Quilt.Props.C70_start",
    "Quilt.Props.C70_blank",
    "Quilt.Props.C70_value",
    "Quilt.Props.C70_error",
    "Quilt.Props.C70_unread",
    "Quilt.Props.C70_crash",
    "Quilt.Props.C70_session",
    "Quilt.Props.C70_violated_end",
    "Quilt.Props.C70_violated_trace"
   ],
   "note": "Violated: at the end of the input the loop prints prompts for ever (C70_violated_end, for every program state); the traceback of a line that cannot be read shows the line before (C70_violated_trace). The rest is proved; a line rejected by the compiler leaves its code behind (C33). Hypotheses on lines as in C32_text."
  },
  {
   "property": "C71",
   "status": "proved",
   "theorems": [
    "Quilt.Props.C71_semantics",
    "Quilt.Props.C71_runs",
    "Quilt.Props.C71_blanks",
    "Quilt.Props.C71_reference"
   ],
   "note": "Renaming is a relation on syntax trees (Sem/Rename.lean). That both programs compile is a hypothesis of C71_runs. Global names, names of functions and names of contexts are kept: they are visible to hosts."
  },
  {
   "property": "C72",
   "status": "partial",
   "theorems": [
    "Quilt.Props.C72_sizes_partial",
    "Quilt.Props.C72_items",
    "Quilt.Props.C72_std",
    "Quilt.Props.C72_stdio",
    "Quilt.Props.C72_growing",
    "Quilt.Props.C72_case",
    "Quilt.Props.C72_violated_items",
    "Quilt.Props.C72_violated_pairs",
    "Quilt.Props.C72_violated_builtin"
   ],
   "note": "Violated: empty texts and arrays have size 0 and pairs are not limited, so memory is not bounded by the limits (C72_violated_items, C72_violated_pairs); nine builtins of the library do not look at them (C72_growing, C72_case), nor do @input and @readfile. C72_sizes_partial: for hosts whose builtins keep to the limits; C72_std and C72_stdio say which do."
  },
  {
   "property": "C73",
   "status": "partial",
   "theorems": [
    "Quilt.Props.C73_identifies",
    "Quilt.Props.C73_kind",
    "Quilt.Props.C73_title",
    "Quilt.Props.C73_quoted",
    "Quilt.Props.C73_violated_limits",
    "Quilt.Props.C73_violated_names"
   ],
   "note": "Proved as stated, under the condition on names of types (needed: C73_violated_names); the position and expected tokens of syntax errors, the help of builtin errors and the time in the message of the time limit are not part of the model of errors. Violated: limits in messages are wrong by one (C73_violated_limits)."
  },
  {
   "property": "C74",
   "status": "partial",
   "theorems": [
    "Quilt.Props.C74_ends",
    "Quilt.Props.C74_stops",
    "Quilt.Props.C74_idle",
    "Quilt.Props.C74_either",
    "Quilt.Props.C74_command",
    "Quilt.Props.C74_command_idle",
    "Quilt.Props.C74_violated_64"
   ],
   "note": "Proved as stated; violated is the number 64 in the comment of the option (a loop gets 65: C74_violated_64, and C74_stops shows that 65 is the maximum). Instructions are not bounded in time (see C72_violated_pairs). The clock is an arbitrary sequence."
  },
  {
   "property": "C75",
   "status": "proved",
   "theorems": [
    "Quilt.Props.C75_lines",
    "Quilt.Props.C75_line",
    "Quilt.Props.C75_names",
    "Quilt.Props.C75_called",
    "Quilt.Props.C75_jump",
    "Quilt.Props.C75_breaks"
   ],
   "note": "The names of functions, variables and files shown in hints are assumed to hold no line break (C75_breaks; identifiers do not); colours are a parameter set to none, as when the output is not a terminal."
  },
  {
   "property": "C76",
   "status": "partial",
   "theorems": [
    "Quilt.Props.C76_flags",
    "Quilt.Props.C76_none",
    "Quilt.Props.C76_listed",
    "Quilt.Props.C76_listed_partial",
    "Quilt.Props.C76_violated_characters"
   ],
   "note": "C76_listed: listings never fail and show every instruction of a known line; C76_listed_partial: in nonempty ASCII files all lines are known. Violated: with other characters instructions are left out (C76_violated_characters). Times are arbitrary texts; listings of programs of more than 65535 nodes are left out."
  },
  {
   "property": "C77",
   "status": "proved",
   "theorems": [
    "Quilt.Props.C77_semantics",
    "Quilt.Props.C77_ends",
    "Quilt.Props.C77_command",
    "Quilt.Props.C77_text"
   ],
   "note": "Under the hypotheses of C19: no functions are compared, the builtins raise no stack overflows (those of the library do not: C77_command). Builtins are total functions in the model. C77_text: it suffices that the word does not occur in the files."
  },
  {
   "property": "C78",
   "status": "partial",
   "theorems": [
    "Quilt.Props.C78_nested_partial",
    "Quilt.Props.C78_names",
    "Quilt.Props.C78_keywords",
    "Quilt.Props.C78_error_partial",
    "Quilt.Props.C78_violated_compound"
   ],
   "note": "Violated for compound assignments, where the operation has the position of its right side. C78_error_partial speaks of the errors of C60_error_partial."
  },
  {
   "property": "C79",
   "status": "partial",
   "theorems": [
    "Quilt.Props.C79_names",
    "Quilt.Props.C79_arguments",
    "Quilt.Props.C79_returns",
    "Quilt.Props.C79_defaults",
    "Quilt.Props.C79_described_partial",
    "Quilt.Props.C79_violated_description"
   ],
   "note": "Names, arguments, return types and defaults are proved for all builtins. Violated only in that alpha has an empty description."
  },
  {
   "property": "C80",
   "status": "proved",
   "theorems": [
    "Quilt.Props.C80_never",
    "Quilt.Props.C80_text",
    "Quilt.Props.C80_command",
    "Quilt.Props.C80_total"
   ],
   "note": "Removes the assumption that no functions are compared from C19, C22, C53, C64, C71 and C77 for programs and files of this form."
  },
  {
   "property": "C81",
   "status": "partial",
   "theorems": [
    "Quilt.Props.C81_int_partial",
    "Quilt.Props.C81_back",
    "Quilt.Props.C81_distinct",
    "Quilt.Props.C81_size",
    "Quilt.Props.C81_vec",
    "Quilt.Props.C81_full",
    "Quilt.Props.C81_violated_u64",
    "Quilt.Props.C81_violated_option",
    "Quilt.Props.C81_violated_limit"
   ],
   "note": "Violated: u64 from 2^63 become negative, Some(None) and None are the same value, arrays of numbers made from vectors exceed their limit. The conversion of f32 to f64 is a parameter."
  },
  {
   "property": "C82",
   "status": "partial",
   "theorems": [
    "Quilt.Props.C82_same",
    "Quilt.Props.C82_report_partial",
    "Quilt.Props.C82_after",
    "Quilt.Props.C82_stray",
    "Quilt.Props.C82_literal",
    "Quilt.Props.C82_include",
    "Quilt.Props.C82_violated_keyword",
    "Quilt.Props.C82_violated_list"
   ],
   "note": "Violated: keywords that could stand at the place of an error are never listed. How peg collects failures is modelled from memory of peg 0.8.1 (trusted)."
  },
  {
   "property": "C83",
   "status": "proved",
   "theorems": [
    "Quilt.Props.C83_blame",
    "Quilt.Props.C83_blame_any",
    "Quilt.Props.C83_accepts",
    "Quilt.Props.C83_exact",
    "Quilt.Props.C83_text",
    "Quilt.Props.C83_text_exact"
   ],
   "note": "The fault of size is one-sided: a construct of size above 8191 may be rejected as too large to jump over, smaller ones never are. Redefinition is exact up to 65535 nodes, where numbers of names are distinct. C83_exact leaves out the operators that crash the compiler (C58)."
  },
  {
   "property": "C84",
   "status": "proved",
   "theorems": [
    "Quilt.Props.C84_default",
    "Quilt.Props.C84_command",
    "Quilt.Props.C84_sources",
    "Quilt.Props.C84_honest",
    "Quilt.Props.C84_resolved",
    "Quilt.Props.C84_name",
    "Quilt.Props.C84_blind",
    "Quilt.Props.C84_once",
    "Quilt.Props.C84_ends",
    "Quilt.Props.C84_depth",
    "Quilt.Props.C84_panic_partial"
   ],
   "note": "Any resolver as a parameter; C84_panic_partial excludes the operators that crash the compiler (C58). A syntax error is kept as the number of its source here; its position is C82."
  },
  {
   "property": "C85",
   "status": "proved",
   "theorems": [
    "Quilt.Props.C85_semantics",
    "Quilt.Props.C85_machine",
    "Quilt.Props.C85_library",
    "Quilt.Props.C85_command",
    "Quilt.Props.C85_signs"
   ],
   "note": "The values blamed are ones the operands can really evaluate to (Gives: in some environment and state). Errors of a wrong number of arguments and of calling a context as a function have no place of their own in the semantics (the machine reports the instruction after the call, C60): for these the culprit is named but not the position. For programs that compare no functions (C80)."
  },
  {
   "property": "C86",
   "status": "proved",
   "theorems": [
    "Quilt.Props.C86_semantics",
    "Quilt.Props.C86_names",
    "Quilt.Props.C86_machine",
    "Quilt.Props.C86_command"
   ],
   "note": "The condition is sufficient, not necessary: mutual recursion and branches never taken can use names declared later or never (examples)."
  },
  {
   "property": "C87",
   "status": "proved",
   "theorems": [
    "Quilt.Props.C87_semantics",
    "Quilt.Props.C87_machine",
    "Quilt.Props.C87_library",
    "Quilt.Props.C87_clamp",
    "Quilt.Props.C87_crashers",
    "Quilt.Props.C87_command",
    "Quilt.Props.C87_steady"
   ],
   "note": "Crashes by exhausting memory or the native stack are not modelled. For programs that compare no functions (C80)."
  },
  {
   "property": "C88",
   "status": "partial",
   "theorems": [
    "Quilt.Props.C88_run",
    "Quilt.Props.C88_command",
    "Quilt.Props.C88_drawn_partial",
    "Quilt.Props.C88_place_partial",
    "Quilt.Props.C88_trace_partial",
    "Quilt.Props.C88_violated_empty",
    "Quilt.Props.C88_violated_characters",
    "Quilt.Props.C88_violated_end"
   ],
   "note": "Placement is proved for all programs. Violated: a report in an empty file panics while it is drawn; in files with other characters than ASCII, and behind the last line break of a file, the drawing shows another place. How ariadne starts to draw is modelled from what is known of version 0.1.5 (trusted); the marked lines themselves are not modelled."
  },
  {
   "property": "C89",
   "status": "proved",
   "theorems": [
    "Quilt.Props.C89_stack",
    "Quilt.Props.C89_overflow",
    "Quilt.Props.C89_depth",
    "Quilt.Props.C89_value",
    "Quilt.Props.C89_value_or_limit",
    "Quilt.Props.C89_library",
    "Quilt.Props.C89_command"
   ],
   "note": "Stack slots of the value stack; the native stack of the interpreter and the memory of arrays and strings are not counted. The bound is an upper bound: a call may need less."
  },
  {
   "property": "C90",
   "status": "proved",
   "theorems": [
    "Quilt.Props.C90_operators",
    "Quilt.Props.C90_library",
    "Quilt.Props.C90_compile",
    "Quilt.Props.C90_build",
    "Quilt.Props.C90_machine",
    "Quilt.Props.C90_flags",
    "Quilt.Props.C90_command",
    "Quilt.Props.C90_ends",
    "Quilt.Props.C90_same",
    "Quilt.Props.C90_alike",
    "Quilt.Props.C90_session"
   ],
   "note": "Underflow of the value stack is a panic in both builds of the model (in release builds Pop alone would not panic at once); compiled programs never underflow (C61, C89). C90_same and C90_alike for programs that compare no functions (C80)."
  },
  {
   "property": "C91",
   "status": "proved",
   "theorems": [
    "Quilt.Props.C91_machine",
    "Quilt.Props.C91_library",
    "Quilt.Props.C91_command",
    "Quilt.Props.C91_text"
   ],
   "note": "For programs that compare no functions (C80). Files that are included are part of the program and not of the world here. With a limit of time the clock of the machine must be the same."
  },
  {
   "property": "C92",
   "status": "proved",
   "theorems": [
    "Quilt.Props.C92_machine",
    "Quilt.Props.C92_library",
    "Quilt.Props.C92_command",
    "Quilt.Props.C92_text"
   ],
   "note": "For programs that compare no functions (C80). The limit of arrays is the same in both runs: every array carries the limit it was made with, so the states would not be equal."
  },
  {
   "property": "C93",
   "status": "proved",
   "theorems": [
    "Quilt.Props.C93_semantics",
    "Quilt.Props.C93_sequence",
    "Quilt.Props.C93_lines",
    "Quilt.Props.C93_session",
    "Quilt.Props.C93_command"
   ],
   "note": "The command: without a time limit, for programs that compare no functions (C80), and in builds with checks without a return outside of functions (C20). Lines: none of them is left from within a context (the library has none)."
  },
  {
   "property": "C94",
   "status": "proved",
   "theorems": [
    "Quilt.Props.C94_grows",
    "Quilt.Props.C94_uncalled",
    "Quilt.Props.C94_cut",
    "Quilt.Props.C94_prescribed",
    "Quilt.Props.C94_library",
    "Quilt.Props.C94_command",
    "Quilt.Props.C94_meant",
    "Quilt.Props.C94_silent",
    "Quilt.Props.C94_text"
   ],
   "note": "C94_grows for all programs; the others for programs that compare no functions (C80). Runs that end without a crash (a crash leaves no state in the model). Output is the text written, not when it is flushed."
  },
  {
   "property": "C95",
   "status": "proved",
   "theorems": [
    "Quilt.Props.C95_semantics",
    "Quilt.Props.C95_ends",
    "Quilt.Props.C95_calls",
    "Quilt.Props.C95_value",
    "Quilt.Props.C95_error",
    "Quilt.Props.C95_no_overflow",
    "Quilt.Props.C95_command_value",
    "Quilt.Props.C95_command_error",
    "Quilt.Props.C95_command"
   ],
   "note": "Ranks are sufficient, not necessary: functions passed as values and called, or functions declared inside of others and called, have none. The bound on calls is for programs that end in a value or an error (a crash leaves no state in the model)."
  },
  {
   "property": "C96",
   "status": "proved",
   "theorems": [
    "Quilt.Props.C96_compile",
    "Quilt.Props.C96_code",
    "Quilt.Props.C96_rejected",
    "Quilt.Props.C96_accepts",
    "Quilt.Props.C96_run",
    "Quilt.Props.C96_value",
    "Quilt.Props.C96_trace"
   ],
   "note": "On syntax trees: names of builtins are replaced as well, but a replacement may leave them as they are. Runs: functions of the host that show the names of functions (like print) are not among those allowed, unless names stay."
  },
  {
   "property": "C97",
   "status": "proved",
   "theorems": [
    "Quilt.Props.C97_semantics",
    "Quilt.Props.C97_accepts",
    "Quilt.Props.C97_runs",
    "Quilt.Props.C97_command"
   ],
   "note": "C97_accepts: for sizes up to 8191; the other theorems assume that both programs compile within the limits of the format. The command: without a time limit, for programs that compare no functions (C80), and in builds with checks without a return outside of functions (C20); positions in the traceback differ, as the text does. Mentions are counted by name: a local variable with the name of a function left out must not be used either."
  },
  {
   "property": "C98",
   "status": "proved",
   "theorems": [
    "Quilt.Props.C98_semantics",
    "Quilt.Props.C98_accepts",
    "Quilt.Props.C98_runs",
    "Quilt.Props.C98_command"
   ],
   "note": "C98_accepts: for sizes up to 8191 and operators on which the compiler does not crash; the others assume that both programs compile within the limits of the format. The command: without a time limit, for programs that compare no functions (C80), and in builds with checks without a return outside of functions (C20); positions in the traceback differ, as the text does. The converse of C98_runs follows with Reordered.symm."
  },
  {
   "property": "C99",
   "status": "proved",
   "theorems": [
    "Quilt.Props.C99_semantics",
    "Quilt.Props.C99_goes_on",
    "Quilt.Props.C99_runs",
    "Quilt.Props.C99_command"
   ],
   "note": "C99_runs and C99_command assume that both programs compile within the limits of the format. The command: without a time limit, for beginnings that compare no functions (C80), and in builds with checks without a return outside of functions (C20)."
  },
  {
   "property": "C100",
   "status": "proved",
   "theorems": [
    "Quilt.Props.C100_semantics",
    "Quilt.Props.C100_doubled",
    "Quilt.Props.C100_accepts",
    "Quilt.Props.C100_runs",
    "Quilt.Props.C100_command"
   ],
   "note": "C100_accepts: for sizes up to 8191 and operators on which the compiler does not crash; C100_runs and C100_command assume that both programs compile within the limits of the format. The command: without a time limit, for programs that compare no functions (C80), and in builds with checks without a return outside of functions (C20); positions in the traceback differ, as the text does. (Including the same file twice is an error, C38.)"
  },
  {
   "property": "C101",
   "status": "proved",
   "theorems": [
    "Quilt.Props.C101_semantics",
    "Quilt.Props.C101_runs",
    "Quilt.Props.C101_runs_back",
    "Quilt.Props.C101_command",
    "Quilt.Props.C101_if_true",
    "Quilt.Props.C101_if_false",
    "Quilt.Props.C101_block",
    "Quilt.Props.C101_fold",
    "Quilt.Props.C101_after_return",
    "Quilt.Props.C101_literal",
    "Quilt.Props.C101_if_none",
    "Quilt.Props.C101_last_block",
    "Quilt.Props.C101_fold_unary",
    "Quilt.Props.C101_not_eq",
    "Quilt.Props.C101_if_neq",
    "Quilt.Props.C101_switch_one",
    "Quilt.Props.C101_equiv"
   ],
   "note": "Statements are replaced only as parts of blocks (function bodies, branches, loops), not one by one, and the top level not as a whole. C101_runs and C101_command assume that both programs compile within the limits of the format. The command: without a time limit, for programs that compare no functions (C80), and in builds with checks without a return outside of functions (C20); positions in the traceback differ, as the text does."
  }
 ]
}