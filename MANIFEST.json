{
 "claims": [
  {
   "property": "C01",
   "status": "partial",
   "theorems": [
    "Verif.TextSync.C01_fresh_index",
    "Verif.TextSync.C01_incremental_index_partial",
    "Verif.TextSync.C01_negation",
    "Verif.TextSync.C01_witness",
    "Verif.TextSync.C01_witness_end_line"
   ],
   "note": "A fresh index is exact for every text; the incremental index is exact for edits that do not create or split a CRLF at the seam (NoSeam). For other edits the code is wrong: C01_negation, C01_witness*."
  },
  {
   "property": "C02",
   "status": "proved",
   "theorems": [
    "Verif.TextSync.C02_no_clamp_witness",
    "Verif.TextSync.C02_position_exact",
    "Verif.TextSync.C02_position_total",
    "Verif.TextSync.C02_positions_cover"
   ],
   "note": "Positions inside lines map to the exact byte offset and every offset is reachable. C02_no_clamp_witness records that a column past the end of the line is not clamped to the line."
  },
  {
   "property": "C03",
   "status": "partial",
   "theorems": [
    "Verif.TextSync.C03_single_edit",
    "Verif.TextSync.C03_text_partial",
    "Verif.TextSync.C03_witness"
   ],
   "note": "Text refinement for edit histories whose edits are NoSeam; C03_witness shows the divergence otherwise."
  },
  {
   "property": "C04",
   "status": "partial",
   "theorems": [
    "Verif.TextSync.C04_exact",
    "Verif.TextSync.C04_idempotent",
    "Verif.TextSync.C04_identity",
    "Verif.TextSync.C04_overlong_not_utf8",
    "Verif.TextSync.C04_overlong_witness",
    "Verif.TextSync.C04_prefix_kept",
    "Verif.TextSync.C04_utf8_unchanged",
    "Verif.TextSync.C04_wellformed"
   ],
   "note": "Well-formed input is unchanged, the result is idempotent and consists of groups the decoder accepts; overlong forms and surrogates pass the sanitiser unchanged (C04_overlong_*)."
  },
  {
   "property": "C05",
   "status": "partial",
   "theorems": [
    "Verif.FileManager.C05_open_document_authoritative",
    "Verif.FileManager.C05_reachable_inv",
    "Verif.FileManager.C05_read_ignores_disk",
    "Verif.FileManager.C05_snapshot_isolated",
    "Verif.FileManager.C05_snapshot_witness",
    "Verif.FileManager.C05_unknown_change_ignored",
    "Verif.FileManager.C05_version_counts"
   ],
   "note": "Contents of open documents are authoritative; snapshots given to readers are isolated except for the object conversion shown in C05_snapshot_witness."
  },
  {
   "property": "C06",
   "status": "proved",
   "theorems": [
    "Verif.Framing.C06_roundtrip"
   ],
   "note": ""
  },
  {
   "property": "C07",
   "status": "proved",
   "theorems": [
    "Verif.Framing.C07_bad_messages_skipped",
    "Verif.Framing.C07_oversize_injection"
   ],
   "note": "Malformed headers and bodies are skipped; the body of an oversize message stays in the stream (C07_oversize_injection)."
  },
  {
   "property": "C08",
   "status": "proved",
   "theorems": [
    "Verif.Queue.C08_end_after_terminate",
    "Verif.Queue.C08_end_only_after_terminate",
    "Verif.Queue.C08_fifo_exactly_once",
    "Verif.Queue.C08_pop_takes_oldest",
    "Verif.Queue.C08_process_policy_drains"
   ],
   "note": "Any number of producers and consumers."
  },
  {
   "property": "C09",
   "status": "partial",
   "theorems": [
    "Verif.Queue.C09_no_lost_wakeup_partial",
    "Verif.Queue.C09_wakeup_completes",
    "Verif.Queue.C09_witness_terminate",
    "Verif.Queue.C09_witness_two_consumers"
   ],
   "note": "Holds for one consumer, which is how the server uses the queue; fails for two (witnesses)."
  },
  {
   "property": "C10",
   "status": "partial",
   "theorems": [
    "Verif.RequestManager.C10_finish_complete",
    "Verif.RequestManager.C10_finish_witness",
    "Verif.RequestManager.C10_finite_work",
    "Verif.RequestManager.C10_global_order",
    "Verif.RequestManager.C10_in_order_exactly_once",
    "Verif.RequestManager.C10_never_stuck",
    "Verif.RequestManager.C10_no_overlap"
   ],
   "note": "Order, exactly-once and completion hold for every schedule; closing returns early while a request of that server runs when the queue is empty (C10_finish_witness)."
  },
  {
   "property": "C11",
   "status": "partial",
   "theorems": [
    "Verif.RequestManager.C11_cancel_only_stale",
    "Verif.RequestManager.C11_edit_cancels_older",
    "Verif.RequestManager.C11_finish_witness",
    "Verif.RequestManager.C11_latest_not_cancelled",
    "Verif.RequestManager.C11_running_cancelled",
    "Verif.RequestManager.C11_start_flag"
   ],
   "note": "Start-cancelled requests are stale; closing any server also cancels the running request of another (C11_finish_witness)."
  },
  {
   "property": "C12",
   "status": "partial",
   "theorems": [
    "Verif.Lsp.C12_process_one_partial",
    "Verif.Lsp.C12_prompt_partial",
    "Verif.Lsp.C12_witness_eof",
    "Verif.Lsp.C12_witness_lag",
    "Verif.Lsp.C12_witness_order",
    "Verif.Lsp.C12_witness_params",
    "Verif.Lsp.C12_zero_or_one",
    "Verif.Lsp.C12_zero_partial"
   ],
   "note": "Exact when the worker keeps up. Races and the reading of the return value before the thread is joined break it: C12_witness_*."
  },
  {
   "property": "C13",
   "status": "proved",
   "theorems": [
    "Verif.Lsp.C13_exactly_one_sink",
    "Verif.Lsp.C13_first_match"
   ],
   "note": ""
  },
  {
   "property": "C14",
   "status": "proved",
   "theorems": [
    "Verif.Lsp.C14_at_most_once",
    "Verif.Lsp.C14_exactly_once",
    "Verif.Lsp.C14_unknown_no_effect",
    "Verif.Lsp.C14_witness_reused_id"
   ],
   "note": "Exactly once under the id discipline of the server; C14_witness_reused_id shows that the discipline is needed."
  },
  {
   "property": "C15",
   "status": "proved",
   "theorems": [
    "Verif.Lsp.C15_client_shows_last_round",
    "Verif.Lsp.C15_witness_uri"
   ],
   "note": "Assumes the file-to-URI conversion is injective; C15_witness_uri shows that this is needed."
  },
  {
   "property": "C16",
   "status": "proved",
   "theorems": [
    "Verif.Lsp.C16_continued",
    "Verif.Lsp.C16_decode_encode",
    "Verif.Lsp.C16_nothing_dropped",
    "Verif.Lsp.C16_single_line",
    "Verif.Lsp.C16_witness_unsorted"
   ],
   "note": "For tokens sorted by position; C16_witness_unsorted shows the wrap-around otherwise."
  },
  {
   "property": "C17",
   "status": "partial",
   "theorems": [
    "Verif.Dap.C17_answered",
    "Verif.Dap.C17_every_request_answered_partial",
    "Verif.Dap.C17_response_names_request",
    "Verif.Dap.C17_single_thread",
    "Verif.Dap.C17_unique_increasing_partial",
    "Verif.Dap.C17_witness",
    "Verif.Dap.C17_witness_unanswered"
   ],
   "note": "Unique and increasing per thread; across threads numbering and sending can be reordered (C17_witness). Requests without debugger or with unreadable arguments get no response."
  },
  {
   "property": "C18",
   "status": "proved",
   "theorems": [
    "Verif.Dap.C18_roundtrip",
    "Verif.Dap.C18_shift"
   ],
   "note": ""
  },
  {
   "property": "C19",
   "status": "proved",
   "theorems": [
    "Verif.Dap.C19_delivery",
    "Verif.Dap.C19_live_sessions_survive",
    "Verif.Dap.C19_methods_distinct",
    "Verif.Dap.C19_one_session_per_key",
    "Verif.Dap.C19_queue_is_own_messages",
    "Verif.Dap.C19_registration",
    "Verif.Dap.C19_unknown_dropped"
   ],
   "note": ""
  },
  {
   "property": "C20",
   "status": "proved",
   "theorems": [
    "Verif.Workspace.C20_first_library",
    "Verif.Workspace.C20_has_iff_parse"
   ],
   "note": ""
  },
  {
   "property": "C21",
   "status": "partial",
   "theorems": [
    "Verif.Workspace.C21_conflict_reported",
    "Verif.Workspace.C21_dot",
    "Verif.Workspace.C21_first_file",
    "Verif.Workspace.C21_no_extensions",
    "Verif.Workspace.C21_upper",
    "Verif.Workspace.C21_visible_name",
    "Verif.Workspace.C21_witness_no_extensions"
   ],
   "note": "With configured extensions, names, first-wins and the conflict report are exact; without extensions C21_no_extensions says exactly what happens: whole names in upper case, the last conflicting file wins and nothing is reported (C21_witness_no_extensions). The order of the listing is that of the unordered map."
  },
  {
   "property": "C22",
   "status": "partial",
   "theorems": [
    "Verif.Workspace.C22_selection",
    "Verif.Workspace.C22_wildcard_entry",
    "Verif.Workspace.C22_witness_bad_reload"
   ],
   "note": "Exact after every successful load; a reload whose pgm_conf.json fails leaves entries without groups (C22_witness_bad_reload)."
  },
  {
   "property": "C23",
   "status": "partial",
   "theorems": [
    "Verif.Workspace.C23_wildcard_partial",
    "Verif.Workspace.C23_witness_newline",
    "Verif.Workspace.C23_witness_non_ascii"
   ],
   "note": "Exact byte-wise for names without line terminators; ? is one byte, not one character (witnesses)."
  },
  {
   "property": "C24",
   "status": "partial",
   "theorems": [
    "Verif.Workspace.C24_drop_only_unneeded",
    "Verif.Workspace.C24_needed_kept_partial",
    "Verif.Workspace.C24_open_kept",
    "Verif.Workspace.C24_witness_two_workspaces"
   ],
   "note": "For one workspace; with two workspaces sharing a dependency it fails (C24_witness_two_workspaces). Open documents are kept in every case."
  },
  {
   "property": "C25",
   "status": "partial",
   "theorems": [
    "Verif.Workspace.C25_history_partial",
    "Verif.Workspace.C25_innermost_partial",
    "Verif.Workspace.C25_order_independent_partial",
    "Verif.Workspace.C25_witness_name",
    "Verif.Workspace.C25_witness_remove",
    "Verif.Workspace.C25_witness_sibling"
   ],
   "note": "Holds when workspaces are registered under their URI and enclosure means string prefix, after every history of opened and closed folders (C25_history_partial); witnesses for the other cases."
  },
  {
   "property": "C26",
   "status": "proved",
   "theorems": [
    "Verif.Workspace.C26_not_overridden",
    "Verif.Workspace.C26_precedence"
   ],
   "note": ""
  },
  {
   "property": "C30",
   "status": "proved",
   "theorems": [
    "Verif.Context.C30_case",
    "Verif.Context.C30_find",
    "Verif.Context.C30_not_found",
    "Verif.Context.C30_same_iff",
    "Verif.Context.C30_witness_empty"
   ],
   "note": "Interning is exact up to case. Observation (C30_witness_empty): the well-known empty identifier is a distinct storage entry, see DESIGN.md."
  },
  {
   "property": "C31",
   "status": "proved",
   "theorems": [
    "Verif.Context.C31_assign_frame",
    "Verif.Context.C31_first_assignment",
    "Verif.Context.C31_last_assigned",
    "Verif.Context.C31_number",
    "Verif.Context.C31_refused",
    "Verif.Context.C31_witness_number"
   ],
   "note": "Last-assigned semantics and frame for scalars and arrays; C31_number gives N' below 2^31; C31_witness_number shows the wrap at subscript 2^31 (machine limit)."
  },
  {
   "property": "C32",
   "status": "proved",
   "theorems": [
    "Verif.Context.C32_callers_untouched",
    "Verif.Context.C32_gbl_attaches",
    "Verif.Context.C32_global_persists",
    "Verif.Context.C32_local_gone",
    "Verif.Context.C32_local_invisible",
    "Verif.Context.C32_name_denotes_one",
    "Verif.Context.C32_one_variable",
    "Verif.Context.C32_witness_type"
   ],
   "note": "Observation C32_witness_type: a GBLx declaration of a different type silently attaches the variable of the first type."
  },
  {
   "property": "C33",
   "status": "partial",
   "theorems": [
    "Verif.Context.C33_call_number",
    "Verif.Context.C33_constant_partial",
    "Verif.Context.C33_value",
    "Verif.Context.C33_witness_assigned"
   ],
   "note": "The value at the start of a call is proved; constancy needs the hypothesis that the body does not assign &SYSNDX (C33_constant_partial): C33_witness_assigned shows that the code allows such an assignment."
  },
  {
   "property": "C34",
   "status": "proved",
   "theorems": [
    "Verif.Context.Mac.C34_keyword",
    "Verif.Context.Mac.C34_label",
    "Verif.Context.Mac.C34_positional",
    "Verif.Context.Mac.C34_syslist",
    "Verif.Context.Mac.C34_total"
   ],
   "note": "For well-formed prototypes (distinct names, no SYSLIST)."
  },
  {
   "property": "C35",
   "status": "partial",
   "theorems": [
    "Verif.Context.C35_preserved_partial",
    "Verif.Context.C35_structure",
    "Verif.Context.C35_value",
    "Verif.Context.C35_witness_double",
    "Verif.Context.C35_witness_trailing"
   ],
   "note": "Every character except commas directly before a closing parenthesis or next to another comma is preserved; witnesses show trailing and doubled commas being lost."
  },
  {
   "property": "C36",
   "status": "partial",
   "theorems": [
    "Verif.Context.Opsyn.C36_call_target",
    "Verif.Context.Opsyn.C36_opsyn_only",
    "Verif.Context.Opsyn.C36_refines_partial",
    "Verif.Context.Opsyn.C36_unmentioned",
    "Verif.Context.Opsyn.C36_witness_redefined"
   ],
   "note": "Refinement holds for programs that do not define a macro after the same name was given by OPSYN; C36_witness_redefined shows the divergence."
  },
  {
   "property": "C37",
   "status": "proved",
   "theorems": [
    "Verif.Context.Flow.C37_branches_bounded",
    "Verif.Context.Flow.C37_exhausted",
    "Verif.Context.Flow.C37_terminates",
    "Verif.Context.Flow.C37_witness_one_more"
   ],
   "note": "Termination for arbitrary effects of statements (AINSERT excluded, COPY members expanded). One more branch than the counter is taken before the scope is ended (C37_witness_one_more)."
  },
  {
   "property": "C38",
   "status": "proved",
   "theorems": [
    "Verif.Context.Flow.C38_ago",
    "Verif.Context.Flow.C38_ago_plain",
    "Verif.Context.Flow.C38_aif",
    "Verif.Context.Flow.C38_aif_invalid"
   ],
   "note": "For all operand lists; malformed AIF operand lists never branch."
  },
  {
   "property": "C39",
   "status": "partial",
   "theorems": [
    "Verif.Processing.Cache.C39_fresh",
    "Verif.Processing.Cache.C39_not_parsed",
    "Verif.Processing.Cache.C39_same_instruction",
    "Verif.Processing.Cache.C39_stable",
    "Verif.Processing.Cache.C39_transparent_partial",
    "Verif.Processing.Cache.C39_witness_absent"
   ],
   "note": "Holds if the instructions of one form are parsed alike; C39_witness_absent: the cache is keyed by the form only, so an instruction without operands empties the operands of later ones."
  },
  {
   "property": "C40",
   "status": "partial",
   "theorems": [
    "Verif.Processing.Look.C40_attribute_partial",
    "Verif.Processing.Look.C40_branch_partial",
    "Verif.Processing.Look.C40_first",
    "Verif.Processing.Look.C40_forward",
    "Verif.Processing.Look.C40_symbol_partial",
    "Verif.Processing.Look.C40_witness_aread",
    "Verif.Processing.Look.C40_witness_end",
    "Verif.Processing.Look.C40_witness_instruction",
    "Verif.Processing.Search.C40_branch_finds"
   ],
   "note": "Attribute and symbol lookaheads return exactly (all nestings of macros and COPY members, all histories), branches find their symbol wherever it is. Excluded with witnesses: AREAD in the macro before the lookahead, lookahead from an instruction field (line number), last line of the text (clamped offset). AINSERT not modelled."
  },
  {
   "property": "C41",
   "status": "proved",
   "theorems": [
    "Verif.Ca.C41_add",
    "Verif.Ca.C41_div",
    "Verif.Ca.C41_minus_partial",
    "Verif.Ca.C41_mul",
    "Verif.Ca.C41_sub",
    "Verif.Ca.C41_witness_minus"
   ],
   "note": "Addition, subtraction, multiplication and division are exact or 0 with a diagnostic, for all 32-bit operands. The unary minus, not part of the claim, is undefined behaviour for -2147483648 (C41_witness_minus)."
  },
  {
   "property": "C42",
   "status": "partial",
   "theorems": [
    "Verif.Ca.C42_shift_partial",
    "Verif.Ca.C42_witness_sla",
    "Verif.Ca.C42_witness_sra",
    "Verif.Ca.C42_witness_zero"
   ],
   "note": "Violated: a shift by zero returns the right operand, SRA by 32..63 of a non-negative number is -1, SLA can change the sign (witnesses). C42_shift_partial covers all other operands of all four operators."
  },
  {
   "property": "C43",
   "status": "partial",
   "theorems": [
    "Verif.Ca.C43_order",
    "Verif.Ca.C43_precedence_partial",
    "Verif.Ca.C43_same_priority",
    "Verif.Ca.C43_two_comparisons",
    "Verif.Ca.C43_witness",
    "Verif.Ca.C43_witness_not"
   ],
   "note": "Violated for e.g. A OR B EQ C AND D (C43_witness). C43_precedence_partial characterises exactly the operator sequences grouped by precedence; order of the terms and left to right evaluation for equal priority hold always."
  },
  {
   "property": "C44",
   "status": "proved",
   "theorems": [
    "Verif.Ca.C44_a2c_bytes",
    "Verif.Ca.C44_a2c_c2a_partial",
    "Verif.Ca.C44_b2c_c2b",
    "Verif.Ca.C44_b2x_x2b",
    "Verif.Ca.C44_binary",
    "Verif.Ca.C44_c2b_b2c",
    "Verif.Ca.C44_c2x_x2c",
    "Verif.Ca.C44_decimal",
    "Verif.Ca.C44_hex",
    "Verif.Ca.C44_witness_c2a",
    "Verif.Ca.C44_witness_x2c",
    "Verif.Ca.C44_x2b_b2x",
    "Verif.Ca.C44_x2c_c2x"
   ],
   "note": "All round trips of the claim with result lengths. Side findings: X2C accepts an invalid second digit, C2A counts UTF-8 bytes (witnesses)."
  },
  {
   "property": "C45",
   "status": "proved",
   "theorems": [
    "Verif.Ca.C45_dclen",
    "Verif.Ca.C45_dcval_plain",
    "Verif.Ca.C45_dequote",
    "Verif.Ca.C45_double",
    "Verif.Ca.C45_double_exact",
    "Verif.Ca.C45_double_length"
   ],
   "note": ""
  },
  {
   "property": "C46",
   "status": "partial",
   "theorems": [
    "Verif.Ca.C46_bounded",
    "Verif.Ca.C46_duplicate",
    "Verif.Ca.C46_rest",
    "Verif.Ca.C46_substring_partial",
    "Verif.Ca.C46_witness_character",
    "Verif.Ca.C46_witness_overflow"
   ],
   "note": "Duplication and size bound in full; substring counts UTF-8 bytes rather than characters, and a missing count with a very small start overflows (witnesses)."
  },
  {
   "property": "C47",
   "status": "partial",
   "theorems": [
    "Verif.Ca.C47_number_partial",
    "Verif.Ca.C47_string_symmetry",
    "Verif.Ca.C47_string_transitive",
    "Verif.Ca.C47_string_trichotomy",
    "Verif.Ca.C47_witness_overflow"
   ],
   "note": "Strings: full. Numbers: for operands whose difference fits 32 bits; otherwise signed overflow (C47_witness_overflow)."
  },
  {
   "property": "C48",
   "status": "partial",
   "theorems": [
    "Verif.Ca.C48_byte",
    "Verif.Ca.C48_latin1",
    "Verif.Ca.C48_string_partial",
    "Verif.Ca.C48_witness_nul",
    "Verif.Ca.C48_witness_overrun"
   ],
   "note": "Byte and Latin-1 round trips in full. One byte per character for every text without NUL; with a NUL the translation used by comparisons stops, and a character cut by a substring operation makes it run over the end of the string (witnesses)."
  },
  {
   "property": "C49",
   "status": "proved",
   "theorems": [
    "Verif.Ca.C49_concatenation",
    "Verif.Ca.C49_no_variable",
    "Verif.Ca.C49_seta"
   ],
   "note": ""
  },
  {
   "property": "C50",
   "status": "partial",
   "theorems": [
    "Verif.Ord.C50_add",
    "Verif.Ord.C50_add_comm_partial",
    "Verif.Ord.C50_add_partial",
    "Verif.Ord.C50_cancel_partial",
    "Verif.Ord.C50_canonical",
    "Verif.Ord.C50_int",
    "Verif.Ord.C50_neg",
    "Verif.Ord.C50_self",
    "Verif.Ord.C50_sub_partial",
    "Verif.Ord.C50_witness_count",
    "Verif.Ord.C50_witness_sign"
   ],
   "note": "Model: Ord/Address.lean. Value semantics over arbitrary section values and space lengths: sum (full for addresses built by the operations in one state of the spaces), negation, integers, a-a, canonical form. Difference and cancellation only when shared sections/spaces occur equally often: merge_entries computes rhs-lhs for shared entries (C50_witness_sign); a resolved space is counted once whatever its multiplicity (C50_witness_count)."
  },
  {
   "property": "C51",
   "status": "proved",
   "theorems": [
    "Verif.Ord.C51_counter",
    "Verif.Ord.C51_org",
    "Verif.Ord.C51_org_none",
    "Verif.Ord.C51_space"
   ],
   "note": "space::resolve, location_counter_data::align without open gaps, ORG boundary. size_t conversion modelled; negative offsets need a power of two."
  },
  {
   "property": "C52",
   "status": "partial",
   "theorems": [
    "Verif.Ord.C52_all_resolved",
    "Verif.Ord.C52_layout_partial",
    "Verif.Ord.C52_order_independent_partial",
    "Verif.Ord.C52_reserve_adds",
    "Verif.Ord.C52_storage_partial",
    "Verif.Ord.C52_storage_sum",
    "Verif.Ord.C52_witness_append_data",
    "Verif.Ord.C52_witness_displacement",
    "Verif.Ord.C52_witness_gap_end"
   ],
   "note": "One location_counter_data (no ORG). For every interleaving of statements, definitions and resolution of alignment spaces the offsets equal the layout computed with all lengths known; everything resolves. Missing: gaps not ending at their declared boundary, displaced alignments while a gap is open, append_data (witnesses given)."
  },
  {
   "property": "C54",
   "status": "partial",
   "theorems": [
    "Verif.Ord.C54_rejected",
    "Verif.Ord.C54_stays",
    "Verif.Ord.C54_witness_data",
    "Verif.Ord.C54_witness_data_twice",
    "Verif.Ord.C54_witness_extrn"
   ],
   "note": "Proved for all programs: a value, length or scale once known never changes (C54_stays); EQU and labels of used names change nothing (C54_rejected). Violated: a second EXTRN of a name throws an exception nothing catches, and a duplicate DS/DC with a pending length throws when the length becomes known or at once (witnesses)."
  },
  {
   "property": "C55",
   "status": "partial",
   "theorems": [
    "Verif.Ord.C55_correct",
    "Verif.Ord.C55_programs_partial",
    "Verif.Ord.C55_reported_partial",
    "Verif.Ord.C55_stays_acyclic",
    "Verif.Ord.C55_terminates_partial",
    "Verif.Ord.C55_witness_hang",
    "Verif.Ord.C55_witness_hidden"
   ],
   "note": "Proved: a finished check answers exactly whether the new dependency closes a cycle in the dependency graph visible at that time (C55_correct); it terminates when the tables are acyclic (C55_terminates_partial); accepted dependencies keep them acyclic (C55_stays_acyclic). For whole programs of EQU over sums and differences of symbols: every program has an outcome, pending definitions never form a circle (C55_programs_partial) and a definition is reported exactly when its expression refers back to its label (C55_reported_partial). Violated: dependencies hidden behind undefined symbols produce accepted cycles (C55_witness_hidden), after which a check never ends (C55_witness_hang)."
  },
  {
   "property": "C56",
   "status": "partial",
   "theorems": [
    "Verif.Ord.C56_complete",
    "Verif.Ord.C56_ends",
    "Verif.Ord.C56_order_partial",
    "Verif.Ord.C56_total_partial",
    "Verif.Ord.C56_value_partial",
    "Verif.Ord.C56_witness_length",
    "Verif.Ord.C56_witness_lost_length",
    "Verif.Ord.C56_witness_order"
   ],
   "note": "Proved: resolution ends (C56_ends); what is left refers to something undefined (C56_complete); for expressions without misjudged products the outcome does not depend on the order (C56_order_partial) and equals the value of the expression (C56_value_partial); acyclic symbol definitions are all resolved (C56_total_partial). Violated in general: order matters (C56_witness_order), a length of -1 counts as undefined (C56_witness_length), a length can be lost (C56_witness_lost_length)."
  },
  {
   "property": "C57",
   "status": "partial",
   "theorems": [
    "Verif.Ord.C57_abs",
    "Verif.Ord.C57_add",
    "Verif.Ord.C57_closed",
    "Verif.Ord.C57_div",
    "Verif.Ord.C57_neg",
    "Verif.Ord.C57_no_product",
    "Verif.Ord.C57_relocatable",
    "Verif.Ord.C57_same_base",
    "Verif.Ord.C57_sub_partial",
    "Verif.Ord.C57_undef",
    "Verif.Ord.C57_witness_abs_minus_reloc"
   ],
   "note": "Absolute arithmetic, undefinedness, products, sums, negation and relocatability are exact; subtraction is for operands outside the swapped case: abs - reloc gives reloc - abs (C57_witness_abs_minus_reloc)."
  },
  {
   "property": "C58",
   "status": "partial",
   "theorems": [
    "Verif.Ord.C58_known",
    "Verif.Ord.C58_now",
    "Verif.Ord.C58_number_partial",
    "Verif.Ord.C58_program_partial",
    "Verif.Ord.C58_witness_attribute",
    "Verif.Ord.C58_witness_offset"
   ],
   "note": "Proved for programs of EQU and labels over sums and differences of symbols, constants and addresses without unresolved spaces, in every order of resolution (C58_program_partial), and for any expression without dependencies (C58_now). Violated: X+4 with X behind storage of unknown length loses the 4 (C58_witness_offset), a pending attribute is lost likewise (C58_witness_attribute)."
  },
  {
   "property": "C60",
   "status": "proved",
   "theorems": [
    "Verif.Debugger.C60_all_stops_partial",
    "Verif.Debugger.C60_history",
    "Verif.Debugger.C60_only_executed",
    "Verif.Debugger.C60_run"
   ],
   "note": "Small-step model of both threads. C60_history: every decision under every interleaving is the one the event history calls for; C60_only_executed: never in lookahead or definitions; C60_run: with a client that answers stops, the stops are exactly the expected ones under all schedules. C60_all_stops_partial additionally shows no expected stop is missed when all answers are steps (for continue see C61_witness_lost)."
  },
  {
   "property": "C61",
   "status": "partial",
   "theorems": [
    "Verif.Debugger.C61_disconnect_ends",
    "Verif.Debugger.C61_disconnect_possible",
    "Verif.Debugger.C61_ub",
    "Verif.Debugger.C61_witness_lost",
    "Verif.Debugger.C61_witness_next",
    "Verif.Debugger.C61_witness_unlock",
    "Verif.Debugger.C61_woken_partial"
   ],
   "note": "Violated: continue can be lost (C61_witness_lost), disconnect in the window before a stop leads to unlocking a mutex not owned (C61_witness_unlock), next after the end follows a dangling pointer (C61_witness_next). Proved: steps and disconnect always wake the thread, disconnect always gets through and the thread ends after at most ten further steps, and these are the only sources of undefined behaviour. Missing: eventual-wake under explicit fairness is stated as absence of a sleeping thread plus a step bound."
  },
  {
   "property": "C62",
   "status": "partial",
   "theorems": [
    "Verif.Debugger.Vars.C62_denotes_partial",
    "Verif.Debugger.Vars.C62_ended",
    "Verif.Debugger.Vars.C62_unique_partial",
    "Verif.Debugger.Vars.C62_witness_rehash",
    "Verif.Debugger.Vars.C62_witness_wrap"
   ],
   "note": "The variables shown at a stop are those of the shown frame, references stay valid until the analysis moves on, members of one reference list exactly what the context holds, and after the end no reference is served (C62_ended)."
  },
  {
   "property": "C70",
   "status": "partial",
   "theorems": [
    "Verif.Lexing.C70_order_partial",
    "Verif.Lexing.C70_reads_partial",
    "Verif.Lexing.C70_witness_empty",
    "Verif.Lexing.C70_witness_hang",
    "Verif.Lexing.C70_witness_return",
    "Verif.Lexing.C70_witness_unterminated"
   ],
   "note": "Every history of insertions, reads and tokens refines the source of records and lines, for texts whose lines all end with a newline (carriage returns only before it) and non-empty records without line ends; reads and insertions then never fail. Outside these bounds lines are delivered again (witnesses), and continued records hang the tokeniser (witness). The padding counts characters, so it is exact for ASCII."
  },
  {
   "property": "C72",
   "status": "partial",
   "theorems": [
    "Verif.Lexing.C72_length_partial",
    "Verif.Lexing.C72_text",
    "Verif.Lexing.C72_text_refused",
    "Verif.Lexing.C72_witness_length",
    "Verif.Lexing.C72_witness_start"
   ],
   "note": "getText re-encodes every list of Unicode scalars as standard UTF-8 (C72_text) and refuses surrogates/too large values; length_utf16 is wrong for continuation bytes 0x80-0xB7 (witnesses) and right when all continuation bytes are 0xB8 or more (partial). length_utf16 has no caller in the product."
  },
  {
   "property": "C73",
   "status": "partial",
   "theorems": [
    "Verif.Lexing.C73_coverage",
    "Verif.Lexing.C73_lines",
    "Verif.Lexing.C73_nonempty_partial",
    "Verif.Lexing.C73_witness"
   ],
   "note": "The split highlights cover exactly the statement columns of the range, one per line in order (C73_coverage, C73_lines). Non-emptiness holds if the range starts before the end column and ends after the continuation column (C73_nonempty_partial); C73_witness shows an inverted token otherwise."
  },
  {
   "property": "C74",
   "status": "proved",
   "theorems": [
    "Verif.Lexing.C74_union"
   ],
   "note": "The union is the least range containing both operands and is commutative."
  },
  {
   "property": "C80",
   "status": "partial",
   "theorems": [
    "Verif.LspCtx.C80_before_partial",
    "Verif.LspCtx.C80_beginning_partial",
    "Verif.LspCtx.C80_lines_partial",
    "Verif.LspCtx.C80_outside",
    "Verif.LspCtx.C80_range",
    "Verif.LspCtx.C80_witness",
    "Verif.LspCtx.C80_witness_before",
    "Verif.LspCtx.C80_witness_range"
   ],
   "note": "Lines concatenate to the document except that the empty last line of a newline-terminated document makes get_line throw (C80_witness); outside the document the result is empty."
  },
  {
   "property": "C81",
   "status": "partial",
   "theorems": [
    "Verif.LspCtx.C81_equivalence_partial",
    "Verif.LspCtx.C81_global_partial",
    "Verif.LspCtx.C81_nothing",
    "Verif.LspCtx.C81_references_partial",
    "Verif.LspCtx.C81_scope",
    "Verif.LspCtx.C81_witness_copy",
    "Verif.LspCtx.C81_witness_touching"
   ],
   "note": "Holds for documents in which occurrences at one place name one thing and the lines tell the scope (C81_references_partial, C81_equivalence_partial, C81_global_partial). Witnesses: touching names (&A&B) and a copy member used by a macro and by open code."
  },
  {
   "property": "C82",
   "status": "proved",
   "theorems": [
    "Verif.Ca.C82_bin",
    "Verif.Ca.C82_dec",
    "Verif.Ca.C82_hex"
   ],
   "note": ""
  },
  {
   "property": "C83",
   "status": "proved",
   "theorems": [
    "Verif.Ca.C83_find",
    "Verif.Ca.C83_index"
   ],
   "note": ""
  },
  {
   "property": "C75",
   "status": "partial",
   "theorems": [
    "Verif.Lexing.C75_position_partial",
    "Verif.Lexing.C75_witness_boundary",
    "Verif.Lexing.C75_witness_continued"
   ],
   "note": "Correct for operands that lie on one line (C75_position_partial). Witnesses: a position after a continuation is reported 16 columns per line off, and the first column of a continued line as column 71 of the line before."
  },
  {
   "property": "C71",
   "status": "partial",
   "theorems": [
    "Verif.Lexing.C71_latin",
    "Verif.Lexing.C71_tokens_tile_partial",
    "Verif.Lexing.C71_witness_isspace"
   ],
   "note": "For all texts, termination within 2n+2 tokens and tiling are proved, except that the run may instead reach isspace/toupper with a character above U+00FF (undefined behaviour, witness); for texts up to U+00FF it is unconditional. Begin column 1 only (the others are not reachable)."
  },
  {
   "property": "C76",
   "status": "partial",
   "theorems": [
    "Verif.Lexing.C76_latin",
    "Verif.Lexing.C76_statements_partial",
    "Verif.Lexing.C76_witness_record_comment",
    "Verif.Lexing.C76_witness_record_word",
    "Verif.Lexing.C76_witness_return"
   ],
   "note": "Refinement of the token stream to the statements given by the lines, for texts whose carriage returns stand before newlines and without *PROCESS lines; fails for a lone carriage return (witness). For inserted records it fails for comments with a period and for words reaching column 72 (witnesses)."
  },
  {
   "property": "C77",
   "status": "partial",
   "theorems": [
    "Verif.Lexing.C77_positions",
    "Verif.Lexing.C77_utf16_partial",
    "Verif.Lexing.C77_witness_astral",
    "Verif.Lexing.C77_witness_first"
   ],
   "note": "Lines and columns proved for every token; UTF-16 columns proved where the character at the boundary is in the basic plane, otherwise they are wrong (witnesses)."
  },
  {
   "property": "C84",
   "status": "partial",
   "theorems": [
    "Verif.DataDef.C84_placement_partial",
    "Verif.DataDef.C84_refused",
    "Verif.DataDef.C84_relative_partial",
    "Verif.DataDef.C84_start",
    "Verif.DataDef.C84_witness_relative",
    "Verif.DataDef.C84_witness_wrap"
   ],
   "note": "Partial: later operands must not need a stricter boundary than the address the statement begins at (the code aligns them relative to the statement); 64-bit overflow excluded; both violations have witnesses. Refused operands and the start are covered in full."
  },
  {
   "property": "C85",
   "status": "partial",
   "theorems": [
    "Verif.DataDef.C85_length_partial",
    "Verif.DataDef.C85_witness_blanks"
   ],
   "note": "Partial: blanks inside X and B constants are counted (witness)."
  },
  {
   "property": "C86",
   "status": "proved",
   "theorems": [
    "Verif.DataDef.C86_accepted_iff",
    "Verif.DataDef.C86_sound"
   ],
   "note": "Acceptance iff for every text, given permitted other parts and no 64-bit overflow; soundness for every operand whatever."
  },
  {
   "property": "C87",
   "status": "partial",
   "theorems": [
    "Verif.DataDef.C87_accepted_iff_partial",
    "Verif.DataDef.C87_witness_address",
    "Verif.DataDef.C87_witness_relocatable",
    "Verif.DataDef.C87_witness_scale"
   ],
   "note": "Exact characterisation of accepted operands, for operands with absolute 32-bit factors, 16-bit scale and a nominal value where an address constant has a length; the excluded cases are witnesses."
  },
  {
   "property": "C88",
   "status": "partial",
   "theorems": [
    "Verif.DataDef.C88_length",
    "Verif.DataDef.C88_process_partial",
    "Verif.DataDef.C88_witness"
   ],
   "note": "The length never fails; the statement fails exactly for labelled P/Z with a parenthesised value (witness)."
  },
  {
   "property": "C89",
   "status": "partial",
   "theorems": [
    "Verif.DataDef.Parsing.C89_case",
    "Verif.DataDef.Parsing.C89_read_partial",
    "Verif.DataDef.Parsing.C89_total",
    "Verif.DataDef.Parsing.C89_witness_exponent"
   ],
   "note": "Every well-formed operand is read as its parts without a diagnostic, in either case of letters, and reading never has undefined behaviour; the exception, an exponent modifier directly behind the type, is exhibited."
  },
  {
   "property": "C90",
   "status": "partial",
   "theorems": [
    "Verif.DataDef.C90_attributes_partial",
    "Verif.DataDef.C90_witness_decimal"
   ],
   "note": "Partial: S-attribute of decimal constants is 0 (witness); blanks in decimal constants excluded."
  },
  {
   "property": "C91",
   "status": "partial",
   "theorems": [
    "Verif.DataDef.Parsing.C91_reported_partial",
    "Verif.DataDef.Parsing.C91_witness_bare"
   ],
   "note": "Whatever is read without a diagnostic is a well-formed operand read as its parts, unless a modifier letter without a value stands before another modifier; that such an operand is not reported is exhibited."
  },
  {
   "property": "C92",
   "status": "partial",
   "theorems": [
    "Verif.Mach.C92_exact",
    "Verif.Mach.C92_limits",
    "Verif.Mach.C92_limits_address",
    "Verif.Mach.C92_operand_partial",
    "Verif.Mach.C92_ranges",
    "Verif.Mach.C92_statement",
    "Verif.Mach.C92_statement_partial",
    "Verif.Mach.C92_undefined",
    "Verif.Mach.C92_witness_index",
    "Verif.Mach.C92_witness_length",
    "Verif.Mach.C92_witness_reloc"
   ],
   "note": "proved for operands without a lone index or length and with absolute values in parentheses; the exact set accepted is C92_exact; witnesses show what is accepted wrongly"
  },
  {
   "property": "C93",
   "status": "partial",
   "theorems": [
    "Verif.Mach.C93_accept_partial",
    "Verif.Mach.C93_count",
    "Verif.Mach.C93_diagnostics_partial",
    "Verif.Mach.C93_fixed",
    "Verif.Mach.C93_never",
    "Verif.Mach.C93_storage",
    "Verif.Mach.C93_witness_optional"
   ],
   "note": "proved for mnemonics of instructions without optional operands; the others are never accepted (C93_never)"
  },
  {
   "property": "C94",
   "status": "partial",
   "theorems": [
    "Verif.Mach.C94_no_fault_partial",
    "Verif.Mach.C94_witness"
   ],
   "note": "all opcodes but six; C94_witness gives the six"
  },
  {
   "property": "C95",
   "status": "partial",
   "theorems": [
    "Verif.Mach.C95_fields_partial",
    "Verif.Mach.C95_layout",
    "Verif.Mach.C95_no_gaps",
    "Verif.Mach.C95_room_partial",
    "Verif.Mach.C95_size_partial",
    "Verif.Mach.C95_two_bytes_partial",
    "Verif.Mach.C95_witness_fields",
    "Verif.Mach.C95_witness_operands",
    "Verif.Mach.C95_witness_registers",
    "Verif.Mach.C95_witness_size"
   ],
   "note": "layout and sizes proved for every program; the operands of ten table entries are not those of their format, four entries have a wrong size"
  },
  {
   "property": "C96",
   "status": "partial",
   "theorems": [
    "Verif.Lsp.Uri.C96_back_partial",
    "Verif.Lsp.Uri.C96_distinct_partial",
    "Verif.Lsp.Uri.C96_foreign",
    "Verif.Lsp.Uri.C96_untitled",
    "Verif.Lsp.Uri.C96_windows_drive_partial",
    "Verif.Lsp.Uri.C96_windows_share_partial",
    "Verif.Lsp.Uri.C96_witness_backslash",
    "Verif.Lsp.Uri.C96_witness_percent",
    "Verif.Lsp.Uri.C96_witness_same"
   ],
   "note": "proved for paths without per cent sign and, on Linux, backslash, on both platforms; the normalisation of std::filesystem is a parameter; witnesses for the rest"
  },
  {
   "property": "C97",
   "status": "partial",
   "theorems": [
    "Verif.Mach.C97_patterns_partial",
    "Verif.Mach.C97_refused",
    "Verif.Mach.C97_witness"
   ],
   "note": "proved for the entries with unsigned operands; the others refuse half of the values (C97_refused)"
  },
  {
   "property": "C98",
   "status": "proved",
   "theorems": [
    "Verif.MacroDef.C98_copy",
    "Verif.MacroDef.C98_definition",
    "Verif.MacroDef.C98_depth",
    "Verif.MacroDef.C98_unfinished"
   ],
   "note": "the whole loop of the processor, with cyclic members; the statements themselves are opaque"
  },
  {
   "property": "C99",
   "status": "proved",
   "theorems": [
    "Verif.MacroDef.C99_branch",
    "Verif.MacroDef.C99_duplicates",
    "Verif.MacroDef.C99_missing"
   ],
   "note": "branch targets, missing symbols and duplicates, for every body and library"
  },
  {
   "property": "C53",
   "status": "partial",
   "theorems": [
    "Verif.MacroDef.C53_own_file_partial",
    "Verif.MacroDef.C53_witness"
   ],
   "note": "the file of the definition is proved; the lines of copied members are wrong (C53_witness)"
  },
  {
   "property": "C59",
   "status": "partial",
   "theorems": [
    "Verif.MacroDef.C59_finished_partial",
    "Verif.MacroDef.C59_outside_iff",
    "Verif.MacroDef.C59_witness"
   ],
   "note": "finished definitions proved; C59_outside_iff says exactly which unfinished ones read outside"
  },
  {
   "property": "C78",
   "status": "partial",
   "theorems": [
    "Verif.MacroDef.C78_distinct",
    "Verif.MacroDef.C78_operand_partial",
    "Verif.MacroDef.C78_parameters",
    "Verif.MacroDef.C78_witness",
    "Verif.MacroDef.C78_witness_syslist"
   ],
   "note": "names distinct and exact parameters for well-formed prototypes; every other operand is reported except those of a single piece that is no variable symbol"
  },
  {
   "property": "C79",
   "status": "partial",
   "theorems": [
    "Verif.MacroDef.C79_concatenation",
    "Verif.MacroDef.C79_operands_partial",
    "Verif.MacroDef.C79_parameter_partial",
    "Verif.MacroDef.C79_reported",
    "Verif.MacroDef.C79_witness_list",
    "Verif.MacroDef.C79_witness_unknown"
   ],
   "note": "texts, positions and reports proved for all operands; excluded are variable symbols behind unknown keywords, the commas of C35 and the splitting of composed texts (witnesses)"
  },
  {
   "property": "C100",
   "status": "partial",
   "theorems": [
    "Verif.Ord.C100_accepted_partial",
    "Verif.Ord.C100_counter_partial",
    "Verif.Ord.C100_highest",
    "Verif.Ord.C100_location",
    "Verif.Ord.C100_reported_partial",
    "Verif.Ord.C100_witness_difference",
    "Verif.Ord.C100_witness_form",
    "Verif.Ord.C100_witness_highest",
    "Verif.Ord.C100_witness_minus",
    "Verif.Ord.C100_witness_more",
    "Verif.Ord.C100_witness_offset"
   ],
   "note": "Counter after any history of reservations and ORG; operands meant and accepted. Violated by ORG with negative third operand, A-B, 6-A, operands of other forms and a fourth operand (witnesses). Missing: ORG among gaps of unknown length."
  },
  {
   "property": "C101",
   "status": "partial",
   "theorems": [
    "Verif.Ord.C101_layout_partial",
    "Verif.Ord.C101_witness_org",
    "Verif.Ord.C101_witness_pending"
   ],
   "note": "Locations equal those of the regrouped program for one section under the assumptions of C52. Violated after ORG and, with several sections, when a gap stays open (witnesses)."
  },
  {
   "property": "C102",
   "status": "partial",
   "theorems": [
    "Verif.AsmCheck.C102_accepted_partial",
    "Verif.AsmCheck.C102_adata_witness",
    "Verif.AsmCheck.C102_alias_hexadecimal_negation",
    "Verif.AsmCheck.C102_alias_witness",
    "Verif.AsmCheck.C102_ccw_witness",
    "Verif.AsmCheck.C102_drop_witness",
    "Verif.AsmCheck.C102_ictl_witness",
    "Verif.AsmCheck.C102_iseq_witness",
    "Verif.AsmCheck.C102_length_witness",
    "Verif.AsmCheck.C102_message",
    "Verif.AsmCheck.C102_optable_witness",
    "Verif.AsmCheck.C102_part_witness",
    "Verif.AsmCheck.C102_place",
    "Verif.AsmCheck.C102_reported",
    "Verif.AsmCheck.C102_shown_witness",
    "Verif.AsmCheck.C102_silent_partial",
    "Verif.AsmCheck.C102_zero_witness"
   ],
   "note": "C102_accepted_partial: the checks of 25 classes of assembler instructions accept exactly what the messages ask for, outside the operands in Quirk; each case in it has a witness. C102_reported, C102_place: one message per refused statement, at a place that exists (ALIAS and ADATA excepted for the number). C102_alias_hexadecimal_negation: no hexadecimal ALIAS is ever accepted."
  },
  {
   "property": "C103",
   "status": "partial",
   "theorems": [
    "Verif.Client.C103_backspace_partial",
    "Verif.Client.C103_before_continuation_witness",
    "Verif.Client.C103_cut_nothing",
    "Verif.Client.C103_delete",
    "Verif.Client.C103_delete_selection_partial",
    "Verif.Client.C103_first_column_witness",
    "Verif.Client.C103_over_continuation_witness",
    "Verif.Client.C103_plain",
    "Verif.Client.C103_plain_cursor",
    "Verif.Client.C103_replacing_negation",
    "Verif.Client.C103_replacing_partial",
    "Verif.Client.C103_selection_partial",
    "Verif.Client.C103_typing",
    "Verif.Client.C103_typing_loss_witness",
    "Verif.Client.C103_typing_negation",
    "Verif.Client.C103_typing_partial"
   ],
   "note": "Proved: what each deleting command does on a continued line (backspace, delete, cut, cursor or selection), that the continuation stays in its column, typing with at least one blank more than characters, typing over a selection, default behaviour elsewhere. It fails, with witnesses, in the first column, directly before the continuation, over the continuation, with exactly as many blanks as characters (a character is lost), and when replacing text in a full line."
  },
  {
   "property": "C104",
   "status": "partial",
   "theorems": [
    "Verif.Client.C104_add",
    "Verif.Client.C104_add_continued",
    "Verif.Client.C104_add_negation",
    "Verif.Client.C104_long_line",
    "Verif.Client.C104_remove",
    "Verif.Client.C104_remove_nothing",
    "Verif.Client.C104_round_trip",
    "Verif.Client.C104_round_trip_continued_partial",
    "Verif.Client.C104_sequence_witness"
   ],
   "note": "Proved: the text after adding and removing a continuation, and the round trip. It fails, with witnesses, for lines with text behind the continuation column (sequence numbers)."
  },
  {
   "property": "C105",
   "status": "partial",
   "theorems": [
    "Verif.LspCtx.C105_choice_partial",
    "Verif.LspCtx.C105_comment",
    "Verif.LspCtx.C105_elsewhere_partial",
    "Verif.LspCtx.C105_instruction_partial",
    "Verif.LspCtx.C105_list_partial",
    "Verif.LspCtx.C105_symbols",
    "Verif.LspCtx.C105_witness",
    "Verif.LspCtx.C105_witness_empty",
    "Verif.LspCtx.C105_witness_macro"
   ],
   "note": "Exact language of the suggestion; differs from the instruction field behind labels, in first operands, and fails on the empty last line (witnesses)."
  },
  {
   "property": "C106",
   "status": "partial",
   "theorems": [
    "Verif.LspCtx.C106_documentation_partial",
    "Verif.LspCtx.C106_witness"
   ],
   "note": "Fails for a macro definition that reaches the empty last line of its file (witness)."
  },
  {
   "property": "C107",
   "status": "partial",
   "theorems": [
    "Verif.Attr.C107_count_partial",
    "Verif.Attr.C107_defined",
    "Verif.Attr.C107_known",
    "Verif.Attr.C107_lookahead",
    "Verif.Attr.C107_lookahead_unreadable",
    "Verif.Attr.C107_lookahead_variable_partial",
    "Verif.Attr.C107_no_symbol_partial",
    "Verif.Attr.C107_not_text",
    "Verif.Attr.C107_number_param",
    "Verif.Attr.C107_number_set",
    "Verif.Attr.C107_opcode_partial",
    "Verif.Attr.C107_substituted",
    "Verif.Attr.C107_symbol",
    "Verif.Attr.C107_type_list",
    "Verif.Attr.C107_type_number",
    "Verif.Attr.C107_type_partial",
    "Verif.Attr.C107_ub_partial",
    "Verif.Attr.C107_unique",
    "Verif.Attr.C107_unknown",
    "Verif.Attr.C107_unreadable",
    "Verif.Attr.C107_witness_array",
    "Verif.Attr.C107_witness_hollow",
    "Verif.Attr.C107_witness_list",
    "Verif.Attr.C107_witness_lookahead",
    "Verif.Attr.C107_witness_opsyn",
    "Verif.Attr.C107_witness_syslist"
   ],
   "note": "Proved for all values but those where the code fails: elements of SETC arrays (T' off by one), values that are parentheses around nothing (undefined), lists whose first symbol is found by looking ahead, names changed by OPSYN, &SYSLIST without subscript, looking ahead through expressions; each with a witness. The claim that other texts have type U is stated for texts without digits and apostrophes."
  },
  {
   "property": "C108",
   "status": "partial",
   "theorems": [
    "Verif.Ahead.C108_code",
    "Verif.Ahead.C108_data_length",
    "Verif.Ahead.C108_data_numeric",
    "Verif.Ahead.C108_data_scale",
    "Verif.Ahead.C108_data_type",
    "Verif.Ahead.C108_equ_implied",
    "Verif.Ahead.C108_equ_length",
    "Verif.Ahead.C108_equ_one",
    "Verif.Ahead.C108_equ_open",
    "Verif.Ahead.C108_equ_type",
    "Verif.Ahead.C108_forward_partial",
    "Verif.Ahead.C108_location",
    "Verif.Ahead.C108_registered",
    "Verif.Ahead.C108_search",
    "Verif.Ahead.C108_search_keeps",
    "Verif.Ahead.C108_search_missing",
    "Verif.Ahead.C108_search_only",
    "Verif.Ahead.C108_witness_equ_scale",
    "Verif.Ahead.C108_witness_integer",
    "Verif.Ahead.C108_witness_length",
    "Verif.Ahead.C108_witness_location",
    "Verif.Ahead.C108_witness_org",
    "Verif.Ahead.C108_witness_silent"
   ],
   "note": "C108_forward_partial leaves out ORG labels, I' of scaled data and S'/I' of EQU symbols: the witnesses show that they differ. Macro calls and copy members met by the search are not modelled."
  },
  {
   "property": "C109",
   "status": "partial",
   "theorems": [
    "Verif.Mention.C109_calls",
    "Verif.Mention.C109_collected_partial",
    "Verif.Mention.C109_copy",
    "Verif.Mention.C109_copyInMacro",
    "Verif.Mention.C109_declared",
    "Verif.Mention.C109_definition",
    "Verif.Mention.C109_files",
    "Verif.Mention.C109_inMacro_partial",
    "Verif.Mention.C109_open_partial",
    "Verif.Mention.C109_plain",
    "Verif.Mention.C109_witness_inner",
    "Verif.Mention.C109_witness_parts",
    "Verif.Mention.C109_witness_string",
    "Verif.Mention.C109_witness_subscript",
    "Verif.Mention.C109_witness_twice"
   ],
   "note": "Exact account of what is recorded: everything written except mentions in subscripts and character strings (not recorded, witnesses), plus parts of names made with variable symbols (recorded although no symbols, witness). Exact equality when there are none (C109_plain). Repeated recording by macro calls and labels of inner MEND are witnessed."
  },
  {
   "property": "C110",
   "status": "partial",
   "theorems": [
    "Verif.Gram.C110_assembler_partial",
    "Verif.Gram.C110_complete",
    "Verif.Gram.C110_empty_partial",
    "Verif.Gram.C110_expression_partial",
    "Verif.Gram.C110_operand_partial",
    "Verif.Gram.C110_operands_partial",
    "Verif.Gram.C110_unique_partial",
    "Verif.Gram.C110_witness_literal",
    "Verif.Gram.C110_witness_minus",
    "Verif.Gram.C110_witness_qualifier"
   ],
   "note": "Expressions, machine operands, lists of operands of machine and assembler instructions and data definitions, for all texts without literals. With literals the grammar is ambiguous (witnesses). Trusted: the parser generated by ANTLR finds a parse tree of the text."
  },
  {
   "property": "C111",
   "status": "partial",
   "theorems": [
    "Verif.Syntax.C111_balanced",
    "Verif.Syntax.C111_first",
    "Verif.Syntax.C111_mismatch",
    "Verif.Syntax.C111_reported",
    "Verif.Syntax.C111_tokens_witness"
   ],
   "note": "Proved for every token list: exactly one message, the first in the order whose claim about the tokens holds, balanced parentheses against an inductive specification. The claims are about tokens, not about the language (witness: strings, numbers, literals, location counter). Precondition: the error does not begin at the end-of-line token that is the very first token of the stream."
  },
  {
   "property": "C112",
   "status": "partial",
   "theorems": [
    "Verif.Subst.C112_after_witness",
    "Verif.Subst.C112_always",
    "Verif.Subst.C112_ampersands_witness",
    "Verif.Subst.C112_before_witness",
    "Verif.Subst.C112_crash_witness",
    "Verif.Subst.C112_empty_witness",
    "Verif.Subst.C112_instruction_partial",
    "Verif.Subst.C112_keyword_witness",
    "Verif.Subst.C112_label_partial",
    "Verif.Subst.C112_macro_partial",
    "Verif.Subst.C112_operand_partial"
   ],
   "note": "Proved for every text in which all variable symbols have a name and, in operands of model statements, strings other than the one with the first variable symbol have no doubled quotes. Outside of that the code is wrong: C112_*_witness."
  },
  {
   "property": "C113",
   "status": "partial",
   "theorems": [
    "Verif.Message.C113_answers",
    "Verif.Message.C113_ask",
    "Verif.Message.C113_atomic",
    "Verif.Message.C113_change",
    "Verif.Message.C113_close",
    "Verif.Message.C113_completion",
    "Verif.Message.C113_configuration_witness",
    "Verif.Message.C113_configured",
    "Verif.Message.C113_configured_none",
    "Verif.Message.C113_definition",
    "Verif.Message.C113_error_witness",
    "Verif.Message.C113_exit",
    "Verif.Message.C113_folders",
    "Verif.Message.C113_folders_witness",
    "Verif.Message.C113_fresh",
    "Verif.Message.C113_hover",
    "Verif.Message.C113_ids",
    "Verif.Message.C113_initialize",
    "Verif.Message.C113_initialize_root",
    "Verif.Message.C113_missing_witness",
    "Verif.Message.C113_no_changes_witness",
    "Verif.Message.C113_notification_witness",
    "Verif.Message.C113_once",
    "Verif.Message.C113_open",
    "Verif.Message.C113_references",
    "Verif.Message.C113_robust_partial",
    "Verif.Message.C113_shutdown",
    "Verif.Message.C113_tokens",
    "Verif.Message.C113_unanswered_witness",
    "Verif.Message.C113_unasked",
    "Verif.Message.C113_unknown",
    "Verif.Message.C113_version_witness",
    "Verif.Message.C113_watched"
   ],
   "note": "Proved for every message that follows the protocol, and about answers, ids and effects for every JSON value. That malformed messages do no harm is proved only if the members the server reads are there (C113_robust_partial); without them the code is wrong: C113_*_witness."
  },
  {
   "property": "C114",
   "status": "partial",
   "theorems": [
    "Verif.Config.C114_bad_groups",
    "Verif.Config.C114_bad_programs",
    "Verif.Config.C114_effect",
    "Verif.Config.C114_groups_file",
    "Verif.Config.C114_groups_round_trip",
    "Verif.Config.C114_limit_witness",
    "Verif.Config.C114_programs_file",
    "Verif.Config.C114_programs_round_trip"
   ],
   "note": "Proved for every JSON value with distinct names of members; of pgm_conf.json only if its limit is no truth value, fraction or number beyond 32 bits (C114_limit_witness shows what happens then)."
  },
  {
   "property": "C115",
   "status": "partial",
   "theorems": [
    "Verif.DapMsg.C115_answers",
    "Verif.DapMsg.C115_breakpoints",
    "Verif.DapMsg.C115_disconnect",
    "Verif.DapMsg.C115_events",
    "Verif.DapMsg.C115_initialize",
    "Verif.DapMsg.C115_initialize_witness",
    "Verif.DapMsg.C115_launch",
    "Verif.DapMsg.C115_line_witness",
    "Verif.DapMsg.C115_not_live",
    "Verif.DapMsg.C115_others",
    "Verif.DapMsg.C115_robust_partial",
    "Verif.DapMsg.C115_scopes",
    "Verif.DapMsg.C115_session",
    "Verif.DapMsg.C115_silent_witness",
    "Verif.DapMsg.C115_stack",
    "Verif.DapMsg.C115_steps",
    "Verif.DapMsg.C115_unanswered_witness",
    "Verif.DapMsg.C115_uri_witness",
    "Verif.DapMsg.C115_variables",
    "Verif.DapMsg.C115_whole"
   ],
   "note": "Proved for every request that follows the protocol, and about answers, effects and the lifetime of the debugger for every JSON value with distinct names of members. That malformed requests do not end the program is proved only if the members the adapter reads are there and paths can be converted (C115_robust_partial); without them the code is wrong: C115_*_witness."
  },
  {
   "property": "C116",
   "status": "partial",
   "theorems": [
    "Verif.ProcOpt.C116_described_partial",
    "Verif.ProcOpt.C116_ends",
    "Verif.ProcOpt.C116_ends_witness",
    "Verif.ProcOpt.C116_fail_witness",
    "Verif.ProcOpt.C116_flag_witness",
    "Verif.ProcOpt.C116_loose_witness",
    "Verif.ProcOpt.C116_place_witness",
    "Verif.ProcOpt.C116_refused",
    "Verif.ProcOpt.C116_taken"
   ],
   "note": "What is taken, what is refused with which message at which place, and what ends the program are proved exactly. The rules applied differ from those described: described options are taken but for FAIL with parameters (C116_described_partial, C116_fail_witness), others are taken as well (C116_loose_witness), and some end the program (C116_ends_witness)."
  },
  {
   "property": "C118",
   "status": "partial",
   "theorems": [
    "Verif.Help.C118_assembler",
    "Verif.Help.C118_conditional",
    "Verif.Help.C118_determines_partial",
    "Verif.Help.C118_inserted",
    "Verif.Help.C118_machine_partial",
    "Verif.Help.C118_mnemonic_inserted_partial",
    "Verif.Help.C118_mnemonic_partial",
    "Verif.Help.C118_named",
    "Verif.Help.C118_notation",
    "Verif.Help.C118_one_kind",
    "Verif.Help.C118_readable",
    "Verif.Help.C118_repeats",
    "Verif.Help.C118_taken_partial",
    "Verif.Help.C118_total",
    "Verif.Help.C118_unknown",
    "Verif.Help.C118_witness_brackets",
    "Verif.Help.C118_witness_lost"
   ],
   "note": "Exact for machine instructions but IPTE and for mnemonics of instructions without optional operands, with what is accepted (C118_determines_partial, C118_taken_partial) and the notation of every operand and format (C118_notation). The help for IPTE and for 92 mnemonics is wrong: C118_witness_brackets, C118_witness_lost."
  },
  {
   "property": "C117",
   "status": "partial",
   "theorems": [
    "Verif.Define.C117_kind",
    "Verif.Define.C117_open",
    "Verif.Define.C117_over",
    "Verif.Define.C117_place_partial",
    "Verif.Define.C117_scope",
    "Verif.Define.C117_sequence",
    "Verif.Define.C117_text_partial",
    "Verif.Define.C117_undefined",
    "Verif.Define.C117_variable",
    "Verif.Define.C117_witness_member",
    "Verif.Define.C117_witness_nested",
    "Verif.Define.C117_witness_sign"
   ],
   "note": "C117_variable, C117_sequence, C117_scope, C117_open, C117_undefined are full; C117_place_partial assumes for COPY operands that the file was read first as the member (C117_witness_member); C117_text_partial excludes relocatable values with sections counted less than once or without a name (C117_witness_sign); definitions inside expansions: C117_witness_nested"
  },
  {
   "property": "C119",
   "status": "partial",
   "theorems": [
    "Verif.Exec.C119_defined",
    "Verif.Exec.C119_limit",
    "Verif.Exec.C119_order_partial",
    "Verif.Exec.C119_related_partial",
    "Verif.Exec.C119_turn",
    "Verif.Exec.C119_witness_copy",
    "Verif.Exec.C119_witness_limit"
   ],
   "note": "Order, stacks, termination and the place of diagnostics for all programs without branches whose macros execute no COPY. With such a COPY the claim fails (C119_witness_copy); the diagnostic of the nest limit is misplaced (C119_witness_limit). Macros defined by C98 satisfy the hypothesis (C119_defined)."
  },
  {
   "property": "C120",
   "status": "partial",
   "theorems": [
    "Verif.Fresh.C120_answers_partial",
    "Verif.Fresh.C120_defined",
    "Verif.Fresh.C120_edited_partial",
    "Verif.Fresh.C120_witness_broken",
    "Verif.Fresh.C120_witness_created",
    "Verif.Fresh.C120_witness_disk",
    "Verif.Fresh.C120_witness_orphan",
    "Verif.Fresh.C120_witness_shared",
    "Verif.Fresh.C120_witness_unsaved",
    "Verif.Fresh.C120_witness_unsaved_stays"
   ],
   "note": "For quiet histories (documents saved before closing, no change on the disk of files in use, nothing changed that was asked for in vain) and programs apart from members. Outside of them the claim fails: C120_witness_unsaved, _disk, _created, _broken, _orphan, _shared."
  },
  {
   "property": "C121",
   "status": "partial",
   "theorems": [
    "Verif.CaEval.C121_accepted_partial",
    "Verif.CaEval.C121_value_partial",
    "Verif.CaEval.C121_witness_arithmetic",
    "Verif.CaEval.C121_witness_attribute",
    "Verif.CaEval.C121_witness_function",
    "Verif.CaEval.C121_witness_logical",
    "Verif.CaEval.C121_witness_operator",
    "Verif.CaEval.C121_witness_parameter",
    "Verif.CaEval.C121_witness_refused",
    "Verif.CaEval.C121_witness_type",
    "Verif.CaEval.C121_witness_variable"
   ],
   "note": "For resolved expressions without what the code leaves unchecked (predicate ok), and acceptance where character expressions are recognised (predicate handled). Outside of them the claim fails: C121_witness_*."
  },
  {
   "property": "C122",
   "status": "partial",
   "theorems": [
    "Verif.CaStmt.C122_clock",
    "Verif.CaStmt.C122_program_partial",
    "Verif.CaStmt.C122_witness_aread",
    "Verif.CaStmt.C122_witness_global",
    "Verif.CaStmt.C122_witness_missing",
    "Verif.CaStmt.C122_witness_name",
    "Verif.CaStmt.C122_witness_omitted",
    "Verif.CaStmt.C122_witness_operand",
    "Verif.CaStmt.C122_witness_several"
   ],
   "note": "For programs of statements that are Regular; what that leaves out is violated (C122_witness_*), except that macro parameters named like system variables are excluded, too."
  },
  {
   "property": "C123",
   "status": "partial",
   "theorems": [
    "Verif.Sect.C123_date",
    "Verif.Sect.C123_program_partial",
    "Verif.Sect.C123_witness_equ",
    "Verif.Sect.C123_witness_loctr",
    "Verif.Sect.C123_witness_name",
    "Verif.Sect.C123_witness_start",
    "Verif.Sect.C123_witness_unnamed"
   ],
   "note": "C123_program_partial is for programs of Regular statements: without START, invalid or missing names, EQU before the first section, unnamed sections of different kinds; the claim fails for these (C123_witness_*). C123_date is complete."
  },
  {
   "property": "C124",
   "status": "partial",
   "theorems": [
    "Verif.Detect.C124_language",
    "Verif.Detect.C124_origin",
    "Verif.Detect.C124_prompt",
    "Verif.Detect.C124_recognised_partial",
    "Verif.Detect.C124_wildcard",
    "Verif.Detect.C124_without_programs",
    "Verif.Detect.C124_witness_absolute",
    "Verif.Detect.C124_witness_bare",
    "Verif.Detect.C124_witness_crlf",
    "Verif.Detect.C124_witness_folder",
    "Verif.Detect.C124_witness_long",
    "Verif.Detect.C124_witness_macro",
    "Verif.Detect.C124_witness_malformed",
    "Verif.Detect.C124_witness_removed",
    "Verif.Detect.C124_witness_subdirectory",
    "Verif.Detect.C124_witness_track",
    "Verif.Detect.C124_witness_unnoticed"
   ],
   "note": "C124_recognised_partial leaves out, by hypotheses, the cases in which the code differs from the documentation (C124_witness_*). C124_wildcard, C124_language, C124_prompt and C124_origin hold for every state and history."
  },
  {
   "property": "C125",
   "status": "partial",
   "theorems": [
    "Verif.Suppress.C125_configured",
    "Verif.Suppress.C125_hidden_partial",
    "Verif.Suppress.C125_message",
    "Verif.Suppress.C125_witness_given",
    "Verif.Suppress.C125_witness_limit",
    "Verif.Suppress.C125_witness_taken"
   ],
   "note": "C125_hidden_partial: between changes of the configuration and the setting; these are not applied to programs already analysed (C125_witness_taken, C125_witness_given, C125_witness_limit). C125_configured and C125_message hold for every history."
  },
  {
   "property": "C126",
   "status": "partial",
   "theorems": [
    "Verif.Colour.C126_colours_partial",
    "Verif.Colour.C126_elsewhere_partial",
    "Verif.Colour.C126_empty",
    "Verif.Colour.C126_legend",
    "Verif.Colour.C126_tokens",
    "Verif.Colour.C126_witness_empty",
    "Verif.Colour.C126_witness_language"
   ],
   "note": "C126_colours_partial and C126_elsewhere_partial: for histories in which answers are not empty and languages change only while the document is not shown; otherwise old colours stay (C126_witness_language, C126_witness_empty). C126_tokens and C126_legend connect the answer with the tokens and the settings."
  },
  {
   "property": "C127",
   "status": "partial",
   "theorems": [
    "Verif.Asked.C127_complete_partial",
    "Verif.Asked.C127_needed",
    "Verif.Asked.C127_rounds_partial",
    "Verif.Asked.C127_witness_leading",
    "Verif.Asked.C127_witness_string"
   ],
   "note": "C127_complete_partial and C127_rounds_partial: for statements without attribute references inside strings and for variables whose values name a symbol only by being its name; otherwise the lookup is missed (C127_witness_string, C127_witness_leading). C127_needed holds in general."
  },
  {
   "property": "C128",
   "status": "partial",
   "theorems": [
    "Verif.Circle.C128_label_partial",
    "Verif.Circle.C128_search",
    "Verif.Circle.C128_witness_absolute"
   ],
   "note": "C128_search: full, for the search; C128_label_partial: definitions with relocatable values; those with absolute values are not checked (C128_witness_absolute)."
  },
  {
   "property": "C129",
   "status": "partial",
   "theorems": [
    "Verif.Seek.C129_ahead",
    "Verif.Seek.C129_asked_partial",
    "Verif.Seek.C129_branch_partial",
    "Verif.Seek.C129_ends",
    "Verif.Seek.C129_witness_copy",
    "Verif.Seek.C129_witness_macro",
    "Verif.Seek.C129_witness_null"
   ],
   "note": "C129_ends, C129_ahead: full. C129_asked_partial, C129_branch_partial: all histories of searches in programs that do not branch backwards, have no label at MACRO and COPY statements and no COPY operand that is no expression; the witnesses show what happens otherwise."
  },
  {
   "property": "C130",
   "status": "partial",
   "theorems": [
    "Verif.Pieces.C130_blocked_negation",
    "Verif.Pieces.C130_proxy_partial",
    "Verif.Pieces.C130_server",
    "Verif.Pieces.C130_server_reads",
    "Verif.Pieces.C130_thrown_negation",
    "Verif.Pieces.C130_witness_forever",
    "Verif.Pieces.C130_written"
   ],
   "note": "C130_server, C130_server_reads, C130_written: full for messages that begin with the length. C130_proxy_partial: all messages are JSON. The negations and the witness show what stops the readers."
  },
  {
   "property": "C131",
   "status": "partial",
   "theorems": [
    "Verif.Gen.C131_label_negation",
    "Verif.Gen.C131_program_partial",
    "Verif.Gen.C131_program_unique_partial"
   ],
   "note": "Full for programs in whose open code no macro call, undefined operation, MEXIT, MEND or MACRO carries a sequence symbol (C131_label_negation shows what happens otherwise); E045 is compared only if the sequence symbols of the open code are unique (C131_program_unique_partial)."
  },
  {
   "property": "C132",
   "status": "partial",
   "theorems": [
    "Verif.Whole.C132_values_solve_partial",
    "Verif.Whole.C132_witness_offset",
    "Verif.Whole.C132_witness_sign"
   ],
   "note": "For programs in which sums and differences mention at most two places and in which, behind data of a length that is not a constant, EQU makes symbols numbers or copies of a place; the code violates the property otherwise (C132_witness_offset, C132_witness_sign). One section, no ORG, no attributes."
  },
  {
   "property": "C133",
   "status": "partial",
   "theorems": [
    "Verif.Stream.C133_ahead_partial",
    "Verif.Stream.C133_reading",
    "Verif.Stream.C133_text",
    "Verif.Stream.C133_tokens",
    "Verif.Stream.C133_witness_ahead"
   ],
   "note": "Full for looking at the next token and at earlier ones, reading, filtering and going back (C133_tokens, C133_reading, C133_text); looking further ahead is right only if no filtered token is in between (C133_ahead_partial), which the code violates otherwise (C133_witness_ahead)."
  },
  {
   "property": "C134",
   "status": "partial",
   "theorems": [
    "Verif.Whole.C134_assembled_partial",
    "Verif.Whole.C134_complete_partial",
    "Verif.Whole.C134_never_stuck_partial",
    "Verif.Whole.C134_not_endless_partial",
    "Verif.Whole.C134_order_partial",
    "Verif.Whole.C134_total_partial",
    "Verif.Whole.C134_unique_partial"
   ],
   "note": "For every program with a careful solution (products and quotients of numbers, addresses through unresolved gaps only as plain sums; C132 has witnesses of what the code does otherwise): any two finished runs agree (C134_order_partial), all finished runs give the values of the equations (C134_unique_partial), with a ranking of the definitions every run that ends leaves nothing over (C134_complete_partial), no circle is reported (C134_assembled_partial), and if moreover the numbers fit into 32 bits there is a run and every run ends well, with the values of the solution (C134_total_partial); from every state reached it can go on to the end (C134_never_stuck_partial), and no order of resolution goes on for ever (C134_not_endless_partial). Missing: several sections, ORG and attributes; programs that are not careful."
  },
  {
   "property": "C135",
   "status": "partial",
   "theorems": [
    "Verif.Path.C135_config",
    "Verif.Path.C135_drive_partial",
    "Verif.Path.C135_drive_witness",
    "Verif.Path.C135_entry_negation",
    "Verif.Path.C135_entry_witness",
    "Verif.Path.C135_idempotent",
    "Verif.Path.C135_library",
    "Verif.Path.C135_library_same",
    "Verif.Path.C135_library_witness",
    "Verif.Path.C135_member",
    "Verif.Path.C135_place",
    "Verif.Path.C135_program",
    "Verif.Path.C135_relative",
    "Verif.Path.C135_remote_partial",
    "Verif.Path.C135_same",
    "Verif.Path.C135_windows_absolute_partial",
    "Verif.Path.C135_windows_library_partial",
    "Verif.Path.C135_windows_program"
   ],
   "note": "Linux: the normal form names the same place (C135_place), is its own normal form (C135_idempotent), and decides whether two absolute paths name one place (C135_same); libraries are where their path read in the workspace leads (C135_library, C135_library_same); relative paths lead back (C135_relative); a program is looked for under its path from the workspace and no other plain one (C135_program). Violated: entries of pgm_conf.json not in normal form match no program (C135_entry_negation). Windows paths under Emscripten: drives and shares as long as `..` does not go above the root (C135_drive_partial, C135_remote_partial, C135_windows_library_partial, C135_windows_absolute_partial, witnesses of the rest), programs (C135_windows_program), libraries (C135_windows_library_partial). The configuration file is recognised by its place (C135_config), members of libraries by their name (C135_member). std::filesystem is modelled by the standard's algorithms."
  },
  {
   "property": "C136",
   "status": "partial",
   "theorems": [
    "Verif.Report.C136_assembler_negation",
    "Verif.Report.C136_assembler_partial",
    "Verif.Report.C136_assembler_witness",
    "Verif.Report.C136_collect",
    "Verif.Report.C136_data_negation",
    "Verif.Report.C136_data_witness",
    "Verif.Report.C136_equ_negation",
    "Verif.Report.C136_equ_twice_negation",
    "Verif.Report.C136_equ_witness",
    "Verif.Report.C136_machine",
    "Verif.Report.C136_published",
    "Verif.Report.C136_undefined",
    "Verif.Report.C136_using_negation",
    "Verif.Report.C136_using_witness"
   ],
   "note": "Machine instructions: every mistake of the operands' expressions exactly once, by the values when all symbols are known, and the statement left as parsed (C136_machine); with a symbol that stays undefined one message and what is before it (C136_undefined); other assembler instructions when symbols are known (C136_assembler_partial); any tree of collectors delivers every message once (C136_collect); every publication has all messages and leaves them for the next (C136_published). Violated: DC/DS never report them, EQU reports none unless definitions are given up and then those in length and type twice, assembler instructions with forward references report nothing, USING pairs are not looked at (C136_*_negation with witnesses). ORG and section instructions not modelled."
  },
  {
   "property": "C137",
   "status": "partial",
   "theorems": [
    "Verif.Collect.C137_ahead_negation",
    "Verif.Collect.C137_ahead_witness",
    "Verif.Collect.C137_fields_partial",
    "Verif.Collect.C137_range"
   ],
   "note": "C137_fields_partial: all histories in which searches ahead meet only lines with an instruction; for the others the code reads an empty optional (C137_ahead_negation, C137_ahead_witness). What the grammar finds in a line is an input (C76, C110, C112, C133 are about that)."
  },
  {
   "property": "C138",
   "status": "partial",
   "theorems": [
    "Verif.Session.C138_documents",
    "Verif.Session.C138_load_negation",
    "Verif.Session.C138_member",
    "Verif.Session.C138_race_witness",
    "Verif.Session.C138_refresh_negation",
    "Verif.Session.C138_reload_negation",
    "Verif.Session.C138_reload_witness",
    "Verif.Session.C138_texts",
    "Verif.Session.C138_undisturbed_partial"
   ],
   "note": "Texts, documents and lookups are proved for every interleaving (C138_texts, C138_documents, C138_member). That a session never fails is violated: C138_undisturbed_partial gives the complete list of what disturbs it, C138_{reload,refresh,load}_negation and the witnesses show that these do."
  },
  {
   "property": "C139",
   "status": "partial",
   "theorems": [
    "Verif.Broken.C139_all_partial",
    "Verif.Broken.C139_broken_off_witness",
    "Verif.Broken.C139_conf_opened_witness",
    "Verif.Broken.C139_conf_witness",
    "Verif.Broken.C139_member_witness",
    "Verif.Broken.C139_negation",
    "Verif.Broken.C139_one_partial",
    "Verif.Broken.C139_only_partial",
    "Verif.Broken.C139_own_member_witness",
    "Verif.Broken.C139_own_name_witness",
    "Verif.Broken.C139_stuck_negation"
   ],
   "note": "For one document, any members and any schedule everything is proved: order, no failure, complete analysis of the current text, and that all messages are carried out (C139_one_partial, C139_all_partial). For any number of documents C139_only_partial gives the one way in which the server fails; C139_broken_off_witness and C139_negation show that it does. Two more failures outside the hypotheses: C139_conf_witness, C139_own_name_witness."
  },
  {
   "property": "C140",
   "status": "partial",
   "theorems": [
    "Verif.DataDef.C140_empty_witness",
    "Verif.DataDef.C140_masked_witness",
    "Verif.DataDef.C140_narrowed_witness",
    "Verif.DataDef.C140_once",
    "Verif.DataDef.C140_parts_partial",
    "Verif.DataDef.C140_refused",
    "Verif.DataDef.C140_relocatable_witness",
    "Verif.DataDef.C140_says_partial",
    "Verif.DataDef.C140_statement",
    "Verif.DataDef.C140_together_partial",
    "Verif.DataDef.C140_twice_witness",
    "Verif.DataDef.C140_where_partial"
   ],
   "note": "Refusal = an error (C140_refused) and independence of the operands of a statement (C140_statement) hold without hypotheses. That the messages are about exactly the mistakes there are (C140_parts_partial), that what they say is true (C140_says_partial), and the joint size (C140_together_partial) need modifiers with absolute values in the range of their fields; the length of address constants is looked at only if their values are expressions. The witnesses show what happens otherwise."
  },
  {
   "property": "C141",
   "status": "partial",
   "theorems": [
    "Verif.SysVar.C141_assigned_witness",
    "Verif.SysVar.C141_count_witness",
    "Verif.SysVar.C141_declared_witness",
    "Verif.SysVar.C141_nest_partial",
    "Verif.SysVar.C141_open_code",
    "Verif.SysVar.C141_when_partial",
    "Verif.SysVar.C141_where_partial",
    "Verif.SysVar.C141_whole_witness"
   ],
   "note": "Holds for every history in which system variables are neither declared nor assigned and parameters are not named like them, and for years of four digits. Missing: the analysis does not refuse assignments to system variables (C141_assigned_witness) and declarations of their names (C141_declared_witness); &SYSMAC without subscript, and K' of it, are not as documented (C141_whole_witness, C141_count_witness)."
  },
  {
   "property": "C142",
   "status": "partial",
   "theorems": [
    "Verif.Waiting.C142_checked_partial",
    "Verif.Waiting.C142_late_negation",
    "Verif.Waiting.C142_late_witness",
    "Verif.Waiting.C142_messages_partial",
    "Verif.Waiting.C142_once_partial",
    "Verif.Waiting.C142_one_file_partial",
    "Verif.Waiting.C142_shown_partial",
    "Verif.Waiting.C142_unchecked_negation",
    "Verif.Waiting.C142_unchecked_witness"
   ],
   "note": "Machine instructions, DC and DS: exactly one check for each, shown where the statement was processed (C142_once_partial, C142_messages_partial, C142_shown_partial), for every history; without macros and COPY all messages are in the file of the program (C142_one_file_partial); which statements are checked in general is C142_checked_partial. Violated: an EQU or ORG that had to wait is not checked once its value is known (C142_unchecked_negation), and messages about the location of such an ORG are shown in the file that is processed when it is known (C142_late_negation)."
  }
 ]
}
