{
 "C01": {"note": "A fresh index is exact for every text; the incremental index is exact for edits that do not create or split a CRLF at the seam (NoSeam). For other edits the code is wrong: C01_negation, C01_witness*."},
 "C02": {"status": "proved", "note": "Positions inside lines map to the exact byte offset and every offset is reachable. C02_no_clamp_witness records that a column past the end of the line is not clamped to the line."},
 "C03": {"note": "Text refinement for edit histories whose edits are NoSeam; C03_witness shows the divergence otherwise."},
 "C04": {"note": "Well-formed input is unchanged, the result is idempotent and consists of groups the decoder accepts; overlong forms and surrogates pass the sanitiser unchanged (C04_overlong_*)."},
 "C05": {"note": "Contents of open documents are authoritative; snapshots given to readers are isolated except for the object conversion shown in C05_snapshot_witness."},
 "C06": {"status": "proved", "note": ""},
 "C07": {"note": "Malformed headers and bodies are skipped; the body of an oversize message stays in the stream (C07_oversize_injection)."},
 "C08": {"status": "proved", "note": "Any number of producers and consumers."},
 "C09": {"note": "Holds for one consumer, which is how the server uses the queue; fails for two (witnesses)."},
 "C10": {"note": "Order, exactly-once and completion hold for every schedule; closing returns early while a request of that server runs when the queue is empty (C10_finish_witness)."},
 "C100": {"status": "partial", "note": "Counter after any history of reservations and ORG; operands meant and accepted. Violated by ORG with negative third operand, A-B, 6-A, operands of other forms and a fourth operand (witnesses). Missing: ORG among gaps of unknown length."},
 "C101": {"status": "partial", "note": "Locations equal those of the regrouped program for one section under the assumptions of C52. Violated after ORG and, with several sections, when a gap stays open (witnesses)."},
 "C102": {"note": "C102_accepted_partial: the checks of 25 classes of assembler instructions accept exactly what the messages ask for, outside the operands in Quirk; each case in it has a witness. C102_reported, C102_place: one message per refused statement, at a place that exists (ALIAS and ADATA excepted for the number). C102_alias_hexadecimal_negation: no hexadecimal ALIAS is ever accepted.", "status": "partial"},
 "C103": {"status": "partial", "note": "Proved: what each deleting command does on a continued line (backspace, delete, cut, cursor or selection), that the continuation stays in its column, typing with at least one blank more than characters, typing over a selection, default behaviour elsewhere. It fails, with witnesses, in the first column, directly before the continuation, over the continuation, with exactly as many blanks as characters (a character is lost), and when replacing text in a full line."},
 "C104": {"status": "partial", "note": "Proved: the text after adding and removing a continuation, and the round trip. It fails, with witnesses, for lines with text behind the continuation column (sequence numbers)."},
 "C105": {"status": "partial", "note": "Exact language of the suggestion; differs from the instruction field behind labels, in first operands, and fails on the empty last line (witnesses)."},
 "C106": {"status": "partial", "note": "Fails for a macro definition that reaches the empty last line of its file (witness)."},
 "C107": {"status": "partial", "note": "Proved for all values but those where the code fails: elements of SETC arrays (T' off by one), values that are parentheses around nothing (undefined), lists whose first symbol is found by looking ahead, names changed by OPSYN, &SYSLIST without subscript, looking ahead through expressions; each with a witness. The claim that other texts have type U is stated for texts without digits and apostrophes."},
 "C108": {"note": "C108_forward_partial leaves out ORG labels, I' of scaled data and S'/I' of EQU symbols: the witnesses show that they differ. Macro calls and copy members met by the search are not modelled.", "status": "partial"},
 "C109": {"status": "partial", "note": "Exact account of what is recorded: everything written except mentions in subscripts and character strings (not recorded, witnesses), plus parts of names made with variable symbols (recorded although no symbols, witness). Exact equality when there are none (C109_plain). Repeated recording by macro calls and labels of inner MEND are witnessed."},
 "C11": {"note": "Start-cancelled requests are stale; closing any server also cancels the running request of another (C11_finish_witness)."},
 "C110": {"status": "partial", "note": "Expressions, machine operands, lists of operands of machine and assembler instructions and data definitions, for all texts without literals. With literals the grammar is ambiguous (witnesses). Trusted: the parser generated by ANTLR finds a parse tree of the text."},
 "C111": {"status": "partial", "note": "Proved for every token list: exactly one message, the first in the order whose claim about the tokens holds, balanced parentheses against an inductive specification. The claims are about tokens, not about the language (witness: strings, numbers, literals, location counter). Precondition: the error does not begin at the end-of-line token that is the very first token of the stream."},
 "C112": {"status": "partial", "note": "Proved for every text in which all variable symbols have a name and, in operands of model statements, strings other than the one with the first variable symbol have no doubled quotes. Outside of that the code is wrong: C112_*_witness."},
 "C113": {"status": "partial", "note": "Proved for every message that follows the protocol, and about answers, ids and effects for every JSON value. That malformed messages do no harm is proved only if the members the server reads are there (C113_robust_partial); without them the code is wrong: C113_*_witness."},
 "C114": {"status": "partial", "note": "Proved for every JSON value with distinct names of members; of pgm_conf.json only if its limit is no truth value, fraction or number beyond 32 bits (C114_limit_witness shows what happens then)."},
 "C115": {"status": "partial", "note": "Proved for every request that follows the protocol, and about answers, effects and the lifetime of the debugger for every JSON value with distinct names of members. That malformed requests do not end the program is proved only if the members the adapter reads are there and paths can be converted (C115_robust_partial); without them the code is wrong: C115_*_witness."},
 "C116": {"status": "partial", "note": "What is taken, what is refused with which message at which place, and what ends the program are proved exactly. The rules applied differ from those described: described options are taken but for FAIL with parameters (C116_described_partial, C116_fail_witness), others are taken as well (C116_loose_witness), and some end the program (C116_ends_witness)."},
 "C117": {"status": "partial", "note": "C117_variable, C117_sequence, C117_scope, C117_open, C117_undefined are full; C117_place_partial assumes for COPY operands that the file was read first as the member (C117_witness_member); C117_text_partial excludes relocatable values with sections counted less than once or without a name (C117_witness_sign); definitions inside expansions: C117_witness_nested"},
 "C118": {"status": "partial", "note": "Exact for machine instructions but IPTE and for mnemonics of instructions without optional operands, with what is accepted (C118_determines_partial, C118_taken_partial) and the notation of every operand and format (C118_notation). The help for IPTE and for 92 mnemonics is wrong: C118_witness_brackets, C118_witness_lost."},
 "C119": {"status": "partial", "note": "Order, stacks, termination and the place of diagnostics for all programs without branches whose macros execute no COPY. With such a COPY the claim fails (C119_witness_copy); the diagnostic of the nest limit is misplaced (C119_witness_limit). Macros defined by C98 satisfy the hypothesis (C119_defined)."},
 "C12": {"note": "Exact when the worker keeps up. Races and the reading of the return value before the thread is joined break it: C12_witness_*."},
 "C120": {"status": "partial", "note": "For quiet histories (documents saved before closing, no change on the disk of files in use, nothing changed that was asked for in vain) and programs apart from members. Outside of them the claim fails: C120_witness_unsaved, _disk, _created, _broken, _orphan, _shared."},
 "C121": {"status": "partial", "note": "For resolved expressions without what the code leaves unchecked (predicate ok), and acceptance where character expressions are recognised (predicate handled). Outside of them the claim fails: C121_witness_*."},
 "C122": {"status": "partial", "note": "For programs of statements that are Regular; what that leaves out is violated (C122_witness_*), except that macro parameters named like system variables are excluded, too."},
 "C123": {"status": "partial", "note": "C123_program_partial is for programs of Regular statements: without START, invalid or missing names, EQU before the first section, unnamed sections of different kinds; the claim fails for these (C123_witness_*). C123_date is complete."},
 "C124": {"status": "partial", "note": "C124_recognised_partial leaves out, by hypotheses, the cases in which the code differs from the documentation (C124_witness_*). C124_wildcard, C124_language, C124_prompt and C124_origin hold for every state and history."},
 "C125": {"status": "partial", "note": "C125_hidden_partial: between changes of the configuration and the setting; these are not applied to programs already analysed (C125_witness_taken, C125_witness_given, C125_witness_limit). C125_configured and C125_message hold for every history."},
 "C126": {"status": "partial", "note": "C126_colours_partial and C126_elsewhere_partial: for histories in which answers are not empty and languages change only while the document is not shown; otherwise old colours stay (C126_witness_language, C126_witness_empty). C126_tokens and C126_legend connect the answer with the tokens and the settings."},
 "C127": {"status": "partial", "note": "C127_complete_partial and C127_rounds_partial: for statements without attribute references inside strings and for variables whose values name a symbol only by being its name; otherwise the lookup is missed (C127_witness_string, C127_witness_leading). C127_needed holds in general."},
 "C128": {"status": "partial", "note": "C128_search: full, for the search; C128_label_partial: definitions with relocatable values; those with absolute values are not checked (C128_witness_absolute)."},
 "C129": {"status": "partial", "note": "C129_ends, C129_ahead: full. C129_asked_partial, C129_branch_partial: all histories of searches in programs that do not branch backwards, have no label at MACRO and COPY statements and no COPY operand that is no expression; the witnesses show what happens otherwise."},
 "C13": {"status": "proved", "note": ""},
 "C130": {"status": "partial", "note": "C130_server, C130_server_reads, C130_written: full for messages that begin with the length. C130_proxy_partial: all messages are JSON. The negations and the witness show what stops the readers."},
 "C131": {"status": "partial", "note": "Full for programs in whose open code no macro call, undefined operation, MEXIT, MEND or MACRO carries a sequence symbol (C131_label_negation shows what happens otherwise); E045 is compared only if the sequence symbols of the open code are unique (C131_program_unique_partial)."},
 "C132": {"status": "partial", "note": "For programs in which sums and differences mention at most two places and in which, behind data of a length that is not a constant, EQU makes symbols numbers or copies of a place; the code violates the property otherwise (C132_witness_offset, C132_witness_sign). One section, no ORG, no attributes."},
 "C133": {"status": "partial", "note": "Full for looking at the next token and at earlier ones, reading, filtering and going back (C133_tokens, C133_reading, C133_text); looking further ahead is right only if no filtered token is in between (C133_ahead_partial), which the code violates otherwise (C133_witness_ahead)."},
 "C134": {"status": "partial", "note": "For every program with a careful solution (products and quotients of numbers, addresses through unresolved gaps only as plain sums; C132 has witnesses of what the code does otherwise): any two finished runs agree (C134_order_partial), all finished runs give the values of the equations (C134_unique_partial), with a ranking of the definitions every run that ends leaves nothing over (C134_complete_partial), no circle is reported (C134_assembled_partial), and if moreover the numbers fit into 32 bits there is a run and every run ends well, with the values of the solution (C134_total_partial); from every state reached it can go on to the end (C134_never_stuck_partial), and no order of resolution goes on for ever (C134_not_endless_partial). Missing: several sections, ORG and attributes; programs that are not careful."},
 "C135": {"status": "partial", "note": "Linux: the normal form names the same place (C135_place), is its own normal form (C135_idempotent), and decides whether two absolute paths name one place (C135_same); libraries are where their path read in the workspace leads (C135_library, C135_library_same); relative paths lead back (C135_relative); a program is looked for under its path from the workspace and no other plain one (C135_program). Violated: entries of pgm_conf.json not in normal form match no program (C135_entry_negation). Windows paths under Emscripten: drives and shares as long as `..` does not go above the root (C135_drive_partial, C135_remote_partial, C135_windows_library_partial, C135_windows_absolute_partial, witnesses of the rest), programs (C135_windows_program), libraries (C135_windows_library_partial). The configuration file is recognised by its place (C135_config), members of libraries by their name (C135_member). std::filesystem is modelled by the standard's algorithms."},
 "C136": {"status": "partial", "note": "Machine instructions: every mistake of the operands' expressions exactly once, by the values when all symbols are known, and the statement left as parsed (C136_machine); with a symbol that stays undefined one message and what is before it (C136_undefined); other assembler instructions when symbols are known (C136_assembler_partial); any tree of collectors delivers every message once (C136_collect); every publication has all messages and leaves them for the next (C136_published). Violated: DC/DS never report them, EQU reports none unless definitions are given up and then those in length and type twice, assembler instructions with forward references report nothing, USING pairs are not looked at (C136_*_negation with witnesses). ORG and section instructions not modelled."},
 "C137": {"status": "partial", "note": "C137_fields_partial: all histories in which searches ahead meet only lines with an instruction; for the others the code reads an empty optional (C137_ahead_negation, C137_ahead_witness). What the grammar finds in a line is an input (C76, C110, C112, C133 are about that)."},
 "C138": {"status": "partial", "note": "Texts, documents and lookups are proved for every interleaving (C138_texts, C138_documents, C138_member). That a session never fails is violated: C138_undisturbed_partial gives the complete list of what disturbs it, C138_{reload,refresh,load}_negation and the witnesses show that these do."},
 "C139": {"status": "partial", "note": "For one document, any members and any schedule everything is proved: order, no failure, complete analysis of the current text, and that all messages are carried out (C139_one_partial, C139_all_partial). For any number of documents C139_only_partial gives the one way in which the server fails; C139_broken_off_witness and C139_negation show that it does. Two more failures outside the hypotheses: C139_conf_witness, C139_own_name_witness."},
 "C14": {"status": "proved", "note": "Exactly once under the id discipline of the server; C14_witness_reused_id shows that the discipline is needed."},
 "C140": {"status": "partial", "note": "Refusal = an error (C140_refused) and independence of the operands of a statement (C140_statement) hold without hypotheses. That the messages are about exactly the mistakes there are (C140_parts_partial), that what they say is true (C140_says_partial), and the joint size (C140_together_partial) need modifiers with absolute values in the range of their fields; the length of address constants is looked at only if their values are expressions. The witnesses show what happens otherwise."},
 "C141": {"status": "partial", "note": "Holds for every history in which system variables are neither declared nor assigned and parameters are not named like them, and for years of four digits. Missing: the analysis does not refuse assignments to system variables (C141_assigned_witness) and declarations of their names (C141_declared_witness); &SYSMAC without subscript, and K' of it, are not as documented (C141_whole_witness, C141_count_witness)."},
 "C142": {"status": "partial", "note": "Machine instructions, DC and DS: exactly one check for each, shown where the statement was processed (C142_once_partial, C142_messages_partial, C142_shown_partial), for every history; without macros and COPY all messages are in the file of the program (C142_one_file_partial); which statements are checked in general is C142_checked_partial. Violated: an EQU or ORG that had to wait is not checked once its value is known (C142_unchecked_negation), and messages about the location of such an ORG are shown in the file that is processed when it is known (C142_late_negation)."},
 "C15": {"status": "proved", "note": "Assumes the file-to-URI conversion is injective; C15_witness_uri shows that this is needed."},
 "C16": {"status": "proved", "note": "For tokens sorted by position; C16_witness_unsorted shows the wrap-around otherwise."},
 "C17": {"note": "Unique and increasing per thread; across threads numbering and sending can be reordered (C17_witness). Requests without debugger or with unreadable arguments get no response."},
 "C18": {"status": "proved", "note": ""},
 "C19": {"status": "proved", "note": ""},
 "C20": {"note": ""},
 "C21": {"note": "With configured extensions, names, first-wins and the conflict report are exact; without extensions C21_no_extensions says exactly what happens: whole names in upper case, the last conflicting file wins and nothing is reported (C21_witness_no_extensions). The order of the listing is that of the unordered map."},
 "C22": {"note": "Exact after every successful load; a reload whose pgm_conf.json fails leaves entries without groups (C22_witness_bad_reload)."},
 "C23": {"note": "Exact byte-wise for names without line terminators; ? is one byte, not one character (witnesses)."},
 "C24": {"note": "For one workspace; with two workspaces sharing a dependency it fails (C24_witness_two_workspaces). Open documents are kept in every case."},
 "C25": {"note": "Holds when workspaces are registered under their URI and enclosure means string prefix, after every history of opened and closed folders (C25_history_partial); witnesses for the other cases."},
 "C26": {"note": ""},
 "C30": {"status": "proved", "note": "Interning is exact up to case. Observation (C30_witness_empty): the well-known empty identifier is a distinct storage entry, see DESIGN.md."},
 "C31": {"status": "proved", "note": "Last-assigned semantics and frame for scalars and arrays; C31_number gives N' below 2^31; C31_witness_number shows the wrap at subscript 2^31 (machine limit)."},
 "C32": {"status": "proved", "note": "Observation C32_witness_type: a GBLx declaration of a different type silently attaches the variable of the first type."},
 "C33": {"status": "partial", "note": "The value at the start of a call is proved; constancy needs the hypothesis that the body does not assign &SYSNDX (C33_constant_partial): C33_witness_assigned shows that the code allows such an assignment."},
 "C34": {"status": "proved", "note": "For well-formed prototypes (distinct names, no SYSLIST)."},
 "C35": {"status": "partial", "note": "Every character except commas directly before a closing parenthesis or next to another comma is preserved; witnesses show trailing and doubled commas being lost."},
 "C36": {"status": "partial", "note": "Refinement holds for programs that do not define a macro after the same name was given by OPSYN; C36_witness_redefined shows the divergence."},
 "C37": {"status": "proved", "note": "Termination for arbitrary effects of statements (AINSERT excluded, COPY members expanded). One more branch than the counter is taken before the scope is ended (C37_witness_one_more)."},
 "C38": {"status": "proved", "note": "For all operand lists; malformed AIF operand lists never branch."},
 "C39": {"status": "partial", "note": "Holds if the instructions of one form are parsed alike; C39_witness_absent: the cache is keyed by the form only, so an instruction without operands empties the operands of later ones."},
 "C40": {"status": "partial", "note": "Attribute and symbol lookaheads return exactly (all nestings of macros and COPY members, all histories), branches find their symbol wherever it is. Excluded with witnesses: AREAD in the macro before the lookahead, lookahead from an instruction field (line number), last line of the text (clamped offset). AINSERT not modelled."},
 "C41": {"status": "proved", "note": "Addition, subtraction, multiplication and division are exact or 0 with a diagnostic, for all 32-bit operands. The unary minus, not part of the claim, is undefined behaviour for -2147483648 (C41_witness_minus)."},
 "C42": {"note": "Violated: a shift by zero returns the right operand, SRA by 32..63 of a non-negative number is -1, SLA can change the sign (witnesses). C42_shift_partial covers all other operands of all four operators."},
 "C43": {"note": "Violated for e.g. A OR B EQ C AND D (C43_witness). C43_precedence_partial characterises exactly the operator sequences grouped by precedence; order of the terms and left to right evaluation for equal priority hold always."},
 "C44": {"status": "proved", "note": "All round trips of the claim with result lengths. Side findings: X2C accepts an invalid second digit, C2A counts UTF-8 bytes (witnesses)."},
 "C45": {"status": "proved", "note": ""},
 "C46": {"note": "Duplication and size bound in full; substring counts UTF-8 bytes rather than characters, and a missing count with a very small start overflows (witnesses)."},
 "C47": {"note": "Strings: full. Numbers: for operands whose difference fits 32 bits; otherwise signed overflow (C47_witness_overflow)."},
 "C48": {"note": "Byte and Latin-1 round trips in full. One byte per character for every text without NUL; with a NUL the translation used by comparisons stops, and a character cut by a substring operation makes it run over the end of the string (witnesses)."},
 "C49": {"status": "proved", "note": ""},
 "C50": {"status": "partial", "note": "Model: Ord/Address.lean. Value semantics over arbitrary section values and space lengths: sum (full for addresses built by the operations in one state of the spaces), negation, integers, a-a, canonical form. Difference and cancellation only when shared sections/spaces occur equally often: merge_entries computes rhs-lhs for shared entries (C50_witness_sign); a resolved space is counted once whatever its multiplicity (C50_witness_count)."},
 "C51": {"status": "proved", "note": "space::resolve, location_counter_data::align without open gaps, ORG boundary. size_t conversion modelled; negative offsets need a power of two."},
 "C52": {"status": "partial", "note": "One location_counter_data (no ORG). For every interleaving of statements, definitions and resolution of alignment spaces the offsets equal the layout computed with all lengths known; everything resolves. Missing: gaps not ending at their declared boundary, displaced alignments while a gap is open, append_data (witnesses given)."},
 "C53": {"note": "the file of the definition is proved; the lines of copied members are wrong (C53_witness)", "status": "partial"},
 "C54": {"status": "partial", "note": "Proved for all programs: a value, length or scale once known never changes (C54_stays); EQU and labels of used names change nothing (C54_rejected). Violated: a second EXTRN of a name throws an exception nothing catches, and a duplicate DS/DC with a pending length throws when the length becomes known or at once (witnesses)."},
 "C55": {"status": "partial", "note": "Proved: a finished check answers exactly whether the new dependency closes a cycle in the dependency graph visible at that time (C55_correct); it terminates when the tables are acyclic (C55_terminates_partial); accepted dependencies keep them acyclic (C55_stays_acyclic). For whole programs of EQU over sums and differences of symbols: every program has an outcome, pending definitions never form a circle (C55_programs_partial) and a definition is reported exactly when its expression refers back to its label (C55_reported_partial). Violated: dependencies hidden behind undefined symbols produce accepted cycles (C55_witness_hidden), after which a check never ends (C55_witness_hang)."},
 "C56": {"status": "partial", "note": "Proved: resolution ends (C56_ends); what is left refers to something undefined (C56_complete); for expressions without misjudged products the outcome does not depend on the order (C56_order_partial) and equals the value of the expression (C56_value_partial); acyclic symbol definitions are all resolved (C56_total_partial). Violated in general: order matters (C56_witness_order), a length of -1 counts as undefined (C56_witness_length), a length can be lost (C56_witness_lost_length)."},
 "C57": {"status": "partial", "note": "Absolute arithmetic, undefinedness, products, sums, negation and relocatability are exact; subtraction is for operands outside the swapped case: abs - reloc gives reloc - abs (C57_witness_abs_minus_reloc)."},
 "C58": {"status": "partial", "note": "Proved for programs of EQU and labels over sums and differences of symbols, constants and addresses without unresolved spaces, in every order of resolution (C58_program_partial), and for any expression without dependencies (C58_now). Violated: X+4 with X behind storage of unknown length loses the 4 (C58_witness_offset), a pending attribute is lost likewise (C58_witness_attribute)."},
 "C59": {"note": "finished definitions proved; C59_outside_iff says exactly which unfinished ones read outside", "status": "partial"},
 "C60": {"status": "proved", "note": "Small-step model of both threads. C60_history: every decision under every interleaving is the one the event history calls for; C60_only_executed: never in lookahead or definitions; C60_run: with a client that answers stops, the stops are exactly the expected ones under all schedules. C60_all_stops_partial additionally shows no expected stop is missed when all answers are steps (for continue see C61_witness_lost)."},
 "C61": {"status": "partial", "note": "Violated: continue can be lost (C61_witness_lost), disconnect in the window before a stop leads to unlocking a mutex not owned (C61_witness_unlock), next after the end follows a dangling pointer (C61_witness_next). Proved: steps and disconnect always wake the thread, disconnect always gets through and the thread ends after at most ten further steps, and these are the only sources of undefined behaviour. Missing: eventual-wake under explicit fairness is stated as absence of a sleeping thread plus a step bound."},
 "C62": {"note": "The variables shown at a stop are those of the shown frame, references stay valid until the analysis moves on, members of one reference list exactly what the context holds, and after the end no reference is served (C62_ended)."},
 "C70": {"status": "partial", "note": "Every history of insertions, reads and tokens refines the source of records and lines, for texts whose lines all end with a newline (carriage returns only before it) and non-empty records without line ends; reads and insertions then never fail. Outside these bounds lines are delivered again (witnesses), and continued records hang the tokeniser (witness). The padding counts characters, so it is exact for ASCII."},
 "C71": {"status": "partial", "note": "For all texts, termination within 2n+2 tokens and tiling are proved, except that the run may instead reach isspace/toupper with a character above U+00FF (undefined behaviour, witness); for texts up to U+00FF it is unconditional. Begin column 1 only (the others are not reachable)."},
 "C72": {"note": "getText re-encodes every list of Unicode scalars as standard UTF-8 (C72_text) and refuses surrogates/too large values; length_utf16 is wrong for continuation bytes 0x80-0xB7 (witnesses) and right when all continuation bytes are 0xB8 or more (partial). length_utf16 has no caller in the product."},
 "C73": {"note": "The split highlights cover exactly the statement columns of the range, one per line in order (C73_coverage, C73_lines). Non-emptiness holds if the range starts before the end column and ends after the continuation column (C73_nonempty_partial); C73_witness shows an inverted token otherwise."},
 "C74": {"status": "proved", "note": "The union is the least range containing both operands and is commutative."},
 "C75": {"note": "Correct for operands that lie on one line (C75_position_partial). Witnesses: a position after a continuation is reported 16 columns per line off, and the first column of a continued line as column 71 of the line before."},
 "C76": {"status": "partial", "note": "Refinement of the token stream to the statements given by the lines, for texts whose carriage returns stand before newlines and without *PROCESS lines; fails for a lone carriage return (witness). For inserted records it fails for comments with a period and for words reaching column 72 (witnesses)."},
 "C77": {"status": "partial", "note": "Lines and columns proved for every token; UTF-16 columns proved where the character at the boundary is in the basic plane, otherwise they are wrong (witnesses)."},
 "C78": {"note": "names distinct and exact parameters for well-formed prototypes; every other operand is reported except those of a single piece that is no variable symbol", "status": "partial"},
 "C79": {"note": "texts, positions and reports proved for all operands; excluded are variable symbols behind unknown keywords, the commas of C35 and the splitting of composed texts (witnesses)", "status": "partial"},
 "C80": {"note": "Lines concatenate to the document except that the empty last line of a newline-terminated document makes get_line throw (C80_witness); outside the document the result is empty."},
 "C81": {"note": "Holds for documents in which occurrences at one place name one thing and the lines tell the scope (C81_references_partial, C81_equivalence_partial, C81_global_partial). Witnesses: touching names (&A&B) and a copy member used by a macro and by open code."},
 "C82": {"status": "proved", "note": ""},
 "C83": {"status": "proved", "note": ""},
 "C84": {"note": "Partial: later operands must not need a stricter boundary than the address the statement begins at (the code aligns them relative to the statement); 64-bit overflow excluded; both violations have witnesses. Refused operands and the start are covered in full."},
 "C85": {"note": "Partial: blanks inside X and B constants are counted (witness)."},
 "C86": {"status": "proved", "note": "Acceptance iff for every text, given permitted other parts and no 64-bit overflow; soundness for every operand whatever."},
 "C87": {"note": "Exact characterisation of accepted operands, for operands with absolute 32-bit factors, 16-bit scale and a nominal value where an address constant has a length; the excluded cases are witnesses."},
 "C88": {"note": "The length never fails; the statement fails exactly for labelled P/Z with a parenthesised value (witness)."},
 "C89": {"status": "partial", "note": "Every well-formed operand is read as its parts without a diagnostic, in either case of letters, and reading never has undefined behaviour; the exception, an exponent modifier directly behind the type, is exhibited."},
 "C90": {"note": "Partial: S-attribute of decimal constants is 0 (witness); blanks in decimal constants excluded."},
 "C91": {"status": "partial", "note": "Whatever is read without a diagnostic is a well-formed operand read as its parts, unless a modifier letter without a value stands before another modifier; that such an operand is not reported is exhibited."},
 "C92": {"note": "proved for operands without a lone index or length and with absolute values in parentheses; the exact set accepted is C92_exact; witnesses show what is accepted wrongly", "status": "partial"},
 "C93": {"note": "proved for mnemonics of instructions without optional operands; the others are never accepted (C93_never)", "status": "partial"},
 "C94": {"note": "all opcodes but six; C94_witness gives the six", "status": "partial"},
 "C95": {"note": "layout and sizes proved for every program; the operands of ten table entries are not those of their format, four entries have a wrong size", "status": "partial"},
 "C96": {"note": "proved for paths without per cent sign and, on Linux, backslash, on both platforms; the normalisation of std::filesystem is a parameter; witnesses for the rest", "status": "partial"},
 "C97": {"note": "proved for the entries with unsigned operands; the others refuse half of the values (C97_refused)", "status": "partial"},
 "C98": {"note": "the whole loop of the processor, with cyclic members; the statements themselves are opaque", "status": "proved"},
 "C99": {"note": "branch targets, missing symbols and duplicates, for every body and library", "status": "proved"}
}
