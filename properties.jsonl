{"id": "C01", "title": "Line index follows edits", "statement": "After a document is opened and any sequence of textDocument/didChange edits is applied, the server's table of line start offsets is exactly the table one would compute from scratch from the current text (a line starts at offset 0 and after every LF, CRLF or lone CR), so positions in later requests mean what the editor means.", "quantifier": "every initial text, every finite sequence of range edits and whole-document replacements, every line-ending mix", "why_tests_cant": "the incremental update only goes wrong for particular combinations of edit boundary and line-ending characters anywhere in an unbounded history; tests try a handful of edits", "anchors": ["parser_library/src/workspaces/file_impl.cpp: find_newlines, did_change, create_line_indices"]}
{"id": "C02", "title": "Editor positions map to the right byte", "statement": "For a position whose line exists and whose UTF-16 column lies within that line, the byte offset the server uses is the offset of the character that begins at that UTF-16 column of the line; it is always a character boundary and never beyond the end of the text.", "quantifier": "every well-formed UTF-8 text, every line and every column", "why_tests_cant": "depends on the mixture of 1,2,3,4-byte characters before the position, an unbounded domain", "anchors": ["parser_library/src/workspaces/file_impl.cpp: index_from_position, utf8_one_byte_begin.."]}
{"id": "C03", "title": "Document text tracks the editor's buffer", "statement": "If the editor holds a text and applies a sequence of LSP content changes (range replacements given in line/UTF-16 column coordinates), then after the corresponding didOpen/didChange notifications the server's text equals the editor's text byte for byte.", "quantifier": "every initial text, every sequence of in-range changes", "why_tests_cant": "tests can check only a few hand-written edit scripts; drift shows up after arbitrary histories", "anchors": ["parser_library/src/workspaces/file_impl.cpp: did_open, did_change", "parser_library/src/workspaces/file_manager_impl.cpp: did_change_file"]}
{"id": "C04", "title": "Invalid UTF-8 is sanitised once and only where invalid", "statement": "Loading a file from disk yields text that is well-formed by the server's own UTF-8 decoder; text that is already well-formed is unchanged; sanitising twice equals sanitising once.", "quantifier": "every byte string", "why_tests_cant": "the set of malformed byte strings is infinite and the scanner is stateful", "anchors": ["parser_library/src/workspaces/file_impl.cpp: replace_non_utf8_chars"]}
{"id": "C05", "title": "Open documents are authoritative and versioned", "statement": "While a document is open its text is what the editor sent, whatever happens on disk; its version starts at the version given on open and grows by one for each applied change; changes to unknown documents have no effect.", "quantifier": "every interleaving of open, change, close, and disk reads on any number of files", "why_tests_cant": "requires quantifying over operation histories", "anchors": ["parser_library/src/workspaces/file_impl.cpp", "parser_library/src/workspaces/file_manager_impl.cpp: did_open_file, did_change_file, did_close_file"]}
{"id": "C06", "title": "Base protocol framing round-trips", "statement": "Any sequence of JSON messages the server (or a conforming client) writes with Content-Length framing is read back as exactly the same sequence, and after the last one the reader reports end of stream.", "quantifier": "every finite sequence of messages with any contents (including CR, LF and header-like text in the body)", "why_tests_cant": "body contents and lengths are unbounded; a framing bug appears only for particular bytes", "anchors": ["language_server/src/base_protocol_channel.cpp: read_message, read, write_message"]}
{"id": "C07", "title": "A malformed message does not poison the stream", "statement": "If a framed body is not valid JSON, or a Content-Length line is unparsable and another valid one follows, the reader skips the bad message and still delivers every later valid message.", "quantifier": "every sequence mixing well framed valid and invalid bodies", "why_tests_cant": "needs all interleavings of good and bad frames", "anchors": ["language_server/src/base_protocol_channel.cpp: read, read_message"]}
{"id": "C08", "title": "Queue delivers each element once, in order, and nothing after termination", "statement": "Elements taken from the inter-thread message queue are exactly a prefix of those pushed before termination, in push order, each at most once; after termination with the dropping policy every pop reports end.", "quantifier": "every schedule of concurrent push, pop and terminate calls by any number of threads", "why_tests_cant": "schedules are unbounded; tests exercise one", "anchors": ["language_server/src/blocking_queue.h: push, pop, terminate"]}
{"id": "C09", "title": "No consumer sleeps while there is work", "statement": "A thread blocked in pop is eventually runnable whenever the queue is non-empty or terminated: there is no reachable state in which a consumer is asleep without pending notification although an element is available.", "quantifier": "every schedule of producers, consumers and terminate", "why_tests_cant": "a lost wake-up needs a particular interleaving", "anchors": ["language_server/src/blocking_queue.h"]}
{"id": "C10", "title": "Requests are executed in arrival order, each exactly once", "statement": "The worker executes the requests handed to the request manager one at a time in the order they arrived, none is lost or duplicated, and all requests queued before shutdown of a server are executed before shutdown completes.", "quantifier": "every sequence of add_request, worker steps, and finish_server_requests", "why_tests_cant": "concurrent schedule space", "anchors": ["language_server/src/request_manager.cpp: add_request, handle_request_, finish_server_requests, end_worker"]}
{"id": "C11", "title": "Cancellation hits only stale requests of the edited file", "statement": "A request is run with the cancellation flag initially set only if a newer didOpen/didChange for the same document arrived while an older request on that document was running; a request for another document is never invalidated.", "quantifier": "every arrival sequence and schedule", "why_tests_cant": "depends on arbitrary interleavings of arrivals with execution", "anchors": ["language_server/src/request_manager.cpp: add_request"]}
{"id": "C12", "title": "Exit status follows the LSP lifecycle", "statement": "The server process returns 0 only if an exit notification was received after a shutdown request; exit without shutdown, or the stream ending, returns 1.", "quantifier": "every sequence of received messages", "why_tests_cant": "all message sequences", "anchors": ["language_server/src/dispatcher.cpp: run_server_loop", "language_server/src/lsp/lsp_server.cpp: on_shutdown, on_exit"]}
{"id": "C13", "title": "Every message is routed to exactly one destination", "statement": "Each incoming message is delivered to exactly one sink: the first registered route whose predicate accepts it, otherwise the default route; routing never reorders messages for one sink.", "quantifier": "every list of routes and every message sequence", "why_tests_cant": "the list of routes and the messages are arbitrary", "anchors": ["language_server/src/message_router.cpp", "language_server/src/dap/dap_session_manager.cpp"]}
{"id": "C14", "title": "A response completes its request at most once", "statement": "A response received for a request the server sent runs the continuation registered for that request exactly once; a second response with the same id, or a response with an unknown id, has no effect on any request.", "quantifier": "every interleaving of requests sent and responses received", "why_tests_cant": "histories are unbounded", "anchors": ["language_server/src/lsp/lsp_server.cpp: message_received, request"]}
{"id": "C15", "title": "The editor sees exactly the current diagnostics", "statement": "After every analysis round, replaying the publishDiagnostics notifications sent so far leaves the client with precisely the diagnostics of the last round for every file: no stale diagnostics remain for files that no longer have any.", "quantifier": "every sequence of analysis rounds with arbitrary diagnostics", "why_tests_cant": "stale diagnostics appear only for particular sequences of rounds", "anchors": ["language_server/src/lsp/lsp_server.cpp: consume_diagnostics"]}
{"id": "C16", "title": "Semantic tokens decode to the highlighted tokens", "statement": "Decoding the LSP delta-encoded token array (as an editor does) yields the non-overlapping highlighting tokens the analyser produced, with their absolute line, start column, length and type.", "quantifier": "every sorted list of tokens", "why_tests_cant": "delta encoding errors accumulate; needs all lists", "anchors": ["language_server/src/lsp/feature_language_features.cpp: convert_tokens_to_num_array"]}
{"id": "C17", "title": "Debug adapter sequence numbers are unique and increasing", "statement": "Every message a debug session sends (response or event) carries a sequence number strictly larger than all earlier ones of that session, and every response names the request it answers.", "quantifier": "every sequence of requests and events", "why_tests_cant": "histories are unbounded", "anchors": ["language_server/src/dap/dap_server.cpp"]}
{"id": "C18", "title": "Debug positions are translated both ways consistently", "statement": "For any client numbering (lines and columns starting at 0 or 1), a line or column sent by the client and reported back is unchanged.", "quantifier": "every line number and numbering choice", "why_tests_cant": "arithmetic over all values", "anchors": ["language_server/src/dap/dap_feature.cpp: extract_source/column/line helpers"]}
{"id": "C19", "title": "Concurrent debug sessions do not interfere", "statement": "A tunnelled debugger message reaches the session it names and no other; messages for unknown or finished sessions are dropped; creating a session never destroys a live one.", "quantifier": "every interleaving of session creation, messages and termination", "why_tests_cant": "interleavings", "anchors": ["language_server/src/dap/dap_session_manager.cpp", "language_server/src/dap/dap_session.cpp"]}
{"id": "C20", "title": "Macro library lookup follows the configured order", "statement": "A macro or COPY member is taken from the first library of the processor group that contains a member of that name, and lookup reports existence exactly when parsing would find it.", "quantifier": "every list of libraries and every member name", "why_tests_cant": "combinatorial in libraries and names", "anchors": ["parser_library/src/workspaces/workspace.cpp: parse_library, has_library", "parser_library/src/workspaces/library_local.cpp: find_file"]}
{"id": "C21", "title": "Library member names ignore case and a configured extension", "statement": "A file in a library directory is visible under its upper-cased name with the longest configured extension removed (exactly once); files without a configured extension are not visible; when two files map to the same name the first is used and the conflict is reported.", "quantifier": "every list of extensions and every directory content", "why_tests_cant": "arbitrary file names and extension lists", "anchors": ["parser_library/src/workspaces/library_local.cpp: load_files, adjust_extensions_vector"]}
{"id": "C22", "title": "Processor group selection is deterministic", "statement": "The processor group of a program is that of the exact program entry if there is one, otherwise that of the first matching wildcard entry in configuration order, otherwise the implicit group.", "quantifier": "every configuration and file name", "why_tests_cant": "arbitrary configurations", "anchors": ["parser_library/src/workspaces/workspace.cpp: get_proc_grp_by_program"]}
{"id": "C23", "title": "Wildcards in the configuration mean what the documentation says", "statement": "A configuration pattern matches a name exactly when the name can be obtained by replacing every * by any (possibly empty) string, every ? by one character (and + by a non-empty string), every other character standing for itself.", "quantifier": "every pattern and every name", "why_tests_cant": "infinite pattern and name space; special characters need escaping", "anchors": ["parser_library/src/workspaces/wildcard.cpp: wildcard2regex"]}
{"id": "C24", "title": "Closing a document keeps what is still needed", "statement": "When a document is closed, a file it depended on is dropped only if it is not open in the editor and no remaining open program depends on it.", "quantifier": "every dependency relation and every set of open documents", "why_tests_cant": "arbitrary dependency graphs", "anchors": ["parser_library/src/workspaces/workspace.cpp: did_close_file, filter_and_close_dependencies_, is_dependency_"]}
{"id": "C25", "title": "Documents belong to the innermost enclosing workspace", "statement": "A document is handled by the workspace whose URI is the longest one that encloses the document, and by the implicit workspace when no workspace encloses it.", "quantifier": "every set of workspaces and every document URI", "why_tests_cant": "arbitrary URIs", "anchors": ["parser_library/src/workspace_manager_impl.h: ws_path_match, prefix_match"]}
{"id": "C26", "title": "Configuration precedence", "statement": "The effective diagnostics limit is the one of the program configuration, else the one of the client configuration, else the built-in default; a value set at a higher level is never overridden.", "quantifier": "every combination of present/absent values", "why_tests_cant": "combinations of optional values", "anchors": ["parser_library/src/lib_config.cpp: fill_missing_settings, combine_two_configs, load_from_json"]}
{"id": "C30", "title": "Identifiers are case-insensitive and interned", "statement": "Two spellings denote the same identifier exactly when they are equal ignoring letter case; an identifier once issued keeps denoting the same name however many others are added.", "quantifier": "every sequence of identifiers", "why_tests_cant": "unbounded histories of insertions", "anchors": ["parser_library/src/context/id_storage.cpp: add, find", "parser_library/src/context/common_types.cpp: to_upper"]}
{"id": "C31", "title": "SET symbol arrays behave as sparse arrays", "statement": "Reading element i of a SET symbol returns the value most recently assigned to i, or the default (0, false, empty string) if none; assigning one element changes no other; N' is the highest assigned subscript.", "quantifier": "every sequence of assignments to any subscripts", "why_tests_cant": "unbounded histories", "anchors": ["parser_library/src/context/variables/set_symbol.h", "parser_library/src/processing/context_manager.cpp: get_var_sym_value", "parser_library/src/processing/instruction_sets/ca_processor.cpp: test_symbol_for_assignment"]}
{"id": "C32", "title": "Local and global SET symbols", "statement": "A global SET symbol declared in several scopes is one shared variable; a local one is invisible to every other scope and disappears with its macro call; a name denotes at most one symbol per scope.", "quantifier": "every nesting of macro calls and declarations", "why_tests_cant": "unbounded call nesting", "anchors": ["parser_library/src/context/hlasm_context.cpp: get_var_sym", "parser_library/src/context/hlasm_context.h: create_global_variable, create_local_variable"]}
{"id": "C33", "title": "&SYSNDX is unique per macro call", "statement": "Every macro call sees a &SYSNDX value of at least four digits, different from that of every other call, increasing in call order, and constant during the call.", "quantifier": "every sequence of macro calls and returns", "why_tests_cant": "unbounded call histories", "anchors": ["parser_library/src/context/hlasm_context.cpp: enter_macro, add_system_vars_to_scope"]}
{"id": "C34", "title": "Macro parameters bind as declared", "statement": "In a macro call, the i-th positional operand is the value of the i-th positional parameter and of &SYSLIST(i); a keyword operand overrides the default of its parameter wherever it appears; omitted parameters take their default (empty for positional).", "quantifier": "every prototype and every operand list", "why_tests_cant": "arbitrary mixes of positional and keyword operands", "anchors": ["parser_library/src/context/macro.cpp: macro_definition, call"]}
{"id": "C35", "title": "Macro argument text is preserved", "statement": "Passing a text as a macro argument through a variable symbol (including nested sublists, quoted strings and attribute references) and asking for the parameter's value returns the same text; splitting always terminates.", "quantifier": "every argument text", "why_tests_cant": "arbitrary nesting and punctuation", "anchors": ["parser_library/src/processing/instruction_sets/macro_processor.cpp: string_to_macrodata, find_single_macro_param", "parser_library/src/context/macro_param_data.cpp"]}
{"id": "C36", "title": "OPSYN renames behave like substitution", "statement": "After any sequence of OPSYN statements an operation name denotes what the most recent OPSYN made it denote; deleting a mnemonic makes it undefined until re-established; names not mentioned are unaffected; there is no cycle or unbounded chain.", "quantifier": "every sequence of OPSYN operations", "why_tests_cant": "unbounded histories", "anchors": ["parser_library/src/context/hlasm_context.cpp: add_mnemonic, remove_mnemonic, get_operation_code"]}
{"id": "C37", "title": "Conditional-assembly loops are bounded", "statement": "Within one scope the number of successful AGO/AIF branches never exceeds the branch counter; when it is exhausted the processing of that scope ends, so every conditional-assembly program terminates.", "quantifier": "every program and every branch sequence", "why_tests_cant": "non-termination cannot be observed by a test", "anchors": ["parser_library/src/context/hlasm_context.cpp: decrement_branch_counter, set_branch_counter", "parser_library/src/processing/processing_manager.cpp: jump_in_statements", "parser_library/src/processing/statement_processors/ordinary_processor.cpp"]}
{"id": "C38", "title": "AIF and AGO choose the right target", "statement": "AIF with several conditions branches to the target of the first true condition and falls through if none is true; computed AGO branches to the n-th target when 1 <= n <= count and falls through otherwise.", "quantifier": "every list of conditions, targets and every index", "why_tests_cant": "arbitrary operand lists", "anchors": ["parser_library/src/processing/instruction_sets/ca_processor.cpp: prepare_AIF, process_AIF, prepare_AGO, process_AGO"]}
{"id": "C39", "title": "The statement cache is transparent", "statement": "A statement of a macro or COPY member is processed with the operands that a fresh parse of its text would give for the instruction it stands for at that moment, no matter how often and as which instructions it was processed before.", "quantifier": "every sequence of processings of one statement, every instruction it stands for", "why_tests_cant": "the cache is shared by all calls of a macro; arbitrary histories", "anchors": ["parser_library/src/processing/statement_providers/members_statement_provider.cpp: fill_cache, preprocess_deferred", "parser_library/src/context/statement_cache.cpp"]}
{"id": "C40", "title": "Lookahead leaves no trace in the statement stream", "statement": "Starting and finishing a forward search (attribute reference or sequence symbol) from any point of the program, including inside nested COPY members, resumes processing at exactly the statement it started from, or at the labelled statement when the search was for a label that was found.", "quantifier": "every nesting of COPY members and every position", "why_tests_cant": "unbounded nesting", "anchors": ["parser_library/src/context/hlasm_context.cpp: get_begin_snapshot, get_end_snapshot, apply_source_snapshot", "parser_library/src/context/processing_context.cpp: create_snapshot", "parser_library/src/processing/processing_manager.cpp: start_lookahead, finish_lookahead"]}
{"id": "C41", "title": "SETA arithmetic is exact or reported", "statement": "Addition, subtraction, multiplication and division of SETA values give the exact mathematical result (division truncating, x/0 = 0) when it fits 32 bits, and otherwise 0 with a diagnostic.", "quantifier": "every pair of 32-bit values", "why_tests_cant": "2^64 operand pairs", "anchors": ["parser_library/src/expressions/conditional_assembly/ca_operator_binary.cpp: overflow_transform, ca_add, ca_sub, ca_mul, ca_div", "parser_library/src/expressions/conditional_assembly/ca_operator_unary.cpp"]}
{"id": "C42", "title": "Shift operators follow the HLASM definition", "statement": "SLL/SRL/SLA/SRA shift the left operand by the low six bits of the right operand, logically or arithmetically as their names say.", "quantifier": "every pair of 32-bit values", "why_tests_cant": "2^64 operand pairs; corner cases at 0 and 32", "anchors": ["parser_library/src/expressions/conditional_assembly/ca_operator_binary.cpp: shift_operands"]}
{"id": "C43", "title": "Operator precedence of logical expressions", "statement": "A parsed conditional-assembly expression of binary operators has the value given by the documented precedence with equal precedence evaluated left to right.", "quantifier": "every operand/operator sequence", "why_tests_cant": "infinitely many expressions; precedence bugs need particular triples of operators", "anchors": ["parser_library/src/expressions/conditional_assembly/terms/ca_expr_list.cpp: resolve, retrieve_term, retrieve_binary_operator", "parser_library/src/expressions/conditional_assembly/ca_expr_policy.cpp"]}
{"id": "C44", "title": "Conversion built-ins are mutually inverse", "statement": "B2A(A2B(x)) = x, X2A(A2X(x)) = x, D2A(A2D(x)) = x for every 32-bit x, and B2X/X2B, C2X/X2C are inverse up to padding; results have the documented length.", "quantifier": "every 32-bit value and every string", "why_tests_cant": "2^32 values and unbounded strings", "anchors": ["parser_library/src/expressions/conditional_assembly/terms/ca_function.cpp"]}
{"id": "C45", "title": "Quote doubling built-ins are consistent", "statement": "DCVAL(DOUBLE(s)) = s and DCLEN(s) is the length of DCVAL(s) for every string s.", "quantifier": "every string", "why_tests_cant": "unbounded strings", "anchors": ["parser_library/src/expressions/conditional_assembly/terms/ca_function.cpp: DOUBLE, DCVAL, DCLEN"]}
{"id": "C46", "title": "Substring and duplication are bounded and exact", "statement": "'s'(b,c) is the substring of at most c characters starting at b, never reading outside s; (n)'s' is n copies; results never exceed the maximum string size and violations are reported.", "quantifier": "every string, start, count and factor", "why_tests_cant": "arbitrary operands", "anchors": ["parser_library/src/expressions/conditional_assembly/terms/ca_string.cpp: evaluate, duplicate"]}
{"id": "C47", "title": "Comparison operators define a total order", "statement": "For arithmetic and character operands exactly one of LT, EQ, GT holds, LE/GE/NE are their complements, and the order is transitive.", "quantifier": "every pair/triple of values", "why_tests_cant": "2^64 pairs; unbounded strings", "anchors": ["parser_library/src/expressions/conditional_assembly/ca_operator_binary.cpp: compare_relational, compare_string"]}
{"id": "C48", "title": "EBCDIC translation is lossless on single-byte characters", "statement": "Translating any EBCDIC byte to UTF-8 and back gives the same byte, and every Latin-1 character round-trips; a translated string has one byte per character.", "quantifier": "every byte and every string", "why_tests_cant": "strings are unbounded and the decoder skips over multi-byte characters", "anchors": ["parser_library/src/ebcdic_encoding.h: a2e, e2a", "parser_library/src/ebcdic_encoding.cpp: to_pseudoascii, to_ebcdic, to_ascii"]}
{"id": "C49", "title": "Concatenation drops exactly the separating dots", "statement": "Evaluating a model statement field concatenates its parts; a dot immediately following a variable symbol is removed, every other dot is kept.", "quantifier": "every chain of parts", "why_tests_cant": "arbitrary chains", "anchors": ["parser_library/src/semantics/concatenation.cpp: evaluate", "parser_library/src/semantics/concatenation_term.cpp"]}
{"id": "C50", "title": "Address arithmetic is linear", "statement": "Relocatable addresses form an abelian group under + and -: (a+b)-b = a, a-a has no base, a+b = b+a, and the value of a sum under any assignment of base and space values is the sum of the values.", "quantifier": "every pair of addresses with any number of bases and spaces", "why_tests_cant": "arbitrary numbers of terms and multiplicities", "anchors": ["parser_library/src/context/ordinary_assembly/address.cpp: operator+, operator-, merge_entries"]}
{"id": "C51", "title": "Alignment yields the next boundary", "statement": "Aligning an offset to a boundary (with optional byte displacement) yields the smallest offset not below it that is congruent to the displacement modulo the boundary.", "quantifier": "every offset, boundary and displacement", "why_tests_cant": "arithmetic over all values", "anchors": ["parser_library/src/context/ordinary_assembly/address.cpp: space::resolve", "parser_library/src/context/ordinary_assembly/location_counter_data.cpp: align", "parser_library/src/context/ordinary_assembly/address_resolver.cpp"]}
{"id": "C52", "title": "Location counter bookkeeping", "statement": "At any time the storage reported by a location counter is the sum of all reservations, and reservations made before an unresolved gap is filled end up at the same addresses as if the gap had been known from the start.", "quantifier": "every sequence of reserve, align, register-space and resolve operations", "why_tests_cant": "unbounded histories", "anchors": ["parser_library/src/context/ordinary_assembly/location_counter_data.cpp", "parser_library/src/context/ordinary_assembly/location_counter.cpp"]}
{"id": "C54", "title": "A symbol is defined once and never changes", "statement": "An ordinary symbol gets a value at most once; a second definition is rejected and the first value remains.", "quantifier": "every sequence of definitions", "why_tests_cant": "unbounded histories", "anchors": ["parser_library/src/context/ordinary_assembly/symbol.cpp", "parser_library/src/context/ordinary_assembly/ordinary_assembly_context.cpp: create_symbol"]}
{"id": "C55", "title": "Cyclic definitions are detected, acyclic ones are not", "statement": "Adding a symbol dependency is reported as cyclic exactly when it would close a cycle in the dependency graph, and the check terminates.", "quantifier": "every dependency graph", "why_tests_cant": "arbitrary graphs", "anchors": ["parser_library/src/context/ordinary_assembly/symbol_dependency_tables.cpp: check_cycle, add_dependency"]}
{"id": "C56", "title": "Forward references are resolved completely and order-independently", "statement": "When resolution stops, every symbol whose definition depends only on defined symbols has been given a value, and the value is the same whatever order dependencies were processed in.", "quantifier": "every acyclic dependency graph and processing order", "why_tests_cant": "arbitrary graphs and orders", "anchors": ["parser_library/src/context/ordinary_assembly/symbol_dependency_tables.cpp: resolve, resolve_dependant"]}
{"id": "C57", "title": "Symbol value arithmetic", "statement": "Adding, subtracting, multiplying and dividing symbol values follows ordinary arithmetic on absolute values, keeps relocatability (reloc - reloc of same base is absolute, abs - reloc is the negated relocatable), and propagates undefinedness.", "quantifier": "every pair of symbol values", "why_tests_cant": "all operand kinds and values", "anchors": ["parser_library/src/context/ordinary_assembly/symbol.cpp / symbol_value.cpp: operator+,-,*,/"]}
{"id": "C58", "title": "EQU gives its label the value of its expression", "statement": "After the source has been processed, a label defined by EQU has the value its expression has over the final symbol table; if the expression refers to something never defined the label is undefined, and if the definition is circular it is reported and the label is 0.", "quantifier": "every program of definitions, with forward references, in every order of resolution", "why_tests_cant": "arbitrary programs and the order of an unordered map", "anchors": ["parser_library/src/processing/instruction_sets/asm_processor.cpp: process_EQU", "parser_library/src/context/ordinary_assembly/symbol_dependency_tables.cpp: resolve"]}
{"id": "C60", "title": "The debugger stops exactly where asked", "statement": "A debugged program stops before a statement exactly when stop-on-entry/step-in is pending, a breakpoint lies on one of the statement's lines in the current file, or step-over is pending and the call depth is not deeper than where the step began; it never stops in lookahead or definitions.", "quantifier": "every program trace, breakpoint set and command history", "why_tests_cant": "unbounded traces and command sequences", "anchors": ["parser_library/src/debugging/debugger.cpp: analyze, next, step_in, continue_debug"]}
{"id": "C61", "title": "Debugger commands are never lost and disconnect always ends the session", "statement": "Whenever the analysing thread waits for the user and a continue, step or disconnect command has been issued, it is eventually woken; after disconnect the thread terminates.", "quantifier": "every interleaving of the analysing thread and command threads", "why_tests_cant": "needs all schedules", "anchors": ["parser_library/src/debugging/debugger.cpp: analyze, continue_debug, disconnect"]}
{"id": "C62", "title": "Variable references are never ambiguous", "statement": "Variable reference numbers handed to the client are non-zero and unique over the whole session; a stale reference never denotes a different variable.", "quantifier": "every sequence of scopes/variables requests and stops", "why_tests_cant": "unbounded histories", "anchors": ["parser_library/src/debugging/debugger.cpp: add_variable, scopes, variables"]}
{"id": "C70", "title": "AINSERT and AREAD preserve record order", "statement": "Records inserted with AINSERT are delivered before the remaining input, front insertions in reverse and back insertions in call order, each exactly once, padded to 80 columns.", "quantifier": "every sequence of AINSERT and read operations", "why_tests_cant": "unbounded sequences", "anchors": ["parser_library/src/lexing/lexer.cpp: ainsert, switch_input_streams, aread"]}
{"id": "C72", "title": "UTF-16 length and UTF-8 encoding of source characters", "statement": "The UTF-16 length computed for a UTF-8 string is the sum over its characters of 1 or 2 units; text extracted from the token stream re-encodes every Unicode scalar as its standard UTF-8 sequence.", "quantifier": "every string of Unicode scalars", "why_tests_cant": "all code points and lengths", "anchors": ["parser_library/src/lexing/lexer.cpp: length_utf16, char_start_utf8", "parser_library/src/lexing/input_source.cpp: getText"]}
{"id": "C73", "title": "Multi-line highlights are split per line without gaps", "statement": "A highlighted range spanning several lines is split into one non-empty token per line, the first starting and the last ending where the range does, intermediate ones covering the statement columns.", "quantifier": "every range and every continuation/continue column", "why_tests_cant": "arbitrary ranges", "anchors": ["parser_library/src/semantics/source_info_processor.cpp: add_hl_symbol, finish"]}
{"id": "C74", "title": "Range union encloses both operands", "statement": "The union of two source ranges is the smallest range containing both, independent of order.", "quantifier": "every pair of ranges", "why_tests_cant": "arbitrary positions", "anchors": ["parser_library/src/semantics/range_provider.cpp: union_range"]}
{"id": "C80", "title": "Line extraction partitions the document", "statement": "The lines the language features read from a document, concatenated in order, are exactly the document; reading a line outside the document yields an empty string rather than a failure.", "quantifier": "every document and line number", "why_tests_cant": "arbitrary texts, including empty and newline-terminated ones", "anchors": ["parser_library/src/lsp/text_data_ref_t.cpp: get_line, get_range_content, get_number_of_lines"]}
{"id": "C81", "title": "Find-references is an equivalence", "statement": "Go to definition/find references treat occurrences consistently: the occurrence under the cursor is among its own references, and two occurrences that reference each other have the same reference list.", "quantifier": "every set of occurrences and every cursor position", "why_tests_cant": "arbitrary occurrence sets", "anchors": ["parser_library/src/lsp/file_info.cpp: find_occurence_with_scope, find_references", "parser_library/src/lsp/lsp_context.cpp: references", "parser_library/src/lsp/symbol_occurence.h: is_similar"]}
{"id": "C82", "title": "Validity tests agree with the conversions", "statement": "For every non-empty string s, ISBIN(s) is 1 exactly if B2A(s) converts s without error, ISHEX(s) is 1 exactly if X2A(s) does, and if ISDEC(s) is 1 then D2A(s) converts s.", "quantifier": "every non-empty string", "why_tests_cant": "unbounded strings; the tests and conversions are separate code with separate length and digit checks", "anchors": ["parser_library/src/expressions/conditional_assembly/terms/ca_function.cpp: ISBIN, ISDEC, ISHEX, B2A, D2A, X2A"]}
{"id": "C83", "title": "String searches return the first match", "statement": "FIND(s,t) is the position of the first character of s that occurs in t, INDEX(s,t) the position of the first occurrence of t in s, 0 exactly when there is none.", "quantifier": "every pair of strings", "why_tests_cant": "unbounded strings", "anchors": ["parser_library/src/expressions/conditional_assembly/terms/ca_function.cpp: FIND, INDEX"]}
{"id": "C75", "title": "Positions inside a re-parsed operand map back to the source", "statement": "When the operands of a statement are put together into one text and parsed again, a position inside that text is reported to the user at the place of the source line it came from, for every operand, also when the statement is continued over several lines.", "quantifier": "every list of operand texts and ranges, every position", "why_tests_cant": "arbitrary operand lengths and continuation lines", "anchors": ["parser_library/src/semantics/range_provider.cpp: adjust_position, adjust_range"]}
{"id": "C71", "title": "Tokenising ends and the tokens tile the text", "statement": "For every text, asking for tokens over and over reaches the end of the file after a number of tokens that is linear in the length of the text; the tokens follow each other without gaps or overlaps (only the text after the statement columns is covered twice, as end of line and as ignored text), and the end of file is reported once, at the end.", "quantifier": "every text, start position and setting of columns with begin column 1", "why_tests_cant": "every character can decide between branches that may or may not make progress; no finite set of texts covers them", "anchors": ["parser_library/src/lexing/lexer.cpp: nextToken, lex_tokens, create_token, lex_end, lex_continuation, lex_comment, lex_process, lex_word"]}
{"id": "C76", "title": "The parser sees exactly the statements of the file", "statement": "Of every source file the parser sees, in order, the text in columns 1 to 71 of each line, a line whose column 72 is not blank being continued at column 16 of the next line, comment lines and their continuations being left out, and every statement being followed by exactly one end-of-line token.", "quantifier": "every text", "why_tests_cant": "arbitrary line lengths, line ends, continuation and comment patterns", "anchors": ["parser_library/src/lexing/lexer.cpp: nextToken, lex_continuation, lex_comment, lex_end, lex_tokens, lex_word, lex_space"]}
{"id": "C77", "title": "Tokens know where they are", "statement": "The line of every token is the number of newlines before it, its column the number of characters since the last of them, and its columns in UTF-16 units (start and end) are those an editor counts.", "quantifier": "every text, every token handed out", "why_tests_cant": "positions accumulate over the whole text", "anchors": ["parser_library/src/lexing/lexer.cpp: consume, create_token, set_file_offset"]}
{"id": "C84", "title": "A DC or DS statement reserves the storage its operands need", "statement": "The storage a DC or DS statement reserves is the one obtained by placing its operands one after another: each operand without a length modifier at the next address that is a multiple of the boundary of its type, each operand with one at the next byte (bit lengths directly after each other), every operand occupying its duplication factor times the lengths of all its values, the end rounded to a byte; a statement with a refused operand reserves nothing.", "quantifier": "every address, every list of operands, every type, modifier and nominal value", "why_tests_cant": "lengths, boundaries, duplication and lists of values combine without bound", "anchors": ["parser_library/src/checking/data_definition/data_definition_operand.h: get_operands_length", "parser_library/src/checking/data_definition/data_def_type_base.cpp: get_length", "parser_library/src/processing/instruction_sets/asm_processor.cpp: process_data_instruction"]}
{"id": "C85", "title": "The length attribute of a constant is the length of one of its values", "statement": "L' of a symbol naming a DC or DS statement is the number of bytes the first value of its first operand occupies (bit lengths rounded up to bytes), whatever the duplication factor.", "quantifier": "every operand that is accepted", "why_tests_cant": "arbitrary nominal values", "anchors": ["parser_library/src/checking/data_definition/data_def_type_base.cpp: get_length_attribute", "parser_library/src/checking/data_definition/data_def_types_string.cpp: get_X_B_length_attr"]}
{"id": "C86", "title": "Constants are accepted exactly when they are well formed", "statement": "The nominal value of a numeric or bit-string type is accepted exactly when it is a non-empty comma-separated list of values each of which is well formed: binary or hexadecimal digits for B and X; for H, F and FD an optional sign, digits with at most one decimal point and an optional exponent; for P and Z the same without exponent; for the floating-point types with an optional exponent and an optional rounding mode the type allows.", "quantifier": "every text between the apostrophes", "why_tests_cant": "strings of arbitrary length and structure", "anchors": ["parser_library/src/checking/checker_helper.h: check_number, check_exponent", "parser_library/src/checking/data_definition/data_def_types_string.cpp: check_comma_separated", "parser_library/src/checking/data_definition/data_def_types_fixed_point.cpp: check", "parser_library/src/checking/data_definition/data_def_types_floating_point.cpp: check"]}
{"id": "C87", "title": "Modifiers outside their range are refused", "statement": "An operand of DC or DS is accepted only if its duplication factor is an absolute value that is not negative and its length, scale and exponent modifiers lie in the range its type permits.", "quantifier": "every operand, every modifier value", "why_tests_cant": "all 32-bit values of all modifiers of all types", "anchors": ["parser_library/src/checking/data_definition/data_def_type_base.cpp: check_base, check_modifier, check_length", "parser_library/src/expressions/data_definition.cpp: set_data_def_field, evaluate_scale"]}
{"id": "C88", "title": "No data definition makes the analysis fail", "statement": "Checking a DC or DS statement, computing its length and the attributes of its label never fails with an exception, whatever the operands are.", "quantifier": "every statement, labelled or not", "why_tests_cant": "every combination of type and nominal value", "anchors": ["parser_library/src/checking/data_definition/data_def_types_fixed_point.cpp: get_nominal_length_attribute", "parser_library/src/processing/instruction_sets/asm_processor.cpp: process_data_instruction"]}
{"id": "C89", "title": "A data definition is taken apart the way it is written", "statement": "An operand written as duplication factor, type, type extension, modifiers in the order program type, length, scale, exponent, and nominal value is read as exactly these parts, numbers and parenthesised expressions alike, without a diagnostic.", "quantifier": "every well-formed operand", "why_tests_cant": "every combination of present and absent parts", "anchors": ["parser_library/src/expressions/data_definition.cpp: parser::parse, parse_duplication_factor, parse_modifier, parse_number"]}
{"id": "C90", "title": "Scale and integer attributes of a constant follow from how it is written", "statement": "S' of a symbol naming a DC or DS statement is the scale modifier of its first operand, or, for decimal constants without one, the number of fraction digits of the first value; I' is the number of digits left of the point that type, length and scale leave room for.", "quantifier": "every accepted operand", "why_tests_cant": "arbitrary lengths, scales and nominal values", "anchors": ["parser_library/src/checking/data_definition/data_def_type_base.cpp: get_scale_attribute, get_integer_attribute", "parser_library/src/checking/data_definition/data_def_types_fixed_point.cpp: get_implicit_scale, get_integer_attribute_impl", "parser_library/src/processing/instruction_sets/asm_processor.cpp: process_data_instruction"]}
{"id": "C91", "title": "An operand that is not written as a data definition is reported", "statement": "If an operand of DC or DS is read without a diagnostic, then it is written as duplication factor, type, type extension, modifiers in the order program type, length, scale, exponent, each with its value, and nominal value, and the parts read are the parts written.", "quantifier": "every operand the grammar hands over", "why_tests_cant": "arbitrary texts; the mistakes that slip through are the ones nobody thought of", "anchors": ["parser_library/src/expressions/data_definition.cpp: parser::parse, parse_modifier, parse_modifier_num_or_expr", "parser_library/src/parsing/grammar/data_def_rules.g4: data_def"]}
{"id": "C92", "title": "A machine operand is accepted exactly when every value fits its field", "statement": "An operand of a machine instruction is accepted without a diagnostic if and only if it has the form the instruction allows in that place (a register, mask or immediate value; D, D(B), D(X), D(X,B) or D(,B); a relocatable expression where an address or a relative operand is allowed) and every value written fits the field it is encoded in; the limits named in a diagnostic are the limits accepted.", "quantifier": "every instruction of the instruction table, every position and every operand the grammar accepts", "why_tests_cant": "about 1350 instructions, each with several operand positions, times every 32-bit value in every written form", "anchors": ["parser_library/src/checking/instr_operand.cpp: address_operand::check, one_operand::check, is_operand_corresponding, is_length_corresponding", "parser_library/src/semantics/operand_impls.cpp: make_check_operand, address_machine_operand::get_operand_value", "parser_library/src/context/instruction.cpp: machine_instruction::check"]}
{"id": "C93", "title": "An extended mnemonic means its base instruction with the fixed operands filled in", "statement": "A statement with an extended mnemonic is accepted if and only if the base instruction is accepted with the fixed operand values written in their places, and it then takes the same storage.", "quantifier": "every extended mnemonic of the table and every list of operands", "why_tests_cant": "about 940 mnemonics, any number of operands, any values", "anchors": ["parser_library/src/processing/instruction_sets/low_language_processor.cpp: check, transform_mnemonic, transform_default", "parser_library/src/context/instruction.cpp: get_mnemonic_codes", "parser_library/src/checking/instruction_checker.cpp: machine_checker::check"]}
{"id": "C94", "title": "Checking a machine instruction never leaves its operand lists", "statement": "Whatever operands are written after a machine instruction or an extended mnemonic, checking the statement ends with a verdict; it never reads or writes outside an operand list and never follows a missing operand.", "quantifier": "every opcode of both tables and every list of operands", "why_tests_cant": "any number of operands after any of 2300 opcodes", "anchors": ["parser_library/src/processing/instruction_sets/low_language_processor.cpp: transform_mnemonic, check", "parser_library/src/context/instruction.cpp: machine_instruction::check, get_mnemonic_codes"]}
{"id": "C95", "title": "Machine instructions follow one another by the length of their formats", "statement": "A machine instruction occupies two, four or six bytes as its format says, starting at the next halfword; its label is the address of the first byte with the length attribute equal to that size. The operands the table asks for are the fields of the format.", "quantifier": "every instruction of the table and every sequence of machine instructions", "why_tests_cant": "one wrong entry of the table shifts every later address of the program", "anchors": ["parser_library/src/context/instruction.h: mach_format, machine_instruction::get_length_by_format", "parser_library/src/context/instruction.cpp: get_machine_instructions", "parser_library/src/processing/instruction_sets/mach_processor.cpp: process"]}
{"id": "C96", "title": "The name a file is reported under leads back to the file", "statement": "Translating the path of a file to the URI given to the client and translating the URI back yields the path; so what the client opens from a diagnostic or a definition is the file meant, and two files are never reported under one URI.", "quantifier": "every absolute path", "why_tests_cant": "paths are arbitrary byte strings", "anchors": ["language_server/src/feature.cpp: uri_to_path, path_to_uri"]}
{"id": "C97", "title": "A logical immediate operand can be any bit pattern of its field", "statement": "Where an instruction takes its immediate operand as a bit pattern or an unsigned number, every value from 0 to the largest of the field is accepted; X'80' after XI is as good as after OI.", "quantifier": "every instruction of the table with a logical immediate operand and every value of its field", "why_tests_cant": "every value of every such operand; the existing tests write small values only", "anchors": ["parser_library/src/context/instruction.cpp: get_machine_instructions", "parser_library/src/checking/instr_operand.cpp: one_operand::check"]}
{"id": "C98", "title": "A macro definition is its statements up to its own MEND with the members copied in place", "statement": "When a macro is defined, its stored body consists of exactly the statements behind the prototype up to the MEND that belongs to it, inner definitions included, with the statements of every copied member directly behind the COPY statement (which itself becomes a statement without effect), to any depth of copying. Each stored statement carries the chain of places it came from. The statements behind the MEND stay in the file and are processed as open code. A missing MEND is reported, and so are members that do not exist or that copy themselves; a copied member can neither end the macro nor open a definition it does not close.", "quantifier": "every list of statements behind a prototype, every library of members, every set of members already open", "why_tests_cant": "the nesting of definitions and of COPY is unbounded and members may copy each other in cycles", "anchors": ["parser_library/src/processing/statement_processors/macrodef_processor.cpp: process_statement, process_MACRO, process_MEND, process_COPY", "parser_library/src/processing/statement_processors/copy_processor.cpp", "parser_library/src/processing/processing_manager.cpp: start_processing, find_provider", "parser_library/src/processing/instruction_sets/asm_processor.cpp: process_copy"]}
{"id": "C99", "title": "A branch inside a macro goes to the statement that carries the sequence symbol", "statement": "When a macro branches to a sequence symbol, processing goes on with the first statement of the macro that has the symbol in its name field and does not belong to an inner definition, wherever members were copied; if there is none the branch is reported. Every further statement of the macro with the same symbol is reported as a duplicate, and labels of inner definitions are neither found nor reported.", "quantifier": "every macro body, every library, every sequence symbol", "why_tests_cant": "every combination of labels, inner definitions and copied members before the label shifts the stored offset", "anchors": ["parser_library/src/processing/statement_processors/macrodef_processor.cpp: process_sequence_symbol", "parser_library/src/processing/processing_manager.cpp: jump_in_statements", "parser_library/src/processing/statement_providers/macro_statement_provider.cpp: get_next"]}
{"id": "C53", "title": "The lines shown as part of a macro are the lines of its definition", "statement": "For hovering, completion and going to definitions a line is treated as part of a macro exactly if it lies in the definition, from the prototype to the MEND, and not inside a definition nested in it; in a member copied into the macro, the lines of the member belong to the macro.", "quantifier": "every definition, every line of every file that contributes to it", "why_tests_cant": "the ranges are pieced together from statement numbers over all nestings of definitions and members", "anchors": ["parser_library/src/processing/statement_processors/macrodef_processor.cpp: add_correct_copy_nest", "parser_library/src/lsp/file_info.cpp: transform_slice, transform_slices", "parser_library/src/lsp/lsp_context.cpp: distribute_macro_i"]}
{"id": "C59", "title": "Computing the lines of a macro never reads outside the list of its statements", "statement": "For every macro definition, finished or cut off by the end of the file, the conversion of its scopes into ranges of lines only looks at statements the macro has.", "quantifier": "every list of statements behind a prototype, every library", "why_tests_cant": "the end of the file can come after any statement of any nesting", "anchors": ["parser_library/src/lsp/file_info.cpp: transform_slice", "parser_library/src/processing/statement_processors/macrodef_processor.cpp: add_correct_copy_nest"]}
{"id": "C78", "title": "The parameters of a macro are those written in its prototype", "statement": "The prototype of a macro gives every operand its parameter: positional parameters keep their positions, keyword parameters their names and defaults, no name occurs twice, and an operand that cannot be a parameter is reported.", "quantifier": "every prototype: label, instruction and list of operands", "why_tests_cant": "lists of operands are unbounded and every combination of valid, duplicate, omitted and malformed operands can occur", "anchors": ["parser_library/src/processing/statement_processors/macrodef_processor.cpp: process_prototype, process_prototype_label, process_prototype_instruction, process_prototype_operand"]}
{"id": "C79", "title": "A macro receives the operands as written, with variable symbols replaced", "statement": "Each operand of a macro call becomes one argument, in the order written: for the keyword parameter it names, otherwise for the next position. Its text is the text written, with every variable symbol replaced by its value and the full stop directly behind a variable symbol left out; a list in parentheses stays a list, and two operands with the same text after replacement are passed alike. Unknown keywords and keywords given twice are reported, nothing else.", "quantifier": "every macro, every list of operands, all values of variable symbols", "why_tests_cant": "operands nest lists, texts and variable symbols without bound and the values are arbitrary texts", "anchors": ["parser_library/src/processing/instruction_sets/macro_processor.cpp: get_operand_args, get_keyword_arg, create_macro_data, create_macro_data_inner", "parser_library/src/semantics/concatenation.cpp: evaluate, to_string, contains_var_sym", "parser_library/src/semantics/concatenation_term.cpp: evaluate"]}
{"id": "C100", "title": "ORG sets the location counter to the location asked for", "statement": "ORG sets the location counter to the location its first operand names, moved up to the boundary given by the second operand and by the offset given by the third; without a first operand it starts from the highest location used so far in the counter. An ORG that names no location of the current section, a boundary that is not a power of two from 2 to 4096, or a location before the section is reported and leaves the counter alone; nothing else is reported.", "quantifier": "every list of operands, every symbol table, every sequence of data and ORG statements before it", "why_tests_cant": "the highest location depends on the whole history of reservations and ORG statements, and operands are arbitrary expressions", "anchors": ["parser_library/src/processing/instruction_sets/asm_processor.cpp: process_ORG, check_address_for_ORG", "parser_library/src/context/ordinary_assembly/location_counter.cpp: set_value, org, set_available_value, reserve_storage_area", "parser_library/src/context/ordinary_assembly/ordinary_assembly_context.cpp: set_location_counter_value, set_available_location_counter_value"]}
{"id": "C101", "title": "Location counters of a section are laid out one behind the other", "statement": "A program with LOCTR has the same locations as the program in which the statements of each location counter stand together, the counters in the order of their first LOCTR, whatever the order in which counters are resumed and whenever the lengths of gaps become known.", "quantifier": "every section: any sequence of LOCTR statements, reservations, gaps of unknown length and definitions of their lengths", "why_tests_cant": "counters can be interleaved and lengths become known in any order", "anchors": ["parser_library/src/context/ordinary_assembly/ordinary_assembly_context.cpp: set_location_counter, finish_module_layout", "parser_library/src/context/ordinary_assembly/section.cpp: set_location_counter", "parser_library/src/context/ordinary_assembly/location_counter.cpp: finish_layout"]}
{"id": "C102", "title": "Assembler instructions are accepted exactly with the operands their messages ask for", "statement": "For each of CNOP, ICTL, ISEQ, ENTRY, EXTRN, WXTRN, END, MNOTE, OPSYN, PUSH, POP, PRINT, PUNCH, RMODE, AMODE, TITLE, DROP, CCW, ALIAS, AINSERT, ADATA, CATTR, EXITCTL, XATTR, ACONTROL, SPACE, CEJECT, START and the instructions without operands: a statement gets no diagnostic exactly when its operands are what the texts of the diagnostics ask for. A statement that is refused gets exactly one diagnostic, and it is put at the statement, at an operand that is there or at a parameter that is there.", "quantifier": "every instruction of the list, every number of operands, every operand: simple with any text and with or without a value, with any number of parameters, or empty", "why_tests_cant": "texts, values, parameters and their combinations are unbounded; the tests try a few of each and none for hexadecimal ALIAS", "anchors": ["parser_library/src/checking/asm_instr_check.cpp", "parser_library/src/checking/asm_instr_class.cpp", "parser_library/src/checking/checker_helper.h", "parser_library/src/checking/instruction_checker.cpp: assembler_checker::check", "parser_library/src/diagnostic.cpp"]}
{"id": "C103", "title": "Editing before the continuation column keeps the continuation in its column", "statement": "With the continuation handling of the VS Code extension on: backspace, delete and cut before the continuation column of a continued line remove exactly the selected text (or the character beside the cursor), and the continuation character and everything behind it stay in their columns. Text typed or pasted there comes in at the cursor and takes the place of blanks before the continuation, if there are as many; no other character is lost. Text typed over a selection does what deleting the selection and typing do. In lines without a continuation the commands do what the editor does by default.", "quantifier": "every document, every line, every selection or cursor in it, every text, every column of the continuation", "why_tests_cant": "lines, selections in both directions and texts are unbounded; the tests use a mock that applies edits one after the other and check a few positions", "anchors": ["clients/vscode-hlasmplugin/src/customEditorCommands.ts", "clients/vscode-hlasmplugin/src/extension.ts"]}
{"id": "C104", "title": "Adding a continuation line and removing it are inverse to each other", "statement": "The command that adds a continuation puts the continuation character into its column of the current line and a new line behind it; on a continued line it puts a continued line behind it. The command that removes a continuation takes the current line away if the previous one is continued, and the previous line stays continued exactly if the current one was; otherwise it changes nothing. Removing what was added gives the old text, up to blanks at the end of the line.", "quantifier": "every document, every line, every cursor, every column of the continuation and of the start of continuation lines", "why_tests_cant": "lines and documents are unbounded; the tests look at two lines", "anchors": ["clients/vscode-hlasmplugin/src/continuationHandler.ts", "clients/vscode-hlasmplugin/src/extension.ts"]}
{"id": "C105", "title": "Completion offers what can stand at the cursor", "statement": "Behind an ampersand the variable symbols, behind a period the sequence symbols of the macro definition the cursor is in are offered, outside of macro definitions those of open code. With the cursor in the instruction field of a statement (not in a comment, not in a continuation line) the built-in instructions and all known macros are offered, and nowhere else. The request is answered at every position of the document.", "quantifier": "every document, every position in it, every trigger, every set of macros", "why_tests_cant": "documents and positions are unbounded; whether a regular expression accepts exactly the intended texts is a statement about all strings", "anchors": ["parser_library/src/lsp/lsp_context.cpp: completion, should_complete_instr, complete_var, complete_seq, complete_instr", "parser_library/src/lsp/text_data_ref_t.cpp"]}
{"id": "C106", "title": "The documentation of a macro is its prototype and the comments around it", "statement": "The text shown for a macro by completion and hover consists of its prototype with all its continuation lines, the comment lines directly above its MACRO instruction and those directly below the prototype, complete and in order, and nothing else; it can be produced for every macro.", "quantifier": "every file, every position of the macro in it, blocks of comments and prototypes of any length", "why_tests_cant": "comment blocks and prototypes are unbounded", "anchors": ["parser_library/src/lsp/lsp_context.cpp: get_macro_documentation, is_comment, is_continued_line"]}
{"id": "C107", "title": "Attribute references mean the thing they name", "statement": "In conditional assembly, L'A, T'A, S'A, I'A, D'A and O'A give the recorded attributes of the symbol or operation A, with a diagnostic and the default value if there is none. With a variable symbol in place of A the reference is to the symbol its value names, possibly qualified, in parentheses or followed by an operator; T' is O for an empty value and N for a self-defining term. K' is the number of characters of the value, N' the number of its elements. References to symbols not known yet look ahead for them. The result is always defined.", "quantifier": "every symbol table, every variable, every subscript list and every value", "why_tests_cant": "values and subscripts are unbounded texts and lists; the existing tests use single values without subscripts", "anchors": ["parser_library/src/expressions/conditional_assembly/terms/ca_symbol_attribute.cpp: evaluate, try_extract_leading_symbol, get_undefined_attributed_symbols", "parser_library/src/context/hlasm_context.cpp: get_attribute_value_ca, get_type_attr, get_opcode_attr", "parser_library/src/processing/context_manager.cpp: get_var_sym_value, test_symbol_for_read", "parser_library/src/context/variables/set_symbol.h: number, count"]}
{"id": "C108", "title": "Looking ahead gives a symbol the attributes its definition will give it", "statement": "When an attribute of a symbol that is not defined yet is needed, the statements ahead are searched for its definition. The attribute found there is the one the symbol has once it is defined, with the same diagnostics, provided the operands of the definition refer to nothing defined in between. The first statement labelled with the symbol counts; what was found once stays; a symbol that labels no statement ahead has type U and the default values. The second and third operand of EQU are length and type, without them the length is that of the first symbol of the value.", "quantifier": "every symbol table at the time of the search, every later table that extends it, every labelled statement, every sequence of statements and every set of symbols looked for", "why_tests_cant": "two separate pieces of code have to agree for all expressions, tables and statements; tests compare single cases of one of them", "anchors": ["parser_library/src/processing/statement_processors/lookahead_processor.cpp: assign_EQU_attributes, assign_data_def_attributes, assign_machine_attributes, find_ord, end_processing", "parser_library/src/processing/instruction_sets/asm_processor.cpp: process_EQU, process_data_instruction, process_ORG", "parser_library/src/processing/instruction_sets/mach_processor.cpp: process", "parser_library/src/context/ordinary_assembly/symbol_attributes.cpp"]}
{"id": "C109", "title": "Every mention of a symbol is recorded once, under its name and at its place", "statement": "Finding references and renaming rely on the mentions recorded for each statement. For every statement the recorded mentions of ordinary symbols, variable symbols, sequence symbols and operation codes are those written in it, each as often as it is written, under the name in capitals and at the place of the name, in the file of the statement. The operand of COPY is recorded as the name of a member instead of a symbol. In a macro definition the variable and sequence symbols of the statements outside inner definitions are recorded, with the name of the macro; calls of macros add no variable symbols, sequence symbols or members to open code. A variable symbol of open code has one definition, the first SETx, LCLx or GBLx that declares it.", "quantifier": "every statement with arbitrarily nested expressions, concatenations, sublists and subscripts, every set of operation codes, every sequence of lines of open code, members and macros, every macro definition with inner definitions", "why_tests_cant": "operands nest without bound; tests look at a few references and cannot show that no place in any expression is left out or invented", "anchors": ["parser_library/src/processing/statement_analyzers/occurence_collector.cpp", "parser_library/src/processing/statement_analyzers/lsp_analyzer.cpp: analyze, macrodef_started, macrodef_finished, collect_occurences, collect_copy_operands, collect_var_definition, add_var_def, update_macro_nest"]}
{"id": "C110", "title": "Operands are read as they are written", "statement": "An arithmetic expression in the operand of a machine or assembler instruction or in a data definition is read as the expression that is written: its terms in their order, products before sums, operators of the same strength from the left, signs with the term behind them, each part with its place in the text. Displacement, index and base register are told apart by parentheses and commas. The operands of an instruction are the pieces between the commas outside of parentheses and strings, an empty piece being an empty operand, and what follows the first blank outside of strings is a remark. No text has two readings.", "quantifier": "every sequence of tokens, with expressions and parentheses nested without bound, strings of any content, lists of operands of any length", "why_tests_cant": "the grammar is recursive; tests parse a few operands and cannot show that no other text has a second parse tree or groups otherwise", "anchors": ["parser_library/src/parsing/grammar/machine_expr_rules.g4", "parser_library/src/parsing/grammar/machine_operand_rules.g4", "parser_library/src/parsing/grammar/assembler_operand_rules.g4", "parser_library/src/parsing/grammar/data_def_rules.g4", "parser_library/src/parsing/grammar/operand_field_rules.g4: op_list_mach, op_list_asm, op_list_dat"]}
{"id": "C111", "title": "The message about a syntax error is the first one that is true of the statement", "statement": "Every error the parser raises gets exactly one message. If no alternative of the grammar fits a statement, the message is about parentheses exactly if some parenthesis has no partner: first a right one without a left one, else a left one without a right one. Otherwise it is the first of these that is true: there is nothing but parentheses, an operator is not followed by an expression, an ampersand is not followed by a name, a binary operator is not preceded by an expression, there is a comparison sign, an apostrophe is missing, a label is alone; else it is a plain syntax error.", "quantifier": "every sequence of tokens of a statement, every position of the error in the token stream, every set of expected tokens", "why_tests_cant": "the claim about parentheses is about arbitrarily deep nesting; tests try single statements", "anchors": ["parser_library/src/parsing/parser_error_listener.cpp: syntaxError, iterate_error_stream, get_end_index", "parser_library/src/parsing/error_strategy.h"]}
{"id": "C112", "title": "A text with variable symbols stands for the text with their values put in", "statement": "A label, an operation code or an operand of a model statement, and an operand of a macro to any depth of sublists, stands for exactly the characters written, with every variable symbol replaced by its value and a full stop directly behind a variable symbol left out; quotes, doubled quotes, ampersands, blanks and commas stay. Computing that text never fails.", "quantifier": "every text the grammar of labels, operation codes, model statements and macro operands accepts, every value of the variable symbols", "why_tests_cant": "the rules about quotes and blanks have dozens of alternatives that combine without bound, and sublists nest; tests try single combinations", "anchors": ["parser_library/src/parsing/grammar/label_field_rules.g4", "parser_library/src/parsing/grammar/model_operand_rules.g4", "parser_library/src/parsing/grammar/macro_operand_rules.g4", "parser_library/src/semantics/concatenation.cpp: evaluate, clear_concat_chain", "parser_library/src/semantics/concatenation_term.cpp"]}
{"id": "C113", "title": "Messages of the editor do what they say", "statement": "A message that follows the protocol causes exactly the operation it describes, with its arguments: a document is opened with its text and version, changed by all its changes in their order, closed; folders are removed and added; watched files that changed are passed on; the configuration is asked for when it changed, under an id not used before, and its answer is taken once. A question is answered exactly once, with its id, and the answer holds what the workspace found. Members the server does not know have no influence. Whatever the message is, at most one answer is given and it carries the id of the message; messages about texts and questions do one thing or nothing. A message that does not follow the protocol has no effect and does not end the server.", "quantifier": "every JSON value received, every state of the server, every sequence of messages, every result of the workspace", "why_tests_cant": "tests send single well-formed messages; the claim is about every JSON value and about ids over whole sessions", "anchors": ["language_server/src/lsp/lsp_server.cpp: message_received, on_initialize, request, respond", "language_server/src/server.cpp: call_method", "language_server/src/lsp/feature_text_synchronization.cpp", "language_server/src/lsp/feature_workspace_folders.cpp", "language_server/src/lsp/feature_language_features.cpp", "language_server/src/feature.cpp: parse_range, parse_position"]}
{"id": "C114", "title": "Configuration files mean what they say", "statement": "proc_grps.json and pgm_conf.json are accepted exactly if they have the members described in the documentation with values of the right kind; libraries may be given by their path alone, members that are not known are ignored. After both are accepted, whatever was configured before, the groups are those of the file in its order; a program has the group its entry names, with its options and libraries; a library is at its path, relative to the workspace unless absolute, and its members have its own extensions, else those of the file, else those behind the last '*.' of the wildcards of alwaysRecognize, sorted and without repetition and marked deprecated. There is one message for every group with a SYSPARM that is too long and one for every program of an unknown group, and no other. A file that is not accepted is reported, changes no limit, and a bad proc_grps.json changes nothing at all. A configuration that is written out is read back as it was.", "quantifier": "every JSON value as contents of either file, every configuration before, every list of groups, libraries, programs and wildcards, every way to normalise paths", "why_tests_cant": "tests use a few fixed files; the claim is about every JSON value and combination of defaults", "anchors": ["parser_library/src/config/proc_conf.cpp", "parser_library/src/config/pgm_conf.cpp", "parser_library/src/workspaces/workspace.cpp: load_and_process_config, load_config", "parser_library/src/workspaces/processor_group.h"]}
{"id": "C115", "title": "Requests of the debug client do what they say", "statement": "A request that follows the debug adapter protocol gives the debugger exactly the command it describes: the program is launched with or without a stop, breakpoints are set in the file and at the lines asked for, steps are taken once. It is answered once, with its number and command, and the answer holds what the debugger found: frames at their places counted from the bases the client named, scopes and variables under the reference asked for. Whatever is received, there is at most one answer, it comes before any other message, and the numbers of messages count up. Without a debugger the commands that need one do nothing. A request that is refused does nothing at all, and does not end the program. There is a debugger exactly between initialize and disconnect.", "quantifier": "every JSON value received, every state of the adapter, every session of messages, every answer of the debugger", "why_tests_cant": "tests send a few well-formed requests; the claim is about every JSON value and about whole sessions", "anchors": ["language_server/src/dap/dap_feature.cpp", "language_server/src/dap/dap_server.cpp: message_received, respond, notify", "language_server/src/server.cpp: call_method"]}
{"id": "C116", "title": "Options of *PROCESS are checked as documented", "statement": "A *PROCESS statement is accepted exactly if it has operands and each of its options, which may stand in the parentheses of OVERRIDE, is one of the options known with parameters as the messages describe them: names from fixed lists, numbers in their ranges, dates that exist, code pages in decimal or hexadecimal form. Otherwise there is one message about the first option that is wrong, it says what is wrong with it and stands at its place. The check ends for every list of options.", "quantifier": "every list of operands with every text, number and nesting of parameters", "why_tests_cant": "tests try a handful of options; the claim is about every text, every number and every combination", "anchors": ["parser_library/src/checking/asm_instr_check.cpp: process", "parser_library/src/checking/asm_instr_class.cpp: check_process_operands, check_codepage_parameter, check_using_warn, check_using_limit, check_fail_parameter"]}
{"id": "C118", "title": "The help for an instruction shows the operands it takes", "statement": "Hovering over a machine instruction shows its operands in the notation of manuals: separated by commas, those that may be left out in brackets; completion inserts the same. The text can be read in one way only and determines which operands are accepted. For an extended mnemonic the operands left to the user are shown, which are exactly those that may be written, and the operands of the instruction it stands for with the values of the mnemonic in their places. Assembler and conditional assembly instructions are described as such, nothing is shown for other names, and no name has two descriptions.", "quantifier": "every machine instruction, mnemonic, assembler and conditional assembly instruction; every other name; every list of operands", "why_tests_cant": "tests look at a few of the more than two thousand texts; that a text determines what is accepted is a claim about all statements", "anchors": ["parser_library/src/lsp/completion_item.cpp: instruction_completion_items_", "parser_library/src/checking/instr_operand.cpp: machine_operand_format::to_string, parameter::to_string", "parser_library/src/lsp/lsp_context.cpp: find_hover", "parser_library/src/context/instruction.cpp: mach_format_to_string, assembler_instructions, ca_instructions"]}
{"id": "C117", "title": "Go to definition leads to the declaration that counts, and the text over a symbol describes it", "statement": "On a variable symbol of a macro, go to definition leads to the prototype for a parameter, and otherwise to the first SETx, LCLx or GBLx statement of the macro that names it and is not part of an inner definition, in the file that statement is written in, however deep it was copied; on a sequence symbol to the first statement with it in the name field; in open code to the first declaration executed outside of macros; on an ordinary symbol, a macro instruction or the operand of COPY to the symbol, the prototype or the member. Without a definition the answer is the place asked about. The text over a variable symbol tells the kind of the same declaration, and the text over an ordinary symbol determines its value and its attributes.", "quantifier": "every macro body with members copied to any depth, every list of parameters and declarations, every open code; every pair of ordinary symbols", "why_tests_cant": "the place depends on numbers of statements kept while members are entered and left and on the nesting of definitions; that the text determines the value is a claim about all pairs of symbols", "anchors": ["parser_library/src/processing/statement_processors/macrodef_processor.cpp: process_SET, process_LCL_GBL, add_SET_sym_to_res, process_sequence_symbol", "parser_library/src/processing/statement_analyzers/lsp_analyzer.cpp: add_var_def", "parser_library/src/lsp/lsp_context.cpp: definition, find_definition_location, find_hover, hover_text, add_file", "parser_library/src/context/ordinary_assembly/address.cpp: to_string"]}
{"id": "C119", "title": "Macros and copied members are processed in place, and every statement and diagnostic is shown with the statements that led to it", "statement": "The statements of a program without branches are processed in the order of the text in which each macro call is followed by the statements of the macro and each COPY by the statements of the member. The run ends for every program: a member that is being copied is not entered again (E062), and where a hundred macros are nested the next statement gives all of them up (E055) and processing goes on behind the outermost call. The stack shown by the debugger and in the related information of diagnostics ('While compiling ...') consists of the statement itself and the calls and COPY statements that led to it; a diagnostic is put into the file and on the line of the statement it is about.", "quantifier": "every open code, every set of members and macros, calling and copying one another in any way", "why_tests_cant": "the order and the stack come from three kinds of positions that are advanced separately while macros and members are entered and left in any nesting; that every recursive program ends is a claim about all programs", "anchors": ["parser_library/src/processing/processing_manager.cpp: start_processing, find_provider", "parser_library/src/processing/statement_providers/copy_statement_provider.cpp, macro_statement_provider.cpp: get_next", "parser_library/src/processing/statement_processors/ordinary_processor.cpp: process_statement, check_fatals", "parser_library/src/processing/instruction_sets/asm_processor.cpp: process_copy", "parser_library/src/context/hlasm_context.cpp: processing_stack, enter_macro, leave_macro, enter_copy_member, leave_copy_member", "parser_library/src/diagnosable_ctx.h: add_diagnostic_inner"]}
{"id": "C120", "title": "Requests are answered from analyses of the current texts", "statement": "Whatever the order in which documents are opened, edited and closed and files change on the disk: go to definition, hover, references, completion and diagnostics for an open document come from an analysis that has read the current text of every file it asked for, that is the editor's buffer of an open document and else the content of the disk. An analysis made now would ask for the same files and find the same texts in them.", "quantifier": "every history of opening, editing, closing documents and of changes on the disk; every way in which programs choose the macros and members they ask for", "why_tests_cant": "which programs are analysed again depends on the dependencies recorded by earlier analyses and on which texts are kept; stale answers appear only after particular histories over several documents", "anchors": ["parser_library/src/workspaces/workspace.cpp: parse_file, did_close_file, find_related_opencodes, filter_and_close_dependencies_", "parser_library/src/workspaces/processor_file_impl.cpp: parse, parse_macro", "parser_library/src/workspaces/file_impl.cpp: get_text, load_text, did_close", "parser_library/src/workspaces/file_manager_impl.cpp: did_open_file, did_change_file, did_close_file", "parser_library/src/context/hlasm_context.cpp: get_visited_files, enter_macro, add_copy_member", "parser_library/src/workspace_manager_impl.h: did_change_watched_files"]}
{"id": "C121", "title": "Conditional assembly expressions have the values they mean", "statement": "The operand of a SETA, SETB, SETC, AIF, AGO or ACTR statement, however its parentheses, operators, functions, strings and variable symbols are nested, gets the value composed of the values of its parts by the documented rules of their kinds: operands of arithmetic and logical operators, of comparisons (as strings if the left operand is a character expression), of functions, bounds of substrings and duplication factors. An operand without such a value is refused or reported, and one with a value is not.", "quantifier": "every expression of any depth, every kind of operand, every assignment of values to variable symbols, ordinary symbols, attributes and behaviour of built-in functions", "why_tests_cant": "the kind of a part depends on everything around it, and values of the wrong kind are converted silently; errors appear only in particular combinations of nesting, kinds and values", "anchors": ["parser_library/src/expressions/conditional_assembly/ca_operator_binary.cpp", "parser_library/src/expressions/conditional_assembly/ca_operator_unary.cpp", "parser_library/src/expressions/conditional_assembly/ca_expression.cpp: convert_return_types", "parser_library/src/expressions/conditional_assembly/terms/ca_expr_list.cpp", "parser_library/src/expressions/conditional_assembly/terms/ca_var_sym.cpp", "parser_library/src/expressions/conditional_assembly/terms/ca_function.cpp", "parser_library/src/expressions/conditional_assembly/terms/ca_string.cpp", "parser_library/src/parsing/grammar/ca_expr_rules.g4"]}
{"id": "C122", "title": "SETx, GBLx, LCLx and AREAD do what they say", "statement": "A SETx statement assigns its operands to its variable, or to the elements from the given one on, and makes the variable if there is none; LCLx makes variables of that type and shape here, GBLx the ones of all that declare them; AREAD assigns the next record or the time of the day. A macro call begins with its parameters and system variables only, and a return restores what was visible. Everything else stays as it was, and a statement that cannot be carried out changes nothing and is reported.", "quantifier": "every sequence of such statements, calls and returns, every operand including those that depend on the values of variables, every number of records left, every time of the day", "why_tests_cant": "what a name stands for depends on all declarations, assignments and calls before it; variables of one name in different scopes and globals shared through chains of calls multiply beyond any finite set of tests", "anchors": ["parser_library/src/processing/instruction_sets/ca_processor.cpp: prepare_SET_symbol, prepare_SET_operands, prepare_GBL_LCL, test_symbol_for_assignment, process_AREAD", "parser_library/src/processing/instruction_sets/ca_processor.h: process_SET, process_GBL_LCL", "parser_library/src/aread_time.cpp", "parser_library/src/context/hlasm_context.cpp: enter_macro, create_local_variable, create_global_variable"]}
{"id": "C123", "title": "Statements go to the section and location counter that was chosen, and macros see it", "statement": "CSECT, DSECT, RSECT and COM begin the named section or go on in it with the location counter used there last; LOCTR goes on with a location counter wherever it is or begins one in the present section; storage and labels before any of them go to an unnamed section. A name in use for something else is reported and nothing changes. In a macro, &SYSECT, &SYSSTYP and &SYSLOC tell the place of the call, &SYSNEST and &SYSMAC the calls around it; &SYSDATC, &SYSDATE and &SYSTIME show date and time in their fixed forms.", "quantifier": "every sequence of section and location counter statements, labels, macro calls and returns, with any names, and every date until the year 9999", "why_tests_cant": "where a statement goes depends on all sections and counters before it, and a name may have been used for anything; interleavings are without limit", "anchors": ["parser_library/src/context/ordinary_assembly/ordinary_assembly_context.cpp: set_section, set_location_counter, create_private_section, counter_defined", "parser_library/src/context/ordinary_assembly/section.cpp", "parser_library/src/processing/instruction_sets/asm_processor.cpp: process_sect, process_LOCTR, process", "parser_library/src/processing/instruction_sets/low_language_processor.cpp: find_label_symbol, preprocess_inner", "parser_library/src/context/hlasm_context.cpp: add_system_vars_to_scope, add_global_system_vars"]}
{"id": "C124", "title": "Files are recognised as HLASM exactly when the configuration or the text says so", "statement": "A plain text document that is shown in the editor becomes an HLASM document exactly when the configuration names it (as a program, by a wildcard of alwaysRecognize, as a member of a library of a processor group), or when autodetection is on and its first line is MACRO or more than 4 of 10 lines are HLASM lines. A changed configuration counts from the moment it is saved in the editor. Documents of other languages are left alone; missing configuration files are asked for when an HLASM document is shown; nothing is ever recognised by its path that no configuration has named.", "quantifier": "every configuration, every path and text, and every history of changes on the disk, saves, documents shown, answers and settings", "why_tests_cant": "the recognition depends on the state left by all events before; patterns, paths and texts are without limit", "anchors": ["clients/vscode-hlasmplugin/src/hlasmLanguageDetection.ts: setHlasmLanguage, checkHlasmLanguage", "clients/vscode-hlasmplugin/src/configurationsHandler.ts: match, checkConfigs, updateWildcards, convertWildcardToRegex, updateConfigPaths", "clients/vscode-hlasmplugin/src/eventsHandler.ts: initialize, editorChanged, onDidSaveTextDocument", "docs/Extension.md: Language Detection, Configuration Prompt"]}
{"id": "C125", "title": "Diagnostics are hidden exactly when a program without a processor group has too many of them", "statement": "The diagnostics of a program without a processor group are shown if there are not more of them than the limit (of pgm_conf.json, otherwise of the settings), and hidden otherwise. The diagnostics of a program with a processor group are never hidden. Whenever diagnostics are hidden the user is told, but not again before they have been shown again or the document has been closed.", "quantifier": "every history of documents opened, changed and closed, configuration files and settings changed; every outcome of the analyses", "why_tests_cant": "what is shown and whether a message appears depends on the whole history of all documents", "anchors": ["parser_library/src/workspaces/workspace.cpp: parse_file, delete_diags, did_close_file", "parser_library/src/workspaces/processor_file_impl.cpp: parse, parse_inner", "parser_library/src/workspace_manager_impl.h: configuration_changed", "README.md: Suppression of Diagnostics"]}
{"id": "C126", "title": "The text is coloured as the server classifies it, in every editor that shows it", "statement": "In every visible editor of an HLASM document exactly the tokens of the server's last answer are coloured, each on its own place and with the colour that the settings name for its kind; editors of other documents are not coloured.", "quantifier": "every history of answers, editors shown and hidden, documents closed and languages changed; every answer", "why_tests_cant": "decorations are state kept in the editor across answers, documents and editors; a leftover only shows after particular histories", "anchors": ["clients/vscode-hlasmplugin/src/semanticTokens.ts: applyDecorations, colorize, askForTokens", "clients/vscode-hlasmplugin/src/eventsHandler.ts: onDidChangeVisibleTextEditors", "language_server/src/lsp/feature_language_features.cpp: register_capabilities, convert_tokens_to_num_array", "clients/vscode-hlasmplugin/package.json: contributes.colors"]}
{"id": "C127", "title": "Before a statement is processed, all symbols whose attributes it asks for have been looked up", "statement": "A statement that refers to attributes of symbols not defined yet is processed only after the rest of the program has been searched for them: when it is processed, nothing that the program could still tell about symbols would change its instruction, its name field, its operands or its diagnostics. The program is searched only for unknown symbols whose attributes the statement refers to, and only as often as these references are nested.", "quantifier": "every statement: every nesting of expressions, functions, subscripts, created variable symbols, strings and sublists; every value of the variables; whatever operators and functions compute; every outcome of the searches", "why_tests_cant": "which symbols are needed depends on values that themselves depend on attributes, through arbitrary nesting; tests settle a few shapes", "anchors": ["parser_library/src/processing/statement_providers/statement_provider.cpp: try_trigger_attribute_lookahead, process_label, process_instruction, process_operands", "parser_library/src/expressions/conditional_assembly/terms/ca_symbol_attribute.cpp: get_undefined_attributed_symbols", "parser_library/src/expressions/conditional_assembly/terms/ca_var_sym.cpp: get_undefined_attributed_symbols_vs", "parser_library/src/semantics/concatenation.cpp: get_undefined_attributed_symbols"]}
{"id": "C128", "title": "Lengths of data that depend on themselves are reported and given up, and nothing else is", "statement": "When a definition makes the lengths of some storage areas depend on themselves (for instance `A DS (C-B)C`, `B DS (B-A)C`, `C ...`), the definition is reported as cyclic, and afterwards no such circle is left, so that all other lengths can be computed. A definition that makes no length depend on itself is not reported, and no length is given up that is not part of a circle.", "quantifier": "every graph of dependencies between lengths, of any size and shape, every order in which the tables are walked through, every definition", "why_tests_cant": "the search uses its own marks of visited edges and must find the circles of every graph in every order of a hash table; tests settle small graphs in one order", "anchors": ["parser_library/src/context/ordinary_assembly/symbol_dependency_tables.cpp: symbol_dependency_tables::check_loctr_cycle", "parser_library/src/context/ordinary_assembly/ordinary_assembly_context.cpp: create_symbol", "parser_library/src/processing/instruction_sets/low_language_processor.cpp: create_symbol"]}
{"id": "C129", "title": "Searching ahead looks at all statements ahead and only at those", "statement": "When attributes of symbols are asked for that are not defined yet, or a branch goes to a sequence symbol not met yet, the statements ahead are searched: copied members in their place, to any depth, but not the statements inside macro definitions. A symbol gets the attributes of the first statement ahead that it labels; it is unknown if there is none. A branch succeeds exactly if a statement ahead carries the sequence symbol. Where earlier searches have stopped makes no difference, and every search ends.", "quantifier": "every open code and set of members, members that copy each other included, every sequence of searches at any places the program comes through, every set of symbols asked for", "why_tests_cant": "a search continues where an earlier one stopped, inside any nesting of members; what it finds depends on the history of all searches and on the nesting of definitions and members", "anchors": ["parser_library/src/processing/statement_processors/lookahead_processor.cpp: lookahead_processor::process_statement, find_seq, find_ord, process_COPY", "parser_library/src/processing/processing_manager.cpp: start_processing, find_provider, start_lookahead, finish_lookahead", "parser_library/src/processing/statement_providers/copy_statement_provider.cpp: get_next", "parser_library/src/context/processing_context.cpp: source_context::create_snapshot", "parser_library/src/processing/instruction_sets/asm_processor.cpp: process_copy"]}
{"id": "C130", "title": "Messages arriving in pieces are passed on whole", "statement": "The WebAssembly build of the server and the proxy for debuggers find the messages in the data they receive: exactly those that have come completely are passed on, each once, unchanged and in order, however the data is cut into pieces, whatever the texts contain and whichever further header lines follow the length. What either of them writes is read back unchanged. A message that is not JSON costs the server no other message.", "quantifier": "every list of messages with any texts and further header lines, every way to cut the data into pieces, every point at which it stops", "why_tests_cant": "the buffer is cut and searched again with every piece; a search can meet half a label, half a line end or a text that looks like a header, and there is a case for every place the data can be cut at", "anchors": ["language_server/src/emscripten_server_streams.cpp: emscripten_std_setup, data_event_handler, read, write", "clients/vscode-hlasmplugin/src/hlasmDebugAdapterFactory.ts: setup_theia_compatibility_server"]}
{"id": "C131", "title": "A program with macros, variables and branches generates what it means", "statement": "What comes out of a program of conditional assembly - the generated statements and the diagnostics, in their order - and the values its global variables end up with are those of its meaning: statements are obeyed one after the other, a branch goes to the first statement of the same macro or of the open code that carries the sequence symbol, wherever it is, a call obeys the body of the macro as it was last defined with parameters, variables, branch counter and number of its own and then goes on behind the call, and the limits of nested calls, branches and ACTR end the macros, the macro or the program. Every program comes to its end.", "quantifier": "every open code and every set of macros calling each other, every meaning of expressions, conditions and texts", "why_tests_cant": "a test runs one program; what the statements do to each other through the stack of scopes, the table of sequence symbols and the text looked at ahead shows only in combinations of calls, branches and declarations, of which there are infinitely many", "anchors": ["parser_library/src/processing/processing_manager.cpp: start_processing, find_provider, jump_in_statements, register_sequence_symbol, start_lookahead, finish_lookahead", "parser_library/src/processing/statement_processors/ordinary_processor.cpp: process_statement, check_fatals", "parser_library/src/processing/instruction_sets/ca_processor.cpp", "parser_library/src/processing/instruction_sets/macro_processor.cpp: process", "parser_library/src/context/hlasm_context.h: create_global_variable, create_local_variable", "parser_library/src/context/hlasm_context.cpp: get_var_sym, enter_macro, leave_macro", "parser_library/src/processing/statement_providers/macro_statement_provider.cpp: get_next"]}
{"id": "C132", "title": "Symbols get the values the program states", "statement": "When a program of data, labels and EQU has been assembled and nothing is left undefined, the values of its symbols satisfy the program: every EQU symbol is worth its expression, every label stands at the place where its data begins - the data before it, as long as their lengths say, and the boundary of its own data - however many of the lengths and expressions refer to symbols defined further below, and in whatever order the assembler comes to know them.", "quantifier": "every program of one section, every order in which the dependencies are resolved", "why_tests_cant": "forward references make the places of labels depend on values found later; which parts of the location counter are then still open, and in which order they are closed, is different in every program", "anchors": ["parser_library/src/processing/instruction_sets/asm_processor.cpp: process_EQU, process_data_instruction", "parser_library/src/context/ordinary_assembly/ordinary_assembly_context.cpp: create_symbol, reserve_storage_area, align, finish_module_layout", "parser_library/src/context/ordinary_assembly/symbol_dependency_tables.cpp: resolve, add_dependency", "parser_library/src/context/ordinary_assembly/location_counter.cpp: current_address, register_space, resolve_space", "parser_library/src/context/ordinary_assembly/address.cpp", "parser_library/src/expressions/mach_expr_term.cpp", "parser_library/src/context/ordinary_assembly/alignment.h"]}
{"id": "C133", "title": "The parser gets every token of the text once and in order, whatever it tries", "statement": "The parser sees the tokens the lexer made that pass the filter it has switched on (continuations, tokens outside of the statement columns), in the order of the text, each once; looking at the next token or at earlier ones changes nothing, going back after an attempt brings back the same tokens, how many tokens have been made already makes no difference, and the stream fails only if the end of the text is read.", "quantifier": "every text of tokens, every sequence of looking, reading, looking back, switching the filter and going back", "why_tests_cant": "the parser decides at run time how far it tries alternatives and where it goes back to; tokens that are filtered can stand between any two others", "anchors": ["parser_library/src/lexing/token_stream.cpp: LT, LB, next_token_on_channel, adjustSeekIndex, is_on_channel, getText, setup", "parser_library/src/lexing/token_stream.h"]}
{"id": "C134", "title": "Definitions that do not go round in circles are all resolved, always to the same values", "statement": "A program of EQU statements, labels, DS statements whose factors may be expressions, and alignments, in which no symbol is defined twice and no definition depends on itself, is assembled without a message about circles, nothing is left unresolved at its end, every symbol has the value that the definitions determine, and the order in which waiting definitions are resolved makes no difference.", "quantifier": "every program of one section, every order in which waiting definitions are resolved", "why_tests_cant": "the resolution of waiting symbols, lengths and alignments is a loop over unordered tables that interleaves with the program; the number of rounds and their order are not bounded by the text", "anchors": ["parser_library/src/context/ordinary_assembly/symbol_dependency_tables.cpp: resolve, resolve_all, resolve_dependencies, resolve_all_loctr, add_dependency, check_cycle, finish_dependencies", "parser_library/src/context/ordinary_assembly/ordinary_assembly_context.cpp: create_symbol, finish_module_layout", "parser_library/src/context/ordinary_assembly/location_counter.cpp"]}
{"id": "C135", "title": "However its path is written, a file is known as one file, and programs and libraries are those the configuration names", "statement": "Two absolute paths that lead to the same place are given the same normal form, and the normal form leads to where the path leads. A library of proc_grps.json is looked for in the directory that its path, read in the folder of the workspace, leads to, whatever dots, double slashes and backslashes it is written with. A program of pgm_conf.json is the file that its path, read in the folder of the workspace, leads to.", "quantifier": "every path (any bytes, any number of names, dots and slashes), every workspace folder; Linux and Windows", "why_tests_cant": "paths are strings of any length in which `.`, `..`, empty names and two kinds of slashes combine freely; tests try a handful", "anchors": ["utils/src/native_path.cpp: is_absolute, lexically_normal, lexically_relative, join, filename, equal", "utils/src/emscripten_path.cpp: the same", "parser_library/src/workspaces/workspace.cpp: workspace::get_proc_grp_by_program, load_and_process_config, find_program_group"]}
{"id": "C136", "title": "Every mistake in the expressions of an instruction is reported once, and every message is in every list that is published", "statement": "Each multiplication or division of an address and each scale or integer attribute of a symbol that has none is reported exactly once for the instruction whose operands contain it, however deep in an expression it stands, and whether or not the symbols are defined before the instruction. A statement that is used again reports nothing left over from before. Every list of messages that is published has every message of every analysed file, every library and every configuration exactly once, and the next one has them again.", "quantifier": "every expression (any depth), any operands and number of operands, any tables of symbols when the instruction is reached and at the end of the program, any number of files, workspaces, groups and libraries, any number of publications", "why_tests_cant": "messages lie in the nodes of expression trees of any depth and are moved up by each parent; statements are shared between macro calls and loops; tests see a few trees and one collection", "anchors": ["parser_library/src/diagnosable_impl.h: collectable_impl::collect_diags_from_child", "parser_library/src/expressions/mach_operator.h: mach_expr_binary::evaluate, collect_diags", "parser_library/src/expressions/mach_expr_term.cpp: mach_expr_data_attr::evaluate", "parser_library/src/semantics/operand_impls.cpp: get_operand_value, collect_diags", "parser_library/src/processing/instruction_sets/low_language_processor.cpp: low_language_processor::check, get_check_op", "parser_library/src/processing/instruction_sets/asm_processor.cpp: asm_processor::process, process_EQU, process_data_instruction", "parser_library/src/workspace_manager_impl.h: notify_diagnostics_consumers"]}
{"id": "C137", "title": "A statement has the label, operation, operands and remarks of its own line", "statement": "Whatever lines were read before, by whatever processors, and whatever fields were parsed again in between, the statement made of a line consists of the fields found in this line; fields of other lines never get into it, missing ones are empty, and reading a line never fails because a field was set before. A line that must be read again because an attribute is looked for first is highlighted once.", "quantifier": "every history of lines and of fields parsed again, any fields found or missing, any kind of processor (ordinary or looking ahead), any form of operands", "why_tests_cant": "the parser, its collector and a second parser with its own collector live for the whole program and are shared by all lines, macro definitions and searches ahead; leftovers show only after particular histories", "anchors": ["parser_library/src/semantics/collector.cpp: collector", "parser_library/src/parsing/parser_impl.cpp: parser_impl::get_next, process_ordinary, process_lookahead, parse_operands, parse_lookahead_operands, process_statement", "parser_library/src/parsing/grammar/operand_field_rules.g4", "parser_library/src/parsing/grammar/lookahead_rules.g4"]}
{"id": "C138", "title": "A debug session and the editor do not disturb each other", "statement": "While a program is being debugged, documents may be opened, changed and closed and configuration and library files may change: the session goes on with the text each file had when the session looked it up, it never fails because of what happens in the editor, and the documents in the editor are what their own notifications say, whatever the session does.", "quantifier": "every interleaving of the thread of the session with the thread that serves the editor, any program and libraries, any history of notifications", "why_tests_cant": "needs all schedules; the session runs in its own thread on files, libraries and processor groups that belong to the workspace, and only the map of files is behind a mutex", "anchors": ["parser_library/src/debugging/debugger.cpp: launch", "parser_library/src/debugging/debug_lib_provider.h: parse_library", "parser_library/src/workspaces/processor_file_impl.cpp: parse_no_lsp_update", "parser_library/src/workspaces/file_manager_impl.cpp: prepare_file_for_change_, add_processor_file, get_processor_file", "parser_library/src/workspaces/library_local.cpp: find_file, refresh", "parser_library/src/workspaces/workspace.cpp: load_config, refresh_libraries"]}
{"id": "C139", "title": "Questions about documents are answered whatever is cancelled", "statement": "Definition, references, hover, completion and semantic tokens are answered for every document, in the order of the messages and without a failure of the server, whatever analyses are broken off because newer text arrives: from a complete analysis of the text the document has after the messages before the question. The answer is empty only if the document is not open or a newer text has already arrived.", "quantifier": "every sequence of didOpen, didChange, didClose and questions about any documents, every interleaving of their arrival with the worker thread, any programs and library members, any point at which an analysis is broken off", "why_tests_cant": "needs all arrival times relative to the running analysis; an analysis that is broken off leaves files without analyses and analyses without their end", "anchors": ["language_server/src/request_manager.cpp: add_request, handle_request_", "parser_library/src/workspace_manager_impl.h: did_open_file, did_change_file, completion, semantic_tokens, notify_performance_consumers", "parser_library/src/workspaces/workspace.cpp: find_related_opencodes, parse_file, did_close_file, filter_and_close_dependencies_", "parser_library/src/workspaces/processor_file_impl.cpp: parse, parse_macro, get_lsp_feature_provider, get_hl_info, get_metrics", "parser_library/src/lsp/lsp_context.cpp: add_opencode, complete_var, complete_seq"]}
{"id": "C140", "title": "Mistakes in DC and DS operands are reported where they are", "statement": "An operand of DC or DS is refused exactly if an error is reported about it. Every mistake of an operand - type, duplication factor, length, scale, exponent, nominal value, size - is reported, whatever else is wrong with the operand or with the other operands of the statement, and nothing else is; what a message says is true (its limits are those of the type, the value it points at is a wrong one) and it is shown at the part it complains of; operands too long together are reported once for the statement.", "quantifier": "every list of operands, empty ones included, with any type letters, modifiers and nominal values", "why_tests_cant": "39 types times all combinations of modifiers, values and mistakes; that one mistake never hides another is a statement about all combinations", "anchors": ["parser_library/src/checking/data_definition/data_def_type_base.cpp: check, check_base, check_modifier, check_length, check_nominal_present, check_nominal_type", "parser_library/src/checking/data_definition/data_def_types_*.cpp: check", "parser_library/src/checking/data_definition/data_definition_operand.cpp: check_type_and_extension", "parser_library/src/checking/asm_instructions/data_instruction.cpp: check_data", "parser_library/src/diagnostic.cpp: error_D007 ... error_D029, error_A004, error_A010"]}
{"id": "C141", "title": "System variables say when the program is assembled and how a macro was reached", "statement": "&SYSDATC, &SYSDATE and &SYSTIME show the moment at which the analysis was started, as YYYYMMDD, MM/DD/YY and HH:MM, and together with &SYSPARM and &SYSOPT_RENT have the same values in open code and in every macro during the whole analysis. In a macro, whatever it and the macros it calls have done since, &SYSECT, &SYSSTYP and &SYSLOC show the section and location counter at its call, &SYSNEST the number of calls that are not finished, and &SYSMAC(i) the name of the macro i levels out, OPEN CODE behind the outermost one and nothing after that. None of the latter exist in open code.", "quantifier": "every moment of starting, every configured text, and every history of declarations, assignments, calls and returns", "why_tests_cant": "the values have to survive arbitrary statements and nested calls, and every date has to be printed correctly", "anchors": ["parser_library/src/context/hlasm_context.cpp: add_system_vars_to_scope, add_global_system_vars, get_var_sym, enter_macro, leave_macro", "parser_library/src/context/variables/system_variable.cpp", "parser_library/src/processing/context_manager.cpp: get_var_sym_value, test_symbol_for_read"]}
{"id": "C142", "title": "Statements that wait for symbols are checked once, and reported where they are", "statement": "Every statement is checked exactly once: at once if all its symbols are known, otherwise at the end, whether or not the symbols have been found and whatever else was found in between. What is found is shown in the file of the statement, together with the calls and COPY statements that had led to it when it was processed, and not with those that are processed when the check is made. No message is lost or repeated.", "quantifier": "every history of statements, of definitions they wait for, and of the order in which these become known; every nesting of macros and copied members", "why_tests_cant": "statements are kept under a count of the things they wait for, in tables that change with every definition; which of them are left at the end depends on the whole program", "anchors": ["parser_library/src/context/ordinary_assembly/symbol_dependency_tables.cpp: dependency_adder, try_erase_source_statement, collect_postponed", "parser_library/src/processing/statement_processors/ordinary_processor.cpp: check_postponed_statements, end_processing", "parser_library/src/processing/instruction_sets/low_language_processor.cpp: check, resolve_unknown_loctr_dependency", "parser_library/src/checking/diagnostic_collector.cpp"]}
