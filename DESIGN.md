# Formal model of eclipse/che-che4z-lsp-for-hlasm

## Layout

* `properties.jsonl` – the claims, in terms of observable behaviour.
* `lean/Verif/<Area>/Model.lean` – the model: one Lean definition per C++ function, each with a comment citing file and
  lines in `/repo` and stating the simplifications.
* `lean/Verif/<Area>/Spec.lean` (where the specification is more than one line) – the independent specification.
* `lean/Verif/<Area>/Lemmas.lean` – helper lemmas.
* `lean/Verif/<Area>/Props.lean` – the property theorems only, named `C<nn>_...`, each followed by a non-vacuity `example`.
* `MANIFEST.json` – claim → theorem names. `seeded/LOG.jsonl` – the wrong-program experiments.

## Trusted base

* Lean 4.33.0's kernel. Axioms: every theorem depends on a subset of `propext`, `Classical.choice`, `Quot.sound` and on nothing
  else; there are no axioms of our own, no `sorry`, no compiled evaluation.
* The reading of the C++ text. The code is not run; the only tie is the citation in the comment of every definition.
* Library behaviour assumed: `std::map`/`unordered_map`/`set` as finite maps/sets, `std::string` as a byte list,
  `std::stack/deque/vector` as lists, mutexes give mutual exclusion, `condition_variable::wait(pred)` releases and
  re-acquires the mutex atomically and may wake spuriously, `std::regex` (ECMAScript) per its documented meaning on the
  generated fragment, JSON parsing is a parameter.
* Signed overflow, out-of-range access, uncaught exceptions and other undefined behaviour are distinct outcomes
  (`none`/`.ub`/`.throws`/`.hang`) in the models where they can be reached.

### What is modelled

| area (`lean/Verif/…`) | source in `/repo` |
|---|---|
| `TextSync` | `parser_library/src/workspaces/file_impl.cpp`, `utils/utf8` replacement in `file_manager`/`file_impl` (newline index, positions, edits, sanitiser) |
| `FileManager` | `workspaces/file_manager_impl.cpp` (open/close/change, processor files) |
| `Framing`, `Queue`, `RequestManager` | `language_server/src/base_protocol_channel.cpp`, `blocking_queue.h`, `request_manager.cpp`, `dispatcher.cpp` |
| `Lsp`, `Dap` | `language_server/src/lsp/*`, `feature.cpp`, `dap/*` (handler tables, diagnostics, semantic tokens, sessions, URIs, breakpoints) |
| `Workspace` | `workspaces/workspace.cpp`, `workspace_manager_impl.cpp`, `library_local.cpp`, `wildcard.cpp` |
| `Context` | `context/id_storage`, `variables/*`, `macro.cpp`, `hlasm_context.cpp` (scopes, SYSNDX, OPSYN), `processing/instruction_sets/ca_processor.cpp`, macro operands |
| `Processing` | `processing/statement_providers/*`, `lookahead_processor.cpp`, `processing_manager.cpp` (lookahead, copy, statement cache) |
| `Ca` | `expressions/conditional_assembly/*`, `context/…/ebcdic_encoding` |
| `Ord` | `context/ordinary_assembly/*` (addresses, spaces, location counters, symbols, dependencies), `expressions/mach_*`, EQU/EXTRN/data labels and `ORG` of `asm_processor.cpp`, `LOCTR` within one section. `ORG` is modelled without gaps of unknown length (the branch for them is the outcome `later`) |
| `Debugger` | `debugging/*` |
| `Lexing` | `lexing/*`, `semantics/range_provider.cpp`, `semantics/source_info_processor.cpp` |
| `LspCtx` | `lsp/text_data_ref_t.cpp`, `lsp/file_info.cpp`, `lsp/symbol_occurence.h`, parts of `lsp/lsp_context.cpp` (definition, references, completion, macro documentation) |
| `Attr` | `ca_symbol_attribute.cpp`, `self_defining_term` in `ca_constant.cpp`, attribute values in `hlasm_context.cpp` 537-663, reading of variables in `context_manager.cpp`, `count` and `number` of variable symbols |
| `Ahead` | attributes in `lookahead_processor.cpp`, `process_EQU`, `process_data_instruction`, `process_ORG` of `asm_processor.cpp`, `mach_processor.cpp`, constructors in `symbol_attributes.cpp` |
| `Mention` | `occurence_collector.cpp`, `lsp_analyzer.cpp` except handing over to `lsp_context` |
| `Gram` | `machine_expr_rules.g4`, `machine_operand_rules.g4`, `assembler_operand_rules.g4`, `data_def_rules.g4`, operand lists of `operand_field_rules.g4` |
| `Syntax` | `parser_error_listener.cpp` (which message), with the errors ANTLR reports as a parameter |
| `Subst` | `label_field_rules.g4` (labels that are concatenations), `model_operand_rules.g4`, `macro_operand_rules.g4`, `string` of `machine_expr_rules.g4`, `string_ch_v` of `ca_expr_rules.g4`, evaluation in `concatenation.cpp`, `concatenation_term.cpp`; variable symbols and literals are leaves |
| `Message` | `lsp/lsp_server.cpp` without diagnostics, `server.cpp`, `lsp/feature_text_synchronization.cpp`, `lsp/feature_workspace_folders.cpp`, `lsp/feature_language_features.cpp`, positions and ranges of `feature.cpp`, `lib_config.cpp`. `nlohmann::json` is modelled by its documented behaviour, an assumption; the workspace manager and the conversion of URIs (C96) are parameters |
| `Config` | `config/proc_conf.cpp`, `config/pgm_conf.cpp`, `load_and_process_config` and `load_config` of `workspaces/workspace.cpp`. The parser of JSON and the operations on paths are parameters |
| `DapMsg` | `dap/dap_feature.cpp`, `dap/dap_server.cpp`; the debugger (C60–C62) and conversions of paths are parameters. On Windows drive letters are changed as well, which is left out |
| `ProcOpt` | `asm_instr_check.cpp` (`process`), `asm_instr_class.cpp` (the options of `*PROCESS`) |
| `Help` | `lsp/completion_item.cpp`, `parameter::to_string`, `machine_operand_format::to_string`, `lsp_context::find_hover` for built-in instructions, the tables of assembler and conditional assembly instructions |
| `Define` | `macrodef_processor.cpp` 389-455, `lsp_analyzer.cpp` 244-319 (declarations), `lsp_context.cpp` (`add_file`, `definition`, `find_definition_location`, `find_hover`, `hover_text`), `address::to_string` |
| `Exec` | `processing_manager.cpp` 97-125, 139-157, `macro_statement_provider.cpp` 28-43, `copy_statement_provider.cpp` 26-40, `ordinary_processor.cpp` 79-111, 227-237, `asm_processor.cpp` 533-574, `ca_processor.cpp` 451-463, `hlasm_context.cpp` 340-367, 404-413, 705-762, `diagnosable_ctx.h` 52-66; without branches, lookahead and definitions of macros |
| `Fresh` | `workspace.cpp` 84-103, 150-262, 467-526, `processor_file_impl.cpp` 43-78, `file_impl.cpp` 34-66, 191, `file_manager_impl.cpp` 53-65, 146-189, `workspace_manager_impl.h` 73-118, `hlasm_context.cpp` 262, 714, 739; one workspace, analyses as a function of the texts they read, without cancellation |
| `CaEval` | `expressions/conditional_assembly/ca_expression.cpp`, `ca_expression.h` 30-77, `ca_operator_binary.cpp`, `ca_operator_unary.cpp`, `ca_expr_policy.cpp`, `terms/ca_expr_list.cpp`, `ca_constant.cpp`, `ca_symbol.cpp`, `ca_string.cpp`, `ca_var_sym.cpp`, `ca_function.cpp` 50-200, `ca_symbol_attribute.cpp` 98-118, `common_types.cpp` 35-68, `ca_expr_rules.g4` 104-117, 289-311, `parser_impl.cpp` 298-332; variable symbols, ordinary symbols, attributes, concatenations and built-in functions are parameters; without ranges and numbers of diagnostics |
| `CaStmt` | `processing/instruction_sets/ca_processor.cpp` 79-254, 505-602, `ca_processor.h` 100-145, `aread_time.cpp`, `hlasm_context.h` 208-243, on top of the variables of `Context.Vars`; operands are functions of what is visible; where records come from (AINSERT buffer or source) is C40; without ranges and numbers of diagnostics |
| `Sect` | `context/ordinary_assembly/ordinary_assembly_context.cpp` 25-29, 83-131, 192-210, `section.cpp`, `processing/instruction_sets/asm_processor.cpp` 27-63, 506-531, `low_language_processor.cpp` 39-50, 125-131, `context/hlasm_context.cpp` 57-250 (without &SYSNDX, &SYSPARM, &SYSOPT_RENT); offsets are C52, C100, C101 |
| `Detect` | `clients/vscode-hlasmplugin/src/hlasmLanguageDetection.ts`, `configurationsHandler.ts`, `eventsHandler.ts` 38-57, 104-130. Regular expressions by their languages; `path.join` of Node.js for absolute POSIX paths, `toUpperCase` for ASCII, events of VS Code in the order they are delivered are assumptions. Not the texts of prompts and templates |
| `Suppress` | `workspaces/workspace.cpp` 104-119, 147-262, `processor_file_impl.cpp` 43-78, 108-124. Analyses are an arbitrary function of texts, group and program. Not cancelled analyses, nor which members are dropped from memory |
| `Colour` | `clients/vscode-hlasmplugin/src/semanticTokens.ts` 38-150, `eventsHandler.ts` 91-99, `feature_language_features.cpp` 50-71. VS Code's decoration types as documented. Not how decorations move while the user types, nor the delay before asking |
| `Asked` | `statement_provider.cpp` 26-133 and `get_undefined_attributed_symbols` of all expressions, chains and operands (`ca_var_sym.cpp` 29-54, `ca_string.cpp` 36-46, `ca_symbol_attribute.cpp` 61-103, `ca_function.cpp` 49-57, `ca_operator_binary.cpp` 33-38, `ca_operator_unary.cpp` 30, `ca_expr_list.cpp` 32, `concatenation.cpp` 175-197, `operand_impls.cpp` 447-490), on top of `Attr`. Operators, functions and conversions are arbitrary; all parts are evaluated, also where the code stops early. The search itself is C108 |
| `Circle` | `check_loctr_cycle` (`symbol_dependency_tables.cpp` 344-441) and its call in `create_symbol` (`ordinary_assembly_context.cpp` 39-56), on top of `Ord.Deps`. The lengths of 1 given to the spaces found and what is resolved thereby are not modelled: the entries left are considered with the values as before |
| `Seek` | searching ahead (`lookahead_processor.cpp` 46-112 and 272-325, `processing_manager.cpp` 97-158 and 184-196, `copy_statement_provider.cpp`, `create_snapshot` in `processing_context.cpp`, `process_copy` in `asm_processor.cpp`, the check of members in `copy_processor.cpp`). Statements are what their label, their operation and `Ahead.Stmt` say; positions in the open code count statements. Not modelled: searches from files other than the open code, AINSERT, members that are fetched during the search, the way back (C40) |
| `Pieces` | the readers of data in pieces (`emscripten_server_streams.cpp` 61-132, `hlasmDebugAdapterFactory.ts` 43-77) with `Buffer.indexOf`, `Buffer.slice` and `Number` of JavaScript. Numbers are whole or NaN; not modelled: fractions, exponents and other bases in the length, the events themselves (they run one after the other), the end of input (the queue is the one of C08) |
| `Gen` | the processing of whole programs of conditional assembly (`processing_manager.cpp`, `ordinary_processor.cpp`, `ca_processor.cpp`, `macro_processor.cpp`, `hlasm_context.cpp`, `macro_statement_provider.cpp`, see the head of `Gen/Model.lean`). Expressions, conditions and texts are any functions of the visible variables, &SYSNDX and &SYSNEST; a definition of a macro is one statement of the text it stands in; not in the language: COPY, AREAD, AINSERT, attributes, types and subscripts |
| `Whole` | assembling whole programs of one section: data, labels and EQU with forward references, on top of the models of the location counter, addresses, symbols and dependencies in `Ord` (`asm_processor.cpp`, `ordinary_assembly_context.cpp`, `symbol_dependency_tables.cpp`, `location_counter.cpp`, `address.cpp`). Left out: other sections and location counters, ORG, attributes, postponed checks of statements, offsets beyond `int` |
| `Path` | `utils/src/native_path.cpp` (Linux: `std::filesystem` modelled by the algorithms of the C++ standard, an assumption), `utils/src/emscripten_path.cpp` (the Windows branch, written out in the repository on top of the same functions), the path of a library and of a program in `workspaces/workspace.cpp`. `posix` and `windows` instantiate the parameter `Paths` of `Config` (C114). Not modelled: listing directories, symbolic links, the file system |
| `Report` | the containers of messages of `expressions/mach_operator.h`, `mach_expr_term.cpp`, `data_definition.cpp`, `semantics/operand_impls.cpp`, the loop of `low_language_processor.cpp` over operands, who calls it in `mach_processor.cpp` and `asm_processor.cpp` (instructions without own function, EQU, DC, DS), `diagnosable_impl.h` and the tree of collectors up to `workspace_manager_impl.h`. Arithmetic, the table of symbols (C57, C132) and the checkers (C92, C102) are parameters. Not modelled: messages of the parser, ORG and the section instructions |
| `Collect` | `semantics/collector.cpp`, `parsing/parser_impl.cpp` 334-389, 510-670, and what the actions of the rules in `hlasmparser.g4`, `label_field_rules.g4`, `instruction_field_rules.g4`, `operand_field_rules.g4` and `lookahead_rules.g4` do with the collector. What the rules find in the text is an input. Not modelled: the assertion in `extract_statement`, the messages of the second parser |
| `Session` | `debugging/debugger.cpp` 126-155, `debugging/debug_lib_provider.h`, `workspaces/processor_file_impl.cpp` 80-87, `workspaces/library_local.cpp` 83-100, `workspaces/workspace.cpp` 224-233, 326-345, 430, and the file manager as in `FileManager` with `add_processor_file` and `get_processor_file`. Which members a session needs is an input; one processor group. Not modelled: the time within `get_proc_grp_by_program`, closing the workspace under a session |
| `Broken` | `language_server/src/request_manager.cpp` 36-60, 81-115, `workspace_manager_impl.h` 72-130, 134-205, 238-252, `workspaces/workspace.cpp` 84-103, 154-222, 237-313, 467-528, `workspaces/processor_file_impl.cpp` 43-78, 97-107, `workspaces/file_manager_impl.cpp` 33-120, 141-185, `processing/processing_manager.cpp` 98-125, `lsp/lsp_context.cpp` 78-107, 189-240. Texts are the numbers of the notifications that brought them; what an analysis comes across is an input. Not modelled: edits that throw, debug sessions, several workspaces, watched files, what the answers say |
| `DataDef.Report*` | the messages of `checking/data_definition/data_def_type_base.cpp` 90-327, `data_def_types_address.cpp` 36-319, `data_def_types_string.cpp` 90-291, `data_def_types_fixed_point.cpp` 47-167, `data_def_types_floating_point.cpp` 57-122, `data_definition_operand.cpp` 25-45, `checking/asm_instructions/data_instruction.cpp` 32-71, and their severities and places (`diagnostic.cpp`). Not modelled: the words of the messages, messages of the parser and of expressions (C82, C83) |
| `SysVar` | `context/hlasm_context.cpp` 57-246, 253-265, 424-442, 705-720, `context/variables/system_variable.cpp`, reading as in `Attr` (`processing/context_manager.cpp` 34-158). Not modelled: years before 0, how `std::localtime` computes its fields, parameters of macros as values (C34), which section is current (C123, here given at each call) |
| `Waiting` | `context/ordinary_assembly/symbol_dependency_tables.cpp` 141-173, 222-240, 264-334, 443-459, 467-528, `mach_processor.cpp` 62-84, `asm_processor.cpp` 148-166, 247-297, 438-445, `low_language_processor.cpp` 134-188, 330-366, `ordinary_processor.cpp` 106-121, 206-226, `checking/diagnostic_collector.cpp`, `diagnosable_ctx.h` 52-66. Not modelled: when targets are computed (C56, C134), what a check finds (C92, C102, C140), which definitions depend on themselves (C55) |
| `Stream` | `lexing/token_stream.cpp` without `rewind_input`, `reset` and `append`; the base class `BufferedTokenStream` of the ANTLR runtime is not in the repository and is modelled from its documented behaviour |
| `Mach` | `context/instruction.h` and `instruction.cpp` (tables of machine instructions and extended mnemonics), `checking/instr_operand.cpp`, `semantics/operand_impls.cpp` (machine operands), `processing/instruction_sets/low_language_processor.cpp` (transform, check), `mach_processor.cpp` |
| `MacroDef` | `processing/statement_processors/macrodef_processor.cpp` (all but the collection of SET symbols for hovering), `copy_processor.cpp`, `processing/statement_providers/copy_statement_provider.cpp`, `asm_processor::process_copy`, the loop of `processing_manager.cpp` while a macro is defined and jumps in macros, `lsp/file_info.cpp` (`transform_slice`), `semantics/concatenation.cpp`, `semantics/concatenation_term.cpp`, the operands in `instruction_sets/macro_processor.cpp`. Operation codes are assumed not to be changed by `OPSYN` while a definition is read; columns are left out |
| `DataDef` | `checking/data_definition/*`, `checking/checker_helper.h`, the evaluation in `expressions/data_definition.cpp`, `process_data_instruction` and `data_def_postponed_statement.h` |
| `AsmCheck` | `checking/asm_instr_check.cpp` but for `DC`/`DS`/`DXD` (`DataDef`), `ORG` (`Ord`), `COPY`, `USING`, `EQU` and `*PROCESS` (`ProcOpt`); the parts of `asm_instr_class.cpp` used by `ACONTROL`; `instruction_checker.cpp` |
| `Client` | `clients/vscode-hlasmplugin/src/customEditorCommands.ts`, `continuationHandler.ts` (one selection; without the position of the cursor afterwards). `Client.Editor` is the documented behaviour of `vscode.TextEditorEdit`, an assumption: edits refer to the text before, positions are moved into the document, overlapping edits are refused |

Every definition names its lines and its simplifications.

Not modelled: the parser ANTLR generates (that it finds a parse tree if there is one is trusted; which of several it takes and how it
recovers from errors is not modelled), the grammar of conditional assembly (its results are
parameters), the checkers of
`COPY`, `USING` and `EQU`, real threads/OS/filesystem/network, the file watching
of the VS Code extension, the benchmark and fuzzer programs, the TypeScript client except its editing commands.

## Plan per property

Notation: (I) invariant by induction over operations, (R) refinement to an abstract spec, (A) algebraic law/round trip,
(D) decision logic, (N) expected negation with witness plus a `_partial` theorem.

| id | model | proof |
|----|-------|-------|
| C01 | `TextSync`: byte texts, `find_newlines`, incremental index update, whole replacement | (I) index = fresh index when no CR/LF pair is created or cut at an edit boundary; (N) witness `"a\rb"` + insert LF |
| C02 | `TextSync.indexFromPosition` over bytes with UTF-8 decoding | (R) against a spec over lists of Unicode scalars |
| C03 | `TextSync` edits | (R) server bytes = UTF-8 encoding of the editor's scalar list |
| C04 | `Utf8.sanitise` | (A) well-formed result, identity on well-formed, idempotent |
| C05 | `FileManager` state machine | (I) |
| C06, C07 | `Framing`: writer and stream reader over byte lists, JSON validity a parameter | (A) by induction over the message list |
| C08, C09 | `BlockingQueue`: small-step concurrent model with explicit waiting sets | (I); C09 (N) for two consumers |
| C10, C11 | `RequestManager`: small-step model of worker and callers | (I); (N) for finish with an empty queue |
| C12 | `Dispatcher` loop | (D) over message lists |
| C13 | `Router` | (D) |
| C14 | `LspServer` handler table | (I) |
| C15 | `LspServer.consumeDiagnostics` + a client replay spec | (R) |
| C16 | `SemTokens.encode` + LSP decoder spec | (A) |
| C17, C18, C19 | `Dap` | (I), (A) |
| C20, C21, C22, C24, C26 | `Workspace` | (D), (I) |
| C23 | `Wildcard`: regex generation, regex semantics | (R) glob spec = regex language |
| C25 | `Workspace.wsPathMatch` | (N): plain prefix and key/URI mix-up; `_partial` |
| C30 | `Ids` | (I) |
| C31, C32 | `SetSym`, `Scopes` | (R) to maps |
| C33 | `Sysndx` | (I) |
| C34 | `MacroCall` | (D)/(R) |
| C35 | `MacroData.stringToMacrodata` (stack machine) | (A) value preserved; (N) trailing comma `(A,)` |
| C36 | `Opsyn` | (R) |
| C37, C38 | `CaFlow` | (I) termination measure, (D) |
| C39 | `Cache`: statement cache of a macro or copy member | (D) a cached result is what parsing would give; (N) key is the form only |
| C40 | `Snapshot` | (A) |
| C41, C42, C47 | `CaArith` on `Int`/`BitVec 32` | (A); (N) for shift 0, SRA ≥ 32, comparison overflow |
| C43 | `CaExpr` list resolution | (N) `A OR B AND C AND D`; partial for sequences where each operand is followed by at most one tighter operator |
| C44, C45 | `CaFunc` | (A) |
| C46 | `CaString` | (D) |
| C48 | `Ebcdic` tables, finite table checked completely, lifted to strings | (A) |
| C49 | `Concat` | (R) |
| C50 | `Address` | (N) sign error in merge; partial for addresses with no common base |
| C51 | `Align` | (A) |
| C52 | `LocCtr` | (I) |
| C54–C57 | `Symbols`, `Deps` | (I), (R) |
| C58 | `Symbols` | (R) value of a program of EQU statements, whatever the order of resolution |
| C60 | `Debugger`: both threads, small-step | (I) every decision agrees with the history of events |
| C61 | `Debugger` | (I) progress with a client that answers; (N) lost wake-up, unlock without ownership, `next` after the end |
| C62 | `Debugger.Vars` | (R) references to a tree of values; (N) wrap-around, rehash |
| C70 | `Lexing.Lexer`: `ainsert`, `aread`, stream switching, `nextToken` | (R) of every history of insertions, reads and tokens to a source of records and lines; (N) unterminated last line, lone CR, empty and continued records |
| C71 | `Lexing.Lexer`: the whole tokeniser | (I) progress and tiling; (N) characters above U+00FF |
| C76 | `Lexing.Lexer` | (R) to the statements of a file, given by its lines; (N) lone CR |
| C77 | `Lexing.Lexer` | (I) positions are a fold over the text before; (N) characters outside the basic plane |
| C72 | `Lexing.Utf` | (A) encoding; (N) `length_utf16` |
| C73, C74, C75 | `Lexing.Range` | (D), (N) continued operands |
| C80 | `LspCtx.Text` | (A), (N) empty last line |
| C81 | `LspCtx.Occ` | (R) to "names the same thing in the same scope"; (N) touching names, shared copy members |
| C82, C83 | `CaFunc` | (D), (R) |
| C84 | `DataDef.Place` | (R) loops to sums over the values; (R) fold to placement at addresses; (N) later operands are placed relative to the first |
| C85 | `DataDef.Attr` | (D) against the length of the first value; (N) blanks in `X` and `B` |
| C86 | `DataDef.NominalProps`, `DataDef.Accept` | (R) scanners to a grammar of comma-separated values |
| C87 | `DataDef.Accept` | (D); (N) scale truncated to 16 bits, relocatable duplication factor, address constants without value |
| C88 | `DataDef.Attr` | (I) over all operands; (N) `P` and `Z` with a parenthesised value |
| C89 | `DataDef.Parse` | (L) reading back what is written; (N) exponent modifier directly after the type |
| C91 | `DataDef.ParseSound`, `DataDef.ParseConverse` | (R) of the readings without a diagnostic to what is written; (N) modifier without a value |
| C90 | `DataDef.Attr` | (D) against fraction digits and room left of the point; (N) decimal constants |
| C92 | `Mach.Operand` | (D) against the ranges of the fields, both directions; (N) `D(X)` |
| C93 | `Mach.Mnemonic` | (R) of the filled operand list to the list with the fixed operands inserted; (N) mnemonics of instructions with optional operands |
| C94 | `Mach.Mnemonic` | (I) over the filling loop; the tables by computation over all entries; (N) `WFCSB` and five others |
| C95 | `Mach.Storage`, `Mach.Fields`, `Mach.Sizes` | (I) over statement lists; the table against the fields of the formats; (N) `BASSM` and others |
| C97 | `Mach.Fields` | (D) over all operands of a statement; (N) 27 instructions |
| C96 | `Lsp.Uri` | (L) decode after encode; (N) per cent signs in paths |
| C98 | `MacroDef.Model`, `MacroDef.Refine` | (R) of the loop of the processor to the body with all members expanded; cyclic members bounded by the names not yet open |
| C99 | `MacroDef.Facts`, `MacroDef.BodyProps` | (I) over the body; offsets against the first label outside of inner definitions |
| C53 | `MacroDef.Lines`, `MacroDef.LineProps` | (I) over the statements of the definition's own file; (N) lines of copied members |
| C59 | `MacroDef.Model`, `MacroDef.Scopes` | (I) bound on all slices; which unfinished definitions read outside, both directions; (N) |
| C78 | `MacroDef.Prototype` | (I) over the operands; (N) operands that vanish |
| C79 | `MacroDef.Concat`, `MacroDef.Operands` | laws that determine the text of a concatenation; (I) over the operands, joined with C34 and C35; (N) |
| C100 | `Ord.Org`, `Ord.OrgProps`, `Ord.OrgStmt` | (I) over histories of reservations and `ORG`; (D) operands against what they mean, both directions; (N) |
| C101 | `Ord.Loctr` | (R) of the interleaved counters to the regrouped program, on top of C52; (N) `ORG` before `LOCTR`, open gaps in another section |
| C102 | `AsmCheck.Model`, `AsmCheck.Spec`, `AsmCheck.Props`–`Props3`, `AsmCheck.Place`, `AsmCheck.MessageSpec`, `AsmCheck.Message`, `AsmCheck.All` | (D) the checks of 25 classes of instructions against what the messages ask for, both directions, outside a list of exceptions; (I) number and place of messages; what each message says is true of the operand it is at; (N) each exception |
| C103 | `Client.Model`, `Client.Editor`, `Client.Apply`, `Client.Delete`, `Client.Typing`, `Client.All` | (R) the text after each command against a specification on lines; (N) first column, directly before the continuation, over the continuation, typing with exactly enough blanks, typing over a selection |
| C104 | `Client.Continue`, `Client.All` | (R) the text after each command; round trip of adding and removing; (N) sequence numbers |
| C105 | `LspCtx.Complete`, `LspCtx.Regex` | (D) language of the regular expression (derivatives, proved against its definition) compared with the fields of a statement; (R) lists; (N) labels, operands, empty last line |
| C106 | `LspCtx.Complete` | (R) to a division of the lines of the file; (N) macro without MEND |
| C107 | `Attr.Model` | (D) against a grammar of texts that name a symbol (uniquely), (R) to reading the value; (N) arrays, lists, empty values, OPSYN, &SYSLIST, looking ahead |
| C108 | `Ahead.Model` | (R) search and definition give the same attributes over a growing symbol table; (I) over the statements searched; (D) operands of EQU and types of constants; (N) integer attribute, ORG, EQU scale, operands defined in between, location counter |
| C109 | `Mention.Model` | (I) by mutual induction over expressions, variable symbols and chains: collected and buried mentions are a permutation of written ones and glued parts; (I) over the lines of open code and of a definition; (D) COPY, declarations; (N) subscripts, character strings, parts of names, macros called twice, labels of inner MEND |
| C110 | `Gram.Model` | grammar rules as types of parse trees with their text; (D) by structural induction: cancellation (two trees whose texts continue alike are equal), hence one reading; (R) reading = written expression that groups as in arithmetic; (R) operands = pieces of the text cut at commas outside of parentheses and strings; (N) literals have two readings, qualifiers are dropped |
| C111 | `Syntax.Model` | the token list and the loop over it with its flags; (R) every flag ↔ what the message says, over an inductive specification of balanced text, by induction on the list; (D) the message is the first one in the order whose claim holds; (N) the claims are about tokens: strings, numbers, location counter, literals |
| C112 | `Subst.Model` | parse trees as values of the types of the rules, `yield` and `chain` by recursion; (R) evaluation of the chain = replacing in the text, with the flag `was_var` carried along (`Same`), by induction over trees, mutually for sublists; (I) no null pointers remain behind `clear_concat_chain`; (N) strings without the first variable symbol lose doubled quotes, `&()` |
| C113 | `Message.Model` | messages as JSON values, handlers as computations with effects that end with a value, an exception or undefined behaviour; (R) well-formed messages, described by the members they have (`Has`), give exactly the operation; answers are described by their members as well; (I) at most one answer with the id for any JSON value, ids of configuration requests over sessions; (N) missing members, empty changes, wrong configuration types |
| C114 | `Config.Model`, `Config.Spec`, `Config.Props` | (R) reading is equivalent to a description of the files by their members, for every JSON value with distinct names; (D) what becomes of groups, libraries, extensions, limit and messages, with C22 for the choice of the group; (T) writing and reading |
| C115 | `DapMsg.Model`, `DapMsg.Spec`, `DapMsg.Props` | handlers as computations with state, effects and three ways to fail; (R) requests, described by their members, give exactly the command and the answer; (I) number and form of answers for any message; lifetime of the debugger by induction over sessions |
| C116 | `ProcOpt.Model`, `ProcOpt.Spec`, `ProcOpt.Groups`, `ProcOpt.Props` | checks as computations with messages and two ways to end the program; (D) grammar of options with the rules described and the rules applied as parameters; taken, refused (which message, where) and ended, each exactly |
| C117 | `Define.Model`, `Define.Spec`, `Define.Props`, `Define.Texts`, `Define.Hover` | the collection of symbols beside the machine of C98; (I) what is collected is a fold over the stored statements, (R) with the body of C98 it is the first declaration in the text; texts: unique reading by separators |
| C118 | `Help.Model`, `Help.Spec`, `Help.Props` | the texts as the loops write them, on the tables of `Mach`; (C) notation `A,B[,C[,D]]` as specification, unique reading by induction, what is shown against what C92 and C93 say is accepted |
| C119 | `Exec.Model`, `Exec.Spec`, `Exec.Props`, `Exec.Order` | (R) of the loop over three providers to the text with macros and members in place; termination by the nest limit and the members not being copied |
| C120 | `Fresh.Model`, `Fresh.Spec`, `Fresh.Props`, `Fresh.Answers` | (I) over histories: the record of the texts each analysis has read equals what an analysis made now would read |
| C121 | `CaEval.Model`, `CaEval.Spec`, `CaEval.Sound`, `CaEval.Accept`, `CaEval.Final` | (II) refinement by structural induction: resolving and evaluating an expression agrees with a denotation of expressions by kinds; expressions with a meaning are accepted |
| C122 | `CaStmt.Model`, `CaStmt.Spec`, `CaStmt.Props`, `CaStmt.Stmts`, `CaStmt.Decl`, `CaStmt.Final` | (II) refinement: the heap of shared variables with scopes of references agrees with a store of scopes that own their variables, by induction over programs; the clock by arithmetic |
| C123 | `Sect.Model`, `Sect.Spec`, `Sect.Props`, `Sect.Final` | (II) refinement of sections with lists of counters and pointers into them to the history of places, by induction over programs; dates by arithmetic |
| C124 | `Detect.Model`, `Detect.Spec`, `Detect.Props`, `Detect.Final`, `Detect.Claims` | (R) languages of the regular expressions (derivatives), wildcards, paths; (II) the expressions are those of the configuration on the disk, over all histories; (N) eleven cases in which the code differs from the documentation |
| C125 | `Suppress.Model`, `Suppress.Spec`, `Suppress.Props` | (II) over all histories, for any analysis; the messages by an invariant on what the user knows; (N) changes of the configuration or the limit |
| C126 | `Colour.Model`, `Colour.Spec`, `Colour.Props` | (II) over all histories: the decorations in the editors are those of the last answers; the answer against the tokens by C16; the legend by computation over the whole table; (N) the language changed while shown, empty answers |
| C127 | `Asked.Model`, `Asked.Spec`, `Asked.Props` | induction over the nesting of expressions, chains and sublists, for arbitrary operators: nothing asked implies nothing read depends on what may still be found; what is asked is unknown and referred to; a measure that every search decreases; (N) references in strings, values like `X+1` |
| C128 | `Circle.Model`, `Circle.Spec`, `Circle.Props` | invariant of the search: paths on the stack are walks, whatever has been left behind without being found reaches only such spaces (accessibility), a measure bounding the rounds; the graph is that of the lengths, for every order of the table; (N) a circle closed by an absolute value |
| C129 | `Seek.Model`, `Seek.Spec`, `Seek.Read`, `Seek.Turns`, `Seek.Props` | refinement: the turns of a search read the statements that an inductive relation on the texts calls visible; reading is well-founded because an open member is not entered again; an invariant over all histories of searches says that the labels between the program and the place the last search has stopped at are known; attributes by C108; (N) `COPY 'X'` ahead, labels at COPY and MACRO statements |
| C130 | `Pieces.Model`, `Pieces.Spec`, `Pieces.Lemmas`, `Pieces.Turns`, `Pieces.Props` | induction over the pieces: the buffer is always the incomplete message; a search in a part of the data finds what it finds in the whole, or nothing; (N) data that does not begin with the length, messages that are not JSON for the proxy, lengths that are no number |
| C131 | `Gen.Lang`, `Gen.Model`, `Gen.Spec`, `Gen.Scopes`, `Gen.Inside`, `Gen.Outside`, `Gen.Props` | refinement: the loop with its stack of scopes, sequence symbols and lookaheads against a recursive definition of what a program means, by the induction of that definition; the table of sequence symbols has those of all statements looked at; (N) sequence symbols of macro calls in open code |
| C132 | `Whole.Model`, `Whole.Spec`, `Whole.Eval`, `Whole.Trace`, `Whole.Place`, `Whole.Run`, `Whole.Props` | the values at the end of any run satisfy the equations of the program: every value is traced to the evaluation that gave it, every space to its length, and both are carried along to the end; (N) sums behind data of unknown length, differences of differences |
| C133 | `Stream.Model`, `Stream.Spec`, `Stream.Props` | refinement: the stream that fetches tokens when needed against a reader that has all tokens before it, for every sequence of requests; the loop of `next_token_on_channel` finds the n-th token that passes; (N) looking further ahead than the next token |
| C134 | `Whole.Unique`, `Whole.Complete`, `Whole.Unreported`, `Whole.Ends` (model of C132) | simulation by a given solution of the equations of the text: every state of every run agrees with it (uniqueness, independence of the order); a ranking of the definitions carries over to all that waits, so that in a state without a next round nothing waits, and no edge of the search for circles goes upwards, so that it finds none; what is left to do shrinks with every round, so that there is a run that ends, and numbers that fit into 32 bits exclude the crash |
| C135 | `Path.Model`, `Path.Spec`, `Path.Props`, `Path.Program`, `Path.Windows` | the specification walks from directory to directory; the stack of names that the normal form keeps is a walk to the same place (invariant of the fold), plain names are their own walk, so that the normal form is determined by the place; the relative path by the common beginning of the two lists of names; Windows through the Linux model with the slashes turned, as `emscripten_path.cpp` does |
| C136 | `Report.Model`, `Report.Spec`, `Report.Props` | expressions with a container at every node against the list of mistakes of the expression as written: evaluation marks exactly the nodes with mistakes and collecting takes exactly the marks and leaves the expression as parsed (structural induction), so that the loop over the operands reports the mistakes in order; repeated evaluation up to permutation; collecting over any tree of objects by mutual induction |
| C137 | `Collect.Model`, `Collect.Spec`, `Collect.Props` | the state machine of the two collectors against the statement built directly from what was found in the line; invariant between lines: the main collector is empty, the other one is emptied before use; induction over the history |
| C138 | `Session.Model`, `Session.Spec`, `Session.Props` | two threads as interleaved events over the file manager of C05; invariant: every pointer of the session is counted, its object is a processor file and holds what the document was when the pointer was taken; failures are traced to the events of `Disturbs`; concrete schedules for these |
| C139 | `Broken.Model`, `Broken.Spec`, `Broken.Props`, `Broken.Many` | main thread and worker as interleaved events, the worker cut where it looks at the cancellation flag; invariant for one document: its analysis is complete and of its text, or the first request in the queue that is not marked brings a new text; for many documents: every file that is there has an analysis unless one is promised, members of dependencies are kept; termination of the worker by induction over phases and queue; concrete schedules for the failures |
| C140 | `DataDef.Report`, `DataDef.ReportSpec`, `DataDef.ReportLemmas`, `DataDef.ReportParts`, `DataDef.ReportSays`, `DataDef.ReportProps` | the checks of C87 with the messages they add; same verdict as the checks without messages; for each sort of mistake, messages about it exist exactly if the specification of C87 finds that mistake, by cases over the 39 types; a specification of what each message claims; induction over the operands of a statement |
| C141 | `SysVar.Model`, `SysVar.Spec`, `SysVar.Lemmas`, `SysVar.Inv`, `SysVar.Props` | the scopes of C32 with the system variables put in at the start and at each call, and the variable &SYSMAC; an invariant over histories: objects of system variables are not changed by statements about other names, every scope belongs to a call and has its variables; decimal digits of the parts of a date |
| C142 | `Waiting.Model`, `Waiting.Spec`, `Waiting.Props` | tables of waiting statements with their counts over histories; induction over what is still to come, with an invariant relating the tables to it; (N) EQU and ORG, and messages about the location of an ORG |

## Disagreements between code and property

Each entry is a place where the code, read as text, does not do what the property says. The theorem in brackets is the
machine-checked witness; entries without one were found while modelling and are recorded only.

### Documents and protocol
* Edits whose boundary creates or cuts a CR/LF pair leave the line index wrong (`C01_witness`, `C03_witness`).
* A change whose end line is one past the last line empties the line table (`C01_witness_end_line`).
* A column beyond the end of a line is not clamped to that line (`C02_no_clamp_witness`).
* The UTF-8 sanitiser lets overlong forms and surrogates through (`C04_overlong_witness`).
* Turning a file into a processor file moves the text out of objects others still hold (`C05_snapshot_witness`).
* The body of an oversize message stays in the stream and is read as the next message (`C07_oversize_injection`).
* The blocking queue loses a wake-up with two consumers (`C09_witness_two_consumers`); terminating wakes only one (`C09_witness_terminate`).
* Closing a server returns early when the queue is empty although a request runs (`C10_finish_witness`), and cancels the running
  request of any other server (`C11_finish_witness`).
* `exit` and `shutdown` race with the reader, and without `params` they are ignored (`C12_witness_*`); `main` reads the
  return value before joining the LSP thread.
* Error responses never erase the handler of the request; a reused id answers the wrong handler (`C14_witness_reused_id`).
* Two files can have the same URI (`C15_witness_uri`). Unsorted semantic tokens wrap around (`C16_witness_unsorted`).
* DAP sequence numbers are taken and sent under no common lock (`C17_witness`); requests without a debugger or with unreadable
  arguments are never answered (`C17_witness_unanswered`); a tunnelled DAP message without `params` ends the session.
* `didChange` with an empty list of changes is undefined behaviour.

- C96: `path_to_uri` leaves per cent signs as they are, so `/a%41` comes back as `/aA`, `/100%` makes the URI malformed
  (`C96_witness_percent`), and `/a b` and `/a%20b` are reported under one URI (`C96_witness_same`). On Linux a backslash in
  a name comes back as a slash (`C96_witness_backslash`). The URI library is not part of the repository; the model follows
  RFC 3986 for its functions.

### Workspaces
* Without configured extensions, conflicting library members are resolved silently, last wins (`C21_no_extensions`, `C21_witness_no_extensions`).
* A failing reload of `pgm_conf.json` leaves programs pointing to missing groups (`C22_witness_bad_reload`).
* `?` matches one byte, and neither wildcard matches a line terminator (`C23_witness_*`).
* Dropping a file in one workspace drops the dependencies shared with another (`C24_witness_two_workspaces`); closing a dropped
  dependant that is no longer in the file map dereferences null.
* Workspaces are removed by name but registered by URI, and enclosure is a plain string prefix (`C25_witness_*`).
* A configuration change re-parses dependants only.

### Macros and variables
* The well-known empty identifier is not the interned empty string (`C30_witness_empty`).
* N' is wrong once a subscript reaches 2^31 (`C31_witness_number`); T' of an array element looks at the neighbour.
* A GBLx of another type silently keeps the first type (`C32_witness_type`).
* &SYSNDX and other system variables can be assigned (`C33_witness_assigned`).
* Operand parsing loses a trailing comma and one of two adjacent commas (`C35_witness_*`).
* A macro defined after an OPSYN of the same name is ignored (`C36_witness_redefined`).
* The branch counter admits one branch more than its value (`C37_witness_one_more`).
* The statement cache is keyed by the form only (`C39_witness_absent`).
* AREAD does not update the source position used by lookahead (`C40_witness_aread`); lookahead from the instruction field of open code
  resumes with the previous line number (`C40_witness_instruction`); lookahead from the last line of a macro resumes one
  statement early (`C40_witness_end`); records inserted with AINSERT and consumed by a lookahead are gone.

### Conditional assembly
* Unary minus of -2^31 overflows (`C41_witness_minus`). A shift by zero returns the shift count; SRA by 32 or more of a
  non-negative number is -1; SLA can change the sign (`C42_witness_*`).
* `A OR B EQ C AND D` is grouped wrongly (`C43_witness`); NOT hides the next operator (`C43_witness_not`).
* X2C does not check the second digit, C2A counts UTF-8 bytes (`C44_witness_*`).
* Substrings count bytes; a missing count overflows for very small starts (`C46_witness_*`).
* Comparison of numbers overflows (`C47_witness_overflow`); `std::abs` of -2^31 in a substitution is undefined.
* The EBCDIC translation stops at NUL and reads past a cut character (`C48_witness_*`); `std::toupper` and `isxdigit` get negative values.

### Ordinary assembly
* Subtracting an address with a common base adds its offset (`C50_witness_sign`), and multiplicities of spaces are lost (`C50_witness_count`).
* Gaps whose end is not aligned like their first operand, data appended to unresolved storage and displacements of aligned
  spaces give a wrong layout (`C52_witness_*`); underflow leaves the storage inconsistent.
* A second EXTRN, or a duplicate label of a data definition of pending length, throws an exception that ends the server
  (`C54_witness_*`).
* Cycles through attributes are not seen, and the check for cycles can run forever or exponentially long (`C55_witness_*`).
* The length -1 means "undefined" (`C56_witness_length`); a length is lost if it was waiting for a symbol that waits for it
  (`C56_witness_lost_length`); products with an undefined factor make the order of resolution visible (`C56_witness_order`).
* absolute − relocatable gives relocatable − absolute (`C57_witness_abs_minus_reloc`).
* `A EQU X+4` with `X` behind an unresolved space loses the 4 (`C58_witness_offset`).

### Debugger
* A `continue` sent in the window before the analysis waits is lost (`C61_witness_lost`); a disconnect in the same window leads to
  unlocking a mutex that is not held (`C61_witness_unlock`); `next` after the end follows a dangling pointer (`C61_witness_next`);
  `disconnected_` is a plain flag read without the mutex.
* `variables` uses an iterator after a possible rehash (`C62_witness_rehash`); references wrap at 2^64 (`C62_witness_wrap`).
* A client blocked in an inspection cannot deliver a disconnect; the launch starts before breakpoints are set; line 0 wraps.

### Lexing and language features
* `char_start_utf8` takes continuation bytes 0x80–0xB7 for starts (`C72_witness_*`; the function has no caller).
* Splitting a highlight can give an inverted token (`C73_witness`).
* Positions in continued operands are 16 columns per line off (`C75_witness_*`).
* Reading the empty last line throws (`C80_witness`); the character before the cursor is wrong after a surrogate pair
  (`C80_witness_before`); a range with exchanged ends is undefined (`C80_witness_range`).
* References are not symmetric for touching names and for shared copy members (`C81_witness_*`).
* A character above U+00FF in column 72, or among the seven after a `*` in column 1 of the first ten lines, is handed to `isspace` or
  `toupper`, where it is undefined (`C71_witness_isspace`).
* AINSERT and AREAD go back to the start of the line of the file if its column is not 0 (`lexer.cpp` 795-798, 849-852). After a last line
  without a newline the column is not 0 although the line has been read, so AINSERT makes it be read again
  (`C70_witness_unterminated`): a macro called on such a line that uses AINSERT is called again after each insertion, without end. A
  carriage return that is not before a newline ends a record of AREAD in the middle of a line; the next AREAD goes back to its start and
  delivers the same part forever (`C70_witness_return`).
* The end tests of `lex_begin` and `lex_continuation` ask whether *both* streams are at their end. With the file not at its end, a
  continued inserted record (or a comment record with column 72 used) makes them loop at the end of the inserted text
  (`C70_witness_hang`). AINSERT of an empty string throws (`C70_witness_empty`).
* The test for `.*` looks at the second character of the file even if the period is in an inserted record
  (`C76_witness_record_comment`); in inserted records a word may extend over column 72 (`C76_witness_record_word`).
* A carriage return without newline ends a statement but does not reset the column (`C76_witness_return`).
* UTF-16 columns are one off before and at characters outside the basic plane, and on the whole first line if it starts with one
  (`C77_witness_*`).
* With double-byte support the tokeniser would not terminate, and neither with a begin column above 1 on an empty line; neither is
  reachable, as ICTL is not implemented.

### Data definitions

- C84: only the first operand of a statement is aligned to its address; the others are placed relative to it. `DS H,F` at
  address 2 ends at 10 instead of 8 (`C84_witness_relative`). What the code does is `C84_relative_partial`.
- C84, C87: the length of an operand is computed modulo 2^64 bits, and the limit of 2^31 bytes is applied to the result.
  With the unchecked length of `AL(n)` below, operands of 2^61 bytes or of negative length pass (`C84_witness_wrap`).
- C85: the length attribute of `X` and `B` constants counts blanks, the storage does not (`C85_witness_blanks`).
- C87: the scale modifier is cut to 16 bits (`C87_witness_scale`); a duplication factor, scale or exponent that is not
  absolute counts as 0 without a diagnostic here (`C87_witness_relocatable`); in DS, the length modifier of an address
  constant without nominal value is not checked at all (`C87_witness_address`).
- C88: the attributes of `P` and `Z` constants assume a text between apostrophes; `L DC P(1)` ends in
  `std::bad_variant_access` (`C88_witness`). They are computed for the label before the operand is checked.
- C90: the scale attribute is set only from a scale modifier, which decimal constants cannot have; S' of `P'1.23'` is 0
  (`C90_witness_decimal`). The implied scale also counts blanks.
- C89: an exponent modifier directly behind the type is read as the type extension E (`FE4'1'`, `C89_witness_exponent`).  An
  expression skipped with other invalid characters goes to the next modifier (example in `ParseConverse.lean`; there is a
  diagnostic).
- C91: a modifier letter without a value before another modifier is ignored without a diagnostic (`FLS4'1'`,
  `C91_witness_bare`).

### Machine instructions

- C92: in an operand with an index or a length, a single value in parentheses is that index or length; the code computes it
  for the diagnostic but compares the displacement only. `LA 1,0(99)` and `MVC 0(999),0(1)` are accepted
  (`C92_witness_index`, `C92_witness_length`). What is not an absolute value counts as 0 inside an operand with parentheses
  (`C92_witness_reloc`). What the code accepts exactly is `C92_exact`.
- C93: the list filled for an extended mnemonic has a place for every optional operand in addition to all operands, so
  mnemonics of instructions with optional operands are refused whatever is written (`C93_never`; `XHLR 1,2`,
  `C93_witness_optional`).
- C94: `WFCSB`, `WFCDB`, `WFCXB`, `WFKSB`, `WFKDB`, `WFKXB` name a fifth operand of an instruction with four; with two
  operands written, the code writes behind the end of a vector (`C94_witness`).
- C95: `LDEB`, `LXDB` and `LXEB` (instruction.cpp:1229-1231) load from storage and have six bytes; they are entered with two
  registers and four bytes, so correct statements are refused and later addresses are wrong by two (`C95_witness_registers`).
- C95: `BASSM` is entered with the format `RX_a`, so all later addresses are wrong by two (`C95_witness_size`). `CLIY` and
  `MVIY` have 12-bit displacements instead of 20, `XC` and `STFLE` 20 instead of 12, `CLT` and `CLGT` an index they do not
  have, `EXRL`, `LHRL` and `LGHRL` an immediate instead of a relative operand (`C95_witness_fields`,
  `C95_witness_operands`). The fields of the formats and the lists `logical` and `MF.operands` come from the Principles of
  Operation; they are part of the specification.
- C97: `XI`, `OILL`, `LLILL`, `RISBG`, `CLIJ` and others take a logical operand as a signed number and refuse half of its
  values (`C97_refused`, `C97_witness`).
- C53: the lines of a member copied into a macro start one statement late, and end at the line number the statement behind the
  `COPY` has in the copying file (`C53_witness`); hovering there gives the result for open code.
- C59: a definition cut off by the end of the file behind an inner `MEND` or behind the first statement of a copied member makes
  `file_info::transform_slice` read `copy_nests[size]` (`C59_outside_iff` says exactly when, `C59_witness` gives two files).
- C78: an operand of a prototype that is a single piece other than a variable symbol (`ABC`, `(&A,&B)`) is neither a parameter nor
  reported, and the positions behind it shift (`C78_witness`); `&SYSLIST` is accepted as parameter (`C78_witness_syslist`).
- C79: in an operand `Q=&A` whose keyword the macro does not have, the variable symbol is not replaced (`C79_witness_unknown`); `&A` is
  split into its sublist, `&A.` with the same text is not (`C79_witness_list`).
- C100: a negative third operand leads back behind the highest location, which is then forgotten (`C100_witness_offset`); together with no
  first operand it can lead before the section without a diagnostic (`C100_witness_highest`). `ORG A-B` throws (`C100_witness_difference`),
  `ORG 6-A` is taken for `ORG A-6` (`C100_witness_minus`), an operand of another form is reported but the `ORG` is done
  (`C100_witness_form`), operands behind the third are ignored (`C100_witness_more`).
- C101: the next counter begins at the current, not at the highest location of the one before (`C101_witness_org`), and a gap without a
  length in one section keeps the counters of all later sections from being placed (`C101_witness_pending`).
- C102: no hexadecimal `ALIAS` is ever accepted: evenness is asked of the whole text `X'…'`, three longer than the digits, and when it holds
  the last pair has the apostrophe in it (`C102_alias_hexadecimal_negation`, for all texts; the unit test for it is commented out).
  `ALIAS Z'AB'` is refused without a message, `ALIAS C''` is accepted, `ALIAS C'A''B'` is not (`C102_alias_witness`).
- C102: 0 is refused where "non-negative" values or values from 0 on are asked for (`C102_zero_witness`); `ICTL 20` is refused because of a
  continuation column that is not given, `ICTL 1,,20` although the second operand may be omitted, `ICTL 1,80,99` is accepted
  (`C102_ictl_witness`); `ISEQ` takes expressions (`C102_iseq_witness`); `EXTRN PART()` is accepted (`C102_part_witness`); apostrophes that
  enclose or are doubled count as characters (`MNOTE`, `PUNCH`, `AINSERT`, `TITLE`: `C102_length_witness`); `DROP 16` is accepted and
  `DROP A$` refused (`C102_drop_witness`); `CCW` takes operands without a value (`C102_ccw_witness`); `ADATA` accepts an empty text, accepts
  one without apostrophes with a message and gives two messages for one character (`C102_adata_witness`); `ACONTROL OPTABLE()` accepts an
  empty name, since the array of names has one element more than names (`C102_optable_witness`).
- C102: the message about RMODE is shown with the number of the one about PUNCH, A108, and the one about the parameters of REFERENCE with
  A288 (`C102_shown_witness`). A154, "must have even length", is given exactly for hexadecimal texts of even length (`Complaint.a154`).
- C103: typing with exactly as many blanks before the continuation as characters typed deletes the character before the blanks instead of the
  last blank (`C103_typing_negation`, `C103_typing_loss_witness`): the range that was checked and the range that is deleted differ by one.
  Backspace in the first column of a continued line does not join lines but puts a blank before the continuation
  (`C103_first_column_witness`); a selection made from the right to the first column, and one that ends directly before the continuation,
  move the continuation (`C103_before_continuation_witness`); delete with a selection over the continuation is refused by the editor or throws
  (`C103_over_continuation_witness`); typing over a selection in a full line moves the continuation (`C103_replacing_negation`).
- C104: a line with a blank in the column of the continuation and text behind it cannot be continued: the command throws
  (`C104_add_negation`), or, with the cursor behind that column, moves the text behind the column into the next line (`C104_long_line`).
  Adding and removing loses the text behind the continuation (`C104_sequence_witness`).
- C105: no instructions are offered behind a label as long as none has been begun, nor behind a label of one character and one blank;
  in the first operand of an instruction that begins in column 2 or 3 they are offered (`C105_witness`). Completion on the empty last
  line of a document ends in `std::out_of_range` (`C105_witness_empty`), which `server::message_received` only logs: the request is never
  answered. `isspace` gets a negative `char` if column 72 of the line above has a byte of more than 7 bits (undefined behaviour;
  `PlainAbove` excludes it).
- C106: the documentation of a macro whose definition reaches the empty last line of its file (no MEND) ends in `std::out_of_range`
  (`C106_witness`), so that no instruction completion works any more, wherever the cursor is (`C105_witness_macro`). A comment between
  MACRO and the prototype is not part of the documentation and hides the block above MACRO.
- C107: `get_type_attr` uses the subscript of a SETC array as index from 0, all other readers subtract 1: `T'&C(1)` is the type of what
  `&C(2)` names (`C107_witness_array`). `try_extract_leading_symbol` reads `front()` of an empty string for values like `` and `()`, e.g.
  `L'&E` with an empty `&E` (`C107_witness_hollow`). `T'&P` of a list looks at the first value only among the symbols defined so far, then
  at the text of the whole list, so a symbol found by looking ahead is missed (`C107_witness_list`). `O'` ignores OPSYN
  (`C107_witness_opsyn`). `K'&SYSLIST` (and `K'&SYSMAC`) counts the characters of the first element, while the value is the whole list
  (`C107_witness_syslist`). Looking ahead does not take the symbol out of the text as the evaluation does, so `L'&X` with `&X` set to
  `(A)` or `A+1` is reported if `A` is defined later (`C107_witness_lookahead`). `D'5'` counts as self-defining term (type N), which it
  is not.
- C108: looking ahead at a constant with a scale modifier leaves the integer attribute at -1, and `I'` returns it without a diagnostic
  (`C108_witness_integer`). The label of ORG is `M` looking ahead and `U` afterwards (`C108_witness_org`). EQU symbols are taken for data
  when looking ahead, so `S'` of one with type F gives a warning first and an error later (`C108_witness_equ_scale`). A length operand of
  EQU that is not known yet is treated as not written, so that the length is 1 or that of the first symbol (`C108_witness_length`);
  a length modifier with `*` counts as 0 because the location counter is not filled in (`C108_witness_location`). A DC or DS without
  operands satisfies the search without anything being registered (`C108_witness_silent`).
- C109: variable symbols in subscripts of variable symbols are not recorded (`C109_witness_subscript`), nor those in character strings
  and substring notations (`C109_witness_string`): `get_occurence(variable_symbol)` does not look at the subscript, the visitor of
  `ca_string` only at the duplication factor. A part of a name made with variable symbols is recorded as an ordinary symbol, also in the
  operation field (`C109_witness_parts`). Statements of a macro are recorded with every call, so the same mention occurs several times
  (`C109_witness_twice`). The label of the MEND of an inner definition is recorded for the outer one, that of its MACRO is not
  (`C109_witness_inner`). Texts and dots that make up names are parts of names in the specification; whether a name made with variable
  symbols is that of a symbol is only known when it is evaluated.
- C110: the grammar is ambiguous for literals. `=A(X)(3)` is a literal with a base register or one with a modifier and a value
  (`C110_witness_literal`), `=A-X` a literal whose type is `A-X` or a difference (`C110_witness_minus`), because a type may contain
  minus signs and `nominal_value_o` may begin with an expression in parentheses. ANTLR takes the first alternative that fits. The
  theorems therefore range over texts without literals. The qualifier of a symbol is dropped when an expression is built, so `Q.X` and
  `R.X` mean the same (`C110_witness_qualifier`), although labelled USINGs make them different in HLASM.
- C111: the messages about syntax errors speak about tokens, not about the language (`C111_tokens_witness`). Parentheses inside of
  strings are counted, so a statement with `'('` and some other error is told that a parenthesis has no match. A number is not counted
  as the beginning of an expression, so any statement with `A+2` and some other error is told that a sign has to be followed by an
  expression; the same for `A--B` and for `*` as the location counter. The `=` of a literal counts as a comparison. A statement without
  operands where some are needed has "only left and right parenthesis". If the first token of the stream is an end of line,
  `get_end_index` returns -1, which is also its answer for "no end of line": then the tokens of later lines are looked at too.
- C112: in an operand field of a model statement only the string with the first variable symbol is kept as it is written. A doubled
  quote in any other string becomes one quote (`C112_before_witness`, `C112_after_witness`), and a doubled ampersand in a string in
  front becomes one (`C112_ampersands_witness`), because `before_var_sym_model_b` uses the rule for the value of a string and
  `model_string_v` uses `string_ch_v_c` where `model_string_ch_v_c` is meant. The operand is parsed again after the replacement, so
  `DC C'IT''S',C'&A'` becomes `DC C'IT'S',C'...'`, which is a syntax error. (Reading `'A''A'` as two strings side by side is another
  parse with the right text; ANTLR's loops are greedy, so it is not the one taken.) `&()` has a rule but no meaning: it vanishes from
  labels and operands without a message (`C112_empty_witness`); inside of a sublist of a macro operand it is not cleared away and a
  null pointer is dereferenced when the macro is called (`C112_crash_witness`). `K==F'1'` can be read as a keyword operand or as a
  positional one (`C112_keyword_witness`); ANTLR takes the first alternative, the keyword.
- C113: the server does not survive every message. A member that is read from a constant JSON value and is missing is undefined
  behaviour (`C113_missing_witness`: no `textDocument`, no `uri`, no `capabilities`), as is an empty list of changes
  (`C113_no_changes_witness`) and an error answer with neither message nor id (`C113_error_witness`). An answer to the request for the
  configuration with a wrong type throws outside of any handler and ends the server (`C113_configuration_witness`). Requests that cannot
  be understood, and requests of unknown methods, are never answered (`C113_unanswered_witness`, `C113_unknown`), although the protocol
  demands an error. A question without id is answered with an empty id (`C113_notification_witness`). A negative version becomes a huge
  one (`C113_version_witness`). A change of folders with one bad URI is carried out in part (`C113_folders_witness`).
- C114: a `diagnosticsSuppressLimit` in `pgm_conf.json` that is no number of 32 bits is not refused: -1 becomes 4294967295 (the same
  setting of the editor becomes 0), `true` becomes 1, 2^32 becomes 0, and 1e10 is undefined behaviour (`C114_limit_witness`). A group
  with too long a SYSPARM is reported (W0005) and used nevertheless.
- C115: `linesStartAt1`, `columnsStartAt1` and `pathFormat` may be left out of `initialize` according to the protocol; here that is
  undefined behaviour, after success was reported (`C115_initialize_witness`). An `initialize` without arguments is answered with success
  but makes no debugger, and later requests are never answered (`C115_silent_witness`). A path that cannot be parsed as URI throws an
  exception nobody catches and ends the language server (`C115_uri_witness`). Line 0 of a client that counts from 1 becomes 2^64 - 1
  (`C115_line_witness`). Unknown requests (`stepOut`, `evaluate`) and requests that are refused are never answered
  (`C115_unanswered_witness`).
- C116: `FAIL(MSG(4))` is described in the message A233, which is what one gets for it, because names are compared with `||` where `&&`
  is meant (`C116_fail_witness`). `CODEPAGE()` reads the first character of an empty text, `CODEPAGE('9999999999')` and a `LIMIT` of more
  than sixteen hexadecimal digits throw an exception nobody catches (`C116_ends_witness`). Taken though they are no options: an empty
  `OPTABLE` (an array of thirteen texts has twelve initialisers), `CODEPAGE('X''''')` and hexadecimal code pages that are too large,
  `WARN` up to 255 and with text behind the number, negative limits (`C116_loose_witness`). `FLAG(PUSH)` is taken with an error message
  (`C116_flag_witness`). Messages about code pages stand at the first character of the document (`C116_place_witness`).
- C118: the help for `IPTE`, the only instruction with two optional operands, is `R,R[,R]M]]` (`C118_witness_brackets`). For the 92
  mnemonics of instructions with an optional operand the operands that must be written are not shown (`C118_witness_lost`): the chain
  of conditions has no branch for them.
- C117: a member whose file was read before as a macro (or the other way round) has one entry, that of the first use, so go to
  definition on the operand of `COPY` stays where it is (`C117_witness_member`). In an inner macro definition, which is processed
  while the outer macro is expanded, copied statements are attributed to the file of the outer macro (`C117_witness_nested`). The text over
  `5-SECT` is that over `SECT+5` (`C117_witness_sign`): negative counts are shown without their sign.
- C119: a `COPY` that a macro executes (its operation code was a variable symbol, or was made one by `OPSYN`) enters the member in the source of the
  open code, behind the macros: the statements of the member are processed when the outermost macro has ended, and until then every
  request for the stack (each diagnostic, each definition of a symbol) reads the statement before the first one of the member, which is undefined
  (`C119_witness_copy`). The diagnostic `E055` is made after all macros were left, so it is shown in the file of the open code on the line the
  statement has in the macro, without the calls (`C119_witness_limit`). `error_E056` has the code "E055".
- C120: closing a document keeps its text in the file manager. If it was a macro in use and closed without saving, programs go on using the
  discarded text (`C120_witness_unsaved`, `C120_witness_unsaved_stays`). A change on the disk causes an analysis, but of the kept text
  (`C120_witness_disk`). A file created after a program missed it causes none (`C120_witness_created`). Only files whose macros were called count as
  dependencies: a macro that does not define its name for a moment while it is edited is no longer one, and its programs keep the error after it
  was corrected (`C120_witness_broken`). An open macro that no program uses any more keeps the analysis made for the old text of its program
  (`C120_witness_orphan`). If a program is copied by another, requests about the members of the first are answered from the analysis of the second
  (`C120_witness_shared`).
- C121: values of expressions without meaning. A number other than 0 and 1 counts as true (`C121_witness_logical`, `C121_witness_variable`). In
  parentheses, type attributes are compared as numbers that are both 0 (`C121_witness_attribute`), and in arithmetic they are 0
  (`C121_witness_type`). Operators for one operand between two give 0 or nothing (`C121_witness_operator`), and so do functions of strings if a
  variable symbol holds a number (`C121_witness_function`). Refused although they have a meaning: comparisons with a function, a parenthesised or a
  duplicated string on the left (`C121_witness_refused`), an operator directly in front of a parenthesised expression
  (`C121_witness_parameter`) and in arithmetic (`C121_witness_arithmetic`).
- C122: an operand that is left out shifts the ones behind it by one element (`C122_witness_omitted`). Several operands for a variable without
  subscript are not reported; the last one stays (`C122_witness_several`). A SETx statement that is reported for its operands makes the variable
  nevertheless (`C122_witness_missing`, `C122_witness_operand`), and if the created name is not a name, one with an empty name
  (`C122_witness_name`). GBLx of a global variable of another type or shape is not reported (`C122_witness_global`). What follows the first operand
  of AREAD is not looked at (`C122_witness_aread`).
- C123: START is checked but begins no section, and its name stays undefined (`C123_witness_start`). Any statement with an expression as operand
  begins the unnamed section, `A EQU 1` too, so that &SYSSTYP is CSECT (`C123_witness_equ`). Sections without name of different kinds exclude each
  other (`C123_witness_unnamed`). LOCTR without name and sections with invalid names are reported, but take effect (`C123_witness_loctr`,
  `C123_witness_name`).
- C124: a first line that only begins with MACRO is enough (`C124_witness_macro`); lines that end with the instruction do not count
  (`C124_witness_bare`); with CR LF, empty lines count (`C124_witness_crlf`); a line that is too long does not end a continuation
  (`C124_witness_long`). Files below subdirectories of a library are recognised (`C124_witness_subdirectory`), members of libraries with
  absolute paths are not (`C124_witness_absolute`); wildcard characters in the path of the workspace act as wildcards (`C124_witness_folder`).
  Removing proc_grps.json leaves the old expressions in force (`C124_witness_removed`), changes outside the editor go unnoticed
  (`C124_witness_unnoticed`), `Do not track` turns the recognition off (`C124_witness_track`), and a configuration file that is not JSON makes the
  activation of the extension fail, so that the language server is not started (`C124_witness_malformed`).
- C125: when the configuration files change, programs with members are analysed anew but the limit is not applied
  (`C125_witness_taken`), and programs without members are not looked at, so that their diagnostics stay hidden although they now have a
  processor group (`C125_witness_given`). A change of the limit has no effect before the next change of the program (`C125_witness_limit`).
- C126: when the language of a document is changed while it is shown, its colours stay and cannot be removed any more
  (`C126_witness_language`). An answer without tokens is ignored, so the colours of the answer before stay (`C126_witness_empty`).
- C127: attribute references in subscripts of variables between the apostrophes of a string (`'&A(L'X)'`) are not looked up, so the
  default value and a warning are used although the program defines the symbol (`C127_witness_string`); the same for variables whose
  value is not just a symbol, like `X+1` (`C127_witness_leading`).
- C128: only definitions with relocatable values are checked. In `A DS (C-B+N)C`, `B DS (B-A+N)C`, `C DS C`, `N EQU 1` the last
  statement closes the circle; nothing is reported and the lengths silently become 1 at the end (`C128_witness_absolute`).
- C129: a COPY statement ahead whose only operand is a string or `A(B)` crashes the search: a null pointer is dereferenced; where such a
  statement is processed it is diagnosed (`C129_witness_null`). A search that ends at the label of a COPY statement has entered the member
  before it stops, and the place kept for the next search is two statements in front of the first one of the member, so that the next
  search reads out of bounds (`C129_witness_copy`). A search that ends at the label of a MACRO statement is continued inside the definition
  as if it were outside (`C129_witness_macro`). The theorems exclude such statements and programs that branch backwards: after such a
  branch a search begins where the last one has stopped.
- C130: both readers require the length to be the first header line: data that begins with another one, which the protocol allows and the
  native server accepts, is kept for good, with all that follows it (`C130_blocked_negation`). The proxy parses a message before it cuts
  the buffer, so that one message that is not JSON is met again with every piece and nothing is passed on any more
  (`C130_thrown_negation`). A length that is no number makes the server's event go on for ever, putting empty messages into the queue
  (`C130_witness_forever`).
- C131: a macro call in open code does not register its sequence symbol (`macro_processor.cpp` 31-37; nor do undefined operations, MEXIT,
  MEND, AEJECT, ASPACE and statements without operation), so a branch back to it is looked for ahead, not found, and refused with E047
  (`C131_label_negation`: `.L MYMAC` ... `AGO .L` is no loop). The model of C40 registers every statement and so does not show this. Inside
  macros the table is made with the definition and has all symbols. Also: the expression of the first assignment to an undeclared variable
  sees the variable already declared; a lookahead that finds its symbol on MACRO stops behind that statement, inside the definition, and the
  next one goes on there, taking the symbols of the body for symbols of the open code (read in `lookahead_processor.cpp` 45-71,
  `processing_manager.cpp` 183-198, not modelled: the theorems exclude sequence symbols on MACRO in open code); and the first call of a program has the &SYSNDX 0000 (`hlasm_context.cpp` 75, 258, 716), where the
  language has 0001.
- C132: two programs without any diagnostic whose symbols have wrong values: `X EQU B+4` behind `A DS (N)C` with `N` defined below makes
  `X` the place of `B` (`C132_witness_offset`; the defect of C58), and `X EQU ((B-A)-(A-B))+(B-A)+(B-A)` there makes `X` 0 instead of
  4*(B-A) (`C132_witness_sign`; the defect of C50). Programs that avoid both are solved (`C132_values_solve_partial`).
- C133: `LT(k)` for `k > 1` counts the tokens it has passed as if none had been filtered (`token_stream.cpp` 86-94, 191): with a filtered
  token in between it shows a later token than the `k`-th, or throws at the end of the text (`C133_witness_ahead`). The parser looks only at
  the next token and at those before, so this does not show at present.
- C135: an entry of `pgm_conf.json` is only turned to the slashes of the system, not to normal form, while the file that is opened is
  (`workspace.cpp` 365-374, 400-402): an entry that is not written in normal form, such as `./P` or `src//P`, is the name of no program
  (`C135_entry_negation`, `C135_entry_witness`). Libraries are normalised, so the same spelling works in `proc_grps.json`.
- C135: under Emscripten with Windows paths the drive is an ordinary name to `lexically_normal` (`emscripten_path.cpp`), so `..` above the root takes
  it away: `C:\..\x` becomes the relative path `x` (`C135_drive_witness`), and a library `../../l` in the workspace `C:\w` becomes `l\`
  (`C135_library_witness`).
- C136: `data_definition::collect_diags` is empty (`data_definition.cpp` 256), so mistakes in the modifiers and values of DC and DS are never reported:
  `DC A(X*Y)` with two addresses assembles silently (`C136_data_negation`, `C136_data_witness`).
- C136: EQU does not check its statement unless it is postponed (`asm_processor.cpp` 76-167), and a postponed EQU is taken off the list when its value
  can be computed (`symbol_dependency_tables.cpp` 222-240): `A EQU X*Y` with addresses reports nothing (`C136_equ_negation`). It is checked only if
  definitions were given up, and then mistakes in length and type are reported twice (`C136_equ_twice_negation`, `C136_equ_witness`).
- C136: other assembler instructions whose operands contain a symbol that is not yet defined are ignored without a message
  (`asm_processor.cpp` 516-530, `C136_assembler_negation`, `C136_assembler_witness`); the pair in `USING (X*Y,Z),R` is never evaluated
  (`operand_impls.cpp` 337-347, `C136_using_negation`, `C136_using_witness`).
- C137: `process_lookahead` reads the instruction without asking whether there is one (`parser_impl.cpp` 528-540, unlike `process_ordinary`): when the
  search ahead meets a line such as `   'X'`, for which no rule sets an instruction, it dereferences an empty optional (`C137_ahead_negation`,
  `C137_ahead_witness`).
- C138: the thread of a debug session uses the processor groups and libraries of the workspace without a lock. A change of `proc_grps.json` or
  `pgm_conf.json` while the session looks for a macro destroys the group it iterates over (`load_config` clears `proc_grps_`:
  `C138_reload_negation`, `C138_reload_witness`); a watched file that changes rewrites the list of members the session is searching
  (`C138_refresh_negation`); and a file that neither has read yet is loaded by both into the same string (`C138_load_negation`,
  `C138_race_witness`).
- C139: an analysis that is broken off leaves an `lsp_context` whose `opencode_` is null but which already knows the members. Only requests for the document whose
  analysis is broken off are marked, so a completion after `&` or `.` in an open member (of a program that is typed in) follows that null pointer:
  `C139_broken_off_witness`, `C139_negation`, `C139_stuck_negation`; `C139_only_partial` shows that it is the only way. A question about an open
  `proc_grps.json` or `pgm_conf.json` follows a null `analyzer_` (`C139_conf_witness`; clients other than the one of this repository ask such questions). And a
  library member that is opened and needs a member of its own name, as a macro does whose MACRO statement is missing, is analysed again while its analyzer
  is at work: `parse_macro` destroys that analyzer (`C139_own_name_witness`).
- C140: the length of A, AD and Y constants is looked at only after the nominal value, so `DC AL9'1'` is told about its apostrophes only (`C140_masked_witness`);
  a length in bits of a J constant is reported twice, once with bounds that do not matter (`C140_twice_witness`); a duplication factor with a relocatable
  value becomes zero without a message (`C140_relocatable_witness`); a scale modifier is cut to 16 bits before it is checked (`C140_narrowed_witness`); and the message about
  an empty operand (A004) has no range, and the statement it refuses still reserves the storage of its other operands (`C140_empty_witness`).
- C141: the value of &SYSMAC without subscript is the list of all names in parentheses instead of the name of the macro being processed (`C141_whole_witness`), and its K' is
  the length of the name of the calling macro (`C141_count_witness`); programs can assign to system variables (`C141_assigned_witness`, cf. C33) and declare in open code
  variables with the names of those that exist only in macros (`C141_declared_witness`).
- C142: an EQU or ORG with a forward reference is taken off the list of statements to be checked when its value is computed, since its count is 1
  (`symbol_dependency_tables.cpp` 222-240, 508-528), and what is wrong with it is never reported (`C142_unchecked_negation`, `C142_unchecked_witness`).
  For DC and DS every target has its own copy of the count, so it never reaches 0 and they are checked.
- C142: what is wrong with the location of an ORG that had to wait is reported by `resolve_unknown_loctr_dependency` with the current stack but the
  range of the ORG (`low_language_processor.cpp` 134-188, `symbol_dependency_tables.cpp` 97-100): for an ORG in a macro or copied member the message is
  shown in the wrong file (`C142_late_negation`, `C142_late_witness`).
