import Verif.Context.MacroCall

/-!
Definitions of macros: the body, the members copied into it, its sequence symbols and the lines that belong to it.

Modelled: `/repo/parser_library/src/processing/statement_processors/macrodef_processor.cpp` (all but the collection of SET
symbols, 389-434, which is in `Verif.Define`), `copy_processor.cpp` (40-92), `/repo/parser_library/src/processing/statement_providers/copy_statement_provider.cpp`
(26-40), `asm_processor::process_copy` (`asm_processor.cpp` 533-574), the choice of the provider and the end of a processor
(`processing_manager.cpp` 97-161), jumps inside macros (`processing_manager.cpp` 246-279, `macro_statement_provider.cpp` 30-43) and
`file_slice_t::transform_slice` (`/repo/parser_library/src/lsp/file_info.cpp` 113-143). Not modelled: columns, the text of
statements.
-/
namespace Verif.MacroDef

/-- Identifiers of the storage (C30): names of members and of sequence symbols. -/
abbrev Name := Nat

/-- File names. -/
abbrev File := Nat

/-- `location` (`location.h`): a file and a line. -/
structure Loc where
  file : File
  line : Nat
deriving DecidableEq, Repr

/-- The operation code of a statement, as far as the processors look at it. `mbegin` is `MACRO`; `copy none` is a `COPY` whose operand is not one
ordinary symbol. Operation codes are assumed not to be changed by `OPSYN` while the definition is read. -/
inductive Op where
  | mbegin | mend | anop
  | copy (member : Option Name)
  | other (text : Nat)
deriving DecidableEq, Repr

/-- A statement: the line it begins on, the sequence symbol in its name field if there is one, the operation. -/
structure Stmt where
  line : Nat
  label : Option Name
  op : Op
deriving DecidableEq, Repr

/-- The diagnostics: `E044` (sequence symbol defined twice), `E046` (no `MEND`), `E058` (member not found), `E062` (member copies
itself). -/
inductive Diag where
  | E044 (line : Nat)
  | E046
  | E058 (line : Nat)
  | E062 (line : Nat)
deriving DecidableEq, Repr

/-! ## Members -/

/-- The counter of `copy_processor` (`copy_processor.cpp` 40-59, 80-92): the depth after each statement, and whether it was
negative. -/
def copyNest : List Stmt → Int → Bool → Int × Bool
  | [], n, bad => (n, bad)
  | s :: ss, n, bad =>
    match s.op with
    | .mbegin => copyNest ss (n + 1) bad
    | .mend => copyNest ss (n - 1) (bad || decide (n - 1 < 0))
    | _ => copyNest ss n bad

/-- The statements of a member (`copy_processor::end_processing`, `copy_processor.cpp` 61-73, `finish_copy_member`,
`processing_manager.cpp` 224-231): a member whose macro definitions are not closed or not opened (`E061`) counts as empty. -/
def memberOf (stmts : List Stmt) : List Stmt :=
  let r := copyNest stmts 0 false
  if r.1 > 0 ∨ r.2 then [] else stmts

/-- A member of the libraries: its file and its statements. -/
structure Member where
  file : File
  stmts : List Stmt
deriving DecidableEq, Repr

/-- The libraries: what `parse_library` finds under a name (`asm_processor.cpp` 548-561). -/
abbrev Lib := List (Name × Member)

/-- The member of a name. -/
def Lib.find (lib : Lib) (n : Name) : Option Member := (List.find? (fun m => m.1 == n) lib).map (·.2)

/-- `copy_member_invocation` (`copy_member.h` 25-38). `next` is `current_statement + 1`. -/
structure Frame where
  name : Name
  file : File
  stmts : List Stmt
  next : Nat
deriving DecidableEq, Repr

/-! ## The definition -/

/-- `macro_slice_t` (`macro_info.h` 77-93). -/
structure MSlice where
  first : Nat
  stop : Nat
  inner : Bool
deriving DecidableEq, Repr

/-- `file_scopes_t` (`macro_info.h` 95): `std::unordered_map` from files to slices, created empty by `operator[]`. -/
abbrev Scopes := List (File × List MSlice)

/-- The slices of a file. -/
def Scopes.get (s : Scopes) (f : File) : List MSlice := ((List.find? (fun e => e.1 == f) s).map (·.2)).getD []

/-- Assignment to the slices of a file. -/
def Scopes.set : Scopes → File → List MSlice → Scopes
  | [], f, v => [(f, v)]
  | e :: es, f, v => if e.1 == f then (f, v) :: es else e :: Scopes.set es f v

/-- `macrodef_processor` after the prototype (`macrodef_processor.h` 27-43) with `macrodef_processing_result`
(`macrodef_processing_info.h` 50-65). `stack` are the members entered since the definition began, the innermost first (the
part of `current_copy_stack` above `initial_copy_nest_`); `above` are the names of the members that were open before;
`file` is `definition_location.file`. -/
structure St where
  file : File
  above : List Name
  stack : List Frame := []
  nest : Nat := 1
  line : Nat := 0
  outer : Nat := 0
  lastInner : Bool := false
  finished : Bool := false
  defn : List Stmt := []
  nests : List (List Loc) := []
  labels : List (Name × Nat) := []
  scopes : Scopes := []
  diags : List Diag := []
deriving DecidableEq, Repr

/-- `process_sequence_symbol` (`macrodef_processor.cpp` 436-455). -/
def St.sequenceSymbol (s : St) (t : Stmt) : St :=
  match t.label with
  | none => s
  | some n =>
    if s.nest = 1 then
      if s.labels.any (·.1 == n) then { s with diags := s.diags ++ [.E044 t.line] }
      else { s with labels := s.labels ++ [(n, s.line)] }
    else s

/-- The position of the statement a member is at; `none` is an access outside of the block. -/
def Frame.loc (f : Frame) : Option Loc :=
  match f.next with
  | 0 => none
  | i + 1 => (f.stmts[i]?).map fun t => ⟨f.file, t.line⟩

/-- The positions of the nest (`add_correct_copy_nest`, `macrodef_processor.cpp` 459-467). -/
def St.path (s : St) : Option (List Loc) := (s.stack.reverse.mapM Frame.loc).map (⟨s.file, s.outer⟩ :: ·)

/-- The update of the slices of the file of the statement (`add_correct_copy_nest`, `macrodef_processor.cpp` 469-495). The slice
is changed with `back()`. -/
def slicesWith (old : List MSlice) (line : Nat) (inner lastInner : Bool) : List MSlice :=
  match old.reverse with
  | [] => if line = 1 then [⟨0, line, inner⟩] else [⟨line, line, inner⟩]
  | l :: rest =>
    if lastInner && !inner then old ++ [⟨line, line, inner⟩]
    else if !inner || (!lastInner && inner) then (⟨l.first, line, l.inner⟩ :: rest).reverse
    else old

/-- `add_correct_copy_nest` (`macrodef_processor.cpp` 457-496). -/
def St.addNest (s : St) : Option St := do
  let p ← s.path
  let f ← p.getLast?
  let inner := decide (s.nest > 1)
  some { s with
    nests := s.nests ++ [p]
    scopes := s.scopes.set f.file (slicesWith (s.scopes.get f.file) s.line inner s.lastInner)
    lastInner := inner }

/-- The statement stored instead of a `COPY` (`process_COPY`, `macrodef_processor.cpp` 366-376): an `ANOP` with the same range. -/
def Stmt.asAnop (t : Stmt) : Stmt := ⟨t.line, none, .anop⟩

/-- The names of all open members (`whole_copy_stack`, `hlasm_context.cpp` 404-413). -/
def St.opened (s : St) : List Name := s.stack.map (·.name) ++ s.above

/-- `asm_processor::process_copy` (`asm_processor.cpp` 533-574). -/
def St.enterCopy (lib : Lib) (s : St) (t : Stmt) (member : Option Name) : St :=
  match member with
  | none => { s with diags := s.diags ++ [.E058 t.line] }
  | some n =>
    match lib.find n with
    | none => { s with diags := s.diags ++ [.E058 t.line] }
    | some m =>
      if s.opened.contains n then { s with diags := s.diags ++ [.E062 t.line] }
      else { s with stack := ⟨n, m.file, memberOf m.stmts, 0⟩ :: s.stack }

/-- `process_statement` for a statement of the body (`macrodef_processor.cpp` 73-84, 173-196, 351-387). A `MEND` with the counter at
zero would fail an assertion. -/
def St.process (lib : Lib) (s : St) (t : Stmt) : Option St := do
  let s := if s.stack.isEmpty then { s with outer := t.line } else s
  let s := s.sequenceSymbol t
  match t.op with
  | .copy member =>
    let s ← St.addNest { s with defn := s.defn ++ [t.asAnop] }
    let s := s.enterCopy lib t member
    some { s with line := s.line + 1 }
  | .mbegin =>
    let s := { s with nest := s.nest + 1 }
    St.addNest { s with line := s.line + 1, defn := s.defn ++ [t] }
  | .mend =>
    if s.nest = 0 then none
    else
      let s := { s with nest := s.nest - 1, finished := decide (s.nest - 1 = 0) }
      St.addNest { s with line := s.line + 1, defn := s.defn ++ [t] }
  | _ => St.addNest { s with line := s.line + 1, defn := s.defn ++ [t] }

/-- The processor with the rest of the statements of the file (or member, or macro) the definition began in. -/
structure Run where
  st : St
  rest : List Stmt
deriving DecidableEq, Repr

/-- What a step does. -/
inductive Next where
  | more (r : Run)
  | done (r : Run)
  | fault
deriving DecidableEq, Repr

/-- One iteration of `start_processing` (`processing_manager.cpp` 97-124) while a macro is defined: an open member gives the next
statement (`copy_statement_provider.cpp` 28-40), otherwise the file does. At the end of the file the definition ends with a
diagnostic (`end_processing`, `macrodef_processor.cpp` 86-98). -/
def Run.step (lib : Lib) (r : Run) : Next :=
  if r.st.finished then .done r
  else match r.st.stack with
    | f :: fs =>
      match f.stmts[f.next]? with
      | none => .more { r with st := { r.st with stack := fs } }
      | some t =>
        match St.process lib { r.st with stack := { f with next := f.next + 1 } :: fs } t with
        | none => .fault
        | some s => .more { r with st := s }
    | [] =>
      match r.rest with
      | [] => .done { r with st := { r.st with diags := r.st.diags ++ [.E046] } }
      | t :: ts =>
        match r.st.process lib t with
        | none => .fault
        | some s => .more ⟨s, ts⟩

/-- The loop, with a bound on the number of iterations; `none` if the bound is too small. -/
def Run.run (lib : Lib) : Nat → Run → Option Next
  | 0, _ => none
  | k + 1, r =>
    match r.step lib with
    | .more r => r.run lib k
    | n => some n

/-- The processor behind the prototype of a macro. -/
def start (file : File) (above : List Name) (body : List Stmt) : Run := ⟨{ file := file, above := above }, body⟩

/-! ## Use of the definition -/

/-- `jump_in_statements` in a macro (`processing_manager.cpp` 246-279) followed by `macro_statement_provider::get_next`
(`macro_statement_provider.cpp` 30-43): `current_statement` is set to one before the offset and then increased. `none` is the
diagnostic `E047`; the inner `none` is the end of the macro. -/
def St.jump (s : St) (n : Name) : Option (Option Stmt) :=
  (s.labels.find? (·.1 == n)).map fun l =>
    let current : Int := (l.2 : Int) - 1 + 1
    if current = s.defn.length then none else s.defn[current.toNat]?

/-- Lines of a file that belong to the macro (`file_slice_t`, `file_info.h` 45-58). -/
structure FSlice where
  first : Nat
  stop : Nat
deriving DecidableEq, Repr

/-- The first line of a slice (`transform_slice`, `file_info.cpp` 117-121). `name` is the line of the macro name in the prototype
(`lsp_analyzer.cpp` 92-93); `none` is an access outside of `copy_nests`. -/
def beginLine (nests : List (List Loc)) (name : Nat) (s : MSlice) : Option Nat :=
  if s.first = 0 then some name else (nests[s.first]?).bind fun n => n.getLast?.map (·.line)

/-- The line behind a slice (`transform_slice`, `file_info.cpp` 123-128). -/
def endLine (nests : List (List Loc)) (s : MSlice) : Option Nat :=
  if s.stop = nests.length then nests.getLast?.bind fun n => n.getLast?.map (·.line + 1)
  else (nests[s.stop]?).bind fun n => n.getLast?.map (·.line)

/-- `file_slice_t::transform_slice` (`file_info.cpp` 113-134). -/
def transformSlice (nests : List (List Loc)) (name : Nat) (s : MSlice) : Option FSlice :=
  (beginLine nests name s).bind fun b => (endLine nests s).map fun e => ⟨b, e⟩

/-- `distribute_macro_i` (`lsp_context.cpp` 346-355) with `transform_slices` (`file_info.cpp` 136-143): the lines of all files. -/
def St.fileSlices (s : St) (name : Nat) : Option (List (File × List FSlice)) :=
  s.scopes.mapM fun e => (e.2.mapM (transformSlice s.nests name)).map fun l => (e.1, l)

end Verif.MacroDef
