import Verif.MacroDef.Model
import Verif.LspCtx.Occ

/-!
Go to definition, and the text shown over symbols.

Modelled: the collection of variable and sequence symbols in definitions of macros
(`/repo/parser_library/src/processing/statement_processors/macrodef_processor.cpp` 389-455), in open code
(`/repo/parser_library/src/processing/statement_analyzers/lsp_analyzer.cpp` 244-319), `lsp_context::add_file`, `add_copy`, `add_macro`,
`add_opencode`, `definition`, `find_definition_location` (`/repo/parser_library/src/lsp/lsp_context.cpp` 78-118, 371-427), `hover_text`
(27-75) and `find_hover` (429-478), `address::to_string`
(`/repo/parser_library/src/context/ordinary_assembly/address.cpp` 105-118). Not modelled: which
occurrence is under the cursor (C81), the text of macros (C106) and of instructions (C118).
-/
namespace Verif.Define

open MacroDef (Name File Stmt Lib Run Next Loc Op)

/-- `text!"..."` is the list of the characters of the text. -/
macro:max "text!" s:str : term => do
  let cs : Lean.TSyntaxArray `term := (s.getString.toList.map fun c => (Lean.Syntax.mkCharLit c : Lean.TSyntax `term)).toArray
  `([$cs,*])

/-- `location`: a file with a line and a column. -/
structure Place where
  file : File
  line : Nat
  column : Nat
deriving DecidableEq, Repr

/-- `SET_t_enum`. -/
inductive SetType where
  | A | B | C
deriving DecidableEq, Repr

/-- A variable symbol in the name field of `SETx` or among the operands of `LCLx` or `GBLx`. `created` are symbols with a composed name. -/
structure Decl where
  name : Name
  type : SetType
  global : Bool
  created : Bool
  line : Nat
  column : Nat
deriving DecidableEq, Repr

/-- `variable_symbol_definition` (`macro_info.h` 23-69) in a macro; `type` is `none` for parameters. -/
structure VarDef where
  name : Name
  type : Option SetType
  global : Bool
  stmt : Nat
  line : Nat
  column : Nat
deriving DecidableEq, Repr

/-- The texts of statements: which variable symbols the statement `.other k` declares. -/
abbrev Decls := Nat → List Decl

/-- The processor of a macro definition with `variable_symbols` and with the places of `sequence_symbols` of its result. -/
structure VRun where
  run : Run
  vars : List VarDef
  seqs : List (Name × Place)
deriving DecidableEq, Repr

/-- The statement the next step processes (`processing_manager.cpp` 97-124, `copy_statement_provider.cpp` 28-40) and its file
(`current_statement_location`). Simplified: the definition is not inside of a macro that is being expanded. -/
def current (r : Run) : Option (File × Stmt) :=
  if r.st.finished then none
  else match r.st.stack with
    | f :: _ => (f.stmts[f.next]?).map (f.file, ·)
    | [] => r.rest.head?.map (r.st.file, ·)

/-- `add_SET_sym_to_res` (`macrodef_processor.cpp` 416-434). -/
def addSet (nest line : Nat) (vars : List VarDef) (d : Decl) : List VarDef :=
  if nest > 1 then vars
  else if d.created then vars
  else if vars.any (·.name == d.name) then vars
  else vars ++ [⟨d.name, some d.type, d.global, line, d.line, d.column⟩]

/-- `process_LCL_GBL` and `process_SET` (`macrodef_processor.cpp` 389-414). -/
def addSets (decls : Decls) (nest line : Nat) (vars : List VarDef) (t : Stmt) : List VarDef :=
  match t.op with
  | .other k => (decls k).foldl (addSet nest line) vars
  | _ => vars

/-- The place of a sequence symbol (`process_sequence_symbol`, `macrodef_processor.cpp` 436-455). Simplified: the name field begins in the first
column. -/
def addSeq (nest : Nat) (seqs : List (Name × Place)) (file : File) (t : Stmt) : List (Name × Place) :=
  match t.label with
  | none => seqs
  | some n => if nest = 1 then if seqs.any (·.1 == n) then seqs else seqs ++ [(n, ⟨file, t.line, 0⟩)] else seqs

/-- What a step with variable symbols does. -/
inductive VNext where
  | more (r : VRun)
  | done (r : VRun)
  | fault
deriving DecidableEq, Repr

/-- One step: the statement is processed as in `Run.step`, its symbols are collected before the number of the statement is increased
(`macrodef_processor.cpp` 173-196). -/
def VRun.step (lib : Lib) (decls : Decls) (v : VRun) : VNext :=
  match v.run.step lib with
  | .fault => .fault
  | .done r => .done { v with run := r }
  | .more r =>
    match current v.run with
    | none => .more { v with run := r }
    | some (file, t) =>
      .more ⟨r, addSets decls v.run.st.nest v.run.st.line v.vars t, addSeq v.run.st.nest v.seqs file t⟩

/-- The loop, with a bound on the number of iterations. -/
def VRun.go (lib : Lib) (decls : Decls) : Nat → VRun → Option VNext
  | 0, _ => none
  | k + 1, v =>
    match v.step lib decls with
    | .more v => v.go lib decls k
    | n => some n

/-- A parameter with its place in the prototype. -/
structure Param where
  name : Name
  line : Nat
  column : Nat
deriving DecidableEq, Repr

/-- The processor behind the prototype: the parameters are the first variable symbols, with the statement number 0
(`macrodef_processor.cpp` 244-298). -/
def startV (file : File) (above : List Name) (params : List Param) (body : List Stmt) : VRun :=
  ⟨MacroDef.start file above body, params.map fun p => ⟨p.name, none, false, 0, p.line, p.column⟩, []⟩

/-! ## Open code -/

/-- A statement executed outside of definitions: whether a macro gave it, its file and its declarations. -/
structure Exec where
  inMacro : Bool
  file : File
  decls : List Decl
deriving DecidableEq, Repr

/-- `variable_symbol_definition` in open code. -/
structure OpenVar where
  name : Name
  type : SetType
  place : Place
deriving DecidableEq, Repr

/-- `add_var_def` (`lsp_analyzer.cpp` 296-309). -/
def addOpen (file : File) (vars : List OpenVar) (d : Decl) : List OpenVar :=
  if d.created then vars
  else if vars.any (·.name == d.name) then vars
  else vars ++ [⟨d.name, d.type, ⟨file, d.line, d.column⟩⟩]

/-- `collect_var_definition` for one statement (`lsp_analyzer.cpp` 42-58, 244-294): statements of macros are left out. -/
def openStep (vars : List OpenVar) (e : Exec) : List OpenVar :=
  if e.inMacro then vars else e.decls.foldl (addOpen e.file) vars

/-- The variable symbols of open code. -/
def openVars (es : List Exec) : List OpenVar := es.foldl openStep []

/-! ## Files -/

/-- `file_type` with `owner` (`file_info.h` 60-95). -/
inductive Owner where
  | opencode
  | macro (id : Nat)
  | copy (member : Name)
deriving DecidableEq, Repr

/-- `add_file` (`lsp_context.cpp` 78-82): `try_emplace` keeps the first owner of a file. -/
def addFile (files : List (File × Owner)) (f : File × Owner) : List (File × Owner) :=
  if files.any (·.1 == f.1) then files else files ++ [f]

/-! ## Lookup -/

/-- A macro, as far as definitions are concerned (`macro_info.h` 100-122, `macro.h`). -/
structure Macro where
  id : Nat
  place : Place
  vars : List VarDef
  seqs : List (Name × Place)
  nests : List (List Loc)
deriving Repr

/-- `symbol_value` with the address as bases with their numbers and an offset (`address.h`); unresolved spaces are left out, as `to_string` does. -/
inductive Value where
  | undef
  | abs (v : Int)
  | reloc (bases : List (List Char × Int)) (offset : Int)
deriving DecidableEq, Repr

/-- `symbol` (`symbol.h`) with `symbol_attributes`; `none` is an attribute without a value. `integer` is what `integer()` gives; `type` is the character of
the type attribute (`to_ascii`). -/
structure Sym where
  name : Name
  place : Place
  value : Value
  length : Option Nat
  scale : Option Int
  integer : Int
  type : Char
deriving DecidableEq, Repr

/-- The `lsp_context` behind an analysis. -/
structure World where
  symbols : List Sym
  openSeqs : List (Name × Place)
  opens : List OpenVar
  macros : List Macro
  files : List (File × Owner)
deriving Repr

/-- What a lookup gives; `fault` is an access outside of a vector. -/
inductive Found (α : Type) where
  | found (a : α)
  | nothing
  | fault
deriving DecidableEq, Repr

/-- A result that may be missing. -/
def Found.ofOption {α : Type} : Option α → Found α
  | some a => .found a
  | none => .nothing

/-- The place of a variable symbol of a macro (`lsp_context.cpp` 390-404): the file is the innermost one of the copy nest of the statement. -/
def varPlace (nests : List (List Loc)) (v : VarDef) : Found Place :=
  match (nests[v.stmt]?).bind (·.getLast?) with
  | some l => .found ⟨l.file, v.line, v.column⟩
  | none => .fault

/-- Variable symbols of a macro (`lsp_context.cpp` 394-403). -/
def findVar (vars : List VarDef) (nests : List (List Loc)) (n : Name) : Found Place :=
  match vars.find? (·.name == n) with
  | some v => varPlace nests v
  | none => .nothing

/-- `find_definition_location` (`lsp_context.cpp` 371-427). Simplified: the member is at the beginning of its file (`copy_member.h` 25-38 with
`processing_manager.cpp` 205-222), and `files` is searched in the order of insertion. -/
def definitionOf (w : World) (o : LspCtx.Occ) (scope : Option Macro) : Found Place :=
  match o.kind with
  | .ord => .ofOption ((w.symbols.find? (·.name == o.name)).map (·.place))
  | .seq => .ofOption (((scope.elim w.openSeqs (·.seqs)).find? (·.1 == o.name)).map (·.2))
  | .var =>
    match scope with
    | some m => findVar m.vars m.nests o.name
    | none => .ofOption ((w.opens.find? (·.name == o.name)).map (·.place))
  | .instr =>
    match o.opcode with
    | some m => .ofOption ((w.macros.find? (·.id == m)).map (·.place))
    | none => .nothing
  | .copyOp => .ofOption ((w.files.find? (·.2 == .copy o.name)).map fun f => ⟨f.1, 0, 0⟩)

/-- `lsp_context::definition` (`lsp_context.cpp` 109-119): without an occurrence or a definition the answer is the place asked for. -/
def definition (w : World) (occ : Option (LspCtx.Occ × Option Macro)) (asked : Place) : Option Place :=
  match occ with
  | none => some asked
  | some (o, scope) =>
    match definitionOf w o scope with
    | .found p => some p
    | .nothing => some asked
    | .fault => none

/-! ## Texts -/

/-- `std::to_string` of an integer. -/
def intText : Int → List Char
  | .ofNat n => Nat.toDigits 10 n
  | .negSucc n => '-' :: Nat.toDigits 10 (n + 1)

/-- One base of an address (`address.cpp` 108-115). -/
def baseText (b : List Char × Int) : List Char :=
  if b.1 = [] ∨ b.2 = 0 then [] else (if b.2 > 1 then intText b.2 ++ ['*'] else []) ++ b.1 ++ [' ', '+', ' ']

/-- `address::to_string` (`address.cpp` 105-118). -/
def addressText (bases : List (List Char × Int)) (offset : Int) : List Char := bases.flatMap baseText ++ intText offset

/-- The two spaces and the end of line behind an attribute. -/
def eol : List Char := [' ', ' ', '\n']

/-- The line between the parts (`lsp_context.cpp` 37, 42). -/
def rule : List Char := text!"\n\n---\n\n"

/-- An attribute (`lsp_context.cpp` 46-53). -/
def attrText (c : Char) (v : List Char) : List Char := c :: ':' :: ' ' :: v ++ eol

/-- The attributes (`lsp_context.cpp` 45-53); `I` needs both the length and the scale (`symbol_attributes.cpp` 149-164), `T` is always shown. -/
def attrsText (s : Sym) : List Char :=
  (match s.length with | some l => attrText 'L' (intText l) | none => []) ++
  (if s.scale.isSome && s.length.isSome then attrText 'I' (intText s.integer) else []) ++
  (match s.scale with | some c => attrText 'S' (intText c) | none => []) ++
  attrText 'T' [s.type]

/-- `hover_text` of an ordinary symbol (`lsp_context.cpp` 27-56). -/
def symText (s : Sym) : List Char :=
  match s.value with
  | .undef => []
  | .abs v => intText v ++ (rule ++ text!"Absolute Symbol" ++ rule) ++ attrsText s
  | .reloc bases offset => addressText bases offset ++ (rule ++ text!"Relocatable Symbol" ++ rule) ++ attrsText s

/-- `hover_text` of a variable symbol (`lsp_context.cpp` 58-75). -/
def typeText : Option SetType → List Char
  | none => text!"MACRO parameter"
  | some .A => text!"SETA variable"
  | some .B => text!"SETB variable"
  | some .C => text!"SETC variable"

/-- `find_hover` (`lsp_context.cpp` 429-478). `macroText` and `instrText` are the texts of C106 and C118; `none` is the failed assertion about a macro that
is not there. -/
def hoverOf (w : World) (macroText : Macro → List Char) (instrText : Name → List Char) (o : LspCtx.Occ) (scope : Option Macro) :
    Option (List Char) :=
  match o.kind with
  | .ord => some (((w.symbols.find? (·.name == o.name)).map symText).getD [])
  | .seq => some text!"Sequence symbol"
  | .var =>
    match scope with
    | some m => some (((m.vars.find? (·.name == o.name)).map (typeText ·.type)).getD [])
    | none => some (((w.opens.find? (·.name == o.name)).map (fun v => typeText (some v.type))).getD [])
  | .instr =>
    match o.opcode with
    | some m => (w.macros.find? (·.id == m)).map macroText
    | none => some (instrText o.name)
  | .copyOp => some []

end Verif.Define
