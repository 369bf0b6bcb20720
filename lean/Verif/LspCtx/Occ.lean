import Verif.Lexing.Range
/-!
Occurrences of symbols: which one is under the cursor, in which scope, and what its references are.

Modelled: `/repo/parser_library/src/lsp/symbol_occurence.h` (all), `/repo/parser_library/src/lsp/file_info.cpp` 23-111
(`operator<` on line ranges, `is_in_range`, `find_occurence_with_scope`, `find_scope`, `find_references`,
`update_occurences`, `update_slices`), `/repo/parser_library/src/lsp/lsp_context.cpp` 97-155 (`add_opencode`, `definition`,
`references`), 346-369 (distribution, `find_occurence_with_scope`) and 371-427 (`find_definition_location`, as a function of
what it depends on). Not modelled: how the analysis collects occurrences, hover and completion.
-/
namespace Verif.LspCtx

open Lexing (Pos Rng)

/-- `occurence_kind` (`symbol_occurence.h` 25-32). -/
inductive Kind where
  | ord | var | seq | instr | copyOp
deriving DecidableEq, Repr

/-- `symbol_occurence` (`symbol_occurence.h` 34-63); names and macro definitions are pointers, compared as such. -/
structure Occ where
  kind : Kind
  name : Nat
  range : Rng
  opcode : Option Nat := none
deriving DecidableEq, Repr

/-- `is_scoped` (`symbol_occurence.h` 57). -/
def Occ.isScoped (o : Occ) : Bool := o.kind == .seq || o.kind == .var

/-- `is_similar` (`symbol_occurence.h` 59-62). -/
def Occ.isSimilar (a b : Occ) : Bool := a.kind == b.kind && a.name == b.name && a.opcode == b.opcode

/-- `file_occurences_t`: occurrences by file (`macro_info.h` 96); the order of the map is left open. -/
abbrev FileOccs := List (String × List Occ)

/-- `file_slice_t` (`file_info.h` 45-58): the lines of a file that belong to a macro. -/
structure Slice where
  first : Nat
  last : Nat
  macroId : Nat
deriving DecidableEq, Repr

/-- `macro_info` (`macro_info.h` 100-122), as far as occurrences are concerned. `slices` are the transformed slices of
`file_slice_t::transform_slices`. -/
structure MacroInfo where
  id : Nat
  slices : List (String × List Slice)
  occs : FileOccs
deriving Repr

/-- `lsp_context` (`lsp_context.h`) when `add_opencode` is called: the macros, the occurrences of open code, the files. -/
structure Ctx where
  files : List String
  macros : List MacroInfo
  opencode : FileOccs
deriving Repr

/-- The occurrences a map holds for a file; a file without an entry has none. -/
def FileOccs.at (fo : FileOccs) (file : String) : List Occ := (fo.find? (·.1 == file)).elim [] (·.2)

/-- `file_info::is_in_range` (`file_info.cpp` 49-53): both ends are included. -/
def isInRange (p : Pos) (r : Rng) : Bool :=
  decide (r.start.line < p.line ∨ (r.start.line = p.line ∧ r.start.col ≤ p.col)) &&
    decide (p.line < r.stop.line ∨ (p.line = r.stop.line ∧ p.col ≤ r.stop.col))

/-- Insertion into `std::map<line_range, file_slice_t>` with `operator[]` and assignment (`file_info.cpp` 24-27, 109): sorted by
first and last line, a slice with the same lines is replaced. -/
def insertSlice (s : Slice) : List Slice → List Slice
  | [] => [s]
  | x :: xs =>
    if s.first = x.first ∧ s.last = x.last then s :: xs
    else if s.first < x.first ∨ (s.first = x.first ∧ s.last < x.last) then s :: x :: xs
    else x :: insertSlice s xs

/-- `update_slices` (`file_info.cpp` 100-111). -/
def updateSlices (old new : List Slice) : List Slice := new.foldl (fun acc s => insertSlice s acc) old

/-- The slices of a file after `add_opencode` has distributed all macros (`lsp_context.cpp` 102-104, 350-351). -/
def Ctx.slices (c : Ctx) (file : String) : List Slice :=
  c.macros.foldl (fun acc m => updateSlices acc ((m.slices.find? (·.1 == file)).elim [] (·.2))) []

/-- The occurrences of a file after the distribution (`lsp_context.cpp` 102-106, 353, 360-361; `file_info.cpp` 94-98). -/
def Ctx.occs (c : Ctx) (file : String) : List Occ := c.macros.flatMap (·.occs.at file) ++ c.opencode.at file

/-- `file_info::find_scope` (`file_info.cpp` 76-82). -/
def Ctx.scope (c : Ctx) (file : String) (p : Pos) : Option Nat :=
  ((c.slices file).find? (fun s => decide (s.first ≤ p.line) && decide (s.last > p.line))).map (·.macroId)

/-- `find_occurence_with_scope` (`lsp_context.cpp` 364-369, `file_info.cpp` 55-74). -/
def Ctx.find (c : Ctx) (file : String) (p : Pos) : Option (Occ × Option Nat) :=
  if file ∈ c.files then
    ((c.occs file).find? (fun o => isInRange p o.range)).map fun o => (o, c.scope file p)
  else none

/-- `find_references` (`file_info.cpp` 84-92). -/
def findReferences (o : Occ) (occs : List Occ) : List Pos := (occs.filter o.isSimilar).map (·.range.start)

/-- `collect_references` (`lsp_context.cpp` 121-129). -/
def collect (o : Occ) (fo : FileOccs) : List (Pos × String) := fo.flatMap fun f => (findReferences o f.2).map fun p => (p, f.1)

/-- The references of an occurrence in a scope (`lsp_context.cpp` 140-152). The scope is the shared `macro_info` itself; here it
is found by its identity among the macros. -/
def Ctx.refsOf (c : Ctx) (o : Occ) (scope : Option Nat) : List (Pos × String) :=
  if o.isScoped then
    match scope with
    | some m => (c.macros.find? (·.id == m)).elim [] fun mi => collect o mi.occs
    | none => collect o c.opencode
  else c.macros.flatMap (fun mi => collect o mi.occs) ++ collect o c.opencode

/-- `lsp_context::references` (`lsp_context.cpp` 131-155). -/
def Ctx.references (c : Ctx) (file : String) (p : Pos) : List (Pos × String) :=
  match c.find file p with
  | none => []
  | some (o, scope) => c.refsOf o scope

/-- `lsp_context::definition` (`lsp_context.cpp` 109-119). `find_definition_location` (371-427) looks at the kind, the name and the
opcode of the occurrence and, for scoped kinds, at the scope; `defs` stands for its lookups in the tables of the analysis. -/
def Ctx.definition (c : Ctx) (defs : Kind → Nat → Option Nat → Option Nat → Option (Pos × String)) (file : String) (p : Pos) :
    Pos × String :=
  match c.find file p with
  | none => (p, file)
  | some (o, scope) => (defs o.kind o.name o.opcode (if o.isScoped then scope else none)).getD (p, file)

end Verif.LspCtx
