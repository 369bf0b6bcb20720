import Verif.Context.Vars
/-!
Sections, location counters, and the system variables of macros (`/repo/parser_library/src/context/ordinary_assembly/ordinary_assembly_context.cpp`,
`section.cpp`, `/repo/parser_library/src/context/hlasm_context.cpp`, `/repo/parser_library/src/processing/instruction_sets/asm_processor.cpp`). C123.

Offsets within a location counter are C52, C100 and C101. Of the diagnostics of a statement only whether there are any is kept, and operands are
without errors.
-/
namespace Verif.Sect
open Verif.Context (toDec)

/-- Names of symbols; `id_storage::empty_id` is the empty one. -/
abbrev Name := Bytes

/-- `section_kind` (section.h 24-30). -/
inductive Kind where
  | dummy
  | common
  | executable
  | readonly
deriving DecidableEq, Repr

/-- `section` (section.h 34-60): its location counters in the order of definition, and the position of the current one. -/
structure Section where
  name : Name
  kind : Kind
  counters : List Name
  cur : Nat
deriving DecidableEq, Repr

/-- The place where something is put. -/
structure Place where
  kind : Kind
  sect : Name
  counter : Name
deriving DecidableEq, Repr

/-- The system variables of a macro call (hlasm_context.cpp 57-161). -/
structure SysVars where
  sysect : Name
  sysstyp : Bytes
  sysloc : Name
  sysnest : Nat
  sysmac : List Bytes
deriving DecidableEq, Repr

/-- An element of `scope_stack_`: the name of the macro and its system variables. Open code has none. -/
structure Frame where
  mac : Name
  sys : SysVars
deriving DecidableEq, Repr

/-- `ordinary_assembly_context` with `scope_stack_`: `curr_section_` is a position in `sections_`. Of `symbols_` the names are kept, for labels
with their places. `scope_stack_` is without open code, the innermost call first. -/
structure State where
  sections : List Section := []
  curr : Option Nat := none
  symbols : List Name := []
  labels : List (Name × Place) := []
  calls : List Frame := []
  rep : Bool := false
deriving DecidableEq, Repr

/-- The name field after substitution (`find_label_symbol`, low_language_processor.cpp 39-50): not an ordinary symbol, one, or an invalid one. -/
inductive Label where
  | none
  | name (n : Name)
  | bad
deriving DecidableEq, Repr

/-- Statements. -/
inductive Ev where
  /-- CSECT, DSECT, RSECT, COM -/
  | sect (k : Kind) (l : Label)
  | loctr (l : Label)
  | start (l : Label)
  /-- an instruction or a definition of storage -/
  | place (l : Label)
  /-- EQU with an expression without reference to the location counter -/
  | equ (l : Label)
  | enter (mac : Name)
  | leave
deriving DecidableEq, Repr

/-- `find_label_symbol` (low_language_processor.cpp 39-50). -/
def Label.id : Label → Name
  | .none => []
  | .name n => n
  | .bad => []

def Label.reported : Label → Bool
  | .bad => true
  | _ => false

/-- `section::section` (section.cpp 24-31). -/
def newSection (n : Name) (k : Kind) : Section := ⟨n, k, [n], 0⟩

/-- `create_private_section` (ordinary_assembly_context.cpp 25-29), if there is no current section. -/
def openSection (s : State) : State :=
  match s.curr with
  | some _ => s
  | none => { s with sections := s.sections ++ [newSection [] .executable], curr := some s.sections.length }

/-- `section_defined` (ordinary_assembly_context.cpp 192-197) and the search in `set_section` (85-87): the first one. -/
def findSection (l : List Section) (n : Name) (k : Kind) : Option Nat := l.findIdx? fun x => x.name = n ∧ x.kind = k

/-- `section::counter_defined` (section.cpp 48-53). -/
def Section.has (x : Section) (n : Name) : Bool := n ∈ x.counters

/-- `section::set_location_counter` (section.cpp 33-46). -/
def Section.set (x : Section) (n : Name) : Section :=
  match x.counters.findIdx? (· = n) with
  | some i => { x with cur := i }
  | none => { x with counters := x.counters ++ [n], cur := x.counters.length }

/-- `ordinary_assembly_context::set_section` (83-102). The exception at 94 is not reached, see `process_sect`. -/
def setSection (s : State) (n : Name) (k : Kind) : State :=
  match findSection s.sections n k with
  | some i => { s with curr := some i }
  | none => { s with sections := s.sections ++ [newSection n k], curr := some s.sections.length, symbols := n :: s.symbols }

/-- The loop of `ordinary_assembly_context::set_location_counter` (111-118): the last section with that counter. -/
def lastWith (n : Name) : List Section → Nat → Option Nat → Option Nat
  | [], _, r => r
  | x :: l, i, r => lastWith n l (i + 1) (if x.has n then some i else r)

/-- `ordinary_assembly_context::set_location_counter` (104-131). The exception at 129 is not reached, see `process_LOCTR`. -/
def setCounter (s0 : State) (n : Name) : State :=
  let s := openSection s0
  match lastWith n s.sections 0 none with
  | some i => { s with curr := some i, sections := s.sections.modify i (·.set n) }
  | none => match s.curr with
    | some i => { s with sections := s.sections.modify i (·.set n), symbols := n :: s.symbols }
    | none => s

/-- The current location counter. -/
def current (s : State) : Option Place :=
  match s.curr with
  | none => none
  | some i => match s.sections[i]? with
    | none => none
    | some x => match x.counters[x.cur]? with
      | none => none
      | some c => some ⟨x.kind, x.name, c⟩

/-- The definition of a label (`create_symbol`, with the check for E031 before): at the current place, or absolute. -/
def label (s : State) (l : Label) (p : Option Place) : State :=
  if l.id = [] then { s with rep := s.rep || l.reported }
  else if l.id ∈ s.symbols then { s with rep := true }
  else match p with
    | some p => { s with symbols := l.id :: s.symbols, labels := (l.id, p) :: s.labels }
    | none => { s with symbols := l.id :: s.symbols }

def sCOM : Bytes := [67, 79, 77]
def sDSECT : Bytes := [68, 83, 69, 67, 84]
def sRSECT : Bytes := [82, 83, 69, 67, 84]
def sCSECT : Bytes := [67, 83, 69, 67, 84]
def sOPEN : Bytes := [79, 80, 69, 78, 32, 67, 79, 68, 69]

/-- The names of the kinds (hlasm_context.cpp 93-109). -/
def kindName : Kind → Bytes
  | .common => sCOM
  | .dummy => sDSECT
  | .readonly => sRSECT
  | .executable => sCSECT

/-- `enter_macro` (hlasm_context.cpp 705-718) with the variables that describe the state at the call (`add_system_vars_to_scope` 57-161). A
variable without value is an empty string. The new scope is on the stack when the variables are made; `scope_stack_.size() - 1` is the number of
calls. &SYSNDX is C33. -/
def enter (s : State) (mac : Name) : State :=
  let sect := s.curr.bind (s.sections[·]?)
  let names := mac :: s.calls.map (·.mac)
  { s with calls := ⟨mac,
      { sysect := (sect.map (·.name)).getD [],
        sysstyp := (sect.map fun x => kindName x.kind).getD [],
        sysloc := (sect.map fun x => (x.counters[x.cur]?).getD []).getD [],
        sysnest := names.length,
        sysmac := names ++ [sOPEN] }⟩ :: s.calls }

/-- `process_sect` (asm_processor.cpp 27-42). -/
def processSect (s0 : State) (k : Kind) (l : Label) : State :=
  let s := { s0 with rep := s0.rep || l.reported }
  if l.id ∈ s.symbols ∧ (findSection s.sections l.id k).isNone then { s with rep := true } else setSection s l.id k

/-- `process_LOCTR` (asm_processor.cpp 44-63). `counter_defined` (ordinary_assembly_context.cpp 199-210) opens a section. -/
def processLoctr (s0 : State) (l : Label) : State :=
  let s := { s0 with rep := s0.rep || l.reported || (l.id = []) }
  if l.id ∈ s.symbols then
    let s' := openSection s
    if s'.sections.any (·.has l.id) then setCounter s' l.id else { s' with rep := true }
  else setCounter s l.id

/-- Processing of a statement (asm_processor.cpp 506-531). Before that, expressions among the operands get the location counter
(low_language_processor.cpp 125-131), which opens a section. There is no function for START: its name field is not looked at. -/
def step (s : State) : Ev → State
  | .sect k l => processSect s k l
  | .loctr l => processLoctr s l
  | .start _ => openSection s
  | .place l => let s := openSection s; label s l (current s)
  | .equ l => label { openSection s with rep := s.rep || (l.id = []) } l none
  | .enter mac => enter s mac
  | .leave => { s with calls := s.calls.tail }

def run (s : State) (p : List Ev) : State := p.foldl step s

/-- `localtime`: the fields of `tm` that are used. -/
structure Tm where
  year : Nat
  mon : Nat
  mday : Nat
  hour : Nat
  min : Nat
deriving DecidableEq, Repr

/-- &SYSDATC (hlasm_context.cpp 183-209). -/
def sysdatc (t : Tm) : Bytes :=
  toDec (t.year + 1900) ++ (if t.mon + 1 < 10 then [48] else []) ++ toDec (t.mon + 1) ++ (if t.mday < 10 then [48] else []) ++ toDec t.mday

/-- &SYSDATE (hlasm_context.cpp 183-222). -/
def sysdate (t : Tm) : Bytes :=
  (if t.mon + 1 < 10 then [48] else []) ++ toDec (t.mon + 1) ++ [47] ++ (if t.mday < 10 then [48] else []) ++ toDec t.mday ++ [47] ++
    (toDec (t.year + 1900)).drop 2

/-- &SYSTIME (hlasm_context.cpp 227-237). -/
def systime (t : Tm) : Bytes :=
  (if t.hour < 10 then [48] else []) ++ toDec t.hour ++ [58] ++ (if t.min < 10 then [48] else []) ++ toDec t.min

end Verif.Sect
