import Verif.Exec.Model
/-!
Statements that have to wait for symbols: how they are kept, when they are let go, and where the messages of their check are shown
(`/repo/parser_library/src/context/ordinary_assembly/symbol_dependency_tables.cpp` 141-173, 222-240, 264-334, 443-459, 467-528,
`processing/instruction_sets/mach_processor.cpp` 62-84, `asm_processor.cpp` 148-166, 247-297, 438-445, `low_language_processor.cpp` 134-188, 330-366,
`processing/statement_processors/ordinary_processor.cpp` 106-121, 206-226, `checking/diagnostic_collector.cpp`, `diagnosable_ctx.h` 52-66). C142.
Not modelled: when a target is computed (C56, C134) and what the check of a statement finds (C92, C102, C140), here given; which
definitions depend on themselves (C55).
-/
namespace Verif.Waiting
open Verif.Exec (Loc File)

/-- `processing_stack_t`: the places of the statements being processed, the outermost first (hlasm_context.cpp 340-367; C119). -/
abbrev Stack := List Loc

/-- `dependant` (context/ordinary_assembly/dependable.h): a symbol, an attribute of a symbol, a space. -/
inductive Target where
  | sym (n : Nat)
  | len (n : Nat)
  | scale (n : Nat)
  | space (n : Nat)
deriving DecidableEq, Repr

/-- The statements that wait: a machine instruction, an EQU with its label, an EQU that depends on itself, for which nothing is registered
(symbol_dependency_tables.cpp 253-258), an ORG with its space, a DC or DS with its space if its length is not known and its label if length or
scale of the label are not (and do not depend on themselves). -/
inductive Kind where
  | mach
  | equ (label : Nat)
  | circle
  | org (sp : Nat)
  | data (sp len scale : Option Nat)
deriving DecidableEq, Repr

/-- The targets a statement is registered for (asm_processor.cpp 162, 256, 276, 280, ordinary_assembly_context.cpp 161). -/
def Kind.targets : Kind → List Target
  | .mach => []
  | .equ l => [.sym l]
  | .circle => []
  | .org s => [.space s]
  | .data sp l s => sp.toList.map .space ++ l.toList.map .len ++ s.toList.map .scale

/-- `dependency_adder::ref_count_` (symbol_dependency_tables.cpp 473-506): the targets, and one more for `add_dependency()` without
arguments, which machine instructions (328-333) and DC and DS (asm_processor.cpp 283) call. -/
def Kind.refs : Kind → Nat
  | .mach => 1
  | .data sp l s => (Kind.data sp l s).targets.length + 1
  | k => k.targets.length

/-- `postponed_statement_impl` (postponed_statement_impl.h 26-45): which statement, and the stack when it was processed. -/
structure Post where
  stmt : Nat
  stack : Stack
deriving DecidableEq, Repr

/-- A message: its code, file and line, and the places of `related`. -/
structure Diag where
  code : Nat
  file : File
  line : Nat
  related : List Loc
deriving DecidableEq, Repr

/-- The tables (symbol_dependency_tables.h 46-57), the checks made so far with the stack of their collector, and the messages about
locations that ORG cannot be set to. `refs`: `dependency_source_stmts_`, the statement and the count; every target has its own copy of the
count. -/
structure State where
  refs : Target → Option (Nat × Nat) := fun _ => none
  posts : List Post := []
  checked : List (Nat × Stack) := []
  late : List Diag := []

/-- `add_diagnostic_inner` (diagnosable_ctx.h 52-66); none: the stack is empty, which is not defined. -/
def showAt (st : Stack) (m : Nat × Nat) : Option Diag :=
  match st.reverse with
  | [] => none
  | top :: below => some ⟨m.1, top.file, m.2, below⟩

/-- `get_location_stack` (diagnostic_collector.cpp 40-46): the stack given, or the current one if it is empty. -/
def collectorStack (given cur : Stack) : Stack := if given.isEmpty then cur else given

/-- `dependency_adder::finish` for one target (symbol_dependency_tables.cpp 522-523): `emplace` leaves what is there. -/
def addRef (refs : Target → Option (Nat × Nat)) (i c : Nat) (t : Target) : Target → Option (Nat × Nat) :=
  fun x => if x = t ∧ (refs t).isNone then some (i, c) else refs x

/-- What happens. `now`: a statement without dependencies is processed, and checked at once (mach_processor.cpp 81-82, asm_processor.cpp
296). `wait`: one with dependencies. `resolve`: a target is computed, or given up as part of a circle (symbol_dependency_tables.cpp 166-170,
433-438), while the statement with the stack `cur` is processed; `found`: what is said about the location of an ORG
(low_language_processor.cpp 134-188), with the line of the ORG. -/
inductive Ev where
  | now (i : Nat) (st : Stack)
  | wait (i : Nat) (st : Stack) (k : Kind)
  | resolve (t : Target) (cur : Stack) (found : List (Nat × Nat))

/-- `try_erase_source_statement` (symbol_dependency_tables.cpp 222-240). -/
def tryErase (s : State) (t : Target) : State :=
  match s.refs t with
  | none => s
  | some (i, c) =>
    { s with
      posts := if c - 1 = 0 then s.posts.filter (fun p => p.stmt ≠ i) else s.posts
      refs := fun x => if x = t then none else s.refs x }

/-- One event. A statement with nothing to wait for is not kept (symbol_dependency_tables.cpp 510-511). The messages of `resolve` are added by the processor itself, hence with the current stack (diagnosable_ctx.h 37-40). -/
def step (s : State) : Ev → State
  | .now i st => { s with checked := s.checked ++ [(i, collectorStack st st)] }
  | .wait i st k =>
    if k.refs = 0 then s
    else { s with posts := s.posts ++ [⟨i, st⟩], refs := k.targets.foldl (fun r t => addRef r i k.refs t) s.refs }
  | .resolve t cur found => tryErase { s with late := s.late ++ found.filterMap (showAt cur) } t

def run (s : State) (evs : List Ev) : State := evs.foldl step s

/-- The end (ordinary_processor.cpp 106-121, 206-226): all statements left are checked, in the order in which they happen to be in the
`unordered_set`; here that in which they were added. `cur`: the stack at the end. -/
def finish (s : State) (cur : Stack) : State :=
  { s with
    checked := s.checked ++ s.posts.map fun p => (p.stmt, collectorStack p.stack cur)
    posts := []
    refs := fun _ => none }

/-- The messages: those of the checks, `chk` saying what is found in a statement (code and line), and the late ones. -/
def messages (chk : Nat → List (Nat × Nat)) (s : State) : List Diag :=
  (s.checked.flatMap fun c => (chk c.1).filterMap (showAt c.2)) ++ s.late

end Verif.Waiting
