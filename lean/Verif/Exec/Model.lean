/-!
The order in which statements are processed, the stack of places shown with each of them, and where diagnostics are put.

Modelled: the loop of `/repo/parser_library/src/processing/processing_manager.cpp` (97-125, 139-157) with the statement processor of open code,
the providers (`statement_providers/macro_statement_provider.cpp` 28-43, `copy_statement_provider.cpp` 26-40 and the open code), `check_fatals`
(`statement_processors/ordinary_processor.cpp` 227-237), `asm_processor::process_copy` (`instruction_sets/asm_processor.cpp` 533-574),
`process_MEXIT` and `process_MEND` (`instruction_sets/ca_processor.cpp` 451-463), `hlasm_context::processing_stack`, `whole_copy_stack`,
`enter_macro`, `leave_macro`, `enter_copy_member`, `leave_copy_member` (`/repo/parser_library/src/context/hlasm_context.cpp` 340-367, 404-413, 705-718,
720, 749-762) and `diagnosable_ctx::add_diagnostic_inner` (`/repo/parser_library/src/diagnosable_ctx.h` 52-66).

Not modelled: branches (C37-C40), attribute lookahead (C97), definitions of macros (C98; the bodies are given with the places C98 gives
them), the counter of branches, text of diagnostics, columns.
-/
namespace Verif.Exec

/-- Identifiers of the storage (C30): names of members and macros. -/
abbrev Name := Nat

/-- File names. -/
abbrev File := Nat

/-- `location` (`location.h`): a file and a line. -/
structure Loc where
  file : File
  line : Nat
deriving DecidableEq, Repr

/-- Codes of the diagnostics: `E049` (operation code not found), `E054` (statement outside a macro), `E055` (too many nested calls), `E058`
(member not found), `E062` (recursive `COPY`), and those of the processing of one statement. -/
inductive Code where
  | E049 | E054 | E055 | E058 | E062
  | own (n : Nat)
deriving DecidableEq, Repr

/-- The operation of a statement after variable symbols were replaced in it. `other` stands for all instructions that neither enter nor leave
anything, with what is said about the statement; `copy none` is a `COPY` whose operand is not one ordinary symbol. -/
inductive Op where
  | other (said : Option Nat)
  | call (m : Name)
  | copy (member : Option Name)
  | mexit
  | mend
deriving DecidableEq, Repr

/-- A statement with the line it begins on. -/
structure Stmt where
  line : Nat
  op : Op
deriving DecidableEq, Repr

/-- `copy_member` (`context/copy_member.h` 44-63): the file of the definition and the statements. -/
structure Member where
  file : File
  stmts : List Stmt
deriving DecidableEq, Repr

/-- A statement of a macro with its entry of `copy_nests` (`context/macro.h`): the place in the macro, then those in copied members. -/
structure Placed where
  stmt : Stmt
  nest : List Loc
deriving DecidableEq, Repr

/-- The program: the file of the open code, the members `parse_library` finds, the macros. Simplified: the macros are there from the start. -/
structure Prog where
  file : File
  members : List (Name × Member)
  macros : List (Name × List Placed)

/-- `copy_members().find` and `parse_library` (`asm_processor.cpp` 548-561). -/
def Prog.member (p : Prog) (n : Name) : Option Member := (p.members.find? (fun e => e.1 == n)).map (·.2)

/-- `get_macro_definition` (`hlasm_context.cpp` 684-701). -/
def Prog.macro (p : Prog) (n : Name) : Option (List Placed) := (p.macros.find? (fun e => e.1 == n)).map (·.2)

/-- `ordinary_processor::NEST_LIMIT` (`ordinary_processor.h` 31). -/
def nestLimit : Nat := 100

/-- `copy_member_invocation` (`context/copy_member.h` 25-39). -/
structure CopyInvo where
  name : Name
  file : File
  stmts : List Stmt
  cur : Int
deriving DecidableEq, Repr

/-- `macro_invocation` (`context/macro.h`): the statements and the index of the current one. -/
structure MacInvo where
  body : List Placed
  cur : Int
deriving DecidableEq, Repr

/-- The part of `hlasm_context` that is read and changed: the statements of the open code not read yet, `current_instruction`, the `copy_stack`
of the open code and `scope_stack_` without the scope of open code, both with the outermost first. -/
structure State where
  rest : List Stmt
  here : Loc
  copies : List CopyInvo
  scopes : List MacInvo
deriving DecidableEq, Repr

/-- `file_processing_type`. -/
inductive Kind where
  | opencode | copied | macro
deriving DecidableEq, Repr

/-- `processing_frame`. -/
structure Frame where
  kind : Kind
  loc : Loc
deriving DecidableEq, Repr

/-- `operator[]` of a vector with an `int` index: `none` where the access is undefined. -/
def at? {α : Type} (l : List α) (i : Int) : Option α := if 0 ≤ i then l[i.toNat]? else none

/-- The frame of an entered member (`hlasm_context.cpp` 347-352). -/
def CopyInvo.frame (c : CopyInvo) : Option Frame := (at? c.stmts c.cur).map fun s => ⟨.copied, ⟨c.file, s.line⟩⟩

/-- The frames of one entry of `copy_nests` (`hlasm_context.cpp` 361-363). -/
def nestFrames : List Loc → List Frame
  | [] => []
  | l :: ls => ⟨.macro, l⟩ :: ls.map (⟨.copied, ·⟩)

/-- The frames of a macro (`hlasm_context.cpp` 356-364). -/
def MacInvo.frames (m : MacInvo) : Option (List Frame) := (at? m.body m.cur).map fun b => nestFrames b.nest

/-- All results, if there is one for each element. -/
def all? {α β : Type} (f : α → Option β) : List α → Option (List β)
  | [] => some []
  | a :: as =>
    match f a, all? f as with
    | some b, some bs => some (b :: bs)
    | _, _ => none

/-- `hlasm_context::processing_stack` (`hlasm_context.cpp` 340-367) with one source; `none`: it reads in front of a vector. -/
def State.stack (s : State) : Option (List Frame) :=
  match all? CopyInvo.frame s.copies, all? MacInvo.frames s.scopes with
  | some cs, some ms => some (⟨.opencode, s.here⟩ :: cs ++ ms.flatten)
  | _, _ => none

/-- A diagnostic as it is shown: its code, file and line and the places of `related` ("While compiling ..."). -/
structure Diag where
  code : Code
  file : File
  line : Nat
  related : List Loc
deriving DecidableEq, Repr

/-- `add_diagnostic_inner` (`diagnosable_ctx.h` 52-66) with the range of a statement; `none`: the stack cannot be read. -/
def State.show (s : State) (code : Code) (line : Nat) : Option Diag :=
  match s.stack with
  | none => none
  | some st =>
    match st.reverse with
    | [] => none
    | top :: below => some ⟨code, top.loc.file, line, below.map (·.loc)⟩

/-- What is observed when a statement is processed: the stack at this moment, and the code of the diagnostic with the diagnostic itself. -/
structure Event where
  stmt : Stmt
  stack : Option (List Frame)
  said : Option (Code × Option Diag)
deriving DecidableEq, Repr

/-- `enter_macro` (`hlasm_context.cpp` 705-718). -/
def State.enterMacro (s : State) (body : List Placed) : State := { s with scopes := s.scopes ++ [⟨body, -1⟩] }

/-- `leave_macro` (`hlasm_context.cpp` 720). -/
def State.leaveMacro (s : State) : State := { s with scopes := s.scopes.dropLast }

/-- `enter_copy_member` (`hlasm_context.cpp` 749-758). -/
def State.enterCopy (s : State) (n : Name) (m : Member) : State := { s with copies := s.copies ++ [⟨n, m.file, m.stmts, -1⟩] }

/-- `leave_copy_member` (`hlasm_context.cpp` 762). -/
def State.leaveCopy (s : State) : State := { s with copies := s.copies.dropLast }

/-- A diagnostic that is added in the state. -/
def State.say (s : State) (code : Code) (line : Nat) : Option (Code × Option Diag) := some (code, s.show code line)

/-- `asm_processor::process_copy` (`asm_processor.cpp` 533-574). -/
def processCopy (p : Prog) (s : State) (line : Nat) : Option Name → Option (Code × Option Diag) × State
  | none => (s.say .E058 line, s)
  | some n =>
    match p.member n with
    | none => (s.say .E058 line, s)
    | some m => if n ∈ s.copies.map (·.name) then (s.say .E062 line, s) else (none, s.enterCopy n m)

/-- `ordinary_processor::process_statement` (`ordinary_processor.cpp` 79-111) with the nest limit of `check_fatals` (227-237); the diagnostic
`E055` is added after all macros were left. -/
def process (p : Prog) (s : State) (t : Stmt) : Option (Code × Option Diag) × State :=
  if s.scopes.length + 1 > nestLimit then
    let s' := { s with scopes := [] }
    (s'.say .E055 t.line, s')
  else
    match t.op with
    | .other none => (none, s)
    | .other (some n) => (s.say (.own n) t.line, s)
    | .call m =>
      match p.macro m with
      | none => (s.say .E049 t.line, s)
      | some b => (none, s.enterMacro b)
    | .copy n => processCopy p s t.line n
    | .mexit => if s.scopes = [] then (s.say .E054 t.line, s) else (none, s.leaveMacro)
    | .mend => if s.scopes = [] then (s.say .E054 t.line, s) else (none, s)

/-- The next thing a provider gives. -/
inductive Next where
  | stmt (t : Stmt) (s : State)
  | nothing (s : State)
  | undefined
  | finished
deriving DecidableEq, Repr

/-- `find_provider` and `get_next`: macros first, then members, then open code (`processing_manager.cpp` 149-156,
`macro_statement_provider.cpp` 30-43, `copy_statement_provider.cpp` 28-40). -/
def State.next (p : Prog) (s : State) : Next :=
  match s.scopes.getLast? with
  | some m =>
    let m' := { m with cur := m.cur + 1 }
    if m'.cur = (m.body.length : Int) then .nothing s.leaveMacro
    else
      match at? m.body m'.cur with
      | none => .undefined
      | some b => .stmt b.stmt { s with scopes := s.scopes.dropLast ++ [m'] }
  | none =>
    match s.copies.getLast? with
    | some c =>
      let c' := { c with cur := c.cur + 1 }
      if c'.cur = (c.stmts.length : Int) then .nothing s.leaveCopy
      else
        match at? c.stmts c'.cur with
        | none => .undefined
        | some t => .stmt t { s with copies := s.copies.dropLast ++ [c'] }
    | none =>
      match s.rest with
      | [] => .finished
      | t :: ts => .stmt t { s with rest := ts, here := ⟨p.file, t.line⟩ }

/-- How a run ended, if it did. -/
inductive Status where
  | running (s : State)
  | undefined
  | finished
deriving DecidableEq, Repr

/-- One round of the loop of `start_processing` (`processing_manager.cpp` 97-125). -/
def step (p : Prog) (s : State) : List Event × Status :=
  match s.next p with
  | .stmt t s' =>
    let r := process p s' t
    ([⟨t, s'.stack, r.1⟩], .running r.2)
  | .nothing s' => ([], .running s')
  | .undefined => ([], .undefined)
  | .finished => ([], .finished)

/-- The loop, for a number of rounds. -/
def run (p : Prog) : Nat → State → List Event × Status
  | 0, s => ([], .running s)
  | k + 1, s =>
    match step p s with
    | (es, .running s') => (es ++ (run p k s').1, (run p k s').2)
    | r => r

/-- The state at the start of a program with this open code. -/
def start (p : Prog) (text : List Stmt) : State := { rest := text, here := ⟨p.file, 0⟩, copies := [], scopes := [] }

end Verif.Exec
