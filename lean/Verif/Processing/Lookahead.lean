import Verif.Basic
/-!
Statement providers and lookahead (processing/processing_manager.cpp, processing/statement_providers/*.cpp,
context/hlasm_context.cpp 268-313 and 759-776, context/processing_context.cpp 27-38).

Positions in the open code file are pairs (line, offset). Statements are only identified by where they come from. AINSERT is not
modelled; every mode switch other than the lookahead (macro definitions, library members) is left out.
-/
namespace Verif.Processing.Look

/-- A COPY member invocation (context/copy_member.h 25-38) or its `copy_frame` in a snapshot (context/source_snapshot.h 45-59). -/
structure Frame where
  member : Nat
  cur : Int
  deriving DecidableEq, Repr

/-- A macro invocation: definition and `current_statement` (context/macro.h). -/
structure Invo where
  mac : Nat
  cur : Int
  deriving DecidableEq, Repr

/-- `source_context` (context/processing_context.h) and `source_snapshot`. The copy stack is listed from the innermost member. -/
structure Src where
  instrLine : Nat := 0
  beginIdx : Nat := 0
  endIdx : Nat := 0
  endLine : Nat := 0
  copy : List Frame := []
  deriving DecidableEq, Repr

/-- The program: `file o` describes the logical line at offset `o` of open code: the offset of its end, the number of its lines
and the line of the instruction field within it. -/
structure Prog where
  file : Nat → Option (Nat × Nat × Nat)
  size : Nat
  copySize : Nat → Nat
  macroSize : Nat → Nat

/-- Where a statement comes from. -/
inductive Stmt where
  | opencode (offset : Nat)
  | copy (member : Nat) (index : Int)
  | mac (mac : Nat) (index : Int)
  deriving DecidableEq, Repr

/-- The data of a started lookahead (processing/statement_processors/lookahead_processing_info.h): for attributes or for a
sequence symbol, and where to return. -/
structure Look where
  attr : Bool
  line : Nat
  off : Nat
  snap : Src
  deriving DecidableEq, Repr

/-- A registered sequence symbol of open code (context/sequence_symbol.h), with the statement that carries it. -/
structure Sym where
  stmt : Stmt
  line : Nat
  off : Nat
  snap : Src
  deriving DecidableEq, Repr

structure St where
  src : Src := {}
  /-- position of the lexer in open code -/
  line : Nat := 0
  off : Nat := 0
  /-- macro invocations, innermost first -/
  macros : List Invo := []
  look : Option Look := none
  /-- `lookahead_stop_` -/
  stop : Src := {}
  syms : List Sym := []
  deriving DecidableEq, Repr

/-- What determines the statements that follow. -/
structure Core where
  line : Nat
  off : Nat
  copy : List Frame
  macros : List Invo
  deriving DecidableEq, Repr

def St.core (s : St) : Core := ⟨s.line, s.off, s.src.copy, s.macros⟩

/-- `macro_statement_provider::get_next` (macro_statement_provider.cpp 30-43). -/
def deliverMac (P : Prog) (s : St) (m : Invo) (ms : List Invo) : Option Stmt × St :=
  if m.cur + 1 = P.macroSize m.mac then (none, { s with macros := ms })
  else (some (.mac m.mac (m.cur + 1)), { s with macros := { m with cur := m.cur + 1 } :: ms })

/-- `copy_statement_provider::get_next` (copy_statement_provider.cpp 28-40). -/
def deliverCopy (P : Prog) (s : St) (f : Frame) (fs : List Frame) : Option Stmt × St :=
  if f.cur + 1 = P.copySize f.member then (none, { s with src := { s.src with copy := fs } })
  else (some (.copy f.member (f.cur + 1)), { s with src := { s.src with copy := { f with cur := f.cur + 1 } :: fs } })

/-- `parser_impl::get_next` (parser_impl.cpp 365-389, 393-403, 510-539 and hlasmparser.g4 167-184). `early`: the statement is given
up for a lookahead because of its instruction field, before `set_source_position` (parser_impl.cpp 334-343). -/
def deliverOpen (P : Prog) (early : Bool) (s : St) : Option Stmt × St :=
  match P.file s.off with
  | none => (none, s)
  | some (e, n, d) =>
    (some (.opencode s.off),
      { s with
        line := s.line + n, off := e
        src := { s.src with beginIdx := s.off, endIdx := e, endLine := s.line + n - 1, instrLine := if early then s.src.instrLine else s.line + d } })

/-- COPY before open code. -/
def deliverRest (P : Prog) (early : Bool) (s : St) : Option Stmt × St :=
  match s.src.copy with
  | f :: fs => deliverCopy P s f fs
  | [] => deliverOpen P early s

/-- The choice of the provider (processing_manager.cpp 141-158): macro, COPY, open code; the macro is skipped by the lookahead for
attributes. (The lookahead for a sequence symbol only starts outside of macros.) -/
def deliver (P : Prog) (early : Bool) (s : St) : Option Stmt × St :=
  match s.look, s.macros with
  | none, m :: ms => deliverMac P s m ms
  | _, _ => deliverRest P early s

/-- `create_snapshot` (processing_context.cpp 27-38). -/
def createSnapshot (src : Src) : Src :=
  match src.copy with
  | [] => src
  | f :: fs => { src with copy := { f with cur := f.cur - 1 } :: fs }

/-- `++snapshot.copy_frames.back().statement_offset`. -/
def bump (src : Src) : Src :=
  match src.copy with
  | [] => src
  | f :: fs => { src with copy := { f with cur := f.cur + 1 } :: fs }

/-- `get_begin_snapshot` (hlasm_context.cpp 276-299): line, offset, snapshot. -/
def beginSnapshot (ignoreMacros : Bool) (s : St) : Nat × Nat × Src :=
  let inMacros := !ignoreMacros && !s.macros.isEmpty
  let snap := if inMacros then bump (createSnapshot s.src) else createSnapshot s.src
  if !inMacros && s.src.copy.isEmpty then (s.src.instrLine, s.src.beginIdx, snap) else (s.src.endLine + 1, s.src.endIdx, snap)

/-- `get_end_snapshot` (hlasm_context.cpp 301-313). -/
def endSnapshot (s : St) : Nat × Nat × Src := (s.src.endLine + 1, s.src.endIdx, bump (createSnapshot s.src))

/-- `perform_opencode_jump` (processing_manager.cpp 310-316) with `lexer::rewind_input` (lexer.cpp 56-82) and
`apply_source_snapshot` (hlasm_context.cpp 759-776). -/
def jump (P : Prog) (s : St) (line off : Nat) (snap : Src) : St :=
  { s with line := line, off := if off ≥ P.size then P.size - 1 else off, src := snap }

/-- `start_lookahead` (processing_manager.cpp 183-192). -/
def startLook (P : Prog) (s : St) (l : Look) : St :=
  let s := if s.src.endIdx < s.stop.endIdx then jump P s (s.stop.endLine + 1) s.stop.endIdx s.stop else s
  { s with look := some l }

/-- `--current_scope().this_macro->current_statement`. -/
def decMacro : List Invo → List Invo
  | [] => []
  | m :: ms => { m with cur := m.cur - 1 } :: ms

/-- `finish_lookahead` (processing_manager.cpp 194-216) for a lookahead for attributes and one for a symbol that was not found. -/
def finishLook (P : Prog) (s : St) (l : Look) : St :=
  let s := { s with stop := createSnapshot s.src, look := none }
  if l.attr then jump P { s with macros := decMacro s.macros } l.line l.off l.snap else jump P s l.line l.off l.snap

/-- `finish_lookahead` when the symbol was found, with `jump_in_statements` (processing_manager.cpp 246-279). -/
def finishFound (P : Prog) (s : St) (y : Sym) : St :=
  jump P { s with stop := createSnapshot s.src, look := none } y.line y.off y.snap

/-- `attr_lookahead_active` (processing_manager.cpp 135-139). -/
def attrActive (s : St) : Bool :=
  match s.look with
  | some l => l.attr
  | none => false

/-- `register_sequence_symbol` and `create_opencode_sequence_symbol` (processing_manager.cpp 281-308); every statement of open code is
taken as labelled, `x` identifies the label. A second symbol for the same statement is the same symbol. -/
def register (s : St) (x : Stmt) : St :=
  if attrActive s || s.macros.isEmpty then
    let b := beginSnapshot (attrActive s) s
    { s with syms := ⟨x, b.1, b.2.1, b.2.2⟩ :: s.syms }
  else s

/-- What happens with a delivered statement, chosen by the environment. -/
inductive Op where
  /-- processed without influence on the stream -/
  | plain
  /-- COPY (in the lookahead, too) -/
  | copy (member : Nat)
  /-- macro call -/
  | call (mac : Nat)
  /-- the statement refers to attributes of undefined symbols; `early`: in its instruction field -/
  | attrLook (early : Bool)
  /-- a branch to an unknown symbol -/
  | seqLook
  /-- a branch to a known symbol; the statement it is attached to -/
  | branch (target : Stmt)
  /-- AREAD in a macro: the lexer moves to another line -/
  | aread (line off : Nat)
  /-- in a lookahead: this statement ends it (all attributes known) -/
  | finish
  /-- in a lookahead: the statement carries the wanted symbol -/
  | found
  deriving DecidableEq, Repr

def Op.early : Op → Bool
  | .attrLook e => e
  | _ => false

/-- The first registered symbol of a statement; `try_emplace` keeps the first one. -/
def findSym (s : St) (x : Stmt) : Option Sym := s.syms.reverse.find? (·.stmt = x)

/-- The effect of a delivered statement in ordinary processing. -/
def ordinary (P : Prog) (s : St) (x : Stmt) : Op → St
  | .copy m => { register s x with src := { s.src with copy := ⟨m, -1⟩ :: s.src.copy } }
  | .call m => { register s x with macros := ⟨m, -1⟩ :: s.macros }
  | .attrLook _ =>
    let b := beginSnapshot false s
    startLook P s ⟨true, b.1, b.2.1, b.2.2⟩
  | .seqLook =>
    let s := register s x
    if s.macros.isEmpty then
      let b := endSnapshot s
      startLook P s ⟨false, b.1, b.2.1, b.2.2⟩
    else s
  | .branch t =>
    let s := register s x
    match findSym s t with
    | some y => if s.macros.isEmpty then jump P s y.line y.off y.snap else s
    | none => s
  | .aread line off => if s.macros.isEmpty then register s x else { register s x with line := line, off := off }
  | _ => register s x

/-- The effect of a delivered statement in a lookahead (lookahead_processor.cpp 46-80). -/
def lookahead (P : Prog) (s : St) (l : Look) (x : Stmt) : Op → St
  | .copy m => { register s x with src := { s.src with copy := ⟨m, -1⟩ :: s.src.copy } }
  | .finish => finishLook P (register s x) l
  | .found =>
    let s := register s x
    match findSym s x with
    | some y => if l.attr then s else finishFound P s y
    | none => s
  | _ => register s x

/-- Nothing was delivered: a finished COPY member or macro, or the end of open code, which ends a lookahead. -/
def nothing (P : Prog) (s0 s : St) : St :=
  match s.look with
  | none => s
  | some l => if s0.src.copy.isEmpty then finishLook P s l else s

/-- One iteration of the main loop (processing_manager.cpp 97-124). -/
def step (P : Prog) (s0 : St) (op : Op) : St :=
  match deliver P op.early s0 with
  | (none, s) => nothing P s0 s
  | (some x, s) =>
    match s.look with
    | none => ordinary P s x op
    | some l => lookahead P s l x op

def run (P : Prog) (s : St) (ops : List Op) : St := ops.foldl (step P) s

end Verif.Processing.Look
