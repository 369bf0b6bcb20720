import Verif.Ahead.Model
/-!
How the statements ahead are searched (processing/processing_manager.cpp 97-158, 184-224,
processing/statement_processors/lookahead_processor.cpp 46-112, 272-325, processing/statement_providers/copy_statement_provider.cpp,
context/processing_context.cpp 27-38, processing/instruction_sets/asm_processor.cpp 533-576).

A search starts when attributes of symbols are asked for that are not defined yet, or when a branch goes to a sequence symbol that was not
met yet. Left out: how a search is left again (`Processing/Lookahead.lean`, C40), searches of files other than the open code, AINSERT,
diagnostics, members that have to be fetched while searching (all members are there from the start). Sequence symbols are kept without their
position.
-/
namespace Verif.Seek
open Verif.Ord Verif.Ahead

/-- What the name field of a statement is (semantics/statement_fields.h `label_si_type`): a sequence symbol, a valid ordinary symbol, or
anything else. -/
inductive Label where
  | none
  | seq (n : Nat)
  | ord (n : SymId)
  deriving DecidableEq

/-- The operands of a COPY statement, as far as they matter (lookahead_processor.cpp 106-112, asm_processor.cpp 538-547): not one assembler
operand; one assembler operand that is no expression (a string or `A(B)`); an expression that is no symbol; a symbol. -/
inductive CopyArg where
  | no
  | odd
  | expr
  | member (n : Nat)
  deriving DecidableEq

/-- The operation of a statement, as far as searching is concerned (lookahead_processor.cpp 55-70). -/
inductive Op where
  | macro
  | mend
  | copy (a : CopyArg)
  | other
  deriving DecidableEq

/-- A statement. `stmt` is what the attributes of its label are taken from (`Ahead/Model.lean`). -/
structure Line where
  label : Label
  stmt : Stmt
  op : Op

/-- The nesting of macro definitions in a member must not become negative and has to end at zero (copy_processor.cpp 60-99). -/
def closed : Nat → List Line → Bool
  | n, [] => n = 0
  | n, l :: ls =>
    match l.op, n with
    | .macro, n => closed (n + 1) ls
    | .mend, 0 => false
    | .mend, n + 1 => closed n ls
    | _, n => closed n ls

/-- The open code and the members, as they are in their files. -/
structure Prog where
  code : List Line
  files : List (Nat × List Line)

/-- `copy_members()` (processing_manager.cpp 225-231, copy_processor.cpp 84-99): a member in which the definitions are not nested properly
has no statements. -/
def Prog.member (P : Prog) (n : Nat) : Option (List Line) := (P.files.lookup n).map fun ls => if closed 0 ls then ls else []

/-- `copy_member_invocation` (context/copy_member.h 26-40), or a `copy_frame` (context/source_snapshot.h 45-59). -/
structure Frame where
  name : Nat
  cur : Int
  deriving DecidableEq

/-- `source_context` (context/processing_context.h 25-45) or `source_snapshot`: how many statements of the open code have been read (in the
code, the offset of their end), and the members that are open, the innermost first. -/
structure Pos where
  off : Nat
  copy : List Frame
  deriving DecidableEq

/-- A null pointer is dereferenced, a vector is read where it has no element, or reading a data definition goes wrong (C108). -/
inductive Crash where
  | null
  | index
  | data (c : DataDef.Crash)
  deriving DecidableEq

/-- What comes next: nothing, because the open code has ended; the end of a member; a statement. -/
inductive Given where
  | over
  | left (p : Pos)
  | line (l : Line) (p : Pos)

/-- `copy_statement_provider::get_next` (copy_statement_provider.cpp 28-40), before `opencode_provider::get_next`
(processing_manager.cpp 141-158). -/
def Prog.deliver (P : Prog) (p : Pos) : Except Crash Given :=
  match p.copy with
  | [] =>
    match P.code[p.off]? with
    | none => .ok .over
    | some l => .ok (.line l { p with off := p.off + 1 })
  | f :: fs =>
    let ls := (P.member f.name).getD []
    if f.cur + 1 = ls.length then .ok (.left { p with copy := fs })
    else if f.cur + 1 < 0 then .error .index
    else
      match ls[(f.cur + 1).toNat]? with
      | none => .error .index
      | some l => .ok (.line l { p with copy := { f with cur := f.cur + 1 } :: fs })

/-- What a search has found and still wants (lookahead_processor.h 38-58): `target` is the sequence symbol of a branch (`none` when attributes
are asked for), `todo` is `to_find_`, `refs` the symbols with attributes, `seqs` the sequence symbols registered, `fin` is
`finished_flag_`. -/
structure Got where
  target : Option Nat
  todo : List SymId
  refs : Table
  seqs : List Nat
  found : Bool
  fin : Bool

/-- `find_seq` (lookahead_processor.cpp 272-287). -/
def Got.findSeq (g : Got) (l : Line) : Got :=
  match l.label with
  | .seq n =>
    let g := { g with seqs := if n ∈ g.seqs then g.seqs else n :: g.seqs }
    if g.target = some n then { g with fin := true, found := true } else g
  | _ => g

/-- `find_ord` (lookahead_processor.cpp 289-325). -/
def Got.findOrd (E : Env) (T : Table) (g : Got) (l : Line) : Except Crash Got :=
  match l.label with
  | .ord n =>
    match lookStep E T (g.refs, g.todo) (n, l.stmt) with
    | .error c => .error (.data c)
    | .ok r => .ok { g with refs := r.1, todo := r.2, fin := g.target.isNone && r.2.isEmpty }
  | _ => .ok g

/-- `find_seq` and `find_ord` (lookahead_processor.cpp 48-52). -/
def Got.note (E : Env) (T : Table) (g : Got) (l : Line) : Except Crash Got := (g.findSeq l).findOrd E T l

/-- A search under way: the position, `macro_nest_` and what it has found. -/
structure St where
  pos : Pos
  nest : Nat
  got : Got

/-- `process_COPY` (lookahead_processor.cpp 106-112, asm_processor.cpp 533-576): members that are missing or open already are not entered. -/
def Prog.enter (P : Prog) (p : Pos) : CopyArg → Except Crash Pos
  | .no => .ok p
  | .odd => .error .null
  | .expr => .ok p
  | .member n =>
    match P.member n with
    | none => .ok p
    | some _ => if n ∈ p.copy.map Frame.name then .ok p else .ok { p with copy := ⟨n, -1⟩ :: p.copy }

/-- `process_statement` (lookahead_processor.cpp 46-71, 104-105). -/
def Prog.process (P : Prog) (E : Env) (T : Table) (s : St) (l : Line) : Except Crash St := do
  let g ← if s.nest = 0 then s.got.note E T l else .ok s.got
  match l.op with
  | .macro => .ok { s with nest := s.nest + 1, got := g }
  | .mend => .ok { s with nest := s.nest - 1, got := g }
  | .copy a => if s.nest = 0 then .ok { s with pos := ← P.enter s.pos a, got := g } else .ok { s with got := g }
  | .other => .ok { s with got := g }

/-- One turn of `start_processing` (processing_manager.cpp 97-124): `none` when the search has finished. -/
def Prog.turn (P : Prog) (E : Env) (T : Table) (s : St) : Except Crash (Option St) :=
  if s.got.fin then .ok none
  else
    match P.deliver s.pos with
    | .error c => .error c
    | .ok .over => .ok none
    | .ok (.left p) => .ok (some { s with pos := p })
    | .ok (.line l p) => (P.process E T { s with pos := p } l).map some

/-- At most so many turns; `none` when they do not suffice. -/
def Prog.turns (P : Prog) (E : Env) (T : Table) : Nat → St → Option (Except Crash St)
  | 0, _ => none
  | k + 1, s =>
    match P.turn E T s with
    | .error c => some (.error c)
    | .ok none => some (.ok s)
    | .ok (some s') => P.turns E T k s'

/-- `create_snapshot` (processing_context.cpp 27-38): so that the statement is given again. -/
def Pos.snapshot (p : Pos) : Pos :=
  { p with copy := match p.copy with | [] => [] | f :: fs => { f with cur := f.cur - 1 } :: fs }

/-- What lasts from one search to the next: `lookahead_stop_`, the symbols with attributes and the sequence symbols known. -/
structure Kept where
  stop : Pos := ⟨0, []⟩
  refs : Table
  seqs : List Nat := []

/-- `start_lookahead` (processing_manager.cpp 184-193): where a search begins that is started at `p`. -/
def Kept.start (K : Kept) (p : Pos) : Pos := if p.off < K.stop.off then K.stop else p

/-- The constructor (lookahead_processor.cpp 87-101) for a search for attributes. -/
def Kept.ask (K : Kept) (todo : List SymId) : Got := ⟨none, todo, K.refs, K.seqs, false, todo.isEmpty⟩

/-- The constructor (lookahead_processor.cpp 87-101) for a search for a sequence symbol. -/
def Kept.branch (K : Kept) (t : Nat) : Got := ⟨some t, [], K.refs, K.seqs, false, false⟩

/-- `end_processing` (lookahead_processor.cpp 73-83) and `finish_lookahead` (processing_manager.cpp 195-196). -/
def St.keep (s : St) : Kept := ⟨s.pos.snapshot, Ahead.finish (s.got.refs, s.got.todo), s.got.seqs⟩

/-- A whole search started at `p` within so many turns: what is kept, and whether the sequence symbol was found. -/
def Prog.search (P : Prog) (E : Env) (T : Table) (k : Nat) (K : Kept) (p : Pos) (g : Got) : Option (Except Crash (Kept × Bool)) :=
  (P.turns E T k ⟨K.start p, 0, g⟩).map fun r => r.map fun s => (s.keep, s.got.found)

end Verif.Seek
