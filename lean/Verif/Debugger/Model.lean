/-!
Small-step model of the macro debugger, `/repo/parser_library/src/debugging/debugger.cpp`, under arbitrary interleavings of
the analysing thread and of the thread that issues the user's commands.

Atomicity: a step is one access to a flag that the other thread may touch, one mutex operation, one `notify_all`, or one
event. Consecutive accesses which the other thread cannot distinguish (because both are protected by `control_mtx`) are
merged. The plain `bool disconnected_` is read without the mutex at debugger.cpp:164 and 152; that is formally a data race
and is modelled as an atomic read. The analysing thread's program is the sequence of statements the analyser hands to its
`statement_analyzer`s (processing_manager.cpp:97-124); commands influence it only through the cancellation flag. The
sequence is finite: termination of the analysis itself is the subject of C37.
-/
namespace Verif.Debugger

/-- `processing_kind` (parser_library/src/processing/processing_format.h). -/
inductive Kind | ordinary | lookahead | macroDef | copyDef
deriving DecidableEq, Repr

/-- What `debugger::impl::analyze` reads of a statement and of the context (debugger.cpp:160-186): the processing kind,
whether the operation code is the empty one, the file at the top of the processing stack, the first and last line of the
statement, and the size of the processing stack. -/
structure Stmt where
  kind : Kind := .ordinary
  emptyOp : Bool := false
  file : String := "a"
  first : Nat
  last : Nat
  depth : Nat := 1
deriving DecidableEq, Repr

/-- Requests of the user: `next`, `step_in`, `continue_debug`, `disconnect` (debugger.cpp:212-255), `breakpoints`
(373-377), and `inspect` for `stack_frames`, `scopes` and `variables` (258-371), which only take `variable_mtx_`. `waitStop`
is not a request: it makes the client wait until it has seen one more `stopped` event. -/
inductive Cmd | next | stepIn | cont | disconnect | setBps (file : String) (lines : List Nat) | inspect | waitStop
deriving DecidableEq, Repr

/-- Owner of a mutex. -/
inductive Tid | a | c
deriving DecidableEq, Repr

/-- Where the analysing thread is. -/
inductive APc
  /-- thread started, about to lock `variable_mtx_` (debugger.cpp:136) -/
  | start
  /-- head of the statement loop (processing_manager.cpp:99-113) -/
  | loop
  /-- in `analyze`, before the first checks (debugger.cpp:164-173) -/
  | enter (s : Stmt)
  /-- about to read the breakpoints (debugger.cpp:179-183) -/
  | look (s : Stmt)
  /-- about to read the flags (debugger.cpp:186) -/
  | decide (s : Stmt) (hit : Bool)
  /-- about to unlock `variable_mtx_` (debugger.cpp:188-192) -/
  | unlockVar (s : Stmt)
  /-- about to lock `control_mtx` (debugger.cpp:194) -/
  | wantControl (s : Stmt)
  /-- holds `control_mtx` (debugger.cpp:195-199) -/
  | locked (s : Stmt)
  /-- about to clear `continue_` (debugger.cpp:201) -/
  | clearCont (s : Stmt)
  /-- about to announce the stop (debugger.cpp:202-203) -/
  | event (s : Stmt)
  /-- about to evaluate the wait predicate (debugger.cpp:205) -/
  | check (s : Stmt)
  /-- the predicate was false; about to release the mutex and block, atomically (debugger.cpp:205) -/
  | sleepy (s : Stmt)
  /-- blocked in the wait (debugger.cpp:205) -/
  | asleep (s : Stmt)
  /-- woken, about to lock `control_mtx` again (debugger.cpp:205) -/
  | woken (s : Stmt)
  /-- the predicate was true; about to lock `variable_mtx_`, still holding `control_mtx` (debugger.cpp:207) -/
  | wantVar (s : Stmt)
  /-- the statement is about to be processed (processing_manager.cpp:121) -/
  | process (s : Stmt)
  /-- the analysis is over (debugger.cpp:152-154) -/
  | finish
  /-- about to leave the scope of the guard of `variable_mtx_` (debugger.cpp:155) -/
  | unlockEnd
  | done
deriving DecidableEq, Repr

/-- Where the commanding thread is. -/
inductive CPc
  | idle
  /-- holds `control_mtx`, about to set `continue_` and release (debugger.cpp:218-219, 228-229) -/
  | setCont
  /-- does not hold the mutex, about to set `continue_` (debugger.cpp:253) -/
  | bareCont
  /-- about to `notify_all` (debugger.cpp:220, 230, 254) -/
  | notify
  /-- `disconnect`, holds `control_mtx`, about to set `continue_` (debugger.cpp:241) -/
  | disc1
  /-- `disconnect`, holds `control_mtx`, about to set `cancel_` and release (debugger.cpp:242-243) -/
  | disc2
  /-- `disconnect`, about to `notify_all` (debugger.cpp:244) -/
  | discNotify
  /-- `disconnect`, about to join the thread (debugger.cpp:246-247) -/
  | join
  /-- inside an inspection request, holds `variable_mtx_` (debugger.cpp:260, 297, 356) -/
  | inspecting
deriving DecidableEq, Repr

/-- Observable history. `cmd` entries are written when the command takes effect; `next` carries the call depth it reads
(debugger.cpp:217). -/
inductive Ev
  | launched (stopOnEntry : Bool)
  | next (depth : Nat)
  | stepIn
  | cont
  | disconnect
  | setBps (file : String) (lines : List Nat)
  /-- `analyze` returned at once (debugger.cpp:164-173) -/
  | skipped (s : Stmt)
  /-- the breakpoints were compared with the statement -/
  | looked (s : Stmt) (hit : Bool)
  /-- the condition of debugger.cpp:186 -/
  | decided (s : Stmt) (stop : Bool)
  /-- returned at debugger.cpp:195-196 -/
  | aborted (s : Stmt)
  | stopped (s : Stmt)
  | processed (s : Stmt)
  | exited
deriving DecidableEq, Repr

/-- Undefined behaviour reached. -/
inductive Ub
  /-- `next` follows `ctx_` while the analysis is running, not yet begun or over (debugger.cpp:217, 148) -/
  | ctx
  /-- a mutex is unlocked by a thread that does not own it (debugger.cpp:136, 155) -/
  | unlock
deriving DecidableEq, Repr

/-- `debugger::impl` (debugger.cpp:76-116) and both threads. `log` is newest first. -/
structure St where
  trace : List Stmt
  todo : List Cmd
  bps : String → List Nat
  apc : APc := .start
  cpc : CPc := .idle
  control : Option Tid := none
  var : Option Tid := none
  cont : Bool := false
  stopNext : Bool
  stepOver : Bool := false
  stepDepth : Nat := 0
  disconnected : Bool := false
  cancel : Bool := false
  ended : Bool := false
  log : List Ev
  seen : Nat := 0
  ub : Option Ub := none

/-- `launch` (debugger.cpp:127-156). Breakpoints may have been set before. -/
def launch (trace : List Stmt) (bps : String → List Nat) (stopOnEntry : Bool) (todo : List Cmd) : St :=
  { trace, todo, bps, stopNext := stopOnEntry, log := [.launched stopOnEntry] }

/-- A breakpoint lies on one of the lines of the statement (debugger.cpp:179-183). -/
def hit (bps : String → List Nat) (s : Stmt) : Bool := (bps s.file).any fun l => l ≥ s.first && l ≤ s.last

/-- A step of the analysing thread; `none` when it is blocked or has ended. -/
def St.stepA (st : St) : Option St :=
  match st.apc with
  | .start => if st.var = none then some { st with var := some .a, apc := .loop } else none
  | .loop =>
    if st.cancel then some { st with apc := .finish }
    else match st.trace with
      | [] => some { st with apc := .finish }
      | s :: t => some { st with trace := t, apc := .enter s }
  | .enter s =>
    if st.disconnected then some { st with apc := .process s, log := .skipped s :: st.log }
    else if s.kind ≠ .ordinary then some { st with apc := .process s, log := .skipped s :: st.log }
    else if s.emptyOp then some { st with apc := .process s, log := .skipped s :: st.log }
    else some { st with apc := .look s }
  | .look s => some { st with apc := .decide s (hit st.bps s), log := .looked s (hit st.bps s) :: st.log }
  | .decide s h =>
    if st.stopNext || h || (st.stepOver && decide (s.depth ≤ st.stepDepth)) then
      some { st with apc := .unlockVar s, log := .decided s true :: st.log }
    else some { st with apc := .process s, log := .decided s false :: st.log }
  | .unlockVar s => some { st with var := none, apc := .wantControl s }
  | .wantControl s => if st.control = none then some { st with control := some .a, apc := .locked s } else none
  | .locked s =>
    if st.disconnected then some { st with control := none, apc := .process s, log := .aborted s :: st.log }
    else some { st with stopNext := false, stepOver := false, apc := .clearCont s }
  | .clearCont s => some { st with cont := false, apc := .event s }
  | .event s => some { st with apc := .check s, log := .stopped s :: st.log }
  | .check s => if st.cont then some { st with apc := .wantVar s } else some { st with apc := .sleepy s }
  | .sleepy s => some { st with control := none, apc := .asleep s }
  | .asleep _ => none
  | .woken s => if st.control = none then some { st with control := some .a, apc := .check s } else none
  | .wantVar s => if st.var = none then some { st with var := some .a, control := none, apc := .process s } else none
  | .process s => some { st with apc := .loop, log := .processed s :: st.log }
  | .finish =>
    some { st with ended := true, apc := .unlockEnd, log := if st.disconnected then st.log else .exited :: st.log }
  | .unlockEnd =>
    if st.var = some .a then some { st with var := none, apc := .done } else some { st with ub := some .unlock, apc := .done }
  | .done => none

/-- The statement at which the analysing thread is stopped. -/
def St.stoppedAt (st : St) : Option Stmt :=
  match st.apc with
  | .asleep s | .woken s => some s
  | _ => none

/-- `notify_all` (debugger.cpp:220, 230, 244, 254). -/
def St.wake (st : St) : St :=
  match st.apc with
  | .asleep s => { st with apc := .woken s }
  | _ => st

/-- The number of `stopped` events. -/
def stopsIn (log : List Ev) : Nat := log.countP fun e => match e with | .stopped _ => true | _ => false

/-- A step of the commanding thread; `none` when it is blocked or has nothing to do. -/
def St.stepC (st : St) : Option St :=
  match st.cpc with
  | .idle =>
    match st.todo with
    | [] => none
    | .next :: t =>
      if st.control = none then
        match st.stoppedAt with
        | some s => some { st with todo := t, control := some .c, stepOver := true, stepDepth := s.depth, cpc := .setCont,
                                   log := .next s.depth :: st.log }
        | none => some { st with ub := some .ctx }
      else none
    | .stepIn :: t =>
      if st.control = none then
        some { st with todo := t, control := some .c, stopNext := true, cpc := .setCont, log := .stepIn :: st.log }
      else none
    | .cont :: t => some { st with todo := t, stopNext := false, cpc := .bareCont, log := .cont :: st.log }
    | .disconnect :: t =>
      if st.control = none then
        some { st with todo := t, control := some .c, disconnected := true, cpc := .disc1, log := .disconnect :: st.log }
      else none
    | .setBps f ls :: t =>
      some { st with todo := t, bps := fun g => if g = f then ls else st.bps g, log := .setBps f ls :: st.log }
    | .inspect :: t => if st.var = none then some { st with todo := t, var := some .c, cpc := .inspecting } else none
    | .waitStop :: t => if st.seen < stopsIn st.log then some { st with todo := t, seen := st.seen + 1 } else none
  | .setCont => some { st with cont := true, control := none, cpc := .notify }
  | .bareCont => some { st with cont := true, cpc := .notify }
  | .notify => some { st.wake with cpc := .idle }
  | .disc1 => some { st with cont := true, cpc := .disc2 }
  | .disc2 => some { st with cancel := true, control := none, cpc := .discNotify }
  | .discNotify => some { st.wake with cpc := .join }
  | .join => if st.apc = .done then some { st with cpc := .idle } else none
  | .inspecting => some { st with var := none, cpc := .idle }

/-- Who moves: the analysing thread, the commanding thread, or the condition variable (a spurious wake-up). -/
inductive Act | a | c | spurious
deriving DecidableEq, Repr

/-- One step; nothing is defined after undefined behaviour. -/
def St.step (st : St) (act : Act) : Option St :=
  if st.ub.isSome then none
  else match act with
    | .a => st.stepA
    | .c => st.stepC
    | .spurious => match st.apc with
      | .asleep s => some { st with apc := .woken s }
      | _ => none

/-- A schedule. -/
def St.run (st : St) : List Act → Option St
  | [] => some st
  | a :: as => (st.step a).bind (·.run as)

/-- `st'` is reached from `st` by some schedule. -/
def St.Reaches (st st' : St) : Prop := ∃ acts, st.run acts = some st'

end Verif.Debugger
