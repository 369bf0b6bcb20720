import Verif.Debugger.Model
/-!
What a user expects of the debugger, as predicates of the observable history (newest event first).
-/
namespace Verif.Debugger

/-- Stop on entry or step-in was requested and neither a stop nor a continue has happened since. -/
def stepPending : List Ev → Bool
  | [] => false
  | .launched b :: _ => b
  | .stepIn :: _ => true
  | .cont :: _ => false
  | .stopped _ :: _ => false
  | _ :: r => stepPending r

/-- The depth at which the pending step-over began. -/
def overPending : List Ev → Option Nat
  | [] => none
  | .next d :: _ => some d
  | .stopped _ :: _ => none
  | _ :: r => overPending r

/-- The breakpoints in force. -/
def bpsAt (b₀ : String → List Nat) : List Ev → String → List Nat
  | [], f => b₀ f
  | .setBps g ls :: r, f => if f = g then ls else bpsAt b₀ r f
  | _ :: r, f => bpsAt b₀ r f

/-- A breakpoint in force lies on a line of the statement. -/
def OnBreakpoint (b : String → List Nat) (s : Stmt) : Prop := ∃ l ∈ b s.file, s.first ≤ l ∧ l ≤ s.last

/-- The statement is executed, rather than looked over or collected into a definition, and is not blank. -/
def Visible (s : Stmt) : Prop := s.kind = .ordinary ∧ s.emptyOp = false

instance (s : Stmt) : Decidable (Visible s) := inferInstanceAs (Decidable (_ ∧ _))

instance (b : String → List Nat) (s : Stmt) : Decidable (OnBreakpoint b s) := inferInstanceAs (Decidable (∃ l ∈ b s.file, _))

/-- Events of the analysing thread. -/
def Ev.own : Ev → Bool
  | .skipped _ | .looked _ _ | .decided _ _ | .aborted _ | .stopped _ | .processed _ | .exited => true
  | _ => false

/-- The events of the analysing thread in a history. -/
def ownLog (log : List Ev) : List Ev := log.filter Ev.own

/-- `Follows newer older`: which event of the analysing thread may come directly after which. -/
def Follows : Ev → Ev → Prop
  | .skipped _, .processed _ => True
  | .looked _ _, .processed _ => True
  | .exited, .processed _ => True
  | .decided s _, .looked t _ => s = t
  | .stopped s, .decided t b => s = t ∧ b = true
  | .aborted s, .decided t b => s = t ∧ b = true
  | .processed s, .skipped t => s = t
  | .processed s, .decided t b => s = t ∧ b = false
  | .processed s, .stopped t => s = t
  | .processed s, .aborted t => s = t
  | _, _ => False

/-- Every two adjacent events of the analysing thread follow one another, and the oldest one can be the first. -/
def Chained : List Ev → Prop
  | [] => True
  | [.skipped _] | [.looked _ _] | [.exited] => True
  | [_] => False
  | e :: f :: r => Follows e f ∧ Chained (f :: r)

/-- The statements processed so far, in order. -/
def processedIn (log : List Ev) : List Stmt :=
  log.reverse.filterMap fun e => match e with | .processed s => some s | _ => none

/-- What must be true of the history `r` before event `e`, for a program consisting of the statements `tr` and breakpoints
`b₀` set before the launch:
* a statement is passed over without a look only if it is not executed or the client has disconnected;
* the breakpoint test says whether a breakpoint in force lies on the statement;
* the debugger wants to stop exactly when a step-in (or stop on entry) is pending, the breakpoint test just made for this
  statement succeeded, or a step-over is pending and the statement is not nested deeper than where it began;
* it stops only if the client has not disconnected, and drops the wish to stop only if it has;
* a step-over is counted from the depth of the statement stopped at;
* it reports the end of the program only when all statements have been processed and the client has not disconnected. -/
def EvOk (tr : List Stmt) (b₀ : String → List Nat) (e : Ev) (r : List Ev) : Prop :=
  match e with
  | .skipped s => ¬ Visible s ∨ .disconnect ∈ r
  | .looked s h => Visible s ∧ (h = true ↔ OnBreakpoint (bpsAt b₀ r) s)
  | .decided s b =>
    b = true ↔ stepPending r = true ∨ (∃ q, ownLog r = .looked s true :: q) ∨ ∃ d, overPending r = some d ∧ s.depth ≤ d
  | .aborted _ => .disconnect ∈ r
  | .stopped _ => .disconnect ∉ r
  | .next d => ∃ s q, ownLog r = .stopped s :: q ∧ d = s.depth
  | .exited => processedIn r = tr ∧ .disconnect ∉ r
  | _ => True

/-- Every event was right when it happened. -/
def LogOk (tr : List Stmt) (b₀ : String → List Nat) : List Ev → Prop
  | [] => True
  | e :: r => EvOk tr b₀ e r ∧ LogOk tr b₀ r

/-- Since the last stop the user has asked to step or to disconnect. -/
def resumeAsked : List Ev → Bool
  | [] => false
  | .stopped _ :: _ => false
  | .next _ :: _ | .stepIn :: _ | .disconnect :: _ => true
  | _ :: r => resumeAsked r

/-- The statements stopped at so far, in order. -/
def stopList (log : List Ev) : List Stmt :=
  log.reverse.filterMap fun e => match e with | .stopped s => some s | _ => none

end Verif.Debugger
