/-!
Small-step model of `/repo/language_server/src/blocking_queue.h` under arbitrary thread schedules.

Every action is one critical section (the mutex gives mutual exclusion) or one `notify_one`. Threads are anonymous: the
state records how many consumers sleep in `cond_var.wait`, how many have been woken and wait for the mutex, and how many
threads have released the mutex and are about to call `notify_one`. Spurious wake-ups are allowed, as the C++ standard does.
-/
namespace Verif.Queue

/-- `blocking_queue_termination_policy` (blocking_queue.h:26-30). -/
inductive Policy | drop | process
deriving DecidableEq, Repr

/-- What a completed `pop` returned. -/
abbrev PopResult (T : Type) := Option T

structure State (T : Type) where
  queue : List T := []
  terminated : Bool := false
  sleeping : Nat := 0
  woken : Nat := 0
  notifies : Nat := 0
  /-- history: results of `pop` calls, in the order of their critical sections -/
  results : List (PopResult T) := []
  /-- history: arguments of `push` calls, in the order of their critical sections, with the flag `terminated` they saw -/
  pushes : List (T × Bool) := []
deriving DecidableEq, Repr

inductive Act (T : Type) where
  /-- the critical section of `push` (blocking_queue.h:42-51, 56-65) -/
  | push (x : T)
  /-- `cond_var.notify_one()` (blocking_queue.h:54, 68, 94) -/
  | notify
  /-- a consumer enters `pop` and evaluates the wait predicate for the first time (blocking_queue.h:76-77) -/
  | popEnter
  /-- a woken consumer has re-acquired the mutex and evaluates the predicate again (blocking_queue.h:77) -/
  | popWoken
  /-- spurious wake-up -/
  | spurious
  /-- the critical section of `terminate` (blocking_queue.h:88-92) -/
  | terminate

/-- The wait predicate (blocking_queue.h:77). -/
def State.ready {T} (s : State T) : Bool := !s.queue.isEmpty || s.terminated

/-- The rest of `pop` after the wait (blocking_queue.h:79-85). `front()` of an empty queue is undefined behaviour; it would
be reached only if `ready` did not hold, so this function is used only when it does. -/
def State.finishPop {T} (p : Policy) (s : State T) : State T :=
  if (p = .drop ∧ s.terminated) ∨ (p = .process ∧ s.queue.isEmpty) then { s with results := s.results ++ [none] }
  else
    match s.queue with
    | [] => { s with results := s.results ++ [none] }
    | x :: q => { s with queue := q, results := s.results ++ [some x] }

/-- One atomic step; `none` when the action is not enabled. -/
def State.step {T} (p : Policy) (s : State T) : Act T → Option (State T)
  | .push x =>
    let s := { s with pushes := s.pushes ++ [(x, s.terminated)] }
    if s.terminated then some s
    else some { s with queue := s.queue ++ [x], notifies := s.notifies + (if s.queue.isEmpty then 1 else 0) }
  | .notify =>
    if s.notifies = 0 then none
    else if s.sleeping = 0 then some { s with notifies := s.notifies - 1 }
    else some { s with notifies := s.notifies - 1, sleeping := s.sleeping - 1, woken := s.woken + 1 }
  | .popEnter => if s.ready then some (s.finishPop p) else some { s with sleeping := s.sleeping + 1 }
  | .popWoken =>
    if s.woken = 0 then none
    else if s.ready then some ({ s with woken := s.woken - 1 }.finishPop p)
    else some { s with woken := s.woken - 1, sleeping := s.sleeping + 1 }
  | .spurious => if s.sleeping = 0 then none else some { s with sleeping := s.sleeping - 1, woken := s.woken + 1 }
  | .terminate => some { s with terminated := true, notifies := s.notifies + 1 }

def State.run {T} (p : Policy) (s : State T) : List (Act T) → Option (State T)
  | [] => some s
  | a :: as => (s.step p a).bind (·.run p as)

/-- A schedule in which only one consumer thread exists: it enters `pop` only when it is not already inside. -/
def singleConsumer {T} (p : Policy) : State T → List (Act T) → Prop
  | _, [] => True
  | s, a :: as =>
    (match a with | .popEnter => s.sleeping = 0 ∧ s.woken = 0 | _ => True) ∧
    (match s.step p a with | none => True | some s' => singleConsumer p s' as)

end Verif.Queue
