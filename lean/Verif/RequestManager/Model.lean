/-!
Small-step model of `/repo/language_server/src/request_manager.cpp` (asynchronous policy) under arbitrary schedules of the
main thread(s), the worker thread and threads that close a server.
-/
namespace Verif.RequestManager

/-- The parts of a JSON message the request manager looks at: `method` (absent in responses) and
`params.textDocument.uri`. Messages for which the accesses of `get_request_file_` would throw are not modelled. -/
structure Msg where
  method : Option String
  uri : String
deriving DecidableEq, Repr

/-- `request_manager::get_request_file_` (request_manager.cpp:143-164): the file, "" when there is none. -/
def Msg.file (m : Msg) : String :=
  match m.method with
  | none => ""
  | some me => if me.toList.take 12 = "textDocument".toList then m.uri else ""

/-- The output parameter `is_parsing_required` of `get_request_file_` (request_manager.cpp:154-160, initialised at :42). -/
def Msg.parsing (m : Msg) : Bool :=
  match m.method with
  | none => false
  | some me => if me.toList.take 12 = "textDocument".toList then me = "textDocument/didOpen" || me = "textDocument/didChange" else false

/-- `struct request` (request_manager.h:28-34). `id` is not in the code: it is the arrival number, used only to tell
requests apart in the theorems. Servers are numbered. -/
structure Req where
  id : Nat
  msg : Msg
  server : Nat
  valid : Bool
deriving DecidableEq, Repr

/-- Who holds `q_mtx_` across several steps. All other critical sections are single steps. -/
inductive Lock where
  | free
  /-- `finish_server_requests(S)` waits for the running request of `S` (request_manager.cpp:124-125) -/
  | waiting (server : Nat)
  /-- `finish_server_requests(S)` runs the requests left for `S` (request_manager.cpp:128-134) -/
  | executing (server : Nat) (todo : List Req)
deriving DecidableEq, Repr

/-- One start of `message_received`: which request, with what value of the cancellation flag, and on which thread. -/
structure Start where
  req : Req
  cancelled : Bool
  byWorker : Bool
deriving DecidableEq, Repr

structure State where
  requests : List Req := []
  /-- request the worker is executing: `currently_running_server_ != nullptr` -/
  running : Option Req := none
  runningFile : String := ""
  cancel : Bool := false
  endWorker : Bool := false
  lock : Lock := .free
  /-- history: all requests in arrival order, with the value of `currently_running_file_` when they arrived -/
  added : List (Req × String) := []
  /-- history: executions in start order -/
  starts : List Start := []
  /-- history: a `finish_server_requests` has set the flag since the worker last took a request -/
  finishSet : Bool := false
deriving DecidableEq, Repr

inductive Act where
  /-- `add_request` (request_manager.cpp:40-59) -/
  | add (m : Msg) (server : Nat)
  /-- the worker takes the front request (request_manager.cpp:86-107) -/
  | take
  /-- `message_received` returned on the worker (request_manager.cpp:109) -/
  | done
  /-- `finish_server_requests` enters its critical section (request_manager.cpp:115-121) -/
  | finishEnter (server : Nat)
  /-- the waiting loop ends (request_manager.cpp:124) -/
  | finishReady
  /-- the next request of the finished server is executed (request_manager.cpp:128-134) -/
  | finishExec
  /-- erase the executed requests and release the mutex (request_manager.cpp:136-140) -/
  | finishLeave
  /-- `end_worker` (request_manager.cpp:64-69) -/
  | endWorker
deriving DecidableEq, Repr

/-- The invalidation loop of `add_request` (request_manager.cpp:50-54). -/
def invalidate (f : String) (rs : List Req) : List Req :=
  rs.map fun r => if r.msg.file = f then { r with valid := false } else r

/-- One atomic step; `none` when the action is not enabled. `cancel_` is assumed not to be a null pointer. -/
def State.step (s : State) : Act → Option State
  | .add m sv =>
    if s.lock ≠ .free then none else
    let r : Req := { id := s.added.length, msg := m, server := sv, valid := true }
    let s := { s with added := s.added ++ [(r, s.runningFile)] }
    if s.runningFile = m.file ∧ s.runningFile ≠ "" ∧ m.parsing then
      some { s with cancel := true, requests := invalidate m.file s.requests ++ [r] }
    else some { s with requests := s.requests ++ [r] }
  | .take =>
    if s.lock ≠ .free ∨ s.running ≠ none ∨ s.endWorker then none else
    match s.requests with
    | [] => none
    | r :: rs => some { s with
        requests := rs, running := some r, runningFile := r.msg.file, cancel := !r.valid, finishSet := false
        starts := s.starts ++ [⟨r, !r.valid, true⟩] }
  | .done => if s.running = none then none else some { s with running := none }
  | .finishEnter sv =>
    if s.lock ≠ .free then none
    else if s.requests = [] then some s
    else some { s with cancel := true, finishSet := true, lock := .waiting sv }
  | .finishReady =>
    match s.lock with
    | .waiting sv =>
      if s.running.map (·.server) = some sv then none
      else some { s with lock := .executing sv (s.requests.filter (·.server = sv)) }
    | _ => none
  | .finishExec =>
    match s.lock with
    | .executing sv (r :: todo) =>
      some { s with lock := .executing sv todo, starts := s.starts ++ [⟨r, s.cancel, false⟩] }
    | _ => none
  | .finishLeave =>
    match s.lock with
    | .executing sv [] => some { s with lock := .free, requests := s.requests.filter (·.server ≠ sv) }
    | _ => none
  | .endWorker => if s.lock ≠ .free then none else some { s with endWorker := true }

def State.run (s : State) : List Act → Option State
  | [] => some s
  | a :: as => (s.step a).bind (·.run as)

end Verif.RequestManager
