/-!
The debug adapter side of `/repo/language_server/src/dap`: sequence numbers, request handling, line numbering, sessions.
-/
namespace Verif.Dap

/-! ### Request handling (dap_feature.cpp, dap_server.cpp) -/

/-- The commands registered by `dap_feature::register_methods` (dap_feature.cpp:62-80); any other is `unknown`. -/
inductive Cmd
  | initialize | disconnect | launch | setBreakpoints | setExceptionBreakpoints | configurationDone | threads | stackTrace
  | scopes | next | stepIn | variables | continue_ | unknown (name : String)
deriving DecidableEq, Repr

/-- A request: its `seq`, its command, and whether the JSON accesses its handler makes succeed. -/
structure Request where
  seq : Nat
  cmd : Cmd
  argsOk : Bool
deriving DecidableEq, Repr

/-- What a handler passes to `respond` or `notify`. -/
inductive Out
  | response (requestSeq : Nat) (cmd : Cmd)
  | event (name : String)
deriving DecidableEq, Repr

/-- Which handlers read arguments (dap_feature.cpp:125-126, 141-148, 211, 251; `initialize` does so after responding). -/
def Cmd.readsArgs : Cmd → Bool
  | .launch | .setBreakpoints | .scopes | .variables => true
  | _ => false

/-- Which handlers return silently when there is no debugger (dap_feature.cpp:121, 136, 181, 206, 227, 237, 246, 290). -/
def Cmd.needsDebugger : Cmd → Bool
  | .launch | .setBreakpoints | .stackTrace | .scopes | .next | .stepIn | .variables | .continue_ => true
  | _ => false

/-- `dap::server::message_received` → `server::call_method` → handler (dap_server.cpp:67-87, server.cpp:39-65,
dap_feature.cpp:96-296): the state is whether a debugger object exists. Debugger events (`stopped`, `exited`) are sent by
another thread and are not part of this function. The contents of responses are not modelled. A JSON exception inside a
handler is caught in `call_method` and ends it without a response. -/
def handle (debugger : Bool) (r : Request) : Bool × List Out :=
  match r.cmd with
  | .unknown _ => (debugger, [])
  | .initialize =>
    if r.argsOk then (true, [.response r.seq .initialize, .event "initialized"])
    else (debugger, [.response r.seq .initialize])
  | .disconnect => (false, [.response r.seq .disconnect])
  | c =>
    if c.needsDebugger ∧ debugger = false then (debugger, [])
    else if c.readsArgs ∧ r.argsOk = false then (debugger, [])
    else (debugger, [.response r.seq c])

/-! ### Sequence numbers under concurrency (dap_server.cpp:37-65) -/

/-- A message on its way: `++last_seq_` (atomic, dap_server.h:51) has been evaluated, `reply` has not happened yet. -/
structure SeqState (M : Type) where
  last : Nat := 0
  /-- per thread: the message it is about to send -/
  inFlight : List (Nat × Nat × M) := []
  /-- sent messages in order: thread, seq, payload -/
  sent : List (Nat × Nat × M) := []

inductive SeqAct (M : Type)
  /-- a thread evaluates `++last_seq_` for a message -/
  | number (thread : Nat) (m : M)
  /-- the thread hands the message to the output channel -/
  | send (thread : Nat)

/-- One step. A thread numbers a message only when it has sent the previous one. -/
def SeqState.step {M} (s : SeqState M) : SeqAct M → Option (SeqState M)
  | .number t m =>
    if s.inFlight.any (·.1 = t) then none
    else some { s with last := s.last + 1, inFlight := s.inFlight ++ [(t, s.last + 1, m)] }
  | .send t =>
    match s.inFlight.find? (·.1 = t) with
    | none => none
    | some x => some { s with inFlight := s.inFlight.filter (·.1 ≠ t), sent := s.sent ++ [x] }

def SeqState.run {M} (s : SeqState M) : List (SeqAct M) → Option (SeqState M)
  | [] => some s
  | a :: as => (s.step a).bind (·.run as)

/-! ### Line and column numbering (dap_feature.cpp:100-101, 148, 192-195) -/

/-- `line_1_based_`, converted to `size_t` in the arithmetic. -/
def base (startAt1 : Bool) : BitVec 64 := if startAt1 then 1 else 0

/-- A client line entering through `setBreakpoints` (dap_feature.cpp:148). -/
def fromClient (startAt1 : Bool) (l : BitVec 64) : BitVec 64 := l - base startAt1

/-- A line or column leaving through `stackTrace` (dap_feature.cpp:192-195). -/
def toClient (startAt1 : Bool) (l : BitVec 64) : BitVec 64 := l + base startAt1

/-! ### Sessions (dap_session_manager.cpp, dap_message_wrappers.cpp) -/

/-- A routed message: its method (empty if absent or not a string) and the session number in `params` when that is an
integer (dap_session_manager.cpp:20-35), plus an opaque payload. -/
structure Msg where
  method : String
  params : Option Nat
  payload : Nat
deriving DecidableEq, Repr

/-- `message_wrapper::generate_method_name` (dap_message_wrappers.cpp:42-45). -/
def methodName (id : Nat) : String := "hlasm/dap_tunnel/" ++ toString id

/-- `broadcom_tunnel_method` (dap_message_wrappers.h:22). -/
def tunnelMethod : String := "hlasm/dap_tunnel"

/-- A session: a unique creation number (for the theorems), whether its thread still runs, and what was written to its
queue. -/
structure Session where
  uid : Nat
  running : Bool := true
  inbox : List Msg := []
deriving DecidableEq, Repr

/-- The map `sessions` (dap_session_manager.h:32) and the number of sessions created so far. -/
structure Sessions where
  map : List (String × Session) := []
  created : Nat := 0
deriving DecidableEq, Repr

/-- `session_manager::handle_registration_request` (dap_session_manager.cpp:39-56): finished sessions are erased, the new
session is inserted unless its key exists (then it is destroyed at once). -/
def Sessions.register (s : Sessions) (id : Nat) : Sessions :=
  let m := s.map.filter (·.2.running)
  if m.any (·.1 = methodName id) then { map := m, created := s.created + 1 }
  else { map := m ++ [(methodName id, { uid := s.created })], created := s.created + 1 }

/-- `session_manager::write` (dap_session_manager.cpp:64-89). -/
def Sessions.write (s : Sessions) (m : Msg) : Sessions :=
  if s.map.any (·.1 = m.method) then
    { s with map := s.map.map fun e => if e.1 = m.method then (e.1, { e.2 with inbox := e.2.inbox ++ [m] }) else e }
  else if m.method = tunnelMethod then
    match m.params with
    | some id => s.register id
    | none => s
  else s

inductive SessEvent
  | write (m : Msg)
  /-- the thread of the session registered under `key` ends (dap_session.cpp:29) -/
  | finish (key : String)
deriving DecidableEq, Repr

def Sessions.step (s : Sessions) : SessEvent → Sessions
  | .write m => s.write m
  | .finish k => { s with map := s.map.map fun e => if e.1 = k then (e.1, { e.2 with running := false }) else e }

end Verif.Dap
