import Verif.Message.Model
/-!
Messages of the debug client.

Modelled: `/repo/language_server/src/dap/dap_feature.cpp`, `dap_server.cpp` and `call_method` of `server.cpp`. JSON values are those of
`Message.Model`. The debugger (C60-C62) is seen from outside: commands to it are effects, its answers are parameters. Conversions of paths
are parameters as well. Messages are handled one after the other; events the debugger sends from its own thread are described by the
message they become (`stopped`, `exited`).
-/
namespace Verif.DapMsg

open Message (Json text)

/-- A computation ends otherwise: with an exception of the JSON library (caught by `call_method`), with another exception (not caught in
the worker thread: the program is terminated), or undefined. -/
inductive Bad where
  | exn
  | dies
  | ub
deriving DecidableEq, Repr

/-- The state of the feature and the server: is there a debugger, the bases of lines and columns, the format of paths, the last sequence
number, and whether the session has ended. -/
structure St where
  live : Bool := false
  lines : Nat := 0
  columns : Nat := 0
  uri : Bool := false
  seq : Nat := 0
  ended : Bool := false
deriving DecidableEq, Repr

/-- Effects. -/
inductive Ev where
  | reply (j : Json)
  | create
  | destroy
  | launch (path : Bytes) (stop : Bool)
  | breakpoints (path : Bytes) (lines : List Nat)
  | next
  | stepIn
  | continue

/-- Computations with effects. -/
structure D (α : Type) where
  run : St → St × List Ev × Except Bad α

/-- One after the other. -/
def D.bind {α β : Type} (m : D α) (f : α → D β) : D β := ⟨fun s =>
  match m.run s with
  | (s', e, .ok a) => (((f a).run s').1, e ++ ((f a).run s').2.1, ((f a).run s').2.2)
  | (s', e, .error b) => (s', e, .error b)⟩

instance : Monad D where
  pure a := ⟨fun s => (s, [], .ok a)⟩
  bind := D.bind

/-- Failure. -/
def bad {α : Type} (b : Bad) : D α := ⟨fun s => (s, [], .error b)⟩
/-- An effect. -/
def emit (e : Ev) : D Unit := ⟨fun s => (s, [e], .ok ())⟩
/-- A change of the state. -/
def modify (f : St → St) : D Unit := ⟨fun s => (f s, [], .ok ())⟩
/-- The state. -/
def get : D St := ⟨fun s => (s, [], .ok s)⟩

/-- `operator[](key) const`. -/
def idx (j : Json) (k : String) : D Json :=
  match j with
  | .obj _ => match j.find (text k) with
    | some v => pure v
    | none => bad .ub
  | _ => bad .exn

/-- `get<bool>()`. -/
def bool : Json → D Bool
  | .bool b => pure b
  | _ => bad .exn

/-- `get<std::string>()`. -/
def str : Json → D Bytes
  | .str s => pure s
  | _ => bad .exn

/-- `get<number_unsigned_t>()`. -/
def u64 : Json → D Nat
  | .int n => pure (n % 2 ^ 64).toNat
  | .real n => if 0 ≤ n ∧ n < 2 ^ 64 then pure n.toNat else bad .ub
  | _ => bad .exn

/-- A frame of the stack: name, file, range. -/
structure Frame where
  id : Nat
  name : Bytes
  path : Bytes
  start : Nat × Nat
  stop : Nat × Nat
deriving DecidableEq, Repr

/-- A scope. -/
structure Scope where
  name : Bytes
  ref : Nat
  path : Bytes
deriving DecidableEq, Repr

/-- Types of variables (`set_type`). -/
inductive Ty where
  | a | b | c | undef
deriving DecidableEq, Repr

/-- A variable. -/
structure Var where
  name : Bytes
  value : Bytes
  ref : Nat
  type : Ty
deriving DecidableEq, Repr

/-- Conversions of paths (`none`: an exception that is not one of the JSON library) and what the debugger answers. -/
structure Env where
  ofUri : Bytes → Option Bytes
  absolute : Bytes → Bytes
  frames : List Frame
  scopes : Nat → List Scope
  variables : Nat → List Var

/-- `convert_path` (`dap_feature.cpp` 23-43), not on Windows. -/
def path (env : Env) (p : Bytes) : D Bytes := do
  let s ← get
  if s.uri then
    match env.ofUri p with
    | some q => pure q
    | none => bad .dies
  else pure (env.absolute p)

/-- `++last_seq_` (64 bits). -/
def nextSeq : D Nat := do
  modify fun s => { s with seq := (s.seq + 1) % 2 ^ 64 }
  let s ← get
  return s.seq

/-- `server::respond` (`dap_server.cpp` 36-44). -/
def respond (seq : Json) (cmd : String) (body : Json) : D Unit := do
  let n ← nextSeq
  emit (.reply (.obj [(text "seq", .int n), (text "type", .str (text "response")), (text "request_seq", seq), (text "success", .bool true),
    (text "command", .str (text cmd)), (text "body", body)]))

/-- `server::notify` (`dap_server.cpp` 46-49). -/
def notify (ev : String) (body : Json) : D Unit := do
  let n ← nextSeq
  emit (.reply (.obj [(text "seq", .int n), (text "type", .str (text "event")), (text "event", .str (text ev)), (text "body", body)]))

/-- `stopped` (`dap_feature.cpp` 82-87). -/
def stopped (reason : Bytes) : D Unit :=
  notify "stopped" (.obj [(text "reason", .str reason), (text "threadId", .int 1), (text "allThreadsStopped", .bool true)])

/-- `exited` (`dap_feature.cpp` 89-93). -/
def exited (code : Int) : D Unit := do
  notify "exited" (.obj [(text "exitCode", .int code)])
  notify "terminated" .null

/-- The reading of the arguments and what is behind it (`dap_feature.cpp` 99-105). -/
def configure (args : Json) : D Unit := do
  let l ← bool (← idx args "linesStartAt1")
  modify fun s => { s with lines := if l then 1 else 0 }
  let c ← bool (← idx args "columnsStartAt1")
  modify fun s => { s with columns := if c then 1 else 0 }
  let f ← str (← idx args "pathFormat")
  modify fun s => { s with uri := f != text "path" }
  emit .create
  modify fun s => { s with live := true }
  notify "initialized" .null

/-- `on_initialize` (`dap_feature.cpp` 95-106). -/
def onInitialize (seq args : Json) : D Unit := do
  respond seq "initialize" (.obj [(text "supportsConfigurationDoneRequest", .bool true)])
  configure args

/-- `on_disconnect` (`dap_feature.cpp` 108-116) with `disconnected` (`dap_server.cpp` 88-92). -/
def onDisconnect (seq : Json) : D Unit := do
  modify fun s => { s with ended := true }
  emit .destroy
  modify fun s => { s with live := false }
  respond seq "disconnect" .null

/-- `if (!debugger) return;`. -/
def ifLive (m : D Unit) : D Unit := do
  let s ← get
  if s.live then m else pure ()

/-- `on_launch` (`dap_feature.cpp` 118-131); that there is a workspace for every path is C25. -/
def onLaunch (env : Env) (seq args : Json) : D Unit := do
  let p ← str (← idx args "program")
  let q ← path env p
  let stop ← bool (← idx args "stopOnEntry")
  emit (.launch q stop)
  respond seq "launch" .null

/-- `line - line_1_based_` in 64 bits. -/
def fromClient (base n : Nat) : Nat := (n + 2 ^ 64 - base) % 2 ^ 64
/-- `line + line_1_based_` in 64 bits. -/
def toClient (base n : Nat) : Nat := (n + base) % 2 ^ 64

/-- The lines of the breakpoints (`dap_feature.cpp` 145-149). -/
def breakLines (base : Nat) : List Json → D (List Nat)
  | [] => pure []
  | j :: l => do
    let n ← u64 (← idx j "line")
    let ns ← breakLines base l
    return fromClient base n :: ns

/-- The list of breakpoints, if there is one (`dap_feature.cpp` 143-145). -/
def asked (args : Json) : List Json :=
  match args.find (text "breakpoints") with
  | some b => b.items
  | none => []

/-- `on_set_breakpoints` (`dap_feature.cpp` 133-154). -/
def onSetBreakpoints (env : Env) (seq args : Json) : D Unit := do
  let p ← str (← idx (← idx args "source") "path")
  let q ← path env p
  let s ← get
  let ls ← breakLines s.lines (asked args)
  emit (.breakpoints q ls)
  respond seq "setBreakpoints" (.obj [(text "breakpoints", .arr (ls.map fun _ => .obj [(text "verified", .bool true)]))])

/-- `source_to_json` (`dap_feature.cpp` 173-176). -/
def sourceJson (p : Bytes) : Json := .obj [(text "path", .str p)]

/-- A frame (`dap_feature.cpp` 187-195). -/
def frameJson (s : St) (f : Frame) : Json := .obj [(text "id", .int f.id), (text "name", .str f.name), (text "source", sourceJson f.path),
  (text "line", .int (toClient s.lines f.start.1)), (text "column", .int (toClient s.columns f.start.2)),
  (text "endLine", .int (toClient s.lines f.stop.1)), (text "endColumn", .int (toClient s.columns f.stop.2))]

/-- `on_stack_trace` (`dap_feature.cpp` 178-202). -/
def onStackTrace (env : Env) (seq : Json) : D Unit := do
  let s ← get
  respond seq "stackTrace" (.obj [(text "stackFrames", .arr (env.frames.map (frameJson s))), (text "totalFrames", .int env.frames.length)])

/-- A scope (`dap_feature.cpp` 213-217). -/
def scopeJson (c : Scope) : Json := .obj [(text "name", .str c.name), (text "variablesReference", .int c.ref), (text "expensive", .bool false),
  (text "source", sourceJson c.path)]

/-- `on_scopes` (`dap_feature.cpp` 204-223). -/
def onScopes (env : Env) (seq args : Json) : D Unit := do
  let f ← u64 (← idx args "frameId")
  respond seq "scopes" (.obj [(text "scopes", .arr ((env.scopes f).map scopeJson))])

/-- The member about the type (`dap_feature.cpp` 254-287). -/
def typeMember : Ty → List (Bytes × Json)
  | .a => [(text "type", .str (text "A_TYPE"))]
  | .b => [(text "type", .str (text "B_TYPE"))]
  | .c => [(text "type", .str (text "C_TYPE"))]
  | .undef => []

/-- A variable (`dap_feature.cpp` 270-282). -/
def varJson (v : Var) : Json := .obj ([(text "name", .str v.name), (text "value", .str v.value), (text "variablesReference", .int v.ref)] ++
  typeMember v.type)

/-- `on_variables` (`dap_feature.cpp` 244-288). -/
def onVariables (env : Env) (seq args : Json) : D Unit := do
  let r ← u64 (← idx args "variablesReference")
  respond seq "variables" (.obj [(text "variables", .arr ((env.variables r).map varJson))])

/-- Commands without arguments to the debugger (`dap_feature.cpp` 225-242, 290-298). -/
def onStep (seq : Json) (e : Ev) (cmd : String) (body : Json) : D Unit := do
  emit e
  respond seq cmd body

/-- `on_threads` (`dap_feature.cpp` 166-171). -/
def threadsBody : Json := .obj [(text "threads", .arr [.obj [(text "id", .int 1), (text "name", .str (text "main"))]])]

/-- The table of methods (`dap_feature.cpp` 60-79). -/
def method (env : Env) (name : Bytes) (seq args : Json) : Option (D Unit) :=
  if name = text "initialize" then some (onInitialize seq args)
  else if name = text "disconnect" then some (onDisconnect seq)
  else if name = text "launch" then some (ifLive (onLaunch env seq args))
  else if name = text "setBreakpoints" then some (ifLive (onSetBreakpoints env seq args))
  else if name = text "setExceptionBreakpoints" then some (respond seq "setExceptionBreakpoints" .null)
  else if name = text "configurationDone" then some (respond seq "configurationDone" .null)
  else if name = text "threads" then some (respond seq "threads" threadsBody)
  else if name = text "stackTrace" then some (ifLive (onStackTrace env seq))
  else if name = text "scopes" then some (ifLive (onScopes env seq args))
  else if name = text "next" then some (ifLive (onStep seq .next "next" .null))
  else if name = text "stepIn" then some (ifLive (onStep seq .stepIn "stepIn" .null))
  else if name = text "variables" then some (ifLive (onVariables env seq args))
  else if name = text "continue" then some (ifLive (onStep seq .continue "continue" (.obj [(text "allThreadsContinued", .bool true)])))
  else none

/-- How the handling of a message ends for the program. -/
inductive Fate where
  | fine
  | dies
  | ub
deriving DecidableEq, Repr

/-- The exceptions that are caught. -/
def fate : Except Bad Unit → Fate
  | .ok _ | .error .exn => .fine
  | .error .dies => .dies
  | .error .ub => .ub

/-- `message_received` (`dap_server.cpp` 65-86) with `call_method` (`server.cpp` 39-66). -/
def received (env : Env) (s : St) (m : Json) : St × List Ev × Fate :=
  match m.find (text "type") with
  | some (.str t) =>
    if t = text "request" then
      match m.find (text "command"), m.find (text "seq") with
      | some (.str c), some q =>
        match method env c q ((m.find (text "arguments")).getD .null) with
        | some d => let r := d.run s; (r.1, r.2.1, fate r.2.2)
        | none => (s, [], .fine)
      | _, _ => (s, [], .fine)
    else (s, [], .fine)
  | _ => (s, [], .fine)

end Verif.DapMsg
