/-!
The message loop and the LSP server of `/repo/language_server/src`: dispatcher, router, request/response matching,
diagnostics publishing, semantic-token encoding.
-/
namespace Verif.Lsp

/-! ### Dispatcher and process exit status -/

/-- What matters of an incoming message for the life cycle: the method, and whether a `params` member is present. -/
inductive Kind | shutdown | exit | other
deriving DecidableEq, Repr

structure LifeMsg where
  kind : Kind
  hasParams : Bool
deriving DecidableEq, Repr

/-- The two flags of `server` (server.h:63-64). -/
structure Flags where
  shutdown : Bool := false
  exit : Bool := false
deriving DecidableEq, Repr

/-- Effect of `lsp::server::message_received` on the flags (lsp_server.cpp:83-110, 190-199): a request or notification
without `params` is ignored (lsp_server.cpp:86-90). -/
def Flags.receive (f : Flags) (m : LifeMsg) : Flags :=
  if m.hasParams then
    match m.kind with
    | .shutdown => { f with shutdown := true }
    | .exit => { f with exit := true }
    | .other => f
  else f

/-- The flags after the worker has executed the first `k` messages. -/
def flagsAfter (ms : List LifeMsg) (k : Nat) : Flags := (ms.take k).foldl Flags.receive {}

/-- `dispatcher::run_server_loop` (dispatcher.cpp:32-61). The worker runs concurrently: when the loop tests the flags after
having queued the first `i` messages, the worker has executed `done i` of them. `none`: all messages are consumed and the
loop blocks in `channel.read()`; if the channel ends, the loop returns 1 (dispatcher.cpp:38-42). -/
def serverLoop (ms : List LifeMsg) (done : Nat → Nat) (i : Nat) : Option Nat :=
  if i < ms.length then
    let f := flagsAfter ms (done (i + 1))
    if f.exit then some (if f.shutdown then 0 else 1) else serverLoop ms done (i + 1)
  else none
termination_by ms.length - i

/-- The value of the loop when the channel ends after `ms`. -/
def loopResult (ms : List LifeMsg) (done : Nat → Nat) : Nat := (serverLoop ms done 0).getD 1

/-- A possible progress of the worker: it executes queued messages in order and never ahead of the queue. -/
def Progress (done : Nat → Nat) : Prop := (∀ i, done i ≤ i) ∧ ∀ i j, i ≤ j → done i ≤ done j

/-- Exit status of the process (main.cpp:100-124). `ret` is 0 until the LSP thread has left its loop. `return ret`
(main.cpp:123) copies it when the input stream ends, before the destructor of `main_program` (main.cpp:75-81) terminates the
queue and joins the thread. `left` tells whether the thread had stored its result by then. -/
def processExit (ms : List LifeMsg) (done : Nat → Nat) (left : Bool) : Nat :=
  match serverLoop ms done 0 with
  | some r => if left then r else 0
  | none => 0

/-! ### Router -/

/-- `message_router::write` (message_router.cpp:26-52): the sink a message goes to; sinks are numbered, `dflt` is the
optional default route. -/
def route {M : Type} (routes : List ((M → Bool) × Nat)) (dflt : Option Nat) (m : M) : Option Nat :=
  match routes with
  | [] => dflt
  | (p, t) :: rs => if p m then some t else route rs dflt m

/-- What the sinks have received, in order. -/
abbrev Sinks (M : Type) := Nat → List M

def deliver {M : Type} (routes : List ((M → Bool) × Nat)) (dflt : Option Nat) (s : Sinks M) (m : M) : Sinks M :=
  match route routes dflt m with
  | none => s
  | some t => fun k => if k = t then s k ++ [m] else s k

/-! ### Requests sent by the server and their responses -/

/-- An incoming response, as `message_received` classifies it (lsp_server.cpp:50-81). -/
inductive Response | result (id : Option String) | error (id : Option String)
deriving DecidableEq, Repr

/-- `request_handlers_` plus a log of handler calls; a handler is a number naming the request it was registered for. -/
structure Rpc where
  handlers : List (String × Nat) := []
  called : List Nat := []
deriving DecidableEq, Repr

/-- `server::request` (lsp_server.cpp:112-117): `emplace` keeps an existing entry with the same id. -/
def Rpc.request (r : Rpc) (id : String) (h : Nat) : Rpc :=
  if r.handlers.any (·.1 = id) then r else { r with handlers := r.handlers ++ [(id, h)] }

/-- `server::message_received` on a response (lsp_server.cpp:50-81). -/
def Rpc.receive (r : Rpc) : Response → Rpc
  | .result none => r
  | .result (some id) =>
    match r.handlers.find? (·.1 = id) with
    | none => r
    | some (_, h) => { handlers := r.handlers.filter (·.1 ≠ id), called := r.called ++ [h] }
  | .error _ => r

/-! ### Diagnostics -/

/-- A diagnostic: its file and everything else (opaque). -/
structure Diag (D : Type) where
  file : String
  body : D

/-- A publishDiagnostics notification. -/
structure Publish (D : Type) where
  uri : String
  diags : List D

/-- Distinct files of a list of diagnostics. The code iterates a `std::map`, i.e. in sorted order; the order of the
notifications of one round does not matter for the theorem because they are for different files. -/
def filesOf {D} : List (Diag D) → List String
  | [] => []
  | d :: ds => if d.file ∈ filesOf ds then filesOf ds else d.file :: filesOf ds

/-- `server::consume_diagnostics` (lsp_server.cpp:221-269). `last` is `last_diagnostics_files_`; the result is the new value
and the notifications sent. `uri` is `feature::path_to_uri`. -/
def consumeDiagnostics {D} (uri : String → String) (last : List String) (ds : List (Diag D)) :
    List String × List (Publish D) :=
  let files := filesOf ds
  let withDiags := files.map fun f => (⟨uri f, (ds.filter (·.file = f)).map (·.body)⟩ : Publish D)
  let gone := (last.filter (· ∉ files)).map fun f => (⟨uri f, []⟩ : Publish D)
  (files, withDiags ++ gone)

/-- Several analysis rounds: all notifications sent, in order. -/
def rounds {D} (uri : String → String) (last : List String) : List (List (Diag D)) → List (Publish D)
  | [] => []
  | ds :: rest => (consumeDiagnostics uri last ds).2 ++ rounds uri (consumeDiagnostics uri last ds).1 rest

/-- An LSP client: the latest notification for a URI replaces what is shown for it. -/
def client {D} (shown : String → List D) : List (Publish D) → (String → List D)
  | [] => shown
  | p :: ps => client (fun u => if u = p.uri then p.diags else shown u) ps

/-! ### Semantic tokens -/

/-- `token_info`: range and scope. -/
structure Token where
  line : Nat
  col : Nat
  endCol : Nat
  scope : Nat
deriving DecidableEq, Repr

/-- `size_t` subtraction. -/
def subSize (a b : Nat) : Nat := (a + (2 ^ 64 - b % 2 ^ 64)) % 2 ^ 64

/-- The length sent for a token (feature_language_features.cpp:217-219): a token that continues on the next line is cut at
column 72. -/
def Token.length (t : Token) : Nat :=
  if t.endCol < t.col then (if t.col ≤ 72 then 72 - t.col else 1) else t.endCol - t.col

/-- One encoded token: the five numbers. -/
structure Enc where
  dLine : Nat
  dChar : Nat
  len : Nat
  scope : Nat
  mods : Nat
deriving DecidableEq, Repr

/-- The loop of `convert_tokens_to_num_array` (feature_language_features.cpp:209-232); `last = none` stands for the virtual
first token at line 0, column 0 (feature_language_features.cpp:206-207). -/
def encodeFrom (last : Option Token) : List Token → List Enc
  | [] => []
  | t :: ts =>
    let ll := match last with | none => 0 | some l => l.line
    let lc := match last with | none => 0 | some l => l.col
    let dl := subSize t.line ll
    let dc := if ll ≠ t.line then t.col else subSize t.col lc
    if dl = 0 ∧ dc = 0 ∧ last ≠ none then encodeFrom last ts
    else ⟨dl, dc, t.length, t.scope, 0⟩ :: encodeFrom (some t) ts

/-- `convert_tokens_to_num_array` (feature_language_features.cpp:200-235), five numbers grouped. -/
def encode (ts : List Token) : List Enc := encodeFrom none ts

end Verif.Lsp
