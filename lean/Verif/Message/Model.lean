import Verif.Basic
/-!
What the server does with a message of the editor.

Modelled: `/repo/language_server/src/lsp/lsp_server.cpp` (all but diagnostics, which are C15), `server.cpp` (`call_method`),
`lsp/feature_text_synchronization.cpp`, `lsp/feature_workspace_folders.cpp`, `lsp/feature_language_features.cpp` and the conversions of
positions in `feature.cpp`. Of `nlohmann::json` the documented behaviour is modelled: the `const` index operator on a missing member is
undefined behaviour, the other one inserts null, a conversion of a wrong type throws. The workspace manager and the conversion of URIs
(C96) are parameters. Logging is left out; texts of the capabilities are left out.
-/
namespace Verif.Message

/-- ASCII text. -/
def text (s : String) : Bytes := s.toList.map fun c => UInt8.ofNat c.toNat

/-- `nlohmann::json`. `int`: a number without fraction that fits into 64 bits; `real`: any other number, by its integral part. The members
of an object have different names. -/
inductive Json where
  | null
  | bool (b : Bool)
  | int (n : Int)
  | real (integral : Int)
  | str (s : Bytes)
  | arr (l : List Json)
  | obj (m : List (Bytes × Json))

/-- `find` (`nlohmann::json::find`): only objects have members. -/
def Json.find (j : Json) (k : Bytes) : Option Json :=
  match j with
  | .obj m => (m.find? fun e => e.1 == k).map (·.2)
  | _ => none

/-- `size()`. -/
def Json.size : Json → Nat
  | .null => 0
  | .arr l => l.length
  | .obj m => m.length
  | _ => 1

/-- What a range-based `for` over a value visits: elements, members, or a scalar itself. -/
def Json.items : Json → List Json
  | .null => []
  | .arr l => l
  | .obj m => m.map (·.2)
  | j => [j]

/-- What the server does to the rest of the world. -/
inductive Ev where
  | opened (path : Bytes) (version : Nat) (content : Bytes)
  | changed (path : Bytes) (version : Nat) (changes : List (Option ((Nat × Nat) × (Nat × Nat)) × Bytes))
  | closed (path : Bytes)
  | folderAdded (name path : Bytes)
  | folderRemoved (path : Bytes)
  | filesChanged (paths : List Bytes)
  | configured (limit : Option Int)
  | respond (id result : Json)
  | request (id method : Bytes)
  | shutdown
  | exit

/-- The end of a computation: a value, an exception, undefined behaviour. -/
inductive Res (α : Type) where
  | ok (a : α)
  | exn
  | ub

/-- Effects and the end. -/
structure M (α : Type) where
  evs : List Ev
  res : Res α

/-- One after the other. -/
def M.bind {α β : Type} (m : M α) (f : α → M β) : M β :=
  match m.res with
  | .ok a => ⟨m.evs ++ (f a).evs, (f a).res⟩
  | .exn => ⟨m.evs, .exn⟩
  | .ub => ⟨m.evs, .ub⟩

instance : Monad M where
  pure a := ⟨[], .ok a⟩
  bind := M.bind

/-- An effect. -/
def emit (e : Ev) : M Unit := ⟨[e], .ok ()⟩

/-- An exception. -/
def throw' {α : Type} : M α := ⟨[], .exn⟩

/-- Undefined behaviour. -/
def undefined {α : Type} : M α := ⟨[], .ub⟩

/-- `operator[](key) const`: a missing member is undefined behaviour (an assertion), not an object: `type_error`. -/
def Json.idxC (j : Json) (k : Bytes) : M Json :=
  match j with
  | .obj m => match (m.find? fun e => e.1 == k).map (·.2) with
    | some v => pure v
    | none => undefined
  | _ => throw'

/-- `operator[](key)` of a value that may be changed: a missing member is inserted, null becomes an object. -/
def Json.idx (j : Json) (k : Bytes) : M Json :=
  match j with
  | .obj m => match (m.find? fun e => e.1 == k).map (·.2) with
    | some v => pure v
    | none => pure .null
  | .null => pure .null
  | _ => throw'

/-- `get<std::string>()`. -/
def Json.getStr : Json → M Bytes
  | .str s => pure s
  | _ => throw'

/-- `get<bool>()`. -/
def Json.getBool : Json → M Bool
  | .bool b => pure b
  | _ => throw'

/-- `get<number_unsigned_t>()`: a `static_cast` to 64 bits; undefined for a number with fraction that does not fit. -/
def Json.getU64 : Json → M Nat
  | .int n => pure (n % 2 ^ 64).toNat
  | .real n => if 0 ≤ n ∧ n < 2 ^ 64 then pure n.toNat else undefined
  | _ => throw'

/-- `get<int64_t>()`. -/
def Json.getI64 : Json → M Int
  | .int n => pure (n.bmod (2 ^ 64))
  | .real n => if -2 ^ 63 ≤ n ∧ n < 2 ^ 63 then pure n else undefined
  | _ => throw'

/-- `get<int>()`, which also takes a boolean. -/
def Json.getInt : Json → M Int
  | .int n => pure (n.bmod (2 ^ 32))
  | .real n => if -2 ^ 31 ≤ n ∧ n < 2 ^ 31 then pure n else undefined
  | .bool b => pure (if b then 1 else 0)
  | _ => throw'

/-- `int` to `size_t`. -/
def toSize (n : Int) : Nat := (n % 2 ^ 64).toNat

/-- `completion_item_kind` (`protocol.h`). -/
inductive Kind where
  | machInstr | asmInstr | caInstr | macro | varSym | seqSym
deriving DecidableEq, Repr

/-- `completion_item_kind_mapping` (`feature_language_features.cpp` 144-151) with the numbers of the protocol (113-140). -/
def Kind.number : Kind → Int
  | .machInstr | .asmInstr | .caInstr => 3
  | .macro => 17
  | .varSym => 6
  | .seqSym => 18

/-- A completion item. -/
structure Item where
  label : Bytes
  kind : Kind
  detail : Bytes
  documentation : Bytes
  insertText : Bytes
deriving DecidableEq, Repr

/-- The world around the server: conversion of URIs (`none`: it throws), normalisation of paths, and the answers of the workspace
manager. -/
structure Env where
  toPath : Bytes → Option Bytes
  toUri : Bytes → Bytes
  normal : Bytes → Bytes
  definition : Bytes → Nat × Nat → Bytes × (Nat × Nat)
  references : Bytes → Nat × Nat → List (Bytes × (Nat × Nat))
  hover : Bytes → Nat × Nat → Bytes
  completion : Bytes → Nat × Nat → UInt8 → Nat → List Item
  tokens : Bytes → List Nat

/-- `uri_to_path` (`feature.cpp` 28-70). -/
def Env.path (env : Env) (uri : Bytes) : M Bytes :=
  match env.toPath uri with
  | some p => pure p
  | none => throw'

/-! ### text synchronisation -/

/-- `parse_position` (`feature.cpp` 111-115). -/
def parsePosition (j : Json) : M (Nat × Nat) := do
  let l ← (← j.idxC (text "line")).getU64
  let c ← (← j.idxC (text "character")).getU64
  return (l, c)

/-- `parse_range` (`feature.cpp` 106-109). -/
def parseRange (j : Json) : M ((Nat × Nat) × (Nat × Nat)) := do
  let s ← parsePosition (← j.idxC (text "start"))
  let e ← parsePosition (← j.idxC (text "end"))
  return (s, e)

/-- `on_did_open` (`feature_text_synchronization.cpp` 58-74). -/
def didOpen (env : Env) (p : Json) : M Unit := do
  let d ← p.idxC (text "textDocument")
  let uri ← (← d.idx (text "uri")).getStr
  let version ← (← d.idx (text "version")).getU64
  let t ← (← d.idx (text "text")).getStr
  let path ← env.path uri
  if path.isEmpty then pure () else emit (.opened path version t)

/-- An element of `contentChanges` (87-101). -/
def parseChange (ch : Json) : M (Option ((Nat × Nat) × (Nat × Nat)) × Bytes) := do
  let t ← (← ch.idx (text "text")).getStr
  match ch.find (text "range") with
  | none => return (none, t)
  | some r => return (some (← parseRange r), t)

/-- One after the other. -/
def each {α β : Type} (f : α → M β) : List α → M (List β)
  | [] => pure []
  | a :: l => do
    let b ← f a
    let bs ← each f l
    return b :: bs

/-- `on_did_change` (76-103); `&*changes.begin()` of an empty vector is undefined. -/
def didChange (env : Env) (p : Json) : M Unit := do
  let d ← p.idxC (text "textDocument")
  let uri ← (← d.idx (text "uri")).getStr
  let version ← (← d.idx (text "version")).getU64
  let c ← p.idxC (text "contentChanges")
  let changes ← each parseChange c.items
  let path ← env.path uri
  if changes.isEmpty then undefined else emit (.changed path version changes)

/-- `on_did_close` (105-110). -/
def didClose (env : Env) (p : Json) : M Unit := do
  let uri ← (← (← p.idxC (text "textDocument")).idxC (text "uri")).getStr
  let path ← env.path uri
  emit (.closed path)

/-! ### queries -/

/-- `position_to_json` (`feature.cpp` 122-125). -/
def positionJson (p : Nat × Nat) : Json := .obj [(text "line", .int p.1), (text "character", .int p.2)]

/-- `range_to_json` (`feature.cpp` 117-120) of an empty range. -/
def rangeJson (p : Nat × Nat) : Json := .obj [(text "start", positionJson p), (text "end", positionJson p)]

/-- The document of a query (`feature_language_features.cpp` 82, 98, 114, 160). -/
def queryUri (p : Json) : M Bytes := do
  (← (← p.idxC (text "textDocument")).idxC (text "uri")).getStr

/-- The position of a query (83-84, 99-100, 115-116, 161-162). -/
def queryPosition (p : Json) : M (Nat × Nat) := do
  let l ← (← (← p.idxC (text "position")).idxC (text "line")).getInt
  let c ← (← (← p.idxC (text "position")).idxC (text "character")).getInt
  return (toSize l, toSize c)

/-- `definition` (80-94). -/
def definition (env : Env) (id p : Json) : M Unit := do
  let uri ← queryUri p
  let pos ← queryPosition p
  let path ← env.path uri
  let d := env.definition path pos
  emit (.respond id (.obj [(text "uri", .str (if d.1.isEmpty then uri else env.toUri d.1)), (text "range", rangeJson d.2)]))

/-- `references` (96-111). -/
def references (env : Env) (id p : Json) : M Unit := do
  let uri ← queryUri p
  let pos ← queryPosition p
  let path ← env.path uri
  emit (.respond id (.arr ((env.references path pos).map fun r =>
    .obj [(text "uri", .str (env.toUri r.1)), (text "range", rangeJson r.2)])))

/-- `get_markup_content` (154-157). -/
def markup (t : Bytes) : Json := .obj [(text "kind", .str (text "markdown")), (text "value", .str t)]

/-- `hover` (112-121). -/
def hover (env : Env) (id p : Json) : M Unit := do
  let uri ← queryUri p
  let pos ← queryPosition p
  let path ← env.path uri
  let t := env.hover path pos
  emit (.respond id (.obj [(text "contents", if t.isEmpty then .null else markup t)]))

/-- A completion item (180-184). -/
def itemJson (i : Item) : Json :=
  .obj [(text "label", .str i.label), (text "kind", .int i.kind.number), (text "detail", .str i.detail),
    (text "documentation", markup i.documentation), (text "insertText", .str i.insertText)]

/-- The trigger (164-172): the kind, and the character if a character triggered. -/
def trigger (p : Json) : M (UInt8 × Nat) := do
  let k ← (← (← p.idxC (text "context")).idxC (text "triggerKind")).getInt
  let kind : Nat := if 1 ≤ k ∧ k ≤ 3 then k.toNat else 1
  if kind = 2 then do
    let c ← (← (← p.idxC (text "context")).idxC (text "triggerCharacter")).getStr
    return (c.headD 0, kind)
  else return (0, kind)

/-- `completion` (158-190). -/
def completion (env : Env) (id p : Json) : M Unit := do
  let uri ← queryUri p
  let pos ← queryPosition p
  let (c, kind) ← trigger p
  let path ← env.path uri
  emit (.respond id (.obj [(text "isIncomplete", .bool false), (text "items", .arr ((env.completion path pos c kind).map itemJson))]))

/-- `semantic_tokens` (237-246); the numbers are those of C16. -/
def semanticTokens (env : Env) (id p : Json) : M Unit := do
  let uri ← queryUri p
  let path ← env.path uri
  emit (.respond id (.obj [(text "data", .arr ((env.tokens path).map fun (n : Nat) => Json.int n))]))

/-! ### workspace folders and configuration -/

/-- `add_workspaces` (`feature_workspace_folders.cpp` 100-109). -/
def addFolders (env : Env) : List Json → M Unit
  | [] => pure ()
  | it :: l => do
    let name ← (← it.idxC (text "name")).getStr
    let uri ← (← it.idxC (text "uri")).getStr
    let path ← env.path uri
    emit (.folderAdded name path)
    addFolders env l

/-- `remove_workspaces` (110-118). -/
def removeFolders (env : Env) : List Json → M Unit
  | [] => pure ()
  | ws :: l => do
    let uri ← (← ws.idx (text "uri")).getStr
    let path ← env.path uri
    emit (.folderRemoved path)
    removeFolders env l

/-- `on_did_change_workspace_folders` (91-98). -/
def didChangeFolders (env : Env) (p : Json) : M Unit := do
  let added ← (← p.idxC (text "event")).idxC (text "added")
  let removed ← (← p.idxC (text "event")).idxC (text "removed")
  removeFolders env removed.items
  addFolders env added.items

/-- The loop of `did_change_watched_files` (127-142): exceptions of the conversion of URIs are caught. -/
def watched (env : Env) : List Json → M (List Bytes)
  | [] => pure []
  | c :: l => do
    let uri ← (← c.idx (text "uri")).getStr
    let r ← watched env l
    match env.toPath uri with
    | some path => return path :: r
    | none => return r

/-- `did_change_watched_files` (124-148). -/
def didChangeWatched (env : Env) (p : Json) : M Unit := do
  match ← p.idxC (text "changes") with
  | .arr l => do
    let paths ← watched env l
    emit (.filesChanged paths)
  | _ => throw'

/-- `lib_config::load_from_json` (`lib_config.cpp` 32-46). -/
def limitOf (j : Json) : M (Option Int) :=
  match j.find (text "diagnosticsSuppressLimit") with
  | none => pure none
  | some v => do
    let n ← v.getI64
    return some (if n < 0 then 0 else n)

/-- `configuration` (160-169); the index operator with a number throws if there is no array. -/
def configuration (j : Json) : M Unit :=
  if j.size = 0 then pure () else
  match j with
  | .arr (x :: _) => do
    let l ← limitOf x
    emit (.configured l)
  | _ => throw'

/-- The digits of a number, `std::to_string`. -/
def digits (n : Nat) : Bytes := (toString n).toList.map fun c => UInt8.ofNat c.toNat

/-- The id of the n-th request for the configuration (150-158). -/
def configId (n : Nat) : Bytes := text "config_request_" ++ digits n

/-- Whether the editor has workspace folders (59-67). -/
def folderSupport (caps : Json) : M Bool :=
  match (caps.find (text "workspace")).bind (·.find (text "workspaceFolders")) with
  | some f => f.getBool
  | none => pure false

/-- `initialize_feature` of the workspace folders (54-88); `n`: `config_request_number_`. -/
def initFolders (env : Env) (n : Nat) (p : Json) : M Unit := do
  emit (.request (configId n) (text "workspace/configuration"))
  let caps ← p.idxC (text "capabilities")
  let support ← folderSupport caps
  if support then do
    let fs ← p.idxC (text "workspaceFolders")
    addFolders env fs.items
  else match p.find (text "rootUri") with
    | some (.str uri) => do
      let path ← env.path uri
      emit (.folderAdded uri path)
    | none | some .null => match p.find (text "rootPath") with
      | none | some .null => pure ()
      | some (.str r) => emit (.folderAdded (env.normal r) (env.normal r))
      | some _ => throw'
    | some _ => throw'

/-- `on_initialize` (`lsp_server.cpp` 153-191). The capabilities are a parameter; the other features have no initialisation. -/
def initialise (env : Env) (caps : Json) (n : Nat) (id p : Json) : M Unit := do
  emit (.respond id caps)
  emit (.request (text "register1") (text "client/registerCapability"))
  initFolders env n p

/-! ### the server -/

/-- `methods_`: what the names of methods stand for (`register_methods` of the features and of the server). `id`: of the request, an
empty text for a notification. `caps`: the capabilities. -/
def method (env : Env) (caps : Json) (n : Nat) (name : Bytes) (id p : Json) : Option (M Unit) :=
  if name = text "textDocument/didOpen" then some (didOpen env p)
  else if name = text "textDocument/didChange" then some (didChange env p)
  else if name = text "textDocument/didClose" then some (didClose env p)
  else if name = text "textDocument/definition" then some (definition env id p)
  else if name = text "textDocument/references" then some (references env id p)
  else if name = text "textDocument/hover" then some (hover env id p)
  else if name = text "textDocument/completion" then some (completion env id p)
  else if name = text "textDocument/semanticTokens/full" then some (semanticTokens env id p)
  else if name = text "workspace/didChangeWorkspaceFolders" then some (didChangeFolders env p)
  else if name = text "workspace/didChangeWatchedFiles" then some (didChangeWatched env p)
  else if name = text "workspace/didChangeConfiguration" then some (emit (.request (configId n) (text "workspace/configuration")))
  else if name = text "initialize" then some (initialise env caps n id p)
  else if name = text "shutdown" then some (do emit .shutdown; emit (.respond id .null))
  else if name = text "exit" then some (emit .exit)
  else none

/-- How the treatment of a message ends: normally (possibly with something logged), with an exception that leaves the thread, which ends
the process, or undefined. -/
inductive Fate where
  | fine
  | terminated
  | ub
deriving DecidableEq, Repr

/-- What has been done and how it ended. -/
structure Outcome where
  evs : List Ev
  fate : Fate

/-- With the exceptions caught (`lsp_server.cpp` 92-109, `server.cpp` 48-57). -/
def M.caught (m : M Unit) : Outcome :=
  match m.res with
  | .ok _ | .exn => ⟨m.evs, .fine⟩
  | .ub => ⟨m.evs, .ub⟩

/-- Without (`lsp_server.cpp` 66-69). -/
def M.bare (m : M Unit) : Outcome :=
  match m.res with
  | .ok _ => ⟨m.evs, .fine⟩
  | .exn => ⟨m.evs, .terminated⟩
  | .ub => ⟨m.evs, .ub⟩

/-- What is known between messages: the number of requests for the configuration, and the requests that wait for a response, with the
information whether they are for the configuration. -/
structure State where
  requests : Nat
  waiting : List (Bytes × Bool)

/-- `request` (`lsp_server.cpp` 112-117) and `++config_request_number_` (`feature_workspace_folders.cpp` 157). -/
def State.note (s : State) : Ev → State
  | .request id m =>
    let w := if s.waiting.any (·.1 = id) then s.waiting else s.waiting ++ [(id, decide (m = text "workspace/configuration"))]
    if m = text "workspace/configuration" then ⟨s.requests + 1, w⟩ else ⟨s.requests, w⟩
  | _ => s

/-- `message_received` (`lsp_server.cpp` 42-110). -/
def received (env : Env) (caps : Json) (s : State) (m : Json) : Outcome × State :=
  match m.find (text "result") with
  | some r => match m.find (text "id") with
    | some (.str id) => match s.waiting.find? (·.1 = id) with
      | some (_, config) =>
        (if config then (configuration r).bare else ⟨[], .fine⟩, { s with waiting := s.waiting.filter (·.1 ≠ id) })
      | none => (⟨[], .fine⟩, s)
    | _ => (⟨[], .fine⟩, s)
  | none => match m.find (text "error") with
    | some e => match e.find (text "message"), m.find (text "id") with
      | none, none => (⟨[], .ub⟩, s)
      | _, _ => (⟨[], .fine⟩, s)
    | none => match m.find (text "params"), m.find (text "method") with
      | some p, some (.str name) =>
        match method env caps s.requests name ((m.find (text "id")).getD (.str [])) p with
        | some h => (h.caught, h.evs.foldl State.note s)
        | none => (⟨[], .fine⟩, s)
      | _, _ => (⟨[], .fine⟩, s)

end Verif.Message
