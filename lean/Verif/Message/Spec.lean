import Verif.Message.Model
import Mathlib.Data.List.Forall2
/-!
What messages say, independent of how the server reads them.
-/
namespace Verif.Message

/-- The value is an object without repeated names, with that member. Other members do not matter. -/
inductive Has : Json → String → Json → Prop where
  | mk {m : List (Bytes × Json)} {k : String} {v : Json} : (m.map (·.1)).Nodup → (text k, v) ∈ m → Has (.obj m) k v

/-- No member of that name. -/
def Lacks (j : Json) (k : String) : Prop := ∀ m, j = .obj m → ∀ v, (text k, v) ∉ m

/-- A call of a method: a request or a notification. -/
structure Calls (m : Json) (name : String) (p : Json) : Prop where
  method : Has m "method" (.str (text name))
  params : Has m "params" p
  noResult : Lacks m "result"
  noError : Lacks m "error"

/-- A position as the protocol writes it. Lines and columns are below 2^31 there. -/
structure IsPosition (j : Json) (p : Nat × Nat) : Prop where
  line : Has j "line" (.int p.1)
  character : Has j "character" (.int p.2)
  line_lt : p.1 < 2 ^ 31
  character_lt : p.2 < 2 ^ 31

/-- A range. -/
def IsRange (j : Json) (r : (Nat × Nat) × (Nat × Nat)) : Prop :=
  ∃ s e, Has j "start" s ∧ IsPosition s r.1 ∧ Has j "end" e ∧ IsPosition e r.2

/-- A change of the text: with a range, or of the whole document. -/
inductive IsChange : Json → Option ((Nat × Nat) × (Nat × Nat)) × Bytes → Prop where
  | whole {j : Json} {t : Bytes} : Has j "text" (.str t) → Lacks j "range" → IsChange j (none, t)
  | part {j r : Json} {x : (Nat × Nat) × (Nat × Nat)} {t : Bytes} :
      Has j "text" (.str t) → Has j "range" r → IsRange r x → IsChange j (some x, t)

/-- The parameters name a document. -/
def Document (p : Json) (uri : Bytes) : Prop := ∃ d, Has p "textDocument" d ∧ Has d "uri" (.str uri)

/-- The parameters name a position. -/
def Position (p : Json) (x : Nat × Nat) : Prop := ∃ j, Has p "position" j ∧ IsPosition j x

/-- The parameters name a document with its version. -/
def Version (p : Json) (uri : Bytes) (v : Nat) : Prop :=
  ∃ d, Has p "textDocument" d ∧ Has d "uri" (.str uri) ∧ Has d "version" (.int v) ∧ v < 2 ^ 63

/-- A place in an answer: numbers of any size, both ends alike. -/
def Place (j : Json) (x : Nat × Nat) : Prop :=
  ∃ r s e, Has j "range" r ∧ Has r "start" s ∧ Has r "end" e ∧ (Has s "line" (.int x.1) ∧ Has s "character" (.int x.2)) ∧
    Has e "line" (.int x.1) ∧ Has e "character" (.int x.2)

/-- Text marked up for the reader. -/
def IsMarkup (j : Json) (t : Bytes) : Prop := Has j "kind" (.str (text "markdown")) ∧ Has j "value" (.str t)

/-- The kinds of completion items in the numbering of the protocol: functions (3), files (17: macros), variables (6), references (18:
sequence symbols). -/
inductive IsKind : Int → Kind → Prop where
  | mach : IsKind 3 .machInstr
  | asm : IsKind 3 .asmInstr
  | ca : IsKind 3 .caInstr
  | macro : IsKind 17 .macro
  | var : IsKind 6 .varSym
  | seq : IsKind 18 .seqSym

/-- A completion item as the protocol writes it. -/
def IsItem (i : Item) (j : Json) : Prop :=
  Has j "label" (.str i.label) ∧ (∃ k, Has j "kind" (.int k) ∧ IsKind k i.kind) ∧ Has j "detail" (.str i.detail) ∧
  (∃ d, Has j "documentation" d ∧ IsMarkup d i.documentation) ∧ Has j "insertText" (.str i.insertText)

/-- What triggered a completion: the key for it, a character, or the wish to go on. -/
inductive Triggered : Json → UInt8 → Nat → Prop where
  | invoked {p c : Json} : Has p "context" c → Has c "triggerKind" (.int 1) → Triggered p 0 1
  | character {p c : Json} {x : UInt8} {l : Bytes} :
      Has p "context" c → Has c "triggerKind" (.int 2) → Has c "triggerCharacter" (.str (x :: l)) → Triggered p x 2
  | again {p c : Json} : Has p "context" c → Has c "triggerKind" (.int 3) → Triggered p 0 3

/-- A folder that was added. -/
def IsFolder (env : Env) (j : Json) (x : Bytes × Bytes) : Prop :=
  ∃ uri, Has j "name" (.str x.1) ∧ Has j "uri" (.str uri) ∧ env.toPath uri = some x.2

/-- Something with the URI of a path. -/
def IsAt (env : Env) (j : Json) (path : Bytes) : Prop := ∃ uri, Has j "uri" (.str uri) ∧ env.toPath uri = some path

/-- A value occurs within another. -/
inductive Within : Json → Json → Prop where
  | self {j : Json} : Within j j
  | elem {j x : Json} {l : List Json} : x ∈ l → Within j x → Within j (.arr l)
  | member {j x : Json} {k : Bytes} {m : List (Bytes × Json)} : (k, x) ∈ m → Within j x → Within j (.obj m)

/-- No numbers with a fraction (or beyond 64 bits). -/
def WholeNumbers (j : Json) : Prop := ∀ n, ¬ Within (.real n) j

/-- The names of the members of every object are different. -/
def Proper (j : Json) : Prop := ∀ m, Within (.obj m) j → (m.map (·.1)).Nodup

/-- The member is there, whatever it is. -/
def Is (j : Json) (k : String) : Prop := ∃ v, Has j k v

/-- The members of members are there. -/
def Is2 (j : Json) (k₁ k₂ : String) : Prop := ∃ v, Has j k₁ v ∧ Is v k₂

/-- A range has all its members. -/
def RangeThere (j : Json) : Prop := Is2 j "start" "line" ∧ Is2 j "start" "character" ∧ Is2 j "end" "line" ∧ Is2 j "end" "character"

/-- The names of the methods that ask about a position of a document. -/
def positionMethods : List String :=
  ["textDocument/definition", "textDocument/references", "textDocument/hover"]

/-- What has to be there in the parameters of a method for the server to be safe, whatever the values are. -/
inductive Enough : String → Json → Prop where
  | opens {p : Json} : Is p "textDocument" → Enough "textDocument/didOpen" p
  | changes {p : Json} {l : List Json} : Is p "textDocument" → Has p "contentChanges" (.arr l) → l ≠ [] →
      (∀ c ∈ l, ∀ r, Has c "range" r → RangeThere r) → Enough "textDocument/didChange" p
  | closes {p : Json} : Is2 p "textDocument" "uri" → Enough "textDocument/didClose" p
  | position {n : String} {p : Json} : n ∈ positionMethods → Is2 p "textDocument" "uri" → Is2 p "position" "line" →
      Is2 p "position" "character" → Enough n p
  | completion {p : Json} : Is2 p "textDocument" "uri" → Is2 p "position" "line" → Is2 p "position" "character" →
      Is2 p "context" "triggerKind" → Is2 p "context" "triggerCharacter" → Enough "textDocument/completion" p
  | tokens {p : Json} : Is2 p "textDocument" "uri" → Enough "textDocument/semanticTokens/full" p
  | folders {p e : Json} {a r : List Json} : Has p "event" e → Has e "added" (.arr a) → Has e "removed" (.arr r) →
      (∀ f ∈ a, Is f "name" ∧ Is f "uri") → Enough "workspace/didChangeWorkspaceFolders" p
  | watched {p : Json} : Is p "changes" → Enough "workspace/didChangeWatchedFiles" p
  | configuration {p : Json} : Enough "workspace/didChangeConfiguration" p
  | initialise {p : Json} {f : List Json} : Is p "capabilities" → Has p "workspaceFolders" (.arr f) →
      (∀ x ∈ f, Is x "name" ∧ Is x "uri") → Enough "initialize" p
  | shutdown {p : Json} : Enough "shutdown" p
  | exit {p : Json} : Enough "exit" p

/-- The methods of the server. -/
def methods : List String :=
  ["textDocument/didOpen", "textDocument/didChange", "textDocument/didClose", "textDocument/definition", "textDocument/references",
    "textDocument/hover", "textDocument/completion", "textDocument/semanticTokens/full", "workspace/didChangeWorkspaceFolders",
    "workspace/didChangeWatchedFiles", "workspace/didChangeConfiguration", "initialize", "shutdown", "exit"]

/-- An answer. -/
def Ev.isResponse : Ev → Bool
  | .respond _ _ => true
  | _ => false

/-- A request for the configuration has an id. -/
def Ev.configRequest : Ev → Option Bytes
  | .request id m => if m = text "workspace/configuration" then some id else none
  | _ => none

/-- All messages one after the other, with everything that is done. The treatment goes on after messages that went well. -/
def session (env : Env) (caps : Json) : State → List Json → List Ev
  | _, [] => []
  | s, m :: l =>
    let (o, s') := received env caps s m
    match o.fate with
    | .fine => o.evs ++ session env caps s' l
    | _ => o.evs

/-- The state after messages. -/
def after (env : Env) (caps : Json) : State → List Json → State
  | s, [] => s
  | s, m :: l => after env caps (received env caps s m).2 l

end Verif.Message
