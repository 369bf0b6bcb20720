import Verif.DapMsg.Model
import Verif.Message.Spec
/-!
What the debug adapter protocol says about messages.
-/
namespace Verif.DapMsg

open Message (Json text Has Lacks Is)

/-- A request. -/
structure Request (m : Json) (cmd : String) (seq : Json) : Prop where
  type : Has m "type" (.str (text "request"))
  command : Has m "command" (.str (text cmd))
  seq : Has m "seq" seq

/-- An answer to a request: a success, under its own number, with a body. -/
structure IsResponse (n : Nat) (seq : Json) (cmd : Bytes) (body j : Json) : Prop where
  own : Has j "seq" (.int n)
  type : Has j "type" (.str (text "response"))
  request : Has j "request_seq" seq
  success : Has j "success" (.bool true)
  command : Has j "command" (.str cmd)
  body : Has j "body" body

/-- An event. -/
structure IsEvent (n : Nat) (ev : String) (body j : Json) : Prop where
  own : Has j "seq" (.int n)
  type : Has j "type" (.str (text "event"))
  event : Has j "event" (.str (text ev))
  body : Has j "body" body

/-- The number behind one of 64 bits. -/
def after (n : Nat) : Nat := (n + 1) % 2 ^ 64

/-- What a path of the client stands for, in the format agreed on. -/
inductive Converts (env : Env) (s : St) : Bytes → Bytes → Prop where
  | uri {p q : Bytes} : s.uri = true → env.ofUri p = some q → Converts env s p q
  | path (p : Bytes) : s.uri = false → Converts env s p (env.absolute p)

/-- The breakpoints asked for; lines of the client begin at `base`. -/
inductive Breakpoints (base : Nat) (a : Json) : List Nat → Prop where
  | none : Lacks a "breakpoints" → Breakpoints base a []
  | list {l : List Json} {ns : List Nat} : Has a "breakpoints" (.arr l) →
      List.Forall₂ (fun j n => Has j "line" (.int (n + base : Nat)) ∧ n + base < 2 ^ 64) l ns → Breakpoints base a ns

/-- A file. -/
def IsSource (j : Json) (p : Bytes) : Prop := Has j "path" (.str p)

/-- A frame as the client sees it: its lines and columns begin at `s.lines` and `s.columns`. -/
structure IsFrame (s : St) (f : Frame) (j : Json) : Prop where
  id : Has j "id" (.int f.id)
  name : Has j "name" (.str f.name)
  source : ∃ x, Has j "source" x ∧ IsSource x f.path
  line : f.start.1 + s.lines < 2 ^ 64 → Has j "line" (.int (f.start.1 + s.lines : Nat))
  column : f.start.2 + s.columns < 2 ^ 64 → Has j "column" (.int (f.start.2 + s.columns : Nat))
  endLine : f.stop.1 + s.lines < 2 ^ 64 → Has j "endLine" (.int (f.stop.1 + s.lines : Nat))
  endColumn : f.stop.2 + s.columns < 2 ^ 64 → Has j "endColumn" (.int (f.stop.2 + s.columns : Nat))

/-- A scope. -/
structure IsScope (c : Scope) (j : Json) : Prop where
  name : Has j "name" (.str c.name)
  ref : Has j "variablesReference" (.int c.ref)
  /-- The editor may show the variables at once. -/
  cheap : Has j "expensive" (.bool false)
  source : ∃ x, Has j "source" x ∧ IsSource x c.path

/-- The names of types. -/
inductive TypeName : Ty → String → Prop where
  | a : TypeName .a "A_TYPE"
  | b : TypeName .b "B_TYPE"
  | c : TypeName .c "C_TYPE"

/-- A variable; its type is named if it is known. -/
structure IsVar (v : Var) (j : Json) : Prop where
  name : Has j "name" (.str v.name)
  value : Has j "value" (.str v.value)
  ref : Has j "variablesReference" (.int v.ref)
  type : ∀ n, TypeName v.type n → Has j "type" (.str (text n))
  untyped : v.type = .undef → Lacks j "type"

/-- The messages among the effects. -/
def replies : List Ev → List Json
  | [] => []
  | .reply j :: l => j :: replies l
  | _ :: l => replies l

/-- The members the adapter needs are there: more than the protocol demands of `initialize`. -/
structure Complete (cmd : Bytes) (a : Json) : Prop where
  initialise : cmd = text "initialize" → Is a "linesStartAt1" ∧ Is a "columnsStartAt1" ∧ Is a "pathFormat"
  launch : cmd = text "launch" → Is a "program" ∧ Is a "stopOnEntry"
  breakpoints : cmd = text "setBreakpoints" → (∃ v, Has a "source" v ∧ Is v "path") ∧ ∀ b, Has a "breakpoints" b → ∀ x ∈ b.items, Is x "line"
  scopes : cmd = text "scopes" → Is a "frameId"
  vars : cmd = text "variables" → Is a "variablesReference"

end Verif.DapMsg
