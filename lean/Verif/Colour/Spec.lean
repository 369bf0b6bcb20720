import Verif.Colour.Model

/-!
What users expect of the colours: each piece of text has the colour of what the server says it is, in every editor that shows
the document, and nothing else is coloured.
-/
namespace Verif.Colour
open Verif.Lsp (Token Enc)

/-- What is seen in an editor: ranges with colours. -/
def State.Seen (s : State) (e : Editor) (r : Range) (c : String) : Prop :=
  ∃ h, r ∈ s.screen e h ∧ s.colours h = c

/-- A token as the editor gets it: where it is, and the colour that goes with its kind. -/
structure Piece where
  range : Range
  kind : Nat
deriving DecidableEq, Repr

/-- The pieces an array of numbers stands for (LSP specification, `textDocument/semanticTokens/full`): groups of five, line and
column relative to the start of the piece before, the column only if it is on the same line. -/
def pieces (line col : Nat) : List Nat → List Piece
  | dLine :: dStart :: length :: type :: _ :: rest =>
    if dLine = 0 then ⟨⟨line, col + dStart, col + dStart + length⟩, type⟩ :: pieces line (col + dStart) rest
    else ⟨⟨line + dLine, dStart, dStart + length⟩, type⟩ :: pieces (line + dLine) dStart rest
  | _ => []

/-- The colour of a kind of text, given the legend. -/
def kindColour (leg : List String) (kind : Nat) : String :=
  match leg[kind]? with
  | some name => "hlasm." ++ name
  | none => "hlasm.undefined"

/-- The colour for each kind of text, as described in the settings (package.json:74-183) for the kinds of protocol.h:45-64. -/
def meant : List (String × String) :=
  [("label", "hlasm.class"), ("instruction", "hlasm.function"), ("remark", "hlasm.comment"), ("ignored", "hlasm.event"),
   ("comment", "hlasm.comment"), ("continuation", "hlasm.modifier"), ("seq_symbol", "hlasm.keyword"),
   ("var_symbol", "hlasm.variable"), ("operator_symbol", "hlasm.operator"), ("string", "hlasm.string"),
   ("number", "hlasm.number"), ("operand", "hlasm.parameter"), ("data_def_type", "hlasm.regexp"),
   ("data_def_modifier", "hlasm.modifier"), ("data_attr_type", "hlasm.modifier"), ("self_def_type", "hlasm.regexp"),
   ("ordinary_symbol", "hlasm.parameter")]

/-- The colours that can be chosen in the settings (package.json:74-183). -/
def declared : List String :=
  ["hlasm.function", "hlasm.comment", "hlasm.event", "hlasm.modifier", "hlasm.regexp", "hlasm.variable", "hlasm.string",
   "hlasm.number", "hlasm.keyword", "hlasm.class", "hlasm.operator", "hlasm.parameter"]

/-- The last answer for document `d` since it was opened (or got its language). -/
def lastAnswer (d : Doc) : Option (List Nat) → List Op → Option (List Nat)
  | a, [] => a
  | a, .answer x data :: ops => lastAnswer d (if x = d then some data else a) ops
  | a, .close x :: ops => lastAnswer d (if x = d then none else a) ops
  | a, .language x _ :: ops => lastAnswer d (if x = d then none else a) ops
  | a, .visible _ :: ops => lastAnswer d a ops

/-- The histories for which the colours are right: answers are not empty, a document is closed and its language changed only
while no editor shows it. -/
def Fine (leg : List String) (s : State) : List Op → Prop
  | [] => True
  | op :: ops =>
    (match op with
      | .answer _ data => data ≠ []
      | .visible _ => True
      | .close d => ∀ e ∈ s.visible, s.shows e ≠ d
      | .language d _ => ∀ e ∈ s.visible, s.shows e ≠ d) ∧ Fine leg (s.step leg op) ops

/-- Nothing is open yet. -/
structure State.Start (s : State) : Prop where
  docs : ∀ d, s.docs d = none
  screen : ∀ e h, s.screen e h = []

end Verif.Colour
