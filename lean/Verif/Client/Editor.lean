import Verif.Client.Model

/-!
# What the editor does with the edits of a command

This is no code of the extension: it is the documented behaviour of `vscode.TextEditorEdit` and is assumed. All edits refer to the
document as it was. Positions outside are moved into the document (`validateRange`). Edits that overlap are refused as a whole. Texts
inserted at the same place come in the order of the calls.
-/

namespace Verif.Client

/-- The document as one text; `eol` is the end of a line. -/
def flat (eol : Char) : Doc → Text
  | [] => []
  | [l] => l
  | l :: r => l ++ eol :: flat eol r

/-- The place of a position in the text. A character behind the end of the line is moved to the end of the line; a line behind the last
one to the end of the document. -/
def place : Doc → Nat → Nat → Nat
  | [], _, _ => 0
  | [l], 0, c => min c l.length
  | [l], _ + 1, _ => l.length
  | l :: _ :: _, 0, c => min c l.length
  | l :: m :: r, n + 1, c => l.length + 1 + place (m :: r) n c

/-- An edit with places instead of positions. -/
structure Change where
  start : Nat
  stop : Nat
  text : Text
  deriving DecidableEq, Repr

def Edit.change (d : Doc) (e : Edit) : Change := ⟨place d e.start.line e.start.char, place d e.stop.line e.stop.char, e.text⟩

/-- One character is in both ranges, or one is inside the other. -/
def Change.overlaps (a b : Change) : Bool := decide (a.start < b.stop) && decide (b.start < a.stop)

def overlapping : List Change → Bool
  | [] => false
  | c :: r => r.any c.overlaps || overlapping r

/-- The texts put at a place. -/
def putAt (cs : List Change) (k : Nat) : Text := (cs.filter (·.start = k)).flatMap (·.text)

/-- The character at the place is in a range that is replaced. -/
def removed (cs : List Change) (k : Nat) : Bool := cs.any fun c => decide (c.start ≤ k) && decide (k < c.stop)

/-- The text after the changes, from the place `k` on. -/
def apply (cs : List Change) : Nat → Text → Text
  | k, [] => putAt cs k
  | k, c :: r => putAt cs k ++ ((if removed cs k then [] else [c]) ++ apply cs (k + 1) r)

/-- The text after a command: none if it throws or the editor refuses the edits. -/
def run (eol : Char) (d : Doc) (c : Command) : Option Text :=
  match c with
  | none => none
  | some es =>
    let cs := es.map (Edit.change d)
    if overlapping cs then none else some (apply cs 0 (flat eol d))

end Verif.Client
