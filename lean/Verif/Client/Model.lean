import Mathlib.Data.List.Basic

/-!
# The editing commands of the VS Code extension

`clients/vscode-hlasmplugin/src/customEditorCommands.ts` and `continuationHandler.ts`. A text is a list of lines; a character is a UTF-16
code unit. Line ends are one character here: inserted text may contain it, and the editor turns the line ends of inserted text into those
of the document. There is one selection (the commands look at `editor.selection` only).
-/

namespace Verif.Client

/-- A line or a piece of text. -/
abbrev Text := List Char

/-- A document: its lines without their ends. -/
abbrev Doc := List Text

/-- `vscode.Position`. -/
structure Pos where
  line : Nat
  char : Nat
  deriving DecidableEq, Repr

/-- `vscode.Selection`. -/
structure Sel where
  anchor : Pos
  active : Pos
  deriving DecidableEq, Repr

/-- An edit collected by `TextEditorEdit`: `delete` has no text, `insert` an empty range. The positions are those of the document before
all edits. -/
structure Edit where
  start : Pos
  stop : Pos
  text : Text
  deriving DecidableEq, Repr

/-- What a command does: it throws, or it collects edits. -/
abbrev Command := Option (List Edit)

/-- `new vscode.Range(a, b)`: the earlier position first. -/
def deleteRange (a b : Pos) : Edit :=
  if a.line < b.line ∨ (a.line = b.line ∧ a.char ≤ b.char) then ⟨a, b, []⟩ else ⟨b, a, []⟩

def insertAt (p : Pos) (t : Text) : Edit := ⟨p, p, t⟩

/-- `new vscode.Position(line, character)`: a negative character throws. -/
def mkPos (line : Nat) (char : Int) : Option Pos := if char < 0 then none else some ⟨line, char.toNat⟩

/-- `" ".repeat(n)`: a negative number throws. -/
def blanks? (n : Int) : Option Text := if n < 0 then none else some (List.replicate n.toNat ' ')

/-- `document.lineAt(line).text`; asked for lines that are there only. -/
def Doc.line (d : Doc) (n : Nat) : Text := d.getD n []

/-- `isLineContinued` (customEditorCommands.ts 193-200), for a line and an offset that are not negative. `validatePosition` returns the
position itself if it is in the document, so the comparison of the objects asks for `offset ≤ length`. -/
def isContinued (d : Doc) (line offset : Nat) : Bool :=
  line < d.length && offset ≤ (d.line line).length && offset < (d.line line).length && (d.line line)[offset]? != some ' '

/-- `editor.selection.isSingleLine`. -/
def Sel.single (s : Sel) : Bool := s.anchor.line == s.active.line

/-- The size of the selection (129-132), with the value for an empty one. -/
def Sel.size (s : Sel) (empty : Int) : Int :=
  if (s.active.char : Int) - s.anchor.char ≠ 0 then (s.active.char : Int) - s.anchor.char else empty

/-- The part of `removeLeft` that looks for the continuation (141-162): the blanks to insert and the position before the cursor. -/
def removeLeftCursor (d : Doc) (s : Sel) (offset : Nat) : Option (List Edit × Pos) := do
  let size := s.size 1
  let cursor ← mkPos s.active.line (s.active.char - (if size > 0 ∧ s.active.char > 0 then size else 0))
  let endPos := max s.active.char s.anchor.char
  if isContinued d s.active.line offset && decide (endPos < offset) && (decide (s.active.char > 0) || decide (size > 0)) && s.single then
    let _ ← mkPos s.active.line ((offset : Int) - size.natAbs)
    let bl ← blanks? size.natAbs
    some ([insertAt ⟨s.active.line, offset⟩ bl], cursor)
  else if s.active.char = 0 ∧ s.active.line > 0 then
    some ([], ⟨s.active.line - 1, (d.line (s.active.line - 1)).length⟩)
  else some ([], cursor)

/-- `removeLeft` (127-171). -/
def removeLeft (d : Doc) (s : Sel) (offset : Nat) : Command := do
  let (es, cursor) ← removeLeftCursor d s offset
  some (es ++ [deleteRange s.active (if s.anchor = s.active then cursor else s.anchor)])

/-- `deleteLeft` (43-48), without the cursor. -/
def deleteLeft (d : Doc) (s : Sel) (offset : Nat) : Command := removeLeft d s offset

/-- `cut` (27-36), without the cursor. -/
def cut (d : Doc) (s : Sel) (offset : Nat) : Command := if s.active = s.anchor then some [] else removeLeft d s offset

/-- The part of `deleteRight` that looks for the continuation (66-77). -/
def deleteRightBlanks (d : Doc) (s : Sel) (offset : Nat) : Command :=
  if isContinued d s.active.line offset && decide (s.active.char < offset) && s.single then do
    let _ ← mkPos s.active.line ((offset : Int) - (s.size (-1)).natAbs)
    let bl ← blanks? (s.size (-1)).natAbs
    some [insertAt ⟨s.active.line, offset⟩ bl]
  else some []

/-- The position behind the cursor (61-64, 79-81). -/
def deleteRightCursor (d : Doc) (s : Sel) : Option Pos :=
  if (d.line s.active.line).drop s.active.char = [] then some ⟨s.active.line + 1, 0⟩
  else mkPos s.active.line (s.active.char - (if s.size (-1) ≥ -1 then s.size (-1) else 0))

/-- `deleteRight` (55-89). The position computed at 62 cannot throw. -/
def deleteRight (d : Doc) (s : Sel) (offset : Nat) : Command := do
  let es ← deleteRightBlanks d s offset
  let cursor ← deleteRightCursor d s
  some (es ++ [deleteRange s.active (if s.anchor = s.active then cursor else s.anchor)])

/-- The loop of `findSpace` (175-182): the position and the number of characters still without a blank. -/
def findLoop (line : Text) (active : Nat) : Nat → Nat → Nat × Nat
  | pos, 0 => (pos, 0)
  | pos, len + 1 =>
    if line[pos]? = some ' ' ∧ active < pos then findLoop line active (pos - 1) len else (pos, len + 1)
  termination_by _ len => len

/-- `findSpace` (174-186), for an offset of 1 or more. -/
def findSpace (line : Text) (n : Nat) (length active offset : Nat) : Option Edit :=
  let (pos, len) := findLoop line active (offset - 1) length
  if len > 0 then none else some (deleteRange ⟨n, pos⟩ ⟨n, offset - 1⟩)

/-- Where the typed text goes when something is selected (103-112). -/
def Sel.first (s : Sel) : Pos :=
  if s.anchor.line > s.active.line then s.active
  else if s.anchor.line < s.active.line then s.anchor
  else if s.anchor.char < s.active.char then s.anchor
  else s.active

/-- `insertChars` (97-125): typing and pasting. -/
def insertChars (d : Doc) (s : Sel) (t : Text) (offset : Nat) : Command := do
  let es ← if s.active ≠ s.anchor then (removeLeft d s offset).map (· ++ [insertAt s.first t]) else some [insertAt s.active t]
  let sp := if offset ≠ 0 ∧ s.active.char < offset then
      (findSpace (d.line s.active.line) s.active.line t.length s.active.char offset).toList else []
  some (es ++ sp)

/-! ## continuationHandler.ts -/

/-- `insertContinuation` (27-55); `eol` is the end of a line. -/
def insertContinuation (eol : Char) (d : Doc) (s : Sel) (offset column : Nat) : Command :=
  let n := s.active.line
  if isContinued d n offset = false then do
    let pad ← if s.active.char < offset then
        (blanks? ((offset : Int) - (d.line n).length)).map fun b => [insertAt ⟨n, (d.line n).length⟩ b]
      else some []
    some (pad ++ [deleteRange ⟨n, offset⟩ ⟨n, offset + 1⟩, insertAt ⟨n, offset⟩ ('X' :: eol :: List.replicate column ' ')])
  else some [insertAt ⟨n, (d.line n).length⟩ (eol :: (List.replicate offset ' ' ++ ['X']))]

/-- `removeContinuation` (58-72), without the cursor. `isLineContinued` is false for the line -1. -/
def removeContinuation (d : Doc) (s : Sel) (offset : Nat) : Command :=
  let n := s.active.line
  let this := isContinued d n offset
  if n > 0 ∧ isContinued d (n - 1) offset then
    some [deleteRange ⟨n, (d.line n).length⟩ ⟨n - 1, offset + (if this then 1 else 0)⟩]
  else some []

end Verif.Client
