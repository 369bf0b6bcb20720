import Verif.TextSync.Model
/-!
The text of a document as the language features read it.

Modelled: `/repo/parser_library/src/lsp/text_data_ref_t.cpp` (all of it), on top of the line index and the position
translation of `file_impl` (`Verif.TextSync.Model`).
-/
namespace Verif.LspCtx

open TextSync (createLineIndices indexFromPosition Pos Range)

/-- What a call ends in: a value, a C++ exception (`std::out_of_range`, or the exception of `index_from_position`), or a
`std::string_view` whose length is the wrapped difference of two indices, which no caller can use without undefined
behaviour. -/
inductive Res (α : Type) where
  | ok (a : α)
  | throws
  | ub
deriving DecidableEq, Repr

/-- `text_data_ref_t` (`text_data_ref_t.h` 25-28). -/
structure TextRef where
  text : Bytes := []
  lines : List Nat := []
deriving DecidableEq, Repr

/-- The constructor (`text_data_ref_t.cpp` 21-24). -/
def TextRef.of (text : Bytes) : TextRef := ⟨text, createLineIndices text⟩

/-- `std::string_view { &text->at(first), len }`: `at` throws if `first` is not the index of a character; `last` is the index
the length was computed from. -/
def TextRef.view (t : TextRef) (first last : Nat) : Res Bytes :=
  if first < t.text.length then
    if first ≤ last ∧ last ≤ t.text.length then .ok ((t.text.take last).drop first) else .ub
  else .throws

/-- `get_line` (`text_data_ref_t.cpp` 26-33). -/
def TextRef.getLine (t : TextRef) (line : Nat) : Res Bytes :=
  match t.lines[line]? with
  | none => .ok []
  | some s => t.view s (t.lines[line + 1]?.getD t.text.length)

/-- `get_line_beginning` (`text_data_ref_t.cpp` 35-42). -/
def TextRef.getLineBeginning (t : TextRef) (pos : Pos) : Res Bytes :=
  match t.lines[pos.line]? with
  | none => .ok []
  | some s =>
    match indexFromPosition t.text t.lines pos with
    | none => .throws
    | some e => t.view s e

/-- `get_character_before` (`text_data_ref_t.cpp` 46-52). -/
def TextRef.getCharacterBefore (t : TextRef) (pos : Pos) : Res UInt8 :=
  if pos.column = 0 then .ok 0
  else match indexFromPosition t.text t.lines ⟨pos.line, pos.column - 1⟩ with
    | none => .throws
    | some i => match t.text[i]? with
      | none => .throws
      | some c => .ok c

/-- `get_range_content` (`text_data_ref_t.cpp` 54-61). -/
def TextRef.getRangeContent (t : TextRef) (r : Range) : Res Bytes :=
  match indexFromPosition t.text t.lines r.start, indexFromPosition t.text t.lines r.fin with
  | some s, some e => if s ≥ t.text.length then .ok [] else t.view s e
  | _, _ => .throws

/-- `get_number_of_lines` (`text_data_ref_t.cpp` 63). -/
def TextRef.numberOfLines (t : TextRef) : Nat := t.lines.length

end Verif.LspCtx
