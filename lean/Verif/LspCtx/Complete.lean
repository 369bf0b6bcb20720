import Verif.LspCtx.Text
import Verif.LspCtx.Occ
import Verif.LspCtx.Regex
/-!
Completion: what is offered at the cursor.

Modelled: `/repo/parser_library/src/lsp/lsp_context.cpp` 166-235 and 267-330 (`is_continued_line`, `should_complete_instr`,
`completion`, `complete_var`, `complete_seq`, `is_comment`, `get_macro_documentation`, `complete_instr`). Of the items of a list
only the labels are kept. Not modelled: `hover_text`, `get_macro_signature`, the texts of the built-in instructions, the recursion
depth of `std::regex`.
-/
namespace Verif.LspCtx

/-- What a call does with the result of another one. -/
def Res.bind {α β : Type} : Res α → (α → Res β) → Res β
  | .ok a, f => f a
  | .throws, _ => .throws
  | .ub, _ => .ub

/-- `isspace` in the "C" locale, and `\s` of `std::regex`. -/
def isSpace (c : UInt8) : Bool := c == 32 || (9 ≤ c && c ≤ 13)

/-- `is_continued_line` (`lsp_context.cpp` 166-171); `isspace` of a negative `char` is undefined. -/
def isContinuedLine (line : Bytes) : Res Bool :=
  match line[71]? with
  | none => .ok false
  | some c => if c < 128 then .ok (!isSpace c) else .ub

/-- `\S` (`lsp_context.cpp` 179). -/
def Re.solid : Re := .cls fun c => !isSpace c

/-- `\s` (`lsp_context.cpp` 179). -/
def Re.space : Re := .cls isSpace

/-- `[^*]` (`lsp_context.cpp` 179). -/
def Re.noStar : Re := .cls fun c => c != 42

/-- `^([^*][^*]\S*\s+\S+|\s+\S*)` (`lsp_context.cpp` 179). -/
def instructionRegex : Re :=
  .alt (.seq .noStar (.seq .noStar (.seq (.star .solid) (.seq (.plus .space) (.plus .solid)))))
    (.seq (.plus .space) (.star .solid))

/-- `should_complete_instr` (`lsp_context.cpp` 173-181). -/
def shouldCompleteInstr (t : TextRef) (pos : TextSync.Pos) : Res Bool :=
  (if pos.line > 0 then (t.getLine (pos.line - 1)).bind isContinuedLine else .ok false).bind fun continued =>
    (t.getLineBeginning pos).bind fun sofar => .ok (!continued && instructionRegex.test sofar)

/-- The lists completion chooses from. -/
inductive Offer where
  | variables | sequence | instructions | nothing
deriving DecidableEq, Repr

/-- The character completion looks at (`lsp_context.cpp` 193-194). -/
def lastChar (t : TextRef) (pos : TextSync.Pos) : Option UInt8 → Res UInt8
  | some c => .ok c
  | none => t.getCharacterBefore pos

/-- The choice of the list in `completion` (`lsp_context.cpp` 196-203). `trigger` is the character that asked for the completion,
`none` if the user did. -/
def offer (t : TextRef) (pos : TextSync.Pos) (trigger : Option UInt8) : Res Offer :=
  (lastChar t pos trigger).bind fun last =>
  if last = 38 then .ok .variables
  else if last = 46 then .ok .sequence
  else (shouldCompleteInstr t pos).bind fun b => .ok (if b then .instructions else .nothing)

/-- `is_comment` (`lsp_context.cpp` 267). -/
def isComment (line : Bytes) : Bool := line.take 1 == [42] || line.take 2 == [46, 42]

/-- The loop over the lines above the macro (`lsp_context.cpp` 282-285): the argument is the line behind the one looked at, the
result the line the comment begins at. -/
def commentStart (t : TextRef) : Nat → Res Nat
  | 0 => .ok 0
  | k + 1 => (t.getLine k).bind fun line => if isComment line then commentStart t k else .ok (k + 1)

/-- The loop over the continued lines (`lsp_context.cpp` 290-293) with the increment behind it; `fuel` is the number of lines
left. -/
def prototypeEnd (t : TextRef) (line : Nat) : Nat → Res Nat
  | 0 => .ok (line + 1)
  | fuel + 1 => ((t.getLine line).bind isContinuedLine).bind fun b =>
    if b then prototypeEnd t (line + 1) fuel else .ok (line + 1)

/-- The loop over the comments below the prototype (`lsp_context.cpp` 301-302). -/
def commentEnd (t : TextRef) (line : Nat) : Nat → Res Nat
  | 0 => .ok line
  | fuel + 1 => (t.getLine line).bind fun l => if isComment l then commentEnd t (line + 1) fuel else .ok line

/-- The lines from one up to another. -/
def TextRef.lineRange (t : TextRef) (first last : Nat) : Res Bytes := t.getRangeContent ⟨⟨first, 0⟩, ⟨last, 0⟩⟩

/-- The comment above the macro (`lsp_context.cpp` 278-287). With a name on line 0 the line numbers wrap around, no line is found
and the range lies behind the text. -/
def docBefore (t : TextRef) (line : Nat) : Res Bytes :=
  match line with
  | 0 => .ok []
  | k + 1 => (commentStart t k).bind fun b => t.lineRange b k

/-- ```` ```\n ```` -/
def fence : Bytes := [96, 96, 96, 10]

/-- `get_macro_documentation` (`lsp_context.cpp` 270-313), the file being present; `line` is the line of the name of the macro. -/
def macroDocumentation (t : TextRef) (line : Nat) : Res Bytes :=
  (docBefore t line).bind fun before =>
  (prototypeEnd t line (t.numberOfLines - line)).bind fun e =>
  (t.lineRange line e).bind fun proto =>
  (commentEnd t e (t.numberOfLines - e)).bind fun a =>
  (t.lineRange e a).bind fun after => .ok (fence ++ proto ++ before ++ after ++ 10 :: fence)

/-- A macro as completion looks at it: `macro_info` (`macro_info.h` 100-122) with the parts of its `macro_definition`. -/
structure MacroSrc where
  id : Nat
  name : Bytes
  file : String
  line : Nat
  vars : List Bytes
  seqs : List Bytes
deriving Repr

/-- What completion reads: the texts of the files, the scopes (`Ctx`), the macros, the variables and sequence symbols of open code
and the labels of the built-in instructions. -/
structure Env where
  texts : List (String × Bytes)
  ctx : Ctx
  macros : List MacroSrc
  openVars : List Bytes
  openSeqs : List Bytes
  builtin : List Bytes

/-- `files_.find` with the text of the file. -/
def Env.text (e : Env) (file : String) : Option TextRef := (e.texts.find? (·.1 == file)).map fun f => .of f.2

/-- The macro the cursor is in (`lsp_context.cpp` 208, 224; `find_scope` is `Ctx.scope`). -/
def Env.inside (e : Env) (file : String) (pos : TextSync.Pos) : Option MacroSrc :=
  (e.ctx.scope file ⟨pos.line, pos.column⟩).bind fun m => e.macros.find? (·.id == m)

/-- `get_macro_documentation` with the look-up of its file (`lsp_context.cpp` 270-276). -/
def Env.documentation (e : Env) (m : MacroSrc) : Res Bytes :=
  match e.text m.file with
  | none => .ok []
  | some t => macroDocumentation t m.line

/-- The loop of `complete_instr` (`lsp_context.cpp` 319-327): the items are built one by one, with their documentation. -/
def Env.macroItems (e : Env) : List MacroSrc → Res (List (Bytes × Bytes))
  | [] => .ok []
  | m :: ms => (e.documentation m).bind fun d => (e.macroItems ms).bind fun r => .ok ((m.name, d) :: r)

/-- `completion` (`lsp_context.cpp` 183-235, 315-330): the labels of the items. -/
def Env.completion (e : Env) (file : String) (pos : TextSync.Pos) (trigger : Option UInt8) : Res (List Bytes) :=
  match e.text file with
  | none => .ok []
  | some t => (offer t pos trigger).bind fun
    | .variables => .ok (((e.inside file pos).elim e.openVars (·.vars)).map (38 :: ·))
    | .sequence => .ok (((e.inside file pos).elim e.openSeqs (·.seqs)).map (46 :: ·))
    | .instructions => (e.macroItems e.macros).bind fun items => .ok (e.builtin ++ items.map (·.1))
    | .nothing => .ok []

end Verif.LspCtx
