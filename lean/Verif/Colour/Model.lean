import Verif.Lsp.Model

/-!
Model of how the editor colours a text (C126): `/repo/clients/vscode-hlasmplugin/src/semanticTokens.ts`, the events of
`eventsHandler.ts` that reach it and the names of the colours (`language_server/src/lsp/feature_language_features.cpp`,
`package.json`). Not modelled: the delay of 0.1 s before tokens are asked for, how the editor moves decorations while the user
types (until the next answer), numbers from 2^53 on, an array that is not made of groups of five (the server sends such groups).
-/
namespace Verif.Colour
open Verif.Lsp (Token Enc encode)

/-- Documents (`uri`) and editors; only equality matters. An editor shows one document as long as it exists. -/
abbrev Doc := Nat
abbrev Editor := Nat
/-- A range on one line: line, first column, column after the last one. -/
structure Range where
  line : Nat
  start : Nat
  stop : Nat
deriving DecidableEq, Repr

/-- `DecorationTypeInfo` (semanticTokens.ts:19); decoration types are numbered in the order of their creation. -/
structure Deco where
  ranges : List Range
  handle : Nat
deriving DecidableEq, Repr

/-- A name of the legend; `none` is JavaScript's `undefined`, what an index outside the legend gives. -/
abbrev Scope := Option String

/-- `new vscode.ThemeColor('hlasm.' + scope)` (semanticTokens.ts:107, 116). -/
def colourName : Scope → String
  | some s => "hlasm." ++ s
  | none => "hlasm.undefined"

/-- The legend the server sends (feature_language_features.cpp:50-71). -/
def legend : List String :=
  ["class", "function", "comment", "event", "comment", "modifier", "keyword", "variable", "operator", "string", "number",
   "parameter", "regexp", "modifier", "modifier", "regexp", "parameter"]

/-- `ScopesMap` (semanticTokens.ts:20) in the order of insertion. -/
abbrev Scopes := List (Scope × Deco)

/-- The feature (`definedEditors`, semanticTokens.ts:31) and the editor it works on: which decorations each editor draws, the
decoration types made so far with their colours, the visible editors, what they show and which documents are HLASM. -/
structure State where
  docs : Doc → Option Scopes := fun _ => none
  screen : Editor → Nat → List Range := fun _ _ => []
  colours : Nat → String := fun _ => ""
  next : Nat := 0
  visible : List Editor := []
  shows : Editor → Doc
  hlasm : Doc → Bool

/-- `vscode.window.createTextEditorDecorationType`: a new one each time. -/
def State.create (s : State) (sc : Scope) : State × Nat :=
  ({ s with next := s.next + 1, colours := fun h => if h = s.next then colourName sc else s.colours h }, s.next)

/-- `TextEditorDecorationType.dispose`: its decorations disappear from all editors. -/
def State.dispose (s : State) (h : Nat) : State :=
  { s with screen := fun e k => if k = h then [] else s.screen e k }

/-- `TextEditor.setDecorations`: the ranges replace those set before with the same decoration type. -/
def State.set (s : State) (e : Editor) (h : Nat) (rs : List Range) : State :=
  { s with screen := fun e' k => if e' = e ∧ k = h then rs else s.screen e' k }

/-- "reset current decors" (semanticTokens.ts:102-109). -/
def State.reset (s : State) : Scopes → State × Scopes
  | [] => (s, [])
  | (sc, d) :: r =>
    let (s1, h) := (s.dispose d.handle).create sc
    let (s2, r2) := s1.reset r
    (s2, (sc, ⟨[], h⟩) :: r2)

/-- `decors.get(scope)[0].push(range)`. -/
def push (sc : Scope) (r : Range) : Scopes → Scopes
  | [] => []
  | (k, d) :: rest => if k = sc then (k, { d with ranges := d.ranges ++ [r] }) :: rest else (k, d) :: push sc r rest

/-- The loop over the numbers (semanticTokens.ts:111-127); `line` and `char` are those of `previousRange.start`. -/
def State.loop (s : State) (leg : List String) (m : Scopes) (line char : Nat) : List Nat → State × Scopes
  | dl :: dc :: len :: ty :: _ :: rest =>
    let sc : Scope := leg[ty]?
    let (s1, m1) :=
      if m.any (·.1 = sc) then (s, m)
      else
        let (s', h) := s.create sc
        (s', m ++ [(sc, ⟨[], h⟩)])
    let l := dl + line
    let c := if dl = 0 then dc + char else dc
    s1.loop leg (push sc ⟨l, c, c + len⟩ m1) l c rest
  | _ => (s, m)

/-- `decors.forEach(… editor.setDecorations(value[1], value[0]))` (semanticTokens.ts:143-147). -/
def State.draw (s : State) (e : Editor) : Scopes → State
  | [] => s
  | (_, d) :: r => (s.set e d.handle d.ranges).draw e r

/-- One editor of `colorize` (semanticTokens.ts:136-149). -/
def State.paint (s : State) (e : Editor) : State :=
  if s.hlasm (s.shows e) then
    match s.docs (s.shows e) with
    | some m => s.draw e m
    | none => s
  else s

/-- `colorize` (semanticTokens.ts:134-150). -/
def State.colorize (s : State) : State := s.visible.foldl State.paint s

/-- `applyDecorations` (semanticTokens.ts:92-132). -/
def State.apply (s : State) (leg : List String) (d : Doc) (data : List Nat) : State :=
  let (s1, m1) := s.reset ((s.docs d).getD [])
  let (s2, m2) := s1.loop leg m1 0 0 data
  { s2 with docs := fun x => if x = d then some m2 else s2.docs x }.colorize

/-- What happens. -/
inductive Op
  /-- The server answers the question for the tokens of `d` (semanticTokens.ts:82-90). -/
  | answer (d : Doc) (data : List Nat)
  /-- Other editors become visible. -/
  | visible (es : List Editor)
  /-- The document is closed. -/
  | close (d : Doc)
  /-- The language of the document is changed; VS Code reports it as closed and opened. -/
  | language (d : Doc) (hlasm : Bool)
deriving DecidableEq, Repr

/-- The event handlers: `if (result.data.length > 0)` (semanticTokens.ts:86-87), `onDidChangeVisibleTextEditors`
(eventsHandler.ts:91-99; an editor that is no longer visible is gone, one that becomes visible has no decorations),
`onDidCloseTextDocument` (semanticTokens.ts:38-43). -/
def State.step (leg : List String) (s : State) : Op → State
  | .answer d data => if data.isEmpty then s else s.apply leg d data
  | .visible es =>
    let s1 := { s with visible := es, screen := fun e h => if e ∈ s.visible ∧ e ∈ es then s.screen e h else [] }
    if es.any fun e => s.hlasm (s.shows e) then s1.colorize else s1
  | .close d => { s with docs := fun x => if x = d then none else s.docs x }
  | .language d b =>
    { s with docs := fun x => if x = d then none else s.docs x, hlasm := fun x => if x = d then b else s.hlasm x }

def State.run (leg : List String) (s : State) : List Op → State
  | [] => s
  | a :: as => (s.step leg a).run leg as

/-- The array the server sends (feature_language_features.cpp:221-231). -/
def flat : List Enc → List Nat
  | [] => []
  | e :: es => e.dLine :: e.dChar :: e.len :: e.scope :: e.mods :: flat es

end Verif.Colour
