import Verif.Basic
/-!
Model of the part of the editor extension that decides which files are HLASM (C124):
`/repo/clients/vscode-hlasmplugin/src/hlasmLanguageDetection.ts`, `configurationsHandler.ts` and the handlers of
`eventsHandler.ts` that call them.

Texts are lists of UTF-16 code units (the strings of JavaScript). Regular expressions are modelled by their languages: none
of those used has groups that are read, back references or look-around, so `RegExp.prototype.test` says whether a match
exists. Paths are POSIX paths. Not modelled: documents without a file, workspaces of several folders (the code only looks at
the first one), the texts of the prompts, and the two template files (their creation is a change of the disk).
-/
namespace Verif.Detect

/-- A string of JavaScript: UTF-16 code units. -/
abbrev Text := List Nat

/-! ### Regular expressions -/

/-- A regular expression of JavaScript, without the features that are not used. `cls p` is a character class. -/
inductive Re
  | none
  | eps
  | cls (p : Nat → Bool)
  | cat (a b : Re)
  | alt (a b : Re)
  | star (a : Re)

/-- Whether the empty text matches. -/
def Re.nullable : Re → Bool
  | .none => false
  | .eps => true
  | .cls _ => false
  | .cat a b => a.nullable && b.nullable
  | .alt a b => a.nullable || b.nullable
  | .star _ => true

/-- What has to follow the character `c`. -/
def Re.deriv (c : Nat) : Re → Re
  | .none => .none
  | .eps => .none
  | .cls p => if p c then .eps else .none
  | .cat a b => if a.nullable then .alt (.cat (a.deriv c) b) (b.deriv c) else .cat (a.deriv c) b
  | .alt a b => .alt (a.deriv c) (b.deriv c)
  | .star a => .cat (a.deriv c) (.star a)

/-- `test` of an expression `^...$`. -/
def Re.testAll : Re → Text → Bool
  | r, [] => r.nullable
  | r, c :: t => (r.deriv c).testAll t

/-- `test` of an expression `^...`: some prefix matches. -/
def Re.testStart : Re → Text → Bool
  | r, [] => r.nullable
  | r, c :: t => r.nullable || (r.deriv c).testStart t

/-- A literal character. -/
def Re.lit (c : Nat) : Re := .cls (· == c)

/-- A sequence of literal characters. -/
def Re.word : Text → Re
  | [] => .eps
  | c :: t => .cat (.lit c) (.word t)

/-- `(x|y|...)` -/
def Re.any : List Re → Re
  | [] => .none
  | r :: rs => .alt r (.any rs)

/-- `x+` -/
def Re.plus (r : Re) : Re := .cat r (.star r)

/-- Line terminators of JavaScript: LF, CR, LS, PS. -/
def lineEnd (c : Nat) : Bool := c == 10 || c == 13 || c == 8232 || c == 8233

/-- `.` -/
def Re.dot : Re := .cls (fun c => !lineEnd c)

/-- White space of JavaScript (`\s`): TAB, LF, VT, FF, CR, SP, NBSP, ZWNBSP, the space separators of Unicode, LS, PS. -/
def white (c : Nat) : Bool :=
  (9 ≤ c && c ≤ 13) || c == 32 || c == 160 || c == 5760 || (8192 ≤ c && c ≤ 8202) || c == 8232 || c == 8233 || c == 8239 ||
    c == 8287 || c == 12288 || c == 65279

/-- `( |\t)` -/
def blank (c : Nat) : Bool := c == 32 || c == 9

/-! ### The text of a document -/

/-- The instructions of the expression of hlasmLanguageDetection.ts:34, in the order written there. -/
def instructions : List Text := [
   [73, 67, 84, 76], [42, 80, 82, 79, 67, 69, 83, 83], [69, 78, 68], [67, 79, 78, 68], [73, 67], [73, 67, 77], [76],
   [76, 65], [76, 67, 82], [76, 72], [76, 72, 73], [76, 77], [76, 78, 82], [76, 80, 82], [76, 82], [76, 84, 82],
   [77, 86, 67], [77, 86, 67, 76], [77, 86, 73], [83, 84], [83, 84, 67], [83, 84, 67, 77], [83, 84, 72], [83, 84, 77], [65],
   [65, 72], [65, 72, 73], [65, 76], [65, 76, 82], [65, 82], [67], [67, 72], [67, 82], [68], [68, 82], [77], [77, 72],
   [77, 72, 73], [77, 82], [83], [83, 72], [83, 76], [83, 76, 82], [83, 82], [67, 76], [67, 76, 67], [67, 76, 67, 76],
   [67, 76, 73], [67, 76, 77], [67, 76, 82], [78], [78, 67], [78, 73], [78, 82], [79], [79, 67], [79, 73], [79, 82],
   [83, 76, 65], [83, 76, 68, 65], [83, 76, 68, 76], [83, 76, 68, 65], [83, 76, 76], [83, 82, 65], [83, 82, 68, 65],
   [83, 82, 68, 76], [83, 82, 76], [84, 77], [88], [88, 67], [88, 73], [88, 82], [66, 65, 76], [66, 65, 76, 82],
   [66, 65, 83], [66, 65, 83, 82], [66, 67], [66, 67, 82], [66, 67, 84], [66, 67, 84, 82], [66, 88, 72], [66, 88, 76, 69],
   [65, 80], [67, 80], [67, 86, 66], [67, 86, 68], [68, 80], [69, 68], [69, 68, 77, 75], [77, 80], [77, 86, 78],
   [77, 86, 79], [77, 86, 90], [80, 65, 67, 75], [83, 80], [83, 82, 80], [85, 78, 80, 75], [90, 65, 80], [67, 68, 83],
   [67, 83], [69, 88], [83, 84, 67, 75], [83, 86, 67], [84, 82], [84, 82, 84], [84, 83], [66], [74], [78, 79, 80], [66, 69],
   [66, 78, 69], [66, 76], [66, 78, 76], [66, 72], [66, 72, 76], [66, 90], [66, 78, 90], [66, 77], [66, 78, 77],
   [65, 77, 79, 68, 69], [67, 83, 69, 67, 84], [68, 67], [68, 83], [68, 83, 69, 67, 84], [68, 82, 79, 80],
   [69, 74, 69, 67, 84], [69, 78, 68], [69, 81, 85], [76, 84, 79, 82, 71], [79, 82, 71], [80, 79, 80], [80, 82, 73, 78, 84],
   [80, 85, 83, 72], [82, 77, 79, 68, 69], [83, 80, 65, 67, 69], [85, 83, 73, 78, 71], [84, 73, 84, 76, 69], [66, 80],
   [66, 78, 80], [66, 79], [66, 78, 79], [65, 66, 69, 78, 68], [67, 65, 76, 76], [67, 76, 79, 83, 69], [68, 67, 66],
   [71, 69, 84], [79, 80, 69, 78], [80, 85, 84], [82, 69, 84, 85, 82, 78], [83, 65, 86, 69], [83, 84, 79, 82, 65, 71, 69],
   [67, 79, 80, 89], [71, 66, 76, 67], [71, 66, 76, 66], [83, 69, 84, 65], [83, 69, 84, 66], [83, 69, 84, 67]]

/-- `MACRO` -/
def macroWord : Text := [77, 65, 67, 82, 79]

/-- hlasmLanguageDetection.ts:34: `^\S*( |\t)+(ICTL|...|SETC)( |\t)+` (without the `^`). -/
def referenceInstructions : Re :=
  .cat (.star (.cls (fun c => !white c))) (.cat (.plus (.cls blank)) (.cat (.any (instructions.map .word)) (.plus (.cls blank))))

/-- hlasmLanguageDetection.ts:35: `^( |\t)+MACRO( |\t)*` (without the `^`). -/
def macroInstruction : Re := .cat (.plus (.cls blank)) (.cat (.word macroWord) (.star (.cls blank)))

/-- `toUpperCase`. Simplification: letters outside ASCII are left as they are (`ı` and `ſ` become ASCII letters, `ß` two
letters in JavaScript). -/
def upperUnit (c : Nat) : Nat := if 97 ≤ c ∧ c ≤ 122 then c - 32 else c
def upper (t : Text) : Text := t.map upperUnit

/-- `split(sep)` with a separator of one character. -/
def split (sep : Nat) : Text → List Text
  | [] => [[]]
  | c :: t =>
    if c = sep then [] :: split sep t
    else match split sep t with
      | [] => [[c]]
      | l :: ls => (c :: l) :: ls

/-- The variables of the loop: `score`, `lines`, `lastContinued` (hlasmLanguageDetection.ts:62-64). -/
structure Score where
  score : Nat := 0
  lines : Nat := 0
  lastContinued : Bool := false
deriving DecidableEq, Repr

/-- hlasmLanguageDetection.ts:79: `line.length > 71 && line[71] != " "`. -/
def continued (line : Text) : Bool :=
  match line[71]? with
  | some c => c != 32
  | none => false

/-- The line is neither empty nor a comment (hlasmLanguageDetection.ts:73). -/
def relevant (line : Text) : Bool :=
  line != [] && !(line.take 1 == [42]) && !(line.take 2 == [46, 42])

/-- The body of the loop (hlasmLanguageDetection.ts:71-85). -/
def Score.line (s : Score) (line : Text) : Score :=
  if relevant line then
    if (referenceInstructions.testStart (upper line) || s.lastContinued) && line.length ≤ 80 then
      { score := s.score + 1, lines := s.lines + 1, lastContinued := continued line }
    else { s with lines := s.lines + 1 }
  else s

/-- `checkHlasmLanguage` from line 62 on (hlasmLanguageDetection.ts:62-87). The quotient of two integers compared with the
double nearest to 0.4: for fewer than 2^50 lines this is the comparison of the fractions; without lines the quotient is not
a number and the comparison false. -/
def checkText (text : Text) : Bool :=
  let ls := split 10 text
  if macroInstruction.testStart (upper (ls.headD [])) then true
  else
    let s := ls.foldl Score.line {}
    5 * s.score > 2 * s.lines

/-! ### Wildcards -/

/-- The characters escaped by `convertWildcardToRegex` (configurationsHandler.ts:166): `( [ { \ ^ - = $ ! | ] } ) .` -/
def escaped : List Nat := [40, 91, 123, 92, 94, 45, 61, 36, 33, 124, 93, 125, 41, 46]

/-- `convertWildcardToRegex` up to the construction of the expression (configurationsHandler.ts:165-169). -/
def wildcardText (w : Text) : Text :=
  let r := w.flatMap fun c => if c ∈ escaped then [92, c] else [c]
  let r := r.map fun c => if c = 63 then 46 else c
  let r := r.flatMap fun c => if c = 42 ∨ c = 43 then [46, c, 63] else [c]
  94 :: r ++ [36]

/-- Syntax characters of regular expressions. -/
def syntaxChars : List Nat := [94, 36, 92, 46, 42, 43, 63, 40, 41, 91, 93, 123, 125, 124]

/-- Characters that have a meaning of their own after a backslash. -/
def wordChar (c : Nat) : Bool := (48 ≤ c && c ≤ 57) || (65 ≤ c && c ≤ 90) || (97 ≤ c && c ≤ 122) || c == 95

/-- One atom: `.`, an identity escape or an ordinary character. `none`: syntax outside the fragment, or an error. -/
def parseAtom : Text → Option (Re × Text)
  | [] => none
  | c :: r =>
    if c = 46 then some (.dot, r)
    else if c = 92 then
      match r with
      | [] => none
      | d :: r' => if wordChar d then none else some (.lit d, r')
    else if c ∈ syntaxChars then none
    else some (.lit c, r)

/-- `?` after a quantifier: lazy; the same texts match. -/
def dropLazy : Text → Text
  | [] => []
  | d :: r => if d = 63 then r else d :: r

/-- The quantifier after an atom. -/
def parseQuant (a : Re) : Text → Option (Re × Text)
  | [] => some (a, [])
  | c :: r =>
    if c = 42 then some (.star a, dropLazy r)
    else if c = 43 then some (.plus a, dropLazy r)
    else if c = 63 then some (.alt .eps a, dropLazy r)
    else if c = 123 then none
    else some (a, c :: r)

/-- The expression between `^` and `$`; the number bounds the length. -/
def parseBody : Nat → Text → Option Re
  | _, [] => some .eps
  | 0, _ => none
  | n + 1, t =>
    match parseAtom t with
    | none => none
    | some (a, r) =>
      match parseQuant a r with
      | none => none
      | some (i, r') => (parseBody n r').map (.cat i)

/-- `new RegExp(text)` for a text `^...$`: the expression between the anchors. -/
def parseRe : Text → Option Re
  | 94 :: t => if t.getLast? = some 36 then parseBody t.length t.dropLast else none
  | _ => none

/-- `convertWildcardToRegex` (configurationsHandler.ts:165-171); `none`: the constructor throws. -/
def convert (w : Text) : Option Re := parseRe (wildcardText w)

/-! ### Paths -/

/-- One segment of `normalizeString` (Node.js `path.posix.normalize`): empty segments and `.` vanish, `..` removes the
segment before it. -/
def normStep (acc : List Text) (seg : Text) : List Text :=
  if seg = [] ∨ seg = [46] then acc else if seg = [46, 46] then acc.dropLast else acc ++ [seg]

/-- `join(sep)` of an array. -/
def glue (sep : Nat) : List Text → Text
  | [] => []
  | [s] => s
  | s :: ss => s ++ sep :: glue sep ss

/-- `path.posix.normalize` of an absolute path; a slash at the end stays. -/
def normalize (t : Text) : Text :=
  match (split 47 t).foldl normStep [] with
  | [] => [47]
  | segs => 47 :: glue 47 segs ++ (if t.getLast? = some 47 then [47] else [])

/-- `path.join`: empty arguments are skipped. Simplification: the first argument is an absolute path. -/
def join (args : List Text) : Text := normalize (glue 47 (args.filter (· ≠ [])))

/-! ### The configuration -/

/-- What `fs.existsSync` and `JSON.parse(fs.readFileSync(...))` give for a configuration file. `malformed`: the text is not
JSON, or the value has no members (`null`); reading it throws. -/
inductive File (α : Type)
  | missing
  | malformed
  | ok (conf : α)

def File.exist {α : Type} : File α → Bool
  | .missing => false
  | _ => true

/-- `pgm_conf.json`: the members `program` of the elements of `pgms`, and `alwaysRecognize`. `none`: not a string, or the
element has no members: `path.join` or the access throws. A missing array is empty. -/
structure PgmConf where
  pgms : List (Option Text) := []
  always : List (Option Text) := []

/-- An element of `libs` in `proc_grps.json`: a string, or an object with a member `path` (`none`: anything else). -/
inductive Lib
  | name (t : Text)
  | obj (path : Option Text)

/-- `lib.path || lib` (configurationsHandler.ts:132); `none`: not a string, `path.join` throws. -/
def Lib.dir : Lib → Option Text
  | .name t => some t
  | .obj (some p) => if p = [] then none else some p
  | .obj none => none

/-- `proc_grps.json`: the elements of `libs` of all elements of `pgroups`. -/
structure GrpConf where
  libs : List Lib := []

/-- The workspace on the disk: its first folder, `pgm_conf.json`, `proc_grps.json`. -/
structure World where
  folder : Option Text
  pgm : File PgmConf
  grp : File GrpConf

/-- `.hlasmplugin`, `pgm_conf.json`, `proc_grps.json` -/
def pluginName : Text := [46, 104, 108, 97, 115, 109, 112, 108, 117, 103, 105, 110]
def pgmName : Text := [112, 103, 109, 95, 99, 111, 110, 102, 46, 106, 115, 111, 110]
def grpName : Text := [112, 114, 111, 99, 95, 103, 114, 112, 115, 46, 106, 115, 111, 110]

/-- configurationsHandler.ts:186-191. -/
def pgmPath (folder : Text) : Text := join [join [folder, pluginName], pgmName]
def grpPath (folder : Text) : Text := join [join [folder, pluginName], grpName]

/-- The members of `ConfigurationsHandler`: `definedExpressions`, whether the paths are defined, `shouldCheckConfigs`
(configurationsHandler.ts:34-40). -/
structure St where
  exprs : List Re := []
  known : Bool := false
  check : Bool := true

/-- `match` (configurationsHandler.ts:46-48). -/
def St.hits (s : St) (file : Text) : Bool := s.exprs.any (·.testAll file)

/-- `updateConfigPaths` (configurationsHandler.ts:177-203). -/
def St.paths (s : St) (w : World) : Bool × St :=
  if s.known && w.grp.exist && w.pgm.exist then (true, s)
  else
    match w.folder with
    | none => (false, s)
    | some _ =>
      if !w.grp.exist then (false, { s with known := true })
      else if !w.pgm.exist then (false, { s with known := true, exprs := [] })
      else (true, { s with known := true })

/-- One of the loops of `updateWildcards` (configurationsHandler.ts:110-114, 119-123, 129-136); the flag is false if an
exception leaves it. -/
def addAll (folder : Text) (tail : List Text) : List Re → List (Option Text) → List Re × Bool
  | es, [] => (es, true)
  | es, none :: _ => (es, false)
  | es, some p :: r =>
    match convert (join (folder :: p :: tail)) with
    | none => (es, false)
    | some re => addAll folder tail (es ++ [re]) r

/-- configurationsHandler.ts:103-137: the expressions are made anew; the flag is false if an exception is thrown. -/
def load (folder : Text) (w : World) : List Re × Bool :=
  match w.pgm with
  | .ok pc =>
    let r := addAll folder [] [] pc.pgms
    if !r.2 then r
    else
      let r := addAll folder [] r.1 pc.always
      if !r.2 then r
      else
        match w.grp with
        | .ok gc => addAll folder [[42]] r.1 (gc.libs.map Lib.dir)
        | _ => (r.1, false)
  | _ => ([], false)

/-- The reloaded file is not a configuration file (configurationsHandler.ts:97). -/
def St.foreign (s : St) (w : World) (file : Text) : Bool :=
  file != [] && !(s.known && (w.folder.map pgmPath == some file || w.folder.map grpPath == some file))

/-- The test of configurationsHandler.ts:97: a file was given, and it is not a configuration file. -/
def St.skips (s : St) (w : World) : Option Text → Bool
  | some f => s.foreign w f
  | none => false

/-- `updateWildcards` (configurationsHandler.ts:95-139) with the name of the saved file; the flag is false if an exception
is thrown. -/
def St.update (s : St) (w : World) (reloaded : Option Text) : St × Bool :=
  if s.skips w reloaded then (s, true)
  else
    let p := s.paths w
    if !p.1 then (p.2, true)
    else
      match w.folder with
      | none => (p.2, true)
      | some folder => let r := load folder w; ({ p.2 with exprs := r.1 }, r.2)

/-! ### Events -/

/-- The language of a document. -/
inductive Lang
  | plain
  | hlasm
  | other (id : Text)
deriving DecidableEq, Repr

/-- A document in the editor. -/
structure Doc where
  lang : Lang
  path : Text
  text : Text

/-- The extension and its surroundings: the disk, the setting `hlasm.useAutodetection`, the handler. -/
structure Sys where
  world : World
  auto : Bool
  st : St

/-- `checkHlasmLanguage` (hlasmLanguageDetection.ts:50-88). -/
def Sys.looksHlasm (s : Sys) (d : Doc) : Bool :=
  if s.st.hits d.path then true
  else if d.text = [] then false
  else if !s.auto then false
  else checkText d.text

/-- `setHlasmLanguage` (hlasmLanguageDetection.ts:39-48): the language of the document afterwards, and the result. -/
def Sys.setLanguage (s : Sys) (d : Doc) : Lang × Bool :=
  if d.lang = .plain ∧ s.looksHlasm d then (.hlasm, true) else (d.lang, d.lang = .hlasm)

/-- What the user sees: the language of the document, the prompts about missing configuration files. -/
structure Out where
  lang : Option Lang := none
  askGrp : Bool := false
  askPgm : Bool := false
deriving DecidableEq, Repr

/-- `checkConfigs` (configurationsHandler.ts:54-92). -/
def Sys.checkConfigs (s : Sys) : Sys × Bool × Bool :=
  let p := s.st.paths s.world
  let s' := { s with st := p.2 }
  if p.1 then (s', false, false)
  else match s.world.folder with
    | none => (s', false, false)
    | some _ => (s', !s.world.grp.exist, !s.world.pgm.exist)

/-- What can happen: the configuration files change on the disk; a document is saved in the editor; a document is opened or
its editor becomes the active one; the user answers a prompt with `Do not track`; the setting is changed. -/
inductive Ev
  | disk (pgm : File PgmConf) (grp : File GrpConf)
  | save (name : Text)
  | shown (d : Doc)
  | doNotTrack
  | setting (auto : Bool)

/-- `onDidSaveTextDocument`, `onDidOpenTextDocument`, `onDidChangeActiveTextEditor` and `editorChanged`
(eventsHandler.ts:104-130); configurationsHandler.ts:70-73, 83-86. An exception in a handler is caught by the editor. -/
def Sys.step (s : Sys) : Ev → Sys × Out
  | .disk p g => ({ s with world := { s.world with pgm := p, grp := g } }, {})
  | .save name => ({ s with st := (s.st.update s.world (some name)).1 }, {})
  | .shown d =>
    if s.st.check then
      let r := s.setLanguage d
      if r.2 then
        let c := s.checkConfigs
        (c.1, { lang := some r.1, askGrp := c.2.1, askPgm := c.2.2 })
      else (s, { lang := some r.1 })
    else (s, { lang := some d.lang })
  | .doNotTrack => ({ s with st := { s.st with check := false } }, {})
  | .setting a => ({ s with auto := a }, {})

/-- The extension after a sequence of events. -/
def Sys.run (s : Sys) : List Ev → Sys
  | [] => s
  | e :: es => (s.step e).1.run es

/-- The constructor of `EventsHandler` (eventsHandler.ts:38-57): the wildcards are read; `none`: an exception leaves the
constructor, and with it the activation of the extension (extension.ts). -/
def activate (w : World) (auto : Bool) : Option Sys :=
  let r := ({} : St).update w none
  if r.2 then some { world := w, auto := auto, st := r.1 } else none

end Verif.Detect
