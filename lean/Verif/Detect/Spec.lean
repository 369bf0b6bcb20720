import Verif.Detect.Model
/-!
Specification for C124: which documents are HLASM according to the documentation (`docs/Extension.md`, "Language Detection").
From the model it takes the type of the configuration, the list of the instructions, and `glue` (texts with a separator
between them).
-/
namespace Verif.Detect.Spec
open Verif.Detect

/-- The names denoted by a wildcard: `*` any text, `+` any text that is not empty, `?` any character. -/
inductive Wild : Text → Text → Prop
  | nil : Wild [] []
  | star {p s1 s2} : Wild p s2 → Wild (42 :: p) (s1 ++ s2)
  | plus {p s1 s2} : s1 ≠ [] → Wild p s2 → Wild (43 :: p) (s1 ++ s2)
  | quest {p c s} : Wild p s → Wild (63 :: p) (c :: s)
  | lit {p c s} : c ≠ 42 → c ≠ 43 → c ≠ 63 → Wild p s → Wild (c :: p) (c :: s)

/-! ### The text -/

/-- Blanks and tabs. -/
def isBlank (c : Nat) : Prop := c = 32 ∨ c = 9

/-- White space of JavaScript. -/
def isWhite (c : Nat) : Prop :=
  c ∈ [9, 10, 11, 12, 13, 32, 160, 5760, 8192, 8193, 8194, 8195, 8196, 8197, 8198, 8199, 8200, 8201, 8202, 8232, 8233, 8239, 8287,
    12288, 65279]

/-- Small letters become capital letters. -/
def capital (t : Text) : Text := t.map fun c => if 96 < c ∧ c < 123 then c - 32 else c

/-- No line terminators of JavaScript (LF, CR, LS, PS). -/
def NoLineEnd (s : Text) : Prop := ∀ c ∈ s, c ≠ 10 ∧ c ≠ 13 ∧ c ≠ 8232 ∧ c ≠ 8233

/-- The line uses one of the instructions, in letters of either case: a name (or none), blanks, the instruction, and the end
of the line or a blank. -/
def Uses (l : Text) : Prop :=
  ∃ name gap instr rest, l = name ++ gap ++ instr ++ rest ∧ (∀ c ∈ name, ¬ isWhite c) ∧ gap ≠ [] ∧
    (∀ c ∈ gap, isBlank c) ∧ capital instr ∈ instructions ∧ (rest = [] ∨ ∃ c r, rest = c :: r ∧ isBlank c)

/-- The line has a character other than a blank in column 72. -/
def Continued (l : Text) : Prop := ∃ c, l[71]? = some c ∧ c ≠ 32

/-- Lines that count: neither empty nor comments. -/
def Relevant (l : Text) : Prop := l ≠ [] ∧ (∀ r, l ≠ 42 :: r) ∧ (∀ r, l ≠ 46 :: 42 :: r)

open Classical in
/-- The number of HLASM lines among the lines that count. `follows`: the line before is an HLASM line and continued. -/
noncomputable def hlasmLines : Bool → List Text → Nat
  | _, [] => 0
  | follows, l :: ls =>
    if l.length ≤ 80 ∧ (Uses l ∨ follows = true) then 1 + hlasmLines (decide (Continued l)) ls else hlasmLines false ls

open Classical in
/-- The lines that count. -/
noncomputable def relevantLines (ls : List Text) : List Text := ls.filter (fun l => decide (Relevant l))

/-- The line consists of `MACRO`, with blanks before and maybe blanks after it. -/
def MacroLine (l : Text) : Prop :=
  ∃ before w after, l = before ++ w ++ after ∧ before ≠ [] ∧ (∀ c ∈ before, isBlank c) ∧ capital w = macroWord ∧
    ∀ c ∈ after, isBlank c

/-- A line without the CR at its end. -/
def stripCR (l : Text) : Text := if l.getLast? = some 13 then l.dropLast else l

/-- The lines of a text; they end with LF or CR LF. -/
def Lines (text : Text) (ls : List Text) : Prop :=
  ∃ raw, raw ≠ [] ∧ text = glue 10 raw ∧ (∀ l ∈ raw, 10 ∉ l) ∧ ls = raw.map stripCR

/-- The text is that of an HLASM file: it begins with the line `MACRO`, or more than 4 of 10 lines are HLASM lines. -/
def TextSays (text : Text) : Prop :=
  ∃ ls, Lines text ls ∧
    ((∃ l ∈ ls.head?, MacroLine l) ∨ 5 * hlasmLines false (relevantLines ls) > 2 * (relevantLines ls).length)

/-! ### The configuration -/

/-- A path below the root, given by the names in it. -/
def at_ (segs : List Text) : Text := 47 :: glue 47 segs

/-- A name in a path. -/
def Segment (s : Text) : Prop := s ≠ [] ∧ s ≠ [46] ∧ s ≠ [46, 46] ∧ 47 ∉ s

/-- `p` is written for the relative path `q`: names without `..`, and maybe `.`, which stands for the directory itself. -/
def Written (p q : Text) : Prop :=
  ∃ segs, (∀ s ∈ segs, s = [46] ∨ Segment s) ∧ segs.filter (· ≠ [46]) ≠ [] ∧ p = glue 47 segs ∧ q = glue 47 (segs.filter (· ≠ [46]))

/-- No wildcard characters. -/
def Literal (t : Text) : Prop := ∀ c ∈ t, c ≠ 42 ∧ c ≠ 43 ∧ c ≠ 63

/-- `l` is written for the directory `d`, maybe with a slash at the end. -/
def Dir (l d : Text) : Prop := ∃ p, Written p d ∧ Literal d ∧ (l = p ∨ l = p ++ [47])

/-- The library of a processor group is given by `l`: as a string, or as the path in an object. -/
def Given (lib : Lib) (l : Text) : Prop := lib = .name l ∨ lib = .obj (some l)

/-- The document is recognised: its path, in the workspace, is that of a program or matches a wildcard of
`alwaysRecognize`; or it is a member of a library of a processor group; or autodetection is on and the text says so. -/
def Recognised (folder : Text) (pc : PgmConf) (gc : GrpConf) (auto : Bool) (d : Doc) : Prop :=
  (∃ p q rel, (some p ∈ pc.pgms ∨ some p ∈ pc.always) ∧ Written p q ∧ d.path = folder ++ 47 :: rel ∧ Wild q rel) ∨
    (∃ lib l dir name, lib ∈ gc.libs ∧ Given lib l ∧ Dir l dir ∧ d.path = folder ++ 47 :: dir ++ 47 :: name ∧ 47 ∉ name) ∨
    (auto = true ∧ d.text ≠ [] ∧ TextSays d.text)

/-! ### The part of the property that holds -/

/-- Configuration files in which everything is a string, programs and wildcards are relative paths, and libraries are
relative paths without wildcard characters. -/
def PlainConf (pc : PgmConf) (gc : GrpConf) : Prop :=
  (∀ e ∈ pc.pgms ++ pc.always, ∃ p q, e = some p ∧ Written p q) ∧ ∀ lib ∈ gc.libs, ∃ l dir, Given lib l ∧ Dir l dir

/-- The line ends directly after one of the instructions. -/
def Bare (l : Text) : Prop :=
  ∃ name gap instr, l = name ++ gap ++ instr ∧ (∀ c ∈ name, ¬ isWhite c) ∧ gap ≠ [] ∧ (∀ c ∈ gap, isBlank c) ∧
    capital instr ∈ instructions

/-- A text without the cases in which the code differs: CR, something directly after `MACRO` in the first line, lines that
end with the instruction, too long lines after a continued line. -/
def PlainText (text : Text) : Prop :=
  13 ∉ text ∧ ∀ ls, Lines text ls →
    (∀ l ∈ ls.head?, ∀ before w after, l = before ++ w ++ after → before ≠ [] → (∀ c ∈ before, isBlank c) →
      capital w = macroWord → ∀ c ∈ after, isBlank c) ∧
    (∀ l ∈ ls, Relevant l → ¬ Bare l) ∧
    (∀ pre a b post, relevantLines ls = pre ++ a :: b :: post → Continued a → b.length ≤ 80)

/-- The setting after a history. -/
def settingAfter (auto : Bool) : List Ev → Bool
  | [] => auto
  | .setting a :: evs => settingAfter a evs
  | _ :: evs => settingAfter auto evs

/-- The configuration files on the disk after a history. -/
def diskAfter (pgm : File PgmConf) (grp : File GrpConf) : List Ev → File PgmConf × File GrpConf
  | [] => (pgm, grp)
  | .disk p g :: evs => diskAfter p g evs
  | _ :: evs => diskAfter pgm grp evs

/-- The configuration has been read since the last change on the disk: nothing has changed since the activation, or a
configuration file has been saved in the editor and nothing has changed since. -/
def ReadSince (folder : Text) (evs : List Ev) : Prop :=
  ∃ pre post, evs = pre ++ post ∧ (∀ p g, Ev.disk p g ∉ post) ∧
    (pre = [] ∨ ∃ pre' name, pre = pre' ++ [.save name] ∧
      (name = folder ++ 47 :: pluginName ++ 47 :: pgmName ∨ name = folder ++ 47 :: pluginName ++ 47 :: grpName))

end Verif.Detect.Spec
