import Verif.Path.Model
/-!
C135: what a path means, in a tree of directories without links.
-/
namespace Verif.Path

/-- A place in the tree: the names on the way to it. -/
abbrev Place := List Text

/-- Where one gets from a place by the parts of a path. Above the root is the root. -/
def walk : Place → List Text → Place
  | d, [] => d
  | d, n :: l => walk (if n = dot then d else if n = dotdot then d.dropLast else d ++ [n]) l

/-- The place a path names, read in the directory `cwd`. -/
def place (cwd : Place) (t : Text) : Place := walk (if rooted t then [] else cwd) (names t)

/-- A name of a file or a directory. -/
def Plain (n : Text) : Prop := n ≠ [] ∧ n ≠ dot ∧ n ≠ dotdot ∧ 47 ∉ n

/-- A path without `.` and `..`. -/
def Clean (t : Text) : Prop := dot ∉ names t ∧ dotdot ∉ names t

/-- A path without the slash at its end. -/
def bare (t : Text) : Text := if t ≠ [47] ∧ t.getLast? = some 47 then t.dropLast else t

/-! ### Windows -/

/-- The parts of a Windows path behind the drive or the two backslashes; both kinds of slashes separate. -/
def wNames (t : Text) : List Text := names (toLin t)

/-- A letter of the English alphabet. -/
def Letter (c : UInt8) : Prop := (65 ≤ c ∧ c ≤ 90) ∨ (97 ≤ c ∧ c ≤ 122)

/-- `C:\…` with either kind of slash. -/
def Drive (c : UInt8) (t rest : Text) : Prop := ∃ s, (s = 92 ∨ s = 47) ∧ t = c :: 58 :: s :: rest

/-- `\\…` with either kind of slashes. -/
def Remote (t rest : Text) : Prop := ∃ s u, (s = 92 ∨ s = 47) ∧ (u = 92 ∨ u = 47) ∧ t = s :: u :: rest

/-- The path does not go above where it begins. -/
def Inside : Nat → List Text → Prop
  | _, [] => True
  | k, n :: l => if n = dot then Inside k l else if n = dotdot then 0 < k ∧ Inside (k - 1) l else Inside (k + 1) l

/-- A name of a file or a directory on Windows. -/
def WPlain (n : Text) : Prop := Plain n ∧ 92 ∉ n

/-- Names put together with backslashes. -/
def wGlue (l : List Text) : Text := toWin (glue l)

end Verif.Path
