/-!
Specification of how source text is cut into statements, independent of the tokeniser. Characters are code points.
-/
namespace Verif.Lexing.Spec

/-- Line and column after a text, starting at some line and column: a newline starts the next line. -/
def place (from_ : Nat × Nat) (text : List Nat) : Nat × Nat :=
  text.foldl (fun (l, c) ch => if ch = 10 then (l + 1, 0) else (l, c + 1)) from_

/-- The number of UTF-16 code units of a character. -/
def units (c : Nat) : Nat := if c > 0xFFFF then 2 else 1

/-- The same, with the column counted in UTF-16 code units. -/
def place16 (from_ : Nat × Nat) (text : List Nat) : Nat × Nat :=
  text.foldl (fun (l, c) ch => if ch = 10 then (l + 1, 0) else (l, c + units ch)) from_

/-- The physical lines of a text, without their newlines. -/
def lines : List Nat → List (List Nat)
  | [] => [[]]
  | c :: t =>
    if c = 10 then [] :: lines t
    else match lines t with
      | [] => [[c]]
      | l :: ls => (c :: l) :: ls

/-- A line without the carriage return before its newline. -/
def strip (l : List Nat) : List Nat := if l.getLast? = some 13 then l.dropLast else l

/-- Blank, tab and other white space. -/
def white (c : Nat) : Bool := c == 32 || (9 ≤ c && c ≤ 13)

/-- A line is continued if column 72 (index 71) is not white. -/
def continued (l : List Nat) : Bool :=
  match l[71]? with
  | some c => !white c
  | none => false

/-- A line starting with `*` or `.*` is a comment. -/
def isComment (l : List Nat) : Bool :=
  match l with
  | 42 :: _ => true
  | 46 :: 42 :: _ => true
  | _ => false

/-- The statement text of a line from column `k` (index) up to column 71. -/
def field (k : Nat) (l : List Nat) : List Nat := ((strip l).take 71).drop k

/-- What the current line is: the start of a statement, the continuation of a comment, or of a statement. -/
inductive Mode where
  | start
  | comment
  | stmt (text : List Nat)

/-- The statements of a file: comments are dropped, continued lines joined from column 16. -/
def statements : Mode → List (List Nat) → List (List Nat)
  | .start, [] => [[]]
  | .start, l :: ls =>
    if isComment l then statements (if continued l then .comment else .start) ls
    else if continued l then statements (.stmt (field 0 l)) ls
    else field 0 l :: (if ls = [] then [] else statements .start ls)
  | .comment, [] => [[]]
  | .comment, l :: ls => statements (if continued l then .comment else .start) ls
  | .stmt acc, [] => [acc]
  | .stmt acc, l :: ls =>
    if continued l then statements (.stmt (acc ++ field 15 l)) ls
    else (acc ++ field 15 l) :: (if ls = [] then [] else statements .start ls)

/-- Capital letters. -/
def upper (c : Nat) : Nat := if 97 ≤ c ∧ c ≤ 122 then c - 32 else c

/-- A `*PROCESS` statement, in any case of letters. -/
def isProcess (l : List Nat) : Bool := (l.take 8).map upper == [42, 80, 82, 79, 67, 69, 83, 83]

end Verif.Lexing.Spec
