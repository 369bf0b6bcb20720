import Verif.Basic
/-!
Model of `/repo/parser_library/src/workspaces/wildcard.cpp` (C23): the translation of a wildcard to the text of a regular
expression, and the meaning of that text.
-/
namespace Verif.Workspace

def cStar : UInt8 := 42
def cPlus : UInt8 := 43
def cQuest : UInt8 := 63
def cDot : UInt8 := 46
def cBslash : UInt8 := 92

/-- The characters escaped by `escape` (wildcard.cpp:22): `( [ { \ ^ - = $ ! | ] } ) .` -/
def escaped : List UInt8 := [40, 91, 123, 92, 94, 45, 61, 36, 33, 124, 93, 125, 41, 46]

/-- `wildcard2regex` up to the construction of the `std::regex` (wildcard.cpp:28-38), for platforms other than Windows.
Each `regex_replace` with a one-character pattern is a character-wise replacement. -/
def wildcardText (w : Bytes) : Bytes :=
  ((w.flatMap fun c => if c ∈ escaped then [cBslash, c] else [c]).map fun c => if c = cQuest then cDot else c).flatMap
    fun c => if c = cStar ∨ c = cPlus then [cDot, c, cQuest] else [c]

/-- An atom of the regular expressions that occur: `.` or a literal character. -/
inductive Atom
  | any
  | lit (c : UInt8)
deriving DecidableEq, Repr

/-- A possibly quantified atom. Greedy and lazy quantifiers accept the same names. -/
inductive Item
  | one (a : Atom)
  | opt (a : Atom)
  | many (a : Atom)
  | some (a : Atom)
deriving DecidableEq, Repr

/-- Syntax characters of ECMAScript regular expressions. -/
def syntaxChars : List UInt8 := [94, 36, 92, 46, 42, 43, 63, 40, 41, 91, 93, 123, 125, 124]

def isAlnum (c : UInt8) : Bool := (48 ≤ c && c ≤ 57) || (65 ≤ c && c ≤ 90) || (97 ≤ c && c ≤ 122) || c = 95

/-- One atom: `.`, an identity escape, or an ordinary character. `none`: syntax outside the fragment (groups, classes,
assertions, class escapes, ...). -/
def parseAtom : Bytes → Option (Atom × Bytes)
  | [] => none
  | c :: r =>
    if c = cDot then some (.any, r)
    else if c = cBslash then
      match r with
      | [] => none
      | d :: r' => if isAlnum d then none else some (.lit d, r')
    else if c ∈ syntaxChars then none
    else some (.lit c, r)

/-- The quantifier after an atom. -/
def parseQuant (a : Atom) : Bytes → Option (Item × Bytes)
  | [] => some (.one a, [])
  | c :: r =>
    let lazy : Bytes → Bytes := fun r => match r with | [] => [] | d :: r' => if d = cQuest then r' else r
    if c = cStar then some (.many a, lazy r)
    else if c = cPlus then some (.some a, lazy r)
    else if c = cQuest then some (.opt a, lazy r)
    else if c = 123 then none
    else some (.one a, c :: r)

/-- The regular expression denoted by a text (the fragment of ECMAScript that occurs); `fuel` bounds the length. -/
def parseRe : Nat → Bytes → Option (List Item)
  | _, [] => some []
  | 0, _ => none
  | n + 1, t =>
    match parseAtom t with
    | none => none
    | some (a, r) =>
      match parseQuant a r with
      | none => none
      | some (i, r') => (parseRe n r').map (i :: ·)

/-- `.` matches every character but line terminators. -/
def Atom.Ok : Atom → UInt8 → Prop
  | .any, b => b ≠ 10 ∧ b ≠ 13
  | .lit c, b => b = c

/-- What `std::regex_match` (whole-string match) accepts. -/
inductive ReMatch : List Item → Bytes → Prop
  | nil : ReMatch [] []
  | one {a is b s} : a.Ok b → ReMatch is s → ReMatch (.one a :: is) (b :: s)
  | opt0 {a is s} : ReMatch is s → ReMatch (.opt a :: is) s
  | opt1 {a is b s} : a.Ok b → ReMatch is s → ReMatch (.opt a :: is) (b :: s)
  | many {a is s1 s2} : (∀ b ∈ s1, a.Ok b) → ReMatch is s2 → ReMatch (.many a :: is) (s1 ++ s2)
  | some {a is s1 s2} : s1 ≠ [] → (∀ b ∈ s1, a.Ok b) → ReMatch is s2 → ReMatch (.some a :: is) (s1 ++ s2)

end Verif.Workspace
