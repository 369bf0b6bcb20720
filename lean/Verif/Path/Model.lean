import Verif.Config.Model
/-!
C135: paths of files (utils/src/native_path.cpp, utils/src/emscripten_path.cpp) and the names under which programs and libraries are looked
for (workspaces/workspace.cpp).

The classes of the standard library are modelled after the standard ([fs.path.generic], [fs.path.gen]) for systems with `/` as the only
separator and without root names; this is what Linux, macOS and Emscripten have. The native build for Windows is not modelled. Texts are bytes.
-/
namespace Verif.Path

abbrev Text := List UInt8

/-- `.` and `..` -/
def dot : Text := [46]
def dotdot : Text := [46, 46]

/-- A text taken apart at the slashes. -/
def split : Text → List Text
  | [] => [[]]
  | c :: r => if c = 47 then [] :: split r else
    match split r with
    | s :: l => (c :: s) :: l
    | [] => [[c]]

/-- The filenames of a path ([fs.path.generic] 1-6: several slashes count as one). -/
def names (t : Text) : List Text := (split t).filter (· ≠ [])

/-- `has_root_directory`, which is `is_absolute` here (native_path.cpp 22). -/
def rooted (t : Text) : Bool := t.head? = some 47

/-- The path ends with a slash behind a filename. -/
def slashed (t : Text) : Bool := t.getLast? = some 47 && names t ≠ []

/-- Filenames put together. -/
def glue : List Text → Text
  | [] => []
  | [s] => s
  | s :: l => s ++ 47 :: glue l

/-- What the iterator of a path visits ([fs.path.itr] 4). -/
def elems (t : Text) : List Text := (if rooted t then [[47]] else []) ++ names t ++ (if slashed t then [[]] else [])

/-- `operator/` ([fs.path.append] 1-4; native_path.cpp 26-29). -/
def join (l r : Text) : Text :=
  if rooted r then r else if l = [] ∨ l.getLast? = some 47 then l ++ r else l ++ 47 :: r

/-- One filename in `lexically_normal`: the filenames kept so far, the last one first, and whether a separator was left behind by something
removed ([fs.path.generic] 10.4-10.6). -/
def step (root : Bool) (st : List Text × Bool) (n : Text) : List Text × Bool :=
  if n = dot then (st.1, true)
  else if n = dotdot then
    match st.1 with
    | [] => if root then ([], true) else ([dotdot], false)
    | x :: r => if x = dotdot then (dotdot :: x :: r, false) else (r, true)
  else (n :: st.1, false)

/-- `lexically_normal` ([fs.path.generic] 10; native_path.cpp 31). -/
def normal (t : Text) : Text :=
  if t = [] then [] else
  match (names t).foldl (step (rooted t)) ([], false) with
  | ([], _) => if rooted t then [47] else dot
  | (x :: r, b) => (if rooted t then [47] else []) ++ glue (x :: r).reverse ++ (if (b || slashed t) && x ≠ dotdot then [47] else [])

/-- `std::mismatch`: what is left of both lists. -/
def mismatch : List Text → List Text → List Text × List Text
  | x :: a, y :: b => if x = y then mismatch a b else (x :: a, y :: b)
  | a, b => (a, b)

/-- `lexically_relative` ([fs.path.gen] 3-5; native_path.cpp 33-36). -/
def relative (p q : Text) : Text :=
  if rooted p ≠ rooted q then [] else
  let m := mismatch (elems p) (elems q)
  if m.1 = [] ∧ m.2 = [] then dot else
  let n : Int := (m.2.filter fun e => e ≠ dot ∧ e ≠ dotdot ∧ e ≠ []).length - (m.2.filter (· = dotdot)).length
  if n < 0 then [] else if n = 0 ∧ (m.1 = [] ∨ m.1.head? = some []) then dot
  else (List.replicate n.toNat dotdot ++ m.1).foldl join []

/-- `filename` ([fs.path.decompose] 6; native_path.cpp 38). -/
def filename (t : Text) : Text := if t.getLast? = some 47 then [] else (names t).getLast?.getD []

/-- `operator==` ([fs.path.compare] 1-2; native_path.cpp 40). -/
def equal (s t : Text) : Bool := elems s = elems t

/-- The operations as the configuration uses them (`Config.Model`). -/
def posix : Config.Paths := ⟨rooted, join, normal⟩

/-! ### Emscripten on Windows -/

/-- `make_windows_preferred` (emscripten_path.cpp 26-30). -/
def toWin (t : Text) : Text := t.map fun c => if c = 47 then 92 else c

/-- `make_linux_preferred` (emscripten_path.cpp 31-35). -/
def toLin (t : Text) : Text := t.map fun c => if c = 92 then 47 else c

/-- `isalpha` of the "C" locale. Bytes from 128 up are negative as `char`, for which it is undefined; the library of Emscripten (musl) says no. -/
def alpha (c : UInt8) : Bool := (65 ≤ c && c ≤ 90) || (97 ≤ c && c ≤ 122)

/-- `is_absolute` (emscripten_path.cpp 39-50). -/
def wAbsolute : Text → Bool
  | c :: d :: r => (alpha c && d = 58) || (2 ≤ r.length && c = 92 && d = 92)
  | _ => false

/-- `join` (emscripten_path.cpp 60-73). -/
def wJoin (l r : Text) : Text := if wAbsolute r then r else toWin (join (toLin l) (toLin r))

/-- `lexically_normal` (emscripten_path.cpp 75-87). -/
def wNormal (p : Text) : Text :=
  (if (toLin p).take 2 = [47, 47] then [92] else []) ++ toWin (normal (toLin p))

/-- `lexically_relative` (emscripten_path.cpp 90-99). -/
def wRelative (p q : Text) : Text := toWin (relative (toLin p) (toLin q))

/-- `filename` (emscripten_path.cpp 101-108). -/
def wFilename (p : Text) : Text := filename (toLin p)

/-- `equal` (emscripten_path.cpp 110-118). -/
def wEqual (l r : Text) : Bool := equal (toLin l) (toLin r)

def windows : Config.Paths := ⟨wAbsolute, wJoin, wNormal⟩

/-! ### The names of programs -/

/-- The name under which a program is looked for in `pgm_conf.json` (workspace.cpp 134). -/
def key (ws file : Text) : Text := normal (relative file ws)
def wKey (ws file : Text) : Text := wNormal (wRelative file ws)

/-- The name of a program in `pgm_conf.json` as it is entered (workspace.cpp 400-402). -/
def wEntry (e : Text) : Text := toWin e

end Verif.Path
