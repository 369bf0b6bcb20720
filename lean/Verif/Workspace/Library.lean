import Verif.Basic
/-!
Model of `/repo/parser_library/src/workspaces/library_local.cpp` and of the library search of
`/repo/parser_library/src/workspaces/workspace.cpp` (C20, C21).
-/
namespace Verif.Workspace

/-- `context::to_upper_copy` (common_types.cpp), ASCII letters only. -/
def upperByte (c : UInt8) : UInt8 := if 97 ≤ c ∧ c ≤ 122 then c - 32 else c
def upper (s : Bytes) : Bytes := s.map upperByte

/-- library_local.cpp:33-42: a missing leading dot is added. -/
def addDot (e : Bytes) : Bytes :=
  match e with
  | [] => []
  | c :: r => if c = 46 then c :: r else 46 :: c :: r

/-- Byte-wise lexicographic `<=`. -/
def lexLe : Bytes → Bytes → Bool
  | [], _ => true
  | _ :: _, [] => false
  | a :: as, b :: bs => if a < b then true else if b < a then false else lexLe as bs

/-- The sort order of library_local.cpp:44-50: longest first, then lexicographic. -/
def extLe (l r : Bytes) : Bool := if l.length > r.length then true else if l.length < r.length then false else lexLe l r

/-- `std::unique`: adjacent duplicates removed. -/
def unique : List Bytes → List Bytes
  | [] => []
  | [a] => [a]
  | a :: b :: r => if a = b then unique (b :: r) else a :: unique (b :: r)

/-- `adjust_extensions_vector` (library_local.cpp:30-54) as called by the constructor (library_local.cpp:64-65). -/
def adjustExtensions (exts : List Bytes) (deprecated : Bool) : List Bytes :=
  if exts.isEmpty then []
  else
    let s := (exts.map addDot).mergeSort extLe
    unique (if deprecated && !(exts.any List.isEmpty) then s ++ [[]] else s)

/-- The name under which a file is entered (library_local.cpp:133-142): the first extension that is a proper suffix is
removed. -/
def memberName (exts : List Bytes) (name : Bytes) : Option Bytes :=
  match exts.find? fun e => decide (e.length < name.length) && name.drop (name.length - e.length) == e with
  | some e => some (upper (name.take (name.length - e.length)))
  | none => none

/-- The library map `files_` and the names reported by warning L0004. -/
structure Lib where
  files : List (Bytes × Bytes) := []
  conflicts : List Bytes := []

/-- `unordered_map::find`. -/
def Lib.find (l : Lib) (m : Bytes) : Option Bytes := (l.files.find? (·.1 = m)).map (·.2)

/-- One iteration of the loop of `load_files` (library_local.cpp:125-153). `operator[]` assignment replaces an existing
value; `try_emplace` keeps it. -/
def Lib.add (exts : List Bytes) (l : Lib) (file : Bytes × Bytes) : Lib :=
  if exts.isEmpty then
    { l with files := (upper file.1, file.2) :: l.files.filter (·.1 ≠ upper file.1) }
  else
    match memberName exts file.1 with
    | none => l
    | some m =>
      match l.find m with
      | some _ => { l with conflicts := l.conflicts ++ [m] }
      | none => { l with files := l.files ++ [(m, file.2)] }

/-- `library_local::load_files` (library_local.cpp:102-158); `listing` is the directory content in the order of the
unordered map returned by `list_directory_files`. Diagnostics other than L0004 are not modelled. -/
def loadFiles (exts : List Bytes) (deprecated : Bool) (listing : List (Bytes × Bytes)) : Lib :=
  listing.foldl (Lib.add (adjustExtensions exts deprecated)) {}

/-- `workspace::parse_library` (workspace.cpp:515-526): the file that is parsed, if any. -/
def parseLibrary : List Lib → Bytes → Option (Lib × Bytes)
  | [], _ => none
  | l :: ls, m =>
    match l.find m with
    | some p => some (l, p)
    | none => parseLibrary ls m

/-- `workspace::has_library` (workspace.cpp:528-539). -/
def hasLibrary : List Lib → Bytes → Bool
  | [], _ => false
  | l :: ls, m => if (l.find m).isSome then true else hasLibrary ls m

end Verif.Workspace
