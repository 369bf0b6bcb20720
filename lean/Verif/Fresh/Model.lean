/-!
Model of which texts the analyses in `/repo/parser_library/src/workspaces` are made from and which analyses answer requests
(C120). It adds texts to what `Verif/Workspace/Deps.lean` models: the editor's buffers, the disk, the copies the file manager
keeps, and for every analysis the texts it has read. One workspace; no cancellation; no file object is held by two owners.
-/
namespace Verif.Fresh

/-- Names of files and their contents; only equality matters. -/
abbrev File := Nat
abbrev Text := Nat

/-- What an analysis of program `g` does, given the text of each file (`none`: there is no such file). It reads `g` and, as
it goes, asks libraries for macros and copy members (workspace.cpp:515-526): `asks` are all these names, found or not. `uses`
are the files it reports as visited: those whose macros were called and copy members with at least one statement
(hlasm_context.cpp:262, 714, 739; copy_processor.cpp:42-46). A file that was read but does not define the macro asked for
(E060, macrodef_processor.cpp:232-238) is not among them. -/
structure Oracle where
  asks : (File → Option Text) → File → List File
  uses : (File → Option Text) → File → List File

/-- `analyzer_` of a file (processor_file_impl.h): which open code it was analysed for, and the names that analysis asked
for with the texts it got. -/
structure Slot where
  root : File
  used : List (File × Option Text)
deriving DecidableEq, Repr

/-- A file in the file manager's map: `text_` (kept with `up_to_date_`, file_impl.cpp:39-58), `editing_`, `dependencies_`
and `analyzer_`. Simplified: the text is loaded when the file enters the map (file_impl.cpp:34-39 loads it at the first
analysis, which follows at once). -/
structure FileSt where
  text : Text
  editing : Bool := false
  deps : List File := []
  slot : Option Slot := none
deriving DecidableEq, Repr

/-- The file manager's map, the disk and `dependants_`. -/
structure State where
  files : File → Option FileSt := fun _ => none
  disk : File → Option Text := fun _ => none
  dependants : List File := []

def upd {β} (f : File → β) (a : File) (b : β) : File → β := fun x => if x = a then b else f x

/-- What reading file `x` gives: the kept text, or the disk if the file is not in the map (file_impl.cpp:34-66;
library_local.cpp:92-100 finds existing files only). Simplified: the listing of a library is current, and a document that is
not on the disk is found like any other. -/
def State.text (s : State) (x : File) : Option Text :=
  match s.files x with
  | some w => some w.text
  | none => s.disk x

/-- What an analysis of `g` reads. -/
def analysis (A : Oracle) (t : File → Option Text) (g : File) : Slot := ⟨g, (A.asks t g).map fun x => (x, t x)⟩

/-- `dependencies_` after an analysis: the files visited, without the program itself (processor_file_impl.cpp:51-56). -/
def depsOf (A : Oracle) (t : File → Option Text) (g : File) : List File :=
  (A.uses t g).filter (· ≠ g)

/-- Members found in libraries enter the map with their text from the disk (library_local.cpp:97,
file_manager_impl.cpp:53-65), and each of them keeps an analyzer made for this run (processor_file_impl.cpp:71-78). -/
def State.visit (s : State) (c : List File) (sl : Slot) : File → Option FileSt := fun x =>
  if x ∈ c then
    match s.files x with
    | some w => some { w with slot := some sl }
    | none => (s.disk x).map fun t => { text := t, slot := some sl }
  else s.files x

/-- `processor_file_impl::parse` (processor_file_impl.cpp:43-68) and the entry into `dependants_`
(workspace.cpp:202-204); the second part is `files_to_close_`. -/
def State.parse (A : Oracle) (s : State) (g : File) : State × List File :=
  match s.files g with
  | none => (s, [])
  | some w =>
    let sl := analysis A s.text g
    let deps := depsOf A s.text g
    ({ s with
        files := upd (s.visit (A.asks s.text g) sl) g (some { w with deps := deps, slot := some sl })
        dependants := if deps.isEmpty || s.dependants.contains g then s.dependants else g :: s.dependants },
      w.deps.filter (· ∉ deps))

/-- Whether loaded file `h` has `f` among its dependencies. -/
def State.needs (s : State) (h f : File) : Bool :=
  match s.files h with
  | some w => w.deps.contains f
  | none => false

/-- Whether file `d`, a candidate, is dropped: loaded, not open in the editor, and not needed by a dependant other than `g`
(workspace.cpp:467-497). -/
def State.drops (s : State) (cands : List File) (g d : File) : Bool :=
  cands.contains d && (match s.files d with | some w => !w.editing | none => false) &&
    s.dependants.all fun h => h = g || !s.needs h d

/-- `workspace::filter_and_close_dependencies_` (workspace.cpp:467-497). -/
def State.filterClose (s : State) (cands : List File) (g : File) : State :=
  { s with files := fun d => if s.drops cands g d then none else s.files d }

/-- `workspace::is_dependency_` (workspace.cpp:499-513). -/
def State.isDependency (s : State) (f : File) : Bool := s.dependants.any (s.needs · f)

/-- The programs to analyse when file `f` changed (workspace.cpp:176-198); the same choice is made when a request about `f`
is to be answered (`find_related_opencodes`, workspace.cpp:84-103). -/
def State.related (s : State) (f : File) : List File :=
  let l := s.dependants.filter (s.needs · f)
  if l.isEmpty then (if (s.files f).isSome then [f] else []) else l

/-- Analyse one after the other (workspace.cpp:200-217). -/
def State.parseAll (A : Oracle) (s : State) : List File → State × List (File × List File)
  | [] => (s, [])
  | g :: gs =>
    let (s1, tc) := s.parse A g
    let (s2, rest) := s1.parseAll A gs
    (s2, (g, tc) :: rest)

/-- Drop what the analysed programs stopped using (workspace.cpp:219-221). -/
def State.closeAll (s : State) : List (File × List File) → State
  | [] => s
  | (g, tc) :: rest => (s.filterClose tc g).closeAll rest

/-- `workspace::parse_file` for a source file (workspace.cpp:175-222). -/
def State.parseFile (A : Oracle) (s : State) (f : File) : State :=
  let r := s.parseAll A (s.related f)
  r.1.closeAll r.2

/-- `workspace::did_close_file` (workspace.cpp:237-262); closing keeps the text (file_impl.cpp `did_close`). `none`: a null
pointer is followed. -/
def State.closeFile (s : State) (f : File) : Option State :=
  if s.isDependency f then
    some { s with files := upd s.files f ((s.files f).map fun w => { w with editing := false }) }
  else if s.dependants.contains f then
    match s.files f with
    | none => none
    | some w =>
      let s1 := s.filterClose w.deps f
      some { s1 with files := upd s1.files f none, dependants := s1.dependants.filter (· ≠ f) }
  else some { s with files := upd s.files f none }

/-- What happens to a workspace. -/
inductive Op
  | open (f : File) (t : Text)
  | change (f : File) (t : Text)
  | close (f : File)
  /-- The disk holds something else for `f` now, and the editor says so. -/
  | watched (f : File) (t : Option Text)
deriving DecidableEq, Repr

/-- workspace_manager_impl.h:73-118; file_manager_impl.cpp:146-189. -/
def State.step (A : Oracle) (s : State) : Op → Option State
  | .open f t =>
    let w : FileSt := (s.files f).getD { text := t }
    let s1 : State := { s with files := upd s.files f (some { w with text := t, editing := true }) }
    some (s1.parseFile A f)
  | .change f t =>
    let s1 : State := { s with files := upd s.files f ((s.files f).map fun w => { w with text := t }) }
    some (s1.parseFile A f)
  | .close f => s.closeFile f
  | .watched f t =>
    let s1 : State := { s with disk := upd s.disk f t }
    some (s1.parseFile A f)

def State.run (A : Oracle) (s : State) : List Op → Option State
  | [] => some s
  | a :: as => (s.step A a).bind (·.run A as)

end Verif.Fresh
