/-!
Model of how `/repo/parser_library/src/workspaces/workspace.cpp` tracks which files a program depends on and drops files
that are no longer needed (C24).
-/
namespace Verif.Workspace

/-- The part of a processor file that matters here: `get_lsp_editing()` and `dependencies_`. -/
structure WFile where
  editing : Bool
  deps : List String
deriving DecidableEq, Repr

/-- The file manager's map (shared by all workspaces) and `dependants_` of each workspace (workspace.h). -/
structure Ws where
  files : String → Option WFile := fun _ => none
  dependants : Nat → List String := fun _ => []

def upd {α β} [DecidableEq α] (f : α → β) (a : α) (b : β) : α → β := fun x => if x = a then b else f x

/-- What one analysis run reports: the files it visited and whether it was cancelled. -/
structure Visit where
  visited : List String
  cancelled : Bool
deriving DecidableEq, Repr

/-- The dependencies computed from the visited files: all but the file itself (processor_file_impl.cpp:53-56). -/
def newDeps (f : String) (v : Visit) : List String := v.visited.filter (· ≠ f)

/-- Files found in libraries during the analysis enter the file map (library_local.cpp:97,
file_manager_impl.cpp:53-65). -/
def ensure (files : String → Option WFile) (ds : List String) : String → Option WFile := fun x =>
  match files x with
  | some w => some w
  | none => if x ∈ ds then some { editing := false, deps := [] } else none

/-- `processor_file_impl::parse` (processor_file_impl.cpp:43-68): new state and `files_to_close_`. -/
def Ws.parse (s : Ws) (f : String) (v : Visit) : Ws × List String :=
  match s.files f with
  | none => (s, [])
  | some w =>
    let deps := if v.cancelled then w.deps else newDeps f v
    ({ s with files := upd (ensure s.files v.visited) f (some { w with deps := deps }) }, w.deps.filter (· ∉ deps))

/-- The condition for dropping file `d`: among the candidates, loaded, not open in the editor, and not needed by any
loaded dependant other than `g` (workspace.cpp:472-486). -/
def Ws.drops (s : Ws) (ws : Nat) (deps : List String) (g d : String) : Bool :=
  deps.contains d && (match s.files d with | some w => !w.editing | none => false) &&
    (s.dependants ws).all fun h =>
      match s.files h with
      | none => true
      | some wh => h = g || !wh.deps.contains d

/-- `workspace::filter_and_close_dependencies_` (workspace.cpp:467-497), called with `deps` on behalf of file `g`. -/
def Ws.filterClose (s : Ws) (ws : Nat) (deps : List String) (g : String) : Ws :=
  { s with files := fun d => if s.drops ws deps g d = true then none else s.files d }

/-- `workspace::is_dependency_` (workspace.cpp:499-513). -/
def Ws.isDependency (s : Ws) (ws : Nat) (f : String) : Bool :=
  (s.dependants ws).any fun h => match s.files h with | none => false | some wh => wh.deps.contains f

/-- The programs to analyse for a changed file (workspace.cpp:176-198). -/
def Ws.filesToParse (s : Ws) (ws : Nat) (f : String) : List String :=
  let l := (s.dependants ws).filter fun h => match s.files h with | none => false | some wh => wh.deps.contains f
  if l.isEmpty then (if (s.files f).isSome then [f] else []) else l

/-- `if (!f->dependencies().empty()) dependants_.insert(f->get_file_name())` (workspace.cpp:202-203). -/
def Ws.hasDeps (s : Ws) (f : String) : Bool := match s.files f with | some w => !w.deps.isEmpty | none => false

/-- Analyse the files in turn (workspace.cpp:200-204); collects `files_to_close_` of each. `insert` tells whether programs
with dependencies are entered into `dependants_` (the configuration path, workspace.cpp:159-164, does not). -/
def Ws.parseAll (s : Ws) (ws : Nat) (oracle : String → Visit) (insert : Bool) :
    List String → Ws × List (String × List String)
  | [] => (s, [])
  | f :: fs =>
    let (s1, tc) := s.parse f (oracle f)
    let s2 := if insert && s1.hasDeps f && !(s1.dependants ws).contains f then
        { s1 with dependants := upd s1.dependants ws (f :: s1.dependants ws) } else s1
    let (s3, rest) := s2.parseAll ws oracle insert fs
    (s3, (f, tc) :: rest)

/-- Close what is no longer needed (workspace.cpp:166-171, 220-221). The configuration path looks the programs up again
and skips those dropped in the meantime (`lookup`); the other path holds the file objects. -/
def Ws.closeAll (s : Ws) (ws : Nat) (lookup : Bool) : List (String × List String) → Ws
  | [] => s
  | (g, tc) :: rest =>
    (if lookup && (s.files g).isNone then s else s.filterClose ws tc g).closeAll ws lookup rest

/-- `workspace::parse_file` for a source file (workspace.cpp:176-221). Diagnostics are not modelled. -/
def Ws.parseFile (s : Ws) (ws : Nat) (oracle : String → Visit) (f : String) : Ws :=
  let (s', tcs) := s.parseAll ws oracle true (s.filesToParse ws f)
  s'.closeAll ws false tcs

/-- `workspace::parse_file` for a configuration file (workspace.cpp:155-174). -/
def Ws.parseConfig (s : Ws) (ws : Nat) (oracle : String → Visit) : Ws :=
  let (s', tcs) := s.parseAll ws oracle false ((s.dependants ws).filter fun h => (s.files h).isSome)
  s'.closeAll ws true tcs

/-- `workspace::did_close_file` (workspace.cpp:237-262). `none`: a null pointer is dereferenced (workspace.cpp:252-254). -/
def Ws.closeFile (s : Ws) (ws : Nat) (f : String) : Option Ws :=
  let unedit (files : String → Option WFile) := upd files f ((files f).map fun w => { w with editing := false })
  if s.isDependency ws f then some { s with files := unedit s.files }
  else if (s.dependants ws).contains f then
    match s.files f with
    | none => none
    | some w =>
      let s1 := s.filterClose ws w.deps f
      some { files := upd s1.files f none, dependants := upd s1.dependants ws ((s1.dependants ws).filter (· ≠ f)) }
  else some { s with files := upd s.files f none }

/-- Editor events reaching workspace `ws`. `shared`: some other component holds the file object, so it is copied and the
copy has no dependencies (file_manager_impl.cpp:134-144). `skip`: the request was cancelled before the analysis
(workspace_manager_impl.h:76, 92). -/
inductive Op
  | open (ws : Nat) (f : String) (shared skip : Bool) (oracle : String → Visit)
  | change (ws : Nat) (f : String) (shared skip : Bool) (oracle : String → Visit)
  | watched (ws : Nat) (f : String) (oracle : String → Visit)
  | config (ws : Nat) (oracle : String → Visit)
  | close (ws : Nat) (f : String)

def Op.ws : Op → Nat
  | .open ws _ _ _ _ | .change ws _ _ _ _ | .watched ws _ _ | .config ws _ | .close ws _ => ws

/-- workspace_manager_impl.h:73-118. -/
def Ws.step (s : Ws) : Op → Option Ws
  | .open ws f shared skip o =>
    let deps := match s.files f with | some w => if shared then [] else w.deps | none => []
    let s := { s with files := upd s.files f (some { editing := true, deps := deps }) }
    some (if skip then s else s.parseFile ws o f)
  | .change ws f shared skip o =>
    let s := match s.files f with
      | some w => { s with files := upd s.files f (some { w with deps := if shared then [] else w.deps }) }
      | none => s
    some (if skip then s else s.parseFile ws o f)
  | .watched ws f o => some (s.parseFile ws o f)
  | .config ws o => some (s.parseConfig ws o)
  | .close ws f => s.closeFile ws f

def Ws.run (s : Ws) : List Op → Option Ws
  | [] => some s
  | a :: as => (s.step a).bind (·.run as)

end Verif.Workspace
