import Verif.FileManager.Props
/-!
A debug session and the editor at work at the same time.

Modelled: `debugging/debugger.cpp` 126-155 (`launch` and the thread it starts), `debugging/debug_lib_provider.h` (all lookups of a session),
`workspaces/processor_file_impl.cpp` 80-87 (`parse_no_lsp_update`), `workspaces/library_local.cpp` 83-100 (`refresh`, `find_file`), the part
of `workspaces/workspace.cpp` that reads the configuration again (`proc_grps_.clear()` in `load_config`, 430) and `refresh_libraries`
(224-233), and `file_manager_impl.cpp` (as in `Verif/FileManager/Model.lean`, with `add_processor_file` and `get_processor_file`). The
thread of the session and the thread of the editor share the file manager, the processor groups and the libraries; only the map of the
file manager is behind a mutex.

What the session asks for depends on texts and is left open: the events of a run say it. Work of the session that is not atomic is two
events, one for its beginning and one for its end; work of the editor is one event. An access of the editor to something the session is in
the middle of accessing, one of the two changing it, is a data race. The program has one processor group.
-/
namespace Verif.Session
open Verif.TextSync Verif.FileManager

/-- How it ends otherwise. -/
inductive Bad where
  /-- a data race: undefined behaviour -/
  | raced
  /-- a reference to a processor group that is no more is followed: undefined behaviour -/
  | dangling
  /-- an exception in the thread of the editor (file_impl.cpp 128-180) -/
  | thrown
deriving DecidableEq, Repr

/-- A library (`library_local.h`): whether its directory is listed (`files_loaded_`), and the paths of its members (`files_`). -/
structure Lib where
  listed : Bool := false
  files : List (String × String) := []
deriving DecidableEq, Repr

/-- What the session is doing, innermost first. -/
inductive Act where
  /-- in the loop of `debug_lib_provider::parse_library` (debug_lib_provider.h 41-47), before library `i`; `gen` tells which reading of the
  configuration the referenced group is of -/
  | looking (name : String) (gen i : Nat)
  /-- in `find_file` of library `i` -/
  | inFind (name : String) (gen i : Nat)
  /-- it holds the pointer to the file, taken at that time -/
  | found (uri : String) (id time : Nat)
  /-- in `get_text` -/
  | reading (uri : String) (id time : Nat)
  /-- the analyzer of the file is at work; it holds the pointer -/
  | parsing (uri : String) (id time : Nat)
deriving DecidableEq, Repr

/-- A text that the session analyses: of which file, when the file was looked up, and the text. -/
structure Read where
  uri : String
  time : Nat
  text : Bytes
deriving DecidableEq, Repr

/-- Everything the threads share, and the thread of the session. -/
structure Sys where
  mgr : Mgr := Mgr.init
  /-- how often the configuration has been read again -/
  gen : Nat := 0
  libs : List Lib := []
  stack : List Act := []
  reads : List Read := []
  clock : Nat := 0

/-- What happens. -/
inductive Ev where
  /-- the client starts debugging (debugger.cpp 126-134) -/
  | launch (uri : String)
  /-- the program needs a member (debug_lib_provider.h 38-41) -/
  | ask (name : String)
  /-- `find_file` of the next library begins -/
  | enter
  /-- and ends; `now` is what the directory holds -/
  | leave (now : List (String × String))
  /-- `get_text` begins -/
  | read
  /-- and ends; `disk` is what the disk holds -/
  | analyse (disk : Option Bytes)
  /-- a file is analysed to its end -/
  | finish
  /-- the editor uses the file manager -/
  | editor (o : Op)
  /-- an analysis for the editor gets a member (library_local.cpp 97) -/
  | editorAdd (uri : String)
  /-- an analysis for the editor looks into library `i` -/
  | editorLook (i : Nat) (now : List (String × String))
  /-- files were changed: library `i` is listed again (workspace.cpp 224-233) -/
  | refresh (i : Nat) (now : List (String × String))
  /-- the configuration is read again (workspace.cpp 326-345, 430) -/
  | reload (libs : List Lib)

/-- A new holder of the object. -/
def hold (m : Mgr) (id : Nat) : Mgr := { m with held := upd m.held id (m.held id + 1) }

/-- `add_processor_file` (file_manager_impl.cpp 53-65): the manager, and the object the pointer is to. -/
def addProcessor (m : Mgr) (u : String) : Mgr × Nat :=
  match m.files u with
  | none => let r := m.alloc u { isProc := true }; (hold r.1 r.2, r.2)
  | some id => let r := m.intoProcessor u id; (hold r.1 r.2, r.2)

/-- `get_processor_file` (file_manager_impl.cpp 67-77): the object for a file that is not in the map is not put there. -/
def getProcessor (m : Mgr) (u : String) : Mgr × Nat :=
  match m.files u with
  | none => (hold { m with heap := upd m.heap m.next { isProc := true }, next := m.next + 1 } m.next, m.next)
  | some id => let r := m.intoProcessor u id; (hold r.1 r.2, r.2)

/-- The object an activity holds a pointer to. -/
def Act.holds : Act → Option Nat
  | .looking .. => none
  | .inFind .. => none
  | .found _ id _ => some id
  | .reading _ id _ => some id
  | .parsing _ id _ => some id

/-- The pointers of the session. -/
def Sys.mine (s : Sys) : List Nat := s.stack.filterMap Act.holds

/-- `load_files` (library_local.cpp 102-158): the directory is listed. -/
def Lib.list (l : Lib) (now : List (String × String)) : Lib := if l.listed then l else ⟨true, now⟩

/-- What the session is in the middle of doing with library `i`. -/
def Sys.inLib (s : Sys) (i : Nat) : Bool :=
  match s.stack with
  | .inFind _ _ j :: _ => i == j
  | _ => false

/-- Whether the session is in the middle of using its processor group. -/
def Sys.inGroup (s : Sys) : Bool :=
  match s.stack with
  | .inFind .. :: _ => true
  | _ => false

/-- Whether the session is in the middle of reading the text of object `id`. -/
def Sys.inText (s : Sys) (id : Nat) : Bool :=
  match s.stack with
  | .reading _ i _ :: _ => i == id
  | _ => false

/-- Whether library `i` is listed. -/
def Sys.listed (s : Sys) (i : Nat) : Bool :=
  match s.libs[i]? with
  | some l => l.listed
  | none => true

/-- Whether an operation of the editor meets the session in the text of a file: `get_text` changes it if it is not up to date, for both;
`update_and_get_bad` does if the file is not open (file_impl.cpp 37-42, 197-205). Pointers of the editor are only dropped by the editor. -/
def Sys.meets (s : Sys) : Op → Bool
  | .getText id _ => s.inText id && !(s.mgr.heap id).file.upToDate
  | .update id _ => s.inText id && (!(s.mgr.heap id).file.editing || !(s.mgr.heap id).file.upToDate)
  | _ => false

/-- Whether the editor can do this: it drops only pointers of its own. -/
def Sys.can (s : Sys) : Op → Bool
  | .release id => s.mine.count id < s.mgr.held id
  | _ => true

/-- An operation of the editor on the file manager. -/
def Sys.operate (s : Sys) (o : Op) : Except Bad Sys :=
  if s.meets o then .error .raced
  else if s.can o then
    match s.mgr.step o with
    | some m => .ok { s with mgr := m }
    | none => .error .thrown
  else .ok s

/-- What a library has under a name. -/
def Lib.path (l : Lib) (name : String) : Option String := l.files.lookup name

/-- The end of `find_file` of library `i` (library_local.cpp 91-100; debug_lib_provider.h 43-46). -/
def Sys.endFind (s : Sys) (name : String) (gen i : Nat) (rest : List Act) (now : List (String × String)) : Sys :=
  match s.libs[i]? with
  | none => s
  | some l =>
    let l := l.list now
    let s := { s with libs := s.libs.set i l }
    match l.path name with
    | none => { s with stack := .looking name gen (i + 1) :: rest }
    | some u => let r := addProcessor s.mgr u; { s with mgr := r.1, stack := .found u r.2 s.clock :: rest }

/-- One event; what cannot happen at the time changes nothing. -/
def Sys.act (s : Sys) : Ev → Except Bad Sys
  | .launch u =>
    match s.stack with
    | [] => let r := getProcessor s.mgr u; .ok { s with mgr := r.1, stack := [.found u r.2 s.clock] }
    | _ => .ok s
  | .ask name =>
    match s.stack with
    | .parsing u id t :: rest => .ok { s with stack := .looking name s.gen 0 :: .parsing u id t :: rest }
    | _ => .ok s
  | .enter =>
    match s.stack with
    | .looking name gen i :: rest =>
      if gen ≠ s.gen then .error .dangling
      else if i < s.libs.length then .ok { s with stack := .inFind name gen i :: rest }
      else .ok { s with stack := rest }
    | _ => .ok s
  | .leave now =>
    match s.stack with
    | .inFind name gen i :: rest => .ok (s.endFind name gen i rest now)
    | _ => .ok s
  | .read =>
    match s.stack with
    | .found u id t :: rest => .ok { s with stack := .reading u id t :: rest }
    | _ => .ok s
  | .analyse disk =>
    match s.stack with
    | .reading u id t :: rest =>
      .ok { s with mgr := s.mgr.getText id disk, stack := .parsing u id t :: rest
                   reads := s.reads ++ [⟨u, t, ((s.mgr.heap id).file.getText disk).2⟩] }
    | _ => .ok s
  | .finish =>
    match s.stack with
    | .parsing _ id _ :: rest => .ok { s with mgr := s.mgr.release id, stack := rest }
    | _ => .ok s
  | .editor o => s.operate o
  | .editorAdd u => .ok { s with mgr := (addProcessor s.mgr u).1 }
  | .editorLook i now =>
    if s.inLib i && !s.listed i then .error .raced
    else
      match s.libs[i]? with
      | some l => .ok { s with libs := s.libs.set i (l.list now) }
      | none => .ok s
  | .refresh i now =>
    if s.inLib i then .error .raced else .ok { s with libs := s.libs.set i ⟨true, now⟩ }
  | .reload libs =>
    if s.inGroup then .error .raced else .ok { s with libs := libs, gen := s.gen + 1 }

/-- One event at a time. -/
def Sys.step (s : Sys) (e : Ev) : Except Bad Sys :=
  match s.act e with
  | .ok s' => .ok { s' with clock := s.clock + 1 }
  | .error b => .error b

/-- A run. -/
def Sys.run (s : Sys) : List Ev → Except Bad Sys
  | [] => .ok s
  | e :: es =>
    match s.step e with
    | .ok s' => s'.run es
    | .error b => .error b

end Verif.Session
