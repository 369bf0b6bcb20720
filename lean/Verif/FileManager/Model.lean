import Verif.TextSync.Model
/-!
Model of `/repo/parser_library/src/workspaces/file_manager_impl.cpp`: a map from URIs to shared file objects with
copy-on-write. Objects live in a heap addressed by numbers; `held` counts the `shared_ptr`s owned outside the manager.
The mutex `files_mutex` makes every operation atomic. Whether a file object is a `processor_file` is the flag `isProc`
(the other members of `processor_file_impl` are not modelled here).
-/
namespace Verif.FileManager
open Verif.TextSync

/-- A file object: `file_impl` or `processor_file_impl` (processor_file_impl.h). -/
structure Obj where
  file : File := {}
  isProc : Bool := false
deriving DecidableEq, Repr

structure Mgr where
  heap : Nat → Obj
  next : Nat
  files : String → Option Nat
  held : Nat → Nat

/-- An empty manager. -/
def Mgr.init : Mgr := { heap := fun _ => {}, next := 0, files := fun _ => none, held := fun _ => 0 }

def upd {α β} [DecidableEq α] (f : α → β) (a : α) (b : β) : α → β := fun x => if x = a then b else f x

/-- Allocation of an object (`std::make_shared`) referenced by the map under `uri`. -/
def Mgr.alloc (m : Mgr) (uri : String) (o : Obj) : Mgr × Nat :=
  ({ m with heap := upd m.heap m.next o, next := m.next + 1, files := upd m.files uri (some m.next) }, m.next)

/-- `files_.emplace(uri, make_shared<file_impl>(uri))` (file_manager_impl.cpp:36, 149): keeps an existing entry. -/
def Mgr.emplace (m : Mgr) (uri : String) : Mgr × Nat :=
  match m.files uri with
  | some id => (m, id)
  | none => m.alloc uri {}

/-- `prepare_file_for_change_` (file_manager_impl.cpp:134-144): copy when somebody else holds the object. -/
def Mgr.prepare (m : Mgr) (uri : String) (id : Nat) : Mgr × Nat :=
  if m.held id = 0 then (m, id) else m.alloc uri (m.heap id)

def Mgr.setFile (m : Mgr) (id : Nat) (f : File) : Mgr :=
  { m with heap := upd m.heap id { m.heap id with file := f } }

/-- `did_open_file` (file_manager_impl.cpp:146-152). -/
def Mgr.didOpen (m : Mgr) (uri : String) (version : Nat) (text : Bytes) : Mgr :=
  let (m1, id1) := m.emplace uri
  let (m2, id2) := m1.prepare uri id1
  m2.setFile id2 ((m2.heap id2).file.didOpen text version)

/-- `did_change_file` (file_manager_impl.cpp:154-177); `none` when a change throws or is undefined. -/
def Mgr.didChange (m : Mgr) (uri : String) (cs : List Change) : Option Mgr :=
  match m.files uri with
  | none => some m
  | some id =>
    let (m2, id2) := m.prepare uri id
    ((m2.heap id2).file.changes cs).map (m2.setFile id2)

/-- `did_close_file` (file_manager_impl.cpp:179-191). -/
def Mgr.didClose (m : Mgr) (uri : String) : Mgr :=
  match m.files uri with
  | none => m
  | some id =>
    let (m2, id2) := m.prepare uri id
    m2.setFile id2 (m2.heap id2).file.didClose

/-- `remove_file` (file_manager_impl.cpp:79-88). -/
def Mgr.remove (m : Mgr) (uri : String) : Mgr := { m with files := upd m.files uri none }

/-- `add_file` (file_manager_impl.cpp:33-38): the returned pointer is a new holder. -/
def Mgr.addFile (m : Mgr) (uri : String) : Mgr :=
  let (m1, id) := m.emplace uri
  { m1 with held := upd m1.held id (m1.held id + 1) }

/-- `find` (file_manager_impl.cpp:90-98): the returned pointer is a new holder. -/
def Mgr.find (m : Mgr) (uri : String) : Mgr :=
  match m.files uri with
  | none => m
  | some id => { m with held := upd m.held id (m.held id + 1) }

/-- `change_into_processor_file_if_not_already_` (file_manager_impl.cpp:40-51): moves the content of a plain file into a
new processor file. The moved-from object is left empty (the state libstdc++ and libc++ leave). -/
def Mgr.intoProcessor (m : Mgr) (uri : String) (id : Nat) : Mgr × Nat :=
  if (m.heap id).isProc then (m, id)
  else
    let m1 := m.setFile id { (m.heap id).file with text := [], lines := [] }
    m1.alloc uri { file := (m.heap id).file, isProc := true }

/-- `find_processor_file` (file_manager_impl.cpp:100-108). -/
def Mgr.findProcessor (m : Mgr) (uri : String) : Mgr :=
  match m.files uri with
  | none => m
  | some id =>
    let (m1, id1) := m.intoProcessor uri id
    { m1 with held := upd m1.held id1 (m1.held id1 + 1) }

/-- A holder drops its pointer. -/
def Mgr.release (m : Mgr) (id : Nat) : Mgr := { m with held := upd m.held id (m.held id - 1) }

/-- `update_and_get_bad` called through a pointer, with what the disk holds at that moment. -/
def Mgr.update (m : Mgr) (id : Nat) (disk : Option Bytes) : Mgr :=
  if id < m.next then m.setFile id ((m.heap id).file.updateAndGetBad disk).1 else m

/-- `get_text` called through a pointer, with what the disk holds at that moment. -/
def Mgr.getText (m : Mgr) (id : Nat) (disk : Option Bytes) : Mgr :=
  if id < m.next then m.setFile id ((m.heap id).file.getText disk).1 else m

inductive Op where
  | didOpen (uri : String) (version : Nat) (text : Bytes)
  | didChange (uri : String) (cs : List Change)
  | didClose (uri : String)
  | remove (uri : String)
  | addFile (uri : String)
  | find (uri : String)
  | findProcessor (uri : String)
  | release (id : Nat)
  | update (id : Nat) (disk : Option Bytes)
  | getText (id : Nat) (disk : Option Bytes)

def Mgr.step (m : Mgr) : Op → Option Mgr
  | .didOpen u v t => some (m.didOpen u v t)
  | .didChange u cs => m.didChange u cs
  | .didClose u => some (m.didClose u)
  | .remove u => some (m.remove u)
  | .addFile u => some (m.addFile u)
  | .find u => some (m.find u)
  | .findProcessor u => some (m.findProcessor u)
  | .release id => some (m.release id)
  | .update id d => some (m.update id d)
  | .getText id d => some (m.getText id d)

/-- A sequence of operations; `none` when one of them fails. -/
def Mgr.run (m : Mgr) : List Op → Option Mgr
  | [] => some m
  | o :: os => (m.step o).bind (·.run os)

end Verif.FileManager
