import Verif.Session.Model
/-!
What a debug session may rely on (C138): every text it analyses under the name of a document that is open in the editor is the text the
document had when the session looked it up; what the session does leaves the documents alone; and nothing done in the editor while it runs
makes it fail.
-/
namespace Verif.Session
open Verif.TextSync Verif.FileManager

/-- What the editor did with the files. -/
def told (evs : List Ev) : List Op :=
  evs.filterMap fun e => match e with
    | .editor o => some o
    | _ => none

/-- The session and the workspace at the start. -/
def start (libs : List Lib) : Sys := { libs := libs }

/-- Whether the session is looking for a member. -/
def Sys.searching (s : Sys) : Prop :=
  ∃ name gen i rest, s.stack = .looking name gen i :: rest ∨ s.stack = .inFind name gen i :: rest

/-- The only things in the editor that a session does not survive. -/
inductive Disturbs (s : Sys) : Ev → Prop where
  /-- the configuration is read again while the session is looking for a member -/
  | reload (libs : List Lib) (h : s.searching) : Disturbs s (.reload libs)
  /-- a library is listed again while the session is in it -/
  | refresh {name : String} {gen i : Nat} {rest : List Act} (now : List (String × String)) (h : s.stack = .inFind name gen i :: rest) :
    Disturbs s (.refresh i now)
  /-- both are the first to look into a library -/
  | list {name : String} {gen i : Nat} {rest : List Act} {l : Lib} (now : List (String × String))
    (h : s.stack = .inFind name gen i :: rest) (hl : s.libs[i]? = some l) (hn : l.listed = false) : Disturbs s (.editorLook i now)
  /-- both are the first to read a file -/
  | load {uri : String} {id time : Nat} {rest : List Act} (disk : Option Bytes) (h : s.stack = .reading uri id time :: rest)
    (hn : (s.mgr.heap id).file.upToDate = false) : Disturbs s (.editor (.getText id disk))
  /-- a file that is not open is read again while the session reads it -/
  | update {uri : String} {id time : Nat} {rest : List Act} (disk : Option Bytes) (h : s.stack = .reading uri id time :: rest)
    (hn : (s.mgr.heap id).file.editing = false ∨ (s.mgr.heap id).file.upToDate = false) : Disturbs s (.editor (.update id disk))

end Verif.Session
