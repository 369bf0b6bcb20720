import Verif.Basic
/-!
Model of the suppression of diagnostics of programs without a processor group (C125): `workspace::parse_file`, `delete_diags`,
`did_close_file` (`/repo/parser_library/src/workspaces/workspace.cpp`), `processor_file_impl::parse`.

An analysis is given by an arbitrary function of the texts, the processor group and the program. Not modelled: cancelled
analyses (skipped at workspace.cpp:207), which members are dropped from memory (C24, C120), how the group of a program and the
limit are found (C22, C26, C114).
-/
namespace Verif.Suppress

abbrev File := Nat
abbrev Text := Nat
abbrev Diag := Nat
abbrev Group := Nat

/-- The result of an analysis: the diagnostics kept with the program, and for each member used from a library those of reading
it, which are kept with the member (processor_file_impl.cpp:71-78, 119-134). -/
structure Result where
  own : List Diag
  members : List (File × List Diag)

/-- Analyses: the texts, the group of the program (`none`: the implicit group), the program. -/
abbrev Analysis := (File → Text) → Option Group → File → Result

/-- The configuration files: `get_proc_grp_by_program` (workspace.cpp:127-145; `none`: `implicit_proc_grp`), `local_config_`. -/
structure Conf where
  group : File → Option Group
  limit : Option Nat

/-- The workspace: texts of documents, `diags()` and `dependencies_` of files, `dependants_`, `diag_suppress_notified_`, the
configuration, the limit in the global configuration (default 10). -/
structure St where
  text : File → Text := fun _ => 0
  diags : File → List Diag := fun _ => []
  deps : File → List File := fun _ => []
  dependants : List File := []
  notified : File → Bool := fun _ => false
  conf : Conf
  global : Nat := 10

/-- A function changed at one place. -/
def upd {β : Type} (f : File → β) (a : File) (b : β) : File → β := fun x => if x = a then b else f x

/-- What happens to the diagnostics of a program: suppressed (with or without a message), kept, or gone with the document. -/
inductive Out
  | suppressed (p : File) (message : Bool)
  | kept (p : File)
  | closed (p : File)
deriving DecidableEq, Repr

/-- `get_config().diag_supress_limit` (workspace.cpp:125, lib_config.cpp:63-69). -/
def St.limit (s : St) : Nat := s.conf.limit.getD s.global

/-- The members' diagnostics. -/
def setAll (f : File → List Diag) : List (File × List Diag) → File → List Diag
  | [] => f
  | m :: ms => setAll (upd f m.1 m.2) ms

/-- `processor_file_impl::parse` (processor_file_impl.cpp:43-69, 119-134). -/
def St.parse (A : Analysis) (s : St) (p : File) : St :=
  let r := A s.text (s.conf.group p) p
  { s with diags := upd (setAll (upd s.diags p []) r.members) p r.own,
           deps := upd s.deps p ((r.members.map (·.1)).filter (· ≠ p)) }

/-- `delete_diags` (workspace.cpp:104-119). -/
def St.deleteDiags (s : St) (p : File) : St × Out :=
  ({ s with diags := fun x => if x = p ∨ x ∈ s.deps p then [] else s.diags x, notified := upd s.notified p true },
    .suppressed p (!s.notified p))

/-- One program in the loop of `parse_file` (workspace.cpp:200-217). -/
def St.parseOne (A : Analysis) (s : St) (p : File) : St × Out :=
  let s := s.parse A p
  let s := if s.deps p = [] ∨ p ∈ s.dependants then s else { s with dependants := s.dependants ++ [p] }
  if s.conf.group p = none ∧ (s.diags p).length > s.limit then s.deleteDiags p
  else ({ s with notified := upd s.notified p false }, .kept p)

/-- The loop (workspace.cpp:200-217). -/
def St.parseMany (A : Analysis) (s : St) : List File → St × List Out
  | [] => (s, [])
  | p :: ps =>
    let r := s.parseOne A p
    let r' := r.1.parseMany A ps
    (r'.1, r.2 :: r'.2)

/-- The programs to analyse when a file changed (workspace.cpp:176-198). -/
def St.related (s : St) (f : File) : List File :=
  let l := s.dependants.filter (fun d => (s.deps d).contains f)
  if l = [] then [f] else l

/-- What happens: a document is opened, or changed; a configuration file is opened, changed or saved and can be read; the
setting of the limit is changed; a document is closed. -/
inductive Ev
  | edit (f : File) (t : Text)
  | config (c : Conf)
  | setting (limit : Nat)
  | close (f : File)

/-- `did_open_file` and `did_change_file` (workspace.cpp:234, 264), `parse_file` (workspace.cpp:149-222), `configuration_changed`
(workspace_manager_impl.h), `did_close_file` (workspace.cpp:236-262). -/
def St.step (A : Analysis) (s : St) : Ev → St × List Out
  | .edit f t => let s := { s with text := upd s.text f t }; s.parseMany A (s.related f)
  | .config c => (s.dependants.foldl (St.parse A) { s with conf := c }, [])
  | .setting g => ({ s with global := g }, [])
  | .close f =>
    let s := { s with notified := upd s.notified f false }
    if s.dependants.any (fun d => (s.deps d).contains f) then (s, [.closed f])
    else ({ s with dependants := s.dependants.filter (· ≠ f), diags := upd s.diags f [], deps := upd s.deps f [] }, [.closed f])

/-- A history: the state and what happened. -/
def St.run (A : Analysis) (s : St) : List Ev → St × List Out
  | [] => (s, [])
  | e :: es =>
    let r := s.step A e
    let r' := r.1.run A es
    (r'.1, r.2 ++ r'.2)

end Verif.Suppress
