import Verif.Basic
/-!
Model of the configuration of a workspace (`/repo/parser_library/src/workspaces/workspace.cpp`: C22), of the choice of the
workspace of a document (`/repo/parser_library/src/workspace_manager_impl.h`: C25) and of
`/repo/parser_library/src/lib_config.cpp` (C26).
-/
namespace Verif.Workspace

/-- A program entry of pgm_conf.json. -/
structure Pgm where
  program : Bytes
  pgroup : Bytes
deriving DecidableEq, Repr

/-- `proc_grps_` (key and the position of the group in the file that produced it), `exact_pgm_conf_`, `regex_pgm_conf_`. -/
structure Conf where
  procGrps : List (Bytes × Nat) := []
  exact : List (Bytes × Pgm) := []
  regex : List Pgm := []
deriving DecidableEq, Repr

/-- `std::unordered_map::find`/`emplace` on an association list with unique keys: an existing entry is kept. -/
def lookup {α} (m : List (Bytes × α)) (k : Bytes) : Option α := (m.find? (·.1 = k)).map (·.2)
def emplace {α} (m : List (Bytes × α)) (k : Bytes) (v : α) : List (Bytes × α) :=
  match lookup m k with
  | some _ => m
  | none => m ++ [(k, v)]

/-- `workspace::is_wildcard` (workspace.cpp:462-465). -/
def isWildcard (s : Bytes) : Bool := s.contains 42 || s.contains 63

/-- The loop over programs (workspace.cpp:393-412). The Windows separator change is left out; entries with an unknown
group only produce a diagnostic. -/
def Conf.addPgm (c : Conf) (p : Pgm) : Conf :=
  match lookup c.procGrps p.pgroup with
  | none => c
  | some _ =>
    if !isWildcard p.program then { c with exact := emplace c.exact p.program p }
    else { c with regex := c.regex ++ [p] }

/-- The loop over processor groups (workspace.cpp:358-390, `add_proc_grp`). Groups are identified by their position. -/
def Conf.addGroups (c : Conf) : Nat → List Bytes → Conf
  | _, [] => c
  | i, g :: gs => Conf.addGroups { c with procGrps := emplace c.procGrps g i } (i + 1) gs

/-- `load_and_process_config` with `load_config` (workspace.cpp:326-461). `none` for a file: it cannot be read or
parsed. -/
def Conf.load (c : Conf) (groups : Option (List Bytes)) (pgms : Option (List Pgm)) : Conf :=
  match groups with
  | none => c
  | some gs =>
    let c := { c with procGrps := [] }
    match pgms with
    | none => c
    | some ps => ps.foldl Conf.addPgm ({ c with exact := [], regex := [] }.addGroups 0 gs)

/-- The group chosen for a program. -/
inductive Group
  | implicit
  | group (i : Nat)
  | outOfRange -- `unordered_map::at` throws
deriving DecidableEq, Repr

/-- `get_proc_grp_by_program` (workspace.cpp:130-147) for a path relative to the workspace; `rx pattern file` is
`std::regex_match(file, wildcard2regex(pattern))`, see C23. -/
def Conf.select (c : Conf) (rx : Bytes → Bytes → Bool) (file : Bytes) : Group :=
  let at_ (g : Bytes) := match lookup c.procGrps g with | some i => Group.group i | none => .outOfRange
  match lookup c.exact file with
  | some p => at_ p.pgroup
  | none =>
    match c.regex.find? fun p => rx p.program file with
    | some p => at_ p.pgroup
    | none => .implicit

/-- `prefix_match` (workspace_manager_impl.h:255-267): length of the common prefix. -/
def prefixMatch : Bytes → Bytes → Nat
  | a :: as, b :: bs => if a = b then prefixMatch as bs + 1 else 0
  | _, _ => 0

/-- `ws_path_match` (workspace_manager_impl.h:211-228) over the workspaces (name, URI) in map order. -/
def wsPathMatch (doc : Bytes) : List (Bytes × Bytes) → Nat → Option (Bytes × Bytes) → Option (Bytes × Bytes)
  | [], _, best => best
  | w :: ws, max, best =>
    let m := prefixMatch doc w.2
    if m > max ∧ m ≥ w.1.length then wsPathMatch doc ws m (some w) else wsPathMatch doc ws max best

/-- `add_workspace` and `remove_workspace` (workspace_manager_impl.h:55-71): the map is keyed by name. -/
def addWorkspace (m : List (Bytes × Bytes)) (name uri : Bytes) : List (Bytes × Bytes) := emplace m name uri
def removeWorkspace (m : List (Bytes × Bytes)) (uri : Bytes) : List (Bytes × Bytes) := m.filter (·.1 ≠ uri)

/-- `lib_config` (lib_config.h): the optional limit. -/
abbrev LibConfig := Option Int

/-- `lib_config::load_from_json(json)` (lib_config.cpp:32-46). -/
def clientConfig (v : Option Int) : LibConfig := v.map fun i => if i < 0 then 0 else i
/-- `lib_config::load_from_json(pgm_conf)` (lib_config.cpp:48-56). -/
def programConfig (v : Option Int) : LibConfig := v
/-- `combine_two_configs` (lib_config.cpp:63-69). -/
def combineConfigs (a b : LibConfig) : LibConfig := if a.isNone then b else a
/-- `fill_missing_settings` with the default of 10 (lib_config.cpp:24-30, 58-61). -/
def fillMissing (a b : LibConfig) : LibConfig := combineConfigs (combineConfigs a b) (some 10)
/-- `workspace::get_config` (workspace.cpp:128). -/
def getConfig (local_ global : LibConfig) : LibConfig := fillMissing local_ global

end Verif.Workspace
