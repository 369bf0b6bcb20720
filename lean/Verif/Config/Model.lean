import Verif.Message.Model
import Verif.Workspace.Select
import Verif.Workspace.Library
/-!
The configuration files `proc_grps.json` and `pgm_conf.json`.

Modelled: `/repo/parser_library/src/config/proc_conf.cpp`, `pgm_conf.cpp` and `load_and_process_config`/`load_config` of
`workspaces/workspace.cpp` 326-461. The parser of JSON is not modelled: a file is unreadable, no JSON, or a JSON value. The values are
those of `Message.Model`. Operations on paths are a parameter; the change of separators on Windows is left out.
-/
namespace Verif.Config

open Message (Json text)

/-- How reading ends otherwise: with an exception of the JSON library, or undefined. -/
inductive Bad where
  | exn
  | ub
deriving DecidableEq, Repr

/-- Results of reading. -/
abbrev R := Except Bad

/-- `library` (`proc_conf.h` 26-31). -/
structure Library where
  path : Bytes
  exts : List Bytes := []
  optional : Bool := false
deriving DecidableEq, Repr

/-- `processor_group` with its `assembler_options` (`proc_conf.h` 35-52). -/
structure Group where
  name : Bytes
  libs : List Library
  sysparm : Bytes := []
  profile : Bytes := []
deriving DecidableEq, Repr

/-- `proc_conf` (`proc_conf.h` 56-60). -/
structure ProcConf where
  groups : List Group
  exts : List Bytes := []
deriving DecidableEq, Repr

/-- `pgm_conf` (`pgm_conf.h`). -/
structure PgmConf where
  pgms : List Workspace.Pgm
  always : List Bytes := []
  limit : Option Nat := none
deriving DecidableEq, Repr

/-! ### reading -/

/-- `j.at(key)`. -/
def «at» (j : Json) (k : String) : R Json :=
  match j.find (text k) with
  | some v => .ok v
  | none => .error .exn

/-- `get_to(std::string)`. -/
def str : Json → R Bytes
  | .str s => .ok s
  | _ => .error .exn

/-- `get_to(bool)`. -/
def bool : Json → R Bool
  | .bool b => .ok b
  | _ => .error .exn

/-- `get<unsigned>()`: a `static_cast`, also of truth values. -/
def unsigned : Json → R Nat
  | .int n => .ok (n % 2 ^ 32).toNat
  | .real n => if 0 ≤ n ∧ n < 2 ^ 32 then .ok n.toNat else .error .ub
  | .bool b => .ok (if b then 1 else 0)
  | _ => .error .exn

/-- All elements. -/
def all {α : Type} (f : Json → R α) : List Json → R (List α)
  | [] => .ok []
  | j :: l => do
    let a ← f j
    let as ← all f l
    return a :: as

/-- `get_to(std::vector)`. -/
def vec {α : Type} (f : Json → R α) : Json → R (List α)
  | .arr l => all f l
  | _ => .error .exn

/-- `if (auto it = j.find(key); it != j.end()) it->get_to(...)`. -/
def optional {α : Type} (j : Json) (k : String) (f : Json → R α) (d : α) : R α :=
  match j.find (text k) with
  | some v => f v
  | none => .ok d

/-- `from_json` of a library (`proc_conf.cpp` 27-41). -/
def library : Json → R Library
  | .str s => .ok ⟨s, [], false⟩
  | .obj m => do
    let p ← str (← «at» (.obj m) "path")
    let o ← optional (.obj m) "optional" bool false
    let e ← optional (.obj m) "macro_extensions" (vec str) []
    return ⟨p, e, o⟩
  | _ => .error .exn

/-- `from_json` of the options (`proc_conf.cpp` 51-60): SYSPARM and PROFILE. -/
def options : Json → R (Bytes × Bytes)
  | .obj m => do
    let p ← optional (.obj m) "PROFILE" str []
    let s ← optional (.obj m) "SYSPARM" str []
    return (s, p)
  | _ => .error .exn

/-- `from_json` of a group (`proc_conf.cpp` 68-74). -/
def group (j : Json) : R Group := do
  let n ← str (← «at» j "name")
  let l ← vec library (← «at» j "libs")
  let o ← optional j "asm_options" options ([], [])
  return ⟨n, l, o.1, o.2⟩

/-- `from_json` of `proc_grps.json` (`proc_conf.cpp` 82-87). -/
def procConf (j : Json) : R ProcConf := do
  let g ← vec group (← «at» j "pgroups")
  let e ← optional j "macro_extensions" (vec str) []
  return ⟨g, e⟩

/-- `from_json` of a program (`pgm_conf.cpp` 26-30). -/
def mapping (j : Json) : R Workspace.Pgm := do
  let p ← str (← «at» j "program")
  let g ← str (← «at» j "pgroup")
  return ⟨p, g⟩

/-- `from_json` of `pgm_conf.json` (`pgm_conf.cpp` 41-48). -/
def pgmConf (j : Json) : R PgmConf := do
  let p ← vec mapping (← «at» j "pgms")
  let a ← optional j "alwaysRecognize" (vec str) []
  let l ← optional j "diagnosticsSuppressLimit" (fun v => (unsigned v).map some) none
  return ⟨p, a, l⟩

/-! ### writing -/

/-- A list of texts. -/
def strsJson (l : List Bytes) : Json := .arr (l.map .str)

/-- A member if the list is not empty. -/
def listMember (k : String) (l : List Bytes) : List (Bytes × Json) := if l.isEmpty then [] else [(text k, strsJson l)]

/-- A member if the text is not empty. -/
def textMember (k : String) (l : Bytes) : List (Bytes × Json) := if l.isEmpty then [] else [(text k, .str l)]

/-- `to_json` of a library (`proc_conf.cpp` 21-26). -/
def Library.json (l : Library) : Json :=
  .obj ([(text "path", .str l.path), (text "optional", .bool l.optional)] ++ listMember "macro_extensions" l.exts)

/-- `to_json` of the options (`proc_conf.cpp` 43-50). -/
def optionMembers (g : Group) : List (Bytes × Json) := textMember "PROFILE" g.profile ++ textMember "SYSPARM" g.sysparm

/-- `to_json` of a group (`proc_conf.cpp` 62-67). -/
def Group.json (g : Group) : Json :=
  .obj ([(text "name", .str g.name), (text "libs", .arr (g.libs.map Library.json))] ++
    if (optionMembers g).isEmpty then [] else [(text "asm_options", .obj (optionMembers g))])

/-- `to_json` of `proc_grps.json` (`proc_conf.cpp` 76-81). -/
def ProcConf.json (c : ProcConf) : Json :=
  .obj ([(text "pgroups", .arr (c.groups.map Group.json))] ++ listMember "macro_extensions" c.exts)

/-- `to_json` of a program (`pgm_conf.cpp` 21-24). -/
def mappingJson (p : Workspace.Pgm) : Json := .obj [(text "program", .str p.program), (text "pgroup", .str p.pgroup)]

/-- `to_json` of `pgm_conf.json` (`pgm_conf.cpp` 32-39). -/
def PgmConf.json (c : PgmConf) : Json :=
  .obj ([(text "pgms", .arr (c.pgms.map mappingJson))] ++ listMember "alwaysRecognize" c.always ++
    match c.limit with
    | some n => [(text "diagnosticsSuppressLimit", .int n)]
    | none => [])

/-! ### taking effect -/

/-- The operations on paths used: `is_absolute`, `join`, `lexically_normal`. -/
structure Paths where
  absolute : Bytes → Bool
  join : Bytes → Bytes → Bytes
  normal : Bytes → Bytes

/-- `rfind("*.")` and what is behind the asterisk (`workspace.cpp` 343-351). -/
def extOf : Bytes → Option Bytes
  | [] => none
  | c :: r => match extOf r with
    | some e => some e
    | none => if c = 42 ∧ r.head? = some 46 then some r else none

/-- The extensions of `alwaysRecognize` (`workspace.cpp` 343-356). -/
def compat (always : List Bytes) : List Bytes := Workspace.unique ((always.filterMap extOf).mergeSort Workspace.lexLe)

/-- A library with its options (`library_local.h`). -/
structure Lib where
  path : Bytes
  exts : List Bytes
  deprecated : Bool
  optional : Bool
deriving DecidableEq, Repr

/-- The path of a library (`workspace.cpp` 367-374). -/
def libPath (ops : Paths) (ws : Bytes) (p : Bytes) : Bytes :=
  let q := if p.isEmpty then [] else ops.join p []
  ops.normal (if ops.absolute q then q else ops.join ws q)

/-- A library (`workspace.cpp` 365-388). -/
def libOf (ops : Paths) (ws : Bytes) (exts always : List Bytes) (l : Library) : Lib :=
  if !l.exts.isEmpty then ⟨libPath ops ws l.path, l.exts, false, l.optional⟩
  else if !exts.isEmpty then ⟨libPath ops ws l.path, exts, false, l.optional⟩
  else if !(compat always).isEmpty then ⟨libPath ops ws l.path, compat always, true, l.optional⟩
  else ⟨libPath ops ws l.path, [], false, l.optional⟩

/-- A processor group that has been made (`processor_group.h`). -/
structure Grp where
  name : Bytes
  libs : List Lib
  sysparm : Bytes
  profile : Bytes
deriving DecidableEq, Repr

/-- A group (`workspace.cpp` 359-391). -/
def grpOf (ops : Paths) (ws : Bytes) (c : ProcConf) (always : List Bytes) (g : Group) : Grp :=
  ⟨g.name, g.libs.map (libOf ops ws c.exts always), g.sysparm, g.profile⟩

/-- Messages about the configuration. -/
inductive Diag where
  | W002
  | W003
  | W004
  | W005 (group : Bytes)
deriving DecidableEq, Repr

/-- `assembler_options::valid` (`proc_conf.h` 40) and the loop in `load_config` (`workspace.cpp` 431-433). -/
def optionDiags (c : ProcConf) : List Diag := (c.groups.filter fun g => !(decide (g.sysparm.length < 256))).map fun g => .W005 g.name

/-- A configuration file: it cannot be read, it is no JSON, or it is. -/
inductive File where
  | unreadable
  | garbage
  | json (j : Json)

/-- The configuration of a workspace: the groups, what programs are mapped to (C22; groups are numbers there), the limit, messages. -/
structure State where
  groups : List Grp := []
  conf : Workspace.Conf := {}
  limit : Option Nat := none
  diags : List Diag := []

/-- The second file (`workspace.cpp` 343-413 and 442-459), after the first one was read. `none`: undefined. -/
def loadPrograms (ops : Paths) (ws : Bytes) (s : State) (c : ProcConf) (pgm : File) : Option State :=
  let d := optionDiags c
  let bad : State := { s with conf := s.conf.load (some []) none, groups := [] }
  match pgm with
  | .unreadable => some { bad with diags := d }
  | .garbage => some { bad with diags := d ++ [.W003] }
  | .json j => match pgmConf j with
    | .error .ub => none
    | .error .exn => some { bad with diags := d ++ [.W003] }
    | .ok p => some {
        groups := c.groups.map (grpOf ops ws c p.always)
        conf := s.conf.load (some (c.groups.map (·.name))) (some p.pgms)
        limit := p.limit
        diags := d ++ (p.pgms.filter fun m => !(decide (m.pgroup ∈ c.groups.map (·.name)))).map fun _ => .W004 }

/-- `load_and_process_config` (`workspace.cpp` 326-461). -/
def load (ops : Paths) (ws : Bytes) (s : State) (proc pgm : File) : Option State :=
  match proc with
  | .unreadable => some { s with diags := [] }
  | .garbage => some { s with diags := [.W002] }
  | .json j => match procConf j with
    | .error .ub => none
    | .error .exn => some { s with diags := [.W002] }
    | .ok c => loadPrograms ops ws s c pgm

/-- The group of a program (`workspace.cpp` 130-147): C22 gives its number. `none`: the implicit group, or an exception. -/
def State.group (s : State) (rx : Bytes → Bytes → Bool) (file : Bytes) : Option Grp :=
  match s.conf.select rx file with
  | .group i => s.groups[i]?
  | _ => none

end Verif.Config
