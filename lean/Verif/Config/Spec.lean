import Verif.Config.Model
import Verif.Message.Spec
/-!
What the configuration files say.
-/
namespace Verif.Config

open Message (Json text Has Lacks Proper)

/-- A member that may be left out. -/
inductive Maybe {α : Type} (j : Json) (k : String) (r : Json → α → Prop) (d : α) : α → Prop where
  | there {v : Json} {a : α} : Has j k v → r v a → Maybe j k r d a
  | missing : Lacks j k → Maybe j k r d d

/-- A text. -/
inductive IsText : Json → Bytes → Prop where
  | mk (s : Bytes) : IsText (.str s) s

/-- A truth value. -/
inductive IsBool : Json → Bool → Prop where
  | mk (b : Bool) : IsBool (.bool b) b

/-- A list. -/
inductive IsList {α : Type} (r : Json → α → Prop) : Json → List α → Prop where
  | mk {l : List Json} {as : List α} : List.Forall₂ r l as → IsList r (.arr l) as

/-- A limit: a number that fits into 32 bits. -/
inductive IsLimit : Json → Option Nat → Prop where
  | mk (n : Nat) : n < 2 ^ 32 → IsLimit (.int n) (some n)

/-- A library: its path alone, or an object. -/
inductive IsLibrary : Json → Library → Prop where
  | path (p : Bytes) : IsLibrary (.str p) ⟨p, [], false⟩
  | object {j v : Json} {p : Bytes} {o : Bool} {e : List Bytes} : Has j "path" v → IsText v p → Maybe j "optional" IsBool false o →
      Maybe j "macro_extensions" (IsList IsText) [] e → IsLibrary j ⟨p, e, o⟩

/-- Options of the assembler. -/
inductive IsOptions : Json → Bytes × Bytes → Prop where
  | mk {m : List (Bytes × Json)} {s p : Bytes} : Maybe (.obj m) "PROFILE" IsText [] p → Maybe (.obj m) "SYSPARM" IsText [] s →
      IsOptions (.obj m) (s, p)

/-- A processor group. -/
inductive IsGroup : Json → Group → Prop where
  | mk {j v w : Json} {n : Bytes} {l : List Library} {o : Bytes × Bytes} : Has j "name" v → IsText v n → Has j "libs" w →
      IsList IsLibrary w l → Maybe j "asm_options" IsOptions ([], []) o → IsGroup j ⟨n, l, o.1, o.2⟩

/-- The contents of `proc_grps.json`. -/
inductive IsProcConf : Json → ProcConf → Prop where
  | mk {j v : Json} {g : List Group} {e : List Bytes} : Has j "pgroups" v → IsList IsGroup v g →
      Maybe j "macro_extensions" (IsList IsText) [] e → IsProcConf j ⟨g, e⟩

/-- A program. -/
inductive IsMapping : Json → Workspace.Pgm → Prop where
  | mk {j v w : Json} {p g : Bytes} : Has j "program" v → IsText v p → Has j "pgroup" w → IsText w g → IsMapping j ⟨p, g⟩

/-- The contents of `pgm_conf.json`. -/
inductive IsPgmConf : Json → PgmConf → Prop where
  | mk {j v : Json} {p : List Workspace.Pgm} {a : List Bytes} {l : Option Nat} : Has j "pgms" v → IsList IsMapping v p →
      Maybe j "alwaysRecognize" (IsList IsText) [] a → Maybe j "diagnosticsSuppressLimit" IsLimit none l → IsPgmConf j ⟨p, a, l⟩

/-- The extension at the end of a wildcard: what is behind its last asterisk that is followed by a full stop. -/
inductive Extension : Bytes → Bytes → Prop where
  | mk (a e : Bytes) : (∀ x y, e ≠ x ++ 42 :: 46 :: y) → Extension (a ++ 42 :: 46 :: e) (46 :: e)

/-- The order of texts. -/
inductive Before : Bytes → Bytes → Prop where
  | nil (b : UInt8) (l : Bytes) : Before [] (b :: l)
  | less {a b : UInt8} (l m : Bytes) : a < b → Before (a :: l) (b :: m)
  | same (a : UInt8) {l m : Bytes} : Before l m → Before (a :: l) (a :: m)

/-- The absolute path of a library; relative ones begin at the workspace. -/
def Located (ops : Paths) (ws p path : Bytes) : Prop :=
  (p = [] ∧ path = ops.normal (if ops.absolute [] then [] else ops.join ws [])) ∨
  (p ≠ [] ∧ ops.absolute (ops.join p []) = true ∧ path = ops.normal (ops.join p [])) ∨
  (p ≠ [] ∧ ops.absolute (ops.join p []) = false ∧ path = ops.normal (ops.join ws (ops.join p [])))

/-- The library made of an entry: where it is, whether it may be missing, and the extensions of its members: its own, else those of the
file, else those of the wildcards, which are deprecated. -/
structure Makes (ops : Paths) (ws : Bytes) (exts always : List Bytes) (l : Library) (r : Lib) : Prop where
  path : Located ops ws l.path r.path
  optional : r.optional = l.optional
  own : l.exts ≠ [] → r.exts = l.exts ∧ r.deprecated = false
  file : l.exts = [] → exts ≠ [] → r.exts = exts ∧ r.deprecated = false
  wild : l.exts = [] → exts = [] → r.exts.Pairwise Before ∧ (∀ e, e ∈ r.exts ↔ ∃ w ∈ always, Extension w e) ∧
    (r.deprecated = true ↔ r.exts ≠ [])

/-- The group made of an entry of the file. -/
structure GroupMade (ops : Paths) (ws : Bytes) (exts always : List Bytes) (g : Group) (r : Grp) : Prop where
  name : r.name = g.name
  sysparm : r.sysparm = g.sysparm
  profile : r.profile = g.profile
  libs : List.Forall₂ (Makes ops ws exts always) g.libs r.libs

/-- The limit, if it is there, is no truth value, no fraction, and a number only if it fits into 32 bits. -/
def PlainLimit (j : Json) : Prop := ∀ v, Has j "diagnosticsSuppressLimit" v →
  (∀ b, v ≠ .bool b) ∧ (∀ n, v ≠ .real n) ∧ ∀ n, v = .int n → 0 ≤ n ∧ n < 2 ^ 32

end Verif.Config
