import Verif.Suppress.Model
/-!
Specification for C125 (README, "Suppression of Diagnostics"; package.json, `hlasm.diagnosticsSuppressLimit`): the diagnostics of a
program without a processor group are hidden when there are more of them than the limit.
-/
namespace Verif.Suppress.Spec
open Verif.Suppress

/-- What is to be shown of the diagnostics `ds` of a program without a processor group. -/
def visible (limit : Nat) (ds : List Diag) : List Diag := if limit < ds.length then [] else ds

/-- The configuration files after a history. -/
def confAfter (c : Conf) : List Ev → Conf
  | [] => c
  | .config c' :: evs => confAfter c' evs
  | _ :: evs => confAfter c evs

/-- The setting after a history. -/
def settingAfter (g : Nat) : List Ev → Nat
  | [] => g
  | .setting g' :: evs => settingAfter g' evs
  | _ :: evs => settingAfter g evs

/-- The limit in force: that of `pgm_conf.json`, if there is one, or the setting. -/
def limitAfter (c : Conf) (g : Nat) (evs : List Ev) : Nat :=
  match (confAfter c evs).limit with
  | some l => l
  | none => settingAfter g evs

/-- The document is open after a history. -/
def openAfter (p : File) : Bool → List Ev → Bool
  | o, [] => o
  | o, .edit f _ :: evs => openAfter p (f = p || o) evs
  | o, .close f :: evs => openAfter p (o && f ≠ p) evs
  | o, _ :: evs => openAfter p o evs

/-- The user knows that the diagnostics of `p` are hidden: a message said so, and since then they have not been shown again, and
the document has not been closed. -/
def knows (p : File) : Bool → List Out → Bool
  | k, [] => k
  | k, .suppressed q m :: os => knows p (if q = p then m || k else k) os
  | k, .kept q :: os => knows p (k && q ≠ p) os
  | k, .closed q :: os => knows p (k && q ≠ p) os

/-- A program: not a member of any library. -/
def Program (A : Analysis) (p : File) : Prop := ∀ t g q, p ∉ (A t g q).members.map (·.1)

/-- Without a processor group there are no libraries: no members, and only the text of the program counts. -/
def NoLibraries (A : Analysis) : Prop :=
  (∀ t p, (A t none p).members = []) ∧ ∀ t t' p, t p = t' p → A t none p = A t' none p

/-- At the start. -/
def start (c : Conf) (g : Nat) : St := { conf := c, global := g }

end Verif.Suppress.Spec
