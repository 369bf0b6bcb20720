import Verif.Waiting.Model
/-!
When statements are to be checked and where their messages are to be shown.
-/
namespace Verif.Waiting.Spec
open Verif.Exec (Loc File)

/-- The statements of a history, and where each was processed: the statements that led to it, and its own place. -/
def processed : List Ev → List (Nat × Stack)
  | [] => []
  | .now i st :: r => (i, st) :: processed r
  | .wait i st _ :: r => (i, st) :: processed r
  | .resolve .. :: r => processed r

/-- What the statements of a history define. -/
def defined : List Ev → List Target
  | [] => []
  | .wait _ _ k :: r => k.targets ++ defined r
  | _ :: r => defined r

/-- A history that can happen: statements are processed one at a time, somewhere, and nothing is defined twice. -/
structure Proper (evs : List Ev) : Prop where
  once : ((processed evs).map (·.1)).Nodup
  place : ∀ p ∈ processed evs, p.2 ≠ []
  fresh : (defined evs).Nodup

/-- Whether a target is computed in a history. -/
def computed (t : Target) (evs : List Ev) : Prop := ∃ cur found, .resolve t cur found ∈ evs

/-- An EQU or ORG whose value is computed later is not checked, nor is an EQU that depends on itself; everything else is. -/
def Lost (k : Kind) (later : List Ev) : Prop :=
  match k with
  | .equ l => computed (.sym l) later
  | .circle => True
  | .org s => computed (.space s) later
  | _ => False

open Classical in
/-- The statements that are checked. -/
noncomputable def due : List Ev → List (Nat × Stack)
  | [] => []
  | .now i st :: r => (i, st) :: due r
  | .wait i st k :: r => if Lost k r then due r else (i, st) :: due r
  | .resolve .. :: r => due r

/-- No EQU or ORG waits. -/
def Plain (evs : List Ev) : Prop := ∀ i st k, .wait i st k ∈ evs → (k = .mach ∨ ∃ sp l s, k = .data sp l s)

/-- A message about something found in a statement at a place: in the file of the statement, with the statements that led to it, the
innermost first. -/
def Shown (found : Nat × Nat) (st : Stack) (d : Diag) : Prop :=
  ∃ outer own, st = outer ++ [own] ∧ d.code = found.1 ∧ d.file = own.file ∧ d.line = found.2 ∧ d.related = outer.reverse

end Verif.Waiting.Spec
