import Verif.Sect.Model
/-!
What sections and location counters are, told by the places where the statements have been. C123.
-/
namespace Verif.Sect.Spec
open Verif

/-- The places where statements have been, the latest first; the labels, with places unless they are absolute; the calls that are open, the
innermost first; whether anything was reported. -/
structure Store where
  been : List Place := []
  labels : List (Name × Option Place) := []
  calls : List Frame := []
  reported : Bool := false

/-- The section without name that begins if there is none. -/
def unnamed : Place := ⟨.executable, [], []⟩

/-- Where the next thing is put. -/
def Store.here (σ : Store) : Option Place := σ.been.head?

def Store.go (σ : Store) (p : Place) : Store := { σ with been := p :: σ.been }

def Store.report (σ : Store) (b : Bool) : Store := { σ with reported := σ.reported || b }

/-- There is a section. -/
def Store.begun (σ : Store) : Store := if σ.been = [] then σ.go unnamed else σ

/-- The counter that was used last in the section, its first one if the section is new. -/
def resumed (σ : Store) (k : Kind) (n : Name) : Name :=
  match σ.been.find? fun p => p.kind = k ∧ p.sect = n with
  | some p => p.counter
  | none => n

def isLabel (σ : Store) (n : Name) : Bool := σ.labels.any (·.1 = n)

def isSection (σ : Store) (k : Kind) (n : Name) : Bool := σ.been.any fun p => p.kind = k ∧ p.sect = n

/-- The name is in use: by a label, a section or a location counter. -/
def taken (σ : Store) (n : Name) : Bool := isLabel σ n || σ.been.any fun p => p.sect = n ∨ p.counter = n

/-- The section is begun or resumed. -/
def sect (σ : Store) (k : Kind) (n : Name) : Store := σ.go ⟨k, n, resumed σ k n⟩

def sectStmt (σ : Store) (k : Kind) : Label → Store
  | .none => sect σ k []
  | .name n => if isSection σ k n ∨ taken σ n = false then sect σ k n else σ.report true
  | .bad => σ.report true

/-- The location counter is resumed in its section or begun in the present one. -/
def loctrStmt (σ : Store) : Label → Store
  | .name n =>
    if isLabel σ n then σ.report true
    else match σ.begun.been.find? fun p => p.counter = n, σ.begun.here with
      | some p, _ => σ.begun.go ⟨p.kind, p.sect, n⟩
      | none, some p => σ.begun.go ⟨p.kind, p.sect, n⟩
      | none, none => σ
  | _ => σ.report true

def define (σ : Store) (l : Label) (p : Option Place) : Store :=
  match l with
  | .none => σ
  | .name n => if taken σ n then σ.report true else { σ with labels := (n, p) :: σ.labels }
  | .bad => σ.report true

/-- The system variables of a call describe the place of the call, how many calls are open, and of which macros. -/
def sysVars (σ : Store) (mac : Name) : SysVars where
  sysect := match σ.here with
    | some p => p.sect
    | none => []
  sysstyp := match σ.here with
    | some p => (match p.kind with
      | .common => [67, 79, 77]
      | .dummy => [68, 83, 69, 67, 84]
      | .readonly => [82, 83, 69, 67, 84]
      | .executable => [67, 83, 69, 67, 84])
    | none => []
  sysloc := match σ.here with
    | some p => p.counter
    | none => []
  sysnest := σ.calls.length + 1
  sysmac := mac :: σ.calls.map (·.mac) ++ [[79, 80, 69, 78, 32, 67, 79, 68, 69]]

def step (σ : Store) : Ev → Store
  | .sect k l => sectStmt σ k l
  | .loctr l => loctrStmt σ l
  | .start l => sectStmt σ .executable l
  | .place l => define (σ.begun.go (σ.here.getD unnamed)) l (some (σ.here.getD unnamed))
  | .equ l => (define σ l none).report (l matches .none)
  | .enter mac => { σ with calls := ⟨mac, sysVars σ mac⟩ :: σ.calls }
  | .leave => { σ with calls := σ.calls.tail }

def run (σ : Store) (p : List Ev) : Store := p.foldl step σ

/-- Names are not empty. -/
def valid : Label → Prop
  | .name n => n ≠ []
  | _ => True

/-- What the theorem is about: statements for which the code does what it should. -/
def Regular (σ : Store) : Ev → Prop
  | .sect k l => valid l ∧ l ≠ .bad ∧ (l = .none → ∀ p ∈ σ.been, p.sect = [] → p.kind = k)
  | .loctr l => ∃ n, l = .name n ∧ n ≠ []
  | .start _ => False
  | .place l => valid l
  | .equ l => valid l ∧ σ.been ≠ []
  | .enter _ => True
  | .leave => True

def AllRegular : Store → List Ev → Prop
  | _, [] => True
  | σ, e :: p => Regular σ e ∧ AllRegular (step σ e) p

/-- `k` decimal digits. -/
def digits : Nat → Nat → Bytes
  | 0, _ => []
  | k + 1, n => digits k (n / 10) ++ [UInt8.ofNat (48 + n % 10)]

end Verif.Sect.Spec
