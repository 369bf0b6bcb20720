import Verif.Fresh.Model

/-!
What users expect of answers: they are computed from what the editor shows and, for files that are not open, from what is on
the disk.
-/
namespace Verif.Fresh

/-- What is in file `x`, as its user sees it: the editor's buffer of an open document, else the disk. -/
def State.actual (s : State) (x : File) : Option Text :=
  match s.files x with
  | some w => if w.editing then some w.text else s.disk x
  | none => s.disk x

/-- The analyses a request about document `f` is answered from. -/
def State.answers (s : State) (f : File) : List (Option Slot) :=
  (s.related f).map fun g => (s.files g).bind (·.slot)

/-- An analysis says what an analysis made now would say: the same names asked for and the same texts found. -/
def UpToDate (A : Oracle) (t : File → Option Text) (a : Option Slot) : Prop :=
  ∃ sl, a = some sl ∧ sl = analysis A t sl.root

/-- Analyses are deterministic: what they ask for depends on the texts they have read only. The program is read, and what is
used has been asked for and exists. -/
structure Local (A : Oracle) : Prop where
  self : ∀ t g, g ∈ A.asks t g
  used : ∀ t g x, x ∈ A.uses t g → x ∈ A.asks t g ∧ (t x).isSome
  same : ∀ t t' g, (∀ x ∈ A.asks t g, t x = t' x) → A.asks t' g = A.asks t g ∧ A.uses t' g = A.uses t g

/-- Programs and members are different files: what programs ask for are members, and a member analysed on its own asks for
nothing else (a macro definition is not executed). -/
structure Apart (A : Oracle) (member : File → Bool) : Prop where
  asked : ∀ t g x, x ∈ A.asks t g → x = g ∨ member x = true
  alone : ∀ t g x, member g = true → x ∈ A.asks t g → x = g

/-- Some program has asked for `f` and not used it: it was not there, or did not define what was wanted. -/
def State.Vain (s : State) (f : File) : Prop :=
  ∃ g w sl, s.files g = some w ∧ w.slot = some sl ∧ sl.root = g ∧ f ≠ g ∧ f ∈ sl.used.map (·.1) ∧ f ∉ w.deps

def State.isOpen (s : State) (f : File) : Prop := ∃ w, s.files f = some w ∧ w.editing = true

/-- The histories for which answers are up to date: edited files are open; what is opened, edited or changed on the disk has
not been asked for in vain; documents are saved before they are closed; files in use that are not open do not change. -/
def Quiet (s : State) : Op → Prop
  | .open f _ => ¬ s.Vain f
  | .change f _ => s.isOpen f ∧ ¬ s.Vain f
  | .close f => ∀ w, s.files f = some w → s.disk f = some w.text
  | .watched f t => ¬ s.Vain f ∧ ∀ w, s.files f = some w → w.editing = true ∨ t = some w.text

/-- The states such histories lead to. At the start no file is open. -/
inductive Reach (A : Oracle) : State → Prop
  | start (disk : File → Option Text) : Reach A { disk := disk }
  | step {s s' : State} {op : Op} : Reach A s → Quiet s op → s.step A op = some s' → Reach A s'

end Verif.Fresh
