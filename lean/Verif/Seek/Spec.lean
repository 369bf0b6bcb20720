import Verif.Seek.Model
/-!
What a search ahead is expected to look at.
-/
namespace Verif.Seek
open Verif.Ord Verif.Ahead

/-- The statements behind the MEND that ends a macro definition, inside `n` more definitions. -/
def behind : Nat → List Line → List Line
  | _, [] => []
  | n, l :: ls =>
    match l.op, n with
    | .macro, n => behind (n + 1) ls
    | .mend, 0 => ls
    | .mend, n + 1 => behind n ls
    | _, n => behind n ls

/-- `Sees P open ls vs`: reading the statements `ls` while the members `open` are open, the statements `vs` are met: all but those inside of
macro definitions, with the statements of a copied member behind the COPY statement, unless it is open already. -/
inductive Sees (P : Prog) : List Nat → List Line → List Line → Prop
  | nil {names} : Sees P names [] []
  | defn {names l ls vs} : l.op = .macro → Sees P names (behind 0 ls) vs → Sees P names (l :: ls) (l :: vs)
  | copy {names l ls n ms us vs} : l.op = .copy (.member n) → P.member n = some ms → n ∉ names → Sees P (n :: names) ms us → Sees P names ls vs →
      Sees P names (l :: ls) (l :: us ++ vs)
  | line {names l ls vs} : l.op ≠ .macro → (∀ n ms, l.op = .copy (.member n) → P.member n = some ms → n ∈ names) → Sees P names ls vs →
      Sees P names (l :: ls) (l :: vs)

/-- The rest of an open member. -/
def Prog.rest (P : Prog) (f : Frame) : List Line := ((P.member f.name).getD []).drop (f.cur + 1).toNat

/-- The statements ahead of a position: the rest of each open member, the innermost first, then the rest of the open code. -/
inductive SeesFrom (P : Prog) : Nat → List Frame → List Line → Prop
  | code {off vs} : Sees P [] (P.code.drop off) vs → SeesFrom P off [] vs
  | member {off f fs us vs} : Sees P ((f :: fs).map Frame.name) (P.rest f) us → SeesFrom P off fs vs → SeesFrom P off (f :: fs) (us ++ vs)

/-- The statements ahead of a position. -/
def Ahead (P : Prog) (p : Pos) (vs : List Line) : Prop := SeesFrom P p.off p.copy vs

/-- A member that is being read, outside of macro definitions. -/
def Prog.inside (P : Prog) (f : Frame) : Prop :=
  -1 ≤ f.cur ∧ f.cur < ((P.member f.name).getD []).length ∧ closed 0 (P.rest f) = true

/-- A position where reading can go on. -/
def Prog.valid (P : Prog) (p : Pos) : Prop := ∀ f ∈ p.copy, P.inside f

/-- The labelled statements among some. -/
def labelled (vs : List Line) : List (SymId × Stmt) := vs.filterMap fun l => match l.label with | .ord n => some (n, l.stmt) | _ => none

/-! ### a program that goes on -/

/-- The statements of the text that is read from. -/
def Prog.top (P : Prog) (p : Pos) : List Line := match p.copy with | [] => P.code.drop p.off | f :: _ => P.rest f

/-- So many statements further in the text that is read from. -/
def Pos.adv (p : Pos) (k : Nat) : Pos :=
  match p.copy with
  | [] => { p with off := p.off + k }
  | f :: fs => { p with copy := { f with cur := f.cur + k } :: fs }

/-- How many statements the rest of a definition has. -/
def skip : Nat → List Line → Nat
  | _, [] => 0
  | n, l :: ls =>
    match l.op, n with
    | .macro, n => skip (n + 1) ls + 1
    | .mend, 0 => 1
    | .mend, n + 1 => skip n ls + 1
    | _, n => skip n ls + 1

/-- Where reading goes on behind a statement. -/
def Prog.after (P : Prog) (p : Pos) (l : Line) (ls : List Line) : Pos :=
  match l.op with
  | .macro => p.adv (skip 0 ls + 1)
  | .copy (.member n) => if (P.member n).isSome ∧ n ∉ p.copy.map Frame.name then ⟨(p.adv 1).off, ⟨n, -1⟩ :: (p.adv 1).copy⟩ else p.adv 1
  | _ => p.adv 1

/-- Reading one statement outside of macro definitions, or the end of a member. -/
def Prog.read (P : Prog) (p : Pos) : Option (Option Line × Pos) :=
  match P.top p with
  | [] => match p.copy with | [] => none | _ :: fs => some (none, { p with copy := fs })
  | l :: ls => some (some l, P.after p l ls)

/-- `Path P k p vs q`: `k` times reading from `p`, the statements `vs` are met, and then the position is `q`. -/
inductive Path (P : Prog) : Nat → Pos → List Line → Pos → Prop
  | nil {p} : Path P 0 p [] p
  | cons {k p q r o vs} : P.read p = some (o, q) → Path P k q vs r → Path P (k + 1) p (o.toList ++ vs) r

/-- The attributes of a label of this statement are never left open. -/
def Definite (x : Stmt) : Prop := ∀ E T, look E T x ≠ .ok none

/-- All statements of the open code and of the members. -/
def Prog.lines (P : Prog) : List Line := P.code ++ P.files.flatMap Prod.snd

/-- Reading the data definitions of the program does not go wrong (C108). -/
def Prog.sound (P : Prog) (E : Env) (T : Table) : Prop := ∀ l ∈ P.lines, ∃ r, look E T l.stmt = .ok r

/-- No COPY statement has an operand that is no expression, and neither MACRO nor COPY has a label. -/
def Prog.plain (P : Prog) : Prop := ∀ l ∈ P.lines, l.op ≠ .copy .odd ∧ (l.label ≠ .none → l.op ≠ .macro ∧ ∀ a, l.op ≠ .copy a)

/-- A program that goes on statement by statement, or branches forward, with searches now and then. The symbols `T` that are defined, and the
environment, may be others each time. -/
inductive Reached (P : Prog) : Kept → Pos → Prop
  | start (refs : Table) : Reached P ⟨⟨0, []⟩, refs, []⟩ ⟨0, []⟩
  | go {K p k vs q} : Reached P K p → Path P k p vs q → Reached P K q
  | ask {K p todo E T k K' b} : Reached P K p → todo ≠ [] → P.sound E T → P.search E T k K p (K.ask todo) = some (.ok (K', b)) → Reached P K' p
  | branch {K p t E T k K' b} : Reached P K p → P.sound E T → P.search E T k K p (K.branch t) = some (.ok (K', b)) → Reached P K' p

end Verif.Seek
