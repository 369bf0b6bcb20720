import Verif.Gen.Lang

/-!
What a program of conditional assembly means, said without scope stacks, providers, positions in text, tables of symbols and lookaheads.

A list of statements is obeyed from its first statement on. A branch goes to the first statement of the same list that carries the sequence symbol. A
call obeys the body of the macro with variables of its own and then goes on behind the call. What is obeyed is obeyed up to three limits: of nested
calls, of branches taken within a call and of ACTR within a call.
-/
namespace Verif.Gen.Spec

open Verif.Gen

variable {S : Sem}

/-- What a name stands for where it is visible: a variable of the list being obeyed, a global variable or a parameter. -/
inductive Is (V : Type) where
  | local (v : V)
  | global
  | param (v : V)

/-- What outlives calls: the macros, the values of the global variables, the number of calls so far, and what came out. -/
structure World (S : Sem) where
  macros : Name → Option (Macro S)
  globals : Name → Option S.Val
  calls : Nat
  told : List (Event S.Out)

/-- What a list of statements has while it is obeyed: its names, the branches it may still take, the number of ACTR obeyed and the number of the call
(none in open code). -/
structure Frame (S : Sem) where
  names : Name → Option (Is S.Val)
  branches : Int
  actrs : Nat
  ndx : Option Nat

/-- The frame of the open code. -/
def Frame.main (S : Sem) : Frame S := ⟨fun _ => none, 4096, 0, none⟩

/-- The frame of a call: the k-th parameter is the k-th argument. -/
def Frame.call (ps : List Name) (args : List S.Val) (k : Nat) : Frame S :=
  ⟨fun x => (ps.idxOf? x).map fun i => .param (args[i]?.getD S.dflt), 4096, 0, some k⟩

/-- The world before a program. -/
def World.empty (P : Prog S) : World S := ⟨P.macros, fun _ => none, 0, []⟩

def World.tell (w : World S) (e : Event S.Out) : World S := { w with told := w.told ++ [e] }

/-- What is seen by expressions. -/
def sees (names : Name → Option (Is S.Val)) (w : World S) (ndx : Option Nat) (depth : Nat) : Env S.Val where
  var x := match names x with
    | none => none
    | some (.local v) => some v
    | some (.param v) => some v
    | some .global => some ((w.globals x).getD S.dflt)
  ndx := ndx
  nest := depth

/-- A map with the value at `x` changed. -/
def change {α : Type} (m : Name → Option α) (x : Name) (v : α) : Name → Option α := fun y => if y = x then some v else m y

/-- The first statement that carries the sequence symbol. -/
def place (body : List (Stmt S)) (l : Lab) : Option Nat := body.findIdx? fun st => decide (st.lab = some l)

/-- What a statement asks for. -/
inductive Asks (S : Sem) where
  /-- go on with the next statement, with these names and this world -/
  | next (names : Name → Option (Is S.Val)) (w : World S)
  /-- go on at a sequence symbol -/
  | goto (l : Lab)
  /-- go on with the next statement and this many branches -/
  | limit (n : Int)
  /-- obey a macro, then go on with the next statement -/
  | obey (m : Macro S) (args : List S.Val)
  /-- obey nothing more of this list -/
  | leave

/-- What each statement asks for. -/
def asks (depth : Nat) (f : Frame S) (w : World S) (st : Stmt S) : Asks S :=
  let v := sees f.names w f.ndx depth
  let err c : Asks S := .next f.names (w.tell (.err c))
  match st.op with
  | .set x e =>
    match f.names x with
    | some (.param _) => err .E030
    | some (.local _) => .next (change f.names x (.local (S.value e v))) w
    | some .global => .next f.names { w with globals := change w.globals x (S.value e v) }
    -- an assignment declares the variable, and the expression sees it declared
    | none => .next (change f.names x (.local (S.value e (sees (change f.names x (.local S.dflt)) w f.ndx depth)))) w
  | .gbl x =>
    match f.names x with
    | some (.param _) => err .E052
    | some _ => err .E051
    | none => .next (change f.names x .global) { w with globals := change w.globals x ((w.globals x).getD S.dflt) }
  | .lcl x =>
    match f.names x with
    | some (.param _) => err .E052
    | some _ => err .E051
    | none => .next (change f.names x (.local S.dflt)) w
  | .aif bs =>
    match bs.find? fun b => S.holds b.1 v with
    | some b => .goto b.2
    | none => .next f.names w
  | .ago l => .goto l
  | .agoNth e ls =>
    match S.number e v with
    | .ofNat (n + 1) => match ls[n]? with
      | some l => .goto l
      | none => .next f.names w
    | _ => .next f.names w
  | .actr e => .limit (S.number e v)
  | .anop => .next f.names w
  | .call m args =>
    match w.macros m with
    | none => err .E049
    | some m => .obey m (args.map fun e => S.value e v)
  | .mexit => if depth = 0 then err .E054 else .leave
  | .mend => if depth = 0 then err .E054 else .next f.names w
  | .gen t => .next f.names (w.tell (.out (S.text t v)))
  | .define m ps body => .next f.names { w with macros := change w.macros m ⟨ps, body⟩ }

/-- How obeying a list of statements comes to an end: its caller goes on; all calls are given up and the open code goes on; nothing more is obeyed. -/
inductive End where
  | through
  | givenUp
  | over
  deriving DecidableEq

/-- A list of statements is obeyed from the statement `pc` on, `depth` calls deep. -/
def obey (depth : Nat) (body : List (Stmt S)) (pc : Nat) (f : Frame S) (w : World S) : World S × End :=
  match h : body[pc]? with
  | none => (w, .through)
  | some st =>
    if _h₁ : depth ≥ 100 then (w.tell (.err .E055), .givenUp)
    else if _h₂ : f.branches < 0 then (w.tell (.err .E056), if depth = 0 then .over else .through)
    else if _h₃ : f.actrs > 100 then (w.tell (.err .E063), .over)
    else
      match asks depth f w st with
      | .next names w => obey depth body (pc + 1) { f with names := names } w
      | .goto l =>
        match place body l with
        | some i => obey depth body i { f with branches := f.branches - 1 } w
        | none => obey depth body (pc + 1) f (w.tell (.err .E047))
      | .limit n => obey depth body (pc + 1) { f with branches := n, actrs := f.actrs + 1 } w
      | .leave => (w, .through)
      | .obey m args =>
        let r := obey (depth + 1) m.body 0 (Frame.call m.params args w.calls) { w with calls := w.calls + 1 }
        match r.2 with
        | .through => obey depth body (pc + 1) f r.1
        | .givenUp => if depth = 0 then obey depth body (pc + 1) f r.1 else (r.1, .givenUp)
        | .over => (r.1, .over)
termination_by (100 - depth, 101 - f.actrs, (f.branches + 1).toNat, body.length - pc)
decreasing_by
  all_goals simp_wf
  all_goals (try have hl := (List.getElem?_eq_some_iff.mp h).1)
  all_goals (first
    | (apply Prod.Lex.left; omega)
    | (apply Prod.Lex.right; apply Prod.Lex.left; omega)
    | (apply Prod.Lex.right; apply Prod.Lex.right; apply Prod.Lex.left; omega)
    | (apply Prod.Lex.right; apply Prod.Lex.right; apply Prod.Lex.right; omega))

/-- What a program means: everything that comes out of it and the values of the global variables at its end. -/
def means (P : Prog S) : World S := (obey 0 P.code 0 (Frame.main S) (World.empty P)).1

/-- In the open code no sequence symbol is carried by two statements. -/
def Unique (code : List (Stmt S)) : Prop :=
  ∀ (i j : Nat) (st st' : Stmt S) (l : Lab), code[i]? = some st → code[j]? = some st' → st.lab = some l → st'.lab = some l → i = j

/-- What is compared with the meaning of a program: everything that came out, where E045, which says again and again that a sequence symbol of the open
code is carried by two statements, does not count unless `all`. -/
def counts (all : Bool) (e : Event S.Out) : Bool :=
  match e with
  | .err .E045 => all
  | _ => true

end Verif.Gen.Spec
