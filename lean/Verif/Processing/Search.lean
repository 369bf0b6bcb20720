import Verif.Basic
/-!
The search for sequence symbols in open code (processing/processing_manager.cpp 183-297, lookahead_processor.cpp 271-285), seen from
the labels of the statements: open code is the list of its statements in the order in which the lookahead goes through them, with COPY
members expanded and macro definitions left out.
-/
namespace Verif.Processing.Search

abbrev Lab := Nat

/-- `pos`: the statement to be processed next; `stop`: the number of statements up to the end of the previous lookaheads
(`lookahead_stop_`); `reg`: the registered symbols. -/
structure St where
  pos : Nat := 0
  stop : Nat := 0
  reg : List (Lab × Nat) := []
  deriving DecidableEq, Repr

/-- `register_sequence_symbol` (processing_manager.cpp 281-297): the first registration stays. -/
def add (reg : List (Lab × Nat)) (l : Option Lab) (i : Nat) : List (Lab × Nat) :=
  match l with
  | none => reg
  | some l => if reg.any (·.1 = l) then reg else reg ++ [(l, i)]

/-- The statements the lookahead processor sees (lookahead_processor.cpp 46-52, 271-285), until it finds `target` or has gone through
`k` statements (a lookahead for attributes). Returns the symbols, the index after the last statement and whether it was found. -/
def scan (target : Option Lab) : Nat → List (Lab × Nat) → Nat → List (Option Lab) → List (Lab × Nat) × Nat × Bool
  | 0, reg, i, _ => (reg, i, false)
  | _ + 1, reg, i, [] => (reg, i, false)
  | k + 1, reg, i, l :: ls =>
    if l.isSome && l = target then (add reg l i, i + 1, true) else scan target k (add reg l i) (i + 1) ls

/-- Where the lookahead starts (processing_manager.cpp 186-188): after the statement, or where the last lookahead stopped if that is
further. Within a COPY member the source indices do not tell which one is further; `fromHere` lets the environment decide. The
statement at which the last lookahead stopped in a COPY member is seen again, which is the case `again`. -/
def startAt (s : St) (fromHere again : Bool) : Nat :=
  if fromHere || s.stop ≤ s.pos + 1 then s.pos + 1 else if again then s.stop - 1 else s.stop

inductive Op where
  /-- the statement is processed and does not branch -/
  | plain
  /-- it branches -/
  | branch (l : Lab) (fromHere again : Bool)
  /-- it starts a lookahead for attributes which goes through `k` statements; the statement is not processed yet -/
  | attr (k : Nat) (fromHere again : Bool)
  deriving DecidableEq, Repr

/-- Processing one statement. `none` in the second component: no error; `some ()`: E047. -/
def step (prog : List (Option Lab)) (s : St) (op : Op) : St :=
  match prog[s.pos]? with
  | none => s
  | some l =>
    match op with
    | .plain => { s with pos := s.pos + 1, reg := add s.reg l s.pos }
    | .branch t fromHere again =>
      let reg := add s.reg l s.pos
      match reg.find? (·.1 = t) with
      | some (_, i) => { s with pos := i, reg := reg }
      | none =>
        let start := startAt s fromHere again
        let r := scan (some t) prog.length reg start (prog.drop start)
        if r.2.2 then { pos := r.2.1 - 1, stop := r.2.1, reg := r.1 } else { pos := s.pos + 1, stop := r.2.1, reg := r.1 }
    | .attr k fromHere again =>
      let start := startAt s fromHere again
      let r := scan none k s.reg start (prog.drop start)
      { s with stop := r.2.1, reg := r.1 }

def run (prog : List (Option Lab)) (s : St) (ops : List Op) : St := ops.foldl (step prog) s

end Verif.Processing.Search
