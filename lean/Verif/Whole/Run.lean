import Verif.Whole.Model
/-!
Running programs, to have examples. Each run is one of those the model allows.
-/
namespace Verif.Whole
open Verif.Ord

/-- Entries for spaces that depend on earlier spaces only. -/
def descending (st : SymSt) : Bool := st.sps.all fun x => ((x.2.collect st.env st.tab).extract st.env).all fun
  | .space b => decide (b < x.1)
  | _ => true

theorem not_circular {st : SymSt} (h : descending st = true) (s : SpId) : ¬ Circle.Circular st s := by
  have hn : ∀ a b, Circle.Needs st a b → b < a := by
    rintro a b ⟨x, hx, rfl, _, hb⟩
    have := List.all_eq_true.1 (List.all_eq_true.1 h x hx) _ hb
    simpa using this
  have ht : ∀ a b, Relation.TransGen (Circle.Needs st) a b → b < a := by
    intro a b h
    induction h with
    | single h => exact hn _ _ h
    | tail _ h ih => exact Nat.lt_trans (hn _ _ h) ih
  intro hc
  exact Nat.lt_irrefl _ (ht s s hc)

def ready (st : St) (y : SymId × MExpr) : Bool := decide ((y.2.collect st.env st.tab).extract st.env = [])

def resolveRun : Nat → St → Option St
  | 0, _ => none
  | k + 1, st => match st.deps.find? (ready st) with
    | none => some st
    | some y => if y.2.resolve st.env.heap st.tab = .ub then none
      else resolveRun k { st with tab := st.tab.set y.1 (mkSym (y.2.resolve st.env.heap st.tab)), deps := st.deps.filter (·.1 ≠ y.1) }

theorem resolveRun_ok {k : Nat} {st st' : St} (h : resolveRun k st = some st') : Resolves st (.ok st') := by
  induction k generalizing st with
  | zero => cases h
  | succ k ih =>
    unfold resolveRun at h
    split at h
    · rename_i hf
      cases h
      refine .stop fun n e hm hx => ?_
      have := List.find?_eq_none.1 hf (n, e) hm
      simp [ready, hx] at this
    · rename_i y hf
      split at h
      · cases h
      · rename_i hub
        have h1 := List.mem_of_find?_eq_some hf
        have h2 := List.find?_some hf
        simp only [ready, decide_eq_true_eq] at h2
        exact .step (n := y.1) (e := y.2) h1 h2 hub (ih h)

def createRun (k : Nat) (st : St) (n : SymId) (v : SVal) : Option St :=
  if descending { st with tab := st.tab.set n (mkSym v) }.sym then resolveRun k { st with tab := st.tab.set n (mkSym v) } else none

theorem createRun_ok {k : Nat} {st st' : St} {n v} (h : createRun k st n v = some st') : Create st n v (.ok st') := by
  unfold createRun at h
  split at h
  · rename_i hd
    exact .fine (fun _ _ s => not_circular hd s) (resolveRun_ok h)
  · cases h

def equRun (k : Nat) (st : St) (n : SymId) (e : MExpr) : Option St :=
  if st.tab n ≠ none then none
  else if (e.collect st.env st.tab).contains st.env = false then
    if e.resolve st.env.heap st.tab = .ub then none else createRun k st n (e.resolve st.env.heap st.tab)
  else if (e.collect st.env st.tab).isAddress = true then
    match (e.collect st.env st.tab).addr with
    | none => none
    | some a => createRun k st n (.reloc a)
  else if { st with tab := st.tab.set n (mkSym .undef) }.sym.checkCycle (.sym n) k
      ((e.collect st.env (st.tab.set n (mkSym .undef))).extract st.env) = some true then
    some { st with tab := st.tab.set n (mkSym .undef), deps := st.deps ++ [(n, e)] }
  else none

theorem equRun_ok {k : Nat} {st st' : St} {n e} (h : equRun k st n e = some st') : Equ st n e (.ok st') := by
  unfold equRun at h
  split at h
  · cases h
  rename_i h1
  have h1 : st.tab n = none := by simpa using h1
  split at h
  · rename_i h2
    split at h
    · cases h
    · rename_i h3
      exact .now h1 h2 h3 (createRun_ok h)
  rename_i h2
  have h2 : (e.collect st.env st.tab).contains st.env = true := by simpa using h2
  split at h
  · rename_i h3
    split at h
    · cases h
    · rename_i a ha
      exact .address h1 h2 h3 ha (createRun_ok h)
  rename_i h3
  have h3 : (e.collect st.env st.tab).isAddress = false := by simpa using h3
  split at h
  · rename_i h4
    cases h
    exact .later h1 h2 h3 h4
  · cases h

def labelRun (k : Nat) (st : St) (a : Addr) : Option SymId → Option St
  | none => some st
  | some n => if st.tab n ≠ none then none else createRun k st n (.reloc a)

theorem labelRun_ok {k : Nat} {st st' : St} {a l} (h : labelRun k st a l = some st') : Label st a l (.ok st') := by
  unfold labelRun at h
  split at h
  · cases h; exact .none
  · split at h
    · cases h
    · rename_i h1
      exact .new (by simpa using h1) (createRun_ok h)

def execRun (k : Nat) (st : St) : Stmt → Option St
  | .equ n e => equRun k (st.align ⟨0, 1⟩) n (fill (lastAddr (st.align ⟨0, 1⟩).lc) e)
  | .data l al u e => match labelRun k (st.align al) (lastAddr (st.align al).lc) l with
    | none => none
    | some st' =>
      if (st.align al).late (fill (lastAddr (st.align al).lc) e) = true ∨
          (fill (lastAddr (st.align al).lc) e).eval st'.env.heap st'.tab ≠ .ub then
        some (st'.reserve ((st.align al).late (fill (lastAddr (st.align al).lc) e)) al u (fill (lastAddr (st.align al).lc) e))
      else none

theorem execRun_ok {k : Nat} {st st' : St} {s} (h : execRun k st s = some st') : Exec st s (.ok st') := by
  cases s with
  | equ n e => exact .equ (equRun_ok h)
  | data l al u e =>
    unfold execRun at h
    simp only at h
    split at h
    · cases h
    · rename_i st2 hl
      split at h
      · rename_i hx
        cases h
        exact .data rfl (labelRun_ok hl) hx
      · cases h

def runRun (k : Nat) : St → List Stmt → Option St
  | st, [] => some st
  | st, s :: rest => match execRun k st s with
    | none => none
    | some st' => runRun k st' rest

theorem runRun_ok {k : Nat} {st st' : St} {prog} (h : runRun k st prog = some st') : Runs st prog (.ok st') := by
  induction prog generalizing st with
  | nil => cases h; exact .nil
  | cons s rest ih =>
    unfold runRun at h
    split at h
    · cases h
    · rename_i st2 hx
      exact .cons (execRun_ok hx) (ih h)

def readyGap (st : St) (y : SpId × Nat × MExpr) : Bool := decide (((SpSrc.data [y.2.2]).collect st.env st.tab).extract st.env = [])
def readyAlign (st : St) (y : SpId × SpSrc) : Bool := decide ((y.2.collect st.env st.tab).extract st.env = [])

def settleRun : Nat → St → Option St
  | 0, _ => none
  | k + 1, st => match st.deps.find? (ready st) with
    | some y => if y.2.resolve st.env.heap st.tab = .ub then none
      else settleRun k { st with tab := st.tab.set y.1 (mkSym (y.2.resolve st.env.heap st.tab)), deps := st.deps.filter (·.1 ≠ y.1) }
    | none => match st.gaps.find? (readyGap st) with
      | some y => if y.2.2.eval st.env.heap st.tab = .ub then none
        else settleRun k { st with lc := st.lc.step (.define y.1 (byteLen y.2.1 (y.2.2.eval st.env.heap st.tab))), gaps := st.gaps.filter (·.1 ≠ y.1) }
      | none => match (aligns st.lc).find? (readyAlign st) with
        | some y => settleRun k { st with lc := st.lc.step (.settle y.1) }
        | none => some st

theorem aligns_addr {c : LC} {y : SpId × SpSrc} (h : y ∈ aligns c) : ∃ d, y.2 = .addr d := by
  unfold aligns at h
  obtain ⟨i, _, hi⟩ := List.mem_filterMap.1 h
  split at hi
  · cases hi; exact ⟨_, rfl⟩
  · cases hi

theorem settleRun_ok {k : Nat} {st st' : St} (h : settleRun k st = some st') : Settles st (.ok st') := by
  induction k generalizing st with
  | zero => cases h
  | succ k ih =>
    unfold settleRun at h
    split at h
    · rename_i y hf
      split at h
      · cases h
      · rename_i hub
        have h2 := List.find?_some hf
        simp only [ready, decide_eq_true_eq] at h2
        exact .step (.sym (n := y.1) (e := y.2) (List.mem_of_find?_eq_some hf) h2 hub) (ih h)
    · rename_i hf1
      split at h
      · rename_i y hf
        split at h
        · cases h
        · rename_i hub
          have h2 := List.find?_some hf
          simp only [readyGap, decide_eq_true_eq] at h2
          exact .step (.gap (i := y.1) (u := y.2.1) (e := y.2.2) (List.mem_of_find?_eq_some hf) h2 hub) (ih h)
      · rename_i hf2
        split at h
        · rename_i y hf
          have h2 := List.find?_some hf
          have hm := List.mem_of_find?_eq_some hf
          simp only [readyAlign, decide_eq_true_eq] at h2
          obtain ⟨i, src⟩ := y
          obtain ⟨d, hd⟩ := aligns_addr hm
          simp only at hd
          subst hd
          exact .step (.align (i := i) (d := d) hm h2) (ih h)
        · rename_i hf3
          cases h
          refine .stop ?_
          intro o hr
          have g1 := List.find?_eq_none.1 hf1
          have g2 := List.find?_eq_none.1 hf2
          have g3 := List.find?_eq_none.1 hf3
          cases hr with
          | sym a b => have := g1 _ a; simp [ready, b] at this
          | symUb a b => have := g1 _ a; simp [ready, b] at this
          | gap a b => have := g2 _ a; simp [readyGap, b] at this
          | gapUb a b => have := g2 _ a; simp [readyGap, b] at this
          | align a b => have := g3 _ a; simp [readyAlign, b] at this

def assemble (k : Nat) (prog : List Stmt) : Option St := (runRun k St.init prog).bind (settleRun k)

theorem assemble_ok {k : Nat} {prog : List Stmt} {st : St} (h : assemble k prog = some st) : Assembles prog (.ok st) := by
  obtain ⟨st1, h1, h2⟩ := Option.bind_eq_some_iff.1 h
  exact .done (runRun_ok h1) (settleRun_ok h2)

end Verif.Whole
