import Verif.Gen.Outside

/-!
C131: what a program of conditional assembly generates is what it means.
-/
namespace Verif.Gen

open Verif.Gen.Spec

variable {S : Sem}

theorem run_more (P : Prog S) {n : Nat} {s : State S} {r : Ended S} (h : s.run P n = some r) (m : Nat) : s.run P (n + m) = some r := by
  induction n generalizing s with
  | zero => cases h
  | succ n ih =>
    rw [Nat.add_right_comm]
    simp only [State.run] at h ⊢
    cases ht : s.turn P with
    | done => rw [ht] at h; exact h
    | broken => rw [ht] at h; exact h
    | next s' =>
      rw [ht] at h
      exact ih h

theorem program (P : Prog S) (u : Bool) (hu : u = true → Unique P.code) (hP : ∀ st ∈ P.code, st.lab = none ∨ noting st.op = true) :
    ∃ n s, (∀ m, (State.start P).run P (n + m) = some (.done s)) ∧ s.log.filter (counts u) = (means P).told ∧
      s.globals = (means P).globals ∧ s.ndx = (means P).calls := by
  have h0 : Open u P 0 (Frame.main S) (World.empty P) (State.start P) := by
    refine ⟨rfl, rfl, rfl, ⟨?_, rfl, rfl, rfl⟩, ⟨rfl, rfl, rfl, rfl⟩, Nat.zero_le _, Nat.zero_le _, 0, Nat.le_refl _, Nat.le_refl _, ?_⟩
    · funext x
      simp [Frame.main, namesOf, State.start, State.scope, Scope.new, State.params]
    · refine ⟨?_, ?_, ?_⟩
      · intro l i h
        simp [State.start] at h
      · intro l i _ h
        omega
      · intro l i h
        simp [State.start] at h
  obtain ⟨s, ⟨n, hn⟩, ht, hW⟩ := outside P hu hP 0 P.code 0 (Frame.main S) (World.empty P) (State.start P) rfl rfl h0
  refine ⟨n + 1, s, ?_, hW.told.symm, hW.globals.symm, hW.calls.symm⟩
  intro m
  rw [Nat.add_assoc, hn, Nat.add_comm]
  simp only [State.run, ht]

/-- **C131.** Whatever the expressions, conditions and texts are: the processing of a program comes to an end, after finitely many turns and without
undefined behaviour, and what came out of it, in this order, are the statements and diagnostics of the meaning of the program; the global variables have
the values and the macros were called as often as the meaning says. Here: if no macro call, undefined operation, MEXIT, MEND or definition of the
open code carries a sequence symbol. The diagnostic E045 is left out; see the next theorem.

What is missing: programs in which such a statement carries a sequence symbol (see `C131_label_negation`; with one on MACRO a lookahead
can go on in the middle of the definition, which is not modelled). -/
theorem C131_program_partial (P : Prog S) (h : ∀ st ∈ P.code, st.lab ≠ none → (∀ m as, st.op ≠ .call m as) ∧ st.op ≠ .mexit ∧ st.op ≠ .mend ∧ ∀ m ps b, st.op ≠ .define m ps b) :
    ∃ n s, (∀ m, (State.start P).run P (n + m) = some (.done s)) ∧ s.log.filter (counts false) = (means P).told ∧
      s.globals = (means P).globals ∧ s.ndx = (means P).calls := by
  apply program P false (fun h => by cases h)
  intro st hst
  cases hl : st.lab with
  | none => exact .inl rfl
  | some l =>
    obtain ⟨h1, h2, h3, h4⟩ := h st hst (by rw [hl]; simp)
    right
    unfold noting
    split
    · rename_i m as ho
      exact absurd ho (h1 m as)
    · rename_i ho
      exact absurd ho h2
    · rename_i ho
      exact absurd ho h3
    · rename_i m ps b ho
      exact absurd ho (h4 m ps b)
    · rfl

/-- **C131.** If moreover no two statements of the open code carry the same sequence symbol, what came out is exactly the meaning. -/
theorem C131_program_unique_partial (P : Prog S) (hu : Unique P.code)
    (h : ∀ st ∈ P.code, st.lab ≠ none → (∀ m as, st.op ≠ .call m as) ∧ st.op ≠ .mexit ∧ st.op ≠ .mend ∧ ∀ m ps b, st.op ≠ .define m ps b) :
    ∃ n s, (∀ m, (State.start P).run P (n + m) = some (.done s)) ∧ s.log = (means P).told ∧
      s.globals = (means P).globals ∧ s.ndx = (means P).calls := by
  have hc : ∀ e : Event S.Out, counts true e = true := by
    intro e
    cases e with
    | out o => rfl
    | err c => cases c <;> rfl
  obtain ⟨n, s, h1, h2, h3⟩ := program P true (fun _ => hu) (by
    intro st hst
    cases hl : st.lab with
    | none => exact .inl rfl
    | some l =>
      obtain ⟨h1, h2, h3, h4⟩ := h st hst (by rw [hl]; simp)
      right
      unfold noting
      split
      · rename_i m as ho
        exact absurd ho (h1 m as)
      · rename_i ho
        exact absurd ho h2
      · rename_i ho
        exact absurd ho h3
      · rename_i m ps b ho
        exact absurd ho (h4 m ps b)
      · rfl)
  refine ⟨n, s, h1, ?_, h3⟩
  rw [List.filter_eq_self.mpr (fun e _ => hc e)] at h2
  exact h2

/-! ### Examples -/

/-- Numbers; expressions, conditions and texts are functions of what they see. -/
def numbers : Sem where
  Val := Int
  Exp := Env Int → Int
  Cnd := Env Int → Bool
  Txt := Env Int → Int
  Out := Int
  dflt := 0
  value e v := e v
  number e v := e v
  holds c v := c v
  text t v := t v

def val (x : Name) : Env Int → Int := fun v => (v.var x).getD (-1)

/-- A macro that generates the numbers from 0 up to its argument and counts them in a global variable, and calls itself once, nested. -/
def upTo : Macro numbers where
  params := ["P", "Q"]
  body := [
    ⟨none, .lcl "I"⟩,
    ⟨none, .gbl "G"⟩,
    ⟨some "L", .aif [(fun v => decide (val "I" v ≥ val "P" v), "E")]⟩,
    ⟨none, .gen (fun v => val "I" v + 100 * (v.nest : Int) + 1000 * ((v.ndx.getD 0 : Nat) : Int))⟩,
    ⟨none, .set "I" (fun v => val "I" v + 1)⟩,
    ⟨none, .set "G" (fun v => val "G" v + 1)⟩,
    ⟨none, .ago "L"⟩,
    ⟨some "E", .aif [(fun v => decide (val "Q" v = 0), "X")]⟩,
    ⟨none, .call "UPTO" [fun v => val "P" v - 1]⟩,
    ⟨some "X", .set "P" (fun _ => 0)⟩,
    ⟨none, .mexit⟩,
    ⟨none, .gen (fun _ => 77)⟩]

/-- Open code with a forward branch, a backward branch, a global variable set by the macro, an unknown branch, an undefined operation and a macro
called before and after its definition. -/
def example1 : Prog numbers where
  macros := fun m => if m = "UPTO" then some upTo else none
  code := [
    ⟨none, .gbl "G"⟩,
    ⟨none, .ago "FWD"⟩,
    ⟨some "BACK", .gen (val "G")⟩,
    ⟨none, .agoNth (fun _ => 2) ["FWD", "END"]⟩,
    ⟨some "FWD", .anop⟩,
    ⟨none, .call "UPTO" [fun _ => 3, fun _ => 1]⟩,
    ⟨none, .call "LATE" []⟩,
    ⟨none, .define "LATE" [] [⟨some "END", .gen (fun _ => 55)⟩]⟩,
    ⟨none, .call "LATE" []⟩,
    ⟨none, .ago "NONE"⟩,
    ⟨none, .call "NOTHING" []⟩,
    ⟨none, .aif [(fun _ => false, "FWD"), (fun v => decide (val "G" v = 5), "BACK")]⟩,
    ⟨some "END", .gen (fun _ => 99)⟩]

def logOf (r : Option (Ended numbers)) : Option (List (Event Int)) :=
  match r with
  | some (.done s) => some s.log
  | _ => none

def result1 : List (Event Int) :=
  [.out 100, .out 101, .out 102, .out 1200, .out 1201, .err .E030, .err .E030, .err .E049, .out 55, .err .E047, .err .E049, .out 5, .out 99]

theorem example1_run : logOf ((State.start example1).run example1 100) = some result1 := by decide +kernel

theorem example1_unique : Unique example1.code := by
  intro i j st st' l hi hj h h'
  have hlt := (List.getElem?_eq_some_iff.mp hi).1
  have hlt' := (List.getElem?_eq_some_iff.mp hj).1
  have e : ∀ a b : Fin 13, ((example1.code[a.1]?.bind (·.lab)).isSome && (example1.code[a.1]?.bind (·.lab) == example1.code[b.1]?.bind (·.lab))) = true →
      a = b := by decide +kernel
  have := e ⟨i, hlt⟩ ⟨j, hlt'⟩ (by simp [hi, hj, h, h'])
  exact congrArg Fin.val this

/-- The hypotheses are met by the example, and its meaning is what one expects of it. -/
example : (∀ st ∈ example1.code, st.lab ≠ none → (∀ m as, st.op ≠ .call m as) ∧ st.op ≠ .mexit ∧ st.op ≠ .mend ∧ ∀ m ps b, st.op ≠ .define m ps b) ∧
    (means example1).told = result1 := by
  have h : ∀ st ∈ example1.code, st.lab ≠ none → (∀ m as, st.op ≠ .call m as) ∧ st.op ≠ .mexit ∧ st.op ≠ .mend ∧
      ∀ m ps b, st.op ≠ .define m ps b := by
    intro st hst hl
    simp only [example1, List.mem_cons, List.not_mem_nil, or_false] at hst
    rcases hst with rfl | rfl | rfl | rfl | rfl | rfl | rfl | rfl | rfl | rfl | rfl | rfl | rfl <;> simp_all
  refine ⟨h, ?_⟩
  obtain ⟨n, s, h1, h2, _⟩ := C131_program_unique_partial example1 example1_unique h
  have hr := example1_run
  have h3 := h1 100
  rw [← h2]
  cases h4 : (State.start example1).run example1 100 with
  | none => rw [h4] at hr; cases hr
  | some r =>
    have h5 := run_more example1 h4 n
    rw [Nat.add_comm, h3] at h5
    rw [h4, ← h5] at hr
    exact Option.some.inj hr

/-- A loop around a macro call: `.L M` ... `AGO .L`, twice. -/
def example2 : Prog numbers where
  macros := fun m => if m = "M" then some ⟨[], [⟨none, .gen (fun _ => 7)⟩]⟩ else none
  code := [
    ⟨none, .actr (fun _ => 1)⟩,
    ⟨some "L", .call "M" []⟩,
    ⟨none, .ago "L"⟩]

theorem example2_run : logOf ((State.start example2).run example2 100) = some [.out 7, .err .E047] := by decide +kernel

/-- The specification with a bound on the steps, to compute with. -/
def obeyN : Nat → Nat → List (Stmt S) → Nat → Frame S → World S → Option (World S × End)
  | 0, _, _, _, _, _ => none
  | n + 1, d, body, pc, f, w =>
    match body[pc]? with
    | none => some (w, .through)
    | some st =>
      if d ≥ 100 then some (w.tell (.err .E055), .givenUp)
      else if f.branches < 0 then some (w.tell (.err .E056), if d = 0 then .over else .through)
      else if f.actrs > 100 then some (w.tell (.err .E063), .over)
      else
        match asks d f w st with
        | .next names w => obeyN n d body (pc + 1) { f with names := names } w
        | .goto l =>
          match place body l with
          | some i => obeyN n d body i { f with branches := f.branches - 1 } w
          | none => obeyN n d body (pc + 1) f (w.tell (.err .E047))
        | .limit k => obeyN n d body (pc + 1) { f with branches := k, actrs := f.actrs + 1 } w
        | .leave => some (w, .through)
        | .obey m args =>
          match obeyN n (d + 1) m.body 0 (Frame.call m.params args w.calls) { w with calls := w.calls + 1 } with
          | none => none
          | some (w', .through) => obeyN n d body (pc + 1) f w'
          | some (w', .givenUp) => if d = 0 then obeyN n d body (pc + 1) f w' else some (w', .givenUp)
          | some (w', .over) => some (w', .over)

theorem obeyN_eq {n d : Nat} {body : List (Stmt S)} {pc : Nat} {f : Frame S} {w : World S} {r : World S × End}
    (h : obeyN n d body pc f w = some r) : obey d body pc f w = r := by
  induction n generalizing d body pc f w r with
  | zero => cases h
  | succ n ih =>
    simp only [obeyN] at h
    cases hst : body[pc]? with
    | none =>
      rw [hst] at h
      rw [obey_none d f w hst]
      exact Option.some.inj h
    | some st =>
      rw [hst] at h
      simp only at h
      rw [obey_some d f w hst]
      by_cases h1 : d ≥ 100
      · rw [if_pos h1] at h ⊢
        exact Option.some.inj h
      rw [if_neg h1] at h ⊢
      by_cases h2 : f.branches < 0
      · rw [if_pos h2] at h ⊢
        exact Option.some.inj h
      rw [if_neg h2] at h ⊢
      by_cases h3 : f.actrs > 100
      · rw [if_pos h3] at h ⊢
        exact Option.some.inj h
      rw [if_neg h3] at h ⊢
      cases ha : asks d f w st with
      | next names w' =>
        rw [ha] at h
        exact ih h
      | goto l =>
        rw [ha] at h
        simp only at h ⊢
        cases hp : place body l with
        | none => rw [hp] at h; exact ih h
        | some i => rw [hp] at h; exact ih h
      | limit k =>
        rw [ha] at h
        exact ih h
      | leave =>
        rw [ha] at h
        exact Option.some.inj h
      | obey m args =>
        rw [ha] at h
        simp only at h ⊢
        cases ho : obeyN n (d + 1) m.body 0 (Frame.call m.params args w.calls) { w with calls := w.calls + 1 } with
        | none => rw [ho] at h; cases h
        | some q =>
          rw [ih ho]
          rw [ho] at h
          obtain ⟨w', e⟩ := q
          cases e with
          | through => exact ih h
          | givenUp =>
            simp only at h ⊢
            by_cases hd : d = 0
            · rw [if_pos hd] at h ⊢
              exact ih h
            · rw [if_neg hd] at h ⊢
              exact Option.some.inj h
          | over => exact Option.some.inj h

def toldN (n : Nat) (P : Prog numbers) : Option (List (Event Int)) :=
  (obeyN n 0 P.code 0 (Frame.main numbers) (World.empty P)).map (·.1.told)

theorem means_told {n : Nat} {P : Prog numbers} {l : List (Event Int)} (h : toldN n P = some l) : (means P).told = l := by
  unfold toldN at h
  cases ho : obeyN n 0 P.code 0 (Frame.main numbers) (World.empty P) with
  | none => rw [ho] at h; cases h
  | some r =>
    rw [ho] at h
    unfold means
    rw [obeyN_eq ho]
    exact Option.some.inj h

/-- **C131, negation.** The sequence symbol of a macro call in open code is not known to a branch that comes after the call: the branch is refused (E047)
instead of taken. -/
theorem C131_label_negation : ∃ (P : Prog numbers) (n : Nat), Unique P.code ∧
    logOf ((State.start P).run P n) = some [.out 7, .err .E047] ∧ (means P).told = ([.out 7, .out 7, .err .E056] : List (Event Int)) := by
  refine ⟨example2, 100, ?_, example2_run, ?_⟩
  · intro i j st st' l hi hj h h'
    have hlt := (List.getElem?_eq_some_iff.mp hi).1
    have hlt' := (List.getElem?_eq_some_iff.mp hj).1
    have e : ∀ a b : Fin 3, ((example2.code[a.1]?.bind (·.lab)).isSome && (example2.code[a.1]?.bind (·.lab) == example2.code[b.1]?.bind (·.lab))) = true →
        a = b := by decide +kernel
    have := e ⟨i, hlt⟩ ⟨j, hlt'⟩ (by simp [hi, hj, h, h'])
    exact congrArg Fin.val this
  · exact means_told (n := 100) (by decide +kernel)

/-- A macro that calls itself without end, one that branches without end and one with too many ACTR. -/
def example3 : Prog numbers where
  macros := fun m =>
    if m = "DEEP" then some ⟨[], [⟨none, .call "DEEP" []⟩, ⟨none, .gen (fun _ => 1)⟩]⟩
    else if m = "LONG" then some ⟨[], [⟨none, .actr (fun _ => 2)⟩, ⟨some "A", .gen (fun _ => 2)⟩, ⟨none, .ago "A"⟩]⟩
    else if m = "ACTRS" then some ⟨[], [⟨some "A", .actr (fun _ => 2)⟩, ⟨none, .ago "A"⟩]⟩
    else none
  code := [
    ⟨none, .call "DEEP" []⟩,
    ⟨none, .gen (fun _ => 3)⟩,
    ⟨none, .call "LONG" []⟩,
    ⟨none, .gen (fun _ => 4)⟩,
    ⟨none, .call "ACTRS" []⟩,
    ⟨none, .gen (fun _ => 5)⟩]

/-- The limits: of nested calls (all calls are given up, the open code goes on), of branches (the call is given up), of ACTR (nothing more is done). -/
example : (means example3).told = ([.err .E055, .out 3, .out 2, .out 2, .out 2, .err .E056, .out 4, .err .E063] : List (Event Int)) :=
  means_told (n := 400) (by decide +kernel)

example : logOf ((State.start example3).run example3 800) =
    some [.err .E055, .out 3, .out 2, .out 2, .out 2, .err .E056, .out 4, .err .E063] := by decide +kernel

end Verif.Gen
