import Verif.Context.CaFlow
/-!
C37: conditional assembly terminates. C38: AIF and AGO choose the right target.
-/
namespace Verif.Context.Flow

/-! ### C38 -/

/-- C38: AIF branches to the target of the first true condition, and falls through if there is none. A trailing empty operand
is allowed. -/
theorem C38_aif (conds : List (Bool × Target)) (trailing : Bool) (h : conds ≠ []) :
    processAIF (conds.map (fun c => .branch c.1 c.2) ++ if trailing then [.empty] else []) = (conds.find? (·.1)).map (·.2) := by
  have hloop : ∀ (conds : List (Bool × Target)) (found : Option Target) (has : Bool),
      aifLoop found has (conds.map (fun c => .branch c.1 c.2) ++ if trailing then [.empty] else []) =
        some (found.or ((conds.find? (·.1)).map (·.2)), has || !conds.isEmpty) := by
    intro conds
    induction conds with
    | nil =>
      intro found has
      cases trailing <;> simp [aifLoop]
    | cons c cs ih =>
      intro found has
      simp only [List.map_cons, List.cons_append, aifLoop]
      rw [ih]
      cases found with
      | some t => simp
      | none =>
        cases hc : c.1 <;> simp [List.find?_cons, hc]
  unfold processAIF
  have : (conds.map (fun c : Bool × Target => Operand.branch c.1 c.2) ++ if trailing then [Operand.empty] else []).isEmpty = false := by
    cases conds with
    | nil => exact absurd rfl h
    | cons c cs => rfl
  rw [this, hloop]
  have : conds.isEmpty = false := by cases conds with | nil => exact absurd rfl h | cons c cs => rfl
  simp [this]

/-- C38: an AIF with an operand that is not of the form `(condition).target`, or an empty one before the last, never branches. -/
theorem C38_aif_invalid (before after : List (Operand Bool)) (t : Target)
    (bad : Operand Bool) (hb : bad = .other ∨ bad = .seq t ∨ (bad = .empty ∧ after ≠ [])) : processAIF (before ++ bad :: after) = none := by
  have hloop : ∀ (before : List (Operand Bool)) found has, aifLoop found has (before ++ bad :: after) = none := by
    intro before
    induction before with
    | nil =>
      intro found has
      rcases hb with rfl | rfl | ⟨rfl, h⟩
      · rfl
      · rfl
      · cases after with
        | nil => exact absurd rfl h
        | cons a as => simp [aifLoop]
    | cons b bs ih =>
      intro found has
      cases b with
      | empty => simp [aifLoop]
      | seq t => rfl
      | branch v t => simp only [List.cons_append, aifLoop]; exact ih _ _
      | other => rfl
  unfold processAIF
  rw [hloop]
  split <;> rfl

theorem agoTargets_map (ts : List Target) : agoTargets (ts.map .seq) = some ts := by
  induction ts with
  | nil => rfl
  | cons t ts ih => simp [agoTargets, ih]

/-- C38: the computed AGO branches to the n-th target when 1 ≤ n ≤ count and falls through otherwise. -/
theorem C38_ago (n : Int) (t : Target) (ts : List Target) :
    processAGO (.branch n t :: ts.map .seq) =
      if 1 ≤ n ∧ n ≤ (t :: ts).length then (t :: ts)[(n - 1).toNat]? else none := by
  have hc : (Operand.branch n t :: ts.map .seq).contains Operand.empty = false := by
    rw [List.contains_eq_mem]
    simp
  unfold processAGO prepareAGO
  rw [hc]
  simp only [List.isEmpty_cons, Bool.false_eq_true, if_false, agoTargets_map, Option.map_some]
  have : (n > 0 ∧ n ≤ ((t :: ts).length : Int)) ↔ (1 ≤ n ∧ n ≤ ((t :: ts).length : Int)) := by omega
  simp only [this]

/-- C38: the plain AGO branches to its target. -/
theorem C38_ago_plain (t : Target) : processAGO [.seq t] = some t := by
  simp [processAGO, prepareAGO]

example : processAIF [.branch false 1, .branch true 2, .branch true 3] = some 2 ∧ processAGO [.branch 2 5, .seq 6] = some 6 ∧
    processAGO [.branch 3 5, .seq 6] = none := by decide

/-! ### C37 -/

/-- Invariant of a scope: the counter is the last value set minus the branches since, and at most one more branch than that
value was taken. -/
def ScopeOk (sc : Scope) : Prop := sc.counter = sc.start - sc.taken ∧ ((sc.taken : Int) ≤ sc.start + 1 ∨ sc.taken = 0)

theorem checkFatals_none (sc : Scope) (rest : List Scope) (h : checkFatals sc rest = none) :
    (sc :: rest).length ≤ NEST_LIMIT ∧ ¬ sc.counter < 0 ∧ ¬ sc.changes > ACTR_LIMIT := by
  unfold checkFatals at h
  by_cases h1 : (sc :: rest).length > NEST_LIMIT
  · rw [if_pos h1] at h; simp at h
  · by_cases h2 : sc.counter < 0
    · rw [if_neg h1, if_pos h2] at h; split at h <;> simp at h
    · by_cases h3 : sc.changes > ACTR_LIMIT
      · rw [if_neg h1, if_neg h2, if_pos h3] at h; simp at h
      · exact ⟨by omega, h2, h3⟩

theorem step_ok (stack stack' : List Scope) (e : Effect) (h : ∀ sc ∈ stack, ScopeOk sc) (hs : step stack e = some stack') :
    ∀ sc ∈ stack', ScopeOk sc := by
  unfold step at hs
  cases stack with
  | nil => simp at hs
  | cons sc rest =>
    have hsc := h sc (by simp)
    have hrest : ∀ x ∈ rest, ScopeOk x := fun x hx => h x (by simp [hx])
    simp only at hs
    split at hs
    · split at hs
      · simp at hs
      · simp at hs; subst hs; exact hrest
    · have hsc1 : ScopeOk { sc with pc := sc.pc + 1 } := hsc
      cases hc : checkFatals { sc with pc := sc.pc + 1 } rest with
      | some r =>
        rw [hc] at hs
        simp only at hs
        unfold checkFatals at hc
        split at hc
        · simp at hc; subst hc; simp at hs; subst hs
          intro x hx
          simp at hx
          subst hx
          have := List.getLast_mem (l := { sc with pc := sc.pc + 1 } :: rest) (by simp)
          simp only [List.mem_cons] at this
          rcases this with e | e
          · rw [e]; exact hsc1
          · exact hrest _ e
        · split at hc
          · split at hc
            · simp at hc; subst hc; simp at hs
            · simp at hc; subst hc; simp at hs; subst hs; exact hrest
          · split at hc
            · simp at hc; subst hc; simp at hs
            · simp at hc
      | none =>
        rw [hc] at hs
        simp at hs
        subst hs
        have hnn : ¬ sc.counter < 0 := (checkFatals_none _ _ hc).2.1
        cases e with
        | plain => intro x hx; simp [apply] at hx; rcases hx with rfl | hx; exact hsc1; exact hrest x hx
        | branch t =>
          intro x hx
          simp [apply] at hx
          rcases hx with rfl | hx
          · obtain ⟨h1, h2⟩ := hsc
            simp only [ScopeOk, Scope.jump]
            constructor
            · omega
            · left; omega
          · exact hrest x hx
        | actr v =>
          intro x hx
          simp [apply] at hx
          rcases hx with rfl | hx
          · simp [ScopeOk, Scope.setCounter]
          · exact hrest x hx
        | call len =>
          intro x hx
          simp [apply] at hx
          rcases hx with rfl | rfl | hx
          · simp [ScopeOk]
          · exact hsc1
          · exact hrest x hx
        | mexit =>
          simp only [apply]
          split
          · intro x hx; simp at hx; subst hx; exact hsc1
          · exact hrest

/-- C37: whatever the program does, in every scope the number of branches taken since the counter was last set exceeds that
value by at most one (the branch after which the scope is ended), and a statement is processed only while it does not exceed
it. -/
theorem C37_branches_bounded (len : Nat) (es : List Effect) (stack : List Scope) (h : run [{ len := len }] es = some stack) :
    (∀ sc ∈ stack, (sc.taken : Int) ≤ sc.start + 1 ∨ sc.taken = 0) ∧
    ∀ sc rest, stack = sc :: rest → checkFatals { sc with pc := sc.pc + 1 } rest = none → (sc.taken : Int) ≤ sc.start := by
  have gen : ∀ (es : List Effect) (s0 : List Scope), (∀ sc ∈ s0, ScopeOk sc) → run s0 es = some stack → ∀ sc ∈ stack, ScopeOk sc := by
    intro es
    induction es with
    | nil => intro s0 h0 hr; simp [run] at hr; subst hr; exact h0
    | cons e es ih =>
      intro s0 h0 hr
      simp only [run] at hr
      cases hs : step s0 e with
      | none => rw [hs] at hr; simp at hr
      | some s1 => rw [hs] at hr; exact ih s1 (step_ok s0 s1 e h0 hs) hr
  have hall := gen es _ (by intro sc hsc; simp at hsc; subst hsc; simp [ScopeOk]) h
  refine ⟨fun sc hsc => (hall sc hsc).2, ?_⟩
  intro sc rest hst hcf
  have hok := hall sc (by rw [hst]; simp)
  have hnn : ¬ sc.counter < 0 := (checkFatals_none _ _ hcf).2.1
  obtain ⟨h1, _⟩ := hok
  omega

/-- The statement that would be processed after the counter ran out ends the scope instead: in a macro the caller continues, in
open code the assembly ends. -/
theorem C37_exhausted (sc : Scope) (rest : List Scope) (e : Effect) (hlim : (sc :: rest).length ≤ NEST_LIMIT) (hpc : sc.pc < sc.len)
    (hc : sc.counter < 0) : step (sc :: rest) e = if rest = [] then none else some rest := by
  unfold step checkFatals
  have h1 : ¬ sc.pc ≥ sc.len := by omega
  have h2 : ¬ ({ sc with pc := sc.pc + 1 } :: rest : List Scope).length > NEST_LIMIT := by simpa using hlim
  simp only [h1, if_false, h2, hc, if_true]
  cases rest <;> simp

/-- The order that decreases while a scope runs: ACTR statements left, branches left, statements left. -/
def Scope.measure (sc : Scope) : Nat × Nat × Nat := (ACTR_LIMIT + 1 - sc.changes, (sc.counter + 1).toNat, sc.len - sc.pc)

abbrev lexLt : (Nat × Nat × Nat) → (Nat × Nat × Nat) → Prop := Prod.Lex (· < ·) (Prod.Lex (· < ·) (· < ·))

theorem lexLt_wf : WellFounded lexLt := (Prod.lex Nat.lt_wfRel (Prod.lex Nat.lt_wfRel Nat.lt_wfRel)).wf

/-- `s'` can follow `s`. -/
def Follows (s' s : List Scope) : Prop := ∃ e, step s e = some s'

theorem acc_scope (k : Nat) : ∀ (rest : List Scope), NEST_LIMIT + 1 - rest.length ≤ k →
    (∀ t, t ≠ [] → t <:+ rest → Acc Follows t) → ∀ sc, Acc Follows (sc :: rest) := by
  induction k with
  | zero =>
    intro rest hk hacc sc
    constructor
    rintro s' ⟨e, hs⟩
    have hlen : ({ sc with pc := sc.pc + 1 } :: rest : List Scope).length > NEST_LIMIT := by simp; omega
    unfold step at hs
    simp only at hs
    have hne : rest ≠ [] := by intro h; subst h; simp [NEST_LIMIT] at hk
    split at hs
    · split at hs
      · simp at hs
      · simp at hs; subst hs; exact hacc _ hne (List.suffix_refl _)
    · unfold checkFatals at hs
      rw [if_pos hlen] at hs
      simp at hs
      subst hs
      rw [List.getLast_cons hne]
      refine hacc _ (by simp) ?_
      exact ⟨rest.dropLast, List.dropLast_concat_getLast hne⟩
  | succ k ih =>
    intro rest hk hacc
    have inner : ∀ m sc, sc.measure = m → Acc Follows (sc :: rest) := by
      intro m
      induction m using lexLt_wf.induction with
      | _ m ihm =>
        intro sc hm
        subst hm
        constructor
        rintro s' ⟨e, hs⟩
        unfold step at hs
        simp only at hs
        split at hs
        · split at hs
          · simp at hs
          · next hr => simp at hs; subst hs; exact hacc _ (by intro h; simp [h] at hr) (List.suffix_refl _)
        · next hpc =>
          have dec1 : lexLt (Scope.measure { sc with pc := sc.pc + 1 }) sc.measure := by
            refine Prod.Lex.right _ (Prod.Lex.right _ ?_)
            simp only; omega
          cases hc : checkFatals { sc with pc := sc.pc + 1 } rest with
          | some r =>
            rw [hc] at hs
            simp only at hs
            subst hs
            unfold checkFatals at hc
            split at hc
            · next hl =>
              simp at hc
              have hne : rest ≠ [] := by intro h; subst h; simp [NEST_LIMIT] at hl
              subst hc
              rw [List.getLast_cons hne]
              exact hacc _ (by simp) ⟨rest.dropLast, List.dropLast_concat_getLast hne⟩
            · split at hc
              · split at hc
                · simp at hc
                · next hr => simp at hc; subst hc; exact hacc _ (by intro h; simp [h] at hr) (List.suffix_refl _)
              · split at hc <;> simp at hc
          | none =>
            rw [hc] at hs
            simp at hs
            subst hs
            have hnn : ¬ sc.counter < 0 := (checkFatals_none _ _ hc).2.1
            have hch : ¬ sc.changes > ACTR_LIMIT := (checkFatals_none _ _ hc).2.2
            cases e with
            | plain => exact ihm _ dec1 _ rfl
            | branch t =>
              refine ihm _ ?_ _ rfl
              refine Prod.Lex.right _ (Prod.Lex.left _ _ ?_)
              simp only [Scope.jump]; omega
            | actr v =>
              refine ihm _ ?_ _ rfl
              refine Prod.Lex.left _ _ ?_
              simp only [Scope.setCounter]; omega
            | call len =>
              refine ih _ (by simp; omega) ?_ _
              intro t ht hsuf
              rw [List.suffix_cons_iff] at hsuf
              rcases hsuf with rfl | hsuf
              · exact ihm _ dec1 _ rfl
              · exact hacc t ht hsuf
            | mexit =>
              simp only [apply]
              split
              · next hr =>
                have : rest = [] := by simpa using hr
                subst this
                exact ihm _ dec1 _ rfl
              · next hr => exact hacc _ (by intro h; simp [h] at hr) (List.suffix_refl _)
    exact fun sc => inner _ sc rfl

/-- C37: every conditional assembly program terminates: there is no infinite execution, whatever the conditions, targets, ACTR
values and called macros are. -/
theorem C37_terminates (effects : Nat → Effect) (stack : List Scope) : ∃ n, run stack ((List.range n).map effects) = none := by
  have acc : Acc Follows stack := by
    induction stack with
    | nil => exact ⟨_, by rintro s' ⟨e, hs⟩; simp [step] at hs⟩
    | cons sc rest ih =>
      have hsuf : ∀ t, t ≠ [] → t <:+ rest → Acc Follows t := by
        clear ih
        induction rest with
        | nil => intro t ht h; simp at h; exact absurd h ht
        | cons x r ihr =>
          intro t ht h
          rw [List.suffix_cons_iff] at h
          rcases h with rfl | h
          · exact acc_scope _ r (Nat.le_refl _) ihr x
          · exact ihr t ht h
      exact acc_scope _ rest (Nat.le_refl _) hsuf sc
  have gen : ∀ (s : List Scope), Acc Follows s → ∀ (effects : Nat → Effect), ∃ n, run s ((List.range n).map effects) = none := by
    intro s hs
    induction hs with
    | intro s _ ih =>
      intro effects
      cases hst : step s (effects 0) with
      | none => exact ⟨1, by simp [run, hst]⟩
      | some s' =>
        obtain ⟨n, hn⟩ := ih s' ⟨_, hst⟩ (fun i => effects (i + 1))
        refine ⟨n + 1, ?_⟩
        rw [List.range_succ_eq_map]
        simp only [List.map_cons, List.map_map, run, hst, Option.bind_some]
        exact hn
  exact gen stack acc effects

/-- Observation: with counter value `v` the program takes `v + 1` branches; the last one leads to the end of the scope. -/
theorem C37_witness_one_more : (run [{ len := 5 }] [.actr 0, .branch 0]).map (fun s => s.map fun sc => (sc.taken, sc.start)) =
    some [(1, 0)] := by decide

/-- Non-vacuity: an endless loop in a macro is left after the counter ran out and the caller goes on. -/
example : (run [{ len := 2 }] [.call 1, .actr 0, .plain]).map (fun s => s.map fun sc => sc.pc) = some [1] ∧
    (run [{ len := 2 }] [.call 1, .branch 0, .branch 0]).map (fun s => s.map fun sc => (sc.pc, sc.counter)) =
      some [(0, 4094), (1, 4096)] := by decide

end Verif.Context.Flow
