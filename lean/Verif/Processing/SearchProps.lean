import Verif.Processing.Search
/-!
C40: the search for a sequence symbol finds it wherever it is.
-/
namespace Verif.Processing.Search

/-- No two statements carry the same symbol. -/
def Distinct (prog : List (Option Lab)) : Prop := ∀ (i j : Nat) (l : Lab), prog[i]? = some (some l) → prog[j]? = some (some l) → i = j

/-- Every registered symbol is where it was registered. -/
def Sound (prog : List (Option Lab)) (reg : List (Lab × Nat)) : Prop := ∀ e ∈ reg, prog[e.2]? = some (some e.1)

/-- The symbol of statement `i`, if it has one, is registered. -/
def Known (prog : List (Option Lab)) (reg : List (Lab × Nat)) (i : Nat) : Prop := ∀ l, prog[i]? = some (some l) → ∃ j, (l, j) ∈ reg

theorem add_sound (prog : List (Option Lab)) (reg : List (Lab × Nat)) (l : Option Lab) (i : Nat) (h : Sound prog reg) (hl : prog[i]? = some l) :
    Sound prog (add reg l i) := by
  unfold add
  split
  · exact h
  · split
    · exact h
    · intro e he
      simp at he
      rcases he with he | rfl
      · exact h e he
      · exact hl

theorem add_mono (reg : List (Lab × Nat)) (l : Option Lab) (i : Nat) (e : Lab × Nat) (h : e ∈ reg) : e ∈ add reg l i := by
  unfold add
  split
  · exact h
  · split
    · exact h
    · simp [h]

theorem add_mem (reg : List (Lab × Nat)) (l : Option Lab) (i : Nat) (e : Lab × Nat) (h : e ∈ add reg l i) : e ∈ reg ∨ e.2 = i := by
  unfold add at h
  split at h
  · exact Or.inl h
  · split at h
    · exact Or.inl h
    · simp at h
      rcases h with h | rfl
      · exact Or.inl h
      · exact Or.inr rfl

theorem add_known (prog : List (Option Lab)) (reg : List (Lab × Nat)) (l : Option Lab) (i : Nat) (hl : prog[i]? = some l) : Known prog (add reg l i) i := by
  intro x hx
  rw [hl] at hx
  simp at hx
  subst hx
  simp only [add]
  split
  · next h =>
    simp at h
    exact h
  · exact ⟨i, by simp⟩

theorem known_mono (prog : List (Option Lab)) (reg reg' : List (Lab × Nat)) (i : Nat) (h : Known prog reg i) (hm : ∀ e ∈ reg, e ∈ reg') : Known prog reg' i := by
  intro l hl
  obtain ⟨j, hj⟩ := h l hl
  exact ⟨j, hm _ hj⟩

/-- What a scan achieves. -/
theorem scan_spec (prog : List (Option Lab)) (target : Option Lab) : ∀ (k : Nat) (reg : List (Lab × Nat)) (i : Nat), Sound prog reg →
    Sound prog (scan target k reg i (prog.drop i)).1 ∧
    (∀ e ∈ reg, e ∈ (scan target k reg i (prog.drop i)).1) ∧
    i ≤ (scan target k reg i (prog.drop i)).2.1 ∧
    (∀ j, i ≤ j → j < (scan target k reg i (prog.drop i)).2.1 → Known prog (scan target k reg i (prog.drop i)).1 j) ∧
    ((scan target k reg i (prog.drop i)).2.2 = true → i < (scan target k reg i (prog.drop i)).2.1 ∧ target.isSome ∧
      prog[(scan target k reg i (prog.drop i)).2.1 - 1]? = some target) ∧
    ((scan target k reg i (prog.drop i)).2.2 = false → prog.length ≤ i + k →
      ∀ j, i ≤ j → ∀ l, prog[j]? = some (some l) → target ≠ some l) ∧
    (∀ e ∈ (scan target k reg i (prog.drop i)).1, e ∈ reg ∨ e.2 < (scan target k reg i (prog.drop i)).2.1) := by
  intro k
  induction k with
  | zero =>
    intro reg i h
    refine ⟨h, fun e he => he, Nat.le_refl _, fun j h1 h2 => ?_, by simp [scan], ?_⟩
    · simp only [scan] at h2; omega
    · refine ⟨fun _ hle j hj l hl => ?_, fun e he => Or.inl he⟩
      have := (List.getElem?_eq_some_iff.1 hl).1
      omega
  | succ k ih =>
    intro reg i h
    cases hd : prog.drop i with
    | nil =>
      have hlen : prog.length ≤ i := List.drop_eq_nil_iff.1 hd
      refine ⟨h, fun e he => he, Nat.le_refl _, fun j h1 h2 => ?_, by simp [scan], ?_⟩
      · simp only [scan] at h2; omega
      · refine ⟨fun _ _ j hj l hl => ?_, fun e he => Or.inl he⟩
        have := (List.getElem?_eq_some_iff.1 hl).1
        omega
    | cons x xs =>
      have hi : prog[i]? = some x := by
        have : (prog.drop i)[0]? = some x := by rw [hd]; rfl
        simpa using this
      have hxs : xs = prog.drop (i + 1) := by
        have : (prog.drop i).drop 1 = xs := by rw [hd]; rfl
        rw [← this, List.drop_drop]
      simp only [scan]
      split
      · next hc =>
        simp at hc
        obtain ⟨hc1, hc2⟩ := hc
        refine ⟨add_sound prog reg x i h hi, fun e he => add_mono reg x i e he, by simp, ?_, ?_, by simp, ?_⟩
        · intro j h1 h2
          have : j = i := by simp at h2; omega
          subst this
          exact add_known prog reg x j hi
        · intro _
          simp only [Nat.add_sub_cancel]
          exact ⟨by omega, by rw [← hc2]; exact hc1, by rw [hi, hc2]⟩
        · intro e he
          rcases add_mem reg x i e he with he | he
          · exact Or.inl he
          · right; rw [he]; simp
      · next hc =>
        rw [hxs]
        obtain ⟨a1, a2, a3, a4, a5, a6, a7⟩ := ih (add reg x i) (i + 1) (add_sound prog reg x i h hi)
        refine ⟨a1, fun e he => a2 e (add_mono reg x i e he), by omega, ?_, ?_, ?_, ?_⟩
        · intro j h1 h2
          by_cases hji : j = i
          · subst hji
            exact known_mono prog _ _ j (add_known prog reg x j hi) a2
          · exact a4 j (by omega) h2
        · intro hf
          obtain ⟨b1, b2, b3⟩ := a5 hf
          exact ⟨by omega, b2, b3⟩
        · intro hf hle j hj l hl
          by_cases hji : j = i
          · subst hji
            rw [hi] at hl
            simp at hl
            subst hl
            intro ht
            simp [ht] at hc
          · exact a6 hf (by omega) j (by omega) l hl
        · intro e he
          rcases a7 e he with he | he
          · rcases add_mem reg x i e he with he | he
            · exact Or.inl he
            · right; rw [he]; omega
          · exact Or.inr he

/-- Everything below some `F`, which lies behind all registered symbols, is known, except for the statement being processed. -/
def Inv (prog : List (Option Lab)) (s : St) : Prop :=
  Sound prog s.reg ∧ ∃ F, s.pos ≤ F ∧ s.stop ≤ F ∧ (∀ i, i < F → i ≠ s.pos → Known prog s.reg i) ∧ ∀ e ∈ s.reg, e.2 < F

theorem startAt_le (s : St) (a b : Bool) (F : Nat) (h1 : s.pos ≤ F) (h2 : s.stop ≤ F) : startAt s a b ≤ max F (s.pos + 1) := by
  unfold startAt
  split
  · omega
  · split <;> omega

/-- The step in terms of the invariant; a branch goes to the statement with the symbol if there is one and to the next statement
otherwise. -/
theorem step_spec (prog : List (Option Lab)) (hD : Distinct prog) (s : St) (op : Op) (h : Inv prog s) :
    Inv prog (step prog s op) ∧ ∀ t a b, op = .branch t a b → s.pos < prog.length →
      (∀ i : Nat, prog[i]? = some (some t) → (step prog s op).pos = i) ∧ ((∀ i : Nat, prog[i]? ≠ some (some t)) → (step prog s op).pos = s.pos + 1) := by
  obtain ⟨hs, F, hF1, hF2, hF3, hF4⟩ := h
  unfold step
  cases hp : prog[s.pos]? with
  | none =>
    refine ⟨⟨hs, F, hF1, hF2, hF3, hF4⟩, fun t a b _ hlt => ?_⟩
    rw [List.getElem?_eq_none_iff] at hp
    omega
  | some l =>
    have hs1 := add_sound prog s.reg l s.pos hs hp
    have hk1 := add_known prog s.reg l s.pos hp
    have hm1 := add_mono s.reg l s.pos
    have hcov : ∀ i, i < max F (s.pos + 1) → Known prog (add s.reg l s.pos) i := by
      intro i hi
      by_cases hip : i = s.pos
      · subst hip; exact hk1
      · exact known_mono prog _ _ i (hF3 i (by omega) hip) hm1
    have hreg1 : ∀ e ∈ add s.reg l s.pos, e.2 < max F (s.pos + 1) := by
      intro e he
      rcases add_mem _ _ _ e he with he | he
      · have := hF4 e he; omega
      · omega
    cases op with
    | plain =>
      refine ⟨⟨hs1, max F (s.pos + 1), by simp only; omega, by simp only; omega, fun i hi _ => hcov i hi, hreg1⟩, by simp⟩
    | attr k a b =>
      simp only
      obtain ⟨a1, a2, a3, a4, _, _, a7⟩ := scan_spec prog none k s.reg (startAt s a b) hs
      have hst := startAt_le s a b F hF1 hF2
      refine ⟨⟨a1, max (max F (s.pos + 1)) (scan none k s.reg (startAt s a b) (prog.drop (startAt s a b))).2.1, by simp only; omega, by simp only; omega, ?_, ?_⟩, by simp⟩
      · intro i hi hne
        by_cases hlt : i < max F (s.pos + 1)
        · exact known_mono prog _ _ i (hF3 i (by simp at hne; omega) hne) a2
        · exact a4 i (by omega) (by omega)
      · intro e he
        rcases a7 e he with he | he
        · have := hF4 e he; omega
        · omega
    | branch t a b =>
      simp only
      cases hf : (add s.reg l s.pos).find? (·.1 = t) with
      | some e =>
        obtain ⟨t', i⟩ := e
        have hmem := List.mem_of_find?_eq_some hf
        have ht : t' = t := by have := List.find?_some hf; simpa using this
        subst ht
        have hat := hs1 _ hmem
        have hlt := hreg1 _ hmem
        simp only at hat hlt
        refine ⟨⟨hs1, max F (s.pos + 1), by simp only; omega, by simp only; omega, fun j hj _ => hcov j hj, hreg1⟩, ?_⟩
        intro t2 a2 b2 he _
        simp at he
        obtain ⟨rfl, _, _⟩ := he
        exact ⟨fun j hj => hD i j t' hat hj, fun hno => absurd hat (hno i)⟩
      | none =>
        obtain ⟨a1, a2, a3, a4, a5, a6, a7⟩ := scan_spec prog (some t) prog.length (add s.reg l s.pos) (startAt s a b) hs1
        have hst := startAt_le s a b F hF1 hF2
        have hno : ∀ j, Known prog (add s.reg l s.pos) j → prog[j]? ≠ some (some t) := by
          intro j hk hj
          obtain ⟨i, hi⟩ := hk t hj
          rw [List.find?_eq_none] at hf
          exact hf _ hi (by simp)
        generalize hr : scan (some t) prog.length (add s.reg l s.pos) (startAt s a b) (prog.drop (startAt s a b)) = r at *
        have hall : ∀ i, i < max (max F (s.pos + 1)) r.2.1 → Known prog r.1 i := by
          intro i hi
          by_cases hlt : i < max F (s.pos + 1)
          · exact known_mono prog _ _ i (hcov i hlt) a2
          · exact a4 i (by omega) (by omega)
        have hreg2 : ∀ e ∈ r.1, e.2 < max (max F (s.pos + 1)) r.2.1 := by
          intro e he
          rcases a7 e he with he | he
          · have := hreg1 e he; omega
          · omega
        simp only
        split
        · next hfound =>
          obtain ⟨b1, b2, b3⟩ := a5 hfound
          refine ⟨⟨a1, max (max F (s.pos + 1)) r.2.1, by simp only; omega, by simp only; omega, fun i hi _ => hall i hi, hreg2⟩, ?_⟩
          intro t2 _ _ he _
          simp at he
          obtain ⟨rfl, _, _⟩ := he
          exact ⟨fun j hj => hD _ j t b3 hj, fun hn => absurd b3 (hn _)⟩
        · next hfound =>
          have hfound : r.2.2 = false := by simpa using hfound
          refine ⟨⟨a1, max (max F (s.pos + 1)) r.2.1, by simp only; omega, by simp only; omega, fun i hi _ => hall i hi, hreg2⟩, ?_⟩
          intro t2 _ _ he _
          simp at he
          obtain ⟨rfl, _, _⟩ := he
          refine ⟨fun j hj => ?_, fun _ => rfl⟩
          exfalso
          by_cases hlt : j < max F (s.pos + 1)
          · exact hno j (hcov j hlt) hj
          · exact a6 hfound (by omega) j (by omega) t hj rfl

/-- C40: in open code without duplicate symbols, after any history of statements, branches and lookaheads, a branch to a symbol
continues with the statement that carries the symbol wherever that is, before or after the branch, and with the next statement
if there is none. -/
theorem C40_branch_finds (prog : List (Option Lab)) (hD : Distinct prog) (history : List Op) (t : Lab) (a b : Bool)
    (hpos : (run prog {} history).pos < prog.length) :
    (∀ i : Nat, prog[i]? = some (some t) → (run prog {} (history ++ [.branch t a b])).pos = i) ∧
    ((∀ i : Nat, prog[i]? ≠ some (some t)) → (run prog {} (history ++ [.branch t a b])).pos = (run prog {} history).pos + 1) := by
  have hinv : ∀ (ops : List Op) (s : St), Inv prog s → Inv prog (run prog s ops) := by
    intro ops
    induction ops with
    | nil => intro s h; exact h
    | cons op ops ih => intro s h; exact ih _ (step_spec prog hD s op h).1
  have h0 : Inv prog {} := ⟨by intro e he; simp at he, 0, by simp, by simp, by intro i hi; omega, by simp⟩
  have := (step_spec prog hD _ (.branch t a b) (hinv history {} h0)).2 t a b rfl hpos
  simpa [run] using this

/-- Non-vacuity: forward over a lookahead for attributes, back, and forward again. -/
example : Distinct [none, some 1, none, some 2, some 3] ∧
    (run [none, some 1, none, some 2, some 3] {} [.attr 2 false false, .branch 3 false true, .branch 1 false false]).pos = 1 := by
  refine ⟨?_, by decide⟩
  intro i j l hi hj
  have hi' := (List.getElem?_eq_some_iff.1 hi).1
  have hj' := (List.getElem?_eq_some_iff.1 hj).1
  simp at hi' hj'
  match i, j with
  | 0, _ => simp at hi
  | 2, _ => simp at hi
  | _, 0 => simp at hj
  | _, 2 => simp at hj
  | 1, 1 => rfl
  | 3, 3 => rfl
  | 4, 4 => rfl
  | 1, 3 => exact absurd (hi.trans hj.symm) (by decide)
  | 1, 4 => exact absurd (hi.trans hj.symm) (by decide)
  | 3, 1 => exact absurd (hi.trans hj.symm) (by decide)
  | 3, 4 => exact absurd (hi.trans hj.symm) (by decide)
  | 4, 1 => exact absurd (hi.trans hj.symm) (by decide)
  | 4, 3 => exact absurd (hi.trans hj.symm) (by decide)
  | n + 5, _ => omega
  | _, n + 5 => omega

end Verif.Processing.Search
