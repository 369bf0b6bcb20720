import Verif.Sect.Props
import Verif.CaStmt.Decl
/-!
Programs of sections, location counters and macro calls. C123.
-/
namespace Verif.Sect
open Verif.Context (toDec)

theorem find_some {l : List Section} {n : Name} {k : Kind} {i : Nat} (h : findSection l n k = some i) :
    ∃ x, l[i]? = some x ∧ x.name = n ∧ x.kind = k := by
  unfold findSection at h
  rw [List.findIdx?_eq_some_iff_getElem] at h
  obtain ⟨hi, h1, _⟩ := h
  simp only [decide_eq_true_eq] at h1
  exact ⟨l[i], by simp [hi], h1⟩

theorem find_none {l : List Section} {n : Name} {k : Kind} (h : findSection l n k = none) {i : Nat} {x : Section} (hx : l[i]? = some x) :
    ¬ (x.name = n ∧ x.kind = k) := by
  unfold findSection at h
  rw [List.findIdx?_eq_none_iff] at h
  have := h x (List.mem_of_getElem? hx)
  simpa using this

/-- The sections that are found are those that have been. -/
theorem isSection_iff {s : State} {σ : Spec.Store} (h : Rel s σ) (n : Name) (k : Kind) :
    Spec.isSection σ k n = (findSection s.sections n k).isSome := by
  unfold Spec.isSection
  cases hf : findSection s.sections n k with
  | some i =>
    obtain ⟨x, hx, h1, h2⟩ := find_some hf
    obtain ⟨p, hp, _⟩ := h.cur i x hx
    have h3 := List.mem_of_find?_eq_some hp
    have h4 := List.find?_some hp
    simp only [inSect, decide_eq_true_eq] at h4
    simp only [Option.isSome_some, List.any_eq_true, decide_eq_true_eq]
    exact ⟨p, h3, by rw [h4.1, h2], by rw [h4.2, h1]⟩
  | none =>
    simp only [Option.isSome_none, List.any_eq_false, decide_eq_true_eq]
    intro p hp ⟨e1, e2⟩
    obtain ⟨i, x, hx, h1, h2⟩ := h.known p hp
    exact find_none hf hx ⟨by rw [← h2, e2], by rw [← h1, e1]⟩

theorem taken_iff {s : State} {σ : Spec.Store} (h : Rel s σ) (n : Name) (hn : n ≠ []) : Spec.taken σ n = true ↔ n ∈ s.symbols := by
  rw [h.syms n hn]
  unfold Spec.taken
  simp only [Bool.or_eq_true, List.any_eq_true, decide_eq_true_eq]
  constructor
  · rintro (h1 | ⟨p, hp, h1 | h1⟩)
    · exact Or.inl h1
    · obtain ⟨i, x, hx, h2, h3⟩ := h.known p hp
      obtain ⟨q, hq, _, _, h4⟩ := (h.has i x hx x.name).mp (h.first i x hx)
      exact Or.inr ⟨q, hq, by rw [h4, ← h3, h1]⟩
    · exact Or.inr ⟨p, hp, h1⟩
  · rintro (h1 | ⟨p, hp, h1⟩)
    · exact Or.inl h1
    · exact Or.inr ⟨p, hp, Or.inr h1⟩

theorem set_self {l : List Section} {i : Nat} {x : Section} (h : l[i]? = some x) : l.set i x = l := by
  obtain ⟨hi, e⟩ := List.getElem?_eq_some_iff.mp h
  rw [← e, List.set_getElem_self]

/-- Going on in a section. -/
theorem rel_resume {s : State} {σ : Spec.Store} (h : Rel s σ) {i : Nat} {x : Section} (hx : s.sections[i]? = some x) :
    Rel { s with curr := some i } (σ.go ⟨x.kind, x.name, Spec.resumed σ x.kind x.name⟩) := by
  obtain ⟨p, hp, hc⟩ := h.cur i x hx
  have hr : Spec.resumed σ x.kind x.name = p.counter := by
    unfold Spec.resumed
    rw [show (σ.been.find? fun p => decide (p.kind = x.kind ∧ p.sect = x.name)) = some p from hp]
  have h3 := List.mem_of_find?_eq_some hp
  have h4 := List.find?_some hp
  simp only [inSect, decide_eq_true_eq] at h4
  have := rel_visit h hx x p.counter rfl rfl hc (fun d => by
      constructor
      · exact Or.inl
      · rintro (h1 | rfl)
        · exact h1
        · exact (h.has i x hx _).mpr ⟨p, h3, h4.1, h4.2, rfl⟩)
    (fun hne q hq e => by
      have := h.home q hq p h3 e (by rw [e]; exact hne)
      rw [this.1, this.2]; exact h4) s.symbols (fun n hne => by
      rw [h.syms n hne]
      constructor
      · rintro (h1 | h1)
        · exact Or.inl h1
        · exact Or.inr (Or.inl h1)
      · rintro (h1 | h1 | rfl)
        · exact Or.inl h1
        · exact Or.inr h1
        · exact Or.inr ⟨p, h3, rfl⟩) id (fun hne => by
      cases hl : Spec.isLabel σ p.counter with
      | false => rfl
      | true => exact absurd rfl (h.excl _ hne hl p h3))
  rw [set_self hx] at this
  rw [hr]
  exact this

theorem resumed_new {σ : Spec.Store} {n : Name} {k : Kind} (h : Spec.isSection σ k n = false) : Spec.resumed σ k n = n := by
  unfold Spec.resumed
  have : (σ.been.find? fun p => decide (p.kind = k ∧ p.sect = n)) = none := by
    rw [List.find?_eq_none]
    intro p hp
    have := List.any_eq_false.mp h p hp
    exact this
  rw [this]

theorem not_section {σ : Spec.Store} {n : Name} {k : Kind} (h : Spec.isSection σ k n = false) : ∀ p ∈ σ.been, ¬ (p.kind = k ∧ p.sect = n) := by
  intro p hp
  have := List.any_eq_false.mp h p hp
  simpa using this

theorem setSection_rel {s : State} {σ : Spec.Store} (h : Rel s σ) (n : Name) (k : Kind)
    (hn : (findSection s.sections n k).isNone → n ∉ s.symbols) : Rel (setSection s n k) (Spec.sect σ k n) := by
  unfold setSection Spec.sect
  have hi := isSection_iff h n k
  cases hf : findSection s.sections n k with
  | some i =>
    obtain ⟨x, hx, h1, h2⟩ := find_some hf
    have := rel_resume h hx
    rw [h1, h2] at this
    exact this
  | none =>
    rw [hf] at hi hn
    have hns := hn rfl
    rw [resumed_new hi]
    refine rel_new h n k (not_section hi) ?_ ?_ (n :: s.symbols) ?_
    · intro hne q hq e
      exact hns ((h.syms n hne).mpr (Or.inr ⟨q, hq, e⟩))
    · intro hne
      cases hl : Spec.isLabel σ n with
      | false => rfl
      | true => exact absurd ((h.syms n hne).mpr (Or.inl hl)) hns
    · intro m
      simp only [List.mem_cons]
      constructor
      · rintro (rfl | h1)
        · exact Or.inr ⟨rfl, Or.inr (Or.inl rfl)⟩
        · exact Or.inl h1
      · rintro (h1 | ⟨rfl, _⟩)
        · exact Or.inr h1
        · exact Or.inl rfl

theorem processSect_ok (s : State) (k : Kind) (l : Label) (hl : l.reported = false) (n : Name) (hn : l.id = n) : processSect s k l =
    if n ∈ s.symbols ∧ (findSection s.sections n k).isNone then { s with rep := true } else setSection s n k := by
  subst hn
  unfold processSect; simp only [hl, Bool.or_false]

theorem processLoctr_ok (s : State) (l : Label) (n : Name) (hl : l.reported = false) (hi : l.id = n) (hn : n ≠ []) : processLoctr s l =
    if n ∈ s.symbols then if (openSection s).sections.any (·.has n) then setCounter (openSection s) n else { openSection s with rep := true }
    else setCounter s n := by
  subst hi
  unfold processLoctr; simp only [hl, hn, Bool.or_false, decide_false]

theorem sect_rel {s : State} {σ : Spec.Store} (h : Rel s σ) (k : Kind) (l : Label) (hr : Spec.Regular σ (.sect k l)) :
    Rel (processSect s k l) (Spec.sectStmt σ k l) := by
  obtain ⟨hv, hb, hu⟩ := hr
  cases l with
  | bad => exact absurd rfl hb
  | none =>
    rw [processSect_ok s k .none rfl [] rfl]
    have hk : (findSection s.sections [] k).isNone → [] ∉ s.symbols := by
      intro hf hm
      obtain ⟨p, hp, h1⟩ := h.blank hm
      have := hu rfl p hp h1
      have hi := isSection_iff h [] k
      rw [Option.isNone_iff_eq_none] at hf
      rw [hf] at hi
      exact not_section hi p hp ⟨this, h1⟩
    rw [if_neg (fun hh => hk hh.2 hh.1)]
    exact setSection_rel h [] k hk
  | name n =>
    rw [processSect_ok s k (.name n) rfl n rfl]
    have hi := isSection_iff h n k
    have ht := taken_iff h n hv
    simp only [Spec.sectStmt]
    by_cases hc : n ∈ s.symbols ∧ (findSection s.sections n k).isNone = true
    · rw [if_pos hc, if_neg]
      · exact h.report true |> fun h => by simpa using h
      · rw [hi]
        rintro (h1 | h1)
        · rw [Option.isNone_iff_eq_none] at hc; rw [hc.2] at h1; cases h1
        · rw [ht.mpr hc.1] at h1; cases h1
    · rw [if_neg hc, if_pos]
      · exact setSection_rel h n k fun h1 h2 => hc ⟨h2, h1⟩
      · rw [hi]
        by_cases h2 : n ∈ s.symbols
        · left
          cases hf : findSection s.sections n k with
          | some _ => rfl
          | none => exact absurd ⟨h2, by rw [hf]; rfl⟩ hc
        · right
          cases h3 : Spec.taken σ n with
          | false => rfl
          | true => exact absurd (ht.mp h3) h2

theorem curr_none {s : State} {σ : Spec.Store} (h : Rel s σ) : σ.been = [] → s.curr = none := by
  intro hb
  cases hc : s.curr with
  | none => rfl
  | some i => obtain ⟨x, p, _, hp, _⟩ := h.here i hc; rw [hb] at hp; cases hp

theorem open_rel {s : State} {σ : Spec.Store} (h : Rel s σ) : Rel (openSection s) σ.begun := by
  unfold openSection Spec.Store.begun
  cases hc : s.curr with
  | none =>
    have hb := h.none hc
    rw [if_pos hb]
    refine rel_new h [] .executable (by rw [hb]; simp) (fun hh => absurd rfl hh) (fun hh => absurd rfl hh) s.symbols ?_
    intro m
    constructor
    · exact Or.inl
    · rintro (h1 | ⟨rfl, h1 | h1⟩)
      · exact h1
      · exact absurd rfl h1
      · exact h1
  | some i =>
    rw [if_neg]
    · exact h
    · intro hb; rw [curr_none h hb] at hc; cases hc

theorem open_some (s : State) : ∃ i, (openSection s).curr = some i := by
  unfold openSection
  cases hc : s.curr with
  | none => exact ⟨_, rfl⟩
  | some i => exact ⟨i, hc⟩

theorem open_idem (s : State) : openSection (openSection s) = openSection s := by
  obtain ⟨i, hi⟩ := open_some s
  rw [openSection, hi]

theorem begun_ne (σ : Spec.Store) : σ.begun.been ≠ [] := by
  unfold Spec.Store.begun
  split
  · simp [Spec.Store.go]
  · assumption

theorem current_eq {s : State} {σ : Spec.Store} (h : Rel s σ) : current s = σ.here := by
  unfold current Spec.Store.here
  cases hc : s.curr with
  | none => rw [h.none hc]; rfl
  | some i =>
    obtain ⟨x, p, hx, hp, h1, h2⟩ := h.here i hc
    obtain ⟨q, hq, h3⟩ := h.cur i x hx
    have : q = p := by
      cases hb : σ.been with
      | nil => rw [hb] at hp; cases hp
      | cons r rs =>
        rw [hb] at hp hq
        cases hp
        simp only [List.find?_cons, inSect, h1, h2, and_self, decide_true] at hq
        exact (Option.some.inj hq).symm
    subst this
    simp only [hx, h3, hp]
    rw [← h1, ← h2]

theorem lastWith_spec (n : Name) : ∀ (l : List Section) (i : Nat) (r : Option Nat),
    (lastWith n l i r = r ∧ ∀ x ∈ l, x.has n = false) ∨ ∃ j x, lastWith n l i r = some (i + j) ∧ l[j]? = some x ∧ x.has n = true
  | [], i, r => Or.inl ⟨rfl, by simp⟩
  | x :: l, i, r => by
    rw [lastWith]
    rcases lastWith_spec n l (i + 1) (if x.has n then some i else r) with ⟨h1, h2⟩ | ⟨j, y, h1, h2, h3⟩
    · cases hx : x.has n with
      | true => exact Or.inr ⟨0, x, by rw [hx] at h1; simpa using h1, rfl, hx⟩
      | false =>
        refine Or.inl ⟨by rw [hx] at h1; simpa using h1, ?_⟩
        intro y hy
        rcases List.mem_cons.mp hy with rfl | hy
        · exact hx
        · exact h2 y hy
    · exact Or.inr ⟨j + 1, y, by rw [h1]; congr 1; omega, by simpa using h2, h3⟩

theorem set_props (x : Section) (n : Name) : (x.set n).name = x.name ∧ (x.set n).kind = x.kind ∧ (x.set n).counters[(x.set n).cur]? = some n ∧
    ∀ d, d ∈ (x.set n).counters ↔ d ∈ x.counters ∨ d = n := by
  unfold Section.set
  cases hf : x.counters.findIdx? (· = n) with
  | some i =>
    rw [List.findIdx?_eq_some_iff_getElem] at hf
    obtain ⟨hi, h1, _⟩ := hf
    simp only [decide_eq_true_eq] at h1
    have hg : x.counters[i]? = some n := by simp [hi, h1]
    refine ⟨rfl, rfl, hg, fun d => ⟨Or.inl, ?_⟩⟩
    rintro (h2 | rfl)
    · exact h2
    · exact List.mem_of_getElem? hg
  | none => exact ⟨rfl, rfl, by simp, fun d => by simp⟩

theorem modify_eq {l : List Section} {i : Nat} {x : Section} (h : l[i]? = some x) (f : Section → Section) : l.modify i f = l.set i (f x) := by
  obtain ⟨hi, e⟩ := List.getElem?_eq_some_iff.mp h
  refine List.ext_getElem? fun j => ?_
  rw [List.getElem?_modify]
  by_cases hj : i = j
  · subst hj; rw [List.getElem?_set_self hi, h]; simp
  · rw [List.getElem?_set_ne hj]; simp [hj]

theorem has_iff (x : Section) (n : Name) : x.has n = true ↔ n ∈ x.counters := by simp [Section.has]

/-- LOCTR with a name that is not a label. -/
theorem counter_rel {s : State} {σ : Spec.Store} (h : Rel s σ) (n : Name) (hn : n ≠ []) (hl : Spec.isLabel σ n = false) :
    Rel (setCounter s n) (Spec.loctrStmt σ (.name n)) := by
  have ho := open_rel h
  obtain ⟨i, hi⟩ := open_some s
  have hl' : Spec.isLabel σ.begun n = false := by
    unfold Spec.Store.begun; split <;> exact hl
  unfold setCounter Spec.loctrStmt
  simp only [hl, Bool.false_eq_true, if_false]
  generalize openSection s = t at ho hi
  generalize σ.begun = τ at ho hl'
  rcases lastWith_spec n t.sections 0 none with ⟨h1, h2⟩ | ⟨j, x, h1, h2, h3⟩
  · rw [h1, hi]
    obtain ⟨x, p, hx, hp, h4, h5⟩ := ho.here i hi
    have hno : ∀ q ∈ τ.been, q.counter ≠ n := by
      intro q hq e
      obtain ⟨j, y, hy, h6, h7⟩ := ho.known q hq
      have := h2 y (List.mem_of_getElem? hy)
      have h8 := (ho.has j y hy n).mpr ⟨q, hq, h6, h7, e⟩
      rw [← has_iff, this] at h8; cases h8
    have hf : (τ.been.find? fun p => decide (p.counter = n)) = none := by
      rw [List.find?_eq_none]
      intro q hq
      simpa using hno q hq
    rw [hf]
    simp only [Spec.Store.here, hp]
    obtain ⟨p1, p2, p3, p4⟩ := set_props x n
    have := rel_visit ho hx (x.set n) n p1 p2 p3 p4 (fun _ q hq e => absurd e (hno q hq)) (n :: t.symbols) (fun m hm => by
      rw [List.mem_cons, ho.syms m hm]
      constructor
      · rintro (rfl | h1 | h1)
        · exact Or.inr (Or.inr rfl)
        · exact Or.inl h1
        · exact Or.inr (Or.inl h1)
      · rintro (h1 | h1 | rfl)
        · exact Or.inr (Or.inl h1)
        · exact Or.inr (Or.inr h1)
        · exact Or.inl rfl) (fun hm => by
      rcases List.mem_cons.mp hm with e | hm
      · exact absurd e.symm hn
      · exact hm) (fun _ => hl')
    rw [modify_eq hx, h4, h5, ← hi]
    rw [← hi] at this
    exact this
  · rw [h1]
    simp only [Nat.zero_add]
    obtain ⟨q, hq, h4, h5, h6⟩ := (ho.has j x h2 n).mp ((has_iff x n).mp h3)
    have hf : ∃ p, (τ.been.find? fun p => decide (p.counter = n)) = some p := by
      cases hf : τ.been.find? fun p => decide (p.counter = n) with
      | some p => exact ⟨p, rfl⟩
      | none =>
        rw [List.find?_eq_none] at hf
        exact absurd h6 (by simpa using hf q hq)
    obtain ⟨p, hf⟩ := hf
    have hp1 := List.mem_of_find?_eq_some hf
    have hp2 := List.find?_some hf
    simp only [decide_eq_true_eq] at hp2
    have hpq := ho.home p hp1 q hq (by rw [hp2, h6]) (by rw [hp2]; exact hn)
    rw [hf]
    simp only
    obtain ⟨p1, p2, p3, p4⟩ := set_props x n
    have := rel_visit ho h2 (x.set n) n p1 p2 p3 p4 (fun _ r hr e => by
        have := ho.home r hr q hq (by rw [e, h6]) (by rw [e]; exact hn)
        exact ⟨by rw [this.1, h4], by rw [this.2, h5]⟩) t.symbols (fun m hm => by
      rw [ho.syms m hm]
      constructor
      · rintro (h1 | h1)
        · exact Or.inl h1
        · exact Or.inr (Or.inl h1)
      · rintro (h1 | h1 | rfl)
        · exact Or.inl h1
        · exact Or.inr h1
        · exact Or.inr ⟨q, hq, h6⟩) id (fun _ => hl')
    rw [modify_eq h2, hpq.1, hpq.2, h4, h5]
    exact this

theorem loctr_rel {s : State} {σ : Spec.Store} (h : Rel s σ) (l : Label) (hr : Spec.Regular σ (.loctr l)) :
    Rel (processLoctr s l) (Spec.loctrStmt σ l) := by
  obtain ⟨n, rfl, hn⟩ := hr
  rw [processLoctr_ok s (.name n) n rfl rfl hn]
  by_cases hs : n ∈ s.symbols
  · rw [if_pos hs]
    have hne : σ.been ≠ [] := by
      intro hb
      rw [h.fresh hb] at hs; cases hs
    have hb : σ.begun = σ := by unfold Spec.Store.begun; rw [if_neg hne]
    have hop : openSection s = s := by
      unfold openSection
      cases hc : s.curr with
      | none => exact absurd (h.none hc) hne
      | some i => rfl
    rw [hop]
    cases hl : Spec.isLabel σ n with
    | false =>
      have : s.sections.any (·.has n) = true := by
        rcases (h.syms n hn).mp hs with h1 | ⟨p, hp, h1⟩
        · rw [hl] at h1; cases h1
        · obtain ⟨i, x, hx, h2, h3⟩ := h.known p hp
          rw [List.any_eq_true]
          exact ⟨x, List.mem_of_getElem? hx, (has_iff x n).mpr ((h.has i x hx n).mpr ⟨p, hp, h2, h3, h1⟩)⟩
      rw [if_pos this]
      exact counter_rel h n hn hl
    | true =>
      have : s.sections.any (·.has n) = false := by
        rw [List.any_eq_false]
        intro x hx
        obtain ⟨i, hi⟩ := List.mem_iff_getElem?.mp hx
        rw [has_iff, h.has i x hi n]
        rintro ⟨p, hp, _, _, h3⟩
        exact h.excl n hn hl p hp h3
      rw [if_neg (by rw [this]; simp)]
      unfold Spec.loctrStmt
      simp only [hl, if_true]
      have := h.report true
      simpa using this
  · rw [if_neg hs]
    cases hl : Spec.isLabel σ n with
    | false => exact counter_rel h n hn hl
    | true => exact absurd ((h.syms n hn).mpr (Or.inl hl)) hs

theorem label_name (s : State) (l : Label) (n : Name) (hl : l.id = n) (hn : n ≠ []) (p : Option Place) : label s l p =
    if n ∈ s.symbols then { s with rep := true }
    else match p with
      | some p => { s with symbols := n :: s.symbols, labels := (n, p) :: s.labels }
      | none => { s with symbols := n :: s.symbols } := by
  subst hl
  unfold label
  rw [if_neg hn]
  cases p <;> rfl

/-- A label is defined. -/
theorem define_rel {s : State} {σ : Spec.Store} (h : Rel s σ) (l : Label) (hv : Spec.valid l) (p : Option Place) (hb : σ.been ≠ []) :
    Rel (label s l p) (Spec.define σ l p) := by
  cases l with
  | none => simpa [label, Spec.define, Label.id, Label.reported] using h
  | bad => simpa [label, Spec.define, Label.id, Label.reported] using h.report true
  | name n =>
    have hn : n ≠ [] := hv
    rw [label_name s (.name n) n rfl hn p]
    simp only [Spec.define]
    have ht := taken_iff h n hn
    by_cases hs : n ∈ s.symbols
    · rw [if_pos hs, if_pos (ht.mpr hs)]
      have := h.report true
      simpa using this
    · rw [if_neg hs, if_neg (fun hh => hs (ht.mp hh))]
      have hi : ∀ m, Spec.isLabel { σ with labels := (n, p) :: σ.labels } m = true ↔ m = n ∨ Spec.isLabel σ m = true := by
        intro m
        simp only [Spec.isLabel, List.any_cons, Bool.or_eq_true, decide_eq_true_eq]
        exact or_congr ⟨Eq.symm, Eq.symm⟩ Iff.rfl
      have syms : ∀ m, m ≠ [] → (m ∈ n :: s.symbols ↔
          Spec.isLabel { σ with labels := (n, p) :: σ.labels } m = true ∨ ∃ q ∈ σ.been, q.counter = m) := by
        intro m hm
        rw [hi, List.mem_cons, h.syms m hm, or_assoc]
      have excl : ∀ m, m ≠ [] → Spec.isLabel { σ with labels := (n, p) :: σ.labels } m = true → ∀ q ∈ σ.been, q.counter ≠ m := by
        intro m hm hl q hq e
        rcases (hi m).mp hl with rfl | hl
        · exact hs ((h.syms m hm).mpr (Or.inr ⟨q, hq, e⟩))
        · exact h.excl m hm hl q hq e
      have blank : [] ∈ n :: s.symbols → ∃ q ∈ σ.been, q.sect = [] := by
        intro hh
        rcases List.mem_cons.mp hh with e | hh
        · exact absurd e.symm hn
        · exact h.blank hh
      cases p with
      | none => exact ⟨h.uniq, h.cur, h.has, h.known, h.first, h.here, h.none, syms, h.home, excl, blank, fun hh => absurd hh hb,
          by simpa using h.labels, h.calls, h.rep⟩
      | some p => exact ⟨h.uniq, h.cur, h.has, h.known, h.first, h.here, h.none, syms, h.home, excl, blank, fun hh => absurd hh hb,
          by simpa using h.labels, h.calls, h.rep⟩

theorem begun_here (σ : Spec.Store) : σ.begun.here = some (σ.here.getD Spec.unnamed) := by
  unfold Spec.Store.begun Spec.Store.here
  split
  · rename_i hb; rw [hb]; rfl
  · rename_i hb
    cases hc : σ.been with
    | nil => exact absurd hc hb
    | cons p r => rfl

theorem place_rel {s : State} {σ : Spec.Store} (h : Rel s σ) (l : Label) (hv : Spec.valid l) : Rel (step s (.place l)) (Spec.step σ (.place l)) := by
  have ho := open_rel h
  have hc := current_eq ho
  have hh := begun_here σ
  obtain ⟨i, hi⟩ := open_some s
  simp only [step, Spec.step]
  rw [hc, hh]
  generalize σ.here.getD Spec.unnamed = p at hh ⊢
  refine define_rel ?_ l hv (some p) (by simp [Spec.Store.go])
  obtain ⟨x, q, hx, hq, h1, h2⟩ := ho.here i hi
  rw [show σ.begun.been.head? = some p from hh] at hq
  cases hq
  have := rel_resume ho hx
  obtain ⟨r, hr, h3⟩ := ho.cur i x hx
  have hres : Spec.resumed σ.begun x.kind x.name = p.counter := by
    unfold Spec.resumed
    have hb : σ.begun.been.head? = some p := hh
    cases hc : σ.begun.been with
    | nil => rw [hc] at hb; cases hb
    | cons a b =>
      rw [hc] at hb; cases hb
      simp only [List.find?_cons, h1, h2, and_self, decide_true]
  rw [hres, ← h1, ← h2, ← hi] at this
  exact this

theorem enter_rel {s : State} {σ : Spec.Store} (h : Rel s σ) (mac : Name) : Rel (step s (.enter mac)) (Spec.step σ (.enter mac)) := by
  have hc := current_eq h
  simp only [step, Spec.step]
  refine ⟨h.uniq, h.cur, h.has, h.known, h.first, h.here, h.none, h.syms, h.home, h.excl, h.blank, h.fresh, h.labels, ?_, h.rep⟩
  simp only [enter, Spec.sysVars, h.calls]
  congr 2
  unfold current at hc
  cases hcur : s.curr with
  | none =>
    rw [hcur] at hc
    rw [← hc]
    simp [sOPEN]
  | some i =>
    obtain ⟨x, p, hx, hp, _⟩ := h.here i hcur
    obtain ⟨q, hq, h3⟩ := h.cur i x hx
    rw [hcur] at hc
    simp only [hx, h3] at hc
    rw [← hc]
    simp only [Option.bind_some, hx, Option.map_some, Option.getD_some, h3, SysVars.mk.injEq, true_and]
    refine ⟨?_, by simp, by simp [sOPEN]⟩
    cases x.kind <;> rfl

theorem equ_rel {s : State} {σ : Spec.Store} (h : Rel s σ) (l : Label) (hv : Spec.valid l) (hb : σ.been ≠ []) :
    Rel (step s (.equ l)) (Spec.step σ (.equ l)) := by
  simp only [step, Spec.step]
  have hop : openSection s = s := by
    unfold openSection
    cases hc : s.curr with
    | none => exact absurd (h.none hc) hb
    | some i => rfl
  rw [hop]
  cases l with
  | none =>
    have := h.report true
    simpa [label, Spec.define, Label.id, Label.reported] using this
  | bad =>
    have := h.report true
    simpa [label, Spec.define, Label.id, Label.reported, Spec.Store.report] using this
  | name n =>
    have e : ({ s with rep := s.rep || decide ((Label.name n).id = []) } : State) = s := by
      simp [Label.id, show n ≠ [] from hv]
    rw [e]
    have := (define_rel h (.name n) hv none hb).report false
    simpa using this

theorem step_rel {s : State} {σ : Spec.Store} (h : Rel s σ) (e : Ev) (hr : Spec.Regular σ e) : Rel (step s e) (Spec.step σ e) := by
  cases e with
  | sect k l => exact sect_rel h k l hr
  | loctr l => exact loctr_rel h l hr
  | start l => exact hr.elim
  | place l => exact place_rel h l hr
  | equ l => exact equ_rel h l hr.1 hr.2
  | enter mac => exact enter_rel h mac
  | leave => exact ⟨h.uniq, h.cur, h.has, h.known, h.first, h.here, h.none, h.syms, h.home, h.excl, h.blank, h.fresh, h.labels,
      by simp only [step, Spec.step, h.calls], h.rep⟩

theorem run_rel : ∀ (p : List Ev) (s : State) (σ : Spec.Store), Rel s σ → Spec.AllRegular σ p → Rel (run s p) (Spec.run σ p)
  | [], _, _, h, _ => h
  | e :: p, s, σ, h, hr => run_rel p _ _ (step_rel h e hr.1) hr.2

theorem init_rel : Rel {} {} where
  uniq := by intro i j x y hx; cases hx
  cur := by intro i x hx; cases hx
  has := by intro i x hx; cases hx
  known := by intro p hp; cases hp
  first := by intro i x hx; cases hx
  here := by intro i hi; cases hi
  none := fun _ => rfl
  syms := by intro n _; simp [Spec.isLabel]
  home := by intro p hp; cases hp
  excl := by intro n _ _ p hp; cases hp
  blank := by intro h; cases h
  fresh := fun _ => rfl
  labels := rfl
  calls := rfl
  rep := rfl

/-- C123: after any program, the next statement goes to the section and location counter it should, the labels are at the places where they were
written, the system variables of each open macro call tell the place of the call and the calls around it, and something was reported exactly if a
name was in use or missing. Partial: `AllRegular` leaves out what the witnesses show. -/
theorem C123_program_partial (p : List Ev) (hr : Spec.AllRegular {} p) :
    current (run {} p) = (Spec.run {} p).here ∧
    (run {} p).labels = (Spec.run {} p).labels.filterMap (fun l => l.2.map fun q => (l.1, q)) ∧
    (run {} p).calls = (Spec.run {} p).calls ∧
    (run {} p).rep = (Spec.run {} p).reported := by
  have h := run_rel p _ _ init_rel hr
  exact ⟨current_eq h, h.labels, h.calls, h.rep⟩

/-! ### Date and time -/

theorem digits_same : ∀ k n, Spec.digits k n = CaStmt.Spec.digits k n
  | 0, _ => rfl
  | k + 1, n => by rw [Spec.digits, CaStmt.Spec.digits, digits_same k]

theorem two (n : Nat) (h : n < 100) : (if n < 10 then [48] else []) ++ toDec n = Spec.digits 2 n := by
  rw [digits_same, ← CaStmt.zeroPad_digits 1 n (by omega)]
  by_cases h' : n < 10
  · rw [if_pos h', CaStmt.toDec_lt n h']; rfl
  · rw [if_neg h', CaStmt.toDec_ge n h', CaStmt.toDec_lt (n / 10) (by omega)]; rfl

theorem four (n : Nat) (h0 : 1000 ≤ n) (h : n < 10000) : toDec n = Spec.digits 4 n := by
  rw [digits_same, ← CaStmt.zeroPad_digits 3 n (by omega)]
  rw [CaStmt.toDec_ge n (by omega), CaStmt.toDec_ge (n / 10) (by omega), CaStmt.toDec_ge (n / 10 / 10) (by omega),
    CaStmt.toDec_lt (n / 10 / 10 / 10) (by omega)]
  rfl

/-- C123: &SYSDATC is the year in four digits, the month and the day in two, &SYSDATE is month, day and year in two digits each, separated by
slashes, and &SYSTIME is the hour and the minute in two digits, separated by a colon; until the year 9999. (`tm_year` counts from 1900 and `tm_mon`
from 0.) -/
theorem C123_date (t : Tm) (hy : t.year + 1900 < 10000) (hm : t.mon < 12) (hd : t.mday < 32) (hh : t.hour < 24) (hn : t.min < 60) :
    sysdatc t = Spec.digits 4 (1900 + t.year) ++ Spec.digits 2 (t.mon + 1) ++ Spec.digits 2 t.mday ∧
    sysdate t = Spec.digits 2 (t.mon + 1) ++ [47] ++ Spec.digits 2 t.mday ++ [47] ++ Spec.digits 2 ((1900 + t.year) % 100) ∧
    systime t = Spec.digits 2 t.hour ++ [58] ++ Spec.digits 2 t.min := by
  have e4 := four (t.year + 1900) (by omega) hy
  have em := two (t.mon + 1) (by omega)
  have ed := two t.mday (by omega)
  have eh := two t.hour (by omega)
  have en := two t.min (by omega)
  refine ⟨?_, ?_, ?_⟩
  · rw [sysdatc, e4, ← em, ← ed, Nat.add_comm]; simp only [List.append_assoc]
  · rw [sysdate, e4, ← em, ← ed]
    have : (Spec.digits 4 (t.year + 1900)).drop 2 = Spec.digits 2 ((1900 + t.year) % 100) := by
      simp only [Spec.digits, List.nil_append, List.cons_append, List.drop_succ_cons, List.drop_zero]
      rw [show (1900 + t.year) % 100 / 10 % 10 = (t.year + 1900) / 10 % 10 from by omega,
        show (1900 + t.year) % 100 % 10 = (t.year + 1900) % 10 from by omega]
    rw [this]; simp only [List.append_assoc]
  · rw [systime, ← eh, ← en]; simp only [List.append_assoc]

/-- 1 March 2021, 09:05. -/
example : sysdatc ⟨121, 2, 1, 9, 5⟩ = [50, 48, 50, 49, 48, 51, 48, 49] ∧ sysdate ⟨121, 2, 1, 9, 5⟩ = [48, 51, 47, 48, 49, 47, 50, 49] ∧
    systime ⟨121, 2, 1, 9, 5⟩ = [48, 57, 58, 48, 53] := by decide +kernel

/-! ### Examples and witnesses -/

/-- `A CSECT`, `L LOCTR`, `X DS F`, `D DSECT`, `Y DS F`, a call of `M`, `A CSECT`, `Z DS F`, a call of `N`. -/
def sample : List Ev :=
  [.sect .executable (.name [65]), .loctr (.name [76]), .place (.name [88]), .sect .dummy (.name [68]), .place (.name [89]), .enter [77],
    .sect .executable (.name [65]), .place (.name [90]), .enter [78]]

example : (run {} sample).labels =
    [([90], ⟨.executable, [65], [76]⟩), ([89], ⟨.dummy, [68], [68]⟩), ([88], ⟨.executable, [65], [76]⟩)] := by decide +kernel
example : ((run {} sample).calls.map fun f => (f.sys.sysect, f.sys.sysloc, f.sys.sysnest)) = [([65], [76], 2), ([68], [68], 1)] := by decide +kernel
example : ((run {} sample).calls.map fun f => f.sys.sysmac) = [[[78], [77], sOPEN], [[77], sOPEN]] := by decide +kernel
example : (run {} sample).rep = false ∧ (run {} (sample ++ [.leave, .sect .dummy (.name [65])])).rep = true := by decide +kernel
example : Spec.AllRegular {} sample := by
  simp [sample, Spec.AllRegular, Spec.Regular, Spec.valid]

/-- Violation: START begins no section, its name stays undefined. -/
theorem C123_witness_start :
    let p := [.start (.name [65]), .place .none]
    current (run {} p) = some ⟨.executable, [], []⟩ ∧ (Spec.run {} p).here = some ⟨.executable, [65], [65]⟩ := by decide +kernel

/-- Violation: `A EQU 1` begins a section; &SYSSTYP is CSECT behind it. -/
theorem C123_witness_equ :
    let p := [Ev.equ (.name [65]), .enter [77]]
    ((run {} p).calls.map fun f => f.sys.sysstyp) = [sCSECT] ∧ ((Spec.run {} p).calls.map fun f => f.sys.sysstyp) = [[]] := by decide +kernel

/-- Violation: after a DSECT without name, a CSECT without name is reported and does not begin. -/
theorem C123_witness_unnamed :
    let p := [.sect .dummy .none, .sect .executable .none, .place .none]
    current (run {} p) = some ⟨.dummy, [], []⟩ ∧ (run {} p).rep = true ∧
    (Spec.run {} p).here = some ⟨.executable, [], []⟩ ∧ (Spec.run {} p).reported = false := by decide +kernel

/-- Violation: LOCTR without name is reported, but begins a location counter. -/
theorem C123_witness_loctr :
    let p := [.sect .executable (.name [65]), .loctr .none, .place .none]
    current (run {} p) = some ⟨.executable, [65], []⟩ ∧ (run {} p).rep = true ∧
    (Spec.run {} p).here = some ⟨.executable, [65], [65]⟩ := by decide +kernel

/-- Violation: CSECT with an invalid name is reported, but begins the section without name. -/
theorem C123_witness_name :
    let p := [.sect .dummy (.name [65]), .sect .executable .bad, .place .none]
    current (run {} p) = some ⟨.executable, [], []⟩ ∧ (run {} p).rep = true ∧
    (Spec.run {} p).here = some ⟨.dummy, [65], [65]⟩ := by decide +kernel

end Verif.Sect
