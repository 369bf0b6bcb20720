import Mathlib.Tactic.ByContra
import Verif.Sect.Spec
/-!
The sections and counters of the code against the places that have been. C123.
-/
namespace Verif.Sect

def inSect (k : Kind) (n : Name) (p : Place) : Bool := p.kind = k ∧ p.sect = n

/-- The model and the specification are in step. -/
structure Rel (s : State) (σ : Spec.Store) : Prop where
  uniq : ∀ (i j : Nat) (x y : Section), s.sections[i]? = some x → s.sections[j]? = some y → x.name = y.name → x.kind = y.kind → i = j
  cur : ∀ (i : Nat) (x : Section), s.sections[i]? = some x → ∃ p, σ.been.find? (inSect x.kind x.name) = some p ∧ x.counters[x.cur]? = some p.counter
  has : ∀ (i : Nat) (x : Section), s.sections[i]? = some x → ∀ c, c ∈ x.counters ↔ ∃ p ∈ σ.been, p.kind = x.kind ∧ p.sect = x.name ∧ p.counter = c
  known : ∀ p ∈ σ.been, ∃ (i : Nat) (x : Section), s.sections[i]? = some x ∧ p.kind = x.kind ∧ p.sect = x.name
  first : ∀ (i : Nat) (x : Section), s.sections[i]? = some x → x.name ∈ x.counters
  here : ∀ i, s.curr = some i → ∃ (x : Section) (p : Place), s.sections[i]? = some x ∧ σ.been.head? = some p ∧ p.kind = x.kind ∧ p.sect = x.name
  none : s.curr = none → σ.been = []
  syms : ∀ n, n ≠ [] → (n ∈ s.symbols ↔ Spec.isLabel σ n = true ∨ ∃ p ∈ σ.been, p.counter = n)
  home : ∀ p ∈ σ.been, ∀ q ∈ σ.been, p.counter = q.counter → p.counter ≠ [] → p.kind = q.kind ∧ p.sect = q.sect
  excl : ∀ n, n ≠ [] → Spec.isLabel σ n = true → ∀ p ∈ σ.been, p.counter ≠ n
  blank : [] ∈ s.symbols → ∃ p ∈ σ.been, p.sect = []
  fresh : σ.been = [] → s.symbols = []
  labels : s.labels = σ.labels.filterMap fun l => l.2.map fun p => (l.1, p)
  calls : s.calls = σ.calls
  rep : s.rep = σ.reported

theorem Rel.report {s : State} {σ : Spec.Store} (h : Rel s σ) (b : Bool) : Rel { s with rep := s.rep || b } (σ.report b) :=
  ⟨h.uniq, h.cur, h.has, h.known, h.first, h.here, h.none, h.syms, h.home, h.excl, h.blank, h.fresh, h.labels, h.calls, by simp [Spec.Store.report, h.rep]⟩

theorem Rel.isLabel_report (σ : Spec.Store) (b : Bool) (n : Name) : Spec.isLabel (σ.report b) n = Spec.isLabel σ n := rfl

/-- Visiting a section that exists. -/
theorem rel_visit {s : State} {σ : Spec.Store} (h : Rel s σ) {i : Nat} {x : Section} (hx : s.sections[i]? = some x) (x' : Section) (c : Name)
    (hn : x'.name = x.name) (hk : x'.kind = x.kind) (hc : x'.counters[x'.cur]? = some c) (hm : ∀ d, d ∈ x'.counters ↔ d ∈ x.counters ∨ d = c)
    (h6 : c ≠ [] → ∀ q ∈ σ.been, q.counter = c → q.kind = x.kind ∧ q.sect = x.name) (syms : List Name)
    (h5 : ∀ n, n ≠ [] → (n ∈ syms ↔ Spec.isLabel σ n = true ∨ (∃ p ∈ σ.been, p.counter = n) ∨ c = n)) (h9 : [] ∈ syms → [] ∈ s.symbols)
    (hx7 : c ≠ [] → Spec.isLabel σ c = false) :
    Rel { s with sections := s.sections.set i x', curr := some i, symbols := syms } (σ.go ⟨x.kind, x.name, c⟩) := by
  have hlt : i < s.sections.length := by
    by_contra hh
    rw [List.getElem?_eq_none (by omega)] at hx; cases hx
  have get : ∀ (j : Nat) (y : Section), (s.sections.set i x')[j]? = some y → (j = i ∧ y = x') ∨ (j ≠ i ∧ s.sections[j]? = some y) := by
    intro j y hy
    by_cases hj : j = i
    · subst hj; rw [List.getElem?_set_self hlt] at hy; cases hy; exact Or.inl ⟨rfl, rfl⟩
    · rw [List.getElem?_set_ne (by omega)] at hy; exact Or.inr ⟨hj, hy⟩
  have other : ∀ (j : Nat) (y : Section), j ≠ i → s.sections[j]? = some y → ¬ (x.kind = y.kind ∧ x.name = y.name) := by
    intro j y hj hy ⟨e1, e2⟩
    exact hj (h.uniq i j x y hx hy e2 e1).symm
  refine ⟨?_, ?_, ?_, ?_, ?_, ?_, ?_, ?_, ?_, ?_, ?_, ?_, h.labels, h.calls, h.rep⟩
  · intro j l y z hy hz e1 e2
    rcases get j y hy with ⟨rfl, rfl⟩ | ⟨hj, hy'⟩ <;> rcases get l z hz with ⟨rfl, rfl⟩ | ⟨hl, hz'⟩
    · rfl
    · exact h.uniq _ _ x z hx hz' (hn ▸ e1) (hk ▸ e2)
    · exact h.uniq _ _ y x hy' hx (hn ▸ e1) (hk ▸ e2)
    · exact h.uniq _ _ y z hy' hz' e1 e2
  · intro j y hy
    rcases get j y hy with ⟨rfl, rfl⟩ | ⟨hj, hy'⟩
    · exact ⟨⟨x.kind, x.name, c⟩, by simp [Spec.Store.go, inSect, hk, hn], hc⟩
    · obtain ⟨p, h1, h2⟩ := h.cur j y hy'
      refine ⟨p, ?_, h2⟩
      have := other j y hj hy'
      simp only [Spec.Store.go, List.find?_cons, inSect]
      rw [show (decide (x.kind = y.kind ∧ x.name = y.name)) = false from by simp only [decide_eq_false_iff_not]; exact this]
      exact h1
  · intro j y hy d
    rcases get j y hy with ⟨rfl, rfl⟩ | ⟨hj, hy'⟩
    · rw [hm, h.has _ x hx, hk, hn]
      simp only [Spec.Store.go, List.mem_cons]
      constructor
      · rintro (⟨p, hp, h1, h2, h3⟩ | rfl)
        · exact ⟨p, Or.inr hp, h1, h2, h3⟩
        · exact ⟨_, Or.inl rfl, rfl, rfl, rfl⟩
      · rintro ⟨p, rfl | hp, h1, h2, h3⟩
        · exact Or.inr h3.symm
        · exact Or.inl ⟨p, hp, h1, h2, h3⟩
    · rw [h.has _ y hy']
      simp only [Spec.Store.go, List.mem_cons]
      constructor
      · rintro ⟨p, hp, h1⟩; exact ⟨p, Or.inr hp, h1⟩
      · rintro ⟨p, rfl | hp, h1, h2, h3⟩
        · exact absurd ⟨h1, h2⟩ (other j y hj hy')
        · exact ⟨p, hp, h1, h2, h3⟩
  · intro p hp
    rcases List.mem_cons.mp hp with rfl | hp
    · exact ⟨i, x', by simp [List.getElem?_set_self hlt], hk.symm, hn.symm⟩
    · obtain ⟨j, y, hy, h1, h2⟩ := h.known p hp
      by_cases hj : j = i
      · subst hj
        rw [hx] at hy; cases hy
        exact ⟨j, x', by simp [List.getElem?_set_self hlt], by rw [h1, hk], by rw [h2, hn]⟩
      · exact ⟨j, y, by rw [List.getElem?_set_ne (by omega)]; exact hy, h1, h2⟩
  · intro j y hy
    rcases get j y hy with ⟨rfl, rfl⟩ | ⟨hj, hy'⟩
    · rw [hm, hn]; exact Or.inl (h.first _ x hx)
    · exact h.first _ y hy'
  · intro j hj
    cases hj
    exact ⟨x', _, by simp [List.getElem?_set_self hlt], rfl, hk.symm, hn.symm⟩
  · intro hh; cases hh
  · intro n hne
    rw [h5 n hne]
    simp only [Spec.Store.go, Spec.isLabel, List.mem_cons]
    constructor
    · rintro (h1 | ⟨p, hp, h1⟩ | rfl)
      · exact Or.inl h1
      · exact Or.inr ⟨p, Or.inr hp, h1⟩
      · exact Or.inr ⟨_, Or.inl rfl, rfl⟩
    · rintro (h1 | ⟨p, rfl | hp, h1⟩)
      · exact Or.inl h1
      · exact Or.inr (Or.inr h1)
      · exact Or.inr (Or.inl ⟨p, hp, h1⟩)
  · intro p hp q hq e hne
    rcases List.mem_cons.mp hp with rfl | hp <;> rcases List.mem_cons.mp hq with rfl | hq
    · exact ⟨rfl, rfl⟩
    · have := h6 hne q hq e.symm; exact ⟨this.1.symm, this.2.symm⟩
    · rw [e] at hne; exact h6 hne p hp e
    · exact h.home p hp q hq e hne
  · intro m hm hl p hp
    rcases List.mem_cons.mp hp with rfl | hp
    · rintro rfl
      have := hx7 hm
      rw [show Spec.isLabel σ _ = true from hl] at this; cases this
    · exact h.excl m hm hl p hp
  · intro hb
    obtain ⟨p, hp, h1⟩ := h.blank (h9 hb)
    exact ⟨p, List.mem_cons_of_mem _ hp, h1⟩
  · intro hh; cases hh

/-- Beginning a section. -/
theorem rel_new {s : State} {σ : Spec.Store} (h : Rel s σ) (n : Name) (k : Kind) (hnew : ∀ p ∈ σ.been, ¬ (p.kind = k ∧ p.sect = n))
    (h6 : n ≠ [] → ∀ q ∈ σ.been, q.counter ≠ n) (hx7 : n ≠ [] → Spec.isLabel σ n = false) (syms : List Name) (h5 : ∀ m, m ∈ syms ↔ m ∈ s.symbols ∨ (m = n ∧ (m ≠ [] ∨ m ∈ syms))) :
    Rel { s with sections := s.sections ++ [newSection n k], curr := some s.sections.length, symbols := syms } (σ.go ⟨k, n, n⟩) := by
  have get : ∀ (j : Nat) (y : Section), (s.sections ++ [newSection n k])[j]? = some y → (j = s.sections.length ∧ y = newSection n k) ∨ s.sections[j]? = some y := by
    intro j y hy
    by_cases hj : j < s.sections.length
    · rw [List.getElem?_append_left hj] at hy; exact Or.inr hy
    · rw [List.getElem?_append_right (by omega)] at hy
      by_cases hj' : j - s.sections.length = 0
      · rw [hj'] at hy; simp at hy; exact Or.inl ⟨by omega, hy.symm⟩
      · rw [List.getElem?_eq_none (by simp; omega)] at hy; cases hy
  have old : ∀ (j : Nat) (y : Section), s.sections[j]? = some y → (s.sections ++ [newSection n k])[j]? = some y := by
    intro j y hy
    have : j < s.sections.length := by
      by_contra hh
      rw [List.getElem?_eq_none (by omega)] at hy; cases hy
    rw [List.getElem?_append_left this]; exact hy
  have self : (s.sections ++ [newSection n k])[s.sections.length]? = some (newSection n k) := by simp
  have other : ∀ (j : Nat) (y : Section), s.sections[j]? = some y → ¬ (y.kind = k ∧ y.name = n) := by
    intro j y hy ⟨e1, e2⟩
    obtain ⟨p, hp, _⟩ := h.cur j y hy
    have h1 := List.mem_of_find?_eq_some hp
    have h2 := List.find?_some hp
    simp only [inSect, decide_eq_true_eq] at h2
    exact hnew p h1 ⟨by rw [h2.1, e1], by rw [h2.2, e2]⟩
  refine ⟨?_, ?_, ?_, ?_, ?_, ?_, ?_, ?_, ?_, ?_, ?_, ?_, h.labels, h.calls, h.rep⟩
  · intro j l y z hy hz e1 e2
    rcases get j y hy with ⟨rfl, rfl⟩ | hy' <;> rcases get l z hz with ⟨rfl, rfl⟩ | hz'
    · rfl
    · exact absurd ⟨e2.symm, e1.symm⟩ (other _ z hz')
    · exact absurd ⟨e2, e1⟩ (other _ y hy')
    · exact h.uniq _ _ y z hy' hz' e1 e2
  · intro j y hy
    rcases get j y hy with ⟨rfl, rfl⟩ | hy'
    · exact ⟨⟨k, n, n⟩, by simp [Spec.Store.go, inSect, newSection], rfl⟩
    · obtain ⟨p, h1, h2⟩ := h.cur j y hy'
      refine ⟨p, ?_, h2⟩
      have := other j y hy'
      simp only [Spec.Store.go, List.find?_cons, inSect]
      rw [show (decide (k = y.kind ∧ n = y.name)) = false from by
        simp only [decide_eq_false_iff_not]; rintro ⟨e1, e2⟩; exact this ⟨e1.symm, e2.symm⟩]
      exact h1
  · intro j y hy d
    rcases get j y hy with ⟨rfl, rfl⟩ | hy'
    · simp only [newSection, Spec.Store.go, List.mem_cons, List.not_mem_nil, or_false]
      constructor
      · rintro rfl; exact ⟨_, Or.inl rfl, rfl, rfl, rfl⟩
      · rintro ⟨p, rfl | hp, h1, h2, h3⟩
        · exact h3.symm
        · exact absurd ⟨h1, h2⟩ (hnew p hp)
    · rw [h.has _ y hy']
      simp only [Spec.Store.go, List.mem_cons]
      constructor
      · rintro ⟨p, hp, h1⟩; exact ⟨p, Or.inr hp, h1⟩
      · rintro ⟨p, rfl | hp, h1, h2, h3⟩
        · exact absurd ⟨h1.symm, h2.symm⟩ (other j y hy')
        · exact ⟨p, hp, h1, h2, h3⟩
  · intro p hp
    rcases List.mem_cons.mp hp with rfl | hp
    · exact ⟨_, _, self, rfl, rfl⟩
    · obtain ⟨j, y, hy, h1⟩ := h.known p hp
      exact ⟨j, y, old j y hy, h1⟩
  · intro j y hy
    rcases get j y hy with ⟨rfl, rfl⟩ | hy'
    · simp [newSection]
    · exact h.first _ y hy'
  · intro j hj
    cases hj
    exact ⟨_, _, self, rfl, rfl, rfl⟩
  · intro hh; cases hh
  · intro m hne
    rw [h5 m, h.syms m hne]
    simp only [Spec.Store.go, Spec.isLabel, List.mem_cons]
    constructor
    · rintro ((h1 | ⟨p, hp, h1⟩) | ⟨rfl, _⟩)
      · exact Or.inl h1
      · exact Or.inr ⟨p, Or.inr hp, h1⟩
      · exact Or.inr ⟨_, Or.inl rfl, rfl⟩
    · rintro (h1 | ⟨p, rfl | hp, h1⟩)
      · exact Or.inl (Or.inl h1)
      · exact Or.inr ⟨h1.symm, Or.inl hne⟩
      · exact Or.inl (Or.inr ⟨p, hp, h1⟩)
  · intro p hp q hq e hne
    rcases List.mem_cons.mp hp with rfl | hp <;> rcases List.mem_cons.mp hq with rfl | hq
    · exact ⟨rfl, rfl⟩
    · exact absurd e.symm (h6 hne q hq)
    · rw [e] at hne; exact absurd e (h6 hne p hp)
    · exact h.home p hp q hq e hne
  · intro m hm hl p hp
    rcases List.mem_cons.mp hp with rfl | hp
    · rintro rfl
      have := hx7 hm
      rw [show Spec.isLabel σ _ = true from hl] at this; cases this
    · exact h.excl m hm hl p hp
  · intro hb
    rcases (h5 []).mp hb with hb | ⟨e, _⟩
    · obtain ⟨p, hp, h1⟩ := h.blank hb
      exact ⟨p, List.mem_cons_of_mem _ hp, h1⟩
    · exact ⟨_, List.mem_cons_self, e.symm⟩
  · intro hh; cases hh

end Verif.Sect
