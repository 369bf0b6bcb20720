import Verif.Client.Editor

/-!
# Applying edits

Edits in the order of the text can be applied one after the other; the order of edits that start at different places does not matter.
-/

namespace Verif.Client

theorem putAt_none {cs : List Change} {k : Nat} (h : ∀ c ∈ cs, c.start ≠ k) : putAt cs k = [] := by
  induction cs with
  | nil => rfl
  | cons c r ih =>
    have := ih fun x hx => h x (List.mem_cons_of_mem _ hx)
    have hc : c.start ≠ k := h c List.mem_cons_self
    simp only [putAt, List.filter_cons, decide_eq_true_eq, hc, if_false] at this ⊢
    exact this

theorem removed_none {cs : List Change} {k : Nat} (h : ∀ c ∈ cs, k < c.start) : removed cs k = false := by
  induction cs with
  | nil => rfl
  | cons c r ih =>
    have h1 := ih fun x hx => h x (List.mem_cons_of_mem _ hx)
    have hc := h c List.mem_cons_self
    simp only [removed, List.any_cons] at h1 ⊢
    rw [h1]; simp; omega

theorem putAt_cons (c : Change) (cs : List Change) (k : Nat) :
    putAt (c :: cs) k = (if c.start = k then c.text else []) ++ putAt cs k := by
  unfold putAt
  by_cases h : c.start = k <;> simp [h]

theorem removed_cons (c : Change) (cs : List Change) (k : Nat) :
    removed (c :: cs) k = ((decide (c.start ≤ k) && decide (k < c.stop)) || removed cs k) := by
  simp [removed]

theorem apply_nil (k : Nat) (x : Text) : apply [] k x = x := by
  induction x generalizing k with
  | nil => rfl
  | cons c r ih => simp [apply, putAt, removed, ih]

/-- Behind the range of a change it has no effect. -/
theorem apply_behind (c : Change) (cs : List Change) : ∀ (x : Text) (k : Nat), c.start < k → c.stop ≤ k →
    apply (c :: cs) k x = apply cs k x
  | [], k, h1, h2 => by simp [apply, putAt_cons, Nat.ne_of_lt h1]
  | a :: r, k, h1, h2 => by
    simp only [apply]
    rw [apply_behind c cs r (k + 1) (by omega) (by omega), putAt_cons, removed_cons]
    have : ¬ k < c.stop := by omega
    simp [Nat.ne_of_lt h1, this]

/-- From inside the range of the first change on. -/
theorem apply_inside (c : Change) (cs : List Change) (hcs : ∀ x ∈ cs, c.stop ≤ x.start) :
    ∀ (x : Text) (k : Nat), c.start < k → k ≤ c.stop → c.stop ≤ k + x.length →
    apply (c :: cs) k x = apply cs c.stop (x.drop (c.stop - k))
  | [], k, h1, h2, h3 => by
    simp only [List.length_nil] at h3
    have : k = c.stop := by omega
    subst this
    simp [apply, putAt_cons, Nat.ne_of_lt h1]
  | a :: r, k, h1, h2, h3 => by
    by_cases hk : k = c.stop
    · rw [apply_behind c cs _ k h1 (by omega), hk]; simp
    · have hlt : k < c.stop := by omega
      simp only [apply]
      rw [apply_inside c cs hcs r (k + 1) (by omega) (by omega) (by simp at h3; omega), putAt_cons, removed_cons,
        putAt_none (fun x hx => by have := hcs x hx; omega)]
      have : c.stop - k = (c.stop - (k + 1)) + 1 := by omega
      rw [this]
      simp [Nat.ne_of_lt h1, hlt, Nat.le_of_lt h1]

/-- The first change in the text: what is before it stays, its text comes in, its range goes. -/
theorem apply_cons (c : Change) (cs : List Change) (hc : c.start ≤ c.stop) (hcs : ∀ x ∈ cs, c.stop ≤ x.start) :
    ∀ (x : Text) (k : Nat), k ≤ c.start → c.stop ≤ k + x.length →
    apply (c :: cs) k x = x.take (c.start - k) ++ (c.text ++ apply cs c.stop (x.drop (c.stop - k)))
  | [], k, h1, h2 => by
    simp only [List.length_nil] at h2
    have e1 : c.start = k := by omega
    have e2 : c.stop = k := by omega
    simp [apply, putAt_cons, e1, e2]
  | a :: r, k, h1, h2 => by
    by_cases hk : k = c.start
    · by_cases hs : c.start = c.stop
      · simp only [apply]
        rw [apply_behind c cs r (k + 1) (by omega) (by omega), putAt_cons, removed_cons]
        have hn : ¬ k < c.stop := by omega
        have e : c.stop = k := by omega
        rw [e]
        simp [hk, hs, apply]
      · have hlt : k < c.stop := by omega
        simp only [apply]
        rw [apply_inside c cs hcs r (k + 1) (by omega) (by omega) (by simp at h2; omega), putAt_cons, removed_cons,
          putAt_none (fun x hx => by have := hcs x hx; omega)]
        have e : c.stop - k = (c.stop - (k + 1)) + 1 := by omega
        rw [e]
        simp [hk, hlt]
        intro h; omega
    · have hlt : k < c.start := by omega
      simp only [apply]
      rw [apply_cons c cs hc hcs r (k + 1) (by omega) (by simp at h2; omega), putAt_cons, removed_cons,
        putAt_none (fun x hx => by have := hcs x hx; omega), removed_none (fun x hx => by have := hcs x hx; omega)]
      have e1 : c.start - k = (c.start - (k + 1)) + 1 := by omega
      have e2 : c.stop - k = (c.stop - (k + 1)) + 1 := by omega
      rw [e1, e2]
      have e3 : ¬ c.start = k := by omega
      have e4 : ¬ c.start ≤ k := by omega
      simp [e3, e4]

/-- Two neighbours that start at different places can be swapped, and so can two of which one inserts nothing. -/
theorem apply_swap (p : List Change) (a b : Change) (q : List Change) (h : a.start ≠ b.start ∨ a.text = []) :
    ∀ (x : Text) (k : Nat), apply (p ++ a :: b :: q) k x = apply (p ++ b :: a :: q) k x := by
  have hp : ∀ k, putAt (p ++ a :: b :: q) k = putAt (p ++ b :: a :: q) k := by
    intro k
    induction p with
    | nil =>
      simp only [List.nil_append, putAt_cons]
      rcases h with h | h
      · by_cases h1 : a.start = k
        · have : ¬ b.start = k := fun e => h (h1.trans e.symm)
          simp [h1, this]
        · simp [h1]
      · simp [h]
    | cons c r ih => simp only [List.cons_append, putAt_cons, ih]
  have hr : ∀ k, removed (p ++ a :: b :: q) k = removed (p ++ b :: a :: q) k := by
    intro k
    simp only [removed, List.any_append, List.any_cons]
    cases (decide (a.start ≤ k) && decide (k < a.stop)) <;> cases (decide (b.start ≤ k) && decide (k < b.stop)) <;> rfl
  intro x
  induction x with
  | nil => intro k; exact hp k
  | cons c r ih => intro k; simp only [apply, hp, hr, ih]

/-- One change. -/
theorem apply_one (s e : Nat) (t : Text) (x : Text) (h1 : s ≤ e) (h2 : e ≤ x.length) :
    apply [⟨s, e, t⟩] 0 x = x.take s ++ (t ++ x.drop e) := by
  rw [apply_cons _ [] h1 (by simp) x 0 (Nat.zero_le _) (by simpa using h2)]
  simp [apply_nil]

/-- Two changes in the order of the text. -/
theorem apply_two (s e : Nat) (t : Text) (s' e' : Nat) (t' : Text) (x : Text) (h1 : s ≤ e) (h2 : e ≤ s') (h3 : s' ≤ e')
    (h4 : e' ≤ x.length) :
    apply [⟨s, e, t⟩, ⟨s', e', t'⟩] 0 x = x.take s ++ (t ++ ((x.drop e).take (s' - e) ++ (t' ++ x.drop e'))) := by
  rw [apply_cons _ _ h1 (by simpa using h2) x 0 (Nat.zero_le _) (by simp; omega)]
  simp only [Nat.sub_zero]
  rw [apply_cons _ [] h3 (by simp) _ _ h2 (by simp; omega)]
  simp only [apply_nil, List.drop_drop]
  rw [show e + (e' - e) = e' from by omega]

/-- Three changes in the order of the text. -/
theorem apply_three (s e : Nat) (t : Text) (s' e' : Nat) (t' : Text) (s'' e'' : Nat) (t'' : Text) (x : Text) (h1 : s ≤ e) (h2 : e ≤ s')
    (h3 : s' ≤ e') (h5 : e' ≤ s'') (h6 : s'' ≤ e'') (h4 : e'' ≤ x.length) :
    apply [⟨s, e, t⟩, ⟨s', e', t'⟩, ⟨s'', e'', t''⟩] 0 x =
      x.take s ++ (t ++ ((x.drop e).take (s' - e) ++ (t' ++ ((x.drop e').take (s'' - e') ++ (t'' ++ x.drop e''))))) := by
  rw [apply_cons _ _ h1 (by simp; omega) x 0 (Nat.zero_le _) (by simp; omega)]
  simp only [Nat.sub_zero]
  rw [apply_cons _ _ h3 (by simpa using h5) _ _ h2 (by simp; omega)]
  rw [apply_cons _ [] h6 (by simp) _ _ h5 (by simp; omega)]
  simp only [apply_nil, List.drop_drop]
  rw [show e + (e' - e) = e' from by omega, show e' + (e'' - e') = e'' from by omega]

/-- Four changes in the order of the text. -/
theorem apply_four (s e : Nat) (t : Text) (s' e' : Nat) (t' : Text) (s'' e'' : Nat) (t'' : Text) (s3 e3 : Nat) (t3 : Text) (x : Text)
    (h1 : s ≤ e) (h2 : e ≤ s') (h3 : s' ≤ e') (h5 : e' ≤ s'') (h6 : s'' ≤ e'') (h7 : e'' ≤ s3) (h8 : s3 ≤ e3) (h4 : e3 ≤ x.length) :
    apply [⟨s, e, t⟩, ⟨s', e', t'⟩, ⟨s'', e'', t''⟩, ⟨s3, e3, t3⟩] 0 x =
      x.take s ++ (t ++ ((x.drop e).take (s' - e) ++ (t' ++ ((x.drop e').take (s'' - e') ++ (t'' ++
        ((x.drop e'').take (s3 - e'') ++ (t3 ++ x.drop e3))))))) := by
  rw [apply_cons _ _ h1 (by simp; omega) x 0 (Nat.zero_le _) (by simp; omega)]
  simp only [Nat.sub_zero]
  rw [apply_cons _ _ h3 (by simp; omega) _ _ h2 (by simp; omega)]
  rw [apply_cons _ _ h6 (by simp; omega) _ _ h5 (by simp; omega)]
  rw [apply_cons _ [] h8 (by simp) _ _ h7 (by simp; omega)]
  simp only [apply_nil, List.drop_drop]
  rw [show e + (e' - e) = e' from by omega, show e' + (e'' - e') = e'' from by omega, show e'' + (e3 - e'') = e3 from by omega]

/-! ## Places -/

/-- What is before a line. -/
def before (eol : Char) (a : Doc) : Text := a.flatMap (· ++ [eol])

/-- What is behind a line. -/
def behind (eol : Char) (b : Doc) : Text := b.flatMap (eol :: ·)

theorem flat_cons (eol : Char) (l : Text) (b : Doc) : flat eol (l :: b) = l ++ behind eol b := by
  induction b generalizing l with
  | nil => simp [flat, behind]
  | cons m r ih => simp only [flat]; rw [ih m]; simp [behind]

theorem flat_split (eol : Char) (a : Doc) (l : Text) (b : Doc) :
    flat eol (a ++ l :: b) = before eol a ++ (l ++ behind eol b) := by
  induction a with
  | nil => simp [before, flat_cons]
  | cons m r ih =>
    have : ∃ z zs, r ++ l :: b = z :: zs := by cases r <;> exact ⟨_, _, rfl⟩
    obtain ⟨z, zs, hz⟩ := this
    simp only [List.cons_append]
    rw [hz]; simp only [flat]; rw [← hz, ih]; simp [before]

theorem place_split (eol : Char) (a : Doc) (l : Text) (b : Doc) (c : Nat) (hc : c ≤ l.length) :
    place (a ++ l :: b) a.length c = (before eol a).length + c := by
  induction a with
  | nil =>
    cases b with
    | nil => simp [place, before]; omega
    | cons m r => simp [place, before]; omega
  | cons m r ih =>
    have : ∃ z zs, r ++ l :: b = z :: zs := by cases r <;> exact ⟨_, _, rfl⟩
    obtain ⟨z, zs, hz⟩ := this
    simp only [List.cons_append, List.length_cons]
    rw [hz]; simp only [place]; rw [← hz, ih]; simp [before]; omega

theorem line_split (a : Doc) (l : Text) (b : Doc) : Doc.line (a ++ l :: b) a.length = l := by
  simp [Doc.line]

/-- The place of a position behind the end of the line. -/
theorem place_end (eol : Char) (a : Doc) (l : Text) (b : Doc) (c : Nat) (hc : l.length ≤ c) :
    place (a ++ l :: b) a.length c = (before eol a).length + l.length := by
  induction a with
  | nil =>
    cases b with
    | nil => simp [place, before]; omega
    | cons m r => simp [place, before]; omega
  | cons m r ih =>
    have : ∃ z zs, r ++ l :: b = z :: zs := by cases r <;> exact ⟨_, _, rfl⟩
    obtain ⟨z, zs, hz⟩ := this
    simp only [List.cons_append, List.length_cons]
    rw [hz]; simp only [place]; rw [← hz, ih]; simp [before]; omega

theorem place_le (eol : Char) : ∀ (d : Doc) (n c : Nat), place d n c ≤ (flat eol d).length
  | [], _, _ => Nat.zero_le _
  | [l], 0, c => by simp [place, flat]; omega
  | [l], _ + 1, _ => by simp [place, flat]
  | l :: _ :: _, 0, c => by simp [place, flat]; omega
  | l :: m :: r, n + 1, c => by
    have := place_le eol (m :: r) n c
    simp only [place, flat, List.length_append, List.length_cons] at this ⊢
    omega

/-- Later positions have later places. -/
theorem place_mono : ∀ (d : Doc) (m x n y : Nat), (m < n ∨ (m = n ∧ x ≤ y)) → place d m x ≤ place d n y
  | [], _, _, _, _, _ => Nat.le_refl _
  | [l], 0, x, 0, y, h => by simp only [place]; omega
  | [l], 0, x, _ + 1, y, h => by simp only [place]; omega
  | [l], _ + 1, x, 0, y, h => by omega
  | [l], _ + 1, x, _ + 1, y, h => by simp only [place]; omega
  | l :: _ :: _, 0, x, 0, y, h => by simp only [place]; omega
  | l :: _ :: _, 0, x, _ + 1, y, h => by simp only [place]; omega
  | l :: _ :: _, _ + 1, x, 0, y, h => by omega
  | l :: m :: r, i + 1, x, j + 1, y, h => by
    have := place_mono (m :: r) i x j y (by omega)
    simp only [place]; omega

end Verif.Client
