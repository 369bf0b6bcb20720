import Verif.Client.Delete

/-!
# Typing before a continuation
-/

namespace Verif.Client

theorem findLoop_found (l : Text) (c : Nat) : ∀ (k pos : Nat), c + k ≤ pos → (∀ i, pos < i + k → i ≤ pos → l[i]? = some ' ') →
    findLoop l c pos k = (pos - k, 0)
  | 0, pos, _, _ => by simp [findLoop]
  | k + 1, pos, h1, h2 => by
    rw [findLoop, if_pos ⟨h2 pos (by omega) (by omega), by omega⟩,
      findLoop_found l c k (pos - 1) (by omega) (fun i h3 h4 => h2 i (by omega) (by omega))]
    congr 1; omega

theorem findLoop_missing (l : Text) (c : Nat) : ∀ (k pos : Nat),
    ¬ (c + k ≤ pos ∧ ∀ i, pos < i + k → i ≤ pos → l[i]? = some ' ') → 0 < k → 0 < (findLoop l c pos k).2
  | 0, _, _, h => absurd h (by omega)
  | k + 1, pos, h, _ => by
    rw [findLoop]
    split
    · rename_i hp
      by_cases hk : k = 0
      · exfalso
        apply h
        subst hk
        refine ⟨by omega, fun i h3 h4 => ?_⟩
        have : i = pos := by omega
        rw [this]; exact hp.1
      · apply findLoop_missing l c k (pos - 1) _ (by omega)
        rintro ⟨h1, h2⟩
        apply h
        refine ⟨by omega, fun i h3 h4 => ?_⟩
        by_cases hi : i = pos
        · rw [hi]; exact hp.1
        · exact h2 i (by omega) (by omega)
    · simp

/-- What `findSpace` finds: as many blanks as characters, not at the cursor. -/
theorem findSpace_found (l : Text) (n k c off : Nat) (hk : 0 < k) (h : Room l (c + 1) k off) :
    findSpace l n k c off = some ⟨⟨n, off - 1 - k⟩, ⟨n, off - 1⟩, []⟩ := by
  unfold findSpace
  rw [findLoop_found l c k (off - 1) (by have := h.1; omega) (fun i h3 h4 => h.2 i (by omega) (by have := h.1; omega))]
  simp only [Nat.lt_irrefl, if_false, gt_iff_lt]
  rw [deleteRange_line, Nat.min_eq_left (by omega), Nat.max_eq_right (by omega)]

theorem findSpace_missing (l : Text) (n k c off : Nat) (hk : 0 < k) (ho : 0 < off) (h : ¬ Room l (c + 1) k off) :
    findSpace l n k c off = none := by
  unfold findSpace
  have := findLoop_missing l c k (off - 1) (fun hh => h ⟨by have := hh.1; omega, fun i h3 h4 => hh.2 i (by omega) (by omega)⟩) hk
  generalize findLoop l c (off - 1) k = r at this
  obtain ⟨p, q⟩ := r
  simp only at this ⊢
  rw [if_pos this]

/-- A text inserted and a range behind it deleted in the same line. -/
theorem run_insert_delete (eol : Char) (a : Doc) (l : Text) (b : Doc) (c lo hi : Nat) (t : Text) (h1 : c ≤ lo) (h2 : lo ≤ hi)
    (h3 : hi ≤ l.length) :
    run eol (a ++ l :: b) (some [insertAt ⟨a.length, c⟩ t, ⟨⟨a.length, lo⟩, ⟨a.length, hi⟩, []⟩]) =
      some (flat eol (a ++ (l.take c ++ t ++ (l.drop c).take (lo - c) ++ l.drop hi) :: b)) := by
  simp only [run, List.map_cons, List.map_nil, Edit.change, insertAt]
  rw [place_split eol a l b c (by omega), place_split eol a l b lo (by omega), place_split eol a l b hi (by omega)]
  have ho : overlapping [(⟨(before eol a).length + c, (before eol a).length + c, t⟩ : Change),
      ⟨(before eol a).length + lo, (before eol a).length + hi, []⟩] = false := by
    simp [overlapping, Change.overlaps]; omega
  rw [if_neg (by rw [ho]; simp), flat_split, flat_split, apply_two _ _ _ _ _ _ _ (by omega) (by omega) (by omega) (by simp; omega),
    take_line _ _ _ _ (by omega), mid_line _ _ _ _ _ (by omega) h1, drop_line _ _ _ _ h3]
  simp

theorem run_insert (eol : Char) (a : Doc) (l : Text) (b : Doc) (c : Nat) (t : Text) (h1 : c ≤ l.length) :
    run eol (a ++ l :: b) (some [insertAt ⟨a.length, c⟩ t]) = some (flat eol (a ++ inserted l c t :: b)) := by
  simp only [run, List.map_cons, List.map_nil, Edit.change, insertAt]
  rw [place_split eol a l b c (by omega)]
  simp only [overlapping, List.any_nil, Bool.or_false, Bool.false_eq_true, if_false]
  rw [flat_split, flat_split, apply_one _ _ _ _ (by omega) (by simp; omega), take_line _ _ _ _ (by omega), drop_line _ _ _ _ h1]
  simp [inserted]

/-- The edits of typing without a selection. -/
theorem insertChars_found (a : Doc) (l : Text) (b : Doc) (c off : Nat) (t : Text) (ht : t ≠ []) (h : Room l (c + 1) t.length off) :
    insertChars (a ++ l :: b) ⟨⟨a.length, c⟩, ⟨a.length, c⟩⟩ t off =
      some [insertAt ⟨a.length, c⟩ t, ⟨⟨a.length, off - 1 - t.length⟩, ⟨a.length, off - 1⟩, []⟩] := by
  have hl : 0 < t.length := List.length_pos_iff.mpr ht
  have h1 := h.1
  unfold insertChars
  simp only [line_split]
  have hcond : off ≠ 0 ∧ c < off := ⟨by omega, by omega⟩
  rw [findSpace_found l a.length t.length c off hl h, if_pos hcond]
  simp

theorem insertChars_missing (a : Doc) (l : Text) (b : Doc) (c off : Nat) (t : Text) (ht : t ≠ []) (h : ¬ Room l (c + 1) t.length off) :
    insertChars (a ++ l :: b) ⟨⟨a.length, c⟩, ⟨a.length, c⟩⟩ t off = some [insertAt ⟨a.length, c⟩ t] := by
  have hl : 0 < t.length := List.length_pos_iff.mpr ht
  unfold insertChars
  simp only [line_split]
  by_cases ho : off ≠ 0 ∧ c < off
  · rw [findSpace_missing l a.length t.length c off hl (by omega) h, if_pos ho]
    simp
  · rw [if_neg ho]
    simp

theorem take_succ_some {l : Text} {n : Nat} {x : Char} (h : l[n]? = some x) : l.take (n + 1) = l.take n ++ [x] := by
  rw [List.take_add_one, h]; rfl

theorem drop_some {l : Text} {n : Nat} {x : Char} (h : l[n]? = some x) : l.drop n = x :: l.drop (n + 1) := by
  obtain ⟨hn, hx⟩ := List.getElem?_eq_some_iff.mp h
  rw [List.drop_eq_getElem_cons hn, hx]

/-- Deleting a blank further left or right in a run of blanks is the same. -/
theorem shift_blanks (l : Text) (c k off : Nat) (h : Room l c (k + 1) off) :
    (l.drop c).take (off - 1 - k - c) ++ l.drop (off - 1) = (l.drop c).take (off - k - c) ++ l.drop off := by
  have h1 := h.1
  have hb : l[off - 1 - k]? = some ' ' := h.2 _ (by omega) (by omega)
  have he : l[off - 1]? = some ' ' := h.2 _ (by omega) (by omega)
  have e1 : off - k - c = (off - 1 - k - c) + 1 := by omega
  have e2 : (l.drop c)[off - 1 - k - c]? = some ' ' := by
    rw [List.getElem?_drop, show c + (off - 1 - k - c) = off - 1 - k from by omega]; exact hb
  rw [e1, take_succ_some e2, drop_some he, show off - 1 + 1 = off from by omega]
  simp

/-- The edits of typing over a selection made from the left. -/
theorem insertChars_selection (a : Doc) (l : Text) (b : Doc) (lo hi off : Nat) (t : Text) (ht : t ≠ []) (hc : HasContinuation l off)
    (h1 : lo < hi) (h : Room l (hi + 1) t.length off) :
    insertChars (a ++ l :: b) ⟨⟨a.length, lo⟩, ⟨a.length, hi⟩⟩ t off =
      some [insertAt ⟨a.length, off⟩ (List.replicate (hi - lo) ' '), ⟨⟨a.length, lo⟩, ⟨a.length, hi⟩, []⟩, insertAt ⟨a.length, lo⟩ t,
        ⟨⟨a.length, off - 1 - t.length⟩, ⟨a.length, off - 1⟩, []⟩] := by
  have hl : 0 < t.length := List.length_pos_iff.mpr ht
  have h2 := h.1
  unfold insertChars
  simp only [line_split]
  have hcond : off ≠ 0 ∧ hi < off := ⟨by omega, by omega⟩
  rw [removeLeft_selection a l b off lo hi hc (by omega) (by omega) (by omega) (by omega),
    findSpace_found l a.length t.length hi off hl h, if_pos hcond, if_pos (by simp; omega),
    Nat.max_eq_right (by omega), Nat.min_eq_left (by omega)]
  simp [Sel.first, h1]

theorem run_replace (eol : Char) (a : Doc) (l : Text) (b : Doc) (lo hi p off : Nat) (t u : Text) (h1 : lo < hi) (h2 : hi ≤ p) (h3 : p < off)
    (h4 : off ≤ l.length) :
    run eol (a ++ l :: b) (some [insertAt ⟨a.length, off⟩ u, ⟨⟨a.length, lo⟩, ⟨a.length, hi⟩, []⟩, insertAt ⟨a.length, lo⟩ t,
        ⟨⟨a.length, p⟩, ⟨a.length, off - 1⟩, []⟩]) =
      some (flat eol (a ++ (l.take lo ++ t ++ (l.drop hi).take (p - hi) ++ (l.drop (off - 1)).take 1 ++ u ++ l.drop off) :: b)) := by
  simp only [run, List.map_cons, List.map_nil, Edit.change, insertAt]
  rw [place_split eol a l b off h4, place_split eol a l b lo (by omega), place_split eol a l b hi (by omega),
    place_split eol a l b p (by omega), place_split eol a l b (off - 1) (by omega)]
  generalize hP : (before eol a).length = P
  have ho : overlapping [(⟨P + off, P + off, u⟩ : Change), ⟨P + lo, P + hi, []⟩, ⟨P + lo, P + lo, t⟩, ⟨P + p, P + (off - 1), []⟩] =
      false := by
    simp [overlapping, Change.overlaps]; omega
  rw [if_neg (by rw [ho]; simp)]
  have s1 := apply_swap [(⟨P + off, P + off, u⟩ : Change)] ⟨P + lo, P + hi, []⟩ ⟨P + lo, P + lo, t⟩ [⟨P + p, P + (off - 1), []⟩]
    (Or.inr rfl) (flat eol (a ++ l :: b)) 0
  have s2 := apply_swap [] (⟨P + off, P + off, u⟩ : Change) ⟨P + lo, P + lo, t⟩ [⟨P + lo, P + hi, []⟩, ⟨P + p, P + (off - 1), []⟩]
    (Or.inl (by show P + off ≠ P + lo; omega)) (flat eol (a ++ l :: b)) 0
  have s3 := apply_swap [(⟨P + lo, P + lo, t⟩ : Change)] ⟨P + off, P + off, u⟩ ⟨P + lo, P + hi, []⟩ [⟨P + p, P + (off - 1), []⟩]
    (Or.inl (by show P + off ≠ P + lo; omega)) (flat eol (a ++ l :: b)) 0
  have s4 := apply_swap [(⟨P + lo, P + lo, t⟩ : Change), ⟨P + lo, P + hi, []⟩] ⟨P + off, P + off, u⟩ ⟨P + p, P + (off - 1), []⟩ []
    (Or.inl (by show P + off ≠ P + p; omega)) (flat eol (a ++ l :: b)) 0
  simp only [List.nil_append, List.cons_append] at s1 s2 s3 s4
  have hlen : P + off ≤ (flat eol (a ++ l :: b)).length := by rw [flat_split]; simp; omega
  rw [s1, s2, s3, s4, apply_four _ _ _ _ _ _ _ _ _ _ _ _ _ (by omega) (by omega) (by omega) (by omega) (by omega) (by omega) (by omega) hlen]
  subst hP
  rw [flat_split, flat_split, take_line _ _ _ _ (by omega),
    mid_line _ _ _ _ _ (by omega) (by omega), mid_line _ _ _ _ _ (by omega) (by omega), mid_line _ _ _ _ _ (by omega) (by omega),
    drop_line _ _ _ _ h4, show off - (off - 1) = 1 from by omega]
  simp

end Verif.Client
