import Verif.Client.Typing

/-!
# Adding and removing a continuation line
-/

namespace Verif.Client

theorem deleteRange_lines (m n x y : Nat) (h : m < n) : deleteRange ⟨n, x⟩ ⟨m, y⟩ = ⟨⟨m, y⟩, ⟨n, x⟩, []⟩ := by
  unfold deleteRange
  rw [if_neg (by simp; omega)]

theorem flat_append_two (eol : Char) (a : Doc) (l m : Text) (b : Doc) :
    flat eol (a ++ l :: m :: b) = before eol a ++ (l ++ eol :: (m ++ behind eol b)) := by
  rw [flat_split]; simp [behind]

/-- A line that ends before the column of the continuation. -/
theorem insert_short (eol : Char) (a : Doc) (l : Text) (b : Doc) (anchor : Pos) (c off col : Nat) (hl : l.length ≤ off) (hc : c ≤ l.length) :
    run eol (a ++ l :: b) (insertContinuation eol (a ++ l :: b) ⟨anchor, ⟨a.length, c⟩⟩ off col) =
      some (flat eol (a ++ (padded l off ++ ['X']) :: List.replicate col ' ' :: b)) := by
  have hk : isContinued (a ++ l :: b) a.length off = false := by
    rw [Bool.eq_false_iff]
    intro h
    have := ((isContinued_iff a l b off).mp h).lt
    omega
  have e1 := place_split eol a l b l.length (by omega)
  have e2 := place_end eol a l b off hl
  have e3 := place_end eol a l b (off + 1) (by omega)
  have hP : (before eol a).length + l.length ≤ (flat eol (a ++ l :: b)).length := by rw [flat_split]; simp
  unfold insertContinuation
  simp only [hk, if_true, line_split, deleteRange_line]
  rw [Nat.min_eq_left (by omega), Nat.max_eq_right (by omega)]
  by_cases hco : c < off
  · rw [if_pos hco, blanks_nonneg _ (by omega)]
    have : ((off : Int) - l.length).toNat = off - l.length := by omega
    simp only [this, Option.map_some, Option.bind_eq_bind, Option.bind_some, List.cons_append, List.nil_append, run, List.map_cons,
      List.map_nil, Edit.change, insertAt]
    rw [e1, e2, e3]
    rw [if_neg (by simp [overlapping, Change.overlaps]),
      apply_three _ _ _ _ _ _ _ _ _ _ (by omega) (by omega) (by omega) (by omega) (by omega) hP, flat_split, flat_append_two,
      take_line _ _ _ _ (by omega), drop_line _ _ _ _ (by omega)]
    simp [padded]
  · rw [if_neg hco]
    have hz : off - l.length = 0 := by omega
    simp only [Option.bind_eq_bind, Option.bind_some, List.nil_append, run, List.map_cons,
      List.map_nil, Edit.change, insertAt]
    rw [e2, e3]
    rw [if_neg (by simp [overlapping, Change.overlaps]),
      apply_two _ _ _ _ _ _ _ (by omega) (by omega) (by omega) hP, flat_split, flat_append_two,
      take_line _ _ _ _ (by omega), drop_line _ _ _ _ (by omega)]
    simp [padded, hz]

/-- A line with a blank in the column of the continuation; the cursor is behind. -/
theorem insert_long (eol : Char) (a : Doc) (l : Text) (b : Doc) (anchor : Pos) (c off col : Nat) (hl : l[off]? = some ' ') (hc : off ≤ c) :
    run eol (a ++ l :: b) (insertContinuation eol (a ++ l :: b) ⟨anchor, ⟨a.length, c⟩⟩ off col) =
      some (flat eol (a ++ (l.take off ++ ['X']) :: (List.replicate col ' ' ++ l.drop (off + 1)) :: b)) := by
  have hlen : off < l.length := (List.getElem?_eq_some_iff.mp hl).1
  have hk : isContinued (a ++ l :: b) a.length off = false := by
    rw [Bool.eq_false_iff]
    intro h
    obtain ⟨x, hx, hn⟩ := (isContinued_iff a l b off).mp h
    rw [hl] at hx
    exact hn (Option.some.inj hx).symm
  have e2 := place_split eol a l b off (by omega)
  have e3 := place_split eol a l b (off + 1) (by omega)
  have hP : (before eol a).length + (off + 1) ≤ (flat eol (a ++ l :: b)).length := by rw [flat_split]; simp; omega
  unfold insertContinuation
  simp only [hk, if_true, line_split, deleteRange_line]
  rw [Nat.min_eq_left (by omega), Nat.max_eq_right (by omega), if_neg (by omega)]
  simp only [Option.bind_eq_bind, Option.bind_some, List.nil_append, run, List.map_cons, List.map_nil, Edit.change, insertAt]
  rw [e2, e3]
  rw [if_neg (by simp [overlapping, Change.overlaps])]
  have s := apply_swap [] (⟨(before eol a).length + off, (before eol a).length + (off + 1), []⟩ : Change)
    ⟨(before eol a).length + off, (before eol a).length + off, 'X' :: eol :: List.replicate col ' '⟩ [] (Or.inr rfl)
    (flat eol (a ++ l :: b)) 0
  simp only [List.nil_append] at s
  rw [s, apply_two _ _ _ _ _ _ _ (by omega) (by omega) (by omega) hP, flat_split, flat_append_two,
      take_line _ _ _ _ (by omega), mid_line _ _ _ _ _ (by omega) (by omega), drop_line _ _ _ _ (by omega)]
  simp

/-- The same with the cursor before the column: the number of blanks is negative. -/
theorem insert_throws (eol : Char) (a : Doc) (l : Text) (b : Doc) (anchor : Pos) (c off col : Nat) (hl : l[off]? = some ' ') (hc : c < off) :
    insertContinuation eol (a ++ l :: b) ⟨anchor, ⟨a.length, c⟩⟩ off col = none := by
  have hlen : off < l.length := (List.getElem?_eq_some_iff.mp hl).1
  have hk : isContinued (a ++ l :: b) a.length off = false := by
    rw [Bool.eq_false_iff]
    intro h
    obtain ⟨x, hx, hn⟩ := (isContinued_iff a l b off).mp h
    rw [hl] at hx
    exact hn (Option.some.inj hx).symm
  unfold insertContinuation
  simp only [hk, if_true, line_split]
  rw [if_pos hc]
  have : blanks? ((off : Int) - l.length) = none := by unfold blanks?; rw [if_pos (by omega)]
  rw [this]
  rfl

/-- A line that is continued already. -/
theorem insert_continued (eol : Char) (a : Doc) (l : Text) (b : Doc) (anchor : Pos) (c off col : Nat) (hl : HasContinuation l off) :
    run eol (a ++ l :: b) (insertContinuation eol (a ++ l :: b) ⟨anchor, ⟨a.length, c⟩⟩ off col) =
      some (flat eol (a ++ l :: (List.replicate off ' ' ++ ['X']) :: b)) := by
  have hk := (isContinued_iff a l b off).mpr hl
  unfold insertContinuation
  simp only [hk, line_split]
  rw [if_neg (by simp), run_insert eol a l b l.length _ (by omega)]
  rw [flat_split, flat_append_two]
  simp [inserted]

/-- The previous line has a continuation. -/
theorem remove_previous (eol : Char) (a : Doc) (p l : Text) (b : Doc) (anchor : Pos) (c off : Nat) (hp : HasContinuation p off) (keep : Nat)
    (hkeep : keep = off + (if isContinued (a ++ p :: l :: b) (a.length + 1) off then 1 else 0)) :
    run eol (a ++ p :: l :: b) (removeContinuation (a ++ p :: l :: b) ⟨anchor, ⟨a.length + 1, c⟩⟩ off) =
      some (flat eol (a ++ p.take keep :: b)) := by
  have hk := (isContinued_iff a p (l :: b) off).mpr hp
  have hlt := hp.lt
  have hline : Doc.line (a ++ p :: l :: b) (a.length + 1) = l := by
    have := line_split (a ++ [p]) l b
    simpa using this
  unfold removeContinuation
  simp only [Nat.add_sub_cancel, hk, hline]
  rw [if_pos ⟨by omega, trivial⟩, deleteRange_lines _ _ _ _ (by omega), ← hkeep]
  have hk1 : keep ≤ p.length := by rw [hkeep]; split <;> omega
  simp only [run, List.map_cons, List.map_nil, Edit.change]
  have e1 := place_split eol a p (l :: b) keep hk1
  have e2 := place_split eol (a ++ [p]) l b l.length (by omega)
  simp only [List.append_assoc, List.cons_append, List.nil_append, List.length_append, List.length_cons, List.length_nil,
    Nat.zero_add] at e2
  rw [e1, e2]
  have hb : (before eol (a ++ [p])).length = (before eol a).length + p.length + 1 := by simp [before]; omega
  rw [hb, if_neg (by simp [overlapping])]
  have hP : (before eol a).length + p.length + 1 + l.length ≤ (flat eol (a ++ p :: l :: b)).length := by
    rw [flat_append_two]; simp; omega
  rw [apply_one _ _ _ _ (by omega) hP, flat_append_two, flat_split, take_line _ _ _ _ hk1]
  have : before eol a ++ (p ++ eol :: (l ++ behind eol b)) = (before eol a ++ (p ++ (eol :: l))) ++ behind eol b := by simp
  rw [this, show (before eol a).length + p.length + 1 + l.length = (before eol a ++ (p ++ (eol :: l))).length from by simp; omega,
    List.drop_left]
  simp

end Verif.Client
