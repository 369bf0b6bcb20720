import Verif.Client.Continue

/-!
# C103, C104: editing before the continuation column, continuation lines
-/

namespace Verif.Client

/-- What stays: the line is as long as before, and everything from the continuation on is in the same columns. -/
theorem deleted_keeps (l : Text) (lo hi off : Nat) (h1 : lo ≤ hi) (h2 : hi ≤ off) (h3 : off ≤ l.length) :
    (deleted l lo hi off).length = l.length ∧ (deleted l lo hi off).drop off = l.drop off := by
  have e : (l.take lo ++ (l.drop hi).take (off - hi) ++ List.replicate (hi - lo) ' ').length = off := by
    simp; omega
  refine ⟨by simp [deleted]; omega, ?_⟩
  exact List.drop_left' e

theorem typed_keeps (l : Text) (c : Nat) (t : Text) (off : Nat) (h : Room l c t.length off) (h3 : off ≤ l.length) :
    (typed l c t off).length = l.length ∧ (typed l c t off).drop off = l.drop off := by
  have h1 := h.1
  have e : (l.take c ++ t ++ (l.drop c).take (off - t.length - c)).length = off := by
    simp; omega
  refine ⟨by simp [typed]; omega, ?_⟩
  exact List.drop_left' e

/-- Backspace with the cursor behind the first column and before the character before the continuation: the character before the cursor
goes, the continuation stays in its column, and so does what is behind it.

Not so in the first column of a line (`C103_first_column_witness`) and directly before the continuation
(`C103_before_continuation_witness`). -/
theorem C103_backspace_partial (eol : Char) (a : Doc) (l : Text) (b : Doc) (off y : Nat) (hc : HasContinuation l off) (h0 : 0 < y)
    (hy : y < off) :
    run eol (a ++ l :: b) (deleteLeft (a ++ l :: b) ⟨⟨a.length, y⟩, ⟨a.length, y⟩⟩ off) =
      some (flat eol (a ++ deleted l (y - 1) y off :: b)) ∧
    (deleted l (y - 1) y off).length = l.length ∧ (deleted l (y - 1) y off).drop off = l.drop off := by
  refine ⟨?_, deleted_keeps _ _ _ _ (by omega) (by omega) (Nat.le_of_lt hc.lt)⟩
  unfold deleteLeft
  rw [removeLeft_cursor a l b off y hc hy h0, run_delete_insert eol a l b (y - 1) y off [' '] (by omega) (by omega) (Nat.le_of_lt hc.lt)]
  have : y - (y - 1) = 1 := by omega
  simp [deleted, this]

/-- Delete with the cursor before the continuation. -/
theorem C103_delete (eol : Char) (a : Doc) (l : Text) (b : Doc) (off y : Nat) (hc : HasContinuation l off) (hy : y < off) :
    run eol (a ++ l :: b) (deleteRight (a ++ l :: b) ⟨⟨a.length, y⟩, ⟨a.length, y⟩⟩ off) =
      some (flat eol (a ++ deleted l y (y + 1) off :: b)) ∧
    (deleted l y (y + 1) off).length = l.length ∧ (deleted l y (y + 1) off).drop off = l.drop off := by
  refine ⟨?_, deleted_keeps _ _ _ _ (by omega) (by omega) (Nat.le_of_lt hc.lt)⟩
  rw [deleteRight_cursor a l b off y hc hy, run_delete_insert eol a l b y (y + 1) off [' '] (by omega) (by omega) (Nat.le_of_lt hc.lt)]
  have : y + 1 - y = 1 := by omega
  simp [deleted, this]

/-- Backspace and cut with a selection `x`..`y` (the cursor at `y`) before the continuation. Not so if the cursor is in the first column
or the selection reaches the continuation. -/
theorem C103_selection_partial (eol : Char) (a : Doc) (l : Text) (b : Doc) (off x y : Nat) (hc : HasContinuation l off) (hx : x < off)
    (hy : y < off) (hne : x ≠ y) (h0 : 0 < y) :
    run eol (a ++ l :: b) (deleteLeft (a ++ l :: b) ⟨⟨a.length, x⟩, ⟨a.length, y⟩⟩ off) =
      some (flat eol (a ++ deleted l (min x y) (max x y) off :: b)) ∧
    run eol (a ++ l :: b) (cut (a ++ l :: b) ⟨⟨a.length, x⟩, ⟨a.length, y⟩⟩ off) =
      some (flat eol (a ++ deleted l (min x y) (max x y) off :: b)) ∧
    (deleted l (min x y) (max x y) off).length = l.length ∧ (deleted l (min x y) (max x y) off).drop off = l.drop off := by
  have h := run_delete_insert eol a l b (min x y) (max x y) off (List.replicate (max x y - min x y) ' ') (by omega) (by omega)
    (Nat.le_of_lt hc.lt)
  have hn : ¬ ((⟨a.length, y⟩ : Pos) = ⟨a.length, x⟩) := by simp; omega
  refine ⟨?_, ?_, deleted_keeps _ _ _ _ (by omega) (by omega) (Nat.le_of_lt hc.lt)⟩
  · unfold deleteLeft; rw [removeLeft_selection a l b off x y hc hx hy hne h0, h]; rfl
  · unfold cut; rw [if_neg hn, removeLeft_selection a l b off x y hc hx hy hne h0, h]; rfl

/-- Delete with a selection up to the continuation. Not so if the cursor is directly before the continuation. -/
theorem C103_delete_selection_partial (eol : Char) (a : Doc) (l : Text) (b : Doc) (off x y : Nat) (hc : HasContinuation l off)
    (hx : x ≤ off) (hy : y < off) (hne : x ≠ y) :
    run eol (a ++ l :: b) (deleteRight (a ++ l :: b) ⟨⟨a.length, x⟩, ⟨a.length, y⟩⟩ off) =
      some (flat eol (a ++ deleted l (min x y) (max x y) off :: b)) ∧
    (deleted l (min x y) (max x y) off).length = l.length ∧ (deleted l (min x y) (max x y) off).drop off = l.drop off := by
  refine ⟨?_, deleted_keeps _ _ _ _ (by omega) (by omega) (Nat.le_of_lt hc.lt)⟩
  rw [deleteRight_selection a l b off x y hc hx hy hne,
    run_delete_insert eol a l b (min x y) (max x y) off _ (by omega) (by omega) (Nat.le_of_lt hc.lt)]
  rfl

/-- Cut without a selection changes nothing. -/
theorem C103_cut_nothing (eol : Char) (d : Doc) (p : Pos) (off : Nat) : run eol d (cut d ⟨p, p⟩ off) = some (flat eol d) := by
  unfold cut
  rw [if_pos rfl]
  simp [run, overlapping, apply_nil]

/-- A selection of several lines, or one with the cursor in a line without a continuation: exactly the selected text goes. -/
theorem C103_plain (eol : Char) (d : Doc) (s : Sel) (off : Nat)
    (hk : s.anchor.line ≠ s.active.line ∨ isContinued d s.active.line off = false) (hne : s.anchor ≠ s.active) :
    ∀ c ∈ [deleteLeft d s off, cut d s off, deleteRight d s off],
      run eol d c = some ((flat eol d).take (min (place d s.active.line s.active.char) (place d s.anchor.line s.anchor.char)) ++
        (flat eol d).drop (max (place d s.active.line s.active.char) (place d s.anchor.line s.anchor.char))) := by
  have ha := place_le eol d s.anchor.line s.anchor.char
  have hb := place_le eol d s.active.line s.active.char
  have key : run eol d (some [deleteRange s.active s.anchor]) =
      some ((flat eol d).take (min (place d s.active.line s.active.char) (place d s.anchor.line s.anchor.char)) ++
        (flat eol d).drop (max (place d s.active.line s.active.char) (place d s.anchor.line s.anchor.char))) := by
    unfold deleteRange
    by_cases h : (s.active.line < s.anchor.line ∨ (s.active.line = s.anchor.line ∧ s.active.char ≤ s.anchor.char))
    · rw [if_pos h]
      have := place_mono d _ _ _ _ h
      simp only [run, List.map_cons, List.map_nil, Edit.change, overlapping, List.any_nil, Bool.or_false, Bool.false_eq_true, if_false]
      rw [apply_one _ _ _ _ this ha, Nat.min_eq_left this, Nat.max_eq_right this]
      rfl
    · rw [if_neg h]
      have := place_mono d s.anchor.line s.anchor.char s.active.line s.active.char (by omega)
      simp only [run, List.map_cons, List.map_nil, Edit.change, overlapping, List.any_nil, Bool.or_false, Bool.false_eq_true, if_false]
      rw [apply_one _ _ _ _ this hb, Nat.min_eq_right this, Nat.max_eq_left this]
      rfl
  have hleft : removeLeft d s off = some [deleteRange s.active s.anchor] := by
    unfold removeLeft removeLeftCursor
    simp only
    rw [mkPos_nonneg _ _ (by unfold Sel.size; split <;> split <;> omega)]
    rcases hk with hk | hk
    · simp only [Sel.single, beq_false_of_ne hk, beq_false_of_ne hk.symm, Bool.and_false, Bool.false_eq_true, if_false,
        Option.bind_eq_bind, Option.bind_some, hne]
      split <;> rfl
    simp only [hk, Bool.false_and, Bool.false_eq_true, if_false, Option.bind_eq_bind, Option.bind_some, hne]
    split <;> rfl
  have hright : deleteRight d s off = some [deleteRange s.active s.anchor] := by
    unfold deleteRight deleteRightBlanks
    have hcur : deleteRightCursor d s ≠ none := by
      unfold deleteRightCursor
      split
      · simp
      · rw [mkPos_nonneg _ _ (by unfold Sel.size; split <;> split <;> omega)]; simp
    obtain ⟨cur, hcur⟩ := Option.ne_none_iff_exists'.mp hcur
    rw [hcur]
    rcases hk with hk | hk
    · simp only [Sel.single, beq_false_of_ne hk, beq_false_of_ne hk.symm, Bool.and_false, Bool.false_eq_true, if_false,
        Option.bind_eq_bind, Option.bind_some, hne]
      rfl
    simp only [hk, Bool.false_and, Bool.false_eq_true, if_false, Option.bind_eq_bind, Option.bind_some, hne]
    rfl
  intro c hc
  simp only [List.mem_cons, List.not_mem_nil, or_false] at hc
  rcases hc with rfl | rfl | rfl
  · unfold deleteLeft; rw [hleft, key]
  · unfold cut; rw [if_neg (fun h => hne h.symm), hleft, key]
  · rw [hright, key]

/-- Joining two lines. -/
theorem run_join (eol : Char) (a : Doc) (p l : Text) (b : Doc) :
    run eol (a ++ p :: l :: b) (some [⟨⟨a.length, p.length⟩, ⟨a.length + 1, 0⟩, []⟩]) = some (flat eol (a ++ (p ++ l) :: b)) := by
  simp only [run, List.map_cons, List.map_nil, Edit.change]
  have e1 := place_split eol a p (l :: b) p.length (Nat.le_refl _)
  have e2 := place_split eol (a ++ [p]) l b 0 (Nat.zero_le _)
  simp only [List.append_assoc, List.cons_append, List.nil_append, List.length_append, List.length_cons, List.length_nil,
    Nat.zero_add] at e2
  have hb : (before eol (a ++ [p])).length = (before eol a).length + p.length + 1 := by simp [before]; omega
  rw [e1, e2, hb, if_neg (by simp [overlapping])]
  rw [apply_one _ _ _ _ (by omega) (by rw [flat_append_two]; simp; omega), flat_append_two, flat_split, take_line _ _ _ _ (Nat.le_refl _)]
  have : before eol a ++ (p ++ eol :: (l ++ behind eol b)) = (before eol a ++ (p ++ [eol])) ++ (l ++ behind eol b) := by simp
  rw [this, Nat.add_zero, show (before eol a).length + p.length + 1 = (before eol a ++ (p ++ [eol])).length from by simp; omega,
    List.drop_left]
  simp

/-- Backspace and delete in a line without a continuation remove the character beside the cursor, or the end of the line. -/
theorem C103_plain_cursor (eol : Char) (a : Doc) (l : Text) (b : Doc) (off y : Nat) (hy : y ≤ l.length) (hk : ¬ HasContinuation l off) :
    (0 < y → run eol (a ++ l :: b) (deleteLeft (a ++ l :: b) ⟨⟨a.length, y⟩, ⟨a.length, y⟩⟩ off) =
      some (flat eol (a ++ erased l (y - 1) y :: b))) ∧
    (∀ a' p, a = a' ++ [p] → run eol (a ++ l :: b) (deleteLeft (a ++ l :: b) ⟨⟨a.length, 0⟩, ⟨a.length, 0⟩⟩ off) =
      some (flat eol (a' ++ (p ++ l) :: b))) ∧
    (y < l.length → run eol (a ++ l :: b) (deleteRight (a ++ l :: b) ⟨⟨a.length, y⟩, ⟨a.length, y⟩⟩ off) =
      some (flat eol (a ++ erased l y (y + 1) :: b))) ∧
    (∀ m b', b = m :: b' → run eol (a ++ l :: b) (deleteRight (a ++ l :: b) ⟨⟨a.length, l.length⟩, ⟨a.length, l.length⟩⟩ off) =
      some (flat eol (a ++ (l ++ m) :: b'))) := by
  have hf : isContinued (a ++ l :: b) a.length off = false := by
    rw [Bool.eq_false_iff]; exact fun h => hk ((isContinued_iff a l b off).mp h)
  have hs : ∀ y, Sel.size ⟨⟨a.length, y⟩, ⟨a.length, y⟩⟩ 1 = 1 := by intro y; unfold Sel.size; simp
  have hs' : ∀ y, Sel.size ⟨⟨a.length, y⟩, ⟨a.length, y⟩⟩ (-1) = -1 := by intro y; unfold Sel.size; simp
  refine ⟨fun h0 => ?_, ?_, fun h => ?_, ?_⟩
  · rw [← run_delete eol a l b (y - 1) y (by omega) hy]
    congr 1
    unfold deleteLeft removeLeft removeLeftCursor
    simp only [hs, hf, Bool.false_and, Bool.false_eq_true, if_false]
    have hcur : mkPos a.length ((y : Int) - (if (1 : Int) > 0 ∧ y > 0 then (1 : Int) else 0)) = some ⟨a.length, y - 1⟩ := by
      rw [if_pos ⟨by omega, h0⟩, mkPos_nonneg _ _ (by omega)]; congr 2; omega
    rw [hcur]
    have : ¬ (y = 0 ∧ a.length > 0) := by omega
    simp only [Option.bind_eq_bind, Option.bind_some, this, if_false, if_true, deleteRange_line, List.nil_append]
    rw [Nat.min_eq_right (by omega), Nat.max_eq_left (by omega)]
  · rintro a' p rfl
    simp only [List.append_assoc, List.cons_append, List.nil_append, List.length_append, List.length_cons, List.length_nil,
      Nat.zero_add] at hf hs ⊢
    rw [← run_join eol a' p l b]
    congr 1
    unfold deleteLeft removeLeft removeLeftCursor
    simp only [hs, hf, Bool.false_and, Bool.false_eq_true, if_false]
    have hcur : mkPos (a'.length + 1) (((0 : Nat) : Int) - (if (1 : Int) > 0 ∧ 0 > 0 then (1 : Int) else 0)) = some ⟨a'.length + 1, 0⟩ := by
      rw [if_neg (by omega)]; rfl
    rw [hcur]
    have : (True ∧ a'.length + 1 > 0) := by simp
    simp only [Option.bind_eq_bind, Option.bind_some, this, if_true, List.nil_append, Nat.add_sub_cancel,
      line_split a' p (l :: b), and_self]
    rw [deleteRange_lines _ _ _ _ (Nat.lt_succ_self a'.length)]
  · rw [← run_delete eol a l b y (y + 1) (by omega) (by omega)]
    congr 1
    have hd : ¬ (l.drop y = []) := by simp; omega
    have hcur : deleteRightCursor (a ++ l :: b) ⟨⟨a.length, y⟩, ⟨a.length, y⟩⟩ = some ⟨a.length, y + 1⟩ := by
      unfold deleteRightCursor
      simp only [line_split, hd, if_false, hs']
      rw [if_pos (by omega), mkPos_nonneg _ _ (by omega)]; congr 2
    unfold deleteRight deleteRightBlanks
    rw [hcur]
    simp only [hf, Bool.false_and, Bool.false_eq_true, if_false, Option.bind_eq_bind, Option.bind_some, if_true, deleteRange_line]
    rw [Nat.min_eq_left (by omega), Nat.max_eq_right (by omega)]
    rfl
  · rintro m b' rfl
    rw [← run_join eol a l m b']
    congr 1
    have hcur : deleteRightCursor (a ++ l :: m :: b') ⟨⟨a.length, l.length⟩, ⟨a.length, l.length⟩⟩ = some ⟨a.length + 1, 0⟩ := by
      unfold deleteRightCursor
      simp only [line_split, List.drop_length, if_true]
    unfold deleteRight deleteRightBlanks
    rw [hcur]
    simp only [hf, Bool.false_and, Bool.false_eq_true, if_false, Option.bind_eq_bind, Option.bind_some, if_true]
    unfold deleteRange
    rw [if_pos (by simp)]
    rfl

/-! ## Typing -/

/-- Text typed before the continuation when there are more blanks than characters typed directly before it: the text comes in, as many
blanks go, everything from the continuation on stays in its columns.

One blank more than necessary is asked for: with as many blanks as characters a character is lost (`C103_typing_negation`). -/
theorem C103_typing_partial (eol : Char) (a : Doc) (l : Text) (b : Doc) (c off : Nat) (t : Text) (ht : t ≠ []) (hl : off ≤ l.length)
    (h : Room l c (t.length + 1) off) :
    run eol (a ++ l :: b) (insertChars (a ++ l :: b) ⟨⟨a.length, c⟩, ⟨a.length, c⟩⟩ t off) =
      some (flat eol (a ++ typed l c t off :: b)) ∧
    (typed l c t off).length = l.length ∧ (typed l c t off).drop off = l.drop off := by
  have h1 := h.1
  have hr : Room l (c + 1) t.length off := ⟨by omega, fun i h3 h4 => h.2 i (by omega) h4⟩
  have hr' : Room l c t.length off := ⟨by omega, fun i h3 h4 => h.2 i (by omega) h4⟩
  refine ⟨?_, typed_keeps l c t off hr' hl⟩
  rw [insertChars_found a l b c off t ht hr, run_insert_delete eol a l b c _ _ t (by omega) (by omega) (by omega)]
  have := shift_blanks l c t.length off h
  unfold typed
  simp only [List.append_assoc] at this ⊢
  rw [this]

/-- What typing does in every case: with as many blanks as characters behind the cursor, the characters deleted are those before the last
blank; otherwise nothing is deleted. -/
theorem C103_typing (eol : Char) (a : Doc) (l : Text) (b : Doc) (c off : Nat) (t : Text) (ht : t ≠ []) (hc : c ≤ l.length) :
    (Room l (c + 1) t.length off → off ≤ l.length →
      run eol (a ++ l :: b) (insertChars (a ++ l :: b) ⟨⟨a.length, c⟩, ⟨a.length, c⟩⟩ t off) =
        some (flat eol (a ++ (l.take c ++ t ++ (l.drop c).take (off - 1 - t.length - c) ++ l.drop (off - 1)) :: b))) ∧
    (¬ Room l (c + 1) t.length off →
      run eol (a ++ l :: b) (insertChars (a ++ l :: b) ⟨⟨a.length, c⟩, ⟨a.length, c⟩⟩ t off) =
        some (flat eol (a ++ inserted l c t :: b))) := by
  constructor
  · intro hr hl
    have h1 := hr.1
    rw [insertChars_found a l b c off t ht hr, run_insert_delete eol a l b c _ _ t (by omega) (by omega) (by omega)]
  · intro hr
    rw [insertChars_missing a l b c off t ht hr, run_insert eol a l b c t hc]

/-- Text typed over a selection made from the left: as if the selection were deleted first, and then the text typed. Not so if there are
not more blanks than characters typed in the line before (`C103_replacing_negation`). -/
theorem C103_replacing_partial (eol : Char) (a : Doc) (l : Text) (b : Doc) (lo hi off : Nat) (t : Text) (ht : t ≠ [])
    (hc : HasContinuation l off) (h1 : lo < hi) (h : Room l hi (t.length + 1) off) :
    run eol (a ++ l :: b) (insertChars (a ++ l :: b) ⟨⟨a.length, lo⟩, ⟨a.length, hi⟩⟩ t off) =
      some (flat eol (a ++ typed (deleted l lo hi off) lo t off :: b)) ∧
    (typed (deleted l lo hi off) lo t off).length = l.length ∧ (typed (deleted l lo hi off) lo t off).drop off = l.drop off := by
  have hlt := hc.lt
  have h2 := h.1
  have hr : Room l (hi + 1) t.length off := ⟨by omega, fun i h3 h4 => h.2 i (by omega) h4⟩
  obtain ⟨k1, k2⟩ := deleted_keeps l lo hi off (by omega) (by omega) (by omega)
  have hdl : (deleted l lo hi off).take lo = l.take lo := by
    unfold deleted
    simp only [List.append_assoc]
    rw [List.take_append_of_le_length (by simp; omega), List.take_of_length_le (by simp; omega)]
  have hdd : (deleted l lo hi off).drop lo = (l.drop hi).take (off - hi) ++ (List.replicate (hi - lo) ' ' ++ l.drop off) := by
    unfold deleted
    simp only [List.append_assoc]
    exact List.drop_left' (by simp; omega)
  have hrd : Room (deleted l lo hi off) lo t.length off := by
    refine ⟨by omega, fun i h3 h4 => ?_⟩
    have e : (deleted l lo hi off)[i]? = ((deleted l lo hi off).drop lo)[i - lo]? := by
      rw [List.getElem?_drop, show lo + (i - lo) = i from by omega]
    rw [e, hdd]
    by_cases hi' : i - lo < off - hi
    · rw [List.getElem?_append_left (by simp; omega), List.getElem?_take_of_lt hi', List.getElem?_drop]
      exact h.2 _ (by omega) (by omega)
    · rw [List.getElem?_append_right (by simp; omega), List.getElem?_append_left (by simp; omega), List.getElem?_replicate]
      rw [if_pos (by simp; omega)]
  obtain ⟨k3, k4⟩ := typed_keeps _ lo t off hrd (by omega)
  refine ⟨?_, by omega, by rw [k4, k2]⟩
  rw [insertChars_selection a l b lo hi off t ht hc h1 hr, run_replace eol a l b lo hi _ off t _ h1 (by omega) (by omega) (by omega)]
  have hs := shift_blanks l hi t.length off h
  have he : l[off - 1]? = some ' ' := h.2 _ (by omega) (by omega)
  have hd1 : l.drop (off - 1) = ' ' :: l.drop off := by rw [drop_some he, show off - 1 + 1 = off from by omega]
  have hmid : (l.drop hi).take (off - 1 - t.length - hi) ++ [' '] = (l.drop hi).take (off - t.length - hi) := by
    rw [hd1] at hs
    have : (l.drop hi).take (off - 1 - t.length - hi) ++ [' '] ++ l.drop off = (l.drop hi).take (off - t.length - hi) ++ l.drop off := by
      simpa using hs
    exact List.append_cancel_right this
  have hmid2 : ((deleted l lo hi off).drop lo).take (off - t.length - lo) =
      (l.drop hi).take (off - t.length - hi) ++ List.replicate (hi - lo) ' ' := by
    rw [hdd]
    by_cases hz : off - t.length - lo ≤ off - hi
    · -- the blanks that go are all in the run
      rw [List.take_append_of_le_length (by simp; omega), List.take_take, Nat.min_eq_left hz]
      have hsplit : (l.drop hi).take (off - t.length - lo) = (l.drop hi).take (off - t.length - hi) ++
          ((l.drop hi).drop (off - t.length - hi)).take (hi - lo) := by
        rw [← List.take_add]; congr 1; omega
      rw [hsplit]
      congr 1
      apply List.ext_getElem?
      intro i
      by_cases hii : i < hi - lo
      · rw [List.getElem?_take_of_lt hii, List.getElem?_drop, List.getElem?_drop, List.getElem?_replicate, if_pos hii]
        exact h.2 _ (by omega) (by omega)
      · rw [List.getElem?_eq_none (by simp; omega), List.getElem?_eq_none (by simp; omega)]
    · rw [List.take_append, List.take_of_length_le (by simp; omega)]
      have hlen : ((l.drop hi).take (off - hi)).length = off - hi := by simp; omega
      rw [hlen, List.take_append_of_le_length (by simp; omega), List.take_replicate]
      have hsplit : (l.drop hi).take (off - hi) = (l.drop hi).take (off - t.length - hi) ++
          ((l.drop hi).drop (off - t.length - hi)).take t.length := by
        rw [← List.take_add]; congr 1; omega
      have hbl : ((l.drop hi).drop (off - t.length - hi)).take t.length = List.replicate t.length ' ' := by
        apply List.ext_getElem?
        intro i
        by_cases hii : i < t.length
        · rw [List.getElem?_take_of_lt hii, List.getElem?_drop, List.getElem?_drop, List.getElem?_replicate, if_pos hii]
          exact h.2 _ (by omega) (by omega)
        · rw [List.getElem?_eq_none (by simp; omega), List.getElem?_eq_none (by simp; omega)]
      rw [hsplit, hbl, List.append_assoc, List.replicate_append_replicate]
      congr 2; omega
  unfold typed
  rw [hdl, hmid2, k2, hd1]
  simp only [List.take_succ_cons, List.take_zero, List.append_assoc]
  rw [← hmid]
  simp

/-! ## Where the claim fails -/

/-- A line of 71 characters and a continuation: the column of the extension. -/
def full : Text := List.replicate 71 'A' ++ ['X']

/-- Backspace in the first column of a continued line joins nothing: a blank is put before the continuation, which moves right. -/
theorem C103_first_column_witness :
    HasContinuation full 71 ∧
    run '\n' [full, full] (deleteLeft [full, full] ⟨⟨1, 0⟩, ⟨1, 0⟩⟩ 71) = some (flat '\n' [full, List.replicate 71 'A' ++ [' ', 'X']]) ∧
    run '\n' [full, ['B']] (deleteLeft [full, ['B']] ⟨⟨1, 0⟩, ⟨1, 0⟩⟩ 71) = some (full ++ ['B']) := by
  refine ⟨⟨'X', by decide +kernel, by decide +kernel⟩, by decide +kernel, by decide +kernel⟩

/-- A selection made from the right to the first column, and one up to the continuation: the continuation moves left. -/
theorem C103_before_continuation_witness :
    run '\n' [full] (deleteLeft [full] ⟨⟨0, 2⟩, ⟨0, 0⟩⟩ 71) = some (List.replicate 69 'A' ++ ['X']) ∧
    run '\n' [full] (deleteLeft [full] ⟨⟨0, 71⟩, ⟨0, 71⟩⟩ 71) = some (List.replicate 70 'A' ++ ['X']) ∧
    run '\n' [full] (deleteRight [full] ⟨⟨0, 70⟩, ⟨0, 71⟩⟩ 71) = some (List.replicate 70 'A' ++ ['X']) ∧
    run '\n' [full] (cut [full] ⟨⟨0, 70⟩, ⟨0, 71⟩⟩ 71) = some (List.replicate 70 'A' ++ ['X']) := by
  refine ⟨by decide +kernel, by decide +kernel, by decide +kernel, by decide +kernel⟩

/-- Delete with a selection over the continuation, the cursor on its left: the blank is inserted into the text that is deleted, so the
editor refuses both; with a long selection the command throws. The same selection the other way round is deleted. -/
theorem C103_over_continuation_witness :
    (deleteRight [full ++ ['1']] ⟨⟨0, 73⟩, ⟨0, 70⟩⟩ 71).isSome ∧
    run '\n' [full ++ ['1']] (deleteRight [full ++ ['1']] ⟨⟨0, 73⟩, ⟨0, 70⟩⟩ 71) = none ∧
    deleteRight [full ++ ['1']] ⟨⟨0, 73⟩, ⟨0, 0⟩⟩ 71 = none ∧
    run '\n' [full ++ ['1']] (deleteRight [full ++ ['1']] ⟨⟨0, 70⟩, ⟨0, 73⟩⟩ 71) = some (List.replicate 70 'A') := by
  refine ⟨by decide +kernel, by decide +kernel, by decide +kernel, by decide +kernel⟩

/-- A line with one blank before the continuation. -/
def oneBlank : Text := List.replicate 69 'A' ++ ['B', ' ', 'X']

/-- Typing one character with one blank before the continuation deletes the character before the blank, and keeps the blank. -/
theorem C103_typing_negation :
    ¬ (∀ (eol : Char) (a : Doc) (l : Text) (b : Doc) (c off : Nat) (t : Text), t ≠ [] → HasContinuation l off → Room l c t.length off →
      run eol (a ++ l :: b) (insertChars (a ++ l :: b) ⟨⟨a.length, c⟩, ⟨a.length, c⟩⟩ t off) = some (flat eol (a ++ typed l c t off :: b))) := by
  intro h
  have := h '\n' [] oneBlank [] 0 71 ['C'] (by simp) ⟨'X', by decide +kernel, by decide +kernel⟩
    ⟨by decide, fun i h1 h2 => by have : i = 70 := by simp at h1; omega
                                  subst this; decide +kernel⟩
  revert this
  decide +kernel

theorem C103_typing_loss_witness :
    run '\n' [oneBlank] (insertChars [oneBlank] ⟨⟨0, 0⟩, ⟨0, 0⟩⟩ ['C'] 71) = some ('C' :: (List.replicate 69 'A' ++ [' ', 'X'])) := by
  decide +kernel

/-- Typing one character over one selected character in a full line moves the continuation, although nothing becomes longer. -/
theorem C103_replacing_negation :
    ¬ (∀ (eol : Char) (a : Doc) (l : Text) (b : Doc) (lo hi off : Nat) (t : Text), t ≠ [] → HasContinuation l off → lo < hi → hi < off →
      Room (deleted l lo hi off) lo t.length off →
      run eol (a ++ l :: b) (insertChars (a ++ l :: b) ⟨⟨a.length, lo⟩, ⟨a.length, hi⟩⟩ t off) =
        some (flat eol (a ++ typed (deleted l lo hi off) lo t off :: b))) := by
  intro h
  have := h '\n' [] full [] 0 1 71 ['C'] (by simp) ⟨'X', by decide +kernel, by decide +kernel⟩ (by decide) (by decide)
    ⟨by decide, fun i h1 h2 => by have : i = 70 := by simp at h1; omega
                                  subst this; decide +kernel⟩
  revert this
  decide +kernel

example : HasContinuation full 71 ∧ (0 < 5 ∧ 5 < 71) := ⟨⟨'X', by decide +kernel, by decide +kernel⟩, by decide⟩

/-- A statement with room for a character. -/
example : Room ("      LR   1,2            ".toList ++ List.replicate 45 ' ' ++ "X".toList) 12 2 71 := by
  refine ⟨by decide, fun i h1 h2 => ?_⟩
  have : i = 69 ∨ i = 70 := by omega
  rcases this with rfl | rfl <;> decide +kernel

example : run '\n' ["AB  X1".toList, "C".toList] (insertChars ["AB  X1".toList, "C".toList] ⟨⟨0, 1⟩, ⟨0, 1⟩⟩ ['Z'] 4) =
    some "AZB X1\nC".toList := by decide +kernel

example : run '\n' ["ABC X1".toList] (deleteLeft ["ABC X1".toList] ⟨⟨0, 1⟩, ⟨0, 3⟩⟩ 4) = some "A   X1".toList := by decide +kernel

/-! ## Continuation lines -/

/-- A continuation is added to a line that ends before its column: the line is filled with blanks, the character comes into its column,
and a new line with the start column of continuation lines comes behind. Nothing else changes. -/
theorem C104_add (eol : Char) (a : Doc) (l : Text) (b : Doc) (anchor : Pos) (c off col : Nat) (hl : l.length ≤ off) (hc : c ≤ l.length) :
    run eol (a ++ l :: b) (insertContinuation eol (a ++ l :: b) ⟨anchor, ⟨a.length, c⟩⟩ off col) =
      some (flat eol (a ++ (padded l off ++ ['X']) :: List.replicate col ' ' :: b)) ∧
    HasContinuation (padded l off ++ ['X']) off := by
  refine ⟨insert_short eol a l b anchor c off col hl hc, 'X', ?_, by decide⟩
  have : (padded l off).length = off := by simp [padded]; omega
  rw [List.getElem?_append_right (by omega), this]
  simp

/-- A continuation is added to a line that is continued: a line that is continued comes behind it. -/
theorem C104_add_continued (eol : Char) (a : Doc) (l : Text) (b : Doc) (anchor : Pos) (c off col : Nat) (hl : HasContinuation l off) :
    run eol (a ++ l :: b) (insertContinuation eol (a ++ l :: b) ⟨anchor, ⟨a.length, c⟩⟩ off col) =
      some (flat eol (a ++ l :: (List.replicate off ' ' ++ ['X']) :: b)) ∧
    HasContinuation (List.replicate off ' ' ++ ['X']) off := by
  refine ⟨insert_continued eol a l b anchor c off col hl, 'X', ?_, by decide⟩
  rw [List.getElem?_append_right (by simp)]
  simp

/-- A continuation is removed: the line of the cursor goes, with all its text, and what is in the previous line from the continuation on.
If the line of the cursor was continued, the previous one stays continued. -/
theorem C104_remove (eol : Char) (a : Doc) (p l : Text) (b : Doc) (anchor : Pos) (c off : Nat) (hp : HasContinuation p off) :
    (¬ HasContinuation l off →
      run eol (a ++ p :: l :: b) (removeContinuation (a ++ p :: l :: b) ⟨anchor, ⟨a.length + 1, c⟩⟩ off) =
        some (flat eol (a ++ p.take off :: b))) ∧
    (HasContinuation l off →
      run eol (a ++ p :: l :: b) (removeContinuation (a ++ p :: l :: b) ⟨anchor, ⟨a.length + 1, c⟩⟩ off) =
        some (flat eol (a ++ p.take (off + 1) :: b)) ∧ HasContinuation (p.take (off + 1)) off) := by
  have hi : isContinued (a ++ p :: l :: b) (a.length + 1) off = true ↔ HasContinuation l off := by
    have := isContinued_iff (a ++ [p]) l b off
    simpa using this
  constructor
  · intro h
    refine remove_previous eol a p l b anchor c off hp off ?_
    rw [if_neg (fun hh => h (hi.mp hh))]; rfl
  · intro h
    refine ⟨remove_previous eol a p l b anchor c off hp (off + 1) (by rw [if_pos (hi.mpr h)]), ?_⟩
    obtain ⟨x, hx, hn⟩ := hp
    exact ⟨x, by rw [List.getElem?_take_of_lt (by omega)]; exact hx, hn⟩

/-- Without a continuation in the previous line, and in the first line, nothing changes. -/
theorem C104_remove_nothing (eol : Char) (d : Doc) (s : Sel) (off : Nat)
    (h : s.active.line = 0 ∨ isContinued d (s.active.line - 1) off = false) :
    run eol d (removeContinuation d s off) = some (flat eol d) := by
  unfold removeContinuation
  have : ¬ (s.active.line > 0 ∧ isContinued d (s.active.line - 1) off = true) := by
    rintro ⟨h1, h2⟩
    rcases h with h | h
    · omega
    · rw [h] at h2; simp at h2
  simp only [this, if_false]
  simp [run, overlapping, apply_nil]

/-- Adding a continuation and removing it from the new line gives the line back, filled with blanks. The column where continuation lines
start is before that of the continuation, so the new line is not continued. -/
theorem C104_round_trip (eol : Char) (a : Doc) (l : Text) (b : Doc) (anchor anchor' : Pos) (c c' off col : Nat) (hl : l.length ≤ off)
    (hc : c ≤ l.length) :
    ∃ d, run eol (a ++ l :: b) (insertContinuation eol (a ++ l :: b) ⟨anchor, ⟨a.length, c⟩⟩ off col) = some (flat eol d) ∧
      run eol d (removeContinuation d ⟨anchor', ⟨a.length + 1, c'⟩⟩ off) = some (flat eol (a ++ padded l off :: b)) := by
  obtain ⟨h1, h2⟩ := C104_add eol a l b anchor c off col hl hc
  refine ⟨_, h1, ?_⟩
  rw [(C104_remove eol a (padded l off ++ ['X']) (List.replicate col ' ') b anchor' c' off h2).1 ?_]
  · have : (padded l off).length = off := by simp [padded]; omega
    rw [List.take_append_of_le_length (by omega), List.take_of_length_le (by omega)]
  · rintro ⟨x, hx, hn⟩
    rw [List.getElem?_replicate] at hx
    split at hx
    · exact hn (Option.some.inj hx).symm
    · simp at hx

/-- The same on a line that is continued and ends there. With text behind the continuation the text is lost
(`C104_sequence_witness`). -/
theorem C104_round_trip_continued_partial (eol : Char) (a : Doc) (l : Text) (b : Doc) (anchor anchor' : Pos) (c c' off col : Nat)
    (hl : HasContinuation l off) (hlen : l.length = off + 1) :
    ∃ d, run eol (a ++ l :: b) (insertContinuation eol (a ++ l :: b) ⟨anchor, ⟨a.length, c⟩⟩ off col) = some (flat eol d) ∧
      run eol d (removeContinuation d ⟨anchor', ⟨a.length + 1, c'⟩⟩ off) = some (flat eol (a ++ l :: b)) := by
  obtain ⟨h1, h2⟩ := C104_add_continued eol a l b anchor c off col hl
  refine ⟨_, h1, ?_⟩
  rw [((C104_remove eol a l _ b anchor' c' off hl).2 h2).1, List.take_of_length_le (by omega)]

/-- Adding and removing a continuation loses the sequence number of a continued line. -/
theorem C104_sequence_witness :
    run '\n' [full ++ "00000010".toList] (insertContinuation '\n' [full ++ "00000010".toList] ⟨⟨0, 0⟩, ⟨0, 0⟩⟩ 71 15) =
      some (flat '\n' [full ++ "00000010".toList, List.replicate 71 ' ' ++ ['X']]) ∧
    run '\n' [full ++ "00000010".toList, List.replicate 71 ' ' ++ ['X']]
      (removeContinuation [full ++ "00000010".toList, List.replicate 71 ' ' ++ ['X']] ⟨⟨1, 0⟩, ⟨1, 0⟩⟩ 71) = some full := by
  refine ⟨by decide +kernel, by decide +kernel⟩

/-- A line with text behind the column of the continuation and a blank in it: with the cursor before the column the command throws and
nothing happens; with the cursor behind it, the text behind the column moves into the new line. -/
theorem C104_long_line (eol : Char) (a : Doc) (l : Text) (b : Doc) (anchor : Pos) (c off col : Nat) (hl : l[off]? = some ' ') :
    (c < off → insertContinuation eol (a ++ l :: b) ⟨anchor, ⟨a.length, c⟩⟩ off col = none) ∧
    (off ≤ c → run eol (a ++ l :: b) (insertContinuation eol (a ++ l :: b) ⟨anchor, ⟨a.length, c⟩⟩ off col) =
      some (flat eol (a ++ (l.take off ++ ['X']) :: (List.replicate col ' ' ++ l.drop (off + 1)) :: b))) :=
  ⟨insert_throws eol a l b anchor c off col hl, insert_long eol a l b anchor c off col hl⟩

/-- So a statement with a sequence number cannot be continued: adding a continuation does not work for every line that has none. -/
theorem C104_add_negation :
    ¬ (∀ (l : Text) (c : Nat), c ≤ l.length → ¬ HasContinuation l 71 →
      ∃ l', run '\n' [l] (insertContinuation '\n' [l] ⟨⟨0, c⟩, ⟨0, c⟩⟩ 71 15) =
          some (flat '\n' [l', List.replicate 15 ' ']) ∧ HasContinuation l' 71) := by
  intro h
  obtain ⟨l', h1, _⟩ := h (List.replicate 71 'A' ++ " 00000010".toList) 0 (by decide) (by
    rintro ⟨x, hx, hn⟩
    have : (List.replicate 71 'A' ++ " 00000010".toList)[71]? = some ' ' := by decide +kernel
    rw [this] at hx
    exact hn (Option.some.inj hx).symm)
  have h2 := (C104_long_line '\n' [] (List.replicate 71 'A' ++ " 00000010".toList) [] ⟨0, 0⟩ 0 71 15 (by decide +kernel)).1 (by decide)
  simp only [List.nil_append, List.length_nil] at h2
  rw [h2] at h1
  simp [run] at h1

example : run '\n' ["LR  1,".toList, "END".toList] (insertContinuation '\n' ["LR  1,".toList, "END".toList] ⟨⟨0, 6⟩, ⟨0, 6⟩⟩ 10 3) =
    some "LR  1,    X\n   \nEND".toList := by decide +kernel

end Verif.Client
