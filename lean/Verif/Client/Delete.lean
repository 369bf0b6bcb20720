import Verif.Client.Apply
import Verif.Client.Spec

/-!
# Deleting before a continuation
-/

namespace Verif.Client

theorem isContinued_iff (a : Doc) (l : Text) (b : Doc) (off : Nat) :
    isContinued (a ++ l :: b) a.length off = true ↔ HasContinuation l off := by
  unfold isContinued HasContinuation
  rw [line_split]
  by_cases h : off < l.length
  · have : l[off]? = some l[off] := List.getElem?_eq_getElem h
    simp [this, h, Nat.le_of_lt h]
  · have : l[off]? = none := List.getElem?_eq_none (by omega)
    simp [this, h]

theorem HasContinuation.lt {l : Text} {off : Nat} (h : HasContinuation l off) : off < l.length := by
  obtain ⟨c, hc, _⟩ := h
  exact (List.getElem?_eq_some_iff.mp hc).1

/-- What is taken and dropped around a line. -/
theorem take_line (p l q : Text) (n : Nat) (h : n ≤ l.length) : (p ++ (l ++ q)).take (p.length + n) = p ++ l.take n := by
  rw [List.take_length_add_append, List.take_append_of_le_length h]

theorem drop_line (p l q : Text) (n : Nat) (h : n ≤ l.length) : (p ++ (l ++ q)).drop (p.length + n) = l.drop n ++ q := by
  rw [List.drop_length_add_append, List.drop_append_of_le_length h]

theorem mid_line (p l q : Text) (m n : Nat) (h : n ≤ l.length) (hm : m ≤ n) :
    ((p ++ (l ++ q)).drop (p.length + m)).take (p.length + n - (p.length + m)) = (l.drop m).take (n - m) := by
  rw [drop_line p l q m (by omega), show p.length + n - (p.length + m) = n - m from by omega,
    List.take_append_of_le_length (by simp; omega)]

/-- A range deleted and a text inserted behind it in the same line. -/
theorem run_delete_insert (eol : Char) (a : Doc) (l : Text) (b : Doc) (lo hi off : Nat) (t : Text) (h1 : lo < hi) (h2 : hi ≤ off)
    (h3 : off ≤ l.length) :
    run eol (a ++ l :: b) (some [insertAt ⟨a.length, off⟩ t, ⟨⟨a.length, lo⟩, ⟨a.length, hi⟩, []⟩]) =
      some (flat eol (a ++ (l.take lo ++ (l.drop hi).take (off - hi) ++ t ++ l.drop off) :: b)) := by
  simp only [run, List.map_cons, List.map_nil, Edit.change, insertAt]
  rw [place_split eol a l b off h3, place_split eol a l b lo (by omega), place_split eol a l b hi (by omega)]
  have ho : overlapping [(⟨(before eol a).length + off, (before eol a).length + off, t⟩ : Change),
      ⟨(before eol a).length + lo, (before eol a).length + hi, []⟩] = false := by
    simp [overlapping, Change.overlaps]; omega
  rw [if_neg (by rw [ho]; simp)]
  have hs := apply_swap [] (⟨(before eol a).length + off, (before eol a).length + off, t⟩ : Change)
    ⟨(before eol a).length + lo, (before eol a).length + hi, []⟩ [] (Or.inl (by show _ + off ≠ _ + lo; omega)) (flat eol (a ++ l :: b)) 0
  simp only [List.nil_append] at hs
  rw [hs, flat_split, flat_split, apply_two _ _ _ _ _ _ _ (by omega) (by omega) (by omega) (by simp; omega), take_line _ _ _ _ (by omega),
    mid_line _ _ _ _ _ h3 h2, drop_line _ _ _ _ h3]
  simp

/-- A range deleted in a line. -/
theorem run_delete (eol : Char) (a : Doc) (l : Text) (b : Doc) (lo hi : Nat) (h1 : lo ≤ hi) (h3 : hi ≤ l.length) :
    run eol (a ++ l :: b) (some [⟨⟨a.length, lo⟩, ⟨a.length, hi⟩, []⟩]) = some (flat eol (a ++ erased l lo hi :: b)) := by
  simp only [run, List.map_cons, List.map_nil, Edit.change]
  rw [place_split eol a l b lo (by omega), place_split eol a l b hi (by omega)]
  simp only [overlapping, List.any_nil, Bool.or_false, Bool.false_eq_true, if_false]
  rw [flat_split, flat_split, apply_one _ _ _ _ (by omega) (by simp; omega), take_line _ _ _ _ (by omega), drop_line _ _ _ _ h3]
  simp [erased]

/-! ## The commands on one line -/

/-- The range a command is about: the selection, or the character beside the cursor. -/
theorem deleteRange_line (n x y : Nat) : deleteRange ⟨n, x⟩ ⟨n, y⟩ = ⟨⟨n, min x y⟩, ⟨n, max x y⟩, []⟩ := by
  unfold deleteRange
  by_cases h : x ≤ y
  · simp [h]
  · have h' : y ≤ x := by omega
    simp [h, h']

theorem mkPos_nonneg (n : Nat) (x : Int) (h : 0 ≤ x) : mkPos n x = some ⟨n, x.toNat⟩ := by
  unfold mkPos; rw [if_neg (by omega)]

theorem blanks_nonneg (x : Int) (h : 0 ≤ x) : blanks? x = some (List.replicate x.toNat ' ') := by
  unfold blanks?; rw [if_neg (by omega)]

/-- The edits of `removeLeft` for a selection before the continuation, with the cursor not in the first column. -/
theorem removeLeft_selection (a : Doc) (l : Text) (b : Doc) (off x y : Nat) (hc : HasContinuation l off) (hx : x < off) (hy : y < off)
    (hne : x ≠ y) (hy0 : 0 < y) :
    removeLeft (a ++ l :: b) ⟨⟨a.length, x⟩, ⟨a.length, y⟩⟩ off =
      some [insertAt ⟨a.length, off⟩ (List.replicate (max x y - min x y) ' '),
        ⟨⟨a.length, min x y⟩, ⟨a.length, max x y⟩, []⟩] := by
  have hk := (isContinued_iff a l b off).mpr hc
  have hsize : (Sel.size ⟨⟨a.length, x⟩, ⟨a.length, y⟩⟩ 1) = (y : Int) - x := by
    unfold Sel.size; simp only; rw [if_pos (by omega)]
  have hcur : (mkPos a.length ((y : Int) - (if (y : Int) - x > 0 ∧ y > 0 then (y : Int) - x else 0))) ≠ none := by
    rw [mkPos_nonneg _ _ (by split <;> omega)]; simp
  obtain ⟨cur, hcur⟩ := Option.ne_none_iff_exists'.mp hcur
  unfold removeLeft removeLeftCursor
  simp only [hsize]
  rw [hcur]
  have hn : ((y : Int) - x).natAbs = max x y - min x y := by omega
  have h1 : max y x < off := by omega
  have hm : mkPos a.length ((off : Int) - ((max x y - min x y : Nat) : Int)) = some ⟨a.length, off - (max x y - min x y)⟩ := by
    rw [mkPos_nonneg _ _ (by omega)]; congr 2; omega
  simp only [hk, h1, hy0, decide_true, Sel.single, beq_self_eq_true, Bool.and_true, Bool.true_or, if_true, hm, Option.bind_eq_bind,
    Option.bind_some, blanks_nonneg _ (Int.natCast_nonneg _), hn]
  have : ¬ ((⟨a.length, x⟩ : Pos) = ⟨a.length, y⟩) := by simp [hne]
  simp only [this, if_false, deleteRange_line, Int.toNat_natCast]
  rw [Nat.min_comm, Nat.max_comm]
  rfl

/-- Backspace before the continuation. -/
theorem removeLeft_cursor (a : Doc) (l : Text) (b : Doc) (off y : Nat) (hc : HasContinuation l off) (hy : y < off) (hy0 : 0 < y) :
    removeLeft (a ++ l :: b) ⟨⟨a.length, y⟩, ⟨a.length, y⟩⟩ off =
      some [insertAt ⟨a.length, off⟩ [' '], ⟨⟨a.length, y - 1⟩, ⟨a.length, y⟩, []⟩] := by
  have hk := (isContinued_iff a l b off).mpr hc
  have hsize : (Sel.size ⟨⟨a.length, y⟩, ⟨a.length, y⟩⟩ 1) = 1 := by unfold Sel.size; simp
  unfold removeLeft removeLeftCursor
  simp only [hsize]
  have hcur : mkPos a.length ((y : Int) - (if (1 : Int) > 0 ∧ y > 0 then (1 : Int) else 0)) = some ⟨a.length, y - 1⟩ := by
    rw [if_pos ⟨by omega, hy0⟩, mkPos_nonneg _ _ (by omega)]; congr 2; omega
  have hm : mkPos a.length ((off : Int) - (1 : Int).natAbs) = some ⟨a.length, off - 1⟩ := by
    rw [mkPos_nonneg _ _ (by omega)]; congr 2; omega
  rw [hcur]
  simp only [hk, hy, hy0, Nat.max_self, decide_true, Sel.single, beq_self_eq_true, Bool.and_true, Bool.true_or, if_true, hm,
    Option.bind_eq_bind, Option.bind_some, blanks_nonneg _ (Int.natCast_nonneg _), deleteRange_line]
  rw [Nat.min_eq_right (by omega), Nat.max_eq_left (by omega)]
  rfl

/-- The edits of `deleteRight` for a selection before the continuation. -/
theorem deleteRight_selection (a : Doc) (l : Text) (b : Doc) (off x y : Nat) (hc : HasContinuation l off) (hx : x ≤ off) (hy : y < off)
    (hne : x ≠ y) :
    deleteRight (a ++ l :: b) ⟨⟨a.length, x⟩, ⟨a.length, y⟩⟩ off =
      some [insertAt ⟨a.length, off⟩ (List.replicate (max x y - min x y) ' '),
        ⟨⟨a.length, min x y⟩, ⟨a.length, max x y⟩, []⟩] := by
  have hk := (isContinued_iff a l b off).mpr hc
  have hsize : (Sel.size ⟨⟨a.length, x⟩, ⟨a.length, y⟩⟩ (-1)) = (y : Int) - x := by
    unfold Sel.size; simp only; rw [if_pos (by omega)]
  have hcur : (deleteRightCursor (a ++ l :: b) ⟨⟨a.length, x⟩, ⟨a.length, y⟩⟩) ≠ none := by
    unfold deleteRightCursor
    rw [hsize]
    split
    · simp
    · rw [mkPos_nonneg _ _ (by simp only; split <;> omega)]; simp
  obtain ⟨cur, hcur⟩ := Option.ne_none_iff_exists'.mp hcur
  unfold deleteRight deleteRightBlanks
  rw [hcur]
  simp only [hsize]
  have hn : ((y : Int) - x).natAbs = max x y - min x y := by omega
  have hm : mkPos a.length ((off : Int) - ((max x y - min x y : Nat) : Int)) = some ⟨a.length, off - (max x y - min x y)⟩ := by
    rw [mkPos_nonneg _ _ (by omega)]; congr 2; omega
  simp only [hk, hy, decide_true, Sel.single, beq_self_eq_true, Bool.and_true, if_true, hm, Option.bind_eq_bind,
    Option.bind_some, blanks_nonneg _ (Int.natCast_nonneg _), hn]
  have : ¬ ((⟨a.length, x⟩ : Pos) = ⟨a.length, y⟩) := by simp [hne]
  simp only [this, if_false, deleteRange_line, Int.toNat_natCast]
  rw [Nat.min_comm, Nat.max_comm]
  rfl

/-- Delete before the continuation. -/
theorem deleteRight_cursor (a : Doc) (l : Text) (b : Doc) (off y : Nat) (hc : HasContinuation l off) (hy : y < off) :
    deleteRight (a ++ l :: b) ⟨⟨a.length, y⟩, ⟨a.length, y⟩⟩ off =
      some [insertAt ⟨a.length, off⟩ [' '], ⟨⟨a.length, y⟩, ⟨a.length, y + 1⟩, []⟩] := by
  have hk := (isContinued_iff a l b off).mpr hc
  have hsize : (Sel.size ⟨⟨a.length, y⟩, ⟨a.length, y⟩⟩ (-1)) = -1 := by unfold Sel.size; simp
  have hd : ¬ (l.drop y = []) := by
    have := hc.lt
    simp; omega
  have hcur : deleteRightCursor (a ++ l :: b) ⟨⟨a.length, y⟩, ⟨a.length, y⟩⟩ = some ⟨a.length, y + 1⟩ := by
    unfold deleteRightCursor
    simp only [line_split, hd, if_false, hsize]
    rw [if_pos (by omega), mkPos_nonneg _ _ (by omega)]; congr 2
  unfold deleteRight deleteRightBlanks
  rw [hcur]
  simp only [hsize]
  have hm : mkPos a.length ((off : Int) - (-1 : Int).natAbs) = some ⟨a.length, off - 1⟩ := by
    rw [mkPos_nonneg _ _ (by simp; omega)]; congr 2; simp
  simp only [hk, hy, decide_true, Sel.single, beq_self_eq_true, Bool.and_true, if_true, hm,
    Option.bind_eq_bind, Option.bind_some, blanks_nonneg _ (Int.natCast_nonneg _), deleteRange_line]
  rw [Nat.min_eq_left (by omega), Nat.max_eq_right (by omega)]
  rfl

end Verif.Client
