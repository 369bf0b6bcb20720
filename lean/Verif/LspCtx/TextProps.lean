import Verif.LspCtx.Text
import Verif.TextSync.Props
/-!
C80: the lines and ranges the language features read.
-/
namespace Verif.LspCtx

open TextSync (createLineIndices indexFromPosition Pos Range LF CR findNewlines findNewlinesGo PosAt utf8)

/-- Specification: the lines of a text, each with its terminator (LF, CR LF, or CR); the last one has none and may be
empty. -/
def splitLines : Bytes → List Bytes
  | [] => [[]]
  | c :: t =>
    if c = LF then [LF] :: splitLines t
    else if c = CR then
      match t with
      | d :: t' => if d = LF then [CR, LF] :: splitLines t' else [CR] :: splitLines (d :: t')
      | [] => [[CR], []]
    else match splitLines t with
      | [] => [[c]]
      | l :: ls => (c :: l) :: ls

/-- The first indices of all lines but the first, the first line starting at `i`. -/
def tailStarts (i : Nat) : List Bytes → List Nat
  | [] => []
  | [_] => []
  | l :: l' :: ls => (i + l.length) :: tailStarts (i + l.length) (l' :: ls)

theorem splitLines_ne (t : Bytes) : splitLines t ≠ [] := by
  fun_cases splitLines t <;> simp_all

theorem go_true (i : Nat) (t : Bytes) : findNewlinesGo true i t =
    match t with
    | d :: t' => if d = LF then (i + 1) :: findNewlinesGo false (i + 1) t' else i :: findNewlinesGo false i (d :: t')
    | [] => [i] := by
  cases t with
  | nil => rfl
  | cons d t =>
    simp only [findNewlinesGo]
    split
    · rfl
    · split <;> rfl

theorem tailStarts_cons (i : Nat) (l : Bytes) (ls : List Bytes) (h : ls ≠ []) :
    tailStarts i (l :: ls) = (i + l.length) :: tailStarts (i + l.length) ls := by
  cases ls with
  | nil => exact absurd rfl h
  | cons => rfl

theorem findNewlines_split (t : Bytes) : ∀ i, findNewlinesGo false i t = tailStarts i (splitLines t) := by
  induction hn : t.length using Nat.strongRecOn generalizing t with
  | _ n ih =>
    intro i
    match t with
    | [] => rfl
    | c :: t =>
      rw [splitLines.eq_def]
      simp only [findNewlinesGo]
      split <;> rename_i h1
      · rw [tailStarts_cons _ _ _ (splitLines_ne t), ih t.length (by simp at hn; omega) t rfl]; rfl
      · split <;> rename_i h2
        · rw [go_true]
          match t with
          | [] => rfl
          | d :: t' =>
            simp only
            split
            · rw [tailStarts_cons _ _ _ (splitLines_ne _), ih t'.length (by simp at hn; omega) t' rfl]; rfl
            · rw [tailStarts_cons _ _ _ (splitLines_ne _), ih (d :: t').length (by simp at hn ⊢; omega) (d :: t') rfl]; rfl
        · rw [ih t.length (by simp at hn; omega) t rfl]
          have hne := splitLines_ne t
          match hs : splitLines t with
          | [] => exact absurd hs hne
          | [l] => rfl
          | l :: l' :: ls => simp only [tailStarts, List.length_cons, Nat.add_assoc, Nat.add_comm 1]

theorem splitLines_flatten (t : Bytes) : (splitLines t).flatten = t := by
  fun_induction splitLines t <;> simp_all

/-- Every line but the last is some text without terminators followed by one terminator, the last is free of terminators. -/
theorem splitLines_form (t : Bytes) :
    (∀ l ∈ (splitLines t).dropLast, ∃ body, (∀ b ∈ body, b ≠ LF ∧ b ≠ CR) ∧ (l = body ++ [LF] ∨ l = body ++ [CR] ∨ l = body ++ [CR, LF])) ∧
    (∀ l, (splitLines t).getLast? = some l → ∀ b ∈ l, b ≠ LF ∧ b ≠ CR) := by
  fun_induction splitLines t with
  | case1 => simp
  | case2 t ih =>
    have := splitLines_ne t
    rw [List.dropLast_cons_of_ne_nil this, List.getLast?_cons, List.getLast?_eq_some_getLast this] at *
    refine ⟨?_, by simpa using ih.2⟩
    intro l hl
    rcases List.mem_cons.mp hl with rfl | hl
    · exact ⟨[], by simp, by simp⟩
    · exact ih.1 l hl
  | case3 t' _ ih =>
    have := splitLines_ne t'
    rw [List.dropLast_cons_of_ne_nil this, List.getLast?_cons, List.getLast?_eq_some_getLast this] at *
    refine ⟨?_, by simpa using ih.2⟩
    intro l hl
    rcases List.mem_cons.mp hl with rfl | hl
    · exact ⟨[], by simp, by simp⟩
    · exact ih.1 l hl
  | case4 d t' _ _ ih =>
    have := splitLines_ne (d :: t')
    rw [List.dropLast_cons_of_ne_nil this, List.getLast?_cons, List.getLast?_eq_some_getLast this] at *
    refine ⟨?_, by simpa using ih.2⟩
    intro l hl
    rcases List.mem_cons.mp hl with rfl | hl
    · exact ⟨[], by simp, by simp⟩
    · exact ih.1 l hl
  | case5 =>
    refine ⟨fun l hl => ?_, by simp⟩
    simp at hl
    exact ⟨[], by simp, by simp [hl]⟩
  | case6 c t h1 h2 hs => exact absurd hs (splitLines_ne t)
  | case7 c t h1 h2 l ls hs ih =>
    rw [hs] at ih
    cases ls with
    | nil =>
      refine ⟨by simp, ?_⟩
      intro x hx b hb
      simp only [List.getLast?_singleton, Option.some.injEq] at hx
      subst hx
      rcases List.mem_cons.mp hb with rfl | hb
      · exact ⟨h1, h2⟩
      · exact ih.2 l rfl b hb
    | cons l' ls =>
      refine ⟨?_, by simpa using ih.2⟩
      intro x hx
      simp only [List.dropLast_cons_cons, List.mem_cons] at hx
      rcases hx with rfl | hx
      · obtain ⟨body, hb, ht⟩ := ih.1 l (by simp)
        refine ⟨c :: body, ?_, by rcases ht with rfl | rfl | rfl <;> simp⟩
        intro b hbm
        rcases List.mem_cons.mp hbm with rfl | hbm
        · exact ⟨h1, h2⟩
        · exact hb b hbm
      · exact ih.1 x (by simp [hx])

/-- The only line that can be empty is the last. -/
theorem splitLines_empty_last (t : Bytes) (l : Nat) (h : (splitLines t)[l]? = some []) : l + 1 = (splitLines t).length := by
  obtain ⟨hl, he⟩ := List.getElem?_eq_some_iff.mp h
  by_cases hlast : l + 1 = (splitLines t).length
  · exact hlast
  · have hm : ([] : Bytes) ∈ (splitLines t).dropLast := by
      rw [← he, ← List.getElem_dropLast (h := by simp; omega)]
      exact List.getElem_mem _
    obtain ⟨body, _, hb⟩ := (splitLines_form t).1 _ hm
    simp at hb

/-- `starts`: where line `l` begins. -/
theorem starts_get (ls : List Bytes) : ∀ (i l : Nat), l < ls.length →
    (i :: tailStarts i ls)[l]? = some (i + (ls.take l).flatten.length) := by
  induction ls with
  | nil => intro i l h; simp at h
  | cons x ls ih =>
    intro i l h
    cases l with
    | zero => simp
    | succ l =>
      have hne : ls ≠ [] := by intro e; simp [e] at h
      rw [tailStarts_cons _ _ _ hne, List.getElem?_cons_succ, ih _ l (by simpa using h)]
      simp [Nat.add_assoc]

theorem starts_length (ls : List Bytes) (h : ls ≠ []) : ∀ i, (i :: tailStarts i ls).length = ls.length := by
  induction ls with
  | nil => exact absurd rfl h
  | cons x ls ih =>
    intro i
    by_cases hne : ls = []
    · subst hne; rfl
    · rw [tailStarts_cons _ _ _ hne, List.length_cons, ih hne, List.length_cons]

theorem indices_split (t : Bytes) : createLineIndices t = 0 :: tailStarts 0 (splitLines t) := by
  rw [createLineIndices, findNewlines, findNewlines_split]

theorem slice_flatten (ls : List Bytes) (l : Nat) (x : Bytes) (h : ls[l]? = some x) :
    ((ls.flatten).take (ls.take (l + 1)).flatten.length).drop (ls.take l).flatten.length = x := by
  induction ls generalizing l with
  | nil => simp at h
  | cons y ls ih =>
    cases l with
    | zero => simp at h; subst h; simp
    | succ l =>
      simp only [List.getElem?_cons_succ] at h
      rw [List.flatten_cons, List.take_succ_cons, List.take_succ_cons, List.flatten_cons, List.flatten_cons, List.length_append,
        List.length_append, List.take_length_add_append, List.drop_length_add_append]
      exact ih l h

/-- **C80 (lines).** The document consists of its lines in order; the number of lines is the one reported. Line `l` is what
`get_line` returns — with the one exception of an empty last line, for which it throws. -/
theorem C80_lines_partial (t : Bytes) :
    (splitLines t).flatten = t ∧ (TextRef.of t).numberOfLines = (splitLines t).length ∧
    ∀ l line, (splitLines t)[l]? = some line → (TextRef.of t).getLine l = if line = [] then .throws else .ok line := by
  have hf := splitLines_flatten t
  refine ⟨hf, ?_, ?_⟩
  · rw [TextRef.numberOfLines, TextRef.of, indices_split, starts_length _ (splitLines_ne t)]
  intro l line h
  obtain ⟨hl, he⟩ := List.getElem?_eq_some_iff.mp h
  have h1 : (TextRef.of t).lines[l]? = some ((splitLines t).take l).flatten.length := by
    rw [TextRef.of, indices_split, starts_get _ _ _ hl, Nat.zero_add]
  have h2 : (TextRef.of t).lines[l + 1]?.getD t.length = ((splitLines t).take (l + 1)).flatten.length := by
    by_cases hlt : l + 1 < (splitLines t).length
    · rw [TextRef.of, indices_split, starts_get _ _ _ hlt, Nat.zero_add]; rfl
    · rw [List.getElem?_eq_none (by rw [TextRef.of, indices_split, starts_length _ (splitLines_ne t)]; omega),
        List.take_of_length_le (by omega), hf]; rfl
  have h3 : ((splitLines t).take (l + 1)).flatten.length = ((splitLines t).take l).flatten.length + line.length := by
    rw [List.take_succ_eq_append_getElem hl, List.flatten_append, List.length_append, he]; simp
  have h4 : ((splitLines t).take (l + 1)).flatten.length ≤ t.length := by
    have : t = ((splitLines t).take (l + 1)).flatten ++ ((splitLines t).drop (l + 1)).flatten := by
      rw [← List.flatten_append, List.take_append_drop, hf]
    rw [this, List.length_append, ← this]; omega
  rw [TextRef.getLine, h1]
  simp only [TextRef.view]
  have e : (TextRef.of t).text = t := rfl
  rw [e, h2]
  by_cases hne : line = []
  · rw [if_pos hne]
    subst hne
    have := splitLines_empty_last t l h
    rw [List.take_of_length_le (by omega), hf] at h3
    rw [if_neg (by simp only [List.length_nil] at h3; omega)]
  · rw [if_neg hne]
    have : 0 < line.length := List.length_pos_iff.mpr hne
    rw [if_pos (by omega), if_pos ⟨by omega, h4⟩]
    have := slice_flatten (splitLines t) l line h
    rw [hf] at this
    rw [this]

/-- **C80 (outside).** Reading a line that does not exist yields an empty string. -/
theorem C80_outside (t : Bytes) (l : Nat) (h : (TextRef.of t).numberOfLines ≤ l) : (TextRef.of t).getLine l = .ok [] := by
  rw [TextRef.getLine, List.getElem?_eq_none h]

/-- **C80 (negation).** The empty document has one line, a document ending in a newline an empty last one; reading it, or its
beginning as completion does, throws. -/
theorem C80_witness : (TextRef.of []).numberOfLines = 1 ∧ (TextRef.of []).getLine 0 = .throws ∧
    (TextRef.of [65, 10]).numberOfLines = 2 ∧ (TextRef.of [65, 10]).getLine 1 = .throws ∧
    (TextRef.of [65, 10]).getLineBeginning ⟨1, 0⟩ = .throws := by decide +kernel

/-- Three lines, one of them empty but for its terminator. -/
example : splitLines [65, 13, 10, 10, 66] = [[65, 13, 10], [10], [66]] ∧
    (TextRef.of [65, 13, 10, 10, 66]).getLine 1 = .ok [10] := by decide +kernel

theorem take_utf8_length (doc : List Char) {i j : Nat} (hij : i ≤ j) :
    (utf8 (doc.take i)).length ≤ (utf8 (doc.take j)).length ∧ (utf8 (doc.take j)).length ≤ (utf8 doc).length ∧
    ((utf8 doc).take (utf8 (doc.take j)).length).drop (utf8 (doc.take i)).length = utf8 ((doc.take j).drop i) := by
  have e : utf8 doc = utf8 (doc.take j) ++ utf8 (doc.drop j) := by rw [← TextSync.utf8_append, List.take_append_drop]
  have e2 : utf8 (doc.take j) = utf8 (doc.take i) ++ utf8 ((doc.take j).drop i) := by
    rw [← TextSync.utf8_append]
    congr 1
    have := List.take_append_drop i (doc.take j)
    rwa [List.take_take, Nat.min_eq_left hij, eq_comm] at this
  refine ⟨by rw [e2]; simp, by rw [e]; simp, ?_⟩
  rw [e, List.take_left, e2, List.drop_left]

theorem utf8_lt {doc : List Char} {i : Nat} (h : i < doc.length) : (utf8 (doc.take i)).length < (utf8 doc).length := by
  have e : utf8 doc = utf8 (doc.take i) ++ utf8 (doc.drop i) := by rw [← TextSync.utf8_append, List.take_append_drop]
  rw [e, List.length_append, List.drop_eq_getElem_cons h, TextSync.utf8_cons, List.length_append]
  have := String.utf8EncodeChar_ne_nil (c := doc[i])
  have := List.length_pos_iff.mpr this
  omega

/-- **C80 (ranges).** The content of a range of the document is the UTF-8 encoding of the characters between its two
positions. -/
theorem C80_range (doc : List Char) (r : Range) (i j : Nat) (hi : PosAt doc r.start i) (hj : PosAt doc r.fin j) (hij : i ≤ j) :
    (TextRef.of (utf8 doc)).getRangeContent r = .ok (utf8 ((doc.take j).drop i)) := by
  have h1 := TextSync.C02_position_exact doc _ _ hi
  have h2 := TextSync.C02_position_exact doc _ _ hj
  obtain ⟨a, b, c⟩ := take_utf8_length doc hij
  generalize ht : TextRef.of (utf8 doc) = t
  have e1 : t.text = utf8 doc := by subst ht; rfl
  have e2 : t.lines = createLineIndices (utf8 doc) := by subst ht; rfl
  rw [TextRef.getRangeContent, e1, e2, h1, h2]
  simp only [TextRef.view, ge_iff_le]
  rw [e1]
  by_cases h : (utf8 doc).length ≤ (utf8 (doc.take i)).length
  · rw [if_pos h]
    have hlen : i = doc.length := by
      have := hi.inDoc
      by_cases hlt : i < doc.length
      · have := utf8_lt hlt; omega
      · omega
    subst hlen
    have := hj.inDoc
    rw [List.drop_eq_nil_of_le (by simp; omega)]
    rfl
  · rw [if_neg h, if_pos (by omega), if_pos ⟨a, b⟩, c]

/-- **C80 (beginning of a line), partial.** The text of a line up to a position is the UTF-8 encoding of its characters before
that position, unless the line is the empty last line of the document, for which the call throws. -/
theorem C80_beginning_partial (doc : List Char) (p : Pos) (k s : Nat) (h : PosAt doc p k)
    (hs : (TextSync.docLines doc)[p.line]? = some s) :
    (TextRef.of (utf8 doc)).getLineBeginning p = if s < doc.length then .ok (utf8 ((doc.take k).drop s)) else .throws := by
  have h1 := TextSync.C02_position_exact doc _ _ h
  obtain ⟨s', hs', hsk, _⟩ := h.onLine
  rw [hs] at hs'
  simp only [Option.some.injEq] at hs'
  subst hs'
  have hl : (createLineIndices (utf8 doc))[p.line]? = some (utf8 (doc.take s)).length := by
    rw [TextSync.createLineIndices_eq, TextSync.byteLines_utf8, List.getElem?_map, hs]; rfl
  obtain ⟨a, b, c⟩ := take_utf8_length doc hsk
  generalize ht : TextRef.of (utf8 doc) = t
  have e1 : t.text = utf8 doc := by subst ht; rfl
  have e2 : t.lines = createLineIndices (utf8 doc) := by subst ht; rfl
  rw [TextRef.getLineBeginning, e1, e2, hl, h1]
  simp only [TextRef.view]
  rw [e1]
  by_cases hlt : s < doc.length
  · rw [if_pos hlt, if_pos (utf8_lt hlt), if_pos ⟨a, b⟩, c]
  · rw [if_neg hlt, List.take_of_length_le (by omega), if_neg (by omega)]

/-- **C80 (character before the cursor), partial.** If the character before the position is one UTF-16 unit long, the call
returns the first byte of its encoding. -/
theorem C80_before_partial (doc : List Char) (p : Pos) (k : Nat) (c : Char) (hp : 0 < p.column)
    (h : PosAt doc ⟨p.line, p.column - 1⟩ k) (hc : doc[k]? = some c) :
    ∃ b t, String.utf8EncodeChar c = b :: t ∧ (TextRef.of (utf8 doc)).getCharacterBefore p = .ok b := by
  have h1 := TextSync.C02_position_exact doc _ _ h
  obtain ⟨hk, e⟩ := List.getElem?_eq_some_iff.mp hc
  obtain ⟨b, t, hb, _⟩ := TextSync.encode_step c
  refine ⟨b, t, hb, ?_⟩
  have hget : (utf8 doc)[(utf8 (doc.take k)).length]? = some b := by
    have e2 : utf8 doc = utf8 (doc.take k) ++ utf8 (doc.drop k) := by rw [← TextSync.utf8_append, List.take_append_drop]
    rw [e2, List.getElem?_append_right (by simp [← e2]), Nat.sub_self, List.drop_eq_getElem_cons hk, TextSync.utf8_cons, e, hb]
    rfl
  simp only [TextRef.getCharacterBefore, TextRef.of, h1, if_neg (Nat.ne_of_gt hp), hget]

/-- **C80 (character before the cursor, negation).** Behind a character of two UTF-16 units the character *after* the cursor
is returned, and at the end of the document the call throws. -/
theorem C80_witness_before : (TextRef.of (utf8 ['😀', '&'])).getCharacterBefore ⟨0, 2⟩ = .ok 38 ∧
    (TextRef.of (utf8 ['😀'])).getCharacterBefore ⟨0, 2⟩ = .throws := by decide +kernel

/-- **C80 (ranges, negation).** A range with its ends exchanged yields a string view of wrapped length. -/
theorem C80_witness_range : (TextRef.of [65, 66, 67]).getRangeContent ⟨⟨0, 2⟩, ⟨0, 1⟩⟩ = .ub := by decide +kernel

/-- The hypotheses are met by a range over two lines with characters of different widths. -/
example : (TextRef.of (utf8 ['a', 'é', '\n', '😀', 'b'])).getRangeContent ⟨⟨0, 1⟩, ⟨1, 2⟩⟩ = .ok (utf8 ['é', '\n', '😀']) :=
  C80_range ['a', 'é', '\n', '😀', 'b'] _ 1 4
    (TextSync.posAt_intro 0 (by decide) (by decide) (by decide) (by decide) (by decide))
    (TextSync.posAt_intro 3 (by decide) (by decide) (by decide) (by decide) (by decide)) (by decide)

end Verif.LspCtx
