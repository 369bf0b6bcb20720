import Verif.TextSync.Lemmas
/-! One edit keeps text and line table in step with the editor. -/
namespace Verif.TextSync

section generic
variable {α : Type} [DecidableEq α] (lf cr : α)

omit [DecidableEq α] in
theorem range'_split (a m n k : Nat) (h : k = m + n) : List.range' a k = List.range' a m ++ List.range' (a + m) n := by
  subst h; exact (List.range'_append_1).symm

theorem mem_lineStarts (t : List α) (k : Nat) : k ∈ lineStarts lf cr t ↔ k ≤ t.length ∧ IsLineStart lf cr t k := by
  simp [lineStarts]; intro _; omega

theorem lineStarts_filter_le (t : List α) (i : Nat) (hi : i ≤ t.length) :
    (lineStarts lf cr t).filter (fun k => decide (k ≤ i)) =
      (List.range (i + 1)).filter (fun k => decide (IsLineStart lf cr t k)) := by
  unfold lineStarts
  rw [List.filter_filter]
  have : List.range (t.length + 1) = List.range (i + 1) ++ List.range' (i + 1) (t.length - i) := by
    rw [List.range_eq_range', List.range_eq_range', range'_split 0 (i + 1) (t.length - i) (t.length + 1) (by omega), Nat.zero_add]
  rw [this, List.filter_append]
  have h2 : (List.range' (i+1) (t.length - i)).filter
      (fun a => decide (a ≤ i) && decide (IsLineStart lf cr t a)) = [] := by
    rw [List.filter_eq_nil_iff]
    intro a ha
    rw [List.mem_range'_1] at ha
    simp; omega
  rw [h2, List.append_nil]
  apply List.filter_congr
  intro a ha
  rw [List.mem_range] at ha
  simp; omega

theorem lineStarts_filter_gt (t : List α) (i : Nat) (hi : i ≤ t.length) :
    (lineStarts lf cr t).filter (fun k => decide (i < k)) =
      (List.range' (i + 1) (t.length - i)).filter (fun k => decide (IsLineStart lf cr t k)) := by
  unfold lineStarts
  rw [List.filter_filter]
  have : List.range (t.length + 1) = List.range (i + 1) ++ List.range' (i + 1) (t.length - i) := by
    rw [List.range_eq_range', List.range_eq_range', range'_split 0 (i + 1) (t.length - i) (t.length + 1) (by omega), Nat.zero_add]
  rw [this, List.filter_append]
  have h2 : (List.range (i+1)).filter
      (fun a => decide (i < a) && decide (IsLineStart lf cr t a)) = [] := by
    rw [List.filter_eq_nil_iff]
    intro a ha
    rw [List.mem_range] at ha
    simp; omega
  rw [h2, List.nil_append]
  apply List.filter_congr
  intro a ha
  rw [List.mem_range'_1] at ha
  simp; omega

theorem lineStarts_pairwise (t : List α) : (lineStarts lf cr t).Pairwise (· < ·) :=
  List.Pairwise.filter _ List.pairwise_lt_range

theorem take_eq_filter {L : List Nat} (hL : L.Pairwise (· < ·)) {n s k : Nat} (hn : L[n]? = some s) (hs : s ≤ k)
    (hno : ∀ x ∈ L, s < x → k < x) :
    L.take (n + 1) = L.filter (fun x => decide (x ≤ k)) ∧ L.drop (n + 1) = L.filter (fun x => decide (k < x)) := by
  have hlt : n < L.length := by
    rcases Nat.lt_or_ge n L.length with h | h
    · exact h
    · rw [List.getElem?_eq_none h] at hn; simp at hn
  have hs' : L[n] = s := by rw [List.getElem?_eq_getElem hlt] at hn; simpa using hn
  have hsplit : L = L.take (n+1) ++ L.drop (n+1) := (List.take_append_drop _ _).symm
  have htake : ∀ x ∈ L.take (n+1), x ≤ k := by
    intro x hx
    obtain ⟨m, hm, rfl⟩ := List.mem_iff_getElem.mp hx
    rw [List.getElem_take]
    simp at hm
    rcases Nat.lt_or_ge m n with h | h
    · have := List.pairwise_iff_getElem.mp hL m n (by omega) hlt h
      omega
    · have : m = n := by omega
      subst this; omega
  have hdrop : ∀ x ∈ L.drop (n+1), k < x := by
    intro x hx
    obtain ⟨m, hm, rfl⟩ := List.mem_iff_getElem.mp hx
    rw [List.getElem_drop]
    simp at hm
    apply hno _ (List.getElem_mem _)
    have := List.pairwise_iff_getElem.mp hL n (n + 1 + m) hlt (by omega) (by omega)
    omega
  constructor
  · conv => rhs; rw [hsplit]
    rw [List.filter_append, List.filter_eq_self.mpr (by simpa using htake), List.filter_eq_nil_iff.mpr, List.append_nil]
    intro a ha; have := hdrop a ha; simp; omega
  · conv => rhs; rw [hsplit]
    have h1 : (L.drop (n+1)).filter (fun x => decide (k < x)) = L.drop (n+1) :=
      List.filter_eq_self.mpr (by simpa using hdrop)
    have h2 : (L.take (n+1)).filter (fun x => decide (k < x)) = [] :=
      List.filter_eq_nil_iff.mpr (by intro a ha; have := htake a ha; simp; omega)
    rw [List.filter_append, h1, h2, List.nil_append]

/-- Starts inside the kept prefix do not depend on what follows, provided no CRLF is cut or made at the seam. -/
theorem isLineStart_prefix (P R R' : List α) (k : Nat) (hk : k ≤ P.length)
    (h : ¬ (P.getLast? = some cr ∧ R.head? = some lf)) (h' : ¬ (P.getLast? = some cr ∧ R'.head? = some lf)) :
    IsLineStart lf cr (P ++ R) k ↔ IsLineStart lf cr (P ++ R') k := by
  unfold IsLineStart
  rcases Nat.eq_zero_or_pos k with rfl | hpos
  · simp
  · have e1 : (P ++ R)[k-1]? = P[k-1]? := List.getElem?_append_left (by omega)
    have e2 : (P ++ R')[k-1]? = P[k-1]? := List.getElem?_append_left (by omega)
    rw [e1, e2]
    rcases Nat.lt_or_ge k P.length with hlt | hge
    · have e3 : (P ++ R)[k]? = P[k]? := List.getElem?_append_left (by omega)
      have e4 : (P ++ R')[k]? = P[k]? := List.getElem?_append_left (by omega)
      rw [e3, e4]
      have h5 : k ≤ (P ++ R).length ↔ k ≤ (P ++ R').length := by simp; omega
      rw [h5]
    · have hkP : k = P.length := by omega
      subst hkP
      have e3 : (P ++ R)[P.length]? = R[0]? := by rw [List.getElem?_append_right (by omega), Nat.sub_self]
      have e4 : (P ++ R')[P.length]? = R'[0]? := by rw [List.getElem?_append_right (by omega), Nat.sub_self]
      rw [e3, e4]
      rw [List.getLast?_eq_getElem?, List.head?_eq_getElem?] at h h'
      simp only [not_and] at h h'
      constructor
      · rintro (h0 | ⟨_, hl | ⟨hc, _⟩⟩)
        · exact Or.inl h0
        · exact Or.inr ⟨by simp, Or.inl hl⟩
        · exact Or.inr ⟨by simp, Or.inr ⟨hc, h' hc⟩⟩
      · rintro (h0 | ⟨_, hl | ⟨hc, _⟩⟩)
        · exact Or.inl h0
        · exact Or.inr ⟨by simp, Or.inl hl⟩
        · exact Or.inr ⟨by simp, Or.inr ⟨hc, h hc⟩⟩

theorem isLineStart_suffix (P Q : List α) (k : Nat) (h0 : 0 < k) :
    IsLineStart lf cr (P ++ Q) (P.length + k) ↔ IsLineStart lf cr Q k := by
  unfold IsLineStart
  have e1 : (P ++ Q)[P.length + k - 1]? = Q[k-1]? := by
    rw [List.getElem?_append_right (by omega)]; congr 1; omega
  have e2 : (P ++ Q)[P.length + k]? = Q[k]? := by
    rw [List.getElem?_append_right (by omega)]; congr 1; omega
  have e3 : P.length + k ≤ (P ++ Q).length ↔ k ≤ Q.length := by simp
  have e4 : P.length + k = 0 ↔ k = 0 := by omega
  rw [e1, e2, e3, e4]

theorem isLineStart_middle (P N Q : List α) (k : Nat) (h0 : 0 < k) (hk : k ≤ N.length)
    (h : ¬ (N.getLast? = some cr ∧ Q.head? = some lf)) :
    IsLineStart lf cr (P ++ N ++ Q) (P.length + k) ↔ IsLineStart lf cr N k := by
  have hp := isLineStart_prefix lf cr N Q [] k hk h (by simp)
  rw [List.append_nil] at hp
  rw [← hp, List.append_assoc]
  exact isLineStart_suffix lf cr P (N ++ Q) k h0

theorem lineStarts_tail (t : List α) :
    lineStarts lf cr t = 0 :: (List.range' 1 t.length).filter (fun k => decide (IsLineStart lf cr t k)) := by
  have h0 : IsLineStart lf cr t 0 := Or.inl rfl
  simp [lineStarts, List.range_eq_range', List.range'_succ, h0]

theorem filter_range'_shift (p q : Nat → Bool) (a b n d : Nat) (hd : b = a + d)
    (h : ∀ k, a ≤ k → k < a + n → p (k + d) = q k) :
    (List.range' b n).filter p = ((List.range' a n).filter q).map (· + d) := by
  subst hd
  rw [show a + d = d + a by omega, List.range'_eq_map_range, List.range'_eq_map_range, List.filter_map, List.filter_map,
    List.map_map]
  have : (List.range n).filter (p ∘ fun x => d + a + x) = (List.range n).filter (q ∘ fun x => a + x) := by
    apply List.filter_congr
    intro x hx
    rw [List.mem_range] at hx
    simp only [Function.comp]
    rw [← h (a + x) (by omega) (by omega)]
    congr 1; omega
  rw [this]
  apply List.map_congr_left
  intro x _
  simp; omega

/-- The line starts after a replacement, in terms of those before. -/
theorem lineStarts_replace (P M Q N : List α)
    (hold : ¬ (P.getLast? = some cr ∧ (M ++ Q).head? = some lf))
    (h1 : ¬ (P.getLast? = some cr ∧ (N ++ Q).head? = some lf))
    (h2 : ¬ (N.getLast? = some cr ∧ Q.head? = some lf)) :
    lineStarts lf cr (P ++ N ++ Q) =
      (lineStarts lf cr (P ++ M ++ Q)).filter (fun k => decide (k ≤ P.length)) ++
      (lineStarts lf cr N).tail.map (· + P.length) ++
      ((lineStarts lf cr (P ++ M ++ Q)).filter (fun k => decide (P.length + M.length < k))).map
        (fun k => k + N.length - M.length) := by
  rw [lineStarts_filter_le _ _ _ _ (by simp), lineStarts_filter_gt _ _ _ _ (by simp), lineStarts_tail lf cr N, List.tail_cons]
  have hr : List.range ((P ++ N ++ Q).length + 1) = List.range (P.length + 1) ++ List.range' (P.length + 1) N.length
      ++ List.range' (P.length + N.length + 1) Q.length := by
    rw [List.range_eq_range', List.range_eq_range',
      range'_split 0 (P.length + 1 + N.length) Q.length _ (by simp; omega),
      range'_split 0 (P.length + 1) N.length _ rfl, Nat.zero_add, Nat.zero_add,
      show P.length + 1 + N.length = P.length + N.length + 1 by omega]
  conv => lhs; rw [lineStarts, hr]
  rw [List.filter_append, List.filter_append]
  congr 1
  · congr 1
    · apply List.filter_congr
      intro a ha
      rw [List.mem_range] at ha
      have := isLineStart_prefix lf cr P (N ++ Q) (M ++ Q) a (by omega) h1 hold
      simp only [List.append_assoc]
      exact decide_eq_decide.mpr this
    · apply filter_range'_shift _ _ _ _ _ _ (by omega)
      intro k hk1 hk2
      have := isLineStart_middle lf cr P N Q k (by omega) (by omega) h2
      rw [Nat.add_comm]
      exact decide_eq_decide.mpr this
  · have e1 := filter_range'_shift (fun k => decide (IsLineStart lf cr (P ++ N ++ Q) k)) (fun k => decide (IsLineStart lf cr Q k))
      1 (P.length + N.length + 1) Q.length (P.length + N.length) (by omega) (by
        intro k hk1 hk2
        have := isLineStart_suffix lf cr (P ++ N) Q k (by omega)
        rw [List.length_append] at this
        rw [Nat.add_comm]; exact decide_eq_decide.mpr this)
    have e2 := filter_range'_shift (fun k => decide (IsLineStart lf cr (P ++ M ++ Q) k)) (fun k => decide (IsLineStart lf cr Q k))
      1 (P.length + M.length + 1) Q.length (P.length + M.length) (by omega) (by
        intro k hk1 hk2
        have := isLineStart_suffix lf cr (P ++ M) Q k (by omega)
        rw [List.length_append] at this
        rw [Nat.add_comm]; exact decide_eq_decide.mpr this)
    have hl : (P ++ M ++ Q).length - (P.length + M.length) = Q.length := by simp; omega
    rw [hl, e1, e2, List.map_map]
    apply List.map_congr_left
    intro x _
    simp; omega

end generic

/-! ### Positions -/

theorem byteOff_mono (doc : List Char) {a b : Nat} (h : a ≤ b) : byteOff doc a ≤ byteOff doc b := by
  have : doc.take b = doc.take a ++ (doc.take b).drop a := by
    have := List.take_append_drop a (doc.take b)
    rw [List.take_take, Nat.min_eq_left h] at this
    exact this.symm
  rw [byteOff, byteOff, this, utf8_append]; simp

theorem byteOff_split (doc : List Char) {a b : Nat} (h : a ≤ b) :
    byteOff doc b = byteOff doc a + (utf8 ((doc.take b).drop a)).length := by
  have : doc.take b = doc.take a ++ (doc.take b).drop a := by
    have := List.take_append_drop a (doc.take b)
    rw [List.take_take, Nat.min_eq_left h] at this
    exact this.symm
  conv => lhs; rw [byteOff, this, utf8_append]
  simp

theorem utf8_drop (doc : List Char) (s : Nat) : (utf8 doc).drop (byteOff doc s) = utf8 (doc.drop s) := by
  conv => lhs; rw [← List.take_append_drop s doc, utf8_append]
  simp [byteOff]

theorem utf8_take (doc : List Char) (s : Nat) : (utf8 doc).take (byteOff doc s) = utf8 (doc.take s) := by
  conv => lhs; rw [← List.take_append_drop s doc, utf8_append]
  simp [byteOff]

theorem posAt_index {doc : List Char} {p : Pos} {k : Nat} (h : PosAt doc p k) :
    indexFromPosition (utf8 doc) (byteLines (utf8 doc)) p = some (byteOff doc k) := by
  obtain ⟨s, hs, hsk, hno, hcol⟩ := h.onLine
  unfold indexFromPosition
  rw [byteLines_utf8, List.getElem?_map, hs]
  simp only [Option.map_some]
  have hd : doc.drop s = (doc.take k).drop s ++ doc.drop k := by
    rw [← List.drop_append_of_le_length (by simp; have := h.inDoc; omega), List.take_append_drop]
  rw [utf8_drop, hd, utf8_append, walk_mid _ _ _ _ _ (by omega), byteOff_split doc hsk]

theorem posAt_gap {doc : List Char} {p : Pos} {k : Nat} (h : PosAt doc p k) :
    ∃ s, (docLines doc)[p.line]? = some s ∧ s ≤ k ∧ ∀ x ∈ docLines doc, s < x → k < x := by
  obtain ⟨s, hs, hsk, hno, hcol⟩ := h.onLine
  refine ⟨s, hs, hsk, ?_⟩
  intro x hx hsx
  rw [mem_lineStarts] at hx
  rcases Nat.lt_or_ge k x with hlt | hge
  · exact hlt
  · exfalso
    have hmem : ∀ c, doc[x-1]? = some c → c ∈ (doc.take k).drop s := by
      intro c hc
      rw [List.mem_iff_getElem?]
      refine ⟨x - 1 - s, ?_⟩
      rw [List.getElem?_drop, show s + (x - 1 - s) = x - 1 by omega, List.getElem?_take_of_lt (by omega), hc]
    rcases hx.2 with h0 | ⟨_, h1 | ⟨h1, _⟩⟩
    · omega
    · exact (hno _ (hmem _ h1)).1 rfl
    · exact (hno _ (hmem _ h1)).2 rfl

/-- A position never lies between the CR and the LF of a CRLF pair. -/
theorem posAt_noCut {doc : List Char} {p : Pos} {k : Nat} (h : PosAt doc p k) :
    ¬ ((doc.take k).getLast? = some '\r' ∧ (doc.drop k).head? = some '\n') := by
  obtain ⟨s, hs, hsk, hno, hcol⟩ := h.onLine
  rintro ⟨h1, h2⟩
  have hk := h.inDoc
  have hpos : 0 < k := by rcases Nat.eq_zero_or_pos k with rfl | h'; simp at h1; exact h'
  rw [List.getLast?_eq_getElem?, List.length_take, Nat.min_eq_left hk, List.getElem?_take_of_lt (by omega)] at h1
  rw [List.head?_drop] at h2
  rcases Nat.lt_or_ge s k with hlt | hge
  · have : '\r' ∈ (doc.take k).drop s := by
      rw [List.mem_iff_getElem?]
      refine ⟨k - 1 - s, ?_⟩
      rw [List.getElem?_drop, show s + (k - 1 - s) = k - 1 by omega, List.getElem?_take_of_lt (by omega), h1]
    exact (hno _ this).2 rfl
  · have : s = k := by omega
    subst this
    have hm := List.mem_of_getElem? hs
    rw [mem_lineStarts] at hm
    rcases hm.2 with h0 | ⟨_, h3 | ⟨_, h3⟩⟩
    · omega
    · rw [h1] at h3; simp at h3
    · exact h3 h2

theorem posAt_line_lt {doc : List Char} {p : Pos} {k : Nat} (h : PosAt doc p k) : p.line < (docLines doc).length := by
  obtain ⟨s, hs, _⟩ := h.onLine
  rcases Nat.lt_or_ge p.line (docLines doc).length with h | h
  · exact h
  · rw [List.getElem?_eq_none h] at hs; simp at hs

theorem posAt_line_mono {doc : List Char} {p q : Pos} {i j : Nat} (hp : PosAt doc p i) (hq : PosAt doc q j)
    (hij : i ≤ j) : p.line ≤ q.line := by
  obtain ⟨s, hs, hsk, _⟩ := posAt_gap hp
  obtain ⟨s', hs', _, hgap⟩ := posAt_gap hq
  rcases Nat.lt_or_ge q.line p.line with hlt | hge
  · have h1 := posAt_line_lt hp
    have h2 := posAt_line_lt hq
    have : (docLines doc)[q.line] < (docLines doc)[p.line] :=
      List.pairwise_iff_getElem.mp (lineStarts_pairwise '\n' '\r' doc) _ _ h2 h1 hlt
    rw [List.getElem?_eq_getElem h1] at hs
    rw [List.getElem?_eq_getElem h2] at hs'
    simp only [Option.some.injEq] at hs hs'
    have := hgap s (List.mem_of_getElem? (by rw [List.getElem?_eq_getElem h1, hs])) (by omega)
    omega
  · exact hge

/-- Server state in step with the editor buffer `doc`. -/
def InSync (f : File) (doc : List Char) : Prop := f.text = utf8 doc ∧ f.lines = byteLines (utf8 doc)

theorem inSync_open (f : File) (doc : List Char) (v : Nat) : InSync (f.didOpen (utf8 doc) v) doc :=
  ⟨rfl, createLineIndices_eq _⟩

theorem didChangeRange_eq {f : File} {doc : List Char} (hs : InSync f doc) {r : Range} {i j : Nat} {new : List Char}
    (hij : i ≤ j) (hi : PosAt doc r.start i) (hj : PosAt doc r.fin j) :
    f.didChangeRange r (utf8 new) = some
      { f with text := utf8 (doc.take i ++ new ++ doc.drop j),
               lines := ((docLines doc).filter (fun k => decide (k ≤ i))).map (byteOff doc) ++
                 (findNewlines (utf8 new)).map (· + byteOff doc i) ++
                 ((docLines doc).filter (fun k => decide (j < k))).map
                    (fun x => byteOff doc x + (utf8 new).length - (byteOff doc j - byteOff doc i)),
               version := f.version + 1 } := by
  obtain ⟨ht, hl⟩ := hs
  obtain ⟨s, hs1, hs2, hs3⟩ := posAt_gap hi
  obtain ⟨s', hs1', hs2', hs3'⟩ := posAt_gap hj
  have hb := byteOff_mono doc hij
  unfold File.didChangeRange
  have hlen : byteOff doc i ≤ (utf8 doc).length := by
    have := byteOff_mono doc (Nat.le_of_lt_succ (Nat.lt_succ_of_le hi.inDoc))
    simpa [byteOff] using this
  rw [ht, hl, posAt_index hi, posAt_index hj]
  simp only [Option.bind_eq_bind, Option.bind_some]
  rw [if_neg (by omega), updateLines_eq _ _ _ _ _ _ (posAt_line_mono hi hj hij)
    (by rw [byteLines_utf8, List.length_map]; exact posAt_line_lt hj) hb]
  simp only [Option.bind_some]
  rw [byteLines_utf8, ← List.map_take, ← List.map_drop,
    (take_eq_filter (lineStarts_pairwise _ _ doc) hs1 hs2 hs3).1,
    (take_eq_filter (lineStarts_pairwise _ _ doc) hs1' hs2' hs3').2, utf8_take, utf8_drop, utf8_append, utf8_append,
    List.map_map]
  rfl

theorem findNewlines_utf8 (new : List Char) : findNewlines (utf8 new) = (docLines new).tail.map (byteOff new) := by
  have h1 := byteLines_utf8 new
  rw [← createLineIndices_eq, createLineIndices] at h1
  have := congrArg List.tail h1
  simpa using this

theorem lines_after_edit {doc new : List Char} {i j : Nat} (hij : i ≤ j) (hj : j ≤ doc.length)
    (hc : ¬ ((doc.take i).getLast? = some '\r' ∧ (doc.drop i).head? = some '\n'))
    (h1 : ¬ ((doc.take i).getLast? = some '\r' ∧ (new ++ doc.drop j).head? = some '\n'))
    (h2 : ¬ (new.getLast? = some '\r' ∧ (doc.drop j).head? = some '\n')) :
    byteLines (utf8 (doc.take i ++ new ++ doc.drop j)) =
      ((docLines doc).filter (fun k => decide (k ≤ i))).map (byteOff doc) ++
                 (findNewlines (utf8 new)).map (· + byteOff doc i) ++
                 ((docLines doc).filter (fun k => decide (j < k))).map
                    (fun x => byteOff doc x + (utf8 new).length - (byteOff doc j - byteOff doc i)) := by
  have hdoc : doc = doc.take i ++ (doc.take j).drop i ++ doc.drop j := by
    conv => lhs; rw [← List.take_append_drop j doc]
    congr 1
    have := List.take_append_drop i (doc.take j)
    rw [List.take_take, Nat.min_eq_left hij] at this
    exact this.symm
  have hdi : doc.drop i = (doc.take j).drop i ++ doc.drop j := by
    rw [← List.drop_append_of_le_length (by simp; omega), List.take_append_drop]
  have hPl : (doc.take i).length = i := by simp; omega
  have hMl : ((doc.take j).drop i).length = j - i := by simp; omega
  have key := lineStarts_replace '\n' '\r' (doc.take i) ((doc.take j).drop i) (doc.drop j) new
    (by rw [← hdi]; exact hc) h1 h2
  rw [← hdoc, hPl, hMl, show i + (j - i) = j by omega] at key
  rw [byteLines_utf8]
  show List.map _ (lineStarts _ _ _) = _
  rw [key, List.map_append, List.map_append, findNewlines_utf8, List.map_map, List.map_map, List.map_map]
  congr 1
  · congr 1
    · apply List.map_congr_left
      intro x hx
      simp at hx
      rw [byteOff, List.append_assoc, List.take_append_of_le_length (by omega), List.take_take, Nat.min_eq_left hx.2]
    · apply List.map_congr_left
      intro x _
      simp only [Function.comp]
      have : (List.take i doc ++ new ++ List.drop j doc).take (x + i) = List.take i doc ++ (new ++ List.drop j doc).take x := by
        rw [List.append_assoc, List.take_append, hPl, List.take_take, Nat.min_eq_right (by omega)]
        rw [show x + i - i = x by omega]
      rw [byteOff, this, utf8_append]
      have hx : x ≤ new.length := by
        have := List.mem_of_mem_tail ‹x ∈ (docLines new).tail›
        exact ((mem_lineStarts _ _ _ _).mp this).1
      rw [List.take_append_of_le_length hx]
      simp [byteOff]; omega
  · apply List.map_congr_left
    intro x hx
    simp only [Function.comp]
    simp at hx
    have hxl := ((mem_lineStarts _ _ _ _).mp hx.1).1
    have : (List.take i doc ++ new ++ List.drop j doc).take (x + new.length - (j - i)) =
        List.take i doc ++ new ++ (List.drop j doc).take (x - j) := by
      rw [List.take_append, List.take_of_length_le (by simp; omega)]
      congr 2
      simp; omega
    have h3 : doc.take x = doc.take j ++ (doc.drop j).take (x - j) := by
      conv => lhs; rw [← List.take_append_drop j doc]
      rw [List.take_append, List.take_take, Nat.min_eq_right (by omega)]
      congr 2; simp; omega
    have hb := byteOff_mono doc hij
    rw [byteOff, this, utf8_append, utf8_append]
    have : byteOff doc x = byteOff doc j + (utf8 ((doc.drop j).take (x - j))).length := by
      rw [byteOff, h3, utf8_append]; simp [byteOff]
    rw [this]
    simp only [List.length_append]
    show byteOff doc i + _ + _ = _
    omega

theorem inSync_step {f : File} {doc : List Char} (hs : InSync f doc) {e : Edit} {c : Change}
    (hd : Describes doc e c) (hn : e.NoSeam doc) :
    ∃ f', f.change c = some f' ∧ InSync f' (e.apply doc) ∧ f'.version = f.version + 1 := by
  cases hd with
  | whole new => exact ⟨_, rfl, ⟨rfl, createLineIndices_eq _⟩, rfl⟩
  | replace i j new r hij hst he =>
    refine ⟨_, didChangeRange_eq hs hij hst he, ⟨rfl, ?_⟩, rfl⟩
    exact (lines_after_edit hij he.inDoc (posAt_noCut hst) hn.1 hn.2).symm

theorem inSync_history {doc doc' : List Char} {cs : List Change} (h : SafeHistory doc cs doc') :
    ∀ {f : File}, InSync f doc → ∃ f', f.changes cs = some f' ∧ InSync f' doc' ∧ f'.version = f.version + cs.length := by
  induction h with
  | nil doc => intro f hf; exact ⟨f, rfl, hf, rfl⟩
  | cons hd hs _ ih =>
    intro f hf
    obtain ⟨f1, h1, h2, h3⟩ := inSync_step hf hd hs
    obtain ⟨f2, h4, h5, h6⟩ := ih h2
    exact ⟨f2, by simp [File.changes, h1, h4], h5, by simp; omega⟩

end Verif.TextSync
