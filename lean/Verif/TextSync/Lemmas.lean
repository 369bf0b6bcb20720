import Verif.TextSync.Spec
namespace Verif.TextSync

/-! ### Generic facts about line starts -/
section generic
variable {α : Type} [DecidableEq α] (lf cr : α)

/-- `findNewlinesGo` over any alphabet, with weights. -/
def goW (w : α → Nat) : Bool → Nat → List α → List Nat
  | wasR, i, [] => if wasR then [i] else []
  | true, i, ch :: t =>
    if ch = lf then (i + w ch) :: goW w false (i + w ch) t
    else if ch = cr then i :: goW w true (i + w ch) t
    else i :: goW w false (i + w ch) t
  | false, i, ch :: t =>
    if ch = lf then (i + w ch) :: goW w false (i + w ch) t
    else if ch = cr then goW w true (i + w ch) t
    else goW w false (i + w ch) t

def wsum (w : α → Nat) (l : List α) : Nat := (l.map w).sum

theorem isLineStart_mid (p : List α) (c : α) (t : List α) :
    IsLineStart lf cr (p ++ c :: t) (p.length + 1) ↔ c = lf ∨ (c = cr ∧ t.head? ≠ some lf) := by
  unfold IsLineStart
  simp [List.getElem?_append_right, List.head?_eq_getElem?]

theorem isLineStart_mid_cr (hne : lf ≠ cr) (p : List α) (t : List α) (hp : p.getLast? = some cr) :
    IsLineStart lf cr (p ++ t) p.length ↔ t.head? ≠ some lf := by
  have hp0 : p ≠ [] := by rintro rfl; simp at hp
  have hpos : 0 < p.length := List.length_pos_iff.mpr hp0
  unfold IsLineStart
  rw [List.getLast?_eq_getElem?] at hp
  simp [List.getElem?_append_left (show p.length - 1 < p.length by omega), hp, hp0, Ne.symm hne,
    List.head?_eq_getElem?, List.getElem?_append_right]

theorem goW_eq (hne : lf ≠ cr) (w : α → Nat) (l : List α) : ∀ (p : List α) (r : Bool),
    (r = true ↔ p.getLast? = some cr) →
    goW lf cr w r (wsum w p) l =
      ((List.range' (p.length + (if r then 0 else 1)) (l.length + (if r then 1 else 0))).filter
        (fun k => decide (IsLineStart lf cr (p ++ l) k))).map (fun k => wsum w ((p ++ l).take k)) := by
  induction l with
  | nil =>
    intro p r hr
    cases r with
    | false => simp [goW]
    | true =>
      have := (isLineStart_mid_cr lf cr hne p [] (hr.mp rfl)).mpr (by simp)
      simp only [List.append_nil] at this
      simp [goW, this, List.filter]
  | cons c t ih =>
    intro p r hr
    have ihp := ih (p ++ [c]) (decide (c = cr)) (by simp)
    have hs : wsum w (p ++ [c]) = wsum w p + w c := by simp [wsum]
    simp only [List.append_assoc, List.singleton_append, List.length_append, List.length_singleton, hs] at ihp
    have hmid := isLineStart_mid lf cr p c t
    have hsum1 : wsum w ((p ++ c :: t).take (p.length + 1)) = wsum w p + w c := by
      rw [List.take_length_add_append]; simp [wsum]
    have hsum0 : wsum w ((p ++ c :: t).take p.length) = wsum w p := by
      simp
    cases r with
    | false =>
      simp only [goW]
      by_cases h1 : c = lf
      · have hc : c ≠ cr := fun h => hne (h1 ▸ h)
        simp only [hc, decide_false, Bool.false_eq_true, if_false] at ihp
        have : IsLineStart lf cr (p ++ c :: t) (p.length + 1) := hmid.mpr (Or.inl h1)
        rw [if_pos h1]
        rw [ihp]
        simp [List.range'_succ, List.filter_cons, this, hsum1]
      · by_cases h2 : c = cr
        · rw [if_neg h1, if_pos h2]
          rw [decide_eq_true h2] at ihp
          simp only [if_true] at ihp
          rw [ihp]; simp
        · have : ¬ IsLineStart lf cr (p ++ c :: t) (p.length + 1) := by rw [hmid]; simp [h1, h2]
          simp only [h1, h2, if_false]
          simp only [h2, decide_false, Bool.false_eq_true, if_false] at ihp
          rw [ihp]
          simp [List.range'_succ, List.filter_cons, this]
    | true =>
      have hcr := isLineStart_mid_cr lf cr hne p (c :: t) (hr.mp rfl)
      simp only [List.head?_cons, ne_eq, Option.some.injEq] at hcr
      simp only [goW]
      by_cases h1 : c = lf
      · have hc : c ≠ cr := fun h => hne (h1 ▸ h)
        simp only [hc, decide_false, Bool.false_eq_true, if_false] at ihp
        have h3 : IsLineStart lf cr (p ++ c :: t) (p.length + 1) := hmid.mpr (Or.inl h1)
        have h4 : ¬ IsLineStart lf cr (p ++ c :: t) p.length := by rw [hcr]; simp [h1]
        rw [if_pos h1]
        rw [ihp]
        simp [List.range'_succ, List.filter_cons, h3, h4, hsum1]
      · have h4 : IsLineStart lf cr (p ++ c :: t) p.length := by rw [hcr]; exact h1
        by_cases h2 : c = cr
        · rw [if_neg h1, if_pos h2]
          rw [decide_eq_true h2] at ihp
          simp only [if_true] at ihp
          rw [ihp]
          simp [List.range'_succ (s := p.length), List.filter_cons, h4, hsum0]
        · have h3 : ¬ IsLineStart lf cr (p ++ c :: t) (p.length + 1) := by rw [hmid]; simp [h1, h2]
          simp only [h1, h2, if_false]
          simp only [h2, decide_false, Bool.false_eq_true, if_false] at ihp
          rw [ihp]
          simp [List.range'_succ, List.filter_cons, h3, h4, hsum0]

theorem lineStarts_cons_eq (hne : lf ≠ cr) (w : α → Nat) (l : List α) :
    0 :: goW lf cr w false 0 l = (lineStarts lf cr l).map (fun k => wsum w (l.take k)) := by
  have h := goW_eq lf cr hne w l [] false (by simp)
  simp only [wsum, List.map_nil, List.sum_nil, List.nil_append] at h
  have h0 : IsLineStart lf cr l 0 := Or.inl rfl
  simp [lineStarts, List.range_eq_range', List.range'_succ, List.filter_cons, h0, h, wsum]

theorem wsum_one (l : List α) : wsum (fun _ => 1) l = l.length := by
  induction l with
  | nil => rfl
  | cons c t ih => simp [wsum] at ih ⊢; omega

end generic

theorem findNewlinesGo_eq_goW (r : Bool) (i : Nat) (t : Bytes) :
    findNewlinesGo r i t = goW LF CR (fun _ => 1) r i t := by
  induction t generalizing r i with
  | nil => simp [findNewlinesGo, goW]
  | cons c t ih => cases r <;> simp [findNewlinesGo, goW, ih]

theorem createLineIndices_eq (t : Bytes) : createLineIndices t = byteLines t := by
  rw [createLineIndices, findNewlines, findNewlinesGo_eq_goW, lineStarts_cons_eq LF CR (by decide)]
  have : ∀ k ∈ byteLines t, wsum (fun _ => 1) (t.take k) = k := by
    intro k hk
    simp [lineStarts] at hk
    rw [wsum_one]; simp; omega
  show (byteLines t).map _ = byteLines t
  conv => rhs; rw [← List.map_id (byteLines t)]
  exact List.map_congr_left this

/-! ### UTF-8 -/

theorem utf8_nil : utf8 [] = [] := rfl
theorem utf8_cons (c : Char) (cs : List Char) : utf8 (c :: cs) = String.utf8EncodeChar c ++ utf8 cs := by
  simp [utf8]
theorem utf8_append (a b : List Char) : utf8 (a ++ b) = utf8 a ++ utf8 b := by
  simp [utf8]
theorem utf8_length (cs : List Char) : (utf8 cs).length = wsum Char.utf8Size cs := by
  induction cs with
  | nil => rfl
  | cons c cs ih => rw [utf8_cons]; simp [wsum, String.length_utf8EncodeChar] at ih ⊢; omega

theorem utf16Len_cons (c : Char) (cs : List Char) : utf16Len (c :: cs) = utf16Width c + utf16Len cs := by
  simp [utf16Len]

theorem utf16Width_pos (c : Char) : 0 < utf16Width c := by
  unfold utf16Width; split <;> omega

theorem charWidth_one : ∀ b : UInt8, b.toNat < 128 → charWidth b = some (1, 1) :=
  forall_byte _ (by decide)
theorem charWidth_two : ∀ b : UInt8, 192 ≤ b.toNat → b.toNat < 224 → charWidth b = some (2, 1) :=
  forall_byte _ (by decide)
theorem charWidth_three : ∀ b : UInt8, 224 ≤ b.toNat → b.toNat < 240 → charWidth b = some (3, 1) :=
  forall_byte _ (by decide)
theorem charWidth_four : ∀ b : UInt8, 240 ≤ b.toNat → b.toNat < 248 → charWidth b = some (4, 2) :=
  forall_byte _ (by decide)

/-- The encoded character in terms of its numeric value. -/
theorem encode_cases (c : Char) :
    (c.toNat < 128 ∧ String.utf8EncodeChar c = [UInt8.ofNat c.toNat] ) ∨
    (128 ≤ c.toNat ∧ c.toNat ≤ 0x7FF ∧ ∃ a b : UInt8, String.utf8EncodeChar c = [a, b] ∧ 192 ≤ a.toNat ∧ a.toNat < 224
      ∧ 128 ≤ b.toNat ∧ b.toNat < 192) ∨
    (0x800 ≤ c.toNat ∧ c.toNat ≤ 0xFFFF ∧ ∃ a b d : UInt8, String.utf8EncodeChar c = [a, b, d] ∧ 224 ≤ a.toNat ∧ a.toNat < 240
      ∧ 128 ≤ b.toNat ∧ b.toNat < 192 ∧ 128 ≤ d.toNat ∧ d.toNat < 192) ∨
    (0x10000 ≤ c.toNat ∧ ∃ a b d e : UInt8, String.utf8EncodeChar c = [a, b, d, e] ∧ 240 ≤ a.toNat ∧ a.toNat < 248
      ∧ 128 ≤ b.toNat ∧ b.toNat < 192 ∧ 128 ≤ d.toNat ∧ d.toNat < 192 ∧ 128 ≤ e.toNat ∧ e.toNat < 192) := by
  have hv : c.val.toNat = c.toNat := rfl
  unfold String.utf8EncodeChar
  simp only [hv]
  by_cases h1 : c.toNat ≤ 127
  · left; simp [h1]; omega
  · by_cases h2 : c.toNat ≤ 2047
    · right; left
      refine ⟨by omega, by omega, UInt8.ofNat (c.toNat / 64 % 32 + 192), UInt8.ofNat (c.toNat % 64 + 128), ?_⟩
      simp [h1, h2, UInt8.toNat_ofNat']
      omega
    · by_cases h3 : c.toNat ≤ 65535
      · right; right; left
        refine ⟨by omega, by omega, UInt8.ofNat (c.toNat / 4096 % 16 + 224), UInt8.ofNat (c.toNat / 64 % 64 + 128),
          UInt8.ofNat (c.toNat % 64 + 128), ?_⟩
        simp [h1, h2, h3, UInt8.toNat_ofNat']
        omega
      · right; right; right
        refine ⟨by omega, UInt8.ofNat (c.toNat / 262144 % 8 + 240), UInt8.ofNat (c.toNat / 4096 % 64 + 128),
          UInt8.ofNat (c.toNat / 64 % 64 + 128), UInt8.ofNat (c.toNat % 64 + 128), ?_⟩
        simp [h1, h2, h3, UInt8.toNat_ofNat']
        omega

theorem encode_step (c : Char) : ∃ a bs, String.utf8EncodeChar c = a :: bs ∧
    charWidth a = some (bs.length + 1, utf16Width c) := by
  rcases encode_cases c with ⟨h, e⟩ | ⟨h1, h2, a, b, e, _, _⟩ | ⟨h1, h2, a, b, d, e, _, _⟩ | ⟨h1, a, b, d, f, e, _, _⟩
  · refine ⟨_, _, e, ?_⟩
    rw [charWidth_one _ (by simp [UInt8.toNat_ofNat']; omega)]
    simp [utf16Width]; omega
  · exact ⟨_, _, e, by rw [charWidth_two _ (by omega) (by omega)]; simp [utf16Width]; omega⟩
  · exact ⟨_, _, e, by rw [charWidth_three _ (by omega) (by omega)]; simp [utf16Width]; omega⟩
  · exact ⟨_, _, e, by rw [charWidth_four _ (by omega) (by omega)]; simp [utf16Width]; omega⟩

theorem char_eq_of_toNat {c d : Char} (h : c.toNat = d.toNat) : c = d := by
  apply Char.ext; apply UInt32.toNat_inj.mp; exact h

theorem encode_noterm (c : Char) (h1 : c ≠ '\n') (h2 : c ≠ '\r') :
    ∀ b ∈ String.utf8EncodeChar c, b ≠ LF ∧ b ≠ CR := by
  intro b hb
  have key : b.toNat ≠ 10 ∧ b.toNat ≠ 13 := by
    rcases encode_cases c with ⟨h, e⟩ | ⟨_, _, x, y, e, _⟩ | ⟨_, _, x, y, z, e, _⟩ | ⟨_, x, y, z, w, e, _⟩
    · rw [e] at hb; simp at hb; subst hb
      have : c.toNat ≠ 10 := fun h => h1 (char_eq_of_toNat h)
      have : c.toNat ≠ 13 := fun h => h2 (char_eq_of_toNat h)
      simp [UInt8.toNat_ofNat']; omega
    all_goals rw [e] at hb; simp at hb
    · rcases hb with rfl | rfl <;> omega
    · rcases hb with rfl | rfl | rfl <;> omega
    · rcases hb with rfl | rfl | rfl | rfl <;> omega
  exact ⟨fun h => key.1 (by rw [h]; rfl), fun h => key.2 (by rw [h]; rfl)⟩

theorem goW_skip (bs t : Bytes) (hne : bs ≠ []) (h : ∀ b ∈ bs, b ≠ LF ∧ b ≠ CR) (r : Bool) (i : Nat) :
    goW LF CR (fun _ => 1) r i (bs ++ t) = (if r then [i] else []) ++ goW LF CR (fun _ => 1) false (i + bs.length) t := by
  induction bs generalizing r i with
  | nil => exact absurd rfl hne
  | cons b bs ih =>
    have hb := h b (by simp)
    have hbs : ∀ b ∈ bs, b ≠ LF ∧ b ≠ CR := fun x hx => h x (by simp [hx])
    cases bs with
    | nil => cases r <;> simp [goW, hb]
    | cons b' bs' =>
      have := ih (by simp) hbs false (i + 1)
      cases r
      · simp only [List.cons_append, goW, hb.1, hb.2, if_false] at this ⊢
        rw [this]; simp; congr 1; omega
      · simp only [List.cons_append, goW, hb.1, hb.2, if_false] at this ⊢
        rw [this]; simp; congr 1; omega

theorem goW_utf8 (doc : List Char) (r : Bool) (i : Nat) :
    goW LF CR (fun _ => 1) r i (utf8 doc) = goW '\n' '\r' Char.utf8Size r i doc := by
  induction doc generalizing r i with
  | nil => simp [utf8, goW]
  | cons c cs ih =>
    rw [utf8_cons]
    by_cases h1 : c = '\n'
    · subst h1
      have : String.utf8EncodeChar '\n' = [LF] := by decide
      have h2 : Char.utf8Size '\n' = 1 := by decide
      cases r <;> simp [goW, this, h2, ih]
    · by_cases h2 : c = '\r'
      · subst h2
        have : String.utf8EncodeChar '\r' = [CR] := by decide
        have h2 : Char.utf8Size '\r' = 1 := by decide
        have h3 : CR ≠ LF := by decide
        cases r <;> simp [goW, this, h2, ih, h3]
      · obtain ⟨a, bs, e, _⟩ := encode_step c
        rw [goW_skip _ _ (by rw [e]; simp) (encode_noterm c h1 h2), String.length_utf8EncodeChar, ih]
        cases r <;> simp [goW, h1, h2]

/-- Byte offset of the character offset `k`. -/
abbrev byteOff (doc : List Char) (k : Nat) : Nat := (utf8 (doc.take k)).length

theorem byteLines_utf8 (doc : List Char) :
    byteLines (utf8 doc) = (docLines doc).map (byteOff doc) := by
  have h1 := lineStarts_cons_eq '\n' '\r' (by decide) Char.utf8Size doc
  rw [← createLineIndices_eq, createLineIndices, findNewlines, findNewlinesGo_eq_goW, goW_utf8, h1]
  apply List.map_congr_left
  intro k _
  rw [byteOff, utf8_length]

theorem walk_mid (mid : List Char) (rest : Bytes) (col cnt i : Nat) (h : cnt + utf16Len mid = col) :
    walk col cnt i (utf8 mid ++ rest) = some (i + (utf8 mid).length) := by
  induction mid generalizing cnt i with
  | nil =>
    have : ¬ cnt < col := by simp [utf16Len] at h; omega
    rw [walk.eq_def]; simp [utf8, this]
  | cons c cs ih =>
    rw [utf16Len_cons] at h
    have := utf16Width_pos c
    obtain ⟨a, bs, e, hw⟩ := encode_step c
    rw [utf8_cons, e, walk.eq_def, if_pos (by omega)]
    simp only [List.cons_append]
    split
    · next hn => rw [hn] at hw; simp at hw
    · next w u hn =>
      rw [hn] at hw; simp at hw
      obtain ⟨rfl, rfl⟩ := hw
      have := ih (cnt + utf16Width c) (i + (bs.length + 1)) (by omega)
      rw [List.drop_succ_cons, List.append_assoc, List.drop_left, this]
      simp; omega

theorem walk_total (cs : List Char) (col cnt i : Nat) :
    ∃ k, walk col cnt i (utf8 cs) = some (i + (utf8 (cs.take k)).length) := by
  induction cs generalizing cnt i with
  | nil => exact ⟨0, by rw [walk.eq_def]; simp [utf8]⟩
  | cons c cs ih =>
    by_cases hlt : cnt < col
    · obtain ⟨a, bs, e, hw⟩ := encode_step c
      obtain ⟨k, hk⟩ := ih (cnt + utf16Width c) (i + (bs.length + 1))
      refine ⟨k + 1, ?_⟩
      rw [utf8_cons, e, walk.eq_def, if_pos hlt]
      simp only [List.cons_append]
      split
      · next hn => rw [hn] at hw; simp at hw
      · next w u hn =>
        rw [hn] at hw; simp at hw
        obtain ⟨rfl, rfl⟩ := hw
        rw [List.drop_succ_cons, List.drop_left, hk]
        simp [utf8_cons, e]; omega
    · exact ⟨0, by rw [walk.eq_def]; simp [hlt, utf8]⟩

/-! ### The in-place update of the line table -/

theorem length_shiftUp (diff add sub lo n : Nat) (l : List Nat) : (shiftUp diff add sub lo n l).length = l.length := by
  induction n generalizing l with
  | zero => rfl
  | succ n ih => simp [shiftUp, ih]

theorem getElem?_shiftUp (diff add sub lo n : Nat) (l : List Nat) (hd : 0 < diff) (j : Nat) :
    (shiftUp diff add sub lo n l)[j]? =
      if lo < j ∧ j ≤ lo + n ∧ j < l.length then some (l[j - diff]?.getD 0 + add - sub) else l[j]? := by
  induction n generalizing l with
  | zero => rw [shiftUp, if_neg (by omega)]
  | succ n ih =>
    simp only [shiftUp, ih, List.length_set]
    by_cases h : j = lo + (n + 1)
    · subst h
      rw [if_neg (by omega)]
      by_cases hl : lo + (n + 1) < l.length
      · rw [if_pos (by omega), List.getElem?_set_self hl]
      · rw [if_neg (by omega), List.getElem?_eq_none (by rw [List.length_set]; omega), List.getElem?_eq_none (by omega)]
    · by_cases h2 : lo < j ∧ j ≤ lo + n ∧ j < l.length
      · rw [if_pos h2, if_pos (by omega), List.getElem?_set_ne (by omega)]
      · rw [if_neg h2, if_neg (by omega), List.getElem?_set_ne (by omega)]

theorem length_shiftDown (diff add sub n i : Nat) (l : List Nat) : (shiftDown diff add sub n i l).length = l.length := by
  induction n generalizing l i with
  | zero => rfl
  | succ n ih => simp [shiftDown, ih]

theorem getElem?_shiftDown (diff add sub n i : Nat) (l : List Nat) (j : Nat) :
    (shiftDown diff add sub n i l)[j]? =
      if i ≤ j ∧ j < i + n ∧ j < l.length then some (l[j + diff]?.getD 0 + add - sub) else l[j]? := by
  induction n generalizing l i with
  | zero => rw [shiftDown, if_neg (by omega)]
  | succ n ih =>
    simp only [shiftDown, ih, List.length_set]
    by_cases h : j = i
    · subst h
      rw [if_neg (by omega)]
      by_cases hl : j < l.length
      · rw [if_pos (by omega), List.getElem?_set_self hl]
      · rw [if_neg (by omega), List.getElem?_eq_none (by rw [List.length_set]; omega), List.getElem?_eq_none (by omega)]
    · by_cases h2 : i + 1 ≤ j ∧ j < i + 1 + n ∧ j < l.length
      · rw [if_pos h2, if_pos (by omega), List.getElem?_set_ne (by omega)]
      · rw [if_neg h2, if_neg (by omega), List.getElem?_set_ne (by omega)]

theorem length_overwrite (b i : Nat) (xs l : List Nat) : (overwrite b i xs l).length = l.length := by
  induction xs generalizing l i with
  | nil => rfl
  | cons x xs ih => simp [overwrite, ih]

theorem getElem?_overwrite (b i : Nat) (xs l : List Nat) (j : Nat) :
    (overwrite b i xs l)[j]? =
      if i ≤ j ∧ j < i + xs.length ∧ j < l.length then some (xs[j - i]?.getD 0 + b) else l[j]? := by
  induction xs generalizing l i with
  | nil => rw [overwrite, if_neg (by simp; omega)]
  | cons x xs ih =>
    simp only [overwrite, ih, List.length_set, List.length_cons]
    by_cases h : j = i
    · subst h
      rw [if_neg (by omega)]
      by_cases hl : j < l.length
      · rw [if_pos (by omega), List.getElem?_set_self hl]; simp
      · rw [if_neg (by omega), List.getElem?_eq_none (by rw [List.length_set]; omega), List.getElem?_eq_none (by omega)]
    · by_cases h2 : i + 1 ≤ j ∧ j < i + 1 + xs.length ∧ j < l.length
      · rw [if_pos h2, if_pos (by omega)]
        rw [show j - i = (j - (i+1)) + 1 by omega]; simp
      · rw [if_neg h2, if_neg (by omega), List.getElem?_set_ne (by omega)]

theorem getElem?_three (A B C : List Nat) (m j : Nat) (hm : m ≤ A.length) :
    (A.take m ++ B ++ C)[j]? = if j < m then A[j]? else if j < m + B.length then B[j - m]? else C[j - (m + B.length)]? := by
  have hl : (A.take m).length = m := by simp; omega
  by_cases h1 : j < m
  · rw [if_pos h1, List.append_assoc, List.getElem?_append_left (by omega), List.getElem?_take_of_lt h1]
  · rw [if_neg h1]
    by_cases h2 : j < m + B.length
    · rw [if_pos h2, List.getElem?_append_left (by simp; omega), List.getElem?_append_right (by omega), hl]
    · rw [if_neg h2, List.getElem?_append_right (by simp; omega), List.length_append, hl]

/-- Closed form of the in-place update. -/
theorem updateLines_eq (lines : List Nat) (sl el b e : Nat) (newText : Bytes)
    (h1 : sl ≤ el) (h2 : el < lines.length) (h3 : b ≤ e) :
    updateLines lines sl el b e newText =
      some (lines.take (sl + 1) ++ (findNewlines newText).map (· + b) ++
        (lines.drop (el + 1)).map (fun x => x + newText.length - (e - b))) := by
  unfold updateLines
  rw [if_neg (by omega)]
  generalize hN : findNewlines newText = N
  by_cases hc : N.length > el - sl
  · simp only
    rw [if_pos hc, if_pos (by simp [length_shiftUp]; omega)]
    congr 1
    apply List.ext_getElem?
    intro j
    rw [getElem?_three _ _ _ _ _ (by omega), List.length_map, getElem?_overwrite, length_shiftUp,
      getElem?_shiftUp _ _ _ _ _ _ (by omega)]
    simp only [List.length_append, List.length_replicate, List.getElem?_map, List.getElem?_drop]
    by_cases hj1 : j < sl + 1
    · rw [if_neg (by omega), if_neg (by omega), if_pos hj1, List.getElem?_append_left (by omega)]
    · rw [if_neg hj1]
      by_cases hj2 : j < sl + 1 + N.length
      · rw [if_pos (by omega), if_pos hj2, List.getElem?_eq_getElem (by omega)]; simp
      · rw [if_neg (by omega), if_neg hj2]
        by_cases hj3 : j < lines.length + (N.length - (el - sl))
        · rw [if_pos (by omega), List.getElem?_append_left (by omega)]
          rw [show el + 1 + (j - (sl + 1 + N.length)) = j - (N.length - (el - sl)) by omega]
          rw [List.getElem?_eq_getElem (by omega)]; simp
        · rw [if_neg (by omega), List.getElem?_eq_none (by simp; omega), List.getElem?_eq_none (by omega)]; rfl
  · simp only
    rw [if_neg hc]
    rw [if_neg (by omega)]
    rw [if_pos (by simp [length_shiftDown]; omega)]
    congr 1
    apply List.ext_getElem?
    intro j
    rw [getElem?_three _ _ _ _ _ (by omega), List.length_map, getElem?_overwrite]
    simp only [List.length_take, length_shiftDown, List.getElem?_map, List.getElem?_drop]
    by_cases hj0 : j < lines.length - ((el - sl) - N.length)
    · rw [List.getElem?_take_of_lt (by omega), getElem?_shiftDown]
      by_cases hj1 : j < sl + 1
      · rw [if_neg (by omega), if_neg (by omega), if_pos hj1]
      · rw [if_neg hj1]
        by_cases hj2 : j < sl + 1 + N.length
        · rw [if_pos (by omega), if_pos hj2, List.getElem?_eq_getElem (by omega)]; simp
        · rw [if_neg (by omega), if_pos (by omega), if_neg hj2]
          rw [show el + 1 + (j - (sl + 1 + N.length)) = j + ((el - sl) - N.length) by omega]
          rw [List.getElem?_eq_getElem (by omega)]; simp
    · rw [if_neg (by omega), List.getElem?_eq_none (by simp [length_shiftDown]; omega),
        if_neg (by omega), if_neg (by omega), List.getElem?_eq_none (by omega)]
      rfl

end Verif.TextSync
