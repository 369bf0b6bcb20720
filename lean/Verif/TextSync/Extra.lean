import Verif.TextSync.Step
/-! Converse of the seam condition, existence of positions, sanitisation. -/
namespace Verif.TextSync

theorem getLast?_take_of_le {α} (l : List α) (k : Nat) (hk : k ≤ l.length) (h0 : 0 < k) :
    (l.take k).getLast? = l[k-1]? := by
  rw [List.getLast?_eq_getElem?, List.length_take, Nat.min_eq_left hk, List.getElem?_take_of_lt (by omega)]

theorem byteOff_strictMono {doc : List Char} {a b : Nat} (h : a < b) (hb : b ≤ doc.length) :
    byteOff doc a < byteOff doc b := by
  rw [byteOff_split doc (Nat.le_of_lt h)]
  have : (doc.take b).drop a ≠ [] := by
    intro hn
    have := congrArg List.length hn
    simp at this; omega
  obtain ⟨c, cs, hc⟩ := List.exists_cons_of_ne_nil this
  obtain ⟨x, xs, e, _⟩ := encode_step c
  rw [hc, utf8_cons, e]; simp

theorem mem_byteLines_iff (doc : List Char) (k : Nat) (hk : k ≤ doc.length) :
    byteOff doc k ∈ byteLines (utf8 doc) ↔ k ∈ docLines doc := by
  rw [byteLines_utf8, List.mem_map]
  constructor
  · rintro ⟨x, hx, he⟩
    have hxl := ((mem_lineStarts _ _ _ _).mp hx).1
    rcases Nat.lt_trichotomy x k with h | h | h
    · have := byteOff_strictMono h hk; omega
    · exact h ▸ hx
    · have := byteOff_strictMono h hxl; omega
  · intro h; exact ⟨k, h, rfl⟩

/-- An edit that makes a CRLF pair at its boundary always leaves a wrong line table. -/
theorem outOfSync_step {f : File} {doc : List Char} (hs : InSync f doc) {e : Edit} {c : Change}
    (hd : Describes doc e c) (hn : ¬ e.NoSeam doc) :
    ∃ f', f.change c = some f' ∧ f'.text = utf8 (e.apply doc) ∧ f'.lines ≠ byteLines f'.text := by
  cases hd with
  | whole new => exact absurd trivial hn
  | replace i j new r hij hst he =>
    refine ⟨_, didChangeRange_eq hs hij hst he, rfl, ?_⟩
    intro heq
    simp only at heq
    have hil := hst.inDoc
    have hPl : (doc.take i).length = i := by simp; omega
    have hcut := posAt_noCut hst
    have hnew : (doc.take i ++ new ++ doc.drop j).take i = doc.take i := by
      rw [List.append_assoc, List.take_append_of_le_length (by omega), List.take_take, Nat.min_self]
    have hnew2 : (doc.take i ++ new ++ doc.drop j).take (i + new.length) = doc.take i ++ new := by
      rw [List.take_append_of_le_length (by simp; omega), List.take_of_length_le (by simp; omega)]
    by_cases h1 : (doc.take i).getLast? = some '\r' ∧ (new ++ doc.drop j).head? = some '\n'
    · have hpos : 0 < i := by rcases Nat.eq_zero_or_pos i with rfl | h'; simp at h1; exact h'
      have hstart : i ∈ docLines doc := by
        rw [mem_lineStarts]
        refine ⟨hil, Or.inr ⟨hil, Or.inr ⟨?_, ?_⟩⟩⟩
        · rw [← getLast?_take_of_le _ _ hil hpos]; exact h1.1
        · intro h2; exact hcut ⟨h1.1, by rw [List.head?_drop]; exact h2⟩
      have hmem : byteOff doc i ∈ byteLines (utf8 (doc.take i ++ new ++ doc.drop j)) := by
        rw [← heq]
        simp only [List.mem_append, List.mem_map, List.mem_filter]
        left; left
        exact ⟨i, ⟨hstart, by simp⟩, rfl⟩
      have hoff : byteOff doc i = byteOff (doc.take i ++ new ++ doc.drop j) i := by
        simp only [byteOff, hnew]
      rw [hoff, mem_byteLines_iff _ _ (by simp; omega), mem_lineStarts] at hmem
      rcases hmem.2 with h | ⟨_, h | ⟨_, h⟩⟩
      · omega
      · rw [List.append_assoc, List.getElem?_append_left (by omega)] at h
        have := h1.1
        rw [List.getLast?_eq_getElem?, hPl] at this
        rw [this] at h; simp at h
      · apply h
        rw [List.append_assoc, List.getElem?_append_right (by omega), hPl, Nat.sub_self, ← List.head?_eq_getElem?]
        exact h1.2
    · have h2 : new.getLast? = some '\r' ∧ (doc.drop j).head? = some '\n' := by
        unfold Edit.NoSeam at hn
        by_cases h2 : new.getLast? = some '\r' ∧ (doc.drop j).head? = some '\n'
        · exact h2
        · exact absurd ⟨h1, h2⟩ hn
      have hpos : 0 < new.length := by
        rcases Nat.eq_zero_or_pos new.length with h0 | h'
        · rw [List.length_eq_zero_iff] at h0; subst h0; simp at h2
        · exact h'
      have hstart : new.length ∈ (docLines new).tail := by
        have : new.length ∈ docLines new := by
          rw [mem_lineStarts]
          refine ⟨Nat.le_refl _, Or.inr ⟨Nat.le_refl _, Or.inr ⟨?_, by simp⟩⟩⟩
          rw [← List.getLast?_eq_getElem?]; exact h2.1
        unfold docLines at this ⊢
        rw [lineStarts_tail] at this ⊢
        rcases List.mem_cons.mp this with h | h
        · omega
        · exact h
      have hmem : byteOff new new.length + byteOff doc i ∈ byteLines (utf8 (doc.take i ++ new ++ doc.drop j)) := by
        rw [← heq]
        simp only [List.mem_append, List.mem_map, List.mem_filter, findNewlines_utf8]
        left; right
        exact ⟨_, ⟨_, hstart, rfl⟩, rfl⟩
      have hoff : byteOff new new.length + byteOff doc i = byteOff (doc.take i ++ new ++ doc.drop j) (i + new.length) := by
        simp only [byteOff, hnew2, utf8_append]; simp; omega
      rw [hoff, mem_byteLines_iff _ _ (by simp; omega), mem_lineStarts] at hmem
      have hl2 : (doc.take i ++ new).length = i + new.length := by simp; omega
      rcases hmem.2 with h | ⟨_, h | ⟨_, h⟩⟩
      · omega
      · rw [List.getElem?_append_left (by omega), List.getElem?_append_right (by omega), hPl,
          show i + new.length - 1 - i = new.length - 1 by omega, ← List.getLast?_eq_getElem?, h2.1] at h
        simp at h
      · apply h
        rw [List.getElem?_append_right (by omega), hl2, Nat.sub_self, ← List.head?_eq_getElem?]
        exact h2.2

/-- Every offset that is not inside a CRLF pair is denoted by a position. -/
theorem exists_posAt (doc : List Char) (k : Nat) (hk : k ≤ doc.length)
    (hc : ¬ ((doc.take k).getLast? = some '\r' ∧ (doc.drop k).head? = some '\n')) : ∃ p, PosAt doc p k := by
  let L := (docLines doc).filter (fun x => decide (x ≤ k))
  have h0 : 0 ∈ docLines doc := (mem_lineStarts _ _ _ _).mpr ⟨by omega, Or.inl rfl⟩
  have hL0 : 0 ∈ L := List.mem_filter.mpr ⟨h0, by simp⟩
  -- greatest start
  have hmax : ∃ s ∈ L, ∀ x ∈ L, x ≤ s := by
    have : ∀ (M : List Nat), M ≠ [] → ∃ s ∈ M, ∀ x ∈ M, x ≤ s := by
      intro M
      induction M with
      | nil => intro h; exact absurd rfl h
      | cons a M ih =>
        intro _
        by_cases hM : M = []
        · subst hM; exact ⟨a, by simp, by simp⟩
        · obtain ⟨s, hs, hx⟩ := ih hM
          rcases Nat.le_total a s with h | h
          · exact ⟨s, by simp [hs], by intro x hx'; rcases List.mem_cons.mp hx' with rfl | h'; exact h; exact hx _ h'⟩
          · exact ⟨a, by simp, by
              intro x hx'; rcases List.mem_cons.mp hx' with rfl | h'
              · exact Nat.le_refl _
              · exact Nat.le_trans (hx _ h') h⟩
    exact this L (List.ne_nil_of_mem hL0)
  obtain ⟨s, hs, hsmax⟩ := hmax
  have hsd := (List.mem_filter.mp hs).1
  have hsk : s ≤ k := by have := (List.mem_filter.mp hs).2; simpa using this
  obtain ⟨n, hn⟩ := List.mem_iff_getElem?.mp hsd
  have hnone : ∀ x, s < x → x ≤ k → ¬ IsLineStart '\n' '\r' doc x := by
    intro x h1 h2 h3
    have := hsmax x (List.mem_filter.mpr ⟨(mem_lineStarts _ _ _ _).mpr ⟨by omega, h3⟩, by simp [h2]⟩)
    omega
  refine ⟨⟨n, utf16Len ((doc.take k).drop s)⟩, hk, s, hn, hsk, ?_, rfl⟩
  intro c hcm
  obtain ⟨m, hm⟩ := List.mem_iff_getElem?.mp hcm
  rw [List.getElem?_drop] at hm
  have hmk : s + m < k := by
    rcases Nat.lt_or_ge (s + m) k with h | h
    · exact h
    · rw [List.getElem?_take_eq_none (by omega)] at hm; simp at hm
  rw [List.getElem?_take_of_lt hmk] at hm
  constructor
  · rintro rfl
    exact hnone (s + m + 1) (by omega) (by omega) (Or.inr ⟨by omega, Or.inl hm⟩)
  · rintro rfl
    by_cases hnext : doc[s + m + 1]? = some '\n'
    · rcases Nat.lt_or_ge (s + m + 1) k with h | h
      · exact hnone (s + m + 2) (by omega) (by omega) (Or.inr ⟨by omega, Or.inl hnext⟩)
      · have : k = s + m + 1 := by omega
        subst this
        exact hc ⟨by rw [getLast?_take_of_le _ _ hk (by omega)]; exact hm, by rw [List.head?_drop]; exact hnext⟩
    · exact hnone (s + m + 1) (by omega) (by omega) (Or.inr ⟨by omega, Or.inr ⟨hm, hnext⟩⟩)

/-! ### Sanitisation -/

/-- Well-formed byte groups, by numeric ranges of the bytes (the server's own, lenient, notion of UTF-8: overlong
forms and surrogates are not excluded). -/
inductive Group : Bytes → Prop
  | one (a : UInt8) : a.toNat < 0x80 → Group [a]
  | two (a b : UInt8) : 0xC0 ≤ a.toNat → a.toNat < 0xE0 → 0x80 ≤ b.toNat → b.toNat < 0xC0 → Group [a, b]
  | three (a b c : UInt8) : 0xE0 ≤ a.toNat → a.toNat < 0xF0 → 0x80 ≤ b.toNat → b.toNat < 0xC0 →
      0x80 ≤ c.toNat → c.toNat < 0xC0 → Group [a, b, c]
  | four (a b c d : UInt8) : 0xF0 ≤ a.toNat → a.toNat < 0xF8 → 0x80 ≤ b.toNat → b.toNat < 0xC0 →
      0x80 ≤ c.toNat → c.toNat < 0xC0 → 0x80 ≤ d.toNat → d.toNat < 0xC0 → Group [a, b, c, d]

/-- A byte string is lenient UTF-8 when it is a concatenation of groups. -/
inductive Lenient : Bytes → Prop
  | nil : Lenient []
  | app {g t} : Group g → Lenient t → Lenient (g ++ t)

theorem cont_iff : ∀ b : UInt8, continueByte b = true ↔ 0x80 ≤ b.toNat ∧ b.toNat < 0xC0 :=
  forall_byte _ (by decide)
theorem lead_one : ∀ b : UInt8, leadLen b = some 1 ↔ b.toNat < 0x80 := forall_byte _ (by decide)
theorem lead_two : ∀ b : UInt8, leadLen b = some 2 ↔ 0xC0 ≤ b.toNat ∧ b.toNat < 0xE0 := forall_byte _ (by decide)
theorem lead_three : ∀ b : UInt8, leadLen b = some 3 ↔ 0xE0 ≤ b.toNat ∧ b.toNat < 0xF0 := forall_byte _ (by decide)
theorem lead_four : ∀ b : UInt8, leadLen b = some 4 ↔ 0xF0 ≤ b.toNat ∧ b.toNat < 0xF8 := forall_byte _ (by decide)
theorem lead_cases : ∀ b : UInt8, leadLen b = none ∨ leadLen b = some 1 ∨ leadLen b = some 2 ∨ leadLen b = some 3 ∨
    leadLen b = some 4 := forall_byte _ (by decide)
theorem lead_width : ∀ b : UInt8, ∀ n, n ≤ 4 → leadLen b = some n → ∃ u, u ≤ 2 ∧ charWidth b = some (n, u) :=
  forall_byte _ (by decide)

theorem group_okLen {g : Bytes} (hg : Group g) (t : Bytes) : okLen (g ++ t) = some g.length := by
  cases hg with
  | one a h => simp [okLen, (lead_one a).mpr h]
  | two a b h1 h2 h3 h4 => simp [okLen, (lead_two a).mpr ⟨h1, h2⟩, (cont_iff b).mpr ⟨h3, h4⟩]
  | three a b c h1 h2 h3 h4 h5 h6 =>
    simp [okLen, (lead_three a).mpr ⟨h1, h2⟩, (cont_iff b).mpr ⟨h3, h4⟩, (cont_iff c).mpr ⟨h5, h6⟩]
  | four a b c d h1 h2 h3 h4 h5 h6 h7 h8 =>
    simp [okLen, (lead_four a).mpr ⟨h1, h2⟩, (cont_iff b).mpr ⟨h3, h4⟩, (cont_iff c).mpr ⟨h5, h6⟩,
      (cont_iff d).mpr ⟨h7, h8⟩]

theorem okLen_group {l : Bytes} {n : Nat} (h : okLen l = some n) : Group (l.take n) := by
  unfold okLen at h
  split at h
  · simp at h
  · next a t =>
    split at h
    · simp at h
    · next m hm =>
      split at h
      · next hc =>
        simp only [Option.some.injEq] at h; subst h
        obtain ⟨hlen, hall⟩ := hc
        rcases lead_cases a with h | h | h | h | h <;> rw [h] at hm <;> simp at hm <;> subst hm
        · simpa using Group.one a ((lead_one a).mp h)
        · match t, hlen, hall with
          | b :: t, _, hall =>
            simp [cont_iff] at hall
            simpa using Group.two a b ((lead_two a).mp h).1 ((lead_two a).mp h).2 hall.1 hall.2
        · match t, hlen, hall with
          | [b], hlen, _ => simp at hlen
          | b :: c :: t, _, hall =>
            simp [cont_iff] at hall
            simpa using Group.three a b c ((lead_three a).mp h).1 ((lead_three a).mp h).2 hall.1.1 hall.1.2 hall.2.1 hall.2.2
        · match t, hlen, hall with
          | [b], hlen, _ => simp at hlen
          | [b, c], hlen, _ => simp at hlen
          | b :: c :: d :: t, _, hall =>
            simp [cont_iff] at hall
            simpa using Group.four a b c d ((lead_four a).mp h).1 ((lead_four a).mp h).2 hall.1.1 hall.1.2 hall.2.1.1 hall.2.1.2
              hall.2.2.1 hall.2.2.2
      · simp at h

theorem lenient_sanitise (t : Bytes) : Lenient (sanitise t) := by
  fun_induction sanitise t with
  | case1 => exact .nil
  | case2 ch t n h ih => exact .app (okLen_group h) ih
  | case3 ch t h ih => exact .app (.three _ _ _ (by decide) (by decide) (by decide) (by decide) (by decide) (by decide)) ih

theorem sanitise_group {g : Bytes} (hg : Group g) (t : Bytes) : sanitise (g ++ t) = g ++ sanitise t := by
  have hk := group_okLen hg t
  obtain ⟨a, as, rfl⟩ : ∃ a as, g = a :: as := by cases hg <;> exact ⟨_, _, rfl⟩
  rw [List.cons_append] at hk ⊢
  rw [sanitise]
  split
  · next n h => rw [h] at hk; simp at hk; subst hk; simp
  · next h => rw [h] at hk; simp at hk

theorem sanitise_lenient {t : Bytes} (h : Lenient t) : sanitise t = t := by
  induction h with
  | nil => rw [sanitise]
  | app hg _ ih => rw [sanitise_group hg, ih]

theorem group_encode (c : Char) : Group (String.utf8EncodeChar c) := by
  rcases encode_cases c with ⟨h, e⟩ | ⟨h1, h2, a, b, e, _⟩ | ⟨h1, h2, a, b, d, e, _⟩ | ⟨h1, a, b, d, f, e, _⟩ <;> rw [e]
  · exact .one _ (by simp [UInt8.toNat_ofNat']; omega)
  · exact .two _ _ (by omega) (by omega) (by omega) (by omega)
  · exact .three _ _ _ (by omega) (by omega) (by omega) (by omega) (by omega) (by omega)
  · exact .four _ _ _ _ (by omega) (by omega) (by omega) (by omega) (by omega) (by omega) (by omega) (by omega)

theorem lenient_utf8 (doc : List Char) : Lenient (utf8 doc) := by
  induction doc with
  | nil => exact .nil
  | cons c cs ih => rw [utf8_cons]; exact .app (group_encode c) ih

end Verif.TextSync
