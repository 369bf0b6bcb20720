import Verif.TextSync.Extra
/-!
Property theorems of the text synchronisation (C01–C04). Specification: `Verif/TextSync/Spec.lean`.
-/
namespace Verif.TextSync

/-! ### C01 – the line table follows edits -/

/-- A line table computed from scratch is exactly the list of line starts of the text. -/
theorem C01_fresh_index (t : Bytes) : createLineIndices t = byteLines t := createLineIndices_eq t

/-- Full claim, on every history in which no edit creates a CRLF pair across its boundary (`SafeHistory`):
after opening and any number of changes, the table equals the line starts of the current text.
Missing from the full claim: edits that join a CR and an LF (for those see `C01_negation`). -/
theorem C01_incremental_index_partial (f : File) (doc doc' : List Char) (v : Nat) (cs : List Change)
    (h : SafeHistory doc cs doc') :
    ∃ f', (f.didOpen (utf8 doc) v).changes cs = some f' ∧ f'.lines = byteLines f'.text := by
  obtain ⟨f', h1, h2, _⟩ := inSync_history h (inSync_open f doc v)
  exact ⟨f', h1, by rw [h2.1]; exact h2.2⟩

/-- The restriction in `C01_incremental_index_partial` is exact: whenever a single edit of a synchronised document
violates it, the resulting table is wrong. -/
theorem C01_negation (f : File) (doc : List Char) (v : Nat) (e : Edit) (c : Change)
    (hd : Describes doc e c) (hn : ¬ e.NoSeam doc) :
    ∃ f', (f.didOpen (utf8 doc) v).change c = some f' ∧ f'.text = utf8 (e.apply doc) ∧ f'.lines ≠ byteLines f'.text :=
  outOfSync_step (inSync_open f doc v) hd hn

/-- Concrete violation: in `a CR b` insert LF at (1,0). -/
theorem C01_witness :
    (({} : File).didOpen [97, 13, 98] 1).change (.range ⟨⟨1, 0⟩, ⟨1, 0⟩⟩ [10]) =
      some { text := [97, 13, 10, 98], lines := [0, 2, 3], upToDate := true, editing := true, bad := false, version := 2 }
    ∧ byteLines [97, 13, 10, 98] = [0, 3] := by
  decide +kernel

/-- A range whose end line is one past the last line (a common way to say "to the end", clamped by the LSP) empties the
line table altogether: replace (0,0)-(1,0) of the one-line document `a` by `b`. -/
theorem C01_witness_end_line :
    ((({} : File).didOpen [97] 1).change (.range ⟨⟨0, 0⟩, ⟨1, 0⟩⟩ [98])).map (·.lines) = some [] := by
  decide +kernel

/-! ### C02 – positions -/

/-- A position that denotes character `k` of the document is mapped to the byte at which character `k` starts. -/
theorem C02_position_exact (doc : List Char) (p : Pos) (k : Nat) (h : PosAt doc p k) :
    indexFromPosition (utf8 doc) (createLineIndices (utf8 doc)) p = some (utf8 (doc.take k)).length := by
  rw [createLineIndices_eq]; exact posAt_index h

/-- Every position whatsoever is mapped, without failure, to a character boundary of the document. -/
theorem C02_position_total (doc : List Char) (p : Pos) :
    ∃ k ≤ doc.length, indexFromPosition (utf8 doc) (createLineIndices (utf8 doc)) p = some (utf8 (doc.take k)).length := by
  rw [createLineIndices_eq]
  unfold indexFromPosition
  cases hl : (byteLines (utf8 doc))[p.line]? with
  | none => exact ⟨doc.length, Nat.le_refl _, by simp⟩
  | some i =>
    rw [byteLines_utf8, List.getElem?_map] at hl
    cases hs : (docLines doc)[p.line]? with
    | none => rw [hs] at hl; simp at hl
    | some s =>
      rw [hs] at hl; simp at hl; subst hl
      have hsl : s ≤ doc.length := ((mem_lineStarts _ _ _ _).mp (List.mem_of_getElem? hs)).1
      obtain ⟨k, hk⟩ := walk_total (doc.drop s) p.column 0 (byteOff doc s)
      refine ⟨min (s + k) doc.length, Nat.min_le_right _ _, ?_⟩
      simp only
      rw [utf8_drop, hk]
      have e2 : (doc.take (s + k)).drop s = (doc.drop s).take k := by rw [List.drop_take]; congr 1; omega
      have e1 : byteOff doc (s + k) = byteOff doc s + (utf8 ((doc.drop s).take k)).length := by
        rw [byteOff_split doc (Nat.le_add_right s k), e2]
      have e3 : doc.take (min (s+k) doc.length) = doc.take (s+k) := by
        rcases Nat.le_total (s+k) doc.length with h | h
        · rw [Nat.min_eq_left h]
        · rw [Nat.min_eq_right h, List.take_of_length_le (Nat.le_refl _), List.take_of_length_le h]
      rw [e3]
      show _ = some (byteOff doc (s+k))
      rw [e1]

/-- Every character boundary that is not inside a CRLF pair is denoted by some position, so `C02_position_exact` covers
the whole document. -/
theorem C02_positions_cover (doc : List Char) (k : Nat) (hk : k ≤ doc.length)
    (hc : ¬ ((doc.take k).getLast? = some '\r' ∧ (doc.drop k).head? = some '\n')) : ∃ p, PosAt doc p k :=
  exists_posAt doc k hk hc

/-- Not clamped: a column beyond the end of its line (which the LSP says defaults to the line length) runs into the next
line. Document `a LF bc`, position (0,3): the code answers offset 3, inside the second line; the line has length 1. -/
theorem C02_no_clamp_witness :
    indexFromPosition [97, 10, 98, 99] (createLineIndices [97, 10, 98, 99]) ⟨0, 3⟩ = some 3 := by
  decide +kernel

/-! ### C03 – text follows the editor -/

/-- After opening and any history of changes that creates no CRLF pair across an edit boundary, the server's text is the
UTF-8 encoding of the editor's buffer, and no change fails. The full claim drops the restriction and is false, see
`C03_witness`. -/
theorem C03_text_partial (f : File) (doc doc' : List Char) (v : Nat) (cs : List Change) (h : SafeHistory doc cs doc') :
    ∃ f', (f.didOpen (utf8 doc) v).changes cs = some f' ∧ f'.text = utf8 doc' ∧ f'.version = v + cs.length := by
  obtain ⟨f', h1, h2, h3⟩ := inSync_history h (inSync_open f doc v)
  exact ⟨f', h1, h2.1, h3⟩

/-- The first edit of any kind is always applied to the text correctly (only the line table may go wrong). -/
theorem C03_single_edit (f : File) (doc : List Char) (v : Nat) (e : Edit) (c : Change) (hd : Describes doc e c) :
    ∃ f', (f.didOpen (utf8 doc) v).change c = some f' ∧ f'.text = utf8 (e.apply doc) := by
  by_cases hn : e.NoSeam doc
  · obtain ⟨f', h1, h2, _⟩ := inSync_step (inSync_open f doc v) hd hn
    exact ⟨f', h1, h2.1⟩
  · obtain ⟨f', h1, h2, _⟩ := outOfSync_step (inSync_open f doc v) hd hn
    exact ⟨f', h1, h2⟩

theorem posAt_intro {doc : List Char} {p : Pos} {k : Nat} (s : Nat) (h1 : k ≤ doc.length)
    (h2 : (docLines doc)[p.line]? = some s) (h3 : s ≤ k)
    (h4 : ∀ c ∈ (doc.take k).drop s, c ≠ '\n' ∧ c ≠ '\r') (h5 : utf16Len ((doc.take k).drop s) = p.column) : PosAt doc p k :=
  ⟨h1, s, h2, h3, h4, h5⟩

/-- Concrete violation: open `a CR b`; type LF at (1,0) (the buffer is now `a CR LF b`); type `X` at (1,0), i.e. in front
of `b`. The editor has `a CR LF X b`, the server `a CR X LF b`. -/
theorem C03_witness :
    History ['a', '\r', 'b'] [.range ⟨⟨1, 0⟩, ⟨1, 0⟩⟩ [10], .range ⟨⟨1, 0⟩, ⟨1, 0⟩⟩ [88]] ['a', '\r', '\n', 'X', 'b'] ∧
    ((({} : File).didOpen (utf8 ['a', '\r', 'b']) 1).changes
      [.range ⟨⟨1, 0⟩, ⟨1, 0⟩⟩ [10], .range ⟨⟨1, 0⟩, ⟨1, 0⟩⟩ [88]]).map (·.text) = some [97, 13, 88, 10, 98] ∧
    utf8 ['a', '\r', '\n', 'X', 'b'] = [97, 13, 10, 88, 98] := by
  refine ⟨?_, by decide +kernel, by decide⟩
  refine .cons (.replace 2 2 ['\n'] _ (Nat.le_refl _) ?_ ?_) (.cons (.replace 3 3 ['X'] _ (Nat.le_refl _) ?_ ?_) (.nil _))
  · exact posAt_intro 2 (by decide) (by decide) (by decide) (by decide) (by decide)
  · exact posAt_intro 2 (by decide) (by decide) (by decide) (by decide) (by decide)
  · exact posAt_intro 3 (by decide) (by decide) (by decide) (by decide) (by decide)
  · exact posAt_intro 3 (by decide) (by decide) (by decide) (by decide) (by decide)

/-- Non-vacuity of C01/C03: a two-edit history on a document with CRLF, an astral character and a lone CR. -/
example : SafeHistory ['a', '\r', '\n', '😀', 'b', '\r', 'c']
    [.range ⟨⟨1, 2⟩, ⟨2, 1⟩⟩ (utf8 ['x', '\n', 'y']), .whole (utf8 ['z'])] ['z'] := by
  refine .cons (e := .replace 4 7 ['x', '\n', 'y']) (.replace 4 7 _ _ (by decide) ?_ ?_) ?_
    (.cons (.whole _) trivial (.nil _))
  · exact posAt_intro 3 (by decide) (by decide) (by decide) (by decide) (by decide)
  · exact posAt_intro 6 (by decide) (by decide) (by decide) (by decide) (by decide)
  · exact ⟨by decide, by decide⟩

/-! ### C04 – sanitisation of files read from disk -/

/-- The result is always well-formed for the server's decoder: a concatenation of well-formed groups. -/
theorem C04_wellformed (t : Bytes) : Lenient (sanitise t) := lenient_sanitise t

/-- Text that is well-formed is unchanged. -/
theorem C04_identity (t : Bytes) (h : Lenient t) : sanitise t = t := sanitise_lenient h

/-- In particular every correctly encoded file is unchanged. -/
theorem C04_utf8_unchanged (doc : List Char) : sanitise (utf8 doc) = utf8 doc := sanitise_lenient (lenient_utf8 doc)

/-- Sanitising twice is sanitising once. -/
theorem C04_idempotent (t : Bytes) : sanitise (sanitise t) = sanitise t := sanitise_lenient (lenient_sanitise t)

/-- Only malformed parts are touched: a well-formed prefix is copied, whatever follows. -/
theorem C04_prefix_kept (g t : Bytes) (hg : Lenient g) : sanitise (g ++ t) = g ++ sanitise t := by
  induction hg with
  | nil => rfl
  | app h _ ih => rw [List.append_assoc, sanitise_group h, ih, List.append_assoc]

/-- What sanitising means: read from the left, a group of the right shape is copied; a byte at which no such group starts
becomes U+FFFD, and only that byte is consumed. -/
inductive Sanitised : Bytes → Bytes → Prop
  | nil : Sanitised [] []
  | good {g t r : Bytes} : Group g → Sanitised t r → Sanitised (g ++ t) (g ++ r)
  | bad {a : UInt8} {t r : Bytes} : (∀ g, Group g → ¬ g <+: a :: t) → Sanitised t r →
      Sanitised (a :: t) ([0xEF, 0xBF, 0xBD] ++ r)

/-- C04, exactly: every malformed byte is replaced by one replacement character and everything else is kept, nothing is
dropped. -/
theorem C04_exact (t r : Bytes) : sanitise t = r ↔ Sanitised t r := by
  constructor
  · intro h
    subst h
    induction hn : t.length using Nat.strongRecOn generalizing t with
    | ind n ih =>
      subst hn
      unfold sanitise
      split
      · exact .nil
      · next ch t =>
        split
        · next n hok =>
          have hg := okLen_group hok
          have hp := okLen_pos hok
          have hrec := ih ((ch :: t).drop n).length (by simp only [List.length_drop, List.length_cons]; omega) _ rfl
          have := Sanitised.good hg hrec
          rwa [List.take_append_drop] at this
        · next hok =>
          refine Sanitised.bad ?_ (ih t.length (by simp) t rfl)
          rintro g hg ⟨u, hu⟩
          rw [← hu, group_okLen hg] at hok
          simp at hok
  · intro h
    induction h with
    | nil => simp [sanitise]
    | good hg _ ih => rw [sanitise_group hg, ih]
    | bad hno _ ih =>
      rw [sanitise]
      split
      · next n hok =>
        exact absurd (List.take_prefix n _) (hno _ (okLen_group hok))
      · rw [ih]; rfl

example : sanitise [65, 0xE2, 0x82, 66] = [65, 0xEF, 0xBF, 0xBD, 0xEF, 0xBF, 0xBD, 66] := by decide +kernel

/-- The notion is lenient: overlong encodings and surrogates are let through, so the result need not be UTF-8 in the
sense of the Unicode standard (`C0 80` is not the encoding of any text). -/
theorem C04_overlong_witness : sanitise [0xC0, 0x80] = [0xC0, 0x80] := by decide +kernel

theorem C04_overlong_not_utf8 (doc : List Char) : utf8 doc ≠ [0xC0, 0x80] := by
  intro h
  cases doc with
  | nil => simp [utf8] at h
  | cons c cs =>
    rw [utf8_cons] at h
    have hv : c.val.toNat = c.toNat := rfl
    unfold String.utf8EncodeChar at h
    simp only [hv] at h
    by_cases h1 : c.toNat ≤ 127
    · simp [h1] at h
      have := congrArg UInt8.toNat h.1
      simp at this; omega
    · by_cases h2 : c.toNat ≤ 2047
      · simp [h1, h2] at h
        have := congrArg UInt8.toNat h.1
        have := congrArg UInt8.toNat h.2.1
        simp at *; omega
      · by_cases h3 : c.toNat ≤ 65535
        · simp [h1, h2, h3] at h
        · simp [h1, h2, h3] at h

/-- Non-vacuity: a stray continuation byte and a truncated character are replaced, the rest stays. -/
example : sanitise [97, 0x80, 0xC3, 0xA9, 0xE2, 0x82] =
    [97] ++ replacement ++ [0xC3, 0xA9] ++ replacement ++ replacement := by decide +kernel

end Verif.TextSync
