import Verif.LspCtx.DocProps
import Verif.LspCtx.OccProps
import Mathlib.Data.List.Nodup
/-!
C105: what completion offers.
-/
namespace Verif.LspCtx

open TextSync (PosAt utf8 docLines)

/-- Specification: the text left of the cursor consists of the name field, which may be empty, blanks, and the beginning of the
instruction, which may be empty too. -/
structure AtInstruction (line name gap op : Bytes) : Prop where
  parts : line = name ++ gap ++ op
  name : ∀ c ∈ name, ¬ Blank c
  gap : gap ≠ [] ∧ ∀ c ∈ gap, Blank c
  op : ∀ c ∈ op, ¬ Blank c

theorem solid_star (s : Bytes) : (Re.star Re.solid).Matches s ↔ ∀ c ∈ s, isSpace c = false := by
  rw [Re.solid, star_cls_iff]; simp

theorem solid_plus (s : Bytes) : (Re.plus Re.solid).Matches s ↔ s ≠ [] ∧ ∀ c ∈ s, isSpace c = false := by
  rw [Re.solid, plus_cls_iff]; simp

theorem space_plus (s : Bytes) : (Re.plus Re.space).Matches s ↔ s ≠ [] ∧ ∀ c ∈ s, isSpace c = true := by
  rw [Re.space, plus_cls_iff]

theorem noStar_iff (s : Bytes) : Re.noStar.Matches s ↔ ∃ c, s = [c] ∧ c ≠ 42 := by
  rw [Re.noStar, cls_iff]; simp

/-- The texts instructions are suggested for. -/
theorem regex_iff (s : Bytes) : instructionRegex.test s = true ↔
    (∃ a b w gap op, s = a :: b :: (w ++ gap ++ op) ∧ a ≠ 42 ∧ b ≠ 42 ∧ (∀ c ∈ w, isSpace c = false) ∧
      (gap ≠ [] ∧ ∀ c ∈ gap, isSpace c = true) ∧ op ≠ [] ∧ ∀ c ∈ op, isSpace c = false) ∨
    ∃ gap op, s = gap ++ op ∧ (gap ≠ [] ∧ ∀ c ∈ gap, isSpace c = true) ∧ ∀ c ∈ op, isSpace c = false := by
  rw [test_iff, instructionRegex, alt_iff, seq_iff, seq_iff]
  simp only [seq_iff, solid_star, solid_plus, space_plus, noStar_iff]
  constructor
  · rintro (⟨x, y, rfl, ⟨a, rfl, ha⟩, x, y, rfl, ⟨b, rfl, hb⟩, w, y, rfl, hw, gap, op, rfl, hg, ho⟩ | ⟨gap, op, rfl, hg, ho⟩)
    · exact .inl ⟨a, b, w, gap, op, by simp, ha, hb, hw, hg, ho⟩
    · exact .inr ⟨gap, op, rfl, hg, ho⟩
  · rintro (⟨a, b, w, gap, op, rfl, ha, hb, hw, hg, ho⟩ | ⟨gap, op, rfl, hg, ho⟩)
    · exact .inl ⟨[a], _, rfl, ⟨a, rfl, ha⟩, [b], _, rfl, ⟨b, rfl, hb⟩, w, gap ++ op, by simp, hw, gap, op, rfl, hg, ho⟩
    · exact .inr ⟨gap, op, rfl, hg, ho⟩

/-- The text before the first blank, the blanks, and the rest are determined by the text. -/
theorem span_unique {p : UInt8 → Bool} {a b x y : List UInt8} (ha : ∀ c ∈ a, p c = true) (hb : ∀ c ∈ b, p c = true)
    (hx : ∀ c ∈ x.head?, p c = false) (hy : ∀ c ∈ y.head?, p c = false) (h : a ++ x = b ++ y) : a = b ∧ x = y := by
  induction a generalizing b with
  | nil =>
    cases b with
    | nil => exact ⟨rfl, h⟩
    | cons d b =>
      rw [List.nil_append] at h
      have := hx d (by rw [h]; simp)
      rw [hb d (by simp)] at this
      cases this
  | cons c a ih =>
    cases b with
    | nil =>
      rw [List.nil_append] at h
      have := hy c (by rw [← h]; simp)
      rw [ha c (by simp)] at this
      cases this
    | cons d b =>
      simp only [List.cons_append, List.cons.injEq] at h
      obtain ⟨rfl, h⟩ := h
      obtain ⟨rfl, rfl⟩ := ih (fun c hc => ha c (by simp [hc])) (fun c hc => hb c (by simp [hc])) h
      exact ⟨rfl, rfl⟩

theorem head_gap {gap op : Bytes} (hg : gap ≠ [] ∧ ∀ c ∈ gap, isSpace c = true) : ∀ c ∈ (gap ++ op).head?, isSpace c = true := by
  cases gap with
  | nil => exact absurd rfl hg.1
  | cons g gs => intro c hc; simp at hc; subst hc; exact hg.2 _ (by simp)

theorem head_solid {op : Bytes} (ho : ∀ c ∈ op, isSpace c = false) : ∀ c ∈ op.head?, isSpace c = false :=
  fun c hc => ho c (List.mem_of_mem_head? hc)

/-- Three fields in two ways are the same. -/
theorem fields_unique {n g o n' g' o' : Bytes} (hn : ∀ c ∈ n, isSpace c = false) (hg : g ≠ [] ∧ ∀ c ∈ g, isSpace c = true)
    (ho : ∀ c ∈ o, isSpace c = false) (hn' : ∀ c ∈ n', isSpace c = false) (hg' : g' ≠ [] ∧ ∀ c ∈ g', isSpace c = true)
    (ho' : ∀ c ∈ o', isSpace c = false) (h : n ++ g ++ o = n' ++ g' ++ o') : n = n' ∧ g = g' ∧ o = o' := by
  rw [List.append_assoc, List.append_assoc] at h
  obtain ⟨e1, e2⟩ := span_unique (p := fun c => !isSpace c) (fun c hc => by simp [hn c hc]) (fun c hc => by simp [hn' c hc])
    (fun c hc => by simp [head_gap hg c hc]) (fun c hc => by simp [head_gap hg' c hc]) h
  obtain ⟨e3, e4⟩ := span_unique hg.2 hg'.2 (head_solid ho) (head_solid ho') e2
  exact ⟨e1, e3, e4⟩

/-- **C105 (instructions), partial.** With the cursor in the instruction field of a line that is not a comment, instructions are
offered if there is no name; if there is one, only if the instruction has been begun, the name has two characters or is followed by
two blanks, and its second character is not an asterisk (which no name has). -/
theorem C105_instruction_partial {line name gap op : Bytes} (h : AtInstruction line name gap op) (hc : ¬ Remark line) :
    instructionRegex.test line = true ↔
      name = [] ∨ (op ≠ [] ∧ ((2 ≤ name.length ∧ name[1]? ≠ some 42) ∨ (name.length = 1 ∧ 2 ≤ gap.length))) := by
  obtain ⟨rfl, hn, hg, ho⟩ := h
  simp only [← isSpace_false] at hn ho
  simp only [← isSpace_iff] at hg
  rw [← isComment_false] at hc
  rw [regex_iff]
  constructor
  · rintro (⟨a, b, w, gap', op', e, ha, hb, hw, hg', ho', hs'⟩ | ⟨gap', op', e, hg', ho'⟩)
    · by_cases hsa : isSpace a = true
      · left
        cases name with
        | nil => rfl
        | cons c n =>
          simp only [List.cons_append, List.cons.injEq] at e
          rw [← e.1, hn c (by simp)] at hsa
          cases hsa
      rw [Bool.not_eq_true] at hsa
      right
      by_cases hsb : isSpace b = true
      · -- the second character is a blank: what follows cannot be a word
        have h1 : ∃ g, gap = b :: g ∧ name = [a] ∧ g ++ op = w ++ gap' ++ op' := by
          cases name with
          | nil =>
            exfalso
            have := head_gap (op := op) hg a (by rw [List.nil_append] at e; rw [e]; simp)
            rw [hsa] at this; cases this
          | cons c n =>
            simp only [List.cons_append, List.cons.injEq] at e
            obtain ⟨rfl, e⟩ := e
            cases n with
            | cons d n =>
              simp only [List.cons_append, List.cons.injEq] at e
              rw [← e.1, hn d (by simp)] at hsb
              cases hsb
            | nil =>
              cases gap with
              | nil => exact absurd rfl hg.1
              | cons g gs =>
                simp only [List.nil_append, List.cons_append, List.cons.injEq] at e
                exact ⟨gs, by rw [e.1], rfl, e.2⟩
        obtain ⟨g, rfl, rfl, e2⟩ := h1
        have hgs : ∀ c ∈ g, isSpace c = true := fun c hc => hg.2 c (by simp [hc])
        cases g with
        | nil =>
          exfalso
          rw [List.nil_append] at e2
          obtain ⟨x, xs, rfl⟩ := List.exists_cons_of_ne_nil hg'.1
          have := ho x (by rw [e2]; simp)
          rw [hg'.2 x (by simp)] at this
          cases this
        | cons x xs =>
          have hw0 : w = [] := by
            cases w with
            | nil => rfl
            | cons y ys =>
              simp only [List.cons_append, List.cons.injEq] at e2
              have := hw y (by simp)
              rw [← e2.1, hgs x (by simp)] at this
              cases this
          subst hw0
          have := fields_unique (n := []) (n' := []) (by simp) ⟨by simp, hgs⟩ ho (by simp) hg' hs' (by simpa using e2)
          exact ⟨this.2.2 ▸ ho', .inr ⟨rfl, by simp⟩⟩
      · rw [Bool.not_eq_true] at hsb
        have := fields_unique (n' := a :: b :: w) hn hg ho (by
          intro c hc
          simp only [List.mem_cons] at hc
          rcases hc with rfl | rfl | hc
          · exact hsa
          · exact hsb
          · exact hw c hc) hg' hs' (by simpa using e)
        obtain ⟨rfl, rfl, rfl⟩ := this
        exact ⟨ho', .inl ⟨by simp, by simpa using hb⟩⟩
    · left
      exact (fields_unique (n' := []) hn hg ho (by simp) hg' ho' (by simpa using e)).1
  · rintro (rfl | ⟨hne, ⟨hl, hb⟩ | ⟨hl, hgl⟩⟩)
    · exact .inr ⟨gap, op, by simp, hg, ho⟩
    · match name, hl with
      | a :: b :: w, _ =>
        refine .inl ⟨a, b, w, gap, op, by simp, ?_, by simpa using hb, fun c hc => hn c (by simp [hc]), hg, hne, ho⟩
        rintro rfl
        simp [isComment] at hc
    · match name, hl, gap, hgl with
      | [a], _, b :: g :: gs, _ =>
        refine .inl ⟨a, b, [], g :: gs, op, by simp, ?_, ?_, by simp, ⟨by simp, fun c hc => hg.2 c (by simp at hc ⊢; tauto)⟩, hne, ho⟩
        · rintro rfl
          simp [isComment] at hc
        · rintro rfl
          have := hg.2 42 (by simp)
          revert this
          decide

/-- **C105 (comments).** Nothing is offered in a comment. -/
theorem C105_comment {line : Bytes} (h : Remark line) : instructionRegex.test line = false := by
  rw [← isComment_iff] at h
  rw [← Bool.not_eq_true, regex_iff]
  rintro (⟨a, b, w, gap, op, rfl, ha, hb, -⟩ | ⟨gap, op, rfl, hg, -⟩)
  · simp [isComment, ha, hb] at h
  · have hh := head_gap (op := op) hg
    cases hx : gap ++ op with
    | nil => rw [hx] at h; simp [isComment] at h
    | cons x xs =>
      rw [hx] at h hh
      have hx := hh x (by simp)
      simp only [isComment, List.take_succ_cons, List.take_zero, Bool.or_eq_true, beq_iff_eq, List.cons.injEq, and_true] at h
      rcases h with rfl | ⟨rfl, -⟩ <;> revert hx <;> decide

/-- **C105 (elsewhere), partial.** Instructions are offered with the cursor in the instruction field, or behind it: in the second
word of a line with a blank in one of its first two columns, and nowhere else. -/
theorem C105_elsewhere_partial {line : Bytes} (h : instructionRegex.test line = true) :
    (∃ name gap op, AtInstruction line name gap op) ∨
    ∃ a b w gap op, line = a :: b :: (w ++ gap ++ op) ∧ (Blank a ∨ Blank b) ∧ (∀ c ∈ w, ¬ Blank c) ∧
      (gap ≠ [] ∧ ∀ c ∈ gap, Blank c) ∧ op ≠ [] ∧ ∀ c ∈ op, ¬ Blank c := by
  rw [regex_iff] at h
  simp only [isSpace_false, isSpace_iff] at h
  rcases h with ⟨a, b, w, gap, op, rfl, ha, hb, hw, hg, ho, hs⟩ | ⟨gap, op, rfl, hg, ho⟩
  · by_cases hab : Blank a ∨ Blank b
    · exact .inr ⟨a, b, w, gap, op, rfl, hab, hw, hg, ho, hs⟩
    · simp only [not_or] at hab
      refine .inl ⟨a :: b :: w, gap, op, by simp, ?_, hg, hs⟩
      intro c hc
      simp only [List.mem_cons] at hc
      rcases hc with rfl | rfl | hc
      · exact hab.1
      · exact hab.2
      · exact hw c hc
  · exact .inl ⟨[], gap, op, by simp, by simp, hg, ho⟩

/-- **C105 (negation).** Nothing is offered behind a label as long as the instruction has not been begun, and nothing behind a label
of one character; in the operands of an instruction without a label in column 2 or 3 instructions are offered. -/
theorem C105_witness : instructionRegex.test ("LAB ".toUTF8.toList) = false ∧ instructionRegex.test ("A LR".toUTF8.toList) = false ∧
    instructionRegex.test (" LR 1".toUTF8.toList) = true ∧ instructionRegex.test ("  LR 1".toUTF8.toList) = true ∧
    instructionRegex.test ("   LR 1".toUTF8.toList) = false := by decide +kernel

theorem line_count (doc : List Char) (l : Nat) (s : Nat) (hs : (docLines doc)[l]? = some s) : l < (splitLines (utf8 doc)).length := by
  have hl : (TextSync.createLineIndices (utf8 doc))[l]? = some (utf8 (doc.take s)).length := by
    rw [TextSync.createLineIndices_eq, TextSync.byteLines_utf8, List.getElem?_map, hs]; rfl
  obtain ⟨h, -⟩ := List.getElem?_eq_some_iff.mp hl
  rwa [indices_split, starts_length _ (splitLines_ne _)] at h

/-- The line above the cursor, if there is one, has a column 72 of 7 bits. -/
def PlainAbove (text : Bytes) (l : Nat) : Prop := ∀ k line, l = k + 1 → (splitLines text)[k]? = some line → Plain72 line

/-- Specification: the line above the cursor is continued. -/
def ContinuesAbove (text : Bytes) (l : Nat) : Prop := ∃ k line, l = k + 1 ∧ (splitLines text)[k]? = some line ∧ Continues line

theorem shouldComplete_eq {doc : List Char} {p : TextSync.Pos} {k s : Nat} (h : PosAt doc p k) (hs : (docLines doc)[p.line]? = some s)
    (hp : PlainAbove (utf8 doc) p.line) :
    (s < doc.length → ContinuesAbove (utf8 doc) p.line → shouldCompleteInstr (.of (utf8 doc)) p = .ok false) ∧
    (s < doc.length → ¬ ContinuesAbove (utf8 doc) p.line →
      shouldCompleteInstr (.of (utf8 doc)) p = .ok (instructionRegex.test (utf8 ((doc.take k).drop s)))) ∧
    (¬ s < doc.length → shouldCompleteInstr (.of (utf8 doc)) p = .throws) := by
  have hcount := line_count doc _ _ hs
  have hb := C80_beginning_partial doc p k s h hs
  have hcont : (ContinuesAbove (utf8 doc) p.line →
        (if p.line > 0 then ((TextRef.of (utf8 doc)).getLine (p.line - 1)).bind isContinuedLine else .ok false) = .ok true) ∧
      (¬ ContinuesAbove (utf8 doc) p.line →
        (if p.line > 0 then ((TextRef.of (utf8 doc)).getLine (p.line - 1)).bind isContinuedLine else .ok false) = .ok false) := by
    cases hpl : p.line with
    | zero => exact ⟨fun ⟨k, _, e, _⟩ => (by omega), fun _ => rfl⟩
    | succ n =>
      rw [hpl] at hcount hp
      have hget : (splitLines (utf8 doc))[n]? = some (splitLines (utf8 doc))[n] := List.getElem?_eq_getElem (by omega)
      have hne : (splitLines (utf8 doc))[n] ≠ [] := by
        intro e
        have := splitLines_empty_last (utf8 doc) n (by rw [hget, e])
        omega
      rw [if_pos (by omega), show n + 1 - 1 = n by omega, getLine_eq _ _ _ hget hne]
      simp only [Res.bind]
      have key := isContinuedLine_eq (hp n _ rfl hget)
      constructor
      · rintro ⟨k, line, e, hl, hc⟩
        simp only [Nat.add_right_cancel_iff] at e
        subst e
        rw [hget] at hl
        cases hl
        exact key.1 hc
      · intro hn
        exact key.2 fun hc => hn ⟨n, _, rfl, hget, hc⟩
  unfold shouldCompleteInstr
  refine ⟨fun hlt hc => ?_, fun hlt hc => ?_, fun hlt => ?_⟩
  · rw [hcont.1 hc, hb, if_pos hlt]; rfl
  · rw [hcont.2 hc, hb, if_pos hlt]; simp [Res.bind]
  · rw [hb, if_neg hlt]
    by_cases hc : ContinuesAbove (utf8 doc) p.line
    · rw [hcont.1 hc]; rfl
    · rw [hcont.2 hc]; rfl

/-- **C105 (choice), partial.** On a line of a document variable symbols are offered behind `&`, sequence symbols behind `.`, and
otherwise instructions if the line above is not continued and the text left of the cursor is such that instructions are suggested
(see the theorems above); `last` is the character that asked for the completion or the one left of the cursor. Partial: on the empty
line at the end of a document the request fails. -/
theorem C105_choice_partial {doc : List Char} {p : TextSync.Pos} {k s : Nat} (h : PosAt doc p k) (hs : (docLines doc)[p.line]? = some s)
    (hp : PlainAbove (utf8 doc) p.line) {trigger : Option UInt8} {last : UInt8}
    (hl : trigger = some last ∨ (trigger = none ∧ (TextRef.of (utf8 doc)).getCharacterBefore p = .ok last)) :
    (s < doc.length → ∃ o, offer (.of (utf8 doc)) p trigger = .ok o ∧ (o = .variables ↔ last = 38) ∧ (o = .sequence ↔ last = 46) ∧
      (o = .instructions ↔ last ≠ 38 ∧ last ≠ 46 ∧ ¬ ContinuesAbove (utf8 doc) p.line ∧
        instructionRegex.test (utf8 ((doc.take k).drop s)) = true)) ∧
    (¬ s < doc.length → last ≠ 38 → last ≠ 46 → offer (.of (utf8 doc)) p trigger = .throws) := by
  have hlast : lastChar (.of (utf8 doc)) p trigger = .ok last := by
    rcases hl with rfl | ⟨rfl, hl⟩
    · rfl
    · exact hl
  obtain ⟨h1, h2, h3⟩ := shouldComplete_eq h hs hp
  unfold offer
  rw [hlast]
  simp only [Res.bind]
  constructor
  · intro hlt
    by_cases e1 : last = 38
    · exact ⟨.variables, by rw [if_pos e1], by simp [e1]⟩
    by_cases e2 : last = 46
    · exact ⟨.sequence, by rw [if_neg e1, if_pos e2], by simp [e2]⟩
    rw [if_neg e1, if_neg e2]
    by_cases hc : ContinuesAbove (utf8 doc) p.line
    · rw [h1 hlt hc]
      exact ⟨.nothing, rfl, by simp [e1], by simp [e2], by simp [hc]⟩
    · rw [h2 hlt hc]
      cases hr : instructionRegex.test (utf8 ((doc.take k).drop s)) with
      | true => exact ⟨.instructions, rfl, by simp [e1], by simp [e2], by simp [e1, e2, hc]⟩
      | false => exact ⟨.nothing, rfl, by simp [e1], by simp [e2], by simp⟩
  · intro hlt e1 e2
    rw [if_neg e1, if_neg e2, h3 hlt]

/-- **C105 (choice, negation).** Asking for completion on the empty last line of a document ends in an exception, also where a
name or an instruction may begin. -/
theorem C105_witness_empty : offer (.of []) ⟨0, 0⟩ none = .throws ∧ offer (.of (" LR 1,2\n".toUTF8.toList)) ⟨1, 0⟩ none = .throws := by
  decide +kernel

/-- Instructions are offered on the second line of a document with characters of different widths. -/
example : offer (.of (utf8 ['*', '😀', '\n', ' ', 'L'])) ⟨1, 2⟩ none = .ok .instructions := by
  have h := (C105_choice_partial (doc := ['*', '😀', '\n', ' ', 'L']) (p := ⟨1, 2⟩) (k := 5) (s := 3)
    (TextSync.posAt_intro 3 (by decide) (by decide) (by decide) (by decide) (by decide)) (by decide) (by
      intro k line hk hl c hc
      have : k = 0 := by simp at hk; omega
      subst this
      rw [show (splitLines (utf8 ['*', '😀', '\n', ' ', 'L']))[0]? = some [42, 240, 159, 152, 128, 10] by decide +kernel] at hl
      cases hl
      cases hc) (trigger := none) (last := 76) (.inr ⟨rfl, by decide +kernel⟩)).1 (by decide)
  obtain ⟨o, h1, -, -, h2⟩ := h
  rw [h1, h2.2 ⟨by decide, by decide, ?_, by decide +kernel⟩]
  rintro ⟨k, line, hk, hl, c, hc, -⟩
  have : k = 0 := by simp at hk; omega
  subst this
  rw [show (splitLines (utf8 ['*', '😀', '\n', ' ', 'L']))[0]? = some [42, 240, 159, 152, 128, 10] by decide +kernel] at hl
  cases hl
  cases hc

/-- Specification: the cursor is in a line of the definition of macro `m`. -/
def Env.In (e : Env) (file : String) (l : Nat) (m : Nat) : Prop := ∃ s ∈ e.ctx.pieces file, s.macroId = m ∧ s.first ≤ l ∧ l < s.last

theorem inside_eq (e : Env) (file : String) (p : TextSync.Pos) (hap : e.ctx.Apart file) (hid : (e.macros.map (·.id)).Nodup) :
    (∀ m ∈ e.macros, e.In file p.line m.id → e.inside file p = some m) ∧ ((∀ m, ¬ e.In file p.line m) → e.inside file p = none) := by
  have hsc := fun m => C81_scope hap ⟨p.line, p.column⟩ m
  constructor
  · intro m hm hin
    unfold Env.inside
    rw [(hsc m.id).2 hin]
    simp only [Option.bind_some]
    cases hf : e.macros.find? (·.id == m.id) with
    | none =>
      have := List.find?_eq_none.mp hf m hm
      simp at this
    | some m' =>
      have h1 := List.mem_of_find?_eq_some hf
      have h2 := List.find?_some hf
      simp only [beq_iff_eq] at h2
      rw [List.inj_on_of_nodup_map hid h1 hm h2]
  · intro hn
    unfold Env.inside
    cases hs : e.ctx.scope file ⟨p.line, p.column⟩ with
    | none => rfl
    | some m => exact absurd ((hsc m).1 hs) (hn m)

/-- **C105 (symbols).** Where variable symbols (sequence symbols) are offered, the list consists of exactly those of the macro
definition the cursor is in; outside of all macro definitions, of those of open code. -/
theorem C105_symbols (e : Env) (file : String) (text : Bytes) (p : TextSync.Pos) (trigger : Option UInt8) (ht : e.text file = some (.of text))
    (hap : e.ctx.Apart file) (hid : (e.macros.map (·.id)).Nodup) :
    (offer (.of text) p trigger = .ok .variables →
      (∀ m ∈ e.macros, e.In file p.line m.id → e.completion file p trigger = .ok (m.vars.map (38 :: ·))) ∧
      ((∀ m, ¬ e.In file p.line m) → e.completion file p trigger = .ok (e.openVars.map (38 :: ·)))) ∧
    (offer (.of text) p trigger = .ok .sequence →
      (∀ m ∈ e.macros, e.In file p.line m.id → e.completion file p trigger = .ok (m.seqs.map (46 :: ·))) ∧
      ((∀ m, ¬ e.In file p.line m) → e.completion file p trigger = .ok (e.openSeqs.map (46 :: ·)))) := by
  obtain ⟨h1, h2⟩ := inside_eq e file p hap hid
  unfold Env.completion
  rw [ht]
  refine ⟨fun ho => ?_, fun ho => ?_⟩ <;> simp only [ho, Res.bind]
  · exact ⟨fun m hm hin => by rw [h1 m hm hin]; rfl, fun hn => by rw [h2 hn]; rfl⟩
  · exact ⟨fun m hm hin => by rw [h1 m hm hin]; rfl, fun hn => by rw [h2 hn]; rfl⟩

theorem macroItems_eq (e : Env) (ms : List MacroSrc) :
    ((∀ m ∈ ms, ∃ d, e.documentation m = .ok d) → ∃ r, e.macroItems ms = .ok r ∧ r.map (·.1) = ms.map (·.name)) ∧
    ((∃ m ∈ ms, ∀ d, e.documentation m ≠ .ok d) → ∀ r, e.macroItems ms ≠ .ok r) := by
  induction ms with
  | nil => exact ⟨fun _ => ⟨[], rfl, rfl⟩, fun ⟨m, hm, _⟩ => absurd hm (by simp)⟩
  | cons m ms ih =>
    constructor
    · intro h
      obtain ⟨d, hd⟩ := h m (by simp)
      obtain ⟨r, hr, hn⟩ := ih.1 fun m hm => h m (by simp [hm])
      refine ⟨(m.name, d) :: r, ?_, by simp [hn]⟩
      rw [Env.macroItems, hd]
      simp only [Res.bind, hr]
    · rintro ⟨m', hm, hd⟩ r hr
      rw [Env.macroItems] at hr
      cases hdoc : e.documentation m with
      | throws => rw [hdoc] at hr; cases hr
      | ub => rw [hdoc] at hr; cases hr
      | ok d =>
        rw [hdoc] at hr
        simp only [Res.bind] at hr
        have hm' : m' ∈ ms := by
          simp only [List.mem_cons] at hm
          rcases hm with rfl | hm
          · exact absurd hdoc (hd d)
          · exact hm
        cases hi : e.macroItems ms with
        | throws => rw [hi] at hr; cases hr
        | ub => rw [hi] at hr; cases hr
        | ok r' => exact ih.2 ⟨m', hm', hd⟩ r' hi

/-- **C105 (list of instructions), partial.** Where instructions are offered, the list consists of the built-in ones and all macros
known. Partial: one macro without a readable documentation (see C106) makes the request fail wherever instructions would be
offered. -/
theorem C105_list_partial (e : Env) (file : String) (text : Bytes) (p : TextSync.Pos) (trigger : Option UInt8)
    (ht : e.text file = some (.of text)) (ho : offer (.of text) p trigger = .ok .instructions) :
    ((∀ m ∈ e.macros, ∃ d, e.documentation m = .ok d) →
      e.completion file p trigger = .ok (e.builtin ++ e.macros.map (·.name))) ∧
    ((∃ m ∈ e.macros, ∀ d, e.documentation m ≠ .ok d) → ∀ l, e.completion file p trigger ≠ .ok l) := by
  unfold Env.completion
  rw [ht]
  simp only [ho, Res.bind]
  refine ⟨fun h => ?_, fun h l hl => ?_⟩
  · obtain ⟨r, hr, hn⟩ := (macroItems_eq e e.macros).1 h
    rw [hr]
    simp only [hn]
  · have := (macroItems_eq e e.macros).2 h
    cases hi : e.macroItems e.macros with
    | throws => rw [hi] at hl; cases hl
    | ub => rw [hi] at hl; cases hl
    | ok r => exact this r hi

/-- A file with a macro in its lines 1 to 3, and another one without a MEND. -/
def envExample (broken : Bool) : Env where
  texts := [("f", " MACRO\n M &X\n A &\n MEND\n L\n".toUTF8.toList), ("g", " MACRO\n N\n".toUTF8.toList)]
  ctx := ⟨["f", "g"], [⟨7, [("f", [⟨1, 4, 7⟩])], []⟩], []⟩
  macros := ⟨7, "M".toUTF8.toList, "f", 1, ["X".toUTF8.toList], ["S".toUTF8.toList]⟩ ::
    if broken then [⟨8, "N".toUTF8.toList, "g", 1, [], []⟩] else []
  openVars := ["V".toUTF8.toList]
  openSeqs := []
  builtin := ["LR".toUTF8.toList]

/-- In the macro its own variables are offered, outside of it instructions — unless there is a macro whose documentation cannot be
read. -/
theorem C105_witness_macro : (envExample false).completion "f" ⟨2, 4⟩ none = .ok ["&X".toUTF8.toList] ∧
    (envExample false).completion "f" ⟨4, 2⟩ none = .ok ["LR".toUTF8.toList, "M".toUTF8.toList] ∧
    (envExample true).completion "f" ⟨4, 2⟩ none = .throws := by decide +kernel

example : (envExample false).completion "f" ⟨2, 4⟩ none = .ok (["X".toUTF8.toList].map (38 :: ·)) :=
  (((C105_symbols (envExample false) "f" " MACRO\n M &X\n A &\n MEND\n L\n".toUTF8.toList ⟨2, 4⟩ none rfl
    ⟨by unfold Slice.Covers; intro s hs; simp [envExample, Ctx.pieces] at hs; subst hs; exact ⟨1, by decide⟩, by simp [envExample, Ctx.pieces]⟩
    (by simp [envExample])).1 (by decide +kernel)).1 ⟨7, "M".toUTF8.toList, "f", 1, ["X".toUTF8.toList], ["S".toUTF8.toList]⟩
      (by simp [envExample]) ⟨⟨1, 4, 7⟩, by simp [envExample, Ctx.pieces], by decide⟩)

end Verif.LspCtx
