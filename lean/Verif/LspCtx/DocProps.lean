import Verif.LspCtx.Complete
import Verif.LspCtx.TextProps
import Mathlib.Data.List.Induction
/-!
C106: the documentation of a macro.
-/
namespace Verif.LspCtx

open TextSync (createLineIndices indexFromPosition)

/-- Specification: a blank, a tab or one of the characters that end lines or pages. -/
def Blank (c : UInt8) : Prop := c = 32 ∨ 9 ≤ c ∧ c ≤ 13

instance (c : UInt8) : Decidable (Blank c) := by unfold Blank; infer_instance

theorem isSpace_iff (c : UInt8) : isSpace c = true ↔ Blank c := by simp [isSpace, Blank]

theorem isSpace_false (c : UInt8) : isSpace c = false ↔ ¬ Blank c := by rw [← isSpace_iff, Bool.not_eq_true]

/-- Specification: a comment begins with an asterisk, one that is not to appear in the listing with a period and an asterisk. -/
def Remark (line : Bytes) : Prop := line[0]? = some 42 ∨ (line[0]? = some 46 ∧ line[1]? = some 42)

instance (line : Bytes) : Decidable (Remark line) := by unfold Remark; infer_instance

theorem isComment_iff (line : Bytes) : isComment line = true ↔ Remark line := by
  match line with
  | [] => simp [isComment, Remark]
  | [a] => simp [isComment, Remark]
  | a :: b :: r => simp [isComment, Remark]

theorem isComment_false (line : Bytes) : isComment line = false ↔ ¬ Remark line := by rw [← isComment_iff, Bool.not_eq_true]

/-- Specification: a line goes on in the next one if there is something but a blank in its column 72. -/
def Continues (line : Bytes) : Prop := ∃ c, line[71]? = some c ∧ ¬ Blank c

/-- The byte in column 72 is one of 7 bits. -/
def Plain72 (line : Bytes) : Prop := ∀ c, line[71]? = some c → c < 128

theorem isContinuedLine_eq {line : Bytes} (h : Plain72 line) :
    (Continues line → isContinuedLine line = .ok true) ∧ (¬ Continues line → isContinuedLine line = .ok false) := by
  unfold isContinuedLine
  cases hc : line[71]? with
  | none => exact ⟨fun ⟨c, e, _⟩ => by simp [hc] at e, fun _ => rfl⟩
  | some c =>
    simp only [if_pos (h c hc)]
    constructor
    · rintro ⟨d, e, hd⟩
      rw [hc] at e
      cases e
      rw [(isSpace_false _).mpr hd]; rfl
    · intro hn
      cases hs : isSpace c with
      | true => rfl
      | false => exact absurd ⟨c, hc, (isSpace_false c).mp hs⟩ hn

theorem index_line (t : Bytes) (l : Nat) :
    indexFromPosition t (createLineIndices t) ⟨l, 0⟩ = some ((splitLines t).take l).flatten.length := by
  rw [indexFromPosition, indices_split]
  by_cases h : l < (splitLines t).length
  · simp only [starts_get _ _ _ h, Nat.zero_add]
    rw [TextSync.walk.eq_def]
    simp
  · rw [List.getElem?_eq_none (by rw [starts_length _ (splitLines_ne t)]; simp only; omega), List.take_of_length_le (by omega), splitLines_flatten]

theorem lineRange_eq (t : Bytes) (a b : Nat) (h : a ≤ b) :
    (TextRef.of t).lineRange a b = .ok (((splitLines t).take b).drop a).flatten := by
  unfold TextRef.lineRange TextRef.getRangeContent
  have e1 : (TextRef.of t).text = t := rfl
  have e2 : (TextRef.of t).lines = createLineIndices t := rfl
  rw [e1, e2, index_line, index_line]
  simp only [TextRef.view, e1]
  have hb : ((splitLines t).take b).flatten ++ ((splitLines t).drop b).flatten = t := by
    rw [← List.flatten_append, List.take_append_drop, splitLines_flatten]
  have ha : ((splitLines t).take a).flatten ++ (((splitLines t).take b).drop a).flatten = ((splitLines t).take b).flatten := by
    rw [← List.flatten_append]
    congr 1
    have := List.take_append_drop a ((splitLines t).take b)
    rwa [List.take_take, Nat.min_eq_left h] at this
  generalize ((splitLines t).take b).flatten = x at *
  generalize ((splitLines t).take a).flatten = y at *
  generalize (((splitLines t).take b).drop a).flatten = z at *
  generalize ((splitLines t).drop b).flatten = w at *
  subst ha
  subst hb
  by_cases hz : (y ++ z ++ w).length ≤ y.length
  · rw [if_pos hz]
    simp only [List.length_append] at hz
    have : z.length = 0 := by omega
    rw [List.length_eq_zero_iff.mp this]
  · rw [if_neg hz, if_pos (by omega), if_pos (by simp), List.take_left, List.drop_left]

theorem getLine_eq (t : Bytes) (l : Nat) (line : Bytes) (h : (splitLines t)[l]? = some line) (hne : line ≠ []) :
    (TextRef.of t).getLine l = .ok line := by
  rw [(C80_lines_partial t).2.2 l line h, if_neg hne]

/-- Only the last line of a text is empty. -/
theorem line_ne {t : Bytes} {pre post : List Bytes} {line : Bytes} (h : splitLines t = pre ++ line :: post) (hp : post ≠ []) : line ≠ [] := by
  rintro rfl
  have := splitLines_empty_last t pre.length (by rw [h]; simp)
  rw [h] at this
  simp at this
  exact hp this

theorem commentStart_eq (t : Bytes) (above before rest : List Bytes) (h : splitLines t = above ++ before ++ rest) (hr : rest ≠ [])
    (hb : ∀ l ∈ before, isComment l = true) (ha : ∀ l ∈ above.getLast?, isComment l = false) :
    commentStart (.of t) (above ++ before).length = .ok above.length := by
  induction before using List.reverseRecOn generalizing rest with
  | nil =>
    cases above using List.reverseRecOn with
    | nil => rfl
    | append_singleton as a =>
      have h' : splitLines t = as ++ a :: rest := by simpa using h
      have e : (as ++ [a] ++ []).length = as.length + 1 := by simp
      rw [e, commentStart, getLine_eq t _ a (by rw [h']; simp) (line_ne h' hr)]
      simp only [Res.bind]
      rw [if_neg (by simp [ha a (by simp)])]
      simp
  | append_singleton bs b ih =>
    have h' : splitLines t = (above ++ bs) ++ b :: rest := by simpa using h
    have e : (above ++ (bs ++ [b])).length = (above ++ bs).length + 1 := by simp; omega
    rw [e, commentStart, getLine_eq t _ b (by rw [h']; simp) (line_ne h' hr)]
    simp only [Res.bind]
    rw [if_pos (hb b (by simp))]
    exact ih (b :: rest) h' (by simp) fun l hl => hb l (by simp [hl])

theorem prototypeEnd_eq (t : Bytes) (conts : List Bytes) (last : Bytes) : ∀ (pre post : List Bytes),
    splitLines t = pre ++ (conts ++ last :: post) → last ≠ [] → (∀ l ∈ conts, Continues l) → ¬ Continues last → (∀ l ∈ conts ++ [last], Plain72 l) →
    prototypeEnd (.of t) pre.length (conts ++ last :: post).length = .ok (pre.length + conts.length + 1) := by
  induction conts with
  | nil =>
    intro pre post h hl _ hn hp
    rw [List.nil_append, List.length_cons, prototypeEnd, getLine_eq t _ last (by rw [h]; simp) hl]
    simp only [Res.bind]
    rw [(isContinuedLine_eq (hp last (by simp))).2 hn]
    rfl
  | cons c cs ih =>
    intro pre post h hl hc hn hp
    rw [List.cons_append] at h
    rw [List.cons_append, List.length_cons, prototypeEnd, getLine_eq t _ c (by rw [h]; simp) (line_ne h (by simp))]
    simp only [Res.bind]
    rw [(isContinuedLine_eq (hp c (by simp))).1 (hc c (by simp))]
    simp only [if_true]
    have := ih (pre ++ [c]) post (by rw [h]; simp) hl (fun l h => hc l (by simp [h])) hn (fun l h => hp l (by
      simp only [List.cons_append, List.mem_cons]; exact .inr h))
    rw [List.length_append, List.length_singleton] at this
    rw [this, List.length_cons]
    congr 1
    omega

/-- What ends the comment below the prototype: the end of the text, or a line that is not a comment. -/
def Ends (rest : List Bytes) : Prop := ∀ l ∈ rest.head?, l ≠ [] ∧ ¬ Remark l

theorem commentEnd_eq (t : Bytes) (after : List Bytes) : ∀ (pre rest : List Bytes),
    splitLines t = pre ++ (after ++ rest) → (∀ l ∈ after, isComment l = true) →
    (Ends rest → commentEnd (.of t) pre.length (after ++ rest).length = .ok (pre.length + after.length)) ∧
    (rest = [[]] → commentEnd (.of t) pre.length (after ++ rest).length = .throws) := by
  induction after with
  | nil =>
    intro pre rest h _
    rw [List.nil_append] at h ⊢
    constructor
    · intro he
      cases rest with
      | nil => rfl
      | cons r rs =>
        have hr := he r (by simp)
        rw [List.length_cons, commentEnd, getLine_eq t _ r (by rw [h]; simp) hr.1]
        simp only [Res.bind]
        rw [if_neg (by simp [(isComment_false r).mpr hr.2])]
        rfl
    · rintro rfl
      rw [List.length_singleton, commentEnd, (C80_lines_partial t).2.2 _ [] (by rw [h]; simp)]
      rfl
  | cons c cs ih =>
    intro pre rest h hc
    rw [List.cons_append] at h
    have hne : c ≠ [] := by
      rintro rfl
      have := hc [] (by simp)
      simp [isComment] at this
    rw [List.cons_append, List.length_cons, commentEnd, getLine_eq t _ c (by rw [h]; simp) hne]
    simp only [Res.bind]
    rw [if_pos (hc c (by simp))]
    have := ih (pre ++ [c]) rest (by rw [h]; simp) (fun l h => hc l (by simp [h]))
    rw [List.length_append, List.length_singleton] at this
    refine ⟨fun he => ?_, fun he => this.2 he⟩
    rw [this.1 he, List.length_cons]
    congr 1
    omega

/-- Specification: how the lines of a file lie around the name of a macro. Above the line with the instruction MACRO there is a
block of comments, as long as possible; the prototype consists of lines that are continued and one that is not; below it there
is another block of comments. -/
structure Around (lines above before : List Bytes) (macroLine : Bytes) (conts : List Bytes) (last : Bytes) (after rest : List Bytes) : Prop where
  all : lines = above ++ before ++ [macroLine] ++ conts ++ [last] ++ after ++ rest
  hbefore : ∀ l ∈ before, Remark l
  habove : ∀ l ∈ above.getLast?, ¬ Remark l
  hconts : ∀ l ∈ conts, Continues l
  hlast : ¬ Continues last
  named : last ≠ []
  hafter : ∀ l ∈ after, Remark l
  plain : ∀ l ∈ conts ++ [last], Plain72 l

/-- **C106 (documentation), partial.** The documentation of a macro is its prototype with its continuation lines, then the comments
directly above MACRO, then the comments directly below the prototype — each complete and nothing else — between two code fences.
Partial: if the comments below reach the empty line at the end of the file (a macro without a MEND), an exception is thrown. -/
theorem C106_documentation_partial {text : Bytes} {above before : List Bytes} {macroLine : Bytes} {conts : List Bytes} {last : Bytes}
    {after rest : List Bytes} (h : Around (splitLines text) above before macroLine conts last after rest) :
    (Ends rest → macroDocumentation (.of text) (above.length + before.length + 1) =
      .ok (fence ++ (conts ++ [last]).flatten ++ before.flatten ++ after.flatten ++ 10 :: fence)) ∧
    (rest = [[]] → macroDocumentation (.of text) (above.length + before.length + 1) = .throws) := by
  obtain ⟨hall, hb, ha, hc, hl, hn, haf, hp⟩ := h
  replace hb : ∀ l ∈ before, isComment l = true := fun l h => (isComment_iff l).mpr (hb l h)
  replace ha : ∀ l ∈ above.getLast?, isComment l = false := fun l h => (isComment_false l).mpr (ha l h)
  replace haf : ∀ l ∈ after, isComment l = true := fun l h => (isComment_iff l).mpr (haf l h)
  have e1 := commentStart_eq text above before ([macroLine] ++ conts ++ [last] ++ after ++ rest) (by rw [hall]; simp) (by simp) hb ha
  have e2 := prototypeEnd_eq text conts last (above ++ before ++ [macroLine]) (after ++ rest) (by rw [hall]; simp) hn hc hl hp
  have e3 := commentEnd_eq text after (above ++ before ++ [macroLine] ++ conts ++ [last]) rest (by rw [hall]; simp) haf
  have hlen : (TextRef.of text).numberOfLines = (splitLines text).length := (C80_lines_partial text).2.1
  unfold macroDocumentation
  simp only [docBefore]
  rw [← List.length_append, e1]
  simp only [Res.bind]
  rw [lineRange_eq _ _ _ (by simp)]
  have l1 : (((splitLines text).take (above ++ before).length).drop above.length) = before := by
    rw [hall]; simp only [List.append_assoc]
    rw [← List.append_assoc above before, List.take_left, List.drop_left]
  rw [l1, hlen]
  have f1 : (splitLines text).length - ((above ++ before).length + 1) = (conts ++ last :: (after ++ rest)).length := by
    rw [hall]; simp only [List.length_append, List.length_cons, List.length_nil]; omega
  have f2 : (above ++ before).length + 1 = (above ++ before ++ [macroLine]).length := by simp; omega
  rw [f1, f2, e2]
  simp only
  have f3 : (above ++ before ++ [macroLine]).length + conts.length + 1 = (above ++ before ++ [macroLine] ++ conts ++ [last]).length := by
    simp only [List.length_append, List.length_cons, List.length_nil]
  rw [f3, lineRange_eq _ _ _ (by simp only [List.length_append, List.length_cons, List.length_nil]; omega)]
  have l2 : (((splitLines text).take (above ++ before ++ [macroLine] ++ conts ++ [last]).length).drop (above ++ before ++ [macroLine]).length) = conts ++ [last] := by
    have : splitLines text = (above ++ before ++ [macroLine] ++ conts ++ [last]) ++ (after ++ rest) := by rw [hall]; simp
    rw [this, List.take_left]
    have : above ++ before ++ [macroLine] ++ conts ++ [last] = (above ++ before ++ [macroLine]) ++ (conts ++ [last]) := by simp
    rw [this, List.drop_left]
  rw [l2]
  have f4 : (splitLines text).length - (above ++ before ++ [macroLine] ++ conts ++ [last]).length = (after ++ rest).length := by
    rw [hall]; simp only [List.length_append, List.length_cons, List.length_nil]; omega
  simp only
  rw [f4]
  constructor
  · intro he
    rw [e3.1 he]
    simp only
    rw [lineRange_eq _ _ _ (by simp)]
    have l3 : (((splitLines text).take ((above ++ before ++ [macroLine] ++ conts ++ [last]).length + after.length)).drop (above ++ before ++ [macroLine] ++ conts ++ [last]).length) = after := by
      have : splitLines text = (above ++ before ++ [macroLine] ++ conts ++ [last]) ++ (after ++ rest) := by rw [hall]; simp
      rw [this, List.take_length_add_append, List.drop_left, List.take_left]
    rw [l3]
  · intro he
    rw [e3.2 he]

/-- **C106 (negation).** A macro whose prototype is the last line of a file that ends in a newline has no documentation: reading it
throws. -/
theorem C106_witness : macroDocumentation (.of (" MACRO\n M\n".toUTF8.toList)) 1 = .throws ∧
    macroDocumentation (.of (" MACRO\n M\n*A\n".toUTF8.toList)) 1 = .throws := by decide +kernel

/-- The documentation of a macro with comments above and below. -/
example : macroDocumentation (.of ("X\n*A\n.*B\n MACRO\n M\n*C\n MEND\n".toUTF8.toList)) 4 =
    .ok ("```\n M\n*A\n.*B\n*C\n\n```\n".toUTF8.toList) := by
  have h : Around (splitLines ("X\n*A\n.*B\n MACRO\n M\n*C\n MEND\n".toUTF8.toList)) ["X\n".toUTF8.toList]
      ["*A\n".toUTF8.toList, ".*B\n".toUTF8.toList] " MACRO\n".toUTF8.toList [] " M\n".toUTF8.toList ["*C\n".toUTF8.toList]
      [" MEND\n".toUTF8.toList, []] := by
    refine ⟨by decide +kernel, by decide +kernel, by decide +kernel, by simp, ?_, by decide +kernel, by decide +kernel, ?_⟩
    · rintro ⟨c, h, _⟩
      rw [show (" M\n".toUTF8.toList)[71]? = none by decide +kernel] at h
      cases h
    · intro l hl c hc
      simp only [List.nil_append, List.mem_singleton] at hl
      subst hl
      rw [show (" M\n".toUTF8.toList)[71]? = none by decide +kernel] at hc
      cases hc
  have := (C106_documentation_partial h).1 (by unfold Ends; decide +kernel)
  refine Eq.trans this ?_
  decide +kernel

end Verif.LspCtx
