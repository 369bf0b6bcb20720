import Verif.Processing.Cache
/-!
C39: the cache of parsed statements is transparent.
-/
namespace Verif.Processing.Cache

/-- Two statuses of the same form that are parsed in the same way. -/
def Agree (parse : Parse) (a b : Status) : Prop := a.form = b.form → parseFor parse a = parseFor parse b

theorem lookup_append (cache : List (Form × Ops)) (f g : Form) (o : Ops) :
    lookup (cache ++ [(f, o)]) g = match lookup cache g with | some x => some x | none => if f = g then some o else none := by
  unfold lookup
  rw [List.find?_append]
  cases h : cache.find? (·.1 = g) with
  | some x => simp
  | none => by_cases e : f = g <;> simp [e]

/-- The cache contains only what was parsed for one of the earlier statuses. -/
theorem after_from (parse : Parse) (sts : List Status) : ∀ (cache : List (Form × Ops)) (f : Form) (o : Ops), lookup (after parse cache sts) f = some o →
    lookup cache f = some o ∨ ∃ st ∈ sts, st.form = f ∧ o = parseFor parse st := by
  induction sts with
  | nil => intro cache f o h; exact Or.inl h
  | cons st sts ih =>
    intro cache f o h
    rcases ih _ f o h with h | ⟨x, hx, hf⟩
    · unfold preprocess at h
      split at h
      · exact Or.inl h
      · split at h
        · exact Or.inl h
        · rw [lookup_append] at h
          split at h
          · next hx => exact Or.inl (by rw [hx]; exact h)
          · split at h
            · next hf => simp at h; exact Or.inr ⟨st, by simp, hf, h.symm⟩
            · simp at h
    · exact Or.inr ⟨x, by simp [hx], hf⟩

/-- C39 (partial): whatever the statement was processed as before, it is processed now with the operands a fresh parse gives,
provided the instructions of the same form it stood for are parsed in the same way. Missing: instructions of the same form whose
operands are parsed differently, see the witness. -/
theorem C39_transparent_partial (parse : Parse) (history : List Status) (st : Status) (hf : st.form ≠ .deferred)
    (h : ∀ old ∈ history, Agree parse old st) :
    (preprocess parse (after parse [] history) st).2 = some (parseFor parse st) := by
  unfold preprocess
  rw [if_neg hf]
  cases hl : lookup (after parse [] history) st.form with
  | none => rfl
  | some o =>
    rcases after_from parse history [] st.form o hl with h' | ⟨x, hx, hxf, ho⟩
    · simp [lookup] at h'
    · simp only
      rw [ho, h x hx hxf]

/-- In particular for every history of one and the same instruction, and for forms that never clash. -/
theorem C39_same_instruction (parse : Parse) (history : List Status) (st : Status) (hf : st.form ≠ .deferred)
    (h : ∀ old ∈ history, old = st ∨ old.form ≠ st.form) :
    (preprocess parse (after parse [] history) st).2 = some (parseFor parse st) := by
  refine C39_transparent_partial parse history st hf ?_
  intro old ho he
  rcases h old ho with rfl | hne
  · rfl
  · exact absurd he hne

/-- The cached operands never change once the statement was processed in a form. -/
theorem C39_stable (parse : Parse) (history : List Status) (a b : Status) (hf : a.form ≠ .deferred) (e : a.form = b.form) :
    (preprocess parse (preprocess parse (after parse [] history) a).1 b).2 = (preprocess parse (after parse [] history) a).2 := by
  have hfb : b.form ≠ .deferred := e ▸ hf
  unfold preprocess
  rw [if_neg hf, if_neg hfb, ← e]
  cases hl : lookup (after parse [] history) a.form with
  | some o => simp only [hl]
  | none => simp only [lookup_append, hl, if_true]

/-- A statement `&OP operands` of a macro that first stood for a machine instruction without operands (PR) and then for one with
operands (LR): the second one gets no operands. -/
theorem C39_witness_absent (parse : Parse) :
    let pr : Status := ⟨.mach, true, 1⟩
    let lr : Status := ⟨.mach, false, 2⟩
    parseFor parse lr = some (parse lr) ∧ (preprocess parse (after parse [] [pr]) lr).2 = some none := by
  exact ⟨by simp [parseFor], by simp [after, preprocess, lookup, parseFor]⟩

/-- Non-vacuity: the hypotheses of the theorem with a history of three different instructions. -/
example : (preprocess (fun st => st.opcode) (after (fun st => st.opcode) [] [⟨.mach, false, 7⟩, ⟨.asm, false, 2⟩, ⟨.mach, false, 7⟩]) ⟨.mach, false, 7⟩).2 =
    some (some 7) := by decide

/-- C39: a fresh parse gives the operands of the instruction unless it has none or is not processed at all. -/
theorem C39_fresh (parse : Parse) (f : Form) (op : Nat) (h : f ∈ [Form.ca, .mac, .asm, .mach, .dat]) :
    (preprocess parse [] ⟨f, false, op⟩).2 = some (some (parse ⟨f, false, op⟩)) := by
  simp at h
  rcases h with rfl | rfl | rfl | rfl | rfl <;> simp [preprocess, lookup, parseFor]

/-- C39: the text is parsed for exactly these instructions; one that has no operands, is unknown or is ignored gets none,
whatever its text, so that nothing can be reported about the text. -/
theorem C39_not_parsed (parse : Parse) (st : Status) (hf : st.form ≠ .deferred) :
    (preprocess parse [] st).2 = some none ↔ st.absent = true ∨ st.form = .unknown ∨ st.form = .ignored := by
  rcases st with ⟨f, a, op⟩
  cases f <;> cases a <;> simp_all [preprocess, lookup, parseFor]

example : (preprocess (fun st => st.opcode) [] ⟨.ignored, false, 7⟩).2 = some none :=
  (C39_not_parsed _ _ (by simp)).mpr (by simp)

end Verif.Processing.Cache
