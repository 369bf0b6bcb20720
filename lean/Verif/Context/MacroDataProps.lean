import Verif.Context.MacroData
/-!
C35: the text of a macro argument passed through a variable symbol.
-/
namespace Verif.Context

/-- `Drop dbl a b`: `b` is `a` without some of the commas that stand directly before a closing parenthesis and, if `dbl`,
without some of the commas that stand directly before another comma. -/
inductive Drop (dbl : Prop) : Bytes → Bytes → Prop
  | nil : Drop dbl [] []
  | keep {a b} (c : UInt8) : Drop dbl a b → Drop dbl (c :: a) (c :: b)
  | close {a b} : Drop dbl (cClose :: a) b → Drop dbl (cComma :: cClose :: a) b
  | twice {a b} : dbl → Drop dbl (cComma :: a) b → Drop dbl (cComma :: cComma :: a) b

theorem Drop.refl {dbl : Prop} : ∀ a, Drop dbl a a
  | [] => .nil
  | c :: a => .keep c (Drop.refl a)

theorem Drop.append {dbl : Prop} {a b c d : Bytes} (h : Drop dbl a b) (h' : Drop dbl c d) : Drop dbl (a ++ c) (b ++ d) := by
  induction h with
  | nil => exact h'
  | keep x _ ih => exact .keep x ih
  | close _ ih => exact .close ih
  | twice hd _ ih => exact .twice hd ih

theorem Drop.eq_nil {dbl : Prop} {a b : Bytes} (h : Drop dbl a b) (hb : b = []) : a = [] := by
  induction h with
  | nil => rfl
  | keep => simp at hb
  | close _ ih => have := ih hb; simp at this
  | twice _ _ ih => have := ih hb; simp at this

/-- A trailing comma followed by a closing parenthesis may be dropped. -/
theorem Drop.close_end {dbl : Prop} {a b : Bytes} (h : Drop dbl a b) : ∀ v, b = v ++ [cComma] →
    Drop dbl (a ++ [cClose]) (v ++ [cClose]) := by
  induction h with
  | nil => intro v hv; simp at hv
  | keep c h ih =>
    intro v hv
    cases v with
    | nil =>
      simp at hv
      obtain ⟨rfl, hb⟩ := hv
      have := h.eq_nil hb
      subst this
      exact .close (.keep _ .nil)
    | cons d v => simp at hv; obtain ⟨rfl, hb⟩ := hv; exact .keep c (ih v hb)
  | close _ ih => intro v hv; exact .close (ih v hv)
  | twice hd _ ih => intro v hv; exact .twice hd (ih v hv)

/-- Without the critical pairs nothing can be dropped. -/
theorem Drop.eq {dbl : Prop} {a b : Bytes} (h : Drop dbl a b) :
    (∀ p q, a ≠ p ++ cComma :: cClose :: q) → (dbl → ∀ p q, a ≠ p ++ cComma :: cComma :: q) → a = b := by
  induction h with
  | nil => intros; rfl
  | @keep a b c _ ih =>
    intro h1 h2
    rw [ih (fun p q e => h1 (c :: p) q (by simp [e])) (fun hd p q e => h2 hd (c :: p) q (by simp [e]))]
  | @close a _ _ _ => intro h1; exact absurd rfl (h1 [] a)
  | @twice a _ hd _ _ => intro _ h2; exact absurd rfl (h2 hd [] a)

/-- Values each followed by a comma. -/
def seps : List Data → Bytes
  | [] => []
  | d :: l => d.value ++ cComma :: seps l

theorem valueList_append (l : List Data) (d : Data) : valueList (l ++ [d]) = seps l ++ d.value := by
  induction l with
  | nil => simp [valueList, seps]
  | cons e l ih =>
    cases l with
    | nil => simp [valueList, seps]
    | cons f l =>
      simp only [List.cons_append] at ih ⊢
      rw [valueList, ih]
      simp [seps]

theorem seps_append (l : List Data) (d : Data) : seps (l ++ [d]) = seps l ++ d.value ++ [cComma] := by
  induction l with
  | nil => simp [seps]
  | cons e l ih => simp [seps, ih]

theorem seps_eq (l : List Data) (h : l ≠ []) : seps l = valueList l ++ [cComma] := by
  obtain ⟨l', d, rfl⟩ : ∃ l' d, l = l' ++ [d] := ⟨l.dropLast, l.getLast h, (List.dropLast_concat_getLast h).symm⟩
  rw [seps_append, valueList_append]

/-- The text that the enclosing, unfinished lists stand for. -/
def belowText : List Frame → Bytes
  | [] => []
  | f :: fs => belowText fs ++ seps f ++ [cOpen]

theorem scan_spec (prev : UInt8) (s : Bytes) : ∀ t r, scan prev s = some (t, r) →
    s = t ++ r ∧ (r.head? = some cComma ∨ r.head? = some cClose) := by
  fun_induction scan prev s with
  | case1 => simp
  | case2 prev c r h =>
    intro t r' e
    simp at e
    obtain ⟨rfl, rfl⟩ := e
    rcases h with rfl | rfl <;> simp
  | case3 => intro t r e; simp at e
  | case4 prev r t r' hs _ ih =>
    intro t' r'' e
    cases hq : scan cClose r' with
    | none => rw [hq] at e; simp at e
    | some p =>
      rw [hq] at e; simp at e
      obtain ⟨rfl, rfl⟩ := e
      obtain ⟨h1, h2⟩ := ih p.1 p.2 hq
      have := skipParen_eq _ _ _ _ hs
      refine ⟨?_, h2⟩
      rw [this, h1]; simp
  | case5 prev r _ _ hd ih =>
    intro t' r'' e
    cases hq : scan cQuote r with
    | none => rw [hq] at e; simp at e
    | some p =>
      rw [hq] at e; simp at e
      obtain ⟨rfl, rfl⟩ := e
      obtain ⟨h1, h2⟩ := ih p.1 p.2 hq
      refine ⟨?_, h2⟩
      rw [h1]; simp
  | case6 => intro t r e; simp at e
  | case7 prev r _ t r' hs _ _ ih =>
    intro t' r'' e
    cases hq : scan cQuote r' with
    | none => rw [hq] at e; simp at e
    | some p =>
      rw [hq] at e; simp at e
      obtain ⟨rfl, rfl⟩ := e
      obtain ⟨h1, h2⟩ := ih p.1 p.2 hq
      have := skipQuote_eq _ _ _ hs
      refine ⟨?_, h2⟩
      rw [this, h1]; simp
  | case8 prev c r _ _ _ ih =>
    intro t' r'' e
    cases hq : scan c r with
    | none => rw [hq] at e; simp at e
    | some p =>
      rw [hq] at e; simp at e
      obtain ⟨rfl, rfl⟩ := e
      obtain ⟨h1, h2⟩ := ih p.1 p.2 hq
      refine ⟨?_, h2⟩
      rw [h1]; simp

theorem skipComma_snd (p : UInt8) (s : Bytes) : (skipComma p s).2 = if s.head? = some cComma then s.tail else s := by
  unfold skipComma
  split
  · next c r => by_cases h : c = cComma <;> simp [h]
  · simp

/-- A closing parenthesis directly followed by something else than a comma, a closing parenthesis or the end. -/
def Tail (data : Bytes) : Prop := ∃ p x q, data = p ++ cClose :: x :: q ∧ x ≠ cComma ∧ x ≠ cClose

/-- The loop invariant: the text read so far is, up to dropped commas, the text of the unfinished lists. -/
structure SplitInv (data : Bytes) (s : Split) : Prop where
  text : ∃ c, data = c ++ s.rest ∧ (Drop (Tail data) c (belowText s.below ++ seps s.top) ∨
    (s.top ≠ [] ∧ (s.rest = [] ∨ s.rest.head? = some cClose) ∧ Drop (Tail data) c (belowText s.below ++ valueList s.top)))
  bottom : ∀ f, s.below.getLast? = some f → f = []
  start : s.below = [] → s.top = [] ∧ s.rest.head? = some cOpen

/-- What is known when the loop ends normally. -/
def DoneOk (data : Bytes) (l : Frame) (rest : Bytes) : Prop := ∃ d, l = [d] ∧ (rest = [] → Drop (Tail data) data d.value)

theorem last_append {a b : Bytes} (h : b ≠ []) : (a ++ b).getLast? = b.getLast? := by
  rw [List.getLast?_append]
  cases hb : b.getLast? with
  | none => rw [List.getLast?_eq_none_iff] at hb; exact absurd hb h
  | some x => rfl

/-- Closing a list after which the text `c` (ending the element) has been read and `r` follows. -/
theorem closeFrame_inv {data : Bytes} (hlast : data.getLast? = some cClose) (d : Data) (p : UInt8) (c r : Bytes) (outer : Frame)
    (below : List Frame) (hd : data = c ++ r) (hr : r = [] ∨ r.head? = some cComma ∨ r.head? = some cClose)
    (hc : Drop (Tail data) c (belowText below ++ valueList (outer ++ [d])))
    (hb : ∀ f, (outer :: below).getLast? = some f → f = []) :
    (∀ s', closeFrame d (p, r) outer below = .cont s' → SplitInv data s' ∧ s'.rest.length ≤ r.length) ∧
    (∀ l rest, closeFrame d (p, r) outer below = .done l rest → DoneOk data l rest) ∧ closeFrame d (p, r) outer below ≠ .whole := by
  unfold closeFrame
  simp only
  cases below with
  | nil =>
    simp only [List.isEmpty_nil, if_true, reduceCtorEq, false_imp_iff, implies_true, true_and, ne_eq, not_false_eq_true, and_true]
    intro l rest h
    simp only [Outcome.done.injEq] at h
    obtain ⟨h1, h2⟩ := h
    have ho : outer = [] := hb outer rfl
    subst ho
    refine ⟨d, by simpa using h1.symm, ?_⟩
    intro hrest
    rw [hrest, skipComma_snd] at h2
    split at h2
    · next hh =>
      cases r with
      | nil => simp at hh
      | cons x r =>
        simp at hh h2
        subst h2 hh
        rw [hd, last_append (by simp)] at hlast
        simp [cComma, cClose] at hlast
    · subst h2
      simp only [List.append_nil] at hd
      rw [← hd] at hc
      simpa [belowText, valueList] using hc
  | cons f fs =>
    simp only [List.isEmpty_cons, Bool.false_eq_true, if_false, Outcome.cont.injEq, reduceCtorEq, false_imp_iff, implies_true,
      true_and, ne_eq, not_false_eq_true, and_true]
    intro s' hs'
    subst hs'
    simp only [skipComma_snd]
    refine ⟨⟨?_, ?_, by simp⟩, ?_⟩
    · simp only
      split
      · next hh =>
        cases r with
        | nil => simp at hh
        | cons x r =>
          simp at hh; subst hh
          refine ⟨c ++ [cComma], by simp [hd], Or.inl ?_⟩
          show Drop _ _ (belowText (f :: fs) ++ seps (outer ++ [d]))
          rw [seps_append, ← valueList_append, ← List.append_assoc]
          exact hc.append (Drop.refl _)
      · next hh =>
        refine ⟨c, hd, Or.inr ⟨by simp, ?_, hc⟩⟩
        rcases hr with hr | hr | hr
        · exact Or.inl hr
        · exact absurd hr hh
        · exact Or.inr hr
    · intro g hg
      refine hb g ?_
      rw [List.getLast?_cons]
      simp only at hg
      rw [hg]; rfl
    · split
      · cases r <;> simp
      · exact Nat.le_refl _

theorem step_inv {data : Bytes} (hlast : data.getLast? = some cClose) {s : Split} (inv : SplitInv data s) :
    (∀ s', s.step = .cont s' → SplitInv data s' ∧ s'.rest.length < s.rest.length) ∧
    (∀ l rest, s.step = .done l rest → DoneOk data l rest) := by
  obtain ⟨c, hd, htext⟩ := inv.text
  unfold Split.step
  cases hrest : s.rest with
  | nil => simp
  | cons x r =>
    rw [hrest] at hd
    simp only
    by_cases hx : x = cOpen
    · subst hx
      simp only [if_true, Outcome.cont.injEq, reduceCtorEq, false_imp_iff, implies_true, and_true]
      rintro s' rfl
      refine ⟨⟨⟨c ++ [cOpen], by simp [hd], Or.inl ?_⟩, ?_, by simp⟩, by simp⟩
      · rcases htext with h | ⟨_, h, _⟩
        · have := h.append (Drop.refl [cOpen])
          simpa [belowText, seps] using this
        · rw [hrest] at h; simp [cOpen, cClose] at h
      · intro f hf
        simp only at hf
        cases hb : s.below with
        | nil => rw [hb] at hf; simp at hf; rw [← hf]; exact (inv.start hb).1
        | cons g gs =>
          refine inv.bottom f ?_
          rw [hb] at hf ⊢
          rw [List.getLast?_cons_cons] at hf
          exact hf
    · rw [if_neg hx]
      by_cases hc : x = cClose
      · subst hc
        rw [if_pos rfl]
        cases hb : s.below with
        | nil => simp
        | cons outer below =>
          simp only
          -- the list that is being closed
          have hclosed : Drop (Tail data) (c ++ [cClose]) (belowText below ++ valueList (outer ++ [.comp s.top])) := by
            rw [valueList_append, Data.value]
            have hv : Drop (Tail data) (c ++ [cClose]) (belowText (outer :: below) ++ valueList s.top ++ [cClose]) := by
              rw [← hb]
              rcases htext with h | ⟨_, _, h⟩
              · by_cases ht : s.top = []
                · rw [ht] at h ⊢; simpa [seps, valueList] using h.append (Drop.refl [cClose])
                · rw [seps_eq _ ht, ← List.append_assoc] at h
                  exact h.close_end _ rfl
              · exact h.append (Drop.refl _)
            simpa [belowText] using hv
          have hbot : ∀ f, (outer :: below).getLast? = some f → f = [] := by rw [← hb]; exact inv.bottom
          split
          · next hr =>
            obtain ⟨h1, h2, _⟩ := closeFrame_inv hlast (.comp s.top) cClose (c ++ [cClose]) r outer below (by simp [hd]) hr hclosed hbot
            refine ⟨fun s' hs' => ?_, h2⟩
            obtain ⟨h3, h4⟩ := h1 s' hs'
            exact ⟨h3, by simp; omega⟩
          · next hr =>
            have hr' : ∃ y q, r = y :: q ∧ y ≠ cComma ∧ y ≠ cClose := by
              cases r with
              | nil => simp at hr
              | cons y q =>
                simp at hr
                exact ⟨y, q, rfl, hr.1, hr.2⟩
            have htail : Tail data := by
              obtain ⟨y, q, rfl, h1, h2⟩ := hr'
              exact ⟨c, y, q, hd, h1, h2⟩
            cases hs : scan cClose r with
            | none => simp
            | some pr =>
              obtain ⟨t, r'⟩ := pr
              obtain ⟨e1, e2⟩ := scan_spec _ _ _ _ hs
              simp only
              have hsingle : Drop (Tail data) (c ++ [cClose] ++ t)
                  (belowText below ++ valueList (outer ++ [.single ((Data.comp s.top).value ++ t)])) := by
                rw [valueList_append] at hclosed ⊢
                have := hclosed.append (Drop.refl t)
                simpa [Data.value] using this
              have hdata : data = (c ++ [cClose] ++ t) ++ r' := by rw [hd, e1]; simp
              -- two cases: r' begins with a comma or not
              cases hr2 : r' with
              | nil => rw [hr2] at e2; simp at e2
              | cons y q =>
                rw [hr2] at e2 hdata
                simp at e2
                rcases e2 with rfl | rfl
                · -- the comma is skipped by find_single, a second one by the caller
                  have hsk : skipComma (lastOf cClose t) (cComma :: q) = (cComma, q) := by simp [skipComma]
                  rw [hsk]
                  unfold closeFrame
                  simp only
                  have hlen : q.length < r.length := by rw [e1, hr2]; simp; omega
                  cases hbe : below with
                  | nil =>
                    simp only [List.isEmpty_nil, if_true, reduceCtorEq, false_imp_iff, implies_true, true_and]
                    intro l rest h
                    simp only [Outcome.done.injEq] at h
                    obtain ⟨h1, h2⟩ := h
                    have ho : outer = [] := hbot outer (by rw [hbe]; rfl)
                    refine ⟨_, by rw [ho] at h1; simpa using h1.symm, ?_⟩
                    intro hrest'
                    exfalso
                    rw [hrest', skipComma_snd] at h2
                    split at h2
                    · next hh =>
                      cases q with
                      | nil => simp at hh
                      | cons z q =>
                        simp at hh h2
                        subst hh h2
                        rw [hdata, last_append (by simp)] at hlast
                        simp [cComma, cClose] at hlast
                    · subst h2
                      rw [hdata, last_append (by simp)] at hlast
                      simp [cComma, cClose] at hlast
                  | cons f fs =>
                    simp only [List.isEmpty_cons, Bool.false_eq_true, if_false, Outcome.cont.injEq, reduceCtorEq, false_imp_iff,
                      implies_true, and_true]
                    rintro s' rfl
                    simp only
                    rw [hbe] at hsingle
                    refine ⟨⟨?_, ?_, by simp⟩, ?_⟩
                    · simp only
                      rw [skipComma_snd]
                      split
                      · next hh =>
                        cases q with
                        | nil => simp at hh
                        | cons z q =>
                          simp at hh; subst hh
                          refine ⟨c ++ [cClose] ++ t ++ [cComma, cComma], by simp [hdata], Or.inl ?_⟩
                          rw [seps_append, ← valueList_append, ← List.append_assoc]
                          exact hsingle.append (.twice htail (.keep _ .nil))
                      · refine ⟨c ++ [cClose] ++ t ++ [cComma], by simp [hdata], Or.inl ?_⟩
                        rw [seps_append, ← valueList_append, ← List.append_assoc]
                        exact hsingle.append (Drop.refl _)
                    · intro g hg
                      refine hbot g ?_
                      rw [hbe, List.getLast?_cons]
                      simp only at hg
                      rw [hg]; rfl
                    · rw [skipComma_snd]
                      simp only [List.length_cons]
                      split
                      · simp; omega
                      · omega
                · have hsk : skipComma (lastOf cClose t) (cClose :: q) = (lastOf cClose t, cClose :: q) := by
                    simp [skipComma, cClose, cComma]
                  rw [hsk]
                  obtain ⟨h1, h2, _⟩ := closeFrame_inv hlast (.single ((Data.comp s.top).value ++ t)) (lastOf cClose t)
                    (c ++ [cClose] ++ t) (cClose :: q) outer below hdata (by simp) hsingle hbot
                  refine ⟨fun s' hs' => ?_, h2⟩
                  obtain ⟨h3, h4⟩ := h1 s' hs'
                  refine ⟨h3, ?_⟩
                  have : (cClose :: q).length ≤ r.length := by rw [e1, hr2]; simp
                  simp only [List.length_cons] at *
                  omega
      · rw [if_neg hc]
        cases hs : scan s.prev (x :: r) with
        | none => simp
        | some pr =>
          obtain ⟨t, r'⟩ := pr
          obtain ⟨e1, e2⟩ := scan_spec _ _ _ _ hs
          simp only [Outcome.cont.injEq, reduceCtorEq, false_imp_iff, implies_true, and_true]
          rintro s' rfl
          have hopen : Drop (Tail data) c (belowText s.below ++ seps s.top) := by
            rcases htext with h | ⟨_, h, _⟩
            · exact h
            · rw [hrest] at h; simp [hc] at h
          have hel : Drop (Tail data) (c ++ t) (belowText s.below ++ valueList (s.top ++ [.single t])) := by
            rw [valueList_append, ← List.append_assoc]
            exact hopen.append (Drop.refl t)
          have hne : s.below ≠ [] := by
            intro hb
            have := (inv.start hb).2
            rw [hrest] at this; simp at this; exact hx this
          refine ⟨⟨?_, inv.bottom, fun hb => absurd hb hne⟩, ?_⟩
          · simp only
            rw [skipComma_snd]
            split
            · next hh =>
              cases r' with
              | nil => simp at hh
              | cons z q =>
                simp at hh; subst hh
                refine ⟨c ++ t ++ [cComma], by simp [hd, e1], Or.inl ?_⟩
                rw [seps_append, ← valueList_append, ← List.append_assoc]
                exact hel.append (Drop.refl _)
            · next hh =>
              refine ⟨c ++ t, by simp [hd, e1], Or.inr ⟨by simp, ?_, hel⟩⟩
              rcases e2 with e2 | e2
              · exact absurd e2 hh
              · exact Or.inr e2
          · simp only
            rw [skipComma_snd, e1]
            split
            · next hh => cases r' with
              | nil => simp at hh
              | cons z q => simp; omega
            · next hh =>
              cases t with
              | nil =>
                simp only [List.nil_append] at e1
                rw [← e1] at e2
                simp at e2
                rcases e2 with e2 | e2
                · rw [← e1, e2] at hh; simp at hh
                · exact absurd e2 hc
              | cons z t => simp; omega

theorem loop_inv {data : Bytes} (hlast : data.getLast? = some cClose) : ∀ (n : Nat) (s : Split), SplitInv data s →
    s.rest.length < n → ∃ o, s.loop n = some o ∧ (∀ s', o ≠ .cont s') ∧ ∀ l rest, o = .done l rest → DoneOk data l rest := by
  intro n
  induction n with
  | zero => intro s _ h; omega
  | succ n ih =>
    intro s inv h
    obtain ⟨h1, h2⟩ := step_inv hlast inv
    unfold Split.loop
    cases hs : s.step with
    | cont s' =>
      obtain ⟨h3, h4⟩ := h1 s' hs
      exact ih s' h3 (by omega)
    | whole => exact ⟨.whole, rfl, by simp, by simp⟩
    | done l rest => exact ⟨.done l rest, rfl, by simp, fun l' r' e => by simp at e; rw [← e.1, ← e.2]; exact h2 l rest hs⟩

theorem init_inv (data : Bytes) (h : data.head? = some cOpen) : SplitInv data { prev := 0, rest := data, top := [], below := [] } :=
  ⟨⟨[], rfl, Or.inl .nil⟩, by simp, fun _ => ⟨rfl, h⟩⟩

/-- C35: splitting terminates for every argument text, after at most one iteration per byte plus one; the value of the result
is the text itself except that a comma directly before a closing parenthesis may be missing, and, if some closing parenthesis is
directly followed by other text, one of two adjacent commas. -/
theorem C35_value (data : Bytes) (fuel : Nat) (hf : data.length < fuel) :
    ∃ d, toData data fuel = some d ∧ Drop (Tail data) data d.value := by
  unfold toData
  by_cases h0 : data = []
  · subst h0; exact ⟨.dummy, by simp, .nil⟩
  · rw [if_neg h0]
    split
    · exact ⟨_, rfl, Drop.refl _⟩
    · next h =>
      rw [not_or, Classical.not_not, Classical.not_not] at h
      obtain ⟨o, h1, h2, h3⟩ := loop_inv h.2 fuel _ (init_inv data h.1) hf
      rw [h1]
      cases o with
      | cont s' => exact absurd rfl (h2 s')
      | whole => exact ⟨_, rfl, Drop.refl _⟩
      | done l rest =>
        obtain ⟨d, rfl, hd⟩ := h3 l rest rfl
        cases rest with
        | nil => exact ⟨d, rfl, hd rfl⟩
        | cons x r => exact ⟨_, rfl, Drop.refl _⟩

/-- C35 (partial): the value of the parameter is the argument text, provided no comma stands directly before a closing
parenthesis and, in texts where something directly follows a closing parenthesis, no two commas are adjacent. -/
theorem C35_preserved_partial (data : Bytes) (fuel : Nat) (hf : data.length < fuel) (h1 : ∀ p q, data ≠ p ++ cComma :: cClose :: q)
    (h2 : Tail data → ∀ p q, data ≠ p ++ cComma :: cComma :: q) : ∃ d, toData data fuel = some d ∧ d.value = data := by
  obtain ⟨d, hd, hv⟩ := C35_value data fuel hf
  exact ⟨d, hd, (hv.eq h1 h2).symm⟩

/-- Violation: the omitted last element of `(A,)` is lost; the value is `(A)`. -/
theorem C35_witness_trailing : ((toData [40, 65, 44, 41] 10).map Data.value) = some [40, 65, 41] := by decide +kernel

/-- Violation: `((A)B,,C)` has the value `((A)B,C)`: an element vanishes from the middle, so `&P(2)` is `C`. -/
theorem C35_witness_double : ((toData [40, 40, 65, 41, 66, 44, 44, 67, 41] 20).map fun d => (d.value, (d.ith 1).value)) =
    some ([40, 40, 65, 41, 66, 44, 67, 41], [67]) := by decide +kernel

/-- Non-vacuity: `(A,,(B,'C,D)',L'E))` is split as expected and keeps its text. -/
example : let t : Bytes := [40, 65, 44, 44, 40, 66, 44, 39, 67, 44, 68, 41, 39, 44, 76, 39, 69, 41, 41]
    ((toData t 30).map fun d => (d.number, (d.ith 1).value, (d.ith 2).number, ((d.ith 2).ith 1).value)) =
      some (3, [], 3, [39, 67, 44, 68, 41, 39]) ∧ (toData t 30).map Data.value = some t := by decide +kernel

/-! ### The structure of an argument -/

/-- Text with balanced parentheses. -/
inductive Balanced : Bytes → Prop where
  | nil : Balanced []
  | char (c : UInt8) (t : Bytes) (h1 : c ≠ 40) (h2 : c ≠ 41) : Balanced t → Balanced (c :: t)
  | paren (b t : Bytes) : Balanced b → Balanced t → Balanced (40 :: (b ++ 41 :: t))

/-- The text of one element, following the byte `p`: characters other than `,'()`; a quote that belongs to an attribute reference, that is,
one that follows one of the letters D, I, K, L, N, O, S, T; quoted strings; balanced parentheses. Commas only occur within the last two. -/
inductive Element : UInt8 → Bytes → Prop where
  | nil (p : UInt8) : Element p []
  | char (p c : UInt8) (t : Bytes) (h : c ∉ [44, 39, 40, 41]) : Element c t → Element p (c :: t)
  | attr (p : UInt8) (t : Bytes) (h : p ∈ "LISTDONKlistdonk".toUTF8.toList) : Element 39 t → Element p (39 :: t)
  | quoted (p : UInt8) (q t : Bytes) (h : p ∉ "LISTDONKlistdonk".toUTF8.toList) (hq : 39 ∉ q) : Element 39 t → Element p (39 :: (q ++ 39 :: t))
  | paren (p : UInt8) (b t : Bytes) (hb : Balanced b) : Element 41 t → Element p (40 :: (b ++ 41 :: t))

/-- Well-formed arguments: elements that do not begin with a parenthesis, and lists of such; the last element of a list is not empty (see
`C35_witness_trailing`). -/
inductive Proper : Data → Prop where
  | single (t : Bytes) (h : Element 44 t) (h' : t.head? ≠ some 40) : Proper (.single t)
  | comp (l : List Data) (h : ∀ d ∈ l, Proper d) (hl : l.getLast? ≠ some (.single [])) : Proper (.comp l)

theorem dataDef_iff : ∀ c : UInt8, isDataDef c = true ↔ c ∈ "LISTDONKlistdonk".toUTF8.toList := forall_byte _ (by decide +kernel)

theorem skipParen_balanced {b : Bytes} (h : Balanced b) : ∀ (n : Nat) (s : Bytes), 1 ≤ n →
    skipParen n (b ++ s) = (skipParen n s).map fun p => (b ++ p.1, p.2) := by
  induction h with
  | nil => intro n s _; simp
  | char c t h1 h2 _ ih =>
    intro n s hn
    have hne : ¬ n = 0 := by omega
    have e1 : ¬ c = cOpen := h1
    have e2 : ¬ c = cClose := h2
    rw [List.cons_append, skipParen]
    simp only [e1, e2, hne, if_false]
    rw [ih n s hn]
    simp [Option.map_map, Function.comp_def]
  | paren b t _ _ ihb iht =>
    intro n s hn
    have hne : ¬ n = 0 := by omega
    have e : 40 :: (b ++ 41 :: t) ++ s = 40 :: (b ++ 41 :: (t ++ s)) := by simp
    have e1 : (40 : UInt8) = cOpen := rfl
    have e2 : ¬ (41 : UInt8) = cOpen := by decide
    have e3 : (41 : UInt8) = cClose := rfl
    rw [e, skipParen]
    simp only [if_pos e1, Nat.add_eq_zero_iff, hne, false_and, if_false]
    rw [ihb (n + 1) _ (by omega), skipParen]
    simp only [if_neg e2, if_pos e3, Nat.add_sub_cancel, hne, if_false]
    rw [iht n s hn]
    simp [Option.map_map, Function.comp_def]

theorem skipQuote_text (q s : Bytes) (h : 39 ∉ q) : skipQuote (q ++ 39 :: s) = some (q ++ [39], s) := by
  induction q with
  | nil => simp [skipQuote, cQuote]
  | cons c q ih =>
    simp at h
    rw [List.cons_append, skipQuote, if_neg (by simpa [cQuote] using fun e => h.1 e.symm), ih h.2]
    simp

theorem scan_element {p : UInt8} {t : Bytes} (h : Element p t) : ∀ (q : UInt8) (r : Bytes), isDataDef q = isDataDef p →
    (r.head? = some 44 ∨ r.head? = some 41) → scan q (t ++ r) = some (t, r) := by
  induction h with
  | nil p =>
    intro q r _ hr
    cases r with
    | nil => simp at hr
    | cons c r => simp at hr; rw [List.nil_append, scan, if_pos (by simpa [cComma, cClose] using hr)]
  | char p c t hc _ ih =>
    intro q r _ hr
    simp at hc
    rw [List.cons_append, scan, if_neg (by simp [cComma, cClose, hc]), if_neg (by simp [cOpen, hc]), if_neg (by simp [cQuote, hc]), ih c r rfl hr]
    simp
  | attr p t hp _ ih =>
    intro q r hq hr
    have hd : isDataDef q = true := by rw [hq]; exact (dataDef_iff p).2 hp
    rw [List.cons_append, scan, if_neg (by decide), if_neg (by decide), if_pos (by rfl), if_pos hd, ih 39 r rfl hr]
    simp
  | quoted p b t hp hb _ ih =>
    intro q r hq hr
    have hd : ¬ isDataDef q = true := by rw [hq]; exact fun h => hp ((dataDef_iff p).1 h)
    have e : 39 :: (b ++ 39 :: t) ++ r = 39 :: (b ++ 39 :: (t ++ r)) := by simp
    rw [e, scan, if_neg (by decide), if_neg (by decide), if_pos (by rfl), if_neg hd]
    have hs := skipQuote_text b (t ++ r) hb
    split
    · next hn => rw [hs] at hn; cases hn
    · next t' r' hn =>
      rw [hs] at hn
      simp at hn
      obtain ⟨rfl, rfl⟩ := hn
      have := ih cQuote r rfl hr
      rw [this]
      simp
  | paren p b t hb _ ih =>
    intro q r hq hr
    have e : 40 :: (b ++ 41 :: t) ++ r = 40 :: (b ++ 41 :: (t ++ r)) := by simp
    rw [e, scan, if_neg (by decide), if_pos (by rfl)]
    have hs : skipParen 1 (b ++ 41 :: (t ++ r)) = some (b ++ [41], t ++ r) := by
      rw [skipParen_balanced hb 1 _ (by omega)]
      simp [skipParen, cOpen, cClose]
    split
    · next hn => rw [hs] at hn; cases hn
    · next t' r' hn =>
      rw [hs] at hn
      simp at hn
      obtain ⟨rfl, rfl⟩ := hn
      have := ih cClose r rfl hr
      rw [this]
      simp

/-- The loop gets from one state to another one. -/
def Reaches (s s' : Split) : Prop := ∃ n, ∀ k, s.loop (n + k) = s'.loop k

theorem Reaches.refl (s : Split) : Reaches s s := ⟨0, fun k => by simp⟩

theorem Reaches.trans {a b c : Split} (h1 : Reaches a b) (h2 : Reaches b c) : Reaches a c := by
  obtain ⟨n, hn⟩ := h1
  obtain ⟨m, hm⟩ := h2
  exact ⟨n + m, fun k => by rw [Nat.add_assoc, hn, hm]⟩

theorem Reaches.one {a b : Split} (h : a.step = .cont b) : Reaches a b :=
  ⟨1, fun k => by rw [Nat.add_comm, Split.loop, h]⟩

theorem loop_mono (n : Nat) : ∀ (s : Split) (o : Outcome) (k : Nat), s.loop n = some o → s.loop (n + k) = some o := by
  induction n with
  | zero => intro s o k h; simp [Split.loop] at h
  | succ n ih =>
    intro s o k h
    have e : n + 1 + k = (n + k) + 1 := by omega
    rw [e]
    rw [Split.loop] at h ⊢
    cases hs : s.step with
    | cont s' => rw [hs] at h; exact ih s' o k h
    | whole => rw [hs] at h; exact h
    | done l r => rw [hs] at h; exact h

/-- What an element does: it is appended to the current list and a comma after it is skipped. -/
def Reads (d : Data) : Prop := ∀ (p : UInt8) (r : Bytes) (top : Frame) (below : List Frame), isDataDef p = false → below ≠ [] →
    (r.head? = some 44 ∨ r.head? = some 41 ∧ d.value ≠ []) →
    ∃ q, Reaches ⟨p, d.value ++ r, top, below⟩ ⟨q, if r.head? = some 44 then r.tail else r, top ++ [d], below⟩ ∧
      (r.head? = some 44 → q = 44)

theorem skipComma_eq (p : UInt8) (r : Bytes) :
    (skipComma p r).2 = (if r.head? = some 44 then r.tail else r) ∧ (r.head? = some 44 → (skipComma p r).1 = 44) := by
  cases r with
  | nil => simp [skipComma]
  | cons c r => by_cases h : c = 44 <;> simp [skipComma, cComma, h]

theorem reads_list (l : List Data) (hp : ∀ d ∈ l, Reads d) (hne : ∀ d ∈ l, d.value = [] → d = .single [])
    (hl : l.getLast? ≠ some (.single [])) (r : Bytes) (below : List Frame) (hb : below ≠ []) :
    ∀ (p : UInt8) (top : Frame), isDataDef p = false →
    ∃ q, Reaches ⟨p, valueList l ++ 41 :: r, top, below⟩ ⟨q, 41 :: r, top ++ l, below⟩ := by
  induction l with
  | nil => intro p top _; exact ⟨p, by simpa [valueList] using Reaches.refl _⟩
  | cons d l ih =>
    intro p top h0
    cases l with
    | nil =>
      obtain ⟨q, h1, _⟩ := hp d (by simp) p (41 :: r) top below h0 hb (by
        right
        refine ⟨rfl, fun hv => hl ?_⟩
        rw [hne d (by simp) hv]; rfl)
      exact ⟨q, by simpa [valueList] using h1⟩
    | cons e l =>
      obtain ⟨q, h1, h2⟩ := hp d (by simp) p (44 :: (valueList (e :: l) ++ 41 :: r)) top below h0 hb (Or.inl rfl)
      have hq := h2 rfl
      subst hq
      obtain ⟨q', h3⟩ := ih (fun x hx => hp x (by simp [hx])) (fun x hx => hne x (by simp [hx])) (by simpa using hl) 44 (top ++ [d]) (by decide)
      refine ⟨q', ?_⟩
      have e1 : valueList (d :: e :: l) ++ 41 :: r = d.value ++ 44 :: (valueList (e :: l) ++ 41 :: r) := by
        simp [valueList, cComma]
      rw [e1]
      have := Reaches.trans h1 (by simpa using h3)
      simpa using this

theorem proper_value {d : Data} (h : Proper d) (hv : d.value = []) : d = .single [] := by
  cases h with
  | single t _ _ => simp only [Data.value] at hv; rw [hv]
  | comp l _ _ => simp [Data.value] at hv

theorem proper_reads {d : Data} (h : Proper d) : Reads d := by
  induction h with
  | single t ht hh =>
    intro p r top below hp _ hr
    have hp' : isDataDef p = isDataDef 44 := by rw [hp]; decide
    have hscan := scan_element ht p r hp' (hr.imp id And.left)
    simp only [Data.value] at hr ⊢
    have hstep : Split.step ⟨p, t ++ r, top, below⟩ =
        .cont ⟨(skipComma (lastOf p t) r).1, (skipComma (lastOf p t) r).2, top ++ [.single t], below⟩ := by
      have hne : ∃ c s, t ++ r = c :: s ∧ c ≠ 40 ∧ c ≠ 41 := by
        cases t with
        | nil =>
          cases r with
          | nil => simp at hr
          | cons c r => simp at hr; exact ⟨c, r, rfl, by rw [hr]; decide, by rw [hr]; decide⟩
        | cons c t =>
          refine ⟨c, t ++ r, rfl, by simpa using hh, ?_⟩
          rintro rfl
          cases ht with
          | char _ _ _ hc _ => simp at hc
      obtain ⟨c, s, he, h1, h2⟩ := hne
      rw [he] at hscan
      simp only [Split.step, he]
      rw [if_neg (by simpa [cOpen] using h1), if_neg (by simpa [cClose] using h2), hscan]
    obtain ⟨e1, e2⟩ := skipComma_eq (lastOf p t) r
    rw [e1] at hstep
    exact ⟨_, Reaches.one hstep, e2⟩
  | comp l hd hl ih =>
    intro p r top below hp hb hr
    have e1 : (Data.comp l).value ++ r = 40 :: (valueList l ++ 41 :: r) := by simp [Data.value, cOpen, cClose]
    rw [e1]
    obtain ⟨q, h1⟩ := reads_list l ih (fun d hx => proper_value (hd d hx)) hl r (top :: below) (by simp) 40 [] (by decide)
    have s1 : Split.step ⟨p, 40 :: (valueList l ++ 41 :: r), top, below⟩ = .cont ⟨40, valueList l ++ 41 :: r, [], top :: below⟩ := by
      simp [Split.step, cOpen]
    obtain ⟨e2, e3⟩ := skipComma_eq 41 r
    have s2 : Split.step ⟨q, 41 :: r, [] ++ l, top :: below⟩ =
        .cont ⟨(skipComma 41 r).1, if r.head? = some 44 then r.tail else r, top ++ [.comp l], below⟩ := by
      have hr' : r = [] ∨ r.head? = some cComma ∨ r.head? = some cClose := by
        rcases hr with h | h
        · exact Or.inr (Or.inl h)
        · exact Or.inr (Or.inr h.1)
      simp only [Split.step]
      rw [if_neg (by decide), if_pos (by rfl), if_pos hr']
      simp only [closeFrame]
      rw [if_neg (by simpa using hb)]
      simp only [List.nil_append]
      have : cClose = 41 := rfl
      rw [← e2]
    exact ⟨_, (Reaches.one s1).trans (h1.trans (Reaches.one s2)), e3⟩

/-- C35: a well-formed argument is split exactly into its elements, at every depth: commas separate elements unless they are within quotes or
parentheses of an element, a quote after an attribute letter does not begin a string. -/
theorem C35_structure (d : Data) (h : Proper d) (hd : d.value ≠ []) (fuel : Nat) (hf : d.value.length < fuel) : toData d.value fuel = some d := by
  unfold toData
  rw [if_neg hd]
  cases h with
  | single t ht hh =>
    have e : (Data.single t).value = t := by simp [Data.value]
    rw [e, if_pos (Or.inl (by simpa [cOpen] using hh))]
  | comp l hl hlast =>
    have hh : (Data.comp l).value.head? = some cOpen := by simp [Data.value]
    have hg : (Data.comp l).value.getLast? = some cClose := by
      rw [Data.value, ← List.cons_append, List.getLast?_concat]
    rw [if_neg (by simp [hh, hg])]
    have e1 : (Data.comp l).value = 40 :: (valueList l ++ 41 :: []) := by simp [Data.value, cOpen, cClose]
    have hinit := init_inv _ hh
    obtain ⟨o, ho, _, _⟩ := loop_inv hg fuel _ hinit hf
    obtain ⟨q, h1⟩ := reads_list l (fun d hx => proper_reads (hl d hx)) (fun d hx => proper_value (hl d hx)) hlast [] [[]] (by simp) 40 [] (by decide)
    have s1 : Split.step ⟨0, (Data.comp l).value, [], []⟩ = .cont ⟨40, valueList l ++ 41 :: [], [], [[]]⟩ := by
      rw [e1]; simp [Split.step, cOpen]
    have s2 : Split.step ⟨q, 41 :: [], [] ++ l, [[]]⟩ = .done [.comp l] [] := by
      simp [Split.step, cOpen, cClose, closeFrame, skipComma]
    obtain ⟨n, hn⟩ := (Reaches.one s1).trans h1
    have h2 := hn 1
    rw [show Split.loop ⟨q, 41 :: [], [] ++ l, [[]]⟩ 1 = some (.done [.comp l] []) by rw [Split.loop, s2]] at h2
    have h3 := loop_mono _ _ _ fuel h2
    have h4 := loop_mono _ _ _ (n + 1) ho
    rw [Nat.add_comm] at h3
    rw [h3] at h4
    simp at h4
    rw [ho, ← h4]

/-- Non-vacuity: `(A(1,2),,(B,'C,D)'),L'E)`. -/
example : Proper (.comp [.single [65, 40, 49, 44, 50, 41], .single [], .comp [.single [66], .single [39, 67, 44, 68, 41, 39]], .single [76, 39, 69]]) := by
  refine .comp _ ?_ (by simp)
  intro d hd
  simp only [List.mem_cons, List.not_mem_nil, or_false] at hd
  rcases hd with rfl | rfl | rfl | rfl
  · refine .single _ (.char _ _ _ (by decide) (.paren _ [49, 44, 50] [] ?_ (.nil _))) (by simp)
    exact .char _ _ (by decide) (by decide) (.char _ _ (by decide) (by decide) (.char _ _ (by decide) (by decide) .nil))
  · exact .single _ (.nil _) (by simp)
  · refine .comp _ ?_ (by simp)
    intro d hd
    simp only [List.mem_cons, List.not_mem_nil, or_false] at hd
    rcases hd with rfl | rfl
    · exact .single _ (.char _ _ _ (by decide) (.nil _)) (by simp)
    · exact .single _ (.quoted _ [67, 44, 68, 41] [] (by decide +kernel) (by decide) (.nil _)) (by simp)
  · exact .single _ (.char _ _ _ (by decide) (.attr _ _ (by decide +kernel) (.char _ _ _ (by decide) (.nil _)))) (by simp)

end Verif.Context
