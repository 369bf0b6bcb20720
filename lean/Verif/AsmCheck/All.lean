import Verif.AsmCheck.Message

/-!
# C102: the operands of assembler instructions are accepted exactly when they are what the messages ask for

`Valid` (Spec.lean) is written from the texts of the messages; `check` (Model.lean) is the code. They agree on everything that is not
in `Quirk`, and there is a witness for each of the cases in it. `Reported` and `Exists` (Place.lean) say what is reported and where.
-/

namespace Verif.AsmCheck

/-- The operands of an instruction are accepted, without a message, exactly when they are what its messages ask for, but for the
operands in `Quirk`. -/
theorem C102_accepted_partial (i : Instr) (ops : List AOp) (hq : ¬ Quirk i ops) : check i ops = accept ↔ Valid i ops := by
  cases i with
  | noOperands => exact noOperands_iff ops
  | expression => exact expression_iff ops hq
  | cnop => exact cnop_iff ops
  | ictl => exact ictl_iff ops hq
  | iseq => exact iseq_iff ops hq
  | entry => exact entry_iff ops
  | external => exact external_iff ops hq
  | end_ => exact end_iff ops
  | mnote => exact mnote_iff ops hq
  | opsyn => exact opsyn_iff ops
  | stack => exact stack_iff ops
  | print => exact print_iff ops
  | punch => exact punch_iff ops hq
  | rmode => exact rmode_iff ops
  | amode => exact amode_iff ops
  | title => exact title_iff ops hq
  | drop => exact drop_iff ops hq
  | ccw => exact ccw_iff ops hq
  | «alias» => exact alias_iff ops hq
  | ainsert => exact ainsert_iff ops hq
  | adata => exact adata_iff ops hq
  | cattr => exact cattr_iff ops hq
  | exitctl => exact exitctl_iff ops
  | xattr => exact xattr_iff ops
  | acontrol => exact acontrol_iff ops hq

/-- Operands are accepted without a message or refused with exactly one, which is at the statement, at an operand that is there or at
a parameter that is there. ALIAS and ADATA do not keep this. -/
theorem C102_reported (i : Instr) (ops : List AOp) (h1 : i ≠ .alias) (h2 : i ≠ .adata) : Reported ops (check i ops) := by
  cases i with
  | noOperands => exact checkNoOperands_reported ops
  | expression => exact checkExpression_reported ops
  | cnop => exact checkCnop_reported ops
  | ictl => exact checkIctl_reported ops
  | iseq => exact checkIseq_reported ops
  | entry => exact checkEntry_reported ops
  | external => exact checkExternal_reported ops
  | end_ => exact checkEnd_reported ops
  | mnote => exact checkMnote_reported ops
  | opsyn => exact checkOpsyn_reported ops
  | stack => exact checkStack_reported ops
  | print => exact checkPrint_reported ops
  | punch => exact checkPunch_reported ops
  | rmode => exact checkRmode_reported ops
  | amode => exact checkAmode_reported ops
  | title => exact checkTitle_reported ops
  | drop => exact checkDrop_reported ops
  | ccw => exact checkCcw_reported ops
  | «alias» => exact absurd rfl h1
  | ainsert => exact checkAinsert_reported ops
  | adata => exact absurd rfl h2
  | cattr => exact checkCattr_reported ops
  | exitctl => exact checkExitctl_reported ops
  | xattr => exact checkXattr_reported ops
  | acontrol => exact checkAcontrol_reported ops

/-- Whatever the operands are, every message is at a place that exists: the checks read no operand and no parameter that is not
there. -/
theorem C102_place (i : Instr) (ops : List AOp) : ∀ d ∈ (check i ops).diags, Exists ops d.place := by
  have hr : ∀ o, Reported ops o → ∀ d ∈ o.diags, Exists ops d.place := by
    rintro _ (_ | ⟨d, h⟩)
    · simp
    · simpa using h
  by_cases h1 : i = .alias
  · subst h1
    rcases checkAlias_reported ops with h | h
    · exact hr _ h
    · show ∀ d ∈ (checkAlias ops).diags, _
      rw [h]; simp
  · by_cases h2 : i = .adata
    · subst h2; exact (checkAdata_place ops).1
    · exact hr _ (C102_reported i ops h1 h2)

/-- The operands of ALIAS that are refused without a message: a text in apostrophes after a letter that is neither C nor X. -/
theorem C102_silent_partial (i : Instr) (ops : List AOp) (h : (check i ops).ok = false) (hd : (check i ops).diags = []) :
    ∃ t v p r, i = .alias ∧ ops = [.simple t v] ∧ t.toList = p :: '\'' :: r ∧ p ≠ 'C' ∧ p ≠ 'X' := by
  have hr : ∀ o, Reported ops o → o.ok = false → o.diags ≠ [] := by
    rintro _ (_ | ⟨d, h⟩) <;> simp
  by_cases h1 : i = .alias
  · subst h1
    have e : checkAlias ops = ⟨false, []⟩ := by
      show check .alias ops = _
      generalize check .alias ops = o at h hd
      cases o
      simp_all
    unfold checkAlias at e
    have hs : ∀ c, ¬ (refuse c .stmt = (⟨false, []⟩ : Out)) := by intro c; simp [refuse]
    unfold sized at e
    split at e
    next hl =>
      rcases ops with _ | ⟨a, _ | ⟨b, r⟩⟩
      · simp at hl
      · cases a with
        | simple t v =>
          simp only at e
          split at e
          · simp [refuse] at e
          · unfold aliasText at e
            split at e
            next p r hl =>
              split at e
              · split at e
                · split at e <;> simp [refuse, accept] at e
                · next hp =>
                  split at e
                  · exfalso
                    rcases aliasPairs_reported [.simple t v] (by simp) r with hx
                    split at e
                    · simp [refuse] at e
                    · rw [e] at hx; cases hx
                  · next hp' => exact ⟨t, v, p, r, rfl, rfl, hl, hp, hp'⟩
              · simp [refuse] at e
            · simp [refuse] at e
        | complex id ps => simp [refuse] at e
        | empty => simp [refuse] at e
      · simp at hl
    · exfalso
      split at e
      · exact hs _ e
      · split at e
        · exact hs _ e
        · split at e <;> exact hs _ e
  · by_cases h2 : i = .adata
    · subst h2; exact absurd hd ((checkAdata_place ops).2 h)
    · exact absurd hd (hr _ (C102_reported i ops h1 h2) h)

/-! ## The cases in `Quirk` -/

theorem aliasPairs_apostrophe (r : List Char) (h : r.getLast? = some '\'') (he : r.length % 2 = 0) : (aliasPairs r).ok = false := by
  induction r using aliasPairs.induct <;> unfold aliasPairs
  · rw [if_pos ‹_›]; rfl
  · rw [if_neg ‹_›]
    simp only [*]
    rfl
  · rw [if_neg ‹_›]
    simp only [*]
    rfl
  next a b r hx v hv hr ih =>
    rw [if_neg hx]
    simp only [hv]
    rw [if_neg hr]
    cases r with
    | nil =>
      exfalso
      obtain rfl : b = '\'' := by simpa using h
      have hd : hexDigit '\'' = none := by decide
      apply hr
      left
      unfold stoul2 at hv
      cases ha : hexDigit a with
      | none => simp [ha, hd] at hv
      | some x =>
        simp only [ha, hd, Option.some.injEq] at hv
        have : x ≤ 15 := by
          unfold hexDigit at ha
          have hle : ∀ c d : Char, c ≤ d → c.toNat ≤ d.toNat := fun c d h => h
          have h9 : '9'.toNat = 57 := by decide
          have hf : 'f'.toNat = 102 := by decide
          have hF : 'F'.toNat = 70 := by decide
          split at ha
          next h => have := hle _ _ h.2; cases ha; omega
          · split at ha
            next h => have := hle _ _ h.2; cases ha; omega
            · split at ha
              next h => have := hle _ _ h.2; cases ha; omega
              · cases ha
        omega
    | cons c r =>
      refine ih ?_ ?_
      · simpa using h
      · simp only [List.length_cons] at he ⊢; omega
  next l hl =>
    rcases l with _ | ⟨a, _ | ⟨b, r⟩⟩
    · simp at h
    · simp at he
    · exact absurd rfl (hl a b r)

/-- No text that begins with X is accepted by ALIAS, whatever digits it has: the number of digits is taken to be even when the length
of the whole text is, and then the last pair has the apostrophe in it. -/
theorem C102_alias_hexadecimal_negation (t : String) (v : Option Int) (r : List Char) (h : t.toList = 'X' :: r) :
    (check .alias [.simple t v]).ok = false := by
  show (checkAlias [.simple t v]).ok = false
  unfold checkAlias sized
  rw [if_pos (by simp)]
  simp only
  split
  · rfl
  · rw [h]
    unfold aliasText
    split
    next p r' e =>
      injection e with e1 e2
      subst e1 e2
      split
      next hl =>
        rw [if_neg (by decide), if_pos rfl]
        split
        · rfl
        next he => exact aliasPairs_apostrophe r' hl (by simp only [List.length_cons] at he; omega)
      · rfl
    · rfl

/-- A text of as many letters A. -/
def letters (n : Nat) : List Char := List.replicate n 'A'

theorem letters_body (n : Nat) : Body (letters n) n := by
  have h := body_plain (letters n) (by simp [letters]) (by simp [letters])
  rwa [show (letters n).length = n by simp [letters]] at h

/-- The letters in apostrophes. -/
def lettersText (n : Nat) : String := String.ofList ('\'' :: (letters n ++ ['\'']))

theorem letters_enclosed (n : Nat) : Enclosed (.simple (lettersText n) none) (letters n) := by
  rw [enclosed_iff, lettersText, String.toList_ofList]

theorem lettersText_length (n : Nat) : (lettersText n).length = n + 2 := by
  rw [← length_toList, lettersText, String.toList_ofList]
  simp [letters]

theorem lettersText_quoted (n : Nat) : quoted (lettersText n).toList = true := by
  rw [lettersText, String.toList_ofList]
  exact ((quoted_iff _).2 ⟨letters n, rfl⟩).2

theorem mnote_long (t : String) (hq : quoted t.toList = true) (h : 1020 < t.length) :
    check .mnote [.simple t none] = refuse 117 (.op 0) := by
  show mnoteTexts t 0 none = _
  unfold mnoteTexts
  rw [hq, if_neg (by simp; omega), if_pos (by omega)]

theorem punch_long (t : String) (hq : quoted t.toList = true) (h : 2 ≤ t.length) (hs : 80 < punchSize t.toList) :
    check .punch [.simple t none] = refuse 108 (.op 0) := by
  show (if t.length < 2 ∨ quoted t.toList = false then refuse 300 (.op 0)
      else if punchSize t.toList ≤ 80 then accept else refuse 108 (.op 0)) = _
  rw [hq, if_neg (by simp; omega), if_neg (by omega)]

theorem ainsert_long (t : String) (b : AOp) (h : 80 < t.length) : check .ainsert [.simple t none, b] = refuse 157 (.op 0) := by
  show checkAinsert2 (.simple t none) b = _
  simp only [checkAinsert2]
  rw [if_pos (by omega)]

theorem title_long (t : String) (h : 102 < t.length) : check .title [.simple t none] = refuse 106 (.op 0) := by
  show (if t.length > 102 ∨ t.length < 3 then refuse 106 (.op 0) else if quoted t.toList = false then refuse 300 (.op 0)
      else accept) = _
  rw [if_pos (by omega)]

theorem digits_of {t : String} (h : t.toList.all (fun c => decide ('0' ≤ c ∧ c ≤ '9')) = true) : Digits t := by
  intro c hc
  simpa using List.all_eq_true.1 h c hc

/-- 0 for a value that may be "non-negative" (SPACE, CEJECT, START), PRIORITY(0) with a value that may be from 0 on (CATTR). -/
theorem C102_zero_witness :
    (check .expression [.simple "0" (some 0)] = refuse 148 (.op 0) ∧ Valid .expression [.simple "0" (some 0)]) ∧
    (check .cattr [.complex "PRIORITY" [.simple "0" (some 0)]] = refuse 208 (.param 0 0) ∧
      Valid .cattr [.complex "PRIORITY" [.simple "0" (some 0)]]) := by
  refine ⟨⟨by decide +kernel, Or.inr (Or.inr ⟨_, 0, rfl, ⟨_, rfl⟩, by decide⟩)⟩, by decide +kernel, by simp, ?_⟩
  simp only [List.mem_singleton, forall_eq]
  exact .priority _ 0 ⟨"0", digits_of (by decide +kernel), rfl⟩ (by decide)

/-- ICTL 20 is refused because of a continuation column that is not given, ICTL 1,,20 although the second operand may be omitted;
ICTL 1,80,99 is accepted. -/
theorem C102_ictl_witness :
    (check .ictl [.simple "20" (some 20)] = refuse 127 .stmt ∧ Valid .ictl [.simple "20" (some 20)]) ∧
    (check .ictl [.simple "1" (some 1), .empty, .simple "20" (some 20)] = refuse 242 (.op 1) ∧
      Valid .ictl [.simple "1" (some 1), .empty, .simple "20" (some 20)]) ∧
    (check .ictl [.simple "1" (some 1), .simple "80" (some 80), .simple "99" (some 99)] = accept ∧
      ¬ Valid .ictl [.simple "1" (some 1), .simple "80" (some 80), .simple "99" (some 99)]) := by
  refine ⟨⟨by decide +kernel, 20, 72, none, .b _ _ ⟨_, digits_of (by decide +kernel), rfl⟩, by simp⟩,
    ⟨by decide +kernel, 1, 72, some 20, .bec _ _ _ _ _ _ ⟨_, digits_of (by decide +kernel), rfl⟩ (Or.inr ⟨rfl, rfl⟩)
      ⟨_, digits_of (by decide +kernel), rfl⟩, by simp⟩, by decide +kernel, ?_⟩
  rintro ⟨b, e, c, h, -, -, -, -, -, hc⟩
  cases h with
  | bec _ _ _ _ _ c h1 h2 h3 =>
    obtain ⟨_, _, h3⟩ := h3
    cases h3
    have := (hc 99 rfl).2.1
    omega

/-- ISEQ 1+1,3 is accepted although the columns have to be decimal terms. -/
theorem C102_iseq_witness :
    check .iseq [.simple "1+1" (some 2), .simple "3" (some 3)] = accept ∧ ¬ Valid .iseq [.simple "1+1" (some 2), .simple "3" (some 3)] := by
  refine ⟨by decide +kernel, ?_⟩
  rintro (h | ⟨a, b, l, r, e, ⟨t, h, ha⟩, -⟩)
  · cases h
  · cases e
    cases ha
    have : ¬ ('0' ≤ '+' ∧ '+' ≤ '9') := by decide
    exact this (h '+' (by decide +kernel))

/-- EXTRN PART() is accepted. -/
theorem C102_part_witness : check .external [.complex "PART" []] = accept ∧ ¬ Valid .external [.complex "PART" []] := by
  refine ⟨by decide +kernel, ?_⟩
  rintro ⟨-, h⟩
  rcases h _ (List.mem_singleton.2 rfl) with ⟨_, _, _, e⟩ | ⟨ps, e, h, -⟩
  · cases e
  · cases e; exact h rfl

/-- MNOTE with a message of 1019 characters, PUNCH with 80, AINSERT with a record of 79 and TITLE with sixty apostrophes are
refused although 1020, 80, 80 and 100 characters are allowed. -/
theorem C102_length_witness :
    (check .mnote [.simple (lettersText 1019) none] = refuse 117 (.op 0) ∧ Valid .mnote [.simple (lettersText 1019) none]) ∧
    (check .punch [.simple (lettersText 80) none] = refuse 108 (.op 0) ∧ Valid .punch [.simple (lettersText 80) none]) ∧
    (check .ainsert [.simple (lettersText 79) none, .simple "BACK" none] = refuse 157 (.op 0) ∧
      Valid .ainsert [.simple (lettersText 79) none, .simple "BACK" none]) ∧
    (check .title [.simple (String.ofList ('\'' :: (List.replicate 120 '\'' ++ ['\'']))) none] = refuse 106 (.op 0) ∧
      Valid .title [.simple (String.ofList ('\'' :: (List.replicate 120 '\'' ++ ['\'']))) none]) := by
  refine ⟨⟨mnote_long _ (lettersText_quoted _) (by rw [lettersText_length]; decide), _, _, letters_enclosed 1019,
      by rw [letters, List.length_replicate]; decide, Or.inl rfl⟩,
    ⟨punch_long _ (lettersText_quoted _) (by rw [lettersText_length]; decide)
      (by rw [lettersText, String.toList_ofList]; decide +kernel), _, _, 80, rfl, letters_enclosed 80, letters_body 80, by decide⟩,
    ⟨ainsert_long _ _ (by rw [lettersText_length]; decide), _, _, _, 79, rfl, letters_enclosed 79, letters_body 79, by decide, by decide, "BACK", none, by simp, rfl⟩,
    title_long _ (by rw [← length_toList, String.toList_ofList]; decide +kernel), _, List.replicate 120 '\'', 60, rfl, ?_, ?_, by decide, by decide⟩
  · rw [enclosed_iff, String.toList_ofList]
  · have h : ∀ n, Body (List.replicate (n + n) '\'') n := by
      intro n
      induction n with
      | zero => exact .nil
      | succ n ih =>
        rw [show n + 1 + (n + 1) = n + n + 1 + 1 by omega, List.replicate_succ, List.replicate_succ]
        exact .apostrophe ih
    exact h 60

/-- DROP 16 is accepted, and DROP of a label with a dollar sign is refused. -/
theorem C102_drop_witness :
    (check .drop [.simple "16" (some 16)] = accept ∧ ¬ Valid .drop [.simple "16" (some 16)]) ∧
    (check .drop [.simple "A$" none] = refuse 141 (.op 0) ∧ Valid .drop [.simple "A$" none]) := by
  refine ⟨⟨by decide +kernel, ?_⟩, by decide +kernel, Or.inr ?_⟩
  · rintro (h | h)
    · cases h
    · rcases h _ (List.mem_singleton.2 rfl) with ⟨v, ⟨_, e⟩, _, h⟩ | ⟨_, e, _⟩
      · cases e; omega
      · cases e
  · simp only [List.mem_singleton, forall_eq]
    refine Or.inr ⟨"A$", rfl, Or.inl ⟨'A', ['$'], by decide +kernel, Or.inl (by decide), ?_, by decide +kernel⟩⟩
    simp [SymLetter]

/-- CCW accepts operands that have no value. -/
theorem C102_ccw_witness :
    check .ccw [.simple "X" none, .simple "X" none, .simple "X" none, .simple "X" none] = accept ∧
    ¬ Valid .ccw [.simple "X" none, .simple "X" none, .simple "X" none, .simple "X" none] := by
  refine ⟨by decide +kernel, ?_⟩
  rintro ⟨a, b, c, d, x, z, w, t, v, e, ⟨_, h⟩, -⟩
  cases e
  cases h

/-- ALIAS refuses X'C1C2' (154), accepts C'', refuses C'A''B' (152) and refuses Z'AB' without a message. -/
theorem C102_alias_witness :
    (check .alias [.simple "X'C1C2'" none] = refuse 154 (.op 0) ∧ Valid .alias [.simple "X'C1C2'" none]) ∧
    (check .alias [.simple "C''" none] = accept ∧ ¬ Valid .alias [.simple "C''" none]) ∧
    (check .alias [.simple "C'A''B'" none] = refuse 152 (.op 0) ∧ Valid .alias [.simple "C'A''B'" none]) ∧
    check .alias [.simple "Z'AB'" none] = ⟨false, []⟩ := by
  refine ⟨⟨by decide +kernel, _, _, ['C', '1', 'C', '2'], rfl, by simp, Or.inr ⟨by decide +kernel, .more _ _ _ ?_ (.one _ _ ?_)⟩⟩,
    ⟨by decide +kernel, ?_⟩, ⟨by decide +kernel, _, _, ['A', '\'', '\'', 'B'], rfl, by simp, Or.inl ⟨by decide +kernel, ?_⟩⟩,
    by decide +kernel⟩
  · exact ⟨12, 1, by decide +kernel, by decide +kernel, by decide, by decide⟩
  · exact ⟨12, 2, by decide +kernel, by decide +kernel, by decide, by decide⟩
  · rintro ⟨t, v, body, e, hb, h⟩
    cases e
    have ht : "C''".toList = ['C', '\'', '\''] := by decide +kernel
    rw [ht] at h
    rcases body with _ | ⟨c, r⟩
    · exact hb rfl
    · rcases h with ⟨h, -⟩ | ⟨h, -⟩ <;> simp at h
  · intro c hc
    have : c = 'A' ∨ c = '\'' ∨ c = 'B' := by simp at hc; tauto
    rcases this with rfl | rfl | rfl <;> exact ⟨by decide +kernel, by decide +kernel, by decide +kernel⟩

/-- ADATA accepts an empty text, accepts a text without apostrophes with a message, and refuses one of a single character with two. -/
theorem C102_adata_witness :
    (check .adata [.empty, .empty, .empty, .empty, .simple "" none] = accept ∧
      ¬ Valid .adata [.empty, .empty, .empty, .empty, .simple "" none]) ∧
    check .adata [.empty, .empty, .empty, .empty, .simple "AB" none] = ⟨true, [⟨300, .op 4⟩]⟩ ∧
    check .adata [.empty, .empty, .empty, .empty, .simple "A" none] = ⟨false, [⟨300, .op 4⟩, ⟨160, .op 4⟩]⟩ := by
  refine ⟨⟨by decide +kernel, ?_⟩, by decide +kernel, by decide +kernel⟩
  rintro ⟨a, b, c, d, e, he, -, h⟩
  cases he
  rcases h with h | ⟨body, h, -⟩
  · cases h
  · rw [enclosed_iff, show "".toList = [] by rfl] at h
    cases h

/-- ACONTROL OPTABLE() with an empty name of the table is accepted. -/
theorem C102_optable_witness :
    check .acontrol [.complex "OPTABLE" [.simple "" none]] = accept ∧ ¬ Valid .acontrol [.complex "OPTABLE" [.simple "" none]] := by
  refine ⟨by decide +kernel, ?_⟩
  rintro ⟨-, h⟩
  rcases acontrol_inv (h _ (List.mem_singleton.2 rfl)) with ⟨e, _⟩ | ⟨e, _⟩ | ⟨_, _, a, r, e, ⟨t, v, ht, e'⟩, _⟩ | ⟨e, _⟩
  · exact absurd e (by decide)
  · exact absurd e (by decide)
  · cases e; cases e'
    exact absurd ht (by decide +kernel)
  · exact absurd e (by decide)

/-! ## Examples -/

/-- CNOP 2,8 and POP PRINT,USING,NOPRINT are accepted, CNOP 3,8 and PUSH NOPRINT are not. -/
example : check .cnop [.simple "2" (some 2), .simple "8" (some 8)] = accept ∧
    check .stack [.simple "PRINT" none, .simple "USING" none, .simple "NOPRINT" none] = accept ∧
    check .cnop [.simple "3" (some 3), .simple "8" (some 8)] = refuse 144 (.op 0) ∧
    check .stack [.simple "NOPRINT" none] = refuse 114 .stmt := by decide +kernel

example : Valid .cnop [.simple "2" (some 2), .simple "8" (some 8)] :=
  (C102_accepted_partial .cnop _ (by simp [Quirk])).1 (by decide +kernel)

example : ¬ Quirk .xattr [.complex "REF" [.simple "DIRECT" none, .simple "CODE" none]] := by simp [Quirk]

/-- A message at a parameter. -/
example : check .xattr [.complex "REF" [.simple "CODE" none, .simple "DATA" none]] = refuse 203 (.param 0 1) ∧
    Exists [.complex "REF" [.simple "CODE" none, .simple "DATA" none]] (.param 0 1) :=
  ⟨by decide +kernel, .param 0 1 "REF" _ rfl (by decide)⟩

end Verif.AsmCheck
