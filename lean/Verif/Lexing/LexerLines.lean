import Verif.Lexing.LexerRun
/-!
The characters that reach the parser, and the statements they form.
-/
namespace Verif.Lexing

/-- What the parser sees of some tokens: the characters of the tokens that are not hidden, and `none` for each end of a logical line. -/
def seen (text : List Nat) (ts : List Tok) : List (Option Nat) :=
  ts.flatMap fun t =>
    if t.hidden then [] else if t.ty = .eolln then [none] else if t.ty = .eof then []
    else ((text.drop t.start).take (t.stop - t.start)).map some

/-- Statements, each followed by the end of its logical line. -/
def marked (ls : List (List Nat)) : List (Option Nat) := ls.flatMap fun l => l.map some ++ [none]

/-- The text from here on. -/
def Inp.rem (i : Inp) : List Nat := i.data.drop i.p

/-- The rest of this line. -/
def Inp.inLine (i : Inp) : List Nat := i.rem.takeWhile (· != 10)

/-- The lines after this one. -/
def Inp.rest (i : Inp) : List (List Nat) :=
  match i.rem.dropWhile (· != 10) with
  | [] => []
  | _ :: r => Spec.lines r

theorem lines_eq (r : List Nat) : Spec.lines r = r.takeWhile (· != 10) :: (match r.dropWhile (· != 10) with | [] => [] | _ :: r => Spec.lines r) := by
  induction r with
  | nil => rfl
  | cons c t ih =>
    by_cases hc : c = 10
    · simp [Spec.lines, hc]
    · simp [Spec.lines, hc, ih]

theorem Inp.lines_rem (i : Inp) : Spec.lines i.rem = i.inLine :: i.rest := lines_eq _

theorem Inp.rem_cons {i : Inp} {c : Nat} (h : i.cur = some c) : i.rem = c :: i.consume.rem := by
  have hb := Inp.bound_of_cur h
  rw [Inp.rem, Inp.rem, Inp.consume_data, Inp.consume_p (by rw [h]; simp), List.drop_eq_getElem_cons hb]
  unfold Inp.cur at h
  rw [(List.getElem?_eq_some_iff.mp h).2]

theorem Inp.rem_nil {i : Inp} (h : i.cur = none) : i.rem = [] := by
  rw [Inp.rem, List.drop_eq_nil_iff]
  exact (Inp.cur_none_iff i).mp h

theorem Inp.inLine_cons {i : Inp} {c : Nat} (h : i.cur = some c) (hc : c ≠ 10) : i.inLine = c :: i.consume.inLine := by
  simp [Inp.inLine, Inp.rem_cons h, hc]

theorem Inp.rest_cons {i : Inp} {c : Nat} (h : i.cur = some c) (hc : c ≠ 10) : i.rest = i.consume.rest := by
  simp [Inp.rest, Inp.rem_cons h, hc]

theorem Inp.inLine_end {i : Inp} (h : i.cur = none ∨ i.cur = some 10) : i.inLine = [] := by
  rcases h with h | h
  · simp [Inp.inLine, Inp.rem_nil h]
  · simp [Inp.inLine, Inp.rem_cons h]

theorem Inp.rest_none {i : Inp} (h : i.cur = none) : i.rest = [] := by simp [Inp.rest, Inp.rem_nil h]

theorem Inp.rest_newline {i : Inp} (h : i.cur = some 10) : i.rest = Spec.lines i.consume.rem := by
  simp [Inp.rest, Inp.rem_cons h]

theorem Inp.lineEnd_end {i : Inp} (h : i.cur = none ∨ i.cur = some 10) : i.lineEnd = i := by
  rcases h with h | h
  · exact Inp.skip_stop (.inr h)
  · exact Inp.skip_stop (.inl (by simp [h]))

theorem Inp.lineEnd_cons {i : Inp} {c : Nat} (h : i.cur = some c) (hc : c ≠ 10) : i.lineEnd = i.consume.lineEnd :=
  Inp.skip_of (by simp [h, hc]) (by simp [h])

theorem Inp.nextLine_cons {i : Inp} {c : Nat} (h : i.cur = some c) (hc : c ≠ 10) : i.nextLine = i.consume.nextLine := by
  rw [Inp.nextLine, Inp.lineEnd_cons h hc]; rfl

/-- Induction along a line. -/
theorem Inp.line_induction {P : Inp → Prop} (stop : ∀ i, i.cur = none ∨ i.cur = some 10 → P i)
    (step : ∀ i c, i.cur = some c → c ≠ 10 → P i.consume → P i) (i : Inp) : P i := by
  generalize hn : i.data.length - i.p = n
  induction n using Nat.strongRecOn generalizing i with
  | _ n ih =>
    cases h : i.cur with
    | none => exact stop i (.inl h)
    | some c =>
      by_cases hc : c = 10
      · exact stop i (.inr (by rw [h, hc]))
      · have hb := Inp.bound_of_cur h
        refine step i c h hc (ih _ ?_ i.consume rfl)
        rw [Inp.consume_data, Inp.consume_p (by simp [h])]
        omega

theorem Inp.nextLine_rest (i : Inp) :
    (i.lineEnd.cur = none ∧ i.rest = [] ∧ i.nextLine.cur = none) ∨
    (i.lineEnd.cur ≠ none ∧ i.rest = Spec.lines i.nextLine.rem ∧ i.nextLine.col = 0) := by
  induction i using Inp.line_induction with
  | stop i h =>
    rw [Inp.nextLine, Inp.lineEnd_end h]
    rcases h with h | h
    · left; exact ⟨h, Inp.rest_none h, by rw [Inp.consume_none h]; exact h⟩
    · right; exact ⟨by simp [h], Inp.rest_newline h, by simp [Inp.consume, h]⟩
  | step i c h hc ih => rwa [Inp.lineEnd_cons h hc, Inp.nextLine_cons h hc, Inp.rest_cons h hc]

/-- The character `k` places further on this line is there and not blank. -/
def contAt (k : Nat) (l : List Nat) : Bool :=
  match l[k]? with
  | some c => !Spec.white c
  | none => false

/-- What the parser sees from `i` on, in terms of the lines. -/
def expect (i : Inp) : List (Option Nat) :=
  if i.cur = none then [none]
  else if i.col = 0 then marked (Spec.statements .start (i.inLine :: i.rest))
  else ((Spec.strip i.inLine).take (71 - i.col)).map some ++
    (if contAt (71 - i.col) i.inLine then marked (Spec.statements (.stmt []) i.rest)
     else none :: (if i.rest = [] then [] else marked (Spec.statements .start i.rest)))

theorem marked_stmt (acc : List Nat) (ls : List (List Nat)) :
    marked (Spec.statements (.stmt acc) ls) = acc.map some ++ marked (Spec.statements (.stmt []) ls) := by
  induction ls generalizing acc with
  | nil => simp [Spec.statements, marked]
  | cons l ls ih =>
    simp only [Spec.statements]
    split
    · rw [ih, ih ([] ++ _)]
      simp
    · simp [marked]

theorem contAt_continued (l : List Nat) : contAt 71 l = Spec.continued l := rfl

/-- For a line that does not start a comment the two cases of `expect` agree. -/
theorem expect_line {i : Inp} (h0 : i.col = 0) (hc : Spec.isComment i.inLine = false) :
    expect i = ((Spec.strip i.inLine).take (71 - i.col)).map some ++
    (if contAt (71 - i.col) i.inLine then marked (Spec.statements (.stmt []) i.rest)
     else none :: (if i.rest = [] then [] else marked (Spec.statements .start i.rest))) := by
  unfold expect
  by_cases hn : i.cur = none
  · rw [if_pos hn, Inp.inLine_end (.inl hn), Inp.rest_none hn]
    simp [Spec.strip, contAt]
  · rw [if_neg hn, if_pos h0, Spec.statements, hc, h0, contAt_continued]
    simp only [Bool.false_eq_true, if_false, Nat.sub_zero]
    split
    · rw [marked_stmt]; simp [Spec.field]
    · simp only [marked, List.flatMap_cons, Spec.field, List.drop_zero, List.append_assoc, List.cons_append, List.nil_append]
      split <;> simp

theorem expect_inside {i : Inp} (h : i.col = 0 → Spec.isComment i.inLine = false) (hn : i.cur ≠ none ∨ i.col = 0) :
    expect i = ((Spec.strip i.inLine).take (71 - i.col)).map some ++
    (if contAt (71 - i.col) i.inLine then marked (Spec.statements (.stmt []) i.rest)
     else none :: (if i.rest = [] then [] else marked (Spec.statements .start i.rest))) := by
  by_cases h0 : i.col = 0
  · exact expect_line h0 (h h0)
  · rw [expect, if_neg (hn.resolve_right h0), if_neg h0]

theorem strip_cons {c : Nat} (l : List Nat) (hc : c ≠ 13) : Spec.strip (c :: l) = c :: Spec.strip l := by
  unfold Spec.strip
  cases l with
  | nil => simp [hc]
  | cons d l =>
    simp only [List.getLast?_cons_cons]
    split <;> simp

theorem strip_length (l : List Nat) : (Spec.strip l).length ≤ l.length := by
  unfold Spec.strip; split <;> simp

theorem contAt_cons (k c : Nat) (l : List Nat) : contAt (k + 1) (c :: l) = contAt k l := rfl

theorem contAt_drop (k d : Nat) (l : List Nat) : contAt k (l.drop d) = contAt (d + k) l := by
  unfold contAt; rw [List.getElem?_drop]

/-- One ordinary character. -/
theorem expect_step {i : Inp} {c : Nat} (h : i.cur = some c) (h10 : c ≠ 10) (h13 : c ≠ 13) (hcol : i.col < 71)
    (hcom : i.col = 0 → Spec.isComment i.inLine = false) : expect i = some c :: expect i.consume := by
  rw [expect_inside hcom (.inl (by simp [h])), Inp.inLine_cons h h10, Inp.rest_cons h h10, strip_cons _ h13]
  have e : 71 - i.col = (71 - i.consume.col) + 1 := by rw [Inp.consume_col h h10]; omega
  have hx : expect i.consume = ((Spec.strip i.consume.inLine).take (71 - i.consume.col)).map some ++
    (if contAt (71 - i.consume.col) i.consume.inLine then marked (Spec.statements (.stmt []) i.consume.rest)
     else none :: (if i.consume.rest = [] then [] else marked (Spec.statements .start i.consume.rest))) := by
    by_cases hn : i.consume.cur = none
    · rw [Inp.inLine_end (.inl hn), Inp.rest_none hn, expect, if_pos hn]
      simp [Spec.strip, contAt]
    · exact expect_inside (by rw [Inp.consume_col h h10]; omega) (.inl hn)
  rw [hx, e, contAt_cons]
  simp

/-- At the end of the statement columns, or of the line: what remains is the rest of the line. -/
theorem expect_nextLine (i : Inp) :
    (if i.lineEnd.cur ≠ none then [none] else []) ++ expect i.nextLine = none :: (if i.rest = [] then [] else marked (Spec.statements .start i.rest)) := by
  rcases Inp.nextLine_rest i with ⟨h1, h2, h3⟩ | ⟨h1, h2, h3⟩
  · simp [h1, h2, expect, h3]
  · rw [if_pos h1, h2, if_neg (by rw [Inp.lines_rem]; simp), Inp.lines_rem]
    simp only [List.cons_append, List.nil_append, List.cons.injEq, true_and]
    rw [expect, if_pos h3]
    split
    · rename_i hn
      rw [Inp.inLine_end (.inl hn), Inp.rest_none hn]
      simp [Spec.statements, marked, Spec.isComment, Spec.continued, Spec.field, Spec.strip]
    · rfl

/-- A position reached from the start of a line. -/
theorem toCont_spec (K : Nat) (i : Inp) :
    ∃ n, n ≤ K - i.col ∧ i.toCont K = i.adv n ∧ (i.toCont K).col = i.col + n ∧ (i.toCont K).inLine = i.inLine.drop (K - i.col) ∧
      (i.toCont K).rest = i.rest ∧ ((i.toCont K).col < K → (i.toCont K).cur = none ∨ (i.toCont K).cur = some 10) := by
  induction i using Inp.line_induction with
  | stop i h =>
    have : i.toCont K = i := by
      rcases h with h | h
      · exact Inp.skip_stop (.inr h)
      · exact Inp.skip_stop (.inl (by simp [h]))
    refine ⟨0, by omega, this, by rw [this]; rfl, by rw [this, Inp.inLine_end h]; simp, by rw [this], fun _ => by rw [this]; exact h⟩
  | step i c h hc ih =>
    by_cases hk : i.col < K
    · have e : i.toCont K = i.consume.toCont K := Inp.skip_of (by simp [h, hc, hk]) (by simp [h])
      obtain ⟨n, h1, h2, h3, h4, h5, h6⟩ := ih
      rw [Inp.consume_col h hc] at h1 h3 h4
      rw [e]
      refine ⟨n + 1, by omega, by rw [h2, Inp.adv_succ'], by omega, ?_, by rw [h5, Inp.rest_cons h hc], h6⟩
      rw [h4, Inp.inLine_cons h hc]
      have : K - i.col = (K - (i.col + 1)) + 1 := by omega
      rw [this, List.drop_succ_cons]
    · have e : i.toCont K = i := Inp.skip_stop (.inl (by simp [hk]))
      refine ⟨0, by omega, e, by rw [e]; rfl, ?_, by rw [e], fun h' => by rw [e] at h'; omega⟩
      rw [e]
      have : K - i.col = 0 := by omega
      rw [this]; rfl

theorem strip_drop (l : List Nat) (k : Nat) : Spec.strip (l.drop k) = (Spec.strip l).drop k := by
  unfold Spec.strip
  by_cases hk : k < l.length
  · have e : (l.drop k).getLast? = l.getLast? := by
      rw [List.getLast?_drop]
      exact if_neg (by omega)
    rw [e]
    split
    · rw [List.dropLast_eq_take, List.dropLast_eq_take, List.drop_take, List.length_drop]
      congr 1; omega
    · rfl
  · have e : l.drop k = [] := List.drop_eq_nil_of_le (by omega)
    rw [e]
    split
    · rename_i h; simp at h
    · split
      · rw [List.drop_eq_nil_of_le (by simp; omega)]
      · exact e.symm

/-- A continuation line, entered at its continue column. -/
theorem expect_cont {i : Inp} (h0 : i.col = 0) : expect (i.toCont 15) = marked (Spec.statements (.stmt []) (i.inLine :: i.rest)) := by
  obtain ⟨n, h1, h2, h3, h4, h5, h6⟩ := toCont_spec 15 i
  have hval : expect (i.toCont 15) = ((Spec.strip (i.toCont 15).inLine).take (71 - (i.toCont 15).col)).map some ++
    (if contAt (71 - (i.toCont 15).col) (i.toCont 15).inLine then marked (Spec.statements (.stmt []) (i.toCont 15).rest)
     else none :: (if (i.toCont 15).rest = [] then [] else marked (Spec.statements .start (i.toCont 15).rest))) := by
    by_cases hn : (i.toCont 15).cur = none
    · rw [Inp.inLine_end (.inl hn), Inp.rest_none hn, expect, if_pos hn]
      simp [Spec.strip, contAt]
    · refine expect_inside ?_ (.inl hn)
      intro hz
      rw [Inp.inLine_end (h6 (by omega))]
      rfl
  rw [hval, h5, h4, h0, Nat.sub_zero, strip_drop _ _]
  have hk : (71 - (i.toCont 15).col = 56 ∨ i.inLine.drop 15 = []) := by
    by_cases hz : (i.toCont 15).col < 15
    · right
      rw [← Inp.inLine_end (h6 hz), h4, h0]
    · left; omega
  have hcont : contAt (71 - (i.toCont 15).col) (i.inLine.drop 15) = Spec.continued i.inLine := by
    rcases hk with hk | hk
    · rw [hk, contAt_drop, contAt_continued]
    · have : i.inLine.length ≤ 15 := by simpa using hk
      rw [hk]
      unfold contAt Spec.continued
      rw [List.getElem?_eq_none (by omega : i.inLine.length ≤ 71)]
      simp
  have hfield : ((Spec.strip i.inLine).drop 15).take (71 - (i.toCont 15).col) = Spec.field 15 i.inLine := by
    unfold Spec.field
    rcases hk with hk | hk
    · rw [hk, List.drop_take]
    · have h7 : i.inLine.length ≤ 15 := by simpa using hk
      have h8 := strip_length i.inLine
      rw [List.drop_eq_nil_of_le (by omega), List.drop_eq_nil_of_le (by simp; omega)]
      simp
  rw [hcont, hfield, Spec.statements]
  split
  · rw [marked_stmt ([] ++ _)]; simp
  · simp only [List.nil_append, marked, List.flatMap_cons, List.append_assoc, List.cons_append]
    split <;> simp

theorem expect_next (i : Inp) : expect i.nextLine = marked (Spec.statements .start i.rest) := by
  have := expect_nextLine i
  rcases Inp.nextLine_rest i with ⟨h1, h2, h3⟩ | ⟨h1, h2, h3⟩
  · rw [h2]; simp [expect, h3, Spec.statements, marked]
  · rw [if_pos h1, if_neg (by rw [h2, Inp.lines_rem]; simp)] at this
    simpa using this

theorem toCont_nextLine (K : Nat) (i : Inp) : (i.toCont K).nextLine = i.nextLine := by
  induction i using Inp.line_induction with
  | stop i h =>
    have : i.toCont K = i := by
      rcases h with h | h
      · exact Inp.skip_stop (.inr h)
      · exact Inp.skip_stop (.inl (by simp [h]))
    rw [this]
  | step i c h hc ih =>
    by_cases hk : i.col < K
    · have e : i.toCont K = i.consume.toCont K := Inp.skip_of (by simp [h, hc, hk]) (by simp [h])
      rw [e, ih, Inp.nextLine_cons h hc]
    · have e : i.toCont K = i := Inp.skip_stop (.inl (by simp [hk]))
      rw [e]

/-- After a character in column 72 the reading goes on in the next line. -/
theorem afterCont_eq {i : Inp} {c : Nat} (hcol : i.col = 71) (h : i.cur = some c) (hc : c ≠ 10) : i.afterCont 71 15 = i.nextLine.toCont 15 := by
  have e1 : i.contChar 71 = i.consume.contChar 71 := Inp.skip_of (by simp [hcol]) (by simp [h])
  have e2 : i.consume.contChar 71 = i.consume := Inp.skip_stop (.inl (by rw [Inp.consume_col h hc]; simp [hcol]))
  rw [Inp.afterCont, e1, e2, ← Inp.nextLine_cons h hc]

/-- The place a continuation line is entered. -/
theorem entered {i : Inp} (h0 : i.col = 0) :
    (i.toCont 15).col ≤ 71 ∧ (i.toCont 15).rest = i.rest ∧ contAt (71 - (i.toCont 15).col) (i.toCont 15).inLine = Spec.continued i.inLine := by
  obtain ⟨n, h1, h2, h3, h4, h5, h6⟩ := toCont_spec 15 i
  refine ⟨by omega, h5, ?_⟩
  by_cases hz : (i.toCont 15).col < 15
  · have e := Inp.inLine_end (h6 hz)
    rw [e]
    rw [e, h0] at h4
    have : i.inLine.length ≤ 15 := by simpa using h4.symm
    unfold contAt Spec.continued
    rw [List.getElem?_eq_none (by omega : i.inLine.length ≤ 71)]
    simp
  · have : (i.toCont 15).col = 15 := by omega
    rw [this, h4, h0, contAt_drop, ← contAt_continued]

theorem afterComment_fin (E K : Nat) (ce : Bool) (i : Inp) : (i.afterComment E K ce).cur = none ∨ (i.afterComment E K ce).col = 0 := by
  fun_induction Inp.afterComment E K ce i with
  | case1 i c hc hb ih => exact ih
  | case2 i c hc hb =>
    rcases Inp.nextLine_rest (i.commentBody E) with ⟨_, _, h⟩ | ⟨_, _, h⟩
    · exact .inl h
    · exact .inr h
  | case3 i hc => exact .inl hc

theorem expect_comment (i : Inp) (hcol : i.col ≤ 71) :
    expect (i.afterComment 71 15 true) = marked (Spec.statements (if contAt (71 - i.col) i.inLine then .comment else .start) i.rest) := by
  generalize hn : i.data.length - i.p = n
  induction n using Nat.strongRecOn generalizing i with
  | _ n ih =>
    obtain ⟨m, h1, h2, h3, h4, h5, h6⟩ := toCont_spec 71 i
    have hnl := toCont_nextLine 71 i
    have hx : i.commentBody 71 = i.toCont 71 := rfl
    rw [Inp.afterComment.eq_def, hx]
    split
    · rename_i c hc
      have hbound := Inp.bound_of_cur hc
      by_cases h10 : c = 10
      · subst h10
        have e : i.inLine.drop (71 - i.col) = [] := by rw [← h4]; exact Inp.inLine_end (.inr hc)
        have : contAt (71 - i.col) i.inLine = false := by
          have h7 : i.inLine.length ≤ 71 - i.col := by simpa using e
          unfold contAt; rw [List.getElem?_eq_none h7]
        rw [this, if_neg (by simp [blank]), hnl]
        simpa using expect_next i
      · have h71 : (i.toCont 71).col = 71 := by
          by_cases hlt : (i.toCont 71).col < 71
          · rcases h6 hlt with h | h
            · rw [hc] at h; simp at h
            · rw [hc] at h; simp at h; exact absurd h h10
          · omega
        have hca : contAt (71 - i.col) i.inLine = !blank c := by
          have : contAt 0 (i.inLine.drop (71 - i.col)) = !blank c := by
            rw [← h4, Inp.inLine_cons hc h10]
            rfl
          rwa [contAt_drop] at this
        rw [hca]
        by_cases hb : blank c = true
        · simp only [hb, Bool.not_true, Bool.false_and, Bool.false_eq_true, if_false]
          rw [hnl]; exact expect_next i
        · simp only [Bool.not_eq_true] at hb
          simp only [hb, Bool.not_false, Bool.and_true, if_true]
          rw [afterCont_eq h71 hc h10, hnl]
          have hlt : i.p < i.nextLine.p := by
            rw [← hnl]
            have h8 : i.p ≤ (i.toCont 71).p := Inp.skip_p _ _
            exact Nat.lt_of_le_of_lt h8 (Inp.nextLine_lt (by rw [hc]; simp))
          have hle : i.nextLine.p ≤ (i.nextLine.toCont 15).p := Inp.skip_p _ _
          have hd : (i.nextLine.toCont 15).data = i.data := (Inp.skip_data _ _).trans (Inp.nextLine_data i)
          have hb2 : i.p < i.data.length := by
            have : (i.toCont 71).data = i.data := Inp.skip_data _ _
            have h8 : i.p ≤ (i.toCont 71).p := Inp.skip_p _ _
            rw [this] at hbound
            omega
          rcases Inp.nextLine_rest i with ⟨g1, g2, g3⟩ | ⟨g1, g2, g3⟩
          · have e : i.nextLine.toCont 15 = i.nextLine := Inp.skip_stop (.inr g3)
            have e2 : i.nextLine.afterComment 71 15 true = i.nextLine := by
              have e3 : i.nextLine.commentBody 71 = i.nextLine := Inp.skip_stop (.inr g3)
              rw [Inp.afterComment.eq_def, e3]
              split
              · rename_i c' hc'; rw [g3] at hc'; simp at hc'
              · rfl
            rw [e, e2, g2]
            simp [expect, g3, Spec.statements, marked]
          · obtain ⟨f1, f2, f3⟩ := entered g3
            rw [ih _ (by rw [← hn, hd]; omega) _ f1 rfl, f2, f3, g2, Inp.lines_rem, Spec.statements]
    · rename_i hc
      have e : i.inLine.drop (71 - i.col) = [] := by rw [← h4]; exact Inp.inLine_end (.inl hc)
      have h7 : i.inLine.length ≤ 71 - i.col := by simpa using e
      have : contAt (71 - i.col) i.inLine = false := by
        unfold contAt; rw [List.getElem?_eq_none h7]
      rw [this, ← h5, Inp.rest_none hc]
      simp [expect, hc, Spec.statements, marked]

/-! ### What the tokens of one turn show -/

theorem seen_append (text : List Nat) (ts us : List Tok) : seen text (ts ++ us) = seen text ts ++ seen text us := by simp [seen]

theorem seen_hidden (text : List Nat) {ts : List Tok} (h : Hidden ts) : seen text ts = [] := by
  unfold seen
  rw [List.flatMap_eq_nil_iff]
  intro t ht
  rw [if_pos (h t ht)]

theorem seen_endToks (text : List Nat) (i : Inp) : seen text (endToks true i) = if i.lineEnd.cur ≠ none then [none] else [] := by
  unfold endToks
  rw [seen_append, seen_hidden _ (emit_hidden _ _ _)]
  split <;> rename_i h
  · rw [if_pos h.1]; simp [seen, tok]
  · rw [if_neg (fun e => h ⟨e, rfl⟩)]; simp [seen]

/-- Ordinary tokens show the characters they cover. -/
theorem seen_plain {i j : Inp} {ts : List Tok} (h : Chain i ts j) (hi : i.p ≤ i.data.length) (hp : Plain ts) :
    seen i.data ts = ((i.data.drop i.p).take (j.p - i.p)).map some := by
  induction h with
  | nil => simp [seen]
  | @tok i j k ts ty hid h1 h2 h3 ih =>
    have hp1 := hp (Lexing.tok ty hid i j) (by simp)
    have ih := ih h1.bound (fun t ht => hp t (by simp [ht]))
    rw [h1.data] at ih
    have hle := (h3.le h1.bound).p
    have hle1 := h1.p
    change (if _ then _ else _) ++ seen i.data ts = _
    rw [if_neg (by rw [hp1.1]; simp), if_neg hp1.2.1, if_neg hp1.2.2, ih, ← List.map_append]
    congr 1
    have e : k.p - i.p = (j.p - i.p) + (k.p - j.p) := by omega
    rw [e, List.take_add, List.drop_drop]
    have : i.p + (j.p - i.p) = j.p := by omega
    rw [this]
    rfl
  | line h1 h2 h3 ih =>
    have hp1 := hp _ (List.mem_cons_self)
    exact absurd rfl hp1.2.1

theorem Inp.comment_iff {i : Inp} (h0 : i.col = 0) : i.comment ↔ Spec.isComment i.inLine = true := by
  unfold Inp.comment
  cases h : i.cur with
  | none => rw [Inp.inLine_end (.inl h)]; simp [Spec.isComment]
  | some c =>
    by_cases h10 : c = 10
    · subst h10; rw [Inp.inLine_end (.inr h)]; simp [Spec.isComment]
    · rw [Inp.inLine_cons h h10]
      have e : i.data[i.p + 1]? = i.consume.cur := by
        rw [Inp.cur, Inp.consume_data, Inp.consume_p (by simp [h])]
      rw [e]
      simp only [h0, true_and, Option.some.injEq]
      by_cases h42 : c = 42
      · simp [Spec.isComment, h42]
      · by_cases h46 : c = 46
        · subst h46
          cases h' : i.consume.cur with
          | none => rw [Inp.inLine_end (.inl h')]; simp [Spec.isComment]
          | some d =>
            by_cases hd : d = 10
            · subst hd; rw [Inp.inLine_end (.inr h')]; simp [Spec.isComment]
            · rw [Inp.inLine_cons h' hd]
              by_cases hd2 : d = 42
              · simp [Spec.isComment, hd2]
              · simp [Spec.isComment, hd2]
        · simp [Spec.isComment, h42, h46]

/-- Ordinary text. -/
theorem expect_run {i j : Inp} (h : Run false 71 i j) : expect i = ((i.data.drop i.p).take (j.p - i.p)).map some ++ expect j ∧ i.p ≤ j.p ∧ (i.col ≤ 71 → j.col ≤ 71) := by
  induction h with
  | refl i => simp
  | @step i j c h1 h2 h3 h4 h5 _ ih =>
    have h4 : i.col < 71 := by simpa using h4
    obtain ⟨ih1, ih2, ih3⟩ := ih
    have hp := Inp.consume_p (i := i) (by simp [h1])
    rw [hp] at ih1 ih2
    rw [Inp.consume_data] at ih1
    have hr := Inp.rem_cons h1
    rw [Inp.rem, Inp.rem, Inp.consume_data, hp] at hr
    refine ⟨?_, by omega, fun _ => ih3 (by rw [Inp.consume_col h1 h2]; omega)⟩
    rw [expect_step h1 h2 h3 h4 ?_, ih1, hr]
    · have : j.p - i.p = (j.p - (i.p + 1)) + 1 := by omega
      rw [this, List.take_succ_cons]
      rfl
    · intro h0
      cases hb : Spec.isComment i.inLine with
      | false => rfl
      | true =>
        have := ((Inp.comment_iff h0).mpr hb).2
        rw [h1] at this
        have h5 := h5 h0
        rcases this with h | ⟨h, h'⟩
        · simp at h; exact absurd h h5.1
        · simp at h; exact absurd ⟨h, h'⟩ h5.2

/-- The settings of a source file. -/
structure Standard (cfg : Cfg) : Prop where
  limited : cfg.unlimited = false
  endCol : cfg.endDefault = 71
  contCol : cfg.contCol = 15
  cont : cfg.contEnabled = true

/-- **Main lemma**: what is seen is what the lines say. -/
theorem seen_turns {cfg : Cfg} (hcfg : Standard cfg) {i : Inp} {ts : List Tok} (h : Turns cfg i ts) (hi : i.p ≤ i.data.length)
    (hcol : i.col ≤ 71 ∨ i.cur = none)
    (hcr : ∀ n, i.data[n]? = some 13 → i.data[n + 1]? = some 10)
    (hnp : ∀ j, i.Le j → j.col = 0 → ¬ j.process cfg.ictl) : seen i.data ts = expect i := by
  induction h with
  | last hc => simp [seen, tok, expect, hc]
  | @more i j ts us hc ht hch _ ih =>
    have hle := hch.le hi
    have ih' := ih hle.bound
    rw [hle.data] at ih'
    have hrec : (j.col ≤ 71 ∨ j.cur = none) → seen i.data us = expect j := fun h => ih' h hcr (fun k hk => hnp k (hle.trans hk))
    have hcol := hcol.resolve_right hc
    rw [seen_append]
    have hnext : (i.nextLine.col ≤ 71 ∨ i.nextLine.cur = none) := by
      rcases Inp.nextLine_rest i with ⟨_, _, h3⟩ | ⟨_, _, h3⟩
      · exact .inr h3
      · left; omega
    cases ht with
    | eof h => exact absurd h hc
    | cont c h1 h2 h3 h4 h5 h6 =>
      rw [hcfg.endCol] at h2
      rw [hcfg.endCol, hcfg.contCol] at hrec ⊢
      have h10 : c ≠ 10 := by rintro rfl; simp [blank] at h4
      rw [seen_hidden _ (contToks_hidden _ _ _), List.nil_append, hrec, afterCont_eq h2 h3 h10]
      · rw [expect_inside (by omega) (.inl hc), h2]
        have hca : contAt (71 - 71) i.inLine = true := by
          rw [Inp.inLine_cons h3 h10]
          simp only [contAt, Nat.sub_self, List.getElem?_cons_zero]
          change (!blank c) = true
          rw [h4]; rfl
        rw [hca, if_pos rfl]
        simp only [Nat.sub_self, List.take_zero, List.map_nil, List.nil_append]
        rcases Inp.nextLine_rest i with ⟨g1, g2, g3⟩ | ⟨g1, g2, g3⟩
        · have e : i.nextLine.toCont 15 = i.nextLine := Inp.skip_stop (.inr g3)
          rw [e, g2]
          simp [expect, g3, Spec.statements, marked]
        · rw [expect_cont g3, g2, Inp.lines_rem]
      · rw [afterCont_eq h2 h3 h10]
        rcases Inp.nextLine_rest i with ⟨g1, g2, g3⟩ | ⟨g1, g2, g3⟩
        · have e : i.nextLine.toCont 15 = i.nextLine := Inp.skip_stop (.inr g3)
          rw [e]; exact .inr g3
        · exact .inl (entered g3).1
    | rest c h1 h2 =>
      rw [hrec hnext, seen_endToks]
      have h2 := h2.resolve_left (by rw [hcfg.limited]; simp)
      rw [hcfg.endCol, hcfg.cont] at h2
      have h71 : i.col = 71 := by omega
      have hb : blank c = true := by simpa using h2.2.2 h71
      rw [expect_inside (by omega) (.inl hc), h71]
      have hca : contAt (71 - 71) i.inLine = false := by
        by_cases h10 : c = 10
        · rw [Inp.inLine_end (.inr (by rw [h1, h10]))]; rfl
        · rw [Inp.inLine_cons h1 h10]
          simp only [contAt, Nat.sub_self, List.getElem?_cons_zero]
          change (!blank c) = false
          rw [hb]; rfl
      rw [hca]
      simpa using expect_nextLine i
    | process j ts h0 h1 h2 => exact absurd h1 (hnp i (.refl hi) h0)
    | comment ts h1 h2 h3 h4 =>
      rw [hcfg.endCol, hcfg.contCol, hcfg.cont] at hrec
      have hfin : (i.afterComment 71 15 true).col ≤ 71 ∨ (i.afterComment 71 15 true).cur = none := by
        rcases afterComment_fin 71 15 true i with h | h
        · exact .inr h
        · left; omega
      rw [seen_hidden _ h4, List.nil_append, hrec hfin, expect_comment i (by omega)]
      rw [expect, if_neg hc, if_pos h1.1, Spec.statements, (Inp.comment_iff h1.1).mp h1, h1.1]
      simp only [if_true]
      rfl
    | newline h1 h2 h3 =>
      have e : i.nextLine = i.consume := by rw [Inp.nextLine, Inp.lineEnd_end (.inr h1)]
      rw [← e] at hrec ⊢
      rw [hrec hnext, expect_inside (by rw [Inp.inLine_end (.inr h1)]; intro _; rfl) (.inl hc), ← expect_nextLine i, Inp.inLine_end (.inr h1),
        Inp.lineEnd_end (.inr h1)]
      simp [seen, tok, Spec.strip, contAt, h1]
    | ret h1 h2 h3 =>
      rw [hcfg.endCol] at h3
      have hn : i.consume.cur = some 10 := by
        rw [Inp.cur, Inp.consume_data, Inp.consume_p hc]
        exact hcr _ h1
      have e : i.afterCr = i.nextLine := by
        rw [Inp.afterCr, if_pos hn, Inp.nextLine_cons h1 (by simp), Inp.nextLine, Inp.lineEnd_end (.inr hn)]
      have hl : i.inLine = [13] := by rw [Inp.inLine_cons h1 (by simp), Inp.inLine_end (.inr hn)]
      rw [e] at hrec ⊢
      rw [hrec hnext, expect_inside (by rw [hl]; intro _; rfl) (.inl hc), ← expect_nextLine i, hl, Inp.lineEnd_cons h1 (by simp),
        Inp.lineEnd_end (.inr hn)]
      have hca : contAt (71 - i.col) [13] = false := by
        have : 71 - i.col = (70 - i.col) + 1 := by omega
        rw [this]; rfl
      rw [hca]
      simp [seen, tok, Spec.strip, hn]
    | ordinary j ts h1 h2 h3 h4 =>
      rw [hcfg.endCol, hcfg.limited] at h2
      obtain ⟨e1, _, e3⟩ := expect_run h2
      rw [seen_plain hch hi h4, hrec (.inl (e3 hcol)), e1]

theorem process_line {i : Inp} {b : Bool} (h : i.process b) : Spec.isProcess i.inLine = true := by
  obtain ⟨_, h42, hu⟩ := h
  have hup : ∀ n c, upperAt i n = c → 65 ≤ c → ∃ d, i.data[i.p + n]? = some d ∧ d ≠ 10 ∧ Spec.upper d = c := by
    intro n c hu hc
    unfold upperAt at hu
    cases hd : i.data[i.p + n]? with
    | none => rw [hd] at hu; simp only at hu; omega
    | some d =>
      rw [hd] at hu
      refine ⟨d, rfl, ?_, ?_⟩
      · rintro rfl
        simp at hu
        omega
      · unfold Spec.upper
        simp at hu
        exact hu
  simp only [List.range, List.range.loop, List.map_cons, List.map_nil, List.cons.injEq, and_true] at hu
  obtain ⟨h1, h2, h3, h4, h5, h6, h7⟩ := hu
  have step : ∀ (j : Inp) (n c : Nat), j.data = i.data → j.p = i.p + n → upperAt i n = c → 65 ≤ c → ∃ d, j.inLine = d :: j.consume.inLine ∧ Spec.upper d = c ∧
      j.consume.data = i.data ∧ j.consume.p = i.p + (n + 1) := by
    intro j n c hd hp hu hc
    obtain ⟨d, e1, e2, e3⟩ := hup n c hu hc
    have hcur : j.cur = some d := by rw [Inp.cur, hd, hp]; exact e1
    exact ⟨d, Inp.inLine_cons hcur e2, e3, by rw [Inp.consume_data, hd], by rw [Inp.consume_p (by simp [hcur]), hp]; omega⟩
  have hc0 := Inp.inLine_cons h42 (by simp)
  obtain ⟨d1, a1, b1, x1, y1⟩ := step i.consume 1 _ (Inp.consume_data i) (Inp.consume_p (by simp [h42])) h1 (by omega)
  obtain ⟨d2, a2, b2, x2, y2⟩ := step _ 2 _ x1 y1 h2 (by omega)
  obtain ⟨d3, a3, b3, x3, y3⟩ := step _ 3 _ x2 y2 h3 (by omega)
  obtain ⟨d4, a4, b4, x4, y4⟩ := step _ 4 _ x3 y3 h4 (by omega)
  obtain ⟨d5, a5, b5, x5, y5⟩ := step _ 5 _ x4 y4 h5 (by omega)
  obtain ⟨d6, a6, b6, x6, y6⟩ := step _ 6 _ x5 y5 h6 (by omega)
  obtain ⟨d7, a7, b7, x7, y7⟩ := step _ 7 _ x6 y6 h7 (by omega)
  rw [hc0, a1, a2, a3, a4, a5, a6, a7]
  simp only [Spec.isProcess, List.take_succ_cons, List.take_zero, List.map_cons, List.map_nil, b1, b2, b3, b4, b5, b6, b7]
  rfl

/-- Places at column 0 are starts of lines. -/
theorem line_start {i : Inp} (h0 : i.p = 0) (n : Nat) (hn : n ≤ i.data.length) :
    (∀ l ∈ (i.adv n).rest, l ∈ Spec.lines i.data) ∧ ((i.adv n).col = 0 → (i.adv n).inLine ∈ Spec.lines i.data) := by
  have hr : i.rem = i.data := by rw [Inp.rem, h0, List.drop_zero]
  induction n with
  | zero =>
    have := Inp.lines_rem i
    rw [hr] at this
    rw [Inp.adv, this]
    exact ⟨fun l hl => by simp [hl], fun _ => by simp⟩
  | succ n ih =>
    obtain ⟨ih1, ih2⟩ := ih (by omega)
    rw [Inp.adv]
    have hcur := Inp.adv_cur n i (by omega)
    rw [h0, Nat.zero_add, List.getElem?_eq_getElem (by omega)] at hcur
    by_cases hc : i.data[n] = 10
    · rw [hc] at hcur
      have := Inp.rest_newline hcur
      rw [Inp.lines_rem] at this
      rw [this] at ih1
      exact ⟨fun l hl => ih1 l (by simp [hl]), fun _ => ih1 _ (by simp)⟩
    · rw [← Inp.rest_cons hcur hc]
      exact ⟨ih1, fun h => by rw [Inp.consume_col hcur hc] at h; omega⟩

end Verif.Lexing
