import Verif.Lexing.LexerLines
/-!
What reading tokens does to the streams: only the current one moves, and it moves forward.
-/
namespace Verif.Lexing

/-- Between `s` and `s'` only the current stream has moved, and only forward. -/
structure Moved (s s' : Lx) : Prop where
  inBuf : s'.inBuf = s.inBuf
  recs : s'.recs = s.recs
  file : s.inBuf = true → s'.file = s.file
  buf : s.inBuf = false → s'.buf = s.buf
  cur : ∃ n, s'.cur = s.cur.adv n

theorem Moved.refl (s : Lx) : Moved s s := ⟨rfl, rfl, fun _ => rfl, fun _ => rfl, 0, rfl⟩

theorem Moved.trans {a b c : Lx} (h : Moved a b) (h' : Moved b c) : Moved a c := by
  obtain ⟨n, hn⟩ := h.cur
  obtain ⟨m, hm⟩ := h'.cur
  refine ⟨h'.inBuf.trans h.inBuf, h'.recs.trans h.recs, fun e => ?_, fun e => ?_, n + m, ?_⟩
  · rw [h'.file (h.inBuf.trans e), h.file e]
  · rw [h'.buf (h.inBuf.trans e), h.buf e]
  · rw [hm, hn, Inp.adv_add]

/-- Nothing moves if both streams stay. -/
theorem Moved.same {s s' : Lx} (h1 : s'.inBuf = s.inBuf) (h2 : s'.recs = s.recs) (h3 : s'.file = s.file) (h4 : s'.buf = s.buf) : Moved s s' :=
  ⟨h1, h2, fun _ => h3, fun _ => h4, 0, by simp [Lx.cur, h1, h3, h4, Inp.adv]⟩

theorem Moved.consume (s : Lx) : Moved s s.consume := by
  unfold Lx.consume
  by_cases h : s.inBuf = true
  · rw [if_pos h]
    exact ⟨rfl, rfl, fun _ => rfl, fun e => by rw [h] at e; simp at e, 1, by simp [Lx.cur, h, Inp.adv]⟩
  · rw [if_neg h]
    exact ⟨rfl, rfl, fun e => absurd e h, fun _ => rfl, 1, by simp [Lx.cur, h, Inp.adv]⟩

theorem Moved.startToken (s : Lx) : Moved s s.startToken := .same rfl rfl rfl rfl

theorem Moved.setLastLinePos (s : Lx) (i l : Nat) : Moved s (s.setLastLinePos i l) := .same rfl rfl rfl rfl

theorem Moved.createToken (s : Lx) (ty : Ty) (hidden : Bool := false) : Moved s (s.createToken ty hidden) := by
  have h0 : Moved s (if ty = .eof then { s with eofGen := true } else s) := by
    split
    · exact .same rfl rfl rfl rfl
    · exact .refl s
  refine h0.trans ?_
  unfold Lx.createToken
  simp only
  generalize (if ty = .eof then { s with eofGen := true } else s) = s1
  generalize (if s1.startBuf then s1.buf.p else s1.file.p) = q
  split
  · exact .refl _
  · exact .same rfl rfl rfl rfl

/-- A function that moves the current stream or fails. -/
def MovesTo (s : Lx) (r : Except Err Lx) : Prop := ∀ s', r = .ok s' → Moved s s'

theorem MovesTo.pure {s s' : Lx} (h : Moved s s') : MovesTo s (.ok s') := by
  intro t e; cases e; exact h

theorem MovesTo.error (s : Lx) (e : Err) : MovesTo s (.error e) := by intro t h; cases h

theorem MovesTo.bind {s : Lx} {r : Except Err Lx} {f : Lx → Except Err Lx} (h : MovesTo s r) (hf : ∀ s', Moved s s' → MovesTo s' (f s')) :
    MovesTo s (r >>= f) := by
  cases r with
  | error e => exact .error s e
  | ok s1 => intro t e; exact (h s1 rfl).trans (hf s1 (h s1 rfl) t e)

theorem MovesTo.after {a b : Lx} {r : Except Err Lx} (h : Moved a b) (h' : MovesTo b r) : MovesTo a r := fun t e => h.trans (h' t e)

theorem skipWhile_moves (cond : Lx → Bool) (s : Lx) : MovesTo s (skipWhile cond s) := by
  fun_induction skipWhile cond s with
  | case1 => exact .error _ _
  | case2 s _ _ ih => exact .after (.consume s) ih
  | case3 s => exact .pure (.refl s)

theorem lexBegin_moves (s : Lx) : MovesTo s s.lexBegin := by
  unfold Lx.lexBegin
  exact .bind (.after (.startToken s) (skipWhile_moves _ _)) fun s' _ => .pure (.createToken _ _ _)

theorem lexEnd_moves (s : Lx) (b : Bool) : MovesTo s (s.lexEnd b) := by
  unfold Lx.lexEnd
  refine .bind (.after (.startToken s) (skipWhile_moves _ _)) fun s' _ => ?_
  refine .pure (.trans ?_ (.createToken _ _ _))
  split
  · have h0 : Moved s' { s' with lastLinePos := s'.col } := .same rfl rfl rfl rfl
    have h1 : Moved s' ({ s' with lastLinePos := s'.col } : Lx).consume := h0.trans (.consume _)
    simp only
    split
    · exact h1.trans (.createToken _ _ _)
    · exact h1
  · exact .refl s'

theorem lexContinuation_moves (s : Lx) : MovesTo s s.lexContinuation := by
  unfold Lx.lexContinuation
  refine .bind (.after (.startToken s) (skipWhile_moves _ _)) fun s1 _ => ?_
  refine .bind (.after (.trans (.same rfl rfl rfl rfl : Moved s1 { s1 with endCol := s1.cfg.endDefault }) (.createToken _ _ _)) (lexEnd_moves _ _)) fun s2 _ => ?_
  refine .bind (lexBegin_moves _) fun s3 _ => ?_
  exact .bind (.after (.startToken s3) (skipWhile_moves _ _)) fun s4 _ => .pure (.createToken _ _ _)

theorem lexComment_moves (s : Lx) : MovesTo s s.lexComment := by
  generalize hn : s.left = n
  induction n using Nat.strongRecOn generalizing s with
  | _ n ih =>
    rw [Lx.lexComment.eq_def]
    refine .bind (.after (.startToken s) (skipWhile_moves _ _)) fun s1 _ => ?_
    simp only
    have h1 : Moved s1 (s1.createToken .comment true) := .createToken _ _ _
    generalize s1.createToken .comment true = s1' at h1 ⊢
    refine .after h1 ?_
    cases isSpace s1'.c with
    | error e => exact .error _ _
    | ok sp =>
      simp only [bind, Except.bind]
      split
      · refine MovesTo.bind (lexContinuation_moves s1') fun s2 _ => ?_
        split
        · rename_i hlt
          exact ih _ (hn ▸ hlt) s2 rfl
        · exact .error _ _
      · exact MovesTo.bind (lexEnd_moves s1' false) fun s2 _ => .pure (.setLastLinePos _ _ _)

theorem lexSpace_moves (s : Lx) : MovesTo s s.lexSpace := by
  unfold Lx.lexSpace
  exact .bind (skipWhile_moves _ _) fun s1 _ => .pure (.createToken _ _ _)

theorem wordLoop_moves (s : Lx) (w : Word) (s' : Lx) (w' : Word) (b : Bool) (h : wordLoop s w = .ok (s', w', b)) : Moved s s' := by
  fun_induction wordLoop s w with
  | case1 s w _ w1 _ => simp only [Except.ok.injEq, Prod.mk.injEq] at h; rw [← h.1]; exact .refl _
  | case2 => cases h
  | case3 s w _ _ _ _ ih => exact (Moved.consume s).trans (ih h)
  | case4 => simp only [Except.ok.injEq, Prod.mk.injEq] at h; rw [← h.1]; exact .refl _

theorem wordEnd_moves (s : Lx) (w : Word) : Moved s (s.wordEnd w) := by
  unfold Lx.wordEnd
  refine .trans (.createToken s (wordTy w)) ?_
  generalize s.createToken (wordTy w) = s1
  refine Moved.trans (b := s1.wordAttr w s.creatingVar) ?_ (.same rfl rfl rfl rfl)
  unfold Lx.wordAttr
  split
  · exact .trans (.startToken _) (.trans (.consume _) (.createToken _ _ _))
  · exact .refl _

theorem lexWord_moves (s : Lx) : MovesTo s s.lexWord := by
  unfold Lx.lexWord
  cases h : wordLoop s ⟨ordChar s.c && !digit s.c, digit s.c, false, 0⟩ with
  | error e => exact .error _ _
  | ok r =>
    obtain ⟨s1, w, early⟩ := r
    simp only [bind, Except.bind, pure, Except.pure]
    have h1 := wordLoop_moves _ _ _ _ _ h
    split
    · exact .pure (h1.trans (.createToken _ _ _))
    · exact .pure (h1.trans (wordEnd_moves _ _))

theorem lexPlain_moves (s : Lx) : MovesTo s s.lexPlain := by
  unfold Lx.lexPlain
  split
  · exact lexWord_moves s
  · split
    · exact .pure (.trans (.consume _) (.createToken _ _ _))
    · split
      · exact lexSpace_moves s
      · split
        · refine .pure (.trans (.consume _) ?_)
          split
          · exact .trans (.same rfl rfl rfl rfl : Moved s.consume { s.consume with apostrophes := s.consume.apostrophes + 1 }) (.createToken _ _ _)
          · exact .createToken _ _ _
        · split
          · refine .pure (.trans (.consume _) (.trans ?_ (.createToken _ _ _)))
            split
            · exact .consume _
            · exact .refl _
          · split
            · exact .pure (.trans (.consume _) (.createToken _ _ _))
            · exact lexWord_moves s

theorem processLoop_moves (s : Lx) : MovesTo s (processLoop s) := by
  generalize hn : s.left = n
  induction n using Nat.strongRecOn generalizing s with
  | _ n ih =>
    rw [processLoop.eq_def]
    split
    · refine .bind (.after (.startToken s) (lexPlain_moves _)) fun s1 _ => ?_
      split
      · rename_i hlt
        exact ih _ (hn ▸ hlt) s1 rfl
      · exact .error _ _
    · exact .pure (.refl s)

theorem lexProcess_moves (s : Lx) : MovesTo s s.lexProcess := by
  unfold Lx.lexProcess
  simp only
  have h1 : Moved s s.startToken.consume.consume.consume.consume.consume.consume.consume.consume :=
    .trans (.startToken _) (.trans (.consume _) (.trans (.consume _) (.trans (.consume _) (.trans (.consume _) (.trans (.consume _)
      (.trans (.consume _) (.trans (.consume _) (.consume _))))))))
  generalize s.startToken.consume.consume.consume.consume.consume.consume.consume.consume = s1 at h1 ⊢
  refine .after (h1.trans (.trans (.createToken _ _ _) (.startToken _))) (.bind (lexSpace_moves _) fun s2 _ => ?_)
  refine .bind (.after (.same rfl rfl rfl rfl : Moved s2 { s2 with apostrophes := 0, endCol := s2.endCol + 1 }) (processLoop_moves _)) fun s3 _ => ?_
  exact .after (.same rfl rfl rfl rfl : Moved s3 { s3 with endCol := s3.endCol - 1 }) (lexEnd_moves _ _)

theorem lexTokens_moves (s : Lx) : MovesTo s s.lexTokens := by
  unfold Lx.lexTokens
  split
  · split
    · exact .error _ _
    · split
      · exact lexProcess_moves s
      · exact lexComment_moves s
  · split
    · exact lexComment_moves s
    · exact lexPlain_moves s

/-- One turn: choose the stream, then move in it. -/
theorem step_moves (s : Lx) : MovesTo s.switchStreams s.step := by
  unfold Lx.step
  simp only
  refine .after (.startToken _) ?_
  generalize s.switchStreams.startToken = s1
  split
  · exact .pure (.trans (.createToken _ _ _) (.createToken _ _ _))
  · have rest : ∀ cont : Bool, MovesTo s1 (if cont then s1.lexContinuation
        else if (s1.cfg.unlimited && (s1.c == some 13 || s1.c == some 10)) || (!s1.cfg.unlimited && decide (s1.col ≥ s1.endCol)) then s1.lexEnd true
        else if s1.col < s1.cfg.beginCol then s1.lexBegin
        else s1.lexTokens) := by
      intro cont
      split
      · exact lexContinuation_moves s1
      · split
        · exact lexEnd_moves s1 true
        · split
          · exact lexBegin_moves s1
          · exact lexTokens_moves s1
    split
    · cases isSpace s1.c with
      | error e => exact .error _ _
      | ok sp => exact rest _
    · exact rest false

end Verif.Lexing
