import Verif.Lexing.LexerLemmas
import Verif.Lexing.LexerSpec
/-!
Whole runs of the tokeniser, and the characters its tokens carry.
-/
namespace Verif.Lexing

/-- Ask for `n` tokens. -/
def Lx.run : Nat → Lx → Except Err (List Tok × Lx)
  | 0, s => .ok ([], s)
  | n + 1, s =>
    match s.nextToken with
    | .error e => .error e
    | .ok (t, s1) =>
      match s1.run n with
      | .error e => .error e
      | .ok (ts, s2) => .ok (t :: ts, s2)

theorem run_add {m n : Nat} {s s1 : Lx} {ts : List Tok} (h : s.run m = .ok (ts, s1)) :
    s.run (m + n) = match s1.run n with | .error e => .error e | .ok (us, s2) => .ok (ts ++ us, s2) := by
  induction m generalizing s ts with
  | zero =>
    simp only [Lx.run, Except.ok.injEq, Prod.mk.injEq] at h
    obtain ⟨rfl, rfl⟩ := h
    rw [Nat.zero_add]
    split <;> simp_all
  | succ m ih =>
    rw [Nat.succ_add, Lx.run]
    rw [Lx.run] at h
    split at h
    · simp at h
    · rename_i t s2 h1
      split at h
      · simp at h
      · rename_i us s3 h2
        simp only [Except.ok.injEq, Prod.mk.injEq] at h
        obtain ⟨rfl, rfl⟩ := h
        rw [ih h2]
        cases s3.run n with
        | error e => rfl
        | ok p => obtain ⟨vs, s4⟩ := p; rfl

/-- The next turn finds the same stream; only the bookkeeping of line positions may differ. -/
structure Idle (s s' : Lx) : Prop where
  fo : FileOnly s'
  cfg : s'.cfg = s.cfg
  endCol : s'.endCol = s.endCol
  file : s'.file = s.file
  queue : s'.queue = []

theorem drain {s : Lx} (h : FileOnly s) : ∃ s', s.run s.queue.length = .ok (s.queue, s') ∧ Idle s s' := by
  generalize hq : s.queue = q
  induction q generalizing s with
  | nil => exact ⟨s, rfl, h, rfl, rfl, rfl, hq⟩
  | cons t q ih =>
    simp only [List.length_cons, Lx.run]
    rw [Lx.nextToken.eq_def, hq]
    simp only
    have key : ∀ s0 : Lx, FileOnly s0 → s0.cfg = s.cfg → s0.endCol = s.endCol → s0.file = s.file →
        ∃ s', ({ s0 with queue := q } : Lx).run q.length = .ok (q, s') ∧ Idle s s' := by
      intro s0 f c e fl
      obtain ⟨s', h1, h2⟩ := ih (s := { s0 with queue := q }) ⟨f.inBuf, f.buf, f.recs, f.bound⟩ rfl
      exact ⟨s', h1, h2.fo, h2.cfg.trans c, h2.endCol.trans e, h2.file.trans fl, h2.queue⟩
    by_cases ht : t.ty = .eolln
    · obtain ⟨s', h1, h2⟩ := key (s.setLastLinePos t.stop t.line) ⟨h.inBuf, h.buf, h.recs, h.bound⟩ rfl rfl rfl
      simp only [if_pos ht]
      rw [h1]; exact ⟨s', rfl, h2⟩
    · obtain ⟨s', h1, h2⟩ := key s h rfl rfl rfl
      simp only [if_neg ht]
      rw [h1]; exact ⟨s', rfl, h2⟩

/-- A turn, then its tokens are delivered. -/
theorem run_turn {s s1 : Lx} {j : Inp} {ts : List Tok} (hq : s.queue = []) (hs : s.step = .ok s1) (ho : Out s s1 j ts) (hne : ts ≠ []) :
    ∃ s', s.run ts.length = .ok (ts, s') ∧ Idle s1 s' := by
  have hq1 : s1.queue = ts := by rw [ho.queue, hq]; rfl
  obtain ⟨s', h1, h2⟩ := drain ho.fo
  refine ⟨s', ?_, h2⟩
  rw [hq1] at h1
  cases ts with
  | nil => exact absurd rfl hne
  | cons t us =>
    simp only [List.length_cons, Lx.run] at h1 ⊢
    have : s.nextToken = s1.nextToken := by
      rw [Lx.nextToken.eq_def, hq]
      rw [Lx.nextToken.eq_def s1, hq1]
      simp only [hs, bind, Except.bind]
      rw [hq1]
    rw [this]; exact h1

/-- A sequence of turns from `i` to the end of the file. -/
inductive Turns (cfg : Cfg) : Inp → List Tok → Prop
  | last {i : Inp} : i.cur = none → Turns cfg i [tok .eolln false i i, tok .eof false i i]
  | more {i j : Inp} {ts us : List Tok} : i.cur ≠ none → Turn cfg i j ts → Chain i ts j → Turns cfg j us → Turns cfg i (ts ++ us)

theorem Turn.eof_of {cfg : Cfg} {i j : Inp} {ts : List Tok} (h : Turn cfg i j ts) (hc : i.cur = none) :
    j = i ∧ ts = [tok .eolln false i i, tok .eof false i i] := by
  cases h with
  | eof => exact ⟨rfl, rfl⟩
  | process j ts h1 h2 h3 => rw [Inp.process, hc] at h2; simp at h2
  | cont c _ _ h3 => rw [hc] at h3; simp at h3
  | rest c h3 => rw [hc] at h3; simp at h3
  | comment ts h3 => rcases h3.2 with h3 | h3 <;> simp [hc] at h3
  | newline h3 => rw [hc] at h3; simp at h3
  | ret h3 => rw [hc] at h3; simp at h3
  | ordinary j ts h3 => exact absurd hc h3

/-- Asking for tokens leads to the end of the file, unless a character outside the table of `isspace` is met. -/
theorem run_turns {s : Lx} (h : FileOnly s) (hq : s.queue = []) (hb : s.cfg.beginCol = 0) (he : s.endCol = s.cfg.endDefault) :
    (∃ n ts s', s.run n = .ok (ts, s') ∧ Turns s.cfg s.file ts) ∨ (∃ n, s.run n = .error .ub ∧ Outside s.cfg.endDefault s.file) := by
  generalize hn : s.file.data.length - s.file.p = n
  induction n using Nat.strongRecOn generalizing s with
  | _ n ih =>
    rcases step_out h hb he with ⟨s1, j, ts, hs, ho, hch, ht⟩ | ⟨hs, hout⟩
    · by_cases hc : s.file.cur = none
      · left
        have hj := ht.eof_of hc
        obtain ⟨s', h1, _⟩ := run_turn hq hs ho (by rw [hj.2]; simp)
        refine ⟨_, _, _, h1, ?_⟩
        rw [hj.2]
        exact .last hc
      · have hlt := ht.lt hc
        have hch := hch hc
        have hle := hch.le h.bound
        have hne : ts ≠ [] := by
          rintro rfl
          cases hch
          omega
        obtain ⟨s2, h1, h2⟩ := run_turn hq hs ho hne
        have hb2 := hle.bound
        rw [hle.data] at hb2
        have hf2 : s2.file = j := h2.file.trans ho.file
        have hc2 : s2.cfg = s.cfg := h2.cfg.trans ho.cfg
        rcases ih (s := s2) _ (by rw [← hn, hf2, hle.data]; omega) h2.fo h2.queue (by rw [hc2]; exact hb)
          (by rw [h2.endCol, ho.endCol, hc2]; exact he) rfl with ⟨m, us, s3, h4, h5⟩ | ⟨m, h4, hout⟩
        · left
          refine ⟨ts.length + m, ts ++ us, s3, ?_, ?_⟩
          · rw [run_add h1, h4]
          · rw [hf2, hc2] at h5
            exact .more hc ht hch h5
        · right
          refine ⟨ts.length + m, ?_, ?_⟩
          · rw [run_add h1, h4]
          · rw [hc2, hf2] at hout
            obtain ⟨k, c, l1, l2⟩ := hout
            exact ⟨k, c, hle.trans l1, l2⟩
    · right
      refine ⟨1, ?_, hout⟩
      rw [Lx.run, Lx.nextToken.eq_def, hq]
      simp only [hs, bind, Except.bind]

theorem Turns.chain {cfg : Cfg} {i : Inp} {ts : List Tok} (h : Turns cfg i ts) (hi : i.p ≤ i.data.length) :
    ∃ us k, ts = us ++ [tok .eolln false k k, tok .eof false k k] ∧ Chain i us k ∧ k.cur = none := by
  induction h with
  | last hc => exact ⟨[], _, rfl, .nil _, hc⟩
  | more _ _ hch _ ih =>
    obtain ⟨us, k, rfl, h1, h2⟩ := ih (hch.le hi).bound
    exact ⟨_, k, (List.append_assoc _ _ _).symm, hch.append h1, h2⟩

/-! ### Offsets and positions -/

theorem adv_place (i : Inp) (n : Nat) (h : i.p + n ≤ i.data.length) :
    ((i.adv n).line, (i.adv n).col) = Spec.place (i.line, i.col) ((i.data.drop i.p).take n) := by
  induction n with
  | zero => simp [Inp.adv, Spec.place]
  | succ n ih =>
    have ih := ih (by omega)
    have hlt : n < (i.data.drop i.p).length := by rw [List.length_drop]; omega
    rw [List.take_succ_eq_append_getElem hlt, Spec.place, List.foldl_append]
    change _ = List.foldl _ (Spec.place (i.line, i.col) ((i.data.drop i.p).take n)) _
    rw [← ih, Inp.adv]
    have hcur : (i.adv n).cur = some (i.data.drop i.p)[n] := by
      rw [Inp.adv_cur _ _ (by omega), List.getElem_drop, List.getElem?_eq_getElem]
    simp only [List.foldl_cons, List.foldl_nil, Inp.consume, hcur]
    split <;> simp

theorem width_units (c : Nat) : width (some c) = Spec.units c := by simp [width, Spec.units]

/-- The column in UTF-16 units, while the characters and the one after are in the basic plane or the surplus is known. -/
theorem adv_place16 (i : Inp) (n : Nat) (h : i.p + n ≤ i.data.length) (d : Nat) (hd : i.col16 = d + (width i.cur - 1)) :
    ((i.adv n).line, (i.adv n).col16) =
      ((Spec.place16 (i.line, d) ((i.data.drop i.p).take n)).1,
        (Spec.place16 (i.line, d) ((i.data.drop i.p).take n)).2 + (width (i.adv n).cur - 1)) := by
  induction n with
  | zero => simp [Inp.adv, Spec.place16, hd]
  | succ n ih =>
    have ih := ih (by omega)
    have hlt : n < (i.data.drop i.p).length := by rw [List.length_drop]; omega
    rw [List.take_succ_eq_append_getElem hlt, Spec.place16, List.foldl_append]
    change _ = ((List.foldl _ (Spec.place16 (i.line, d) ((i.data.drop i.p).take n)) _).1,
      (List.foldl _ (Spec.place16 (i.line, d) ((i.data.drop i.p).take n)) _).2 + _)
    generalize Spec.place16 (i.line, d) ((i.data.drop i.p).take n) = q at ih ⊢
    obtain ⟨ql, qc⟩ := q
    simp only [Prod.mk.injEq] at ih
    have hcur : (i.adv n).cur = some (i.data.drop i.p)[n] := by
      rw [Inp.adv_cur _ _ (by omega), List.getElem_drop, List.getElem?_eq_getElem]
    have hnext : (i.adv (n + 1)).cur = (i.adv n).data[(i.adv n).p + 1]? := by
      rw [Inp.adv_cur _ _ h, Inp.adv_data, Inp.adv_p _ _ (by omega)]; rfl
    rw [hnext, Inp.adv]
    generalize hw : width (i.adv n).data[(i.adv n).p + 1]? = w
    have hw1 : 1 ≤ w := by rw [← hw, width]; split <;> omega
    generalize (i.data.drop i.p)[n] = c at hcur ⊢
    rw [hcur, width_units] at ih
    have hu : 1 ≤ Spec.units c := by unfold Spec.units; split <;> omega
    simp only [List.foldl_cons, List.foldl_nil, Inp.consume, hcur, hw]
    split
    · simp [ih.1]
    · simp only [Prod.mk.injEq]
      exact ⟨ih.1, by omega⟩

/-! ### What a chain says about offsets -/

theorem Chain.mem {i k : Inp} {ts : List Tok} (h : Chain i ts k) (hi : i.p ≤ i.data.length) :
    ∀ t ∈ ts, t.ty ≠ .eof ∧ ∃ a b, t = Lexing.tok t.ty t.hidden a b ∧ i.Le a ∧ a.Le b := by
  induction h with
  | nil => intro t ht; simp at ht
  | tok ty hid h1 h2 _ ih =>
    intro t ht
    rcases List.mem_cons.mp ht with rfl | ht
    · exact ⟨h2.2, _, _, rfl, .refl hi, h1⟩
    · obtain ⟨h3, a, b, h4, h5, h6⟩ := ih h1.bound t ht
      exact ⟨h3, a, b, h4, h1.trans h5, h6⟩
  | line h1 h2 _ ih =>
    intro t ht
    rcases List.mem_cons.mp ht with rfl | ht
    · exact ⟨by simp [Lexing.tok], _, _, rfl, .refl hi, h1⟩
    · rcases List.mem_cons.mp ht with rfl | ht
      · exact ⟨by simp [Lexing.tok], _, _, rfl, .refl hi, h1⟩
      · obtain ⟨h3, a, b, h4, h5, h6⟩ := ih h1.bound t ht
        exact ⟨h3, a, b, h4, h1.trans h5, h6⟩

theorem Chain.length {i k : Inp} {ts : List Tok} (h : Chain i ts k) (hi : i.p ≤ i.data.length) : ts.length + 2 * i.p ≤ 2 * k.p := by
  induction h with
  | nil => simp
  | tok ty hid h1 h2 h3 ih =>
    have := ih h1.bound
    simp only [List.length_cons]; omega
  | line h1 h2 _ ih =>
    have := ih h1.bound
    simp only [List.length_cons]; omega

/-! ### Every token handed out -/

/-- Where the tokens waiting and the file stand, relative to the start. -/
structure Good (cfg : Cfg) (i : Inp) (s : Lx) : Prop where
  fo : FileOnly s
  cfg : s.cfg = cfg
  endCol : s.endCol = s.cfg.endDefault
  le : i.Le s.file
  queue : ∀ t ∈ s.queue, ∃ a b, t = tok t.ty t.hidden a b ∧ i.Le a ∧ a.Le b

theorem nextToken_good {cfg : Cfg} {i : Inp} {s s' : Lx} {t : Tok} (hb : cfg.beginCol = 0) (g : Good cfg i s) (h : s.nextToken = .ok (t, s')) :
    Good cfg i s' ∧ ∃ a b, t = tok t.ty t.hidden a b ∧ i.Le a ∧ a.Le b := by
  have pop : ∀ (s0 : Lx) (u : Tok) (q : List Tok), Good cfg i s0 → s0.queue = u :: q →
      (Except.ok (ε := Err) (u, ({ (if u.ty = .eolln then s0.setLastLinePos u.stop u.line else s0) with queue := q } : Lx)) = .ok (t, s')) →
      Good cfg i s' ∧ ∃ a b, t = tok t.ty t.hidden a b ∧ i.Le a ∧ a.Le b := by
    intro s0 u q g0 hq hs'
    simp only [Except.ok.injEq, Prod.mk.injEq] at hs'
    obtain ⟨rfl, rfl⟩ := hs'
    refine ⟨?_, g0.queue u (by rw [hq]; simp)⟩
    have hq' : ∀ v ∈ q, ∃ a b, v = tok v.ty v.hidden a b ∧ i.Le a ∧ a.Le b := fun v hu => g0.queue v (by rw [hq]; simp [hu])
    split
    · exact ⟨⟨g0.fo.inBuf, g0.fo.buf, g0.fo.recs, g0.fo.bound⟩, g0.cfg, g0.endCol, g0.le, hq'⟩
    · exact ⟨⟨g0.fo.inBuf, g0.fo.buf, g0.fo.recs, g0.fo.bound⟩, g0.cfg, g0.endCol, g0.le, hq'⟩
  rw [Lx.nextToken.eq_def] at h
  cases hq : s.queue with
  | cons u q => rw [hq] at h; exact pop s u q g hq h
  | nil =>
    rw [hq] at h
    simp only at h
    rcases step_out g.fo (by rw [g.cfg]; exact hb) g.endCol with ⟨s1, j, ts, hs, ho, hch, ht⟩ | ⟨hs, _⟩
    · rw [hs] at h
      simp only [bind, Except.bind] at h
      have hmem : ∀ u ∈ ts, ∃ a b, u = tok u.ty u.hidden a b ∧ i.Le a ∧ a.Le b := by
        intro u hu
        by_cases hc : s.file.cur = none
        · have := ht.eof_of hc
          rw [this.2] at hu
          simp only [List.mem_cons, List.not_mem_nil, or_false] at hu
          rcases hu with rfl | rfl
          · exact ⟨_, _, rfl, g.le, .refl g.fo.bound⟩
          · exact ⟨_, _, rfl, g.le, .refl g.fo.bound⟩
        · obtain ⟨_, a, b, h1, h2, h3⟩ := (hch hc).mem g.fo.bound u hu
          exact ⟨a, b, h1, g.le.trans h2, h3⟩
      have hlej : s.file.Le j := by
        by_cases hc : s.file.cur = none
        · rw [(ht.eof_of hc).1]; exact .refl g.fo.bound
        · exact (hch hc).le g.fo.bound
      have hqs : s1.queue = ts := by rw [ho.queue, hq]; rfl
      have hne : ts ≠ [] := by
        by_cases hc : s.file.cur = none
        · rw [(ht.eof_of hc).2]; simp
        · have := ht.lt hc
          rintro rfl
          have hch := hch hc
          cases hch
          omega
      have g1 : Good cfg i s1 := ⟨ho.fo, ho.cfg.trans g.cfg, by rw [ho.endCol, ho.cfg]; exact g.endCol, by rw [ho.file]; exact g.le.trans hlej, by rw [hqs]; exact hmem⟩
      cases hq1 : s1.queue with
      | nil => exact absurd (hqs.symm.trans hq1) hne
      | cons u q =>
        rw [hq1] at h
        exact pop s1 u q g1 hq1 h
    · rw [hs] at h
      simp [bind, Except.bind] at h

theorem run_good {cfg : Cfg} {i : Inp} {s s' : Lx} {n : Nat} {ts : List Tok} (hb : cfg.beginCol = 0) (g : Good cfg i s) (h : s.run n = .ok (ts, s')) :
    ∀ t ∈ ts, ∃ a b, t = tok t.ty t.hidden a b ∧ i.Le a ∧ a.Le b := by
  induction n generalizing s ts with
  | zero =>
    simp only [Lx.run, Except.ok.injEq, Prod.mk.injEq] at h
    rw [← h.1]
    intro t ht; simp at ht
  | succ n ih =>
    rw [Lx.run] at h
    split at h
    · simp at h
    · rename_i t s1 h1
      split at h
      · simp at h
      · rename_i us s2 h2
        simp only [Except.ok.injEq, Prod.mk.injEq] at h
        obtain ⟨rfl, rfl⟩ := h
        obtain ⟨g1, hg⟩ := nextToken_good hb g h1
        intro u hu
        rcases List.mem_cons.mp hu with rfl | hu
        · exact hg
        · exact ih g1 h2 u hu

end Verif.Lexing
