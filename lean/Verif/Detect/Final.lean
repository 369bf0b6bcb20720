import Verif.Detect.Props
/-! C124: files are recognised as HLASM exactly when the configuration or the text says so. -/
namespace Verif.Detect
open Spec

/-! ### The text -/

theorem white_upper (c : Nat) : white (upperUnit c) = white c := by
  by_cases h : c < 123
  · have : ∀ c < 123, white (upperUnit c) = white c := by decide
    exact this c h
  · rw [upperUnit, if_neg (by omega)]

theorem blank_upper (c : Nat) : blank (upperUnit c) = blank c := by
  by_cases h : c < 123
  · have : ∀ c < 123, blank (upperUnit c) = blank c := by decide
    exact this c h
  · rw [upperUnit, if_neg (by omega)]

theorem isBlank_iff (c : Nat) : isBlank c ↔ blank c = true := by simp [isBlank, blank]

theorem isWhite_iff (c : Nat) : isWhite c ↔ white c = true := by
  simp only [isWhite, white, List.mem_cons, List.not_mem_nil, or_false, Bool.or_eq_true, Bool.and_eq_true, decide_eq_true_eq, beq_iff_eq]
  omega

theorem not_white (c : Nat) : ¬ isWhite c ↔ white c = false := by rw [isWhite_iff, Bool.not_eq_true]

theorem capital_eq (t : Text) : capital t = upper t := by
  unfold capital upper
  refine List.map_congr_left fun c _ => ?_
  unfold upperUnit
  by_cases h : 97 ≤ c ∧ c ≤ 122
  · rw [if_pos h, if_pos (by omega)]
  · rw [if_neg h, if_neg (by omega)]

theorem ref_iff (l : Text) : referenceInstructions.testStart (upper l) = true ↔
    ∃ name gap instr rest, l = name ++ gap ++ instr ++ rest ∧ (∀ c ∈ name, white c = false) ∧ gap ≠ [] ∧
      (∀ c ∈ gap, blank c = true) ∧ upper instr ∈ instructions ∧ ∃ c r, rest = c :: r ∧ blank c = true := by
  rw [testStart_iff]
  constructor
  · rintro ⟨s, u, he, hs⟩
    rw [referenceInstructions, has_cat] at hs
    obtain ⟨n, s1, rfl, hn, hs⟩ := hs
    rw [has_cat] at hs
    obtain ⟨g, s2, rfl, hg, hs⟩ := hs
    rw [has_cat] at hs
    obtain ⟨i, tr, rfl, hi, htr⟩ := hs
    rw [has_star_cls] at hn
    rw [has_plus_cls] at hg htr
    rw [has_any] at hi
    simp only [List.append_assoc] at he
    obtain ⟨n', r1, rfl, hn', he⟩ := List.map_eq_append_iff.mp he
    obtain ⟨g', r2, rfl, hg', he⟩ := List.map_eq_append_iff.mp he
    obtain ⟨i', r3, rfl, hi', he⟩ := List.map_eq_append_iff.mp he
    refine ⟨n', g', i', r3, by simp, ?_, ?_, ?_, ?_, ?_⟩
    · intro c hc
      have := hn (upperUnit c) (by rw [← hn']; exact List.mem_map_of_mem hc)
      rw [white_upper] at this; simpa using this
    · rintro rfl; exact hg.1 (by rw [← hg']; rfl)
    · intro c hc
      have := hg.2 (upperUnit c) (by rw [← hg']; exact List.mem_map_of_mem hc)
      rwa [blank_upper] at this
    · rw [upper, hi']; exact hi
    · cases tr with
      | nil => exact absurd rfl htr.1
      | cons c tr =>
        cases r3 with
        | nil => simp at he
        | cons d r3 =>
          simp only [List.map_cons, List.cons_append, List.cons.injEq] at he
          refine ⟨d, r3, rfl, ?_⟩
          have := htr.2 c (by simp)
          rw [← he.1, blank_upper] at this
          exact this
  · rintro ⟨n, g, i, rest, rfl, hn, hg, hgb, hi, c, r, rfl, hc⟩
    refine ⟨upper n ++ (upper g ++ (upper i ++ [upperUnit c])), upper r, by simp [upper], ?_⟩
    refine .cat ?_ (.cat ?_ (.cat ?_ ?_))
    · rw [has_star_cls]
      intro x hx
      obtain ⟨y, hy, rfl⟩ := List.mem_map.mp hx
      rw [white_upper, hn y hy]; rfl
    · rw [has_plus_cls]
      refine ⟨by simpa [upper] using hg, ?_⟩
      intro x hx
      obtain ⟨y, hy, rfl⟩ := List.mem_map.mp hx
      rw [blank_upper, hgb y hy]
    · rw [has_any]; exact hi
    · rw [has_plus_cls]
      refine ⟨by simp, ?_⟩
      intro x hx
      rw [List.mem_singleton.mp hx, blank_upper, hc]

theorem macro_iff (l : Text) : macroInstruction.testStart (upper l) = true ↔
    ∃ before w after, l = before ++ w ++ after ∧ before ≠ [] ∧ (∀ c ∈ before, blank c = true) ∧ upper w = macroWord := by
  rw [testStart_iff]
  constructor
  · rintro ⟨s, u, he, hs⟩
    rw [macroInstruction, has_cat] at hs
    obtain ⟨g, s1, rfl, hg, hs⟩ := hs
    rw [has_cat] at hs
    obtain ⟨w, tr, rfl, hw, _⟩ := hs
    rw [has_plus_cls] at hg
    rw [has_word] at hw
    simp only [List.append_assoc] at he
    obtain ⟨g', r1, rfl, hg', he⟩ := List.map_eq_append_iff.mp he
    obtain ⟨w', r2, rfl, hw', he⟩ := List.map_eq_append_iff.mp he
    refine ⟨g', w', r2, by simp, ?_, ?_, by rw [upper, hw', hw]⟩
    · rintro rfl; exact hg.1 (by rw [← hg']; rfl)
    · intro c hc
      have := hg.2 (upperUnit c) (by rw [← hg']; exact List.mem_map_of_mem hc)
      rwa [blank_upper] at this
  · rintro ⟨g, w, r, rfl, hg, hgb, hw⟩
    refine ⟨upper g ++ (upper w ++ []), upper r, by simp [upper], ?_⟩
    refine .cat ?_ (.cat ?_ .nil)
    · rw [has_plus_cls]
      refine ⟨by simpa [upper] using hg, ?_⟩
      intro x hx
      obtain ⟨y, hy, rfl⟩ := List.mem_map.mp hx
      rw [blank_upper, hgb y hy]
    · rw [has_word]; exact hw

theorem relevant_iff (l : Text) : relevant l = true ↔ Relevant l := by
  unfold relevant Relevant
  cases l with
  | nil => simp
  | cons a l =>
    cases l with
    | nil => simp
    | cons b l => simp; omega

theorem continued_iff (l : Text) : continued l = true ↔ Continued l := by
  unfold continued Continued
  cases l[71]? with
  | none => simp
  | some c => simp

theorem relevantLines_cons (l : Text) (ls : List Text) :
    relevantLines (l :: ls) = if relevant l = true then l :: relevantLines ls else relevantLines ls := by
  unfold relevantLines
  rw [List.filter_cons]
  by_cases h : relevant l = true
  · simp [h, (relevant_iff l).mp h]
  · have : ¬ Relevant l := fun h' => h ((relevant_iff l).mpr h')
    simp [h, this]

/-- The line counts as an HLASM line in the code. -/
theorem uses_iff (l : Text) (h : ¬ Bare l) : referenceInstructions.testStart (upper l) = true ↔ Uses l := by
  rw [ref_iff]
  simp only [Uses, Bare, not_white, isBlank_iff, capital_eq] at h ⊢
  constructor
  · rintro ⟨n, g, i, r, h1, h2, h3, h4, h5, h6⟩; exact ⟨n, g, i, r, h1, h2, h3, h4, h5, .inr h6⟩
  · rintro ⟨n, g, i, r, h1, h2, h3, h4, h5, h6 | h6⟩
    · exact absurd ⟨n, g, i, by rw [h1, h6]; simp, h2, h3, h4, h5⟩ h
    · exact ⟨n, g, i, r, h1, h2, h3, h4, h5, h6⟩

theorem fold_lines : ∀ (ls : List Text) (s : Score), (∀ l ∈ ls, Relevant l → ¬ Bare l) →
    (s.lastContinued = true → ∀ b ∈ (relevantLines ls).head?, b.length ≤ 80) →
    (∀ pre a b post, relevantLines ls = pre ++ a :: b :: post → Continued a → b.length ≤ 80) →
    (ls.foldl Score.line s).score = s.score + hlasmLines s.lastContinued (relevantLines ls) ∧
      (ls.foldl Score.line s).lines = s.lines + (relevantLines ls).length
  | [], s, _, _, _ => by simp [relevantLines, hlasmLines]
  | l :: ls, s, hb, hf, ha => by
    have hb' : ∀ l ∈ ls, Relevant l → ¬ Bare l := fun x hx => hb x (by simp [hx])
    rw [List.foldl_cons, relevantLines_cons]
    rw [relevantLines_cons] at hf ha
    by_cases hr : relevant l = true
    · rw [if_pos hr] at hf ha ⊢
      have hu := uses_iff l (hb l (by simp) ((relevant_iff l).mp hr))
      have ha' : ∀ pre a b post, relevantLines ls = pre ++ a :: b :: post → Continued a → b.length ≤ 80 :=
        fun pre a b post he => ha (l :: pre) a b post (by rw [he]; rfl)
      have hstep : s.line l = if (referenceInstructions.testStart (upper l) || s.lastContinued) && decide (l.length ≤ 80) then
          { score := s.score + 1, lines := s.lines + 1, lastContinued := continued l } else { s with lines := s.lines + 1 } := by
        rw [Score.line, if_pos hr]
      have hcond : ((referenceInstructions.testStart (upper l) || s.lastContinued) && decide (l.length ≤ 80)) = true ↔
          l.length ≤ 80 ∧ (Uses l ∨ s.lastContinued = true) := by
        rw [Bool.and_eq_true, Bool.or_eq_true, hu, decide_eq_true_eq]; exact And.comm
      rw [hlasmLines]
      by_cases hc : l.length ≤ 80 ∧ (Uses l ∨ s.lastContinued = true)
      · rw [hstep, if_pos (hcond.mpr hc), if_pos hc]
        have ih := fold_lines ls { score := s.score + 1, lines := s.lines + 1, lastContinued := continued l } hb' (by
          intro hk b hbm
          cases hrl : relevantLines ls with
          | nil => rw [hrl] at hbm; simp at hbm
          | cons x xs =>
            rw [hrl] at hbm
            simp only [List.head?_cons, Option.mem_def, Option.some.injEq] at hbm
            subst hbm
            exact ha [] l x xs (by rw [hrl]; rfl) ((continued_iff l).mp hk)) ha'
        simp only at ih
        rw [ih.1, ih.2]
        refine ⟨?_, by simp; omega⟩
        rw [show (@decide (Continued l) (Classical.propDecidable _)) = continued l by
          rw [Bool.eq_iff_iff, @decide_eq_true_eq _ (Classical.propDecidable _), continued_iff]]
        omega
      · have hnc : s.lastContinued = false := by
          cases hk : s.lastContinued with
          | false => rfl
          | true => exact absurd ⟨hf hk l (by simp), .inr hk⟩ hc
        rw [hstep, if_neg (fun h => hc (hcond.mp h)), if_neg hc]
        have ih := fold_lines ls { s with lines := s.lines + 1 } hb' (by intro hk; simp [hnc] at hk) ha'
        simp only at ih
        rw [ih.1, ih.2, hnc]
        exact ⟨rfl, by simp; omega⟩
    · rw [if_neg hr] at hf ha ⊢
      have hstep : s.line l = s := by rw [Score.line, if_neg hr]
      rw [hstep]
      exact fold_lines ls s hb' hf ha

theorem mem_glue (sep c : Nat) : ∀ (ls : List Text) (l : Text), l ∈ ls → c ∈ l → c ∈ glue sep ls
  | [], l, h, _ => by simp at h
  | [x], l, h, hc => by rw [List.mem_singleton.mp h] at hc; exact hc
  | x :: y :: r, l, h, hc => by
    rw [glue_cons _ _ (by simp), List.mem_append]
    rcases List.mem_cons.mp h with rfl | h
    · exact .inl hc
    · exact .inr (List.mem_cons_of_mem _ (mem_glue sep c (y :: r) l h hc))

theorem stripCR_id {l : Text} (h : 13 ∉ l) : stripCR l = l := by
  rw [stripCR, if_neg]
  intro he
  exact h (List.mem_of_getLast? he)

theorem lines_iff {text : Text} (h : 13 ∉ text) (ls : List Text) : Lines text ls ↔ ls = split 10 text := by
  constructor
  · rintro ⟨raw, hne, rfl, hc, rfl⟩
    rw [split_glue 10 raw hne hc]
    have : ∀ l ∈ raw, stripCR l = l := fun l hl => stripCR_id fun h13 => h (mem_glue 10 13 raw l hl h13)
    rw [List.map_congr_left this]; simp
  · rintro rfl
    refine ⟨split 10 text, split_ne 10 text, (glue_split 10 text).symm, split_clean 10 text, ?_⟩
    have : ∀ l ∈ split 10 text, stripCR l = l := fun l hl => stripCR_id fun h13 => h (by
      have := mem_glue 10 13 (split 10 text) l hl h13
      rwa [glue_split] at this)
    rw [List.map_congr_left this]; simp

theorem checkText_iff (text : Text) (h : PlainText text) : checkText text = true ↔ TextSays text := by
  obtain ⟨h13, h⟩ := h
  obtain ⟨hm, hb, ha⟩ := h (split 10 text) ((lines_iff h13 _).mpr rfl)
  have hfold := fold_lines (split 10 text) {} hb (by intro hk; simp at hk) ha
  have hmac : macroInstruction.testStart (upper ((split 10 text).headD [])) = true ↔ ∃ l ∈ (split 10 text).head?, MacroLine l := by
    rw [macro_iff]
    cases hs : split 10 text with
    | nil => exact absurd hs (split_ne 10 text)
    | cons l ls =>
      rw [hs] at hm
      simp only [isBlank_iff, capital_eq] at hm
      simp only [List.headD_cons, List.head?_cons, Option.mem_def, Option.some.injEq, exists_eq_left', MacroLine, isBlank_iff, capital_eq]
      constructor
      · rintro ⟨b, w, a, h1, h2, h3, h4⟩; exact ⟨b, w, a, h1, h2, h3, h4, hm l (by simp) b w a h1 h2 h3 h4⟩
      · rintro ⟨b, w, a, h1, h2, h3, h4, _⟩; exact ⟨b, w, a, h1, h2, h3, h4⟩
  have hsays : TextSays text ↔ (∃ l ∈ (split 10 text).head?, MacroLine l) ∨
      5 * hlasmLines false (relevantLines (split 10 text)) > 2 * (relevantLines (split 10 text)).length := by
    constructor
    · rintro ⟨ls, hl, h⟩; rw [(lines_iff h13 ls).mp hl] at h; exact h
    · intro h; exact ⟨_, (lines_iff h13 _).mpr rfl, h⟩
  rw [hsays, ← hmac, checkText]
  simp only
  split
  · next h1 => exact ⟨fun _ => .inl h1, fun _ => rfl⟩
  · next h1 =>
    rw [decide_eq_true_eq, hfold.1, hfold.2]
    simp only [Nat.zero_add]
    exact ⟨.inr, fun h => h.resolve_left h1⟩

/-! ### The configuration -/

/-- The expressions of a list of entries. -/
def exprsOf (folder : Text) (tail : List Text) (l : List (Option Text)) : List Re :=
  l.filterMap fun e => e.map fun p => wildRe (join (folder :: p :: tail))

theorem addAll_ok (folder : Text) (tail : List Text) : ∀ (l : List (Option Text)) (es : List Re), (∀ e ∈ l, ∃ p, e = some p) →
    addAll folder tail es l = (es ++ exprsOf folder tail l, true)
  | [], es, _ => by simp [addAll, exprsOf]
  | e :: l, es, h => by
    obtain ⟨p, rfl⟩ := h e (by simp)
    rw [addAll, convert_eq]
    simp only
    rw [addAll_ok folder tail l _ fun x hx => h x (by simp [hx])]
    simp [exprsOf]

theorem dir_of {lib : Lib} {l dir : Text} (h : Given lib l) (hd : Dir l dir) : lib.dir = some l := by
  rcases h with rfl | rfl
  · rfl
  · obtain ⟨p, ⟨segs, h1, h2, rfl, _⟩, _, hl⟩ := hd
    have hne := (glue_last 47 segs (ne_of_filter h2) fun s hs => name_ok (h1 s hs)).2
    have : l ≠ [] := by rcases hl with rfl | rfl <;> simp [hne]
    rw [Lib.dir, if_neg this]

theorem load_ok (folder : Text) (w : World) (pc : PgmConf) (gc : GrpConf) (hp : w.pgm = .ok pc) (hg : w.grp = .ok gc) (hc : PlainConf pc gc) :
    load folder w = (exprsOf folder [] (pc.pgms ++ pc.always) ++ exprsOf folder [[42]] (gc.libs.map Lib.dir), true) := by
  have h1 : ∀ e ∈ pc.pgms, ∃ p, e = some p := fun e he => by
    obtain ⟨p, _, h, _⟩ := hc.1 e (by simp [he]); exact ⟨p, h⟩
  have h2 : ∀ e ∈ pc.always, ∃ p, e = some p := fun e he => by
    obtain ⟨p, _, h, _⟩ := hc.1 e (by simp [he]); exact ⟨p, h⟩
  have h3 : ∀ e ∈ gc.libs.map Lib.dir, ∃ p, e = some p := fun e he => by
    obtain ⟨lib, hl, rfl⟩ := List.mem_map.mp he
    obtain ⟨l, _, h, hd⟩ := hc.2 lib hl; exact ⟨l, dir_of h hd⟩
  rw [load, hp, hg]
  simp only [addAll_ok folder [] pc.pgms _ h1, Bool.not_true, Bool.false_eq_true, if_false, addAll_ok folder [] pc.always _ h2,
    addAll_ok folder [[42]] _ _ h3]
  simp [exprsOf]

/-! ### Histories -/

/-- The expressions are those of the configuration on the disk. -/
def Cur (folder : Text) (s : Sys) : Prop := s.st.exprs = (load folder s.world).1

theorem paths_known (s : St) (w : World) (folder : Text) (h : w.folder = some folder) : (s.paths w).2.known = true := by
  unfold St.paths
  split
  · next hk => simp only [Bool.and_eq_true] at hk; exact hk.1.1
  · rw [h]; simp only; (repeat' split) <;> rfl

theorem paths_ok (s : St) (w : World) (folder : Text) (h : w.folder = some folder) (hp : w.pgm.exist = true) (hg : w.grp.exist = true) :
    s.paths w = (true, { s with known := true }) := by
  unfold St.paths
  simp only [hp, hg, Bool.and_true, h, Bool.not_true, Bool.false_eq_true, if_false]
  split
  · next hk => cases s; simp_all
  · rfl

theorem paths_check (s : St) (w : World) : (s.paths w).2.check = s.check := by
  unfold St.paths; (repeat' split) <;> rfl

theorem update_known (s : St) (w : World) (r : Option Text) (folder : Text) (h : w.folder = some folder) (hk : s.known = true) :
    (s.update w r).1.known = true := by
  unfold St.update
  split
  · exact hk
  · simp only [h]
    split
    · exact paths_known s w folder h
    · exact paths_known s w folder h

theorem update_check (s : St) (w : World) (r : Option Text) : (s.update w r).1.check = s.check := by
  unfold St.update
  split
  · rfl
  · simp only
    split
    · exact paths_check s w
    · split <;> exact paths_check s w

/-- What always holds: the folder is that of the workspace, the paths are known. -/
theorem step_basic (s : Sys) (e : Ev) (folder : Text) (h : s.world.folder = some folder) (hk : s.st.known = true) :
    (s.step e).1.world.folder = some folder ∧ (s.step e).1.st.known = true ∧ (e ≠ .doNotTrack → (s.step e).1.st.check = s.st.check) ∧
      ((∀ p g, e ≠ .disk p g) → (s.step e).1.world = s.world) := by
  cases e with
  | disk p g => exact ⟨h, hk, fun _ => rfl, fun hn => absurd rfl (hn p g)⟩
  | save name => exact ⟨h, update_known _ _ _ folder h hk, fun _ => update_check _ _ _, fun _ => rfl⟩
  | shown d =>
    have hc : (s.checkConfigs).1 = { s with st := (s.st.paths s.world).2 } := by
      unfold Sys.checkConfigs; simp only; split
      · rfl
      · split <;> rfl
    simp only [Sys.step]
    split
    · split
      · rw [hc]; exact ⟨h, paths_known _ _ folder h, fun _ => paths_check _ _, fun _ => rfl⟩
      · exact ⟨h, hk, fun _ => rfl, fun _ => rfl⟩
    · exact ⟨h, hk, fun _ => rfl, fun _ => rfl⟩
  | doNotTrack => exact ⟨h, hk, fun hn => absurd rfl hn, fun _ => rfl⟩
  | setting a => exact ⟨h, hk, fun _ => rfl, fun _ => rfl⟩

theorem update_cur (s : St) (w : World) (folder : Text) (h : w.folder = some folder) (hp : w.pgm.exist = true) (hg : w.grp.exist = true)
    (r : Option Text) (hr : s.skips w r = false) :
    (s.update w r).1.exprs = (load folder w).1 := by
  unfold St.update
  simp only [hr, Bool.false_eq_true, if_false, paths_ok s w folder h hp hg, Bool.not_true, h]

theorem step_cur (s : Sys) (e : Ev) (folder : Text) (h : s.world.folder = some folder)
    (hp : s.world.pgm.exist = true) (hg : s.world.grp.exist = true) (hn : ∀ p g, e ≠ .disk p g) (hc : Cur folder s) : Cur folder (s.step e).1 := by
  cases e with
  | disk p g => exact absurd rfl (hn p g)
  | save name =>
    unfold Cur Sys.step
    simp only
    by_cases hf : s.st.foreign s.world name = true
    · unfold St.update; simp only [St.skips, hf, if_true]; exact hc
    · exact update_cur s.st s.world folder h hp hg (some name) (by simpa [St.skips] using hf)
  | shown d =>
    have hcc : (s.checkConfigs).1 = { s with st := { s.st with known := true } } := by
      unfold Sys.checkConfigs; simp [paths_ok s.st s.world folder h hp hg]
    simp only [Sys.step]
    split
    · split
      · rw [hcc]; exact hc
      · exact hc
    · exact hc
  | doNotTrack => exact hc
  | setting a => exact hc

theorem run_append (s : Sys) (a b : List Ev) : s.run (a ++ b) = (s.run a).run b := by
  induction a generalizing s with
  | nil => rfl
  | cons e a ih => exact ih _

theorem run_basic (folder : Text) : ∀ (evs : List Ev) (s : Sys), s.world.folder = some folder → s.st.known = true →
    (s.run evs).world.folder = some folder ∧ (s.run evs).st.known = true ∧
      (Ev.doNotTrack ∉ evs → (s.run evs).st.check = s.st.check) ∧ ((∀ p g, Ev.disk p g ∉ evs) → (s.run evs).world = s.world)
  | [], s, h, hk => ⟨h, hk, fun _ => rfl, fun _ => rfl⟩
  | e :: evs, s, h, hk => by
    obtain ⟨h1, h2, h3, h4⟩ := step_basic s e folder h hk
    obtain ⟨g1, g2, g3, g4⟩ := run_basic folder evs _ h1 h2
    refine ⟨g1, g2, fun hn => ?_, fun hn => ?_⟩
    · simp only [List.mem_cons, not_or] at hn
      exact (g3 hn.2).trans (h3 fun he => hn.1 he.symm)
    · exact (g4 fun p g hm => hn p g (by simp [hm])).trans (h4 fun p g he => hn p g (by simp [he]))

theorem run_cur (folder : Text) : ∀ (evs : List Ev) (s : Sys), s.world.folder = some folder → s.st.known = true →
    s.world.pgm.exist = true → s.world.grp.exist = true → (∀ p g, Ev.disk p g ∉ evs) → Cur folder s → Cur folder (s.run evs)
  | [], _, _, _, _, _, _, hc => hc
  | e :: evs, s, h, hk, hp, hg, hn, hc => by
    have hn1 : ∀ p g, e ≠ .disk p g := fun p g he => hn p g (by simp [he])
    obtain ⟨h1, h2, _, h4⟩ := step_basic s e folder h hk
    have hw := h4 hn1
    exact run_cur folder evs _ h1 h2 (by rw [hw]; exact hp) (by rw [hw]; exact hg) (fun p g hm => hn p g (by simp [hm]))
      (step_cur s e folder h hp hg hn1 hc)

theorem segment_plugin : Segment pluginName ∧ Segment pgmName ∧ Segment grpName := by
  refine ⟨⟨by decide, by decide, by decide, by decide⟩, ⟨by decide, by decide, by decide, by decide⟩, ⟨by decide, by decide, by decide, by decide⟩⟩

theorem path_of (fs : List Text) (hf : fs ≠ []) (hfg : ∀ s ∈ fs, Segment s) (n : Text) (hn : Segment n) :
    join [join [at_ fs, pluginName], n] = at_ fs ++ 47 :: pluginName ++ 47 :: n := by
  have e1 := join_two fs [pluginName] hf hfg (by simp) (by intro s hs; rw [List.mem_singleton.mp hs]; exact segment_plugin.1)
  have e2 := join_two (fs ++ [pluginName]) [n] (by simp) (by
    intro s hs
    rcases List.mem_append.mp hs with h | h
    · exact hfg s h
    · rw [List.mem_singleton.mp h]; exact segment_plugin.1) (by simp) (by intro s hs; rw [List.mem_singleton.mp hs]; exact hn)
  simp only [glue] at e1 e2
  rw [e1, e2, at_append _ _ (by simp) (by simp), at_append _ _ hf (by simp)]
  simp [glue]

/-- The state after a history in which the configuration has been read since the last change. -/
theorem read_cur (fs : List Text) (hf : fs ≠ []) (hfg : ∀ s ∈ fs, Segment s) (w : World) (auto : Bool) (s0 : Sys) (evs : List Ev)
    (hw : w.folder = some (at_ fs)) (ha : activate w auto = some s0) (hr : ReadSince (at_ fs) evs)
    (hp : (s0.run evs).world.pgm.exist = true) (hg : (s0.run evs).world.grp.exist = true) :
    Cur (at_ fs) (s0.run evs) ∧ (Ev.doNotTrack ∉ evs → (s0.run evs).st.check = true) ∧ (s0.run evs).world.folder = some (at_ fs) := by
  have h0 : s0 = { world := w, auto := auto, st := (({} : St).update w none).1 } := by
    unfold activate at ha; simp only at ha; split at ha
    · exact (Option.some.inj ha).symm
    · cases ha
  have hw0 : s0.world.folder = some (at_ fs) := by rw [h0]; exact hw
  have hk0 : s0.st.known = true := by
    rw [h0]
    simp only [St.update, St.skips, Bool.false_eq_true, if_false, hw]
    split <;> exact paths_known _ _ _ hw
  have hc0 : s0.st.check = true := by
    rw [h0]; exact update_check {} w none
  obtain ⟨b1, b2, b3, _⟩ := run_basic (at_ fs) evs s0 hw0 hk0
  refine ⟨?_, fun hn => (b3 hn).trans hc0, b1⟩
  obtain ⟨pre, post, rfl, hnd, hpre⟩ := hr
  obtain ⟨p1, p2, _, _⟩ := run_basic (at_ fs) pre s0 hw0 hk0
  rw [run_append] at hp hg ⊢
  obtain ⟨_, _, _, q4⟩ := run_basic (at_ fs) post (s0.run pre) p1 p2
  have hwp := q4 hnd
  rw [hwp] at hp hg
  refine run_cur (at_ fs) post (s0.run pre) p1 p2 hp hg hnd ?_
  rcases hpre with rfl | ⟨pre', name, rfl, hname⟩
  · simp only [Sys.run] at hp hg ⊢
    rw [h0] at hp hg ⊢
    exact update_cur {} w (at_ fs) hw hp hg none rfl
  · rw [run_append] at hp hg ⊢
    obtain ⟨r1, r2, _, _⟩ := run_basic (at_ fs) pre' s0 hw0 hk0
    simp only [Sys.run, Sys.step] at hp hg ⊢
    refine update_cur _ _ (at_ fs) r1 hp hg (some name) ?_
    simp only [St.skips, St.foreign, r2, r1, Option.map_some, pgmPath, grpPath, path_of fs hf hfg _ segment_plugin.2.1,
      path_of fs hf hfg _ segment_plugin.2.2]
    rcases hname with h | h <;> rw [h] <;> simp

/-! ### The theorems -/

theorem hits_iff (fs : List Text) (hf : fs ≠ []) (hfg : ∀ s ∈ fs, Segment s) (hlit : Literal (at_ fs)) (pc : PgmConf) (gc : GrpConf)
    (hc : PlainConf pc gc) (path : Text) (hpath : NoLineEnd path) :
    (exprsOf (at_ fs) [] (pc.pgms ++ pc.always) ++ exprsOf (at_ fs) [[42]] (gc.libs.map Lib.dir)).any (·.testAll path) = true ↔
      (∃ p q rel, (some p ∈ pc.pgms ∨ some p ∈ pc.always) ∧ Written p q ∧ path = at_ fs ++ 47 :: rel ∧ Wild q rel) ∨
      (∃ lib l dir name, lib ∈ gc.libs ∧ Given lib l ∧ Dir l dir ∧ path = at_ fs ++ 47 :: dir ++ 47 :: name) := by
  rw [List.any_append, Bool.or_eq_true]
  have h47 : Literal [47] := by intro c hc; rw [List.mem_singleton.mp hc]; decide
  have litapp : ∀ {a b : Text}, Literal a → Literal b → Literal (a ++ b) := fun ha hb c hc => by
    rcases List.mem_append.mp hc with h | h
    · exact ha c h
    · exact hb c h
  refine or_congr ?_ ?_
  · have keyp : ∀ p q, Written p q → ((wildRe (join [at_ fs, p])).testAll path = true ↔ ∃ rel, path = at_ fs ++ 47 :: rel ∧ Wild q rel) := by
      rintro p q ⟨segs, hsg, hs, rfl, rfl⟩
      rw [testAll_iff, wildRe_iff _ _ hpath, join_names fs segs hf hfg hs hsg, at_append _ _ hf hs,
        show ∀ t : Text, at_ fs ++ 47 :: t = (at_ fs ++ [47]) ++ t by intro t; simp, wild_literal _ _ _ (litapp hlit h47)]
      simp
    rw [List.any_eq_true]
    constructor
    · rintro ⟨re, hre, ht⟩
      obtain ⟨e, he, hee⟩ := List.mem_filterMap.mp hre
      obtain ⟨p, q, rfl, hw⟩ := hc.1 e he
      simp only [Option.map_some, Option.some.injEq] at hee
      subst hee
      rw [keyp p q hw] at ht
      obtain ⟨rel, hrel, hr⟩ := ht
      exact ⟨p, q, rel, List.mem_append.mp he, hw, hrel, hr⟩
    · rintro ⟨p, q, rel, hm, hw, hrel, hr⟩
      exact ⟨wildRe (join [at_ fs, p]), List.mem_filterMap.mpr ⟨some p, List.mem_append.mpr hm, rfl⟩, (keyp p q hw).mpr ⟨rel, hrel, hr⟩⟩
  · have key : ∀ l dir, Dir l dir → ((wildRe (join [at_ fs, l, [42]])).testAll path = true ↔ ∃ name, path = at_ fs ++ 47 :: dir ++ 47 :: name) := by
      rintro l dir ⟨p, ⟨segs, hsg, hs, rfl, hps⟩, hdl, hl⟩
      rw [testAll_iff, wildRe_iff _ _ hpath, join_lib fs segs l hf hfg hs hsg hl, at_append _ _ (by simp [hf]) (by simp), at_append _ _ hf hs, ← hps,
        show at_ fs ++ 47 :: dir ++ 47 :: glue 47 [[42]] = (at_ fs ++ [47] ++ dir ++ [47]) ++ [42] by simp [glue],
        wild_literal _ _ _ (litapp (litapp (litapp hlit h47) hdl) h47)]
      constructor
      · rintro ⟨r, hr, _⟩; exact ⟨r, by rw [hr]; simp⟩
      · rintro ⟨r, hr⟩; exact ⟨r, by rw [hr]; simp, wild_star_only r⟩
    rw [List.any_eq_true]
    constructor
    · rintro ⟨re, hre, ht⟩
      obtain ⟨e, he, hee⟩ := List.mem_filterMap.mp hre
      obtain ⟨lib, hlib, rfl⟩ := List.mem_map.mp he
      obtain ⟨l, dir, hl, hd⟩ := hc.2 lib hlib
      rw [dir_of hl hd] at hee
      simp only [Option.map_some, Option.some.injEq] at hee
      subst hee
      obtain ⟨name, hn⟩ := (key l dir hd).mp ht
      exact ⟨lib, l, dir, name, hlib, hl, hd, hn⟩
    · rintro ⟨lib, l, dir, name, hlib, hl, hd, hn⟩
      exact ⟨wildRe (join [at_ fs, l, [42]]), List.mem_filterMap.mpr ⟨lib.dir, List.mem_map_of_mem hlib, by rw [dir_of hl hd]; rfl⟩, (key l dir hd).mpr ⟨name, hn⟩⟩

theorem run_world : ∀ (evs : List Ev) (s : Sys),
    ((s.run evs).world.pgm, (s.run evs).world.grp) = diskAfter s.world.pgm s.world.grp evs ∧ (s.run evs).auto = settingAfter s.auto evs
  | [], s => ⟨rfl, rfl⟩
  | e :: evs, s => by
    have ih := run_world evs (s.step e).1
    have hc : (s.checkConfigs).1 = { s with st := (s.st.paths s.world).2 } := by
      unfold Sys.checkConfigs; simp only; split
      · rfl
      · split <;> rfl
    have hs : ∀ d, (s.step (.shown d)).1.world = s.world ∧ (s.step (.shown d)).1.auto = s.auto := by
      intro d
      simp only [Sys.step]
      split
      · split
        · rw [hc]; exact ⟨rfl, rfl⟩
        · exact ⟨rfl, rfl⟩
      · exact ⟨rfl, rfl⟩
    cases e with
    | disk p g => exact ih
    | save n => exact ih
    | shown d => rw [(hs d).1, (hs d).2] at ih; exact ih
    | doNotTrack => exact ih
    | setting a => exact ih

/-- C124, main part. After any history of the extension in which the configuration has been read since its last change and
the user has not chosen `Do not track`: a plain text document that is shown becomes an HLASM document exactly when it is a
program, matches a wildcard of `alwaysRecognize`, is a member of a library of a processor group, or (if autodetection is on)
its text is that of an HLASM file. Left out (each by a hypothesis, see the witnesses): configurations with anything but
strings, absolute library paths, wildcard characters in the folder or a library, files below subdirectories of a library,
paths with line terminators, and the texts that `PlainText` excludes. -/
theorem C124_recognised_partial (fs : List Text) (hf : fs ≠ []) (hfg : ∀ s ∈ fs, Segment s) (hlit : Literal (at_ fs))
    (w : World) (auto : Bool) (s0 : Sys) (evs : List Ev) (hw : w.folder = some (at_ fs)) (ha : activate w auto = some s0)
    (hr : ReadSince (at_ fs) evs) (hn : Ev.doNotTrack ∉ evs) (pc : PgmConf) (gc : GrpConf)
    (hdisk : diskAfter w.pgm w.grp evs = (.ok pc, .ok gc)) (hc : PlainConf pc gc)
    (d : Doc) (hd : d.lang = .plain) (hpath : NoLineEnd d.path)
    (hsub : ∀ lib ∈ gc.libs, ∀ l dir rest, Given lib l → Dir l dir → d.path = at_ fs ++ 47 :: dir ++ 47 :: rest → 47 ∉ rest)
    (ht : PlainText d.text) :
    ((s0.run evs).step (.shown d)).2.lang = some .hlasm ↔ Recognised (at_ fs) pc gc (settingAfter auto evs) d := by
  have h0 : s0.world = w ∧ s0.auto = auto := by
    unfold activate at ha; simp only at ha; split at ha
    · cases ha; exact ⟨rfl, rfl⟩
    · cases ha
  have hrun := run_world evs s0
  rw [h0.1, h0.2, hdisk] at hrun
  have hp : (s0.run evs).world.pgm = .ok pc := congrArg Prod.fst hrun.1
  have hg : (s0.run evs).world.grp = .ok gc := congrArg Prod.snd hrun.1
  rw [← hrun.2]
  clear hrun
  obtain ⟨hcur, hchk, hfold⟩ := read_cur fs hf hfg w auto s0 evs hw ha hr (by rw [hp]; rfl) (by rw [hg]; rfl)
  have hex : (s0.run evs).st.exprs = exprsOf (at_ fs) [] (pc.pgms ++ pc.always) ++ exprsOf (at_ fs) [[42]] (gc.libs.map Lib.dir) := by
    rw [hcur, load_ok _ _ pc gc hp hg hc]
  generalize s0.run evs = s at *
  have hlook : ((s.step (.shown d)).2.lang = some .hlasm) ↔ s.looksHlasm d = true := by
    simp only [Sys.step, hchk hn, if_true, Sys.setLanguage, hd, true_and]
    by_cases hl : s.looksHlasm d = true
    · simp [hl]
    · simp [hl]
  rw [hlook, Sys.looksHlasm, St.hits, hex]
  have hh := hits_iff fs hf hfg hlit pc gc hc d.path hpath
  unfold Recognised
  by_cases hm : (exprsOf (at_ fs) [] (pc.pgms ++ pc.always) ++ exprsOf (at_ fs) [[42]] (gc.libs.map Lib.dir)).any (·.testAll d.path) = true
  · simp only [hm, if_true, true_iff]
    rcases hh.mp hm with h | ⟨lib, l, dir, name, h1, h2, h3, h4⟩
    · exact .inl h
    · exact .inr (.inl ⟨lib, l, dir, name, h1, h2, h3, h4, hsub lib h1 l dir name h2 h3 h4⟩)
  · simp only [hm, Bool.false_eq_true, if_false]
    constructor
    · intro h
      refine .inr (.inr ?_)
      split at h
      · cases h
      · next hne =>
        split at h
        · cases h
        · next hau => exact ⟨by simpa using hau, hne, (checkText_iff d.text ht).mp h⟩
    · rintro (h | ⟨lib, l, dir, name, h1, h2, h3, h4, _⟩ | ⟨h1, h2, h3⟩)
      · exact absurd (hh.mpr (.inl h)) hm
      · exact absurd (hh.mpr (.inr ⟨lib, l, dir, name, h1, h2, h3, h4⟩)) hm
      · rw [if_neg h2, h1]; simpa using (checkText_iff d.text ht).mpr h3

end Verif.Detect
