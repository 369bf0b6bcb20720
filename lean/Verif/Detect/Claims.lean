import Verif.Detect.Final
/-! C124: further theorems, the cases in which the code differs, examples. -/
namespace Verif.Detect
open Spec

/-- C124, wildcards: the expression made for a wildcard is always well-formed, matches exactly the paths the wildcard denotes
(paths without line terminators), and in particular every path matches itself, whatever characters it consists of. -/
theorem C124_wildcard (w : Text) : ∃ re, convert w = some re ∧ (∀ s, NoLineEnd s → (re.testAll s = true ↔ Wild w s)) ∧
    (NoLineEnd w → re.testAll w = true) := by
  refine ⟨wildRe w, convert_eq w, fun s hs => ?_, fun hs => ?_⟩
  · rw [testAll_iff, wildRe_iff w s hs]
  · rw [testAll_iff, wildRe_iff w w hs]; exact wild_refl w

/-- C124, languages: in every state, the only change of the language of a document that is shown is from plain text to
HLASM. -/
theorem C124_language (s : Sys) (d : Doc) :
    (s.step (.shown d)).2.lang = some d.lang ∨ (d.lang = .plain ∧ (s.step (.shown d)).2.lang = some .hlasm) := by
  simp only [Sys.step]
  split
  · unfold Sys.setLanguage
    split
    · next h => right; exact ⟨h.1, by simp⟩
    · split <;> exact .inl rfl
  · exact .inl rfl

/-- C124, prompts: the user is asked about a configuration file exactly when the document shown is (now) HLASM, there is a
workspace, the file does not exist, and `Do not track` has not been chosen. -/
theorem C124_prompt (s : Sys) (d : Doc) :
    ((s.step (.shown d)).2.askGrp = true ↔ s.st.check = true ∧ (s.step (.shown d)).2.lang = some .hlasm ∧
      s.world.folder ≠ none ∧ s.world.grp.exist = false) ∧
    ((s.step (.shown d)).2.askPgm = true ↔ s.st.check = true ∧ (s.step (.shown d)).2.lang = some .hlasm ∧
      s.world.folder ≠ none ∧ s.world.pgm.exist = false) := by
  have hcc : ∀ b : Bool, s.checkConfigs.2 = (s.world.folder.isSome && !s.world.grp.exist, s.world.folder.isSome && !s.world.pgm.exist) := by
    intro _
    unfold Sys.checkConfigs St.paths
    cases hf : s.world.folder with
    | none =>
      simp only [Option.isSome_none, Bool.false_and]
      split <;> rfl
    | some f =>
      cases hg : s.world.grp.exist <;> cases hp : s.world.pgm.exist <;> cases hk : s.st.known <;> simp
  have hl : (s.setLanguage d).2 = true ↔ (s.setLanguage d).1 = .hlasm := by
    unfold Sys.setLanguage
    split
    · simp
    · simp
  simp only [Sys.step]
  by_cases hc : s.st.check = true
  · simp only [hc, if_true, true_and]
    by_cases h2 : (s.setLanguage d).2 = true
    · have h1 := hl.mp h2
      simp only [h2, if_true, h1, hcc true, true_and]
      cases s.world.folder <;> simp
    · have h1 : ¬ (s.setLanguage d).1 = .hlasm := fun h => h2 (hl.mpr h)
      simp [h2, h1]
  · simp [hc]

theorem paths_gone (s : St) (w : World) (folder : Text) (h : w.folder = some folder) (hp : w.pgm.exist = false) (hg : w.grp.exist = true) :
    s.paths w = (false, { s with known := true, exprs := [] }) := by
  unfold St.paths; simp [hp, hg, h]

theorem update_gone (s : St) (w : World) (folder : Text) (h : w.folder = some folder) (hp : w.pgm.exist = false) (hg : w.grp.exist = true)
    (r : Option Text) (hr : s.skips w r = false ∨ s.exprs = []) : (s.update w r).1.exprs = [] := by
  unfold St.update
  by_cases hs : s.skips w r = true
  · rw [if_pos hs]; rcases hr with h | h
    · rw [hs] at h; cases h
    · exact h
  · rw [if_neg hs, paths_gone s w folder h hp hg]; rfl

theorem run_gone (folder : Text) : ∀ (evs : List Ev) (s : Sys), s.world.folder = some folder → s.world.pgm.exist = false →
    s.world.grp.exist = true → (∀ p g, Ev.disk p g ∉ evs) → s.st.exprs = [] → (s.run evs).st.exprs = []
  | [], _, _, _, _, _, h => h
  | e :: evs, s, hf, hp, hg, hn, h => by
    have hn' : ∀ p g, Ev.disk p g ∉ evs := fun p g hm => hn p g (by simp [hm])
    cases e with
    | disk p g => exact absurd (by simp) (hn p g)
    | save n => exact run_gone folder evs _ hf hp hg hn' (update_gone s.st s.world folder hf hp hg _ (.inr h))
    | shown d =>
      have hc : (s.checkConfigs).1 = { s with st := { s.st with known := true, exprs := [] } } := by
        unfold Sys.checkConfigs; simp [paths_gone s.st s.world folder hf hp hg, hf]
      have key : (s.step (.shown d)).1.world = s.world ∧ (s.step (.shown d)).1.st.exprs = [] := by
        simp only [Sys.step]
        split
        · split
          · rw [hc]; exact ⟨rfl, rfl⟩
          · exact ⟨rfl, h⟩
        · exact ⟨rfl, h⟩
      exact run_gone folder evs _ (by rw [key.1]; exact hf) (by rw [key.1]; exact hp) (by rw [key.1]; exact hg) hn' key.2
    | doNotTrack => exact run_gone folder evs _ hf hp hg hn' h
    | setting a => exact run_gone folder evs _ hf hp hg hn' h

/-- C124, no programs: if there is no `pgm_conf.json` beside `proc_grps.json`, and that has been noticed (it was so at the
activation, or a file was saved under the name of a configuration file since), only the text of a document counts. -/
theorem C124_without_programs (fs : List Text) (hf : fs ≠ []) (hfg : ∀ s ∈ fs, Segment s)
    (w : World) (auto : Bool) (s0 : Sys) (evs : List Ev) (hw : w.folder = some (at_ fs)) (ha : activate w auto = some s0)
    (hr : ReadSince (at_ fs) evs) (hn : Ev.doNotTrack ∉ evs) (g : File GrpConf) (hg : g = .malformed ∨ ∃ gc, g = .ok gc)
    (hdisk : diskAfter w.pgm w.grp evs = (.missing, g)) (d : Doc) (hd : d.lang = .plain) (ht : PlainText d.text) :
    ((s0.run evs).step (.shown d)).2.lang = some .hlasm ↔ settingAfter auto evs = true ∧ d.text ≠ [] ∧ TextSays d.text := by
  have h0 : s0 = { world := w, auto := auto, st := (({} : St).update w none).1 } := by
    unfold activate at ha; simp only at ha; split at ha
    · exact (Option.some.inj ha).symm
    · cases ha
  have hw0 : s0.world.folder = some (at_ fs) := by rw [h0]; exact hw
  have hk0 : s0.st.known = true := by
    rw [h0]
    simp only [St.update, St.skips, Bool.false_eq_true, if_false, hw]
    split <;> exact paths_known _ _ _ hw
  have hc0 : s0.st.check = true := by
    rw [h0]; exact update_check {} w none
  have hrun := run_world evs s0
  rw [show s0.world = w by rw [h0], show s0.auto = auto by rw [h0], hdisk] at hrun
  have hp : (s0.run evs).world.pgm.exist = false := by rw [show (s0.run evs).world.pgm = File.missing from congrArg Prod.fst hrun.1]; rfl
  have hge : (s0.run evs).world.grp.exist = true := by
    rw [show (s0.run evs).world.grp = g from congrArg Prod.snd hrun.1]; rcases hg with rfl | ⟨gc, rfl⟩ <;> rfl
  have hchk := (run_basic (at_ fs) evs s0 hw0 hk0).2.2.1 hn
  rw [hc0] at hchk
  have hex : (s0.run evs).st.exprs = [] := by
    obtain ⟨pre, post, rfl, hnd, hpre⟩ := hr
    obtain ⟨p1, p2, _, _⟩ := run_basic (at_ fs) pre s0 hw0 hk0
    rw [run_append] at hp hge ⊢
    obtain ⟨_, _, _, q4⟩ := run_basic (at_ fs) post (s0.run pre) p1 p2
    rw [q4 hnd] at hp hge
    refine run_gone (at_ fs) post _ p1 hp hge hnd ?_
    rcases hpre with rfl | ⟨pre', name, rfl, hname⟩
    · simp only [Sys.run] at hp hge ⊢
      rw [h0] at hp hge ⊢
      exact update_gone {} w (at_ fs) hw hp hge none (.inl rfl)
    · rw [run_append] at hp hge ⊢
      obtain ⟨r1, r2, _, _⟩ := run_basic (at_ fs) pre' s0 hw0 hk0
      simp only [Sys.run, Sys.step] at hp hge ⊢
      refine update_gone _ _ (at_ fs) r1 hp hge (some name) (.inl ?_)
      simp only [St.skips, St.foreign, r2, r1, Option.map_some, pgmPath, grpPath, path_of fs hf hfg _ segment_plugin.2.1,
        path_of fs hf hfg _ segment_plugin.2.2]
      rcases hname with h | h <;> rw [h] <;> simp
  rw [← hrun.2]
  generalize s0.run evs = s at *
  have hlook : ((s.step (.shown d)).2.lang = some .hlasm) ↔ s.looksHlasm d = true := by
    simp only [Sys.step, hchk, if_true, Sys.setLanguage, hd, true_and]
    by_cases hl : s.looksHlasm d = true
    · simp [hl]
    · simp [hl]
  rw [hlook, Sys.looksHlasm, St.hits, hex, ← checkText_iff d.text ht]
  by_cases h1 : d.text = []
  · simp [h1]
  · cases h2 : s.auto <;> simp [h1]

/-- The configuration of `w` names the path. -/
def Named (w : World) (path : Text) : Prop :=
  ∃ folder, w.folder = some folder ∧
    ((∃ pc p, w.pgm = .ok pc ∧ (some p ∈ pc.pgms ∨ some p ∈ pc.always) ∧ Wild (join [folder, p]) path) ∨
      ∃ gc lib l, w.grp = .ok gc ∧ lib ∈ gc.libs ∧ Given lib l ∧ Wild (join [folder, l, [42]]) path)

theorem has_wild (w : Text) : ∀ s, (wildRe w).Has s → Wild w s := by
  induction w with
  | nil => intro s h; cases h; exact .nil
  | cons c w ih =>
    intro s h
    rw [wildRe, has_cat] at h
    obtain ⟨a, b, rfl, ha, hb⟩ := h
    have hw := ih b hb
    unfold pieceRe at ha
    by_cases h1 : c = 42
    · subst h1; exact .star hw
    by_cases h2 : c = 43
    · subst h2
      simp only [show (43 : Nat) ≠ 42 by decide, if_false, if_true, Re.dot, has_plus_cls] at ha
      exact .plus ha.1 hw
    by_cases h3 : c = 63
    · subst h3
      simp only [show (63 : Nat) ≠ 42 by decide, show (63 : Nat) ≠ 43 by decide, if_false, if_true, Re.dot, has_cls] at ha
      obtain ⟨d, rfl, _⟩ := ha
      exact .quest hw
    · simp only [if_neg h1, if_neg h2, if_neg h3, has_lit] at ha
      subst ha
      exact .lit h1 h2 h3 hw

theorem addAll_mem (folder : Text) (tail : List Text) : ∀ (l : List (Option Text)) (es : List Re) (re : Re),
    re ∈ (addAll folder tail es l).1 → re ∈ es ∨ ∃ p, some p ∈ l ∧ re = wildRe (join (folder :: p :: tail))
  | [], es, re, h => .inl h
  | none :: l, es, re, h => .inl h
  | some p :: l, es, re, h => by
    rw [addAll, convert_eq] at h
    rcases addAll_mem folder tail l _ re h with h | ⟨q, hq, he⟩
    · rcases List.mem_append.mp h with h | h
      · exact .inl h
      · exact .inr ⟨p, by simp, List.mem_singleton.mp h⟩
    · exact .inr ⟨q, by simp [hq], he⟩

theorem given_of {lib : Lib} {l : Text} (h : lib.dir = some l) : Given lib l := by
  cases lib with
  | name t => left; simpa [Lib.dir] using h
  | obj p =>
    cases p with
    | none => cases h
    | some p =>
      rw [Lib.dir] at h
      split at h
      · cases h
      · right; rw [Option.some.inj h]

theorem load_mem (folder : Text) (w : World) (hf : w.folder = some folder) (re : Re) (path : Text) (h : re ∈ (load folder w).1)
    (ht : re.testAll path = true) : Named w path := by
  rw [testAll_iff] at ht
  have pgm : ∀ pc p, w.pgm = .ok pc → (some p ∈ pc.pgms ∨ some p ∈ pc.always) → re = wildRe (join [folder, p]) → Named w path := by
    rintro pc p h1 h2 rfl
    exact ⟨folder, hf, .inl ⟨pc, p, h1, h2, has_wild _ _ ht⟩⟩
  unfold load at h
  cases hp : w.pgm with
  | missing => rw [hp] at h; simp at h
  | malformed => rw [hp] at h; simp at h
  | ok pc =>
    rw [hp] at h
    simp only at h
    have case1 : re ∈ (addAll folder [] [] pc.pgms).1 → Named w path := by
      intro h
      rcases addAll_mem _ _ _ _ _ h with h | ⟨p, hm, he⟩
      · simp at h
      · exact pgm pc p hp (.inl hm) he
    have case2 : re ∈ (addAll folder [] (addAll folder [] [] pc.pgms).1 pc.always).1 → Named w path := by
      intro h
      rcases addAll_mem _ _ _ _ _ h with h | ⟨p, hm, he⟩
      · exact case1 h
      · exact pgm pc p hp (.inr hm) he
    split at h
    · exact case1 h
    · split at h
      · exact case2 h
      · cases hg : w.grp with
        | missing => rw [hg] at h; exact case2 h
        | malformed => rw [hg] at h; exact case2 h
        | ok gc =>
          rw [hg] at h
          rcases addAll_mem _ _ _ _ _ h with h | ⟨p, hm, he⟩
          · exact case2 h
          · obtain ⟨lib, hl, hd⟩ := List.mem_map.mp hm
            subst he
            exact ⟨folder, hf, .inr ⟨gc, lib, p, hg, hl, given_of hd, has_wild _ _ ht⟩⟩

theorem update_mem (s : St) (w : World) (r : Option Text) (re : Re) (path : Text) (h : re ∈ (s.update w r).1.exprs)
    (ht : re.testAll path = true) : re ∈ s.exprs ∨ Named w path := by
  have hpm : ∀ re, re ∈ (s.paths w).2.exprs → re ∈ s.exprs := by
    intro re
    unfold St.paths
    (repeat' split) <;> simp
  unfold St.update at h
  split at h
  · exact .inl h
  · simp only at h
    split at h
    · exact .inl (hpm re h)
    · cases hf : w.folder with
      | none => rw [hf] at h; exact .inl (hpm re h)
      | some folder => rw [hf] at h; exact .inr (load_mem folder w hf re path h ht)

theorem step_mem (s : Sys) (e : Ev) (re : Re) (path : Text) (h : re ∈ (s.step e).1.st.exprs) (ht : re.testAll path = true) :
    re ∈ s.st.exprs ∨ Named s.world path := by
  cases e with
  | disk p g => exact .inl h
  | save name => exact update_mem _ _ _ re path h ht
  | shown d =>
    have hc : ∀ re, re ∈ s.checkConfigs.1.st.exprs → re ∈ s.st.exprs := by
      intro re
      have : s.checkConfigs.1 = { s with st := (s.st.paths s.world).2 } := by
        unfold Sys.checkConfigs; simp only; split
        · rfl
        · split <;> rfl
      rw [this]
      simp only
      unfold St.paths
      (repeat' split) <;> simp
    simp only [Sys.step] at h
    split at h
    · split at h
      · exact .inl (hc re h)
      · exact .inl h
    · exact .inl h
  | doNotTrack => exact .inl h
  | setting a => exact .inl h

/-- C124, origin: after every history, whatever went wrong in it, a file is only recognised by its path if a configuration
that was on the disk at some time since the activation names it. -/
theorem C124_origin (w : World) (auto : Bool) (s0 : Sys) (evs : List Ev) (ha : activate w auto = some s0) (path : Text)
    (h : (s0.run evs).st.hits path = true) : ∃ n, Named (s0.run (evs.take n)).world path := by
  have gen : ∀ (evs : List Ev) (s : Sys) (re : Re), re ∈ (s.run evs).st.exprs → re.testAll path = true →
      re ∈ s.st.exprs ∨ ∃ n, Named (s.run (evs.take n)).world path := by
    intro evs
    induction evs with
    | nil => intro s re h _; exact .inl h
    | cons e evs ih =>
      intro s re h ht
      rcases ih (s.step e).1 re h ht with h | ⟨n, hn⟩
      · rcases step_mem s e re path h ht with h | h
        · exact .inl h
        · exact .inr ⟨0, h⟩
      · exact .inr ⟨n + 1, hn⟩
  obtain ⟨re, hre, ht⟩ := List.any_eq_true.mp h
  rcases gen evs s0 re hre ht with h | h
  · unfold activate at ha
    simp only at ha
    split at ha
    · cases ha
      rcases update_mem {} w none re path h ht with h | h
      · simp at h
      · exact ⟨0, h⟩
    · cases ha
  · exact h

/-! ### Where the code differs from the documentation -/

/-- A document at `path`. -/
def docAt (path : Text) : Doc := ⟨.plain, path, []⟩

/-- ` MACROX`: the first line only has to begin with `MACRO`. -/
theorem C124_witness_macro : checkText ([32] ++ macroWord ++ [88]) = true ∧ ¬ TextSays ([32] ++ macroWord ++ [88]) := by
  refine ⟨by decide +kernel, ?_⟩
  rintro ⟨ls, ⟨raw, hne, he, hc, rfl⟩, h⟩
  have hraw : raw = [[32] ++ macroWord ++ [88]] := by
    have := split_glue 10 raw hne hc
    rw [← he] at this
    rw [← this]; decide +kernel
  subst hraw
  have hs : [[32] ++ macroWord ++ [88]].map stripCR = [[32] ++ macroWord ++ [88]] := by decide +kernel
  rw [hs] at h
  rcases h with ⟨l, hl, b, w, a, h1, h2, h3, h4, h5⟩ | h
  · simp only [List.head?_cons, Option.mem_def, Option.some.injEq] at hl
    subst hl
    simp only [isBlank_iff, capital_eq] at h3 h4 h5
    have hwl : w.length = 5 := by have := congrArg List.length h4; simpa [upper, macroWord] using this
    have hlen := congrArg List.length h1
    simp [macroWord, hwl] at hlen
    have hbl : b.length ≠ 0 := by cases b with | nil => exact absurd rfl h2 | cons => simp
    -- the last character of the line is not a blank, so nothing follows the word
    have ha : a = [] := by
      by_cases ha : a = []
      · exact ha
      · exfalso
        have hlast := congrArg List.getLast? h1
        have h88 : ([32] ++ macroWord ++ [88]).getLast? = some 88 := by decide +kernel
        rw [h88, List.getLast?_append, List.getLast?_eq_some_getLast ha] at hlast
        have : a.getLast ha = 88 := by simpa using hlast.symm
        have hbl := h5 _ (List.getLast_mem ha)
        rw [this] at hbl
        revert hbl; decide
    subst ha
    have hb2 : b.length = 2 := by simp at hlen; omega
    cases b with
    | nil => simp at hb2
    | cons x b =>
      cases b with
      | nil => simp at hb2
      | cons y b =>
        simp only [macroWord, List.cons_append, List.nil_append, List.cons.injEq] at h1
        have := h3 y (by simp)
        rw [← h1.2.1] at this
        revert this; decide
  · have hr : relevantLines [[32] ++ macroWord ++ [88]] = [[32] ++ macroWord ++ [88]] := by
      rw [relevantLines_cons, if_pos (by decide +kernel)]; simp [relevantLines]
    rw [hr] at h
    have hu : ¬ Uses ([32] ++ macroWord ++ [88]) := by
      intro hu
      have : referenceInstructions.testStart (upper ([32] ++ macroWord ++ [88] ++ [32])) = true := by
        rw [ref_iff]
        simp only [Uses, not_white, isBlank_iff, capital_eq] at hu
        obtain ⟨n, g, i, r, e1, e2, e3, e4, e5, e6⟩ := hu
        refine ⟨n, g, i, r ++ [32], by rw [e1]; simp, e2, e3, e4, e5, ?_⟩
        rcases e6 with rfl | ⟨c, r, rfl, hc⟩
        · exact ⟨32, [], rfl, by decide⟩
        · exact ⟨c, r ++ [32], rfl, hc⟩
      revert this; decide +kernel
    rw [hlasmLines, if_neg (by rintro ⟨_, h | h⟩; exact hu h; cases h)] at h
    simp [hlasmLines] at h

/-- ` LTORG` without a blank after it: a line that uses an instruction without operands is not counted. -/
theorem C124_witness_bare : checkText [32, 76, 84, 79, 82, 71] = false ∧ checkText [32, 76, 84, 79, 82, 71, 32] = true ∧
    Uses [32, 76, 84, 79, 82, 71] := by
  refine ⟨by decide +kernel, by decide +kernel, ⟨[], [32], [76, 84, 79, 82, 71], [], rfl, by simp, by simp, by simp [isBlank], by decide +kernel, .inl rfl⟩⟩

/-- ` L 1`, an empty line and another one: with CR LF at the ends of the lines the empty lines count, and the text is not
recognised any more. -/
theorem C124_witness_crlf : checkText [32, 76, 32, 49, 10, 10, 10, 10] = true ∧
    checkText [32, 76, 32, 49, 13, 10, 13, 10, 13, 10, 13, 10] = false ∧
    (∀ ls, Lines [32, 76, 32, 49, 10, 10, 10, 10] ls ↔ Lines [32, 76, 32, 49, 13, 10, 13, 10, 13, 10, 13, 10] ls) := by
  refine ⟨by decide +kernel, by decide +kernel, fun ls => ?_⟩
  have key : ∀ t ls, Lines t ls ↔ ls = (split 10 t).map stripCR := by
    intro t ls
    constructor
    · rintro ⟨raw, hne, rfl, hc, rfl⟩; rw [split_glue 10 raw hne hc]
    · rintro rfl; exact ⟨split 10 t, split_ne 10 t, (glue_split 10 t).symm, split_clean 10 t, rfl⟩
  rw [key, key]
  have : (split 10 [32, 76, 32, 49, 10, 10, 10, 10]).map stripCR = (split 10 [32, 76, 32, 49, 13, 10, 13, 10, 13, 10, 13, 10]).map stripCR := by
    decide +kernel
  rw [this]

/-- A continued line, a line that is too long, and the line `X`: the last one counts, as if it continued the first one. -/
theorem C124_witness_long :
    let l1 := [32, 76, 32] ++ List.replicate 69 120
    let l2 := List.replicate 81 120
    ([l1, l2, [88]].foldl Score.line {}).score = 2 ∧ hlasmLines false [l1, l2, [88]] ≤ 1 := by
  refine ⟨by decide +kernel, ?_⟩
  have h2 : ¬ (List.replicate 81 120 : Text).length ≤ 80 := by simp
  have h3 : ¬ Uses [88] := by
    rintro ⟨n, g, i, r, e1, e2, e3, e4, e5, e6⟩
    have hl := congrArg List.length e1
    have hi : i ≠ [] := by rintro rfl; revert e5; decide
    have : 1 ≤ g.length := by cases g with | nil => exact absurd rfl e3 | cons => simp
    have : 1 ≤ i.length := by cases i with | nil => exact absurd rfl hi | cons => simp
    simp at hl; omega
  simp only [hlasmLines, h2, h3, false_and, if_false]
  split <;> simp

/-- A workspace `/w` with the configuration files `p` and `g`. -/
def sampleWorld (p : File PgmConf) (g : File GrpConf) : World := ⟨some [47, 119], p, g⟩

/-- A configuration with the program `a` and the library `l`. -/
def samplePgm : File PgmConf := .ok ⟨[some [97]], []⟩
def sampleGrp : File GrpConf := .ok ⟨[.name [108]]⟩

/-- After the activation in that workspace. -/
def sample : Sys := (activate (sampleWorld samplePgm sampleGrp) false).getD ⟨sampleWorld .missing .missing, false, {}⟩

/-- The language of a document that is shown after a history. -/
def langAfter (evs : List Ev) (path : Text) : Option Lang := ((sample.run evs).step (.shown (docAt path))).2.lang

/-- Files in subdirectories of a library are recognised, although no processor group has them. -/
theorem C124_witness_subdirectory : langAfter [] [47, 119, 47, 108, 47, 115, 47, 109] = some .hlasm := by decide +kernel

/-- `proc_grps.json` is removed, and `pgm_conf.json` is saved without the program: the program is still recognised, because
the expressions are only cleared if the other file is missing. -/
theorem C124_witness_removed : langAfter [.disk (.ok {}) .missing, .save (pgmPath [47, 119])] [47, 119, 47, 97] = some .hlasm := by
  decide +kernel

/-- A change of the configuration that was not made in the editor is not noticed. -/
theorem C124_witness_unnoticed : langAfter [.disk (.ok ⟨[some [98]], []⟩) sampleGrp] [47, 119, 47, 98] = some .plain ∧
    langAfter [.disk (.ok ⟨[some [98]], []⟩) sampleGrp] [47, 119, 47, 97] = some .hlasm := by
  constructor <;> decide +kernel

/-- The answer `Do not track` to the prompt about a missing file turns the recognition of all files off. -/
theorem C124_witness_track : langAfter [] [47, 119, 47, 97] = some .hlasm ∧ langAfter [.doNotTrack] [47, 119, 47, 97] = some .plain := by
  constructor <;> decide +kernel

/-- A configuration file that is not JSON: the expressions are gone after it is saved, and if it is there when the extension
is activated, the activation fails (before the language server is started). -/
theorem C124_witness_malformed :
    langAfter [.disk .malformed sampleGrp, .save (pgmPath [47, 119])] [47, 119, 47, 97] = some .plain ∧
      (activate (sampleWorld .malformed sampleGrp) false).isNone = true ∧ (activate (sampleWorld samplePgm .malformed) false).isNone = true := by
  refine ⟨by decide +kernel, by decide +kernel, by decide +kernel⟩

/-- A library with an absolute path is looked for below the folder of the workspace: `/s` becomes `/w/s`. -/
theorem C124_witness_absolute : join [[47, 119], [47, 115], [42]] = [47, 119, 47, 115, 47, 42] ∧
    ((activate (sampleWorld samplePgm (.ok ⟨[.name [47, 115]]⟩)) false).map fun s => (s.step (.shown (docAt [47, 115, 47, 109]))).2.lang) =
      some (some .plain) := by
  constructor <;> decide +kernel

/-- In the folder `/+` the program `a` is also recognised in another folder, `/x`. -/
theorem C124_witness_folder :
    ((activate ⟨some [47, 43], samplePgm, sampleGrp⟩ false).map fun s => (s.step (.shown (docAt [47, 120, 47, 97]))).2.lang) =
      some (some .hlasm) := by
  decide +kernel

/-! ### Examples -/

/-- `\S*( |\t)+(...)`, the whole line. -/
def bareRe : Re := .cat (.star (.cls (fun c => !white c))) (.cat (.plus (.cls blank)) (.any (instructions.map .word)))

theorem bare_test (l : Text) (h : Bare l) : bareRe.testAll (upper l) = true := by
  simp only [Bare, not_white, isBlank_iff, capital_eq] at h
  obtain ⟨n, g, i, rfl, hn, hg, hgb, hi⟩ := h
  rw [testAll_iff, show upper (n ++ g ++ i) = upper n ++ (upper g ++ upper i) by simp [upper]]
  refine .cat ?_ (.cat ?_ ?_)
  · rw [has_star_cls]
    intro x hx
    obtain ⟨y, hy, rfl⟩ := List.mem_map.mp hx
    rw [white_upper, hn y hy]; rfl
  · rw [has_plus_cls]
    refine ⟨by simpa [upper] using hg, ?_⟩
    intro x hx
    obtain ⟨y, hy, rfl⟩ := List.mem_map.mp hx
    rw [blank_upper, hgb y hy]
  · rw [has_any]; exact hi

/-- ` L 1` and `X`. -/
def sampleText : Text := [32, 76, 32, 49, 10, 88]

theorem sampleText_plain : PlainText sampleText := by
  refine ⟨by decide, fun ls hl => ?_⟩
  rw [(lines_iff (by decide) ls).mp hl]
  have hs : split 10 sampleText = [[32, 76, 32, 49], [88]] := by decide +kernel
  rw [hs]
  refine ⟨?_, ?_, ?_⟩
  · intro l hl b w a h1 h2 h3 h4
    simp only [List.head?_cons, Option.mem_def, Option.some.injEq] at hl
    subst hl
    have hwl : w.length = 5 := by have := congrArg List.length h4; simpa [capital, macroWord] using this
    have hlen := congrArg List.length h1
    simp [hwl] at hlen
    omega
  · intro l hl _ hb
    have := bare_test l hb
    have hno : ∀ l ∈ ([[32, 76, 32, 49], [88]] : List Text), bareRe.testAll (upper l) = false := by decide +kernel
    rw [hno l hl] at this; cases this
  · intro pre a b post h hc
    have hr : relevantLines [[32, 76, 32, 49], [88]] = [[32, 76, 32, 49], [88]] := by
      rw [relevantLines_cons, if_pos (by decide +kernel), relevantLines_cons, if_pos (by decide +kernel)]; simp [relevantLines]
    rw [hr] at h
    have ha : a ∈ ([[32, 76, 32, 49], [88]] : List Text) := by rw [h]; simp
    obtain ⟨c, hc, _⟩ := hc
    simp only [List.mem_cons, List.not_mem_nil, or_false] at ha
    rcases ha with rfl | rfl <;> simp at hc

/-- The hypotheses of the main theorem are met by this workspace, a history with a change and a save, and this text; the
program, the member of the library and the text are recognised, another file is not. -/
example : PlainText sampleText ∧ checkText sampleText = true := ⟨sampleText_plain, by decide +kernel⟩
example : PlainConf ⟨[some [46, 47, 97]], []⟩ ⟨[.obj (some [108, 47])]⟩ := by
  have seg : ∀ c : Nat, c ≠ 46 → c ≠ 47 → Segment [c] := fun c h1 h2 => ⟨by simp, by simpa using h1, by simp, by simpa using fun h => h2 h.symm⟩
  refine ⟨?_, ?_⟩
  · intro e he
    simp only [List.append_nil, List.mem_singleton] at he
    exact ⟨[46, 47, 97], [97], he, [[46], [97]], by simpa using seg 97 (by decide) (by decide), by decide, by decide, by decide⟩
  · intro lib hl
    simp only [List.mem_singleton] at hl
    subst hl
    exact ⟨[108, 47], [108], .inr rfl, [108], ⟨[[108]], by simpa using (seg 108 (by decide) (by decide)), by decide, by decide, by decide⟩,
      by intro c hc; rw [List.mem_singleton.mp hc]; decide, .inr rfl⟩
example : langAfter [.disk .missing sampleGrp, .save (pgmPath [47, 119])] [47, 119, 47, 97] = some .plain := by decide +kernel
example : ReadSince [47, 119] [.disk samplePgm sampleGrp, .save (pgmPath [47, 119]), .setting true, .shown (docAt [])] :=
  ⟨[.disk samplePgm sampleGrp, .save (pgmPath [47, 119])], [.setting true, .shown (docAt [])], rfl, by simp,
    .inr ⟨[.disk samplePgm sampleGrp], pgmPath [47, 119], rfl, .inl (by decide +kernel)⟩⟩
example : langAfter [] [47, 119, 47, 97] = some .hlasm ∧ langAfter [] [47, 119, 47, 108, 47, 109] = some .hlasm ∧
    langAfter [] [47, 119, 47, 98] = some .plain ∧
    langAfter [.disk (.ok ⟨[some [98]], []⟩) sampleGrp, .save (pgmPath [47, 119])] [47, 119, 47, 98] = some .hlasm := by
  refine ⟨by decide +kernel, by decide +kernel, by decide +kernel, by decide +kernel⟩
example : ((activate (sampleWorld .missing .missing) false).map fun s => (s.step (.shown ⟨.hlasm, [47, 97], []⟩)).2) =
    some { lang := some .hlasm, askGrp := true, askPgm := true } := by decide +kernel
example : sample.st.hits [47, 119, 47, 97] = true := by decide +kernel

end Verif.Detect
