import Verif.Suppress.Spec
/-! C125: diagnostics of programs without a processor group are hidden exactly when there are too many of them. -/
namespace Verif.Suppress
open Spec

theorem upd_same {β : Type} (f : File → β) (a : File) (b : β) : upd f a b a = b := by simp [upd]
theorem upd_other {β : Type} (f : File → β) {a x : File} (b : β) (h : x ≠ a) : upd f a b x = f x := by simp [upd, h]

theorem setAll_other (p : File) : ∀ (ms : List (File × List Diag)) (f : File → List Diag), p ∉ ms.map (·.1) → setAll f ms p = f p
  | [], _, _ => rfl
  | m :: ms, f, h => by
    simp only [List.map_cons, List.mem_cons, not_or] at h
    rw [setAll, setAll_other p ms _ h.2, upd_other _ _ h.1]

/-! ### One analysis -/

theorem parse_other (A : Analysis) (s : St) (p q : File) (hp : Program A p) (hq : q ≠ p) :
    (s.parse A q).diags p = s.diags p ∧ (s.parse A q).deps p = s.deps p := by
  simp only [St.parse]
  rw [upd_other _ _ (Ne.symm hq), setAll_other p _ _ (hp _ _ _), upd_other _ _ (Ne.symm hq), upd_other _ _ (Ne.symm hq)]
  exact ⟨rfl, rfl⟩

theorem parse_same (A : Analysis) (s : St) (p : File) :
    (s.parse A p).diags p = (A s.text (s.conf.group p) p).own ∧
      (s.parse A p).deps p = ((A s.text (s.conf.group p) p).members.map (·.1)).filter (· ≠ p) := by
  simp only [St.parse, upd_same, and_self]

/-- No program has `p` among its dependencies. -/
def Free (s : St) (p : File) : Prop := ∀ q, p ∉ s.deps q

theorem parse_free (A : Analysis) (s : St) (p q : File) (hp : Program A p) (h : Free s p) : Free (s.parse A q) p := by
  intro x
  by_cases hx : x = q
  · subst hx
    rw [(parse_same A s x).2]
    intro hm
    exact hp _ _ _ (List.mem_filter.mp hm).1
  · simp only [St.parse, upd_other _ _ hx]; exact h x

/-- The state before the check for the limit. -/
def St.entered (A : Analysis) (s : St) (p : File) : St :=
  if (s.parse A p).deps p = [] ∨ p ∈ (s.parse A p).dependants then s.parse A p
  else { s.parse A p with dependants := (s.parse A p).dependants ++ [p] }

theorem parseOne_eq (A : Analysis) (s : St) (p : File) :
    s.parseOne A p = if (s.entered A p).conf.group p = none ∧ ((s.entered A p).diags p).length > (s.entered A p).limit then
      (s.entered A p).deleteDiags p else ({ s.entered A p with notified := upd (s.entered A p).notified p false }, .kept p) := rfl

theorem entered_eq (A : Analysis) (s : St) (p : File) : (s.entered A p).text = s.text ∧ (s.entered A p).conf = s.conf ∧
    (s.entered A p).global = s.global ∧ (s.entered A p).notified = s.notified ∧ (s.entered A p).diags = (s.parse A p).diags ∧
    (s.entered A p).deps = (s.parse A p).deps ∧ (∀ x, x ∈ (s.entered A p).dependants → x ∈ s.dependants ∨ x = p) := by
  unfold St.entered
  split
  · exact ⟨rfl, rfl, rfl, rfl, rfl, rfl, fun x h => .inl h⟩
  · refine ⟨rfl, rfl, rfl, rfl, rfl, rfl, fun x h => ?_⟩
    simp only [List.mem_append, List.mem_singleton] at h
    exact h

theorem parseOne_basic (A : Analysis) (s : St) (p : File) : (s.parseOne A p).1.text = s.text ∧ (s.parseOne A p).1.conf = s.conf ∧
    (s.parseOne A p).1.global = s.global ∧ (s.parseOne A p).1.deps = (s.parse A p).deps ∧
    (∀ x, x ∈ (s.parseOne A p).1.dependants → x ∈ s.dependants ∨ x = p) := by
  obtain ⟨h1, h2, h3, _, _, h6, h7⟩ := entered_eq A s p
  rw [parseOne_eq]
  split
  · exact ⟨h1, h2, h3, h6, h7⟩
  · exact ⟨h1, h2, h3, h6, h7⟩

theorem limit_eq {s s' : St} (h1 : s.conf = s'.conf) (h2 : s.global = s'.global) : s.limit = s'.limit := by
  unfold St.limit; rw [h1, h2]

theorem parseOne_other (A : Analysis) (s : St) (p q : File) (hp : Program A p) (hq : q ≠ p) :
    (s.parseOne A q).1.diags p = s.diags p ∧ (s.parseOne A q).1.deps p = s.deps p := by
  obtain ⟨_, _, _, _, h5, h6, _⟩ := entered_eq A s q
  have ho := parse_other A s p q hp hq
  have hd : p ∉ (s.parse A q).deps q := by
    rw [(parse_same A s q).2]
    intro hm
    exact hp _ _ _ (List.mem_filter.mp hm).1
  rw [parseOne_eq]
  split
  · simp only [St.deleteDiags]
    rw [if_neg (by rintro (h | h); exact hq h.symm; rw [h6] at h; exact hd h), h5, h6]
    exact ho
  · simp only []
    rw [h5, h6]
    exact ho

theorem parseOne_same (A : Analysis) (s : St) (p : File) : (s.parseOne A p).1.diags p =
    if s.conf.group p = none then visible s.limit (A s.text none p).own else (A s.text (s.conf.group p) p).own := by
  obtain ⟨_, h2, h3, _, h5, _, _⟩ := entered_eq A s p
  rw [parseOne_eq, h2, h5, limit_eq h2 h3, (parse_same A s p).1]
  unfold visible
  by_cases hg : s.conf.group p = none
  · rw [hg]
    by_cases hl : (A s.text none p).own.length > s.limit
    · rw [if_pos ⟨rfl, hl⟩, if_pos rfl, if_pos hl]; simp [St.deleteDiags]
    · rw [if_neg (fun h => hl h.2), if_pos rfl, if_neg hl]
      simp only []
      rw [h5, (parse_same A s p).1, hg]
  · rw [if_neg (fun h => hg h.1), if_neg hg]
    simp only []
    rw [h5, (parse_same A s p).1]

/-! ### Several analyses -/

theorem parseMany_basic (A : Analysis) : ∀ (ps : List File) (s : St), (s.parseMany A ps).1.text = s.text ∧
    (s.parseMany A ps).1.conf = s.conf ∧ (s.parseMany A ps).1.global = s.global
  | [], s => ⟨rfl, rfl, rfl⟩
  | p :: ps, s => by
    obtain ⟨h1, h2, h3⟩ := parseMany_basic A ps (s.parseOne A p).1
    obtain ⟨g1, g2, g3, _⟩ := parseOne_basic A s p
    exact ⟨h1.trans g1, h2.trans g2, h3.trans g3⟩

theorem parseMany_free (A : Analysis) (p : File) (hp : Program A p) : ∀ (ps : List File) (s : St), Free s p → Free (s.parseMany A ps).1 p
  | [], _, h => h
  | q :: ps, s, h => parseMany_free A p hp ps _ fun x => by
      rw [(parseOne_basic A s q).2.2.2.1]; exact parse_free A s p q hp h x

theorem parseMany_other (A : Analysis) (p : File) (hp : Program A p) : ∀ (ps : List File) (s : St), p ∉ ps →
    (s.parseMany A ps).1.diags p = s.diags p ∧ (s.parseMany A ps).1.deps p = s.deps p
  | [], _, _ => ⟨rfl, rfl⟩
  | q :: ps, s, h => by
    simp only [List.mem_cons, not_or] at h
    obtain ⟨h1, h2⟩ := parseMany_other A p hp ps (s.parseOne A q).1 h.2
    obtain ⟨g1, g2⟩ := parseOne_other A s p q hp (Ne.symm h.1)
    exact ⟨h1.trans g1, h2.trans g2⟩

theorem foldl_basic (A : Analysis) : ∀ (ps : List File) (s : St), (ps.foldl (St.parse A) s).conf = s.conf ∧
    (ps.foldl (St.parse A) s).global = s.global ∧ (ps.foldl (St.parse A) s).notified = s.notified ∧
    (ps.foldl (St.parse A) s).dependants = s.dependants
  | [], _ => ⟨rfl, rfl, rfl, rfl⟩
  | p :: ps, s => foldl_basic A ps (s.parse A p)

theorem foldl_free (A : Analysis) (p : File) (hp : Program A p) : ∀ (ps : List File) (s : St), Free s p → Free (ps.foldl (St.parse A) s) p
  | [], _, h => h
  | q :: ps, s, h => foldl_free A p hp ps _ (parse_free A s p q hp h)

/-! ### Histories -/

theorem step_free (A : Analysis) (p : File) (hp : Program A p) (s : St) (e : Ev) (h : Free s p) : Free (s.step A e).1 p := by
  cases e with
  | edit f t => exact parseMany_free A p hp _ _ h
  | config c => exact foldl_free A p hp _ _ h
  | setting g => exact h
  | close f =>
    simp only [St.step]
    split
    · exact h
    · intro x
      simp only
      unfold upd
      split
      · simp
      · exact h x

theorem run_free (A : Analysis) (p : File) (hp : Program A p) : ∀ (evs : List Ev) (s : St), Free s p → Free (s.run A evs).1 p
  | [], _, h => h
  | e :: evs, s, h => run_free A p hp evs _ (step_free A p hp s e h)

theorem step_conf (A : Analysis) (s : St) (e : Ev) :
    (s.step A e).1.conf = confAfter s.conf [e] ∧ (s.step A e).1.global = settingAfter s.global [e] := by
  cases e with
  | edit f t => obtain ⟨_, h2, h3⟩ := parseMany_basic A (St.related { s with text := upd s.text f t } f) { s with text := upd s.text f t }; exact ⟨h2, h3⟩
  | config c => obtain ⟨h1, h2, _⟩ := foldl_basic A s.dependants { s with conf := c }; exact ⟨h1, h2⟩
  | setting g => exact ⟨rfl, rfl⟩
  | close f => simp only [St.step]; split <;> exact ⟨rfl, rfl⟩

theorem confAfter_cons (c : Conf) (e : Ev) (evs : List Ev) : confAfter c (e :: evs) = confAfter (confAfter c [e]) evs := by
  cases e <;> rfl
theorem settingAfter_cons (g : Nat) (e : Ev) (evs : List Ev) : settingAfter g (e :: evs) = settingAfter (settingAfter g [e]) evs := by
  cases e <;> rfl

theorem run_conf (A : Analysis) : ∀ (evs : List Ev) (s : St),
    (s.run A evs).1.conf = confAfter s.conf evs ∧ (s.run A evs).1.global = settingAfter s.global evs
  | [], _ => ⟨rfl, rfl⟩
  | e :: evs, s => by
    obtain ⟨h1, h2⟩ := run_conf A evs (s.step A e).1
    obtain ⟨g1, g2⟩ := step_conf A s e
    rw [confAfter_cons, settingAfter_cons, ← g1, ← g2]
    exact ⟨h1, h2⟩

theorem run_append (A : Analysis) : ∀ (a : List Ev) (s : St) (b : List Ev), (s.run A (a ++ b)).1 = ((s.run A a).1.run A b).1
  | [], _, _ => rfl
  | e :: a, s, b => run_append A a (s.step A e).1 b

theorem related_eq (s : St) (p : File) (h : Free s p) : s.related p = [p] := by
  have : s.dependants.filter (fun d => (s.deps d).contains p) = [] := by
    rw [List.filter_eq_nil_iff]
    intro d _
    simpa using h d
  unfold St.related
  simp only [this, if_true]

theorem related_free (s : St) (p f : File) (h : Free s p) (hd : s.deps p = [] ∨ f = p) : p ∉ s.related f ∨ s.related f = [p] ∧ f = p := by
  by_cases hf : f = p
  · subst hf; exact .inr ⟨related_eq s f h, rfl⟩
  · left
    have hd := hd.resolve_right hf
    unfold St.related
    simp only
    split
    · simpa using fun h => hf h.symm
    · intro hm
      have := (List.mem_filter.mp hm).2
      rw [hd] at this
      simp at this

/-- C125, main part. In any history: a program without a processor group, after it was opened or changed and as long as
neither the configuration files nor the setting are changed and it is not closed: its diagnostics are shown if there are not more of them
than the limit, and hidden otherwise. Missing: changes of the configuration (see the witnesses). -/
theorem C125_hidden_partial (A : Analysis) (hA : NoLibraries A) (c : Conf) (g : Nat) (p : File) (hp : Program A p)
    (before after : List Ev) (t : Text) (hg : (confAfter c before).group p = none)
    (hq : ∀ e ∈ after, (∀ c', e ≠ .config c') ∧ (∀ g', e ≠ .setting g') ∧ (∀ t', e ≠ .edit p t') ∧ e ≠ .close p) :
    ((start c g).run A (before ++ .edit p t :: after)).1.diags p = visible (limitAfter c g before) (A (fun _ => t) none p).own := by
  rw [run_append]
  obtain ⟨hc, hs⟩ := run_conf A before (start c g)
  have hf : Free ((start c g).run A before).1 p := run_free A p hp before _ fun _ => by simp [start]
  generalize ((start c g).run A before).1 = s at *
  simp only [St.run]
  have hlim : s.limit = limitAfter c g before := by
    unfold St.limit limitAfter
    rw [hc, hs]
    show (confAfter c before).limit.getD (settingAfter g before) = _
    cases (confAfter c before).limit <;> rfl
  have hgp : s.conf.group p = none := by rw [hc]; exact hg
  have h0 : (s.step A (.edit p t)).1.diags p = visible (limitAfter c g before) (A (fun _ => t) none p).own ∧
      (s.step A (.edit p t)).1.deps p = [] := by
    simp only [St.step]
    rw [related_eq { s with text := upd s.text p t } p hf]
    simp only [St.parseMany]
    rw [parseOne_same, (parseOne_basic A _ p).2.2.2.1, (parse_same A _ p).2]
    simp only [hgp, if_true, hA.1]
    rw [hA.2 (upd s.text p t) (fun _ => t) p (by simp [upd]), ← hlim]
    exact ⟨rfl, rfl⟩
  have hf1 := step_free A p hp s (.edit p t) hf
  obtain ⟨h0', h0⟩ := h0
  rw [← h0']
  generalize (s.step A (.edit p t)).1 = s1 at *
  clear hc hs hlim hgp hf hg h0'
  induction after generalizing s1 with
  | nil => rfl
  | cons e after ih =>
    obtain ⟨q1, q2, q3, q4⟩ := hq e (by simp)
    have key : (s1.step A e).1.diags p = s1.diags p ∧ (s1.step A e).1.deps p = [] := by
      cases e with
      | edit f t' =>
        have hfp : f ≠ p := by rintro rfl; exact q3 t' rfl
        simp only [St.step]
        rcases related_free { s1 with text := upd s1.text f t' } p f hf1 (.inl h0) with h | ⟨_, h⟩
        · obtain ⟨a, b⟩ := parseMany_other A p hp _ { s1 with text := upd s1.text f t' } h
          exact ⟨a, b.trans h0⟩
        · exact absurd h hfp
      | config c' => exact absurd rfl (q1 c')
      | setting g' => exact absurd rfl (q2 g')
      | close f =>
        have hfp : p ≠ f := by rintro rfl; exact q4 rfl
        simp only [St.step]
        split
        · exact ⟨rfl, h0⟩
        · exact ⟨upd_other _ _ hfp, (upd_other _ _ hfp).trans h0⟩
    rw [St.run, ← key.1]
    exact ih (fun x hx => hq x (by simp [hx])) (s1.step A e).1 (step_free A p hp s1 e hf1) key.2

/-! ### Programs with a processor group -/

/-- All diagnostics of an analysis of `p` in a processor group. -/
def Whole (A : Analysis) (p : File) (ds : List Diag) : Prop := ∃ t gr, ds = (A t (some gr) p).own

theorem parseMany_whole (A : Analysis) (p : File) (hp : Program A p) (gr : Group) : ∀ (ps : List File) (s : St), s.conf.group p = some gr →
    (p ∈ ps ∨ Whole A p (s.diags p)) → Whole A p ((s.parseMany A ps).1.diags p)
  | [], _, _, h => h.resolve_left (by simp)
  | q :: ps, s, hg, h => by
    have hb := (parseOne_basic A s q).2.1
    refine parseMany_whole A p hp gr ps _ (by rw [hb]; exact hg) ?_
    by_cases hq : q = p
    · subst hq
      right
      rw [parseOne_same, hg, if_neg (by simp)]
      exact ⟨_, _, rfl⟩
    · rw [(parseOne_other A s p q hp hq).1]
      rcases h with h | h
      · simp only [List.mem_cons] at h
        exact .inl (h.resolve_left fun e => hq e.symm)
      · exact .inr h

theorem parseMany_quiet (A : Analysis) (p : File) (gr : Group) : ∀ (ps : List File) (s : St), s.conf.group p = some gr →
    ∀ m, Out.suppressed p m ∉ (s.parseMany A ps).2
  | [], _, _, _ => by simp [St.parseMany]
  | q :: ps, s, hg, m => by
    have hb := (parseOne_basic A s q).2.1
    have ih := parseMany_quiet A p gr ps (s.parseOne A q).1 (by rw [hb]; exact hg) m
    simp only [St.parseMany, List.mem_cons, not_or]
    refine ⟨?_, ih⟩
    rw [parseOne_eq, (entered_eq A s q).2.1]
    split
    · next h =>
      intro he
      simp only [St.deleteDiags, Out.suppressed.injEq] at he
      rw [← he.1, hg] at h
      cases h.1
    · simp

theorem foldl_whole (A : Analysis) (p : File) (hp : Program A p) (gr : Group) : ∀ (ps : List File) (s : St), s.conf.group p = some gr →
    (p ∈ ps ∨ Whole A p (s.diags p)) → Whole A p ((ps.foldl (St.parse A) s).diags p)
  | [], _, _, h => h.resolve_left (by simp)
  | q :: ps, s, hg, h => by
    rw [List.foldl_cons]
    refine foldl_whole A p hp gr ps _ hg ?_
    by_cases hq : q = p
    · subst hq
      right
      rw [(parse_same A s q).1, hg]
      exact ⟨_, _, rfl⟩
    · rw [(parse_other A s p q hp hq).1]
      rcases h with h | h
      · simp only [List.mem_cons] at h
        exact .inl (h.resolve_left fun e => hq e.symm)
      · exact .inr h

theorem run_whole (A : Analysis) (p : File) (hp : Program A p) : ∀ (evs : List Ev) (s : St) (o : Bool), (∃ gr, s.conf.group p = some gr) →
    (∀ c', Ev.config c' ∈ evs → ∃ gr, c'.group p = some gr) → Free s p → (o = true → Whole A p (s.diags p)) →
    (openAfter p o evs = true → Whole A p ((s.run A evs).1.diags p)) ∧ ∀ m, Out.suppressed p m ∉ (s.run A evs).2
  | [], s, o, _, _, _, ho => ⟨ho, by simp [St.run]⟩
  | e :: evs, s, o, ⟨gr, hg⟩, hc, hf, ho => by
    have hf1 := step_free A p hp s e hf
    have hc' : ∀ c', Ev.config c' ∈ evs → ∃ gr, c'.group p = some gr := fun c' h => hc c' (by simp [h])
    have hg1 : ∃ gr, (s.step A e).1.conf.group p = some gr := by
      rw [(step_conf A s e).1]
      cases e with
      | config c' => exact hc c' (by simp)
      | _ => exact ⟨gr, hg⟩
    simp only [St.run, List.mem_append, not_or]
    cases e with
    | edit f t =>
      have hw : (f = p ∨ o = true) → Whole A p ((s.step A (.edit f t)).1.diags p) := by
        intro h
        simp only [St.step]
        refine parseMany_whole A p hp gr _ _ hg ?_
        rcases h with rfl | h
        · exact .inl (by rw [related_eq { s with text := upd s.text f t } f hf]; simp)
        · exact .inr (ho h)
      obtain ⟨h1, h2⟩ := run_whole A p hp evs _ (f = p || o) hg1 hc' hf1 (by simpa using hw)
      exact ⟨h1, fun m => ⟨parseMany_quiet A p gr (St.related { s with text := upd s.text f t } f) { s with text := upd s.text f t } hg m, h2 m⟩⟩
    | config c' =>
      obtain ⟨gr', hg'⟩ := hc c' (by simp)
      obtain ⟨h1, h2⟩ := run_whole A p hp evs _ o hg1 hc' hf1 fun h => foldl_whole A p hp gr' _ { s with conf := c' } hg' (.inr (ho h))
      exact ⟨h1, fun m => ⟨by simp [St.step], h2 m⟩⟩
    | setting g =>
      obtain ⟨h1, h2⟩ := run_whole A p hp evs _ o hg1 hc' hf1 ho
      exact ⟨h1, fun m => ⟨by simp [St.step], h2 m⟩⟩
    | close f =>
      have hw : (o && f ≠ p) = true → Whole A p ((s.step A (.close f)).1.diags p) := by
        intro h
        simp only [ne_eq, Bool.and_eq_true, decide_eq_true_eq] at h
        simp only [St.step]
        split
        · exact ho h.1
        · simp only [upd_other _ _ (Ne.symm h.2)]; exact ho h.1
      obtain ⟨h1, h2⟩ := run_whole A p hp evs _ (o && f ≠ p) hg1 hc' hf1 hw
      refine ⟨h1, fun m => ⟨?_, h2 m⟩⟩
      simp only [St.step]
      split <;> simp

/-- C125, programs with a processor group: as long as a program has a processor group, whatever else happens, its diagnostics are
never hidden: what is kept of an open program are all diagnostics of an analysis, and no message says otherwise. -/
theorem C125_configured (A : Analysis) (c : Conf) (g : Nat) (p : File) (hp : Program A p) (evs : List Ev)
    (hg : ∃ gr, c.group p = some gr) (hc : ∀ c', Ev.config c' ∈ evs → ∃ gr, c'.group p = some gr) :
    (openAfter p false evs = true → Whole A p (((start c g).run A evs).1.diags p)) ∧
      ∀ m, Out.suppressed p m ∉ ((start c g).run A evs).2 :=
  run_whole A p hp evs (start c g) false hg hc (fun _ => by simp [start]) (by simp)

/-! ### The message -/

theorem knows_append (p : File) : ∀ (a : List Out) (k : Bool) (b : List Out), knows p k (a ++ b) = knows p (knows p k a) b
  | [], _, _ => rfl
  | .suppressed q m :: a, k, b => knows_append p a _ b
  | .kept q :: a, k, b => knows_append p a _ b
  | .closed q :: a, k, b => knows_append p a _ b

/-- The messages of a list of results are right, if `k` says what the user knew before. -/
def Right (k : File → Bool) (os : List Out) : Prop :=
  ∀ pre p m post, os = pre ++ .suppressed p m :: post → (m = true ↔ knows p (k p) pre = false)

theorem right_append (k : File → Bool) (a b : List Out) (ha : Right k a) (hb : Right (fun p => knows p (k p) a) b) : Right k (a ++ b) := by
  intro pre p m post h
  rw [List.append_eq_append_iff] at h
  rcases h with ⟨l, rfl, hl⟩ | ⟨l, hl, hr⟩
  · rw [hb l p m post hl, knows_append]
  · cases l with
    | nil =>
      have := hb [] p m post (by simpa using hr.symm)
      rw [this]
      simp only [List.append_nil] at hl
      rw [hl]; rfl
    | cons x l =>
      simp only [List.cons_append, List.cons.injEq] at hr
      rw [← hr.1] at hl
      exact ha pre p m l hl

theorem right_one (k : File → Bool) (o : Out) (h : ∀ p m, o = .suppressed p m → (m = true ↔ k p = false)) : Right k [o] := by
  intro pre p m post he
  cases pre with
  | nil => simp only [List.nil_append, List.cons.injEq] at he; exact h p m he.1
  | cons x pre => simp at he

theorem parseOne_knows (A : Analysis) (s : St) (p : File) :
    (∀ x, (s.parseOne A p).1.notified x = knows x (s.notified x) [(s.parseOne A p).2]) ∧ Right s.notified [(s.parseOne A p).2] := by
  have hn := (entered_eq A s p).2.2.2.1
  rw [parseOne_eq]
  split
  · simp only [St.deleteDiags, hn]
    refine ⟨fun x => ?_, right_one _ _ ?_⟩
    · simp only [knows, upd]
      by_cases hx : x = p
      · subst hx; simp
      · rw [if_neg hx, if_neg (fun h => hx h.symm)]
    · intro q m h
      simp only [Out.suppressed.injEq] at h
      rw [← h.2, ← h.1]; simp
  · simp only [hn]
    refine ⟨fun x => ?_, right_one _ _ (by intro q m h; cases h)⟩
    simp only [knows, upd]
    by_cases hx : x = p
    · subst hx; simp
    · rw [if_neg hx]; simpa using fun _ h => hx h.symm

theorem parseMany_knows (A : Analysis) : ∀ (ps : List File) (s : St),
    (∀ x, (s.parseMany A ps).1.notified x = knows x (s.notified x) (s.parseMany A ps).2) ∧ Right s.notified (s.parseMany A ps).2
  | [], s => ⟨fun _ => rfl, fun pre p m post h => by simp [St.parseMany] at h⟩
  | p :: ps, s => by
    obtain ⟨h1, h2⟩ := parseOne_knows A s p
    obtain ⟨g1, g2⟩ := parseMany_knows A ps (s.parseOne A p).1
    have e : (s.parseMany A (p :: ps)).2 = [(s.parseOne A p).2] ++ ((s.parseOne A p).1.parseMany A ps).2 := rfl
    rw [e]
    refine ⟨fun x => ?_, right_append _ _ _ h2 ?_⟩
    · rw [knows_append, ← h1]; exact g1 x
    · have : (fun x => knows x (s.notified x) [(s.parseOne A p).2]) = (s.parseOne A p).1.notified := funext fun x => (h1 x).symm
      rw [this]; exact g2

theorem step_knows (A : Analysis) (s : St) (e : Ev) :
    (∀ x, (s.step A e).1.notified x = knows x (s.notified x) (s.step A e).2) ∧ Right s.notified (s.step A e).2 := by
  have hnil : Right s.notified [] := fun pre p m post h => by simp at h
  cases e with
  | edit f t => exact parseMany_knows A _ _
  | config c =>
    refine ⟨fun x => ?_, hnil⟩
    simp only [St.step, knows]
    rw [(foldl_basic A s.dependants { s with conf := c }).2.2.1]
  | setting g => exact ⟨fun _ => rfl, hnil⟩
  | close f =>
    have key : ∀ x, upd s.notified f false x = knows x (s.notified x) [.closed f] := by
      intro x
      simp only [knows, upd]
      by_cases hx : x = f
      · subst hx; simp
      · rw [if_neg hx]; simpa using fun _ h => hx h.symm
    have hr : Right s.notified [Out.closed f] := right_one _ _ (by intro q m h; cases h)
    simp only [St.step]
    split
    · exact ⟨key, hr⟩
    · exact ⟨key, hr⟩

theorem run_knows (A : Analysis) : ∀ (evs : List Ev) (s : St), Right s.notified (s.run A evs).2
  | [], _ => fun pre p m post h => by simp [St.run] at h
  | e :: evs, s => by
    obtain ⟨h1, h2⟩ := step_knows A s e
    refine right_append _ _ _ h2 ?_
    have : (fun x => knows x (s.notified x) (s.step A e).2) = (s.step A e).1.notified := funext fun x => (h1 x).symm
    rw [this]; exact run_knows A evs _

/-- C125, the message: over any history, whenever diagnostics are hidden the user is told, unless they know already: a message said so, and
since then the diagnostics of the program have not been shown again, and the document has not been closed. -/
theorem C125_message (A : Analysis) (c : Conf) (g : Nat) (evs : List Ev) (pre post : List Out) (p : File) (m : Bool)
    (h : ((start c g).run A evs).2 = pre ++ .suppressed p m :: post) : m = true ↔ knows p false pre = false :=
  run_knows A evs (start c g) pre p m post h

/-! ### Where the code differs -/

/-- Program 1 has eleven diagnostics, and a member 2 if it has a processor group; its text 5 has none. Program 3 has eight and no member. -/
def sample : Analysis := fun t g p =>
  if p = 1 then ⟨if t 1 = 5 then [] else List.range 11, if g = none then [] else [(2, [])]⟩
  else if p = 3 then ⟨List.range 8, []⟩ else ⟨[], []⟩

def plain : Conf := ⟨fun _ => none, none⟩
def grouped : Conf := ⟨fun _ => some 0, none⟩

/-- The group of a program with members is taken away: the program is analysed anew, and all its eleven diagnostics are shown,
although the limit is ten. -/
theorem C125_witness_taken : (((start grouped 10).run sample [.edit 1 0, .config plain]).1.diags 1).length = 11 ∧
    ((start grouped 10).run sample [.edit 1 0, .config plain]).1.conf.group 1 = none := by
  constructor <;> decide +kernel

/-- A program without members gets a group: its diagnostics stay hidden until it is changed. -/
theorem C125_witness_given : ((start plain 7).run sample [.edit 3 0, .config grouped]).1.diags 3 = [] ∧
    ((start plain 7).run sample [.edit 3 0, .config grouped]).1.conf.group 3 = some 0 ∧
    (((start plain 7).run sample [.edit 3 0, .config grouped, .edit 3 1]).1.diags 3).length = 8 := by
  refine ⟨by decide +kernel, by decide +kernel, by decide +kernel⟩

/-- A change of the limit has no effect until the program is changed, in either direction. -/
theorem C125_witness_limit : ((start plain 10).run sample [.edit 1 0, .setting 20]).1.diags 1 = [] ∧
    (((start plain 10).run sample [.edit 3 0, .setting 5]).1.diags 3).length = 8 := by
  constructor <;> decide +kernel

/-! ### Examples -/

/-- The hypotheses of the theorems are met; the diagnostics of program 1 are hidden, with a message at the first time and after they were
shown again. -/
example : NoLibraries sample ∧ Program sample 1 ∧ Program sample 3 := by
  refine ⟨⟨?_, ?_⟩, ?_, ?_⟩
  · intro t p
    unfold sample
    split
    · rfl
    · split <;> rfl
  · intro t t' p h
    unfold sample
    split
    · next hp => subst hp; simp only [h]
    · rfl
  · intro t g q
    unfold sample
    split
    · simp only; split <;> simp
    · split <;> simp
  · intro t g q
    unfold sample
    split
    · simp only; split <;> simp
    · split <;> simp
example : ((start plain 10).run sample [.edit 1 0, .edit 3 0, .edit 1 1, .edit 1 5, .edit 1 2, .close 1, .edit 1 2]).2 =
    [.suppressed 1 true, .kept 3, .suppressed 1 false, .kept 1, .suppressed 1 true, .closed 1, .suppressed 1 true] := by decide +kernel
example : (((start grouped 10).run sample [.edit 1 0, .setting 3, .edit 2 7, .config ⟨fun _ => some 1, some 2⟩]).1.diags 1).length = 11 ∧
    openAfter 1 false [.edit 1 0, .setting 3, .edit 2 7, .config ⟨fun _ => some 1, some 2⟩] = true := by
  constructor <;> decide +kernel

end Verif.Suppress
