import Verif.Workspace.Deps
/-! C24: closing a document keeps what is still needed. -/
namespace Verif.Workspace

/-- Every dependency of every loaded file is loaded. -/
def NeededLoaded (s : Ws) : Prop := ∀ f w d, s.files f = some w → d ∈ w.deps → s.files d ≠ none

/-- Every loaded file with dependencies is known as a dependant of workspace `ws`. -/
def Known (ws : Nat) (s : Ws) : Prop := ∀ f w, s.files f = some w → w.deps ≠ [] → f ∈ s.dependants ws

theorem ensure_some {files : String → Option WFile} {ds : List String} {x : String} {w : WFile} (h : files x = some w) :
    ensure files ds x = some w := by simp [ensure, h]

theorem ensure_ne_none {files : String → Option WFile} {ds : List String} {x : String} (h : files x ≠ none ∨ x ∈ ds) :
    ensure files ds x ≠ none := by
  unfold ensure
  cases hx : files x with
  | some w => simp
  | none =>
    rcases h with h | h
    · exact absurd hx h
    · simp [h]

theorem ensure_inv {files : String → Option WFile} {ds : List String} {x : String} {w : WFile}
    (h : ensure files ds x = some w) : files x = some w ∨ (files x = none ∧ w = { editing := false, deps := [] }) := by
  unfold ensure at h
  cases hx : files x with
  | some w' => simp [hx] at h; subst h; exact Or.inl rfl
  | none =>
    right
    simp only [hx] at h
    split at h
    · simp at h; exact ⟨rfl, h.symm⟩
    · simp at h

theorem parse_files_ne_none {s : Ws} {f : String} {v : Visit} {x : String} (h : s.files x ≠ none) :
    (s.parse f v).1.files x ≠ none := by
  unfold Ws.parse
  cases hf : s.files f with
  | none => exact h
  | some w =>
    simp only [upd]
    split
    · simp
    · exact ensure_ne_none (Or.inl h)

theorem parse_dependants {s : Ws} {f : String} {v : Visit} : (s.parse f v).1.dependants = s.dependants := by
  unfold Ws.parse; split <;> rfl

/-- Where a file comes from after an analysis. -/
theorem parse_inv {s : Ws} {f : String} {v : Visit} {x : String} {w : WFile} (h : (s.parse f v).1.files x = some w) :
    (x ≠ f ∧ s.files x = some w) ∨ (x ≠ f ∧ w.deps = []) ∨
    (x = f ∧ ∃ w0, s.files f = some w0 ∧ w.editing = w0.editing ∧ w.deps = (if v.cancelled then w0.deps else newDeps f v)) := by
  unfold Ws.parse at h
  cases hf : s.files f with
  | none =>
    simp only [hf] at h
    left; exact ⟨fun e => by subst e; rw [hf] at h; simp at h, h⟩
  | some w0 =>
    simp only [hf, upd] at h
    split at h
    · next e => simp at h; subst h; exact Or.inr (Or.inr ⟨e, w0, rfl, rfl, rfl⟩)
    · next e =>
      rcases ensure_inv h with h | ⟨_, h⟩
      · exact Or.inl ⟨e, h⟩
      · exact Or.inr (Or.inl ⟨e, by rw [h]⟩)

theorem parse_needed {s : Ws} (hN : NeededLoaded s) (f : String) (v : Visit) : NeededLoaded (s.parse f v).1 := by
  intro x w d hx hd
  rcases parse_inv hx with ⟨_, h⟩ | ⟨_, h⟩ | ⟨rfl, w0, h0, _, h⟩
  · exact parse_files_ne_none (hN x w d h hd)
  · rw [h] at hd; simp at hd
  · rw [h] at hd
    split at hd
    · exact parse_files_ne_none (hN x w0 d h0 hd)
    · unfold Ws.parse
      simp only [h0, upd]
      split
      · simp
      · exact ensure_ne_none (Or.inr (List.mem_filter.mp hd).1)

theorem parse_known {ws : Nat} {s : Ws} (hK : Known ws s) (f : String) (v : Visit) :
    ∀ x w, (s.parse f v).1.files x = some w → w.deps ≠ [] → x ∈ s.dependants ws ∨ x = f := by
  intro x w hx hd
  rcases parse_inv hx with ⟨_, h⟩ | ⟨_, h⟩ | ⟨rfl, _⟩
  · exact Or.inl (hK x w h hd)
  · exact absurd h hd
  · exact Or.inr rfl

theorem mem_upd_cons {ws : Nat} {dep : Nat → List String} {f x : String} :
    x ∈ upd dep ws (f :: dep ws) ws ↔ x = f ∨ x ∈ dep ws := by simp [upd]

/-- The relation between `files_to_close` collected and the state: what is to be closed is not a current dependency. -/
def CloseOk (s : Ws) (tcs : List (String × List String)) : Prop :=
  ∀ g tc, (g, tc) ∈ tcs → ∀ d ∈ tc, ∀ w, s.files g = some w → d ∉ w.deps

theorem parseAll_spec (ws : Nat) (oracle : String → Visit) (ins : Bool) (fs : List String) : ∀ s : Ws,
    NeededLoaded s → Known ws s → (ins = true ∨ ∀ f ∈ fs, f ∈ s.dependants ws) →
    let r := s.parseAll ws oracle ins fs
    NeededLoaded r.1 ∧ Known ws r.1 ∧ CloseOk r.1 r.2 ∧
      (∀ g w, s.files g = some w → (oracle g).cancelled = false → w.deps = newDeps g (oracle g) →
        ∀ w', r.1.files g = some w' → w'.deps = newDeps g (oracle g)) ∧
      (∀ x, s.files x ≠ none → r.1.files x ≠ none) := by
  induction fs with
  | nil =>
    intro s hN hK _
    refine ⟨hN, hK, by intro g tc h; simp [Ws.parseAll] at h, ?_, fun x h => h⟩
    intro g w hg _ hd w' hw'
    simp only [Ws.parseAll, hg] at hw'
    simp at hw'; subst hw'; exact hd
  | cons f fs ih =>
    intro s hN hK hins
    -- the state after the first analysis
    have hN1 := parse_needed hN f (oracle f)
    have hK1 := parse_known hK f (oracle f)
    have hdep : (s.parse f (oracle f)).1.dependants = s.dependants := parse_dependants
    simp only [Ws.parseAll]
    generalize hp : s.parse f (oracle f) = p at *
    obtain ⟨s1, tc⟩ := p
    simp only at hN1 hK1 hdep ⊢
    generalize hs2 : (if (ins && s1.hasDeps f &&
        !(s1.dependants ws).contains f) = true then
      ({ s1 with dependants := upd s1.dependants ws (f :: s1.dependants ws) } : Ws) else s1) = s2
    have hfiles2 : s2.files = s1.files := by rw [← hs2]; split <;> rfl
    have hsub2 : ∀ x, x ∈ s1.dependants ws → x ∈ s2.dependants ws := by
      intro x hx; rw [← hs2]; split
      · exact mem_upd_cons.mpr (Or.inr hx)
      · exact hx
    have hK2 : Known ws s2 := by
      intro x w hx hd
      rw [hfiles2] at hx
      rcases hK1 x w hx hd with h | rfl
      · exact hsub2 x (by rw [hdep]; exact h)
      · rcases hins with hi | hi
        · rw [← hs2]
          split
          · exact mem_upd_cons.mpr (Or.inl rfl)
          · next hc =>
            simp only [hi, Ws.hasDeps, hx, Bool.true_and, Bool.and_eq_true, Bool.not_eq_true', not_and, List.isEmpty_eq_false_iff] at hc
            simpa using hc hd
        · exact hsub2 x (by rw [hdep]; exact hi x (by simp))
    have hN2 : NeededLoaded s2 := by intro x w d hx hd; rw [hfiles2] at hx ⊢; exact hN1 x w d hx hd
    have ih' := ih s2 hN2 hK2 (by
      rcases hins with h | h
      · exact Or.inl h
      · right; intro x hx; exact hsub2 x (by rw [hdep]; exact h x (by simp [hx])))
    generalize hr : s2.parseAll ws oracle ins fs = r at ih'
    obtain ⟨s3, rest⟩ := r
    simp only at ih' ⊢
    obtain ⟨i1, i2, i3, i4, i5⟩ := ih'
    refine ⟨i1, i2, ?_, ?_, ?_⟩
    · intro g tc' hmem d hd w hw
      rw [List.mem_cons] at hmem
      rcases hmem with hmem | hmem
      · simp only [Prod.mk.injEq] at hmem
        obtain ⟨rfl, rfl⟩ := hmem
        -- tc' was computed by the first analysis
        unfold Ws.parse at hp
        cases hf : s.files g with
        | none => simp only [hf, Prod.mk.injEq] at hp; rw [← hp.2] at hd; simp at hd
        | some w0 =>
          simp only [hf, Prod.mk.injEq] at hp
          obtain ⟨hp1, hp2⟩ := hp
          rw [← hp2, List.mem_filter] at hd
          cases hcan : (oracle g).cancelled with
          | true => simp [hcan] at hd
          | false =>
            simp only [hcan, Bool.false_eq_true, if_false, decide_eq_true_eq] at hd
            have hg2 : s2.files g = some { w0 with deps := newDeps g (oracle g) } := by
              rw [hfiles2, ← hp1]; simp [upd, hcan]
            rw [i4 g _ hg2 hcan rfl w hw]
            exact hd.2
      · exact i3 g tc' hmem d hd w hw
    · intro g w hg hcan hdeps w' hw'
      -- the property is kept by the first analysis
      have : ∃ w1, s2.files g = some w1 ∧ w1.deps = newDeps g (oracle g) := by
        rw [hfiles2]
        have hne : s1.files g ≠ none := by
          have := parse_files_ne_none (f := f) (v := oracle f) (s := s) (x := g) (by rw [hg]; simp)
          rw [hp] at this; exact this
        cases hg1 : s1.files g with
        | none => exact absurd hg1 hne
        | some w1 =>
          refine ⟨w1, rfl, ?_⟩
          have := parse_inv (s := s) (f := f) (v := oracle f) (x := g) (w := w1) (by rw [hp]; exact hg1)
          rcases this with ⟨_, h⟩ | ⟨hne', h⟩ | ⟨rfl, w0, h0, _, h⟩
          · rw [hg] at h; simp at h; subst h; exact hdeps
          · -- not freshly added: g was already loaded
            have hg1' : (s.parse f (oracle f)).1.files g = some w1 := by rw [hp]; exact hg1
            unfold Ws.parse at hg1'
            cases hf : s.files f with
            | none => simp only [hf, hg] at hg1'; simp at hg1'; subst hg1'; exact hdeps
            | some w0 =>
              simp only [hf, upd, hne', if_false, ensure_some hg] at hg1'
              simp at hg1'; subst hg1'; exact hdeps
          · rw [h, hcan]; simp
      obtain ⟨w1, h1, h2⟩ := this
      exact i4 g w1 h1 hcan h2 w' hw'
    · intro x hx
      apply i5
      rw [hfiles2]
      have := parse_files_ne_none (f := f) (v := oracle f) (s := s) (x := x) hx
      rw [hp] at this; exact this

theorem filterClose_inv {s : Ws} {ws : Nat} {deps : List String} {g x : String} {w : WFile}
    (h : (s.filterClose ws deps g).files x = some w) : s.files x = some w := by
  unfold Ws.filterClose at h
  simp only at h
  split at h
  · simp at h
  · exact h

/-- What `filter_and_close_dependencies_` drops. -/
theorem filterClose_dropped {s : Ws} {ws : Nat} {deps : List String} {g d : String} {w : WFile} (h : s.files d = some w)
    (hn : (s.filterClose ws deps g).files d = none) :
    d ∈ deps ∧ w.editing = false ∧ ∀ h ∈ s.dependants ws, h ≠ g → ∀ wh, s.files h = some wh → d ∉ wh.deps := by
  unfold Ws.filterClose at hn
  simp only at hn
  split at hn
  · next hc =>
    simp only [Ws.drops, h, Bool.and_eq_true, List.contains_iff_mem, Bool.not_eq_true', List.all_eq_true] at hc
    refine ⟨hc.1.1, hc.1.2, ?_⟩
    intro x hx hne wh hwh
    have := hc.2 x hx
    simpa [hwh, hne] using this
  · rw [h] at hn; simp at hn

theorem filterClose_keeps {s : Ws} {ws : Nat} (hN : NeededLoaded s) (hK : Known ws s) (deps : List String) (g : String)
    (hg : ∀ d ∈ deps, ∀ w, s.files g = some w → d ∉ w.deps) :
    NeededLoaded (s.filterClose ws deps g) ∧ Known ws (s.filterClose ws deps g) := by
  constructor
  · intro x w d hx hd hnone
    have hx' := filterClose_inv hx
    have hdl := hN x w d hx' hd
    cases hwd : s.files d with
    | none => exact hdl hwd
    | some wd =>
      obtain ⟨h1, h2, h3⟩ := filterClose_dropped hwd hnone
      have hxdep := hK x w hx' (by intro e; rw [e] at hd; simp at hd)
      by_cases hxg : x = g
      · subst hxg; exact hg d h1 w hx' hd
      · exact h3 x hxdep hxg w hx' hd
  · intro x w hx hd
    exact hK x w (filterClose_inv hx) hd

theorem closeAll_keeps (ws : Nat) (lk : Bool) (tcs : List (String × List String)) : ∀ s : Ws, NeededLoaded s → Known ws s →
    CloseOk s tcs → NeededLoaded (s.closeAll ws lk tcs) ∧ Known ws (s.closeAll ws lk tcs) := by
  induction tcs with
  | nil => intro s h1 h2 _; exact ⟨h1, h2⟩
  | cons p rest ih =>
    intro s h1 h2 h3
    obtain ⟨g, tc⟩ := p
    have hk := filterClose_keeps h1 h2 tc g (fun d hd w hw => h3 g tc (by simp) d hd w hw)
    simp only [Ws.closeAll]
    split
    · exact ih _ h1 h2 (fun g' tc' hm => h3 g' tc' (by simp [hm]))
    · refine ih _ hk.1 hk.2 ?_
      intro g' tc' hm d hd w hw
      exact h3 g' tc' (by simp [hm]) d hd w (filterClose_inv hw)

theorem parseFile_keeps (ws : Nat) (oracle : String → Visit) (s : Ws) (f : String) (h1 : NeededLoaded s) (h2 : Known ws s) :
    NeededLoaded (s.parseFile ws oracle f) ∧ Known ws (s.parseFile ws oracle f) := by
  unfold Ws.parseFile
  have := parseAll_spec ws oracle true (s.filesToParse ws f) s h1 h2 (Or.inl rfl)
  exact closeAll_keeps ws _ _ _ this.1 this.2.1 this.2.2.1

theorem parseConfig_keeps (ws : Nat) (oracle : String → Visit) (s : Ws) (h1 : NeededLoaded s) (h2 : Known ws s) :
    NeededLoaded (s.parseConfig ws oracle) ∧ Known ws (s.parseConfig ws oracle) := by
  unfold Ws.parseConfig
  have := parseAll_spec ws oracle false ((s.dependants ws).filter fun h => (s.files h).isSome) s h1 h2
    (Or.inr fun f hf => (List.mem_filter.mp hf).1)
  exact closeAll_keeps ws _ _ _ this.1 this.2.1 this.2.2.1

theorem setFile_keeps (ws : Nat) (s : Ws) (f : String) (w' : WFile) (h1 : NeededLoaded s) (h2 : Known ws s)
    (hd : ∀ w0, s.files f = some w0 → ∀ d ∈ w'.deps, d ∈ w0.deps) (hd0 : s.files f = none → w'.deps = []) :
    NeededLoaded { s with files := upd s.files f (some w') } ∧ Known ws { s with files := upd s.files f (some w') } := by
  constructor
  · intro x w d hx hdd
    simp only [upd] at hx ⊢
    split
    · simp
    · split at hx
      · next e =>
        simp at hx; subst hx
        cases hf : s.files f with
        | none => rw [hd0 hf] at hdd; simp at hdd
        | some w0 => exact h1 f w0 d hf (hd w0 hf d hdd)
      · exact h1 x w d hx hdd
  · intro x w hx hne
    simp only [upd] at hx
    split at hx
    · next e =>
      subst e
      simp at hx; subst hx
      cases hf : s.files x with
      | none => exact absurd (hd0 hf) hne
      | some w0 =>
        refine h2 x w0 hf ?_
        intro e0
        apply hne
        have := hd w0 hf
        rw [e0] at this
        exact List.eq_nil_iff_forall_not_mem.mpr (fun d hd' => by simpa using this d hd')
    · exact h2 x w hx hne

theorem step_keeps (ws : Nat) (s s' : Ws) (op : Op) (hws : op.ws = ws) (h1 : NeededLoaded s) (h2 : Known ws s)
    (h : s.step op = some s') : NeededLoaded s' ∧ Known ws s' := by
  cases op with
  | «open» w0 f shared skip o =>
    simp only [Op.ws] at hws; subst hws
    simp only [Ws.step, Option.some.injEq] at h
    have hk := setFile_keeps w0 s f
      { editing := true, deps := match s.files f with | some w => if shared then [] else w.deps | none => [] } h1 h2
      (by intro w1 hw1 d hd; simp only [hw1] at hd; split at hd <;> simp_all) (by intro hn; simp only [hn])
    rw [← h]
    split
    · exact hk
    · exact parseFile_keeps _ _ _ _ hk.1 hk.2
  | change w0 f shared skip o =>
    simp only [Op.ws] at hws; subst hws
    simp only [Ws.step, Option.some.injEq] at h
    rw [← h]
    cases hf : s.files f with
    | none =>
      simp only
      split
      · exact ⟨h1, h2⟩
      · exact parseFile_keeps _ _ _ _ h1 h2
    | some w1 =>
      have hk := setFile_keeps w0 s f { w1 with deps := if shared then [] else w1.deps } h1 h2
        (by intro w2 hw2 d hd; rw [hf] at hw2; simp at hw2; subst hw2; simp only at hd; split at hd <;> simp_all)
        (by intro hn; rw [hf] at hn; simp at hn)
      simp only
      split
      · exact hk
      · exact parseFile_keeps _ _ _ _ hk.1 hk.2
  | watched w0 f o =>
    simp only [Op.ws] at hws; subst hws
    simp only [Ws.step, Option.some.injEq] at h; rw [← h]
    exact parseFile_keeps _ _ _ _ h1 h2
  | config w0 o =>
    simp only [Op.ws] at hws; subst hws
    simp only [Ws.step, Option.some.injEq] at h; rw [← h]
    exact parseConfig_keeps _ _ _ h1 h2
  | close w0 f =>
    simp only [Op.ws] at hws; subst hws
    simp only [Ws.step, Ws.closeFile] at h
    split at h
    · simp only [Option.some.injEq] at h; rw [← h]
      cases hf : s.files f with
      | none =>
        have he : upd s.files f none = s.files := by
          funext x; simp only [upd]; split
          · next e => rw [e, hf]
          · rfl
        simp only [Option.map_none, he]; exact ⟨h1, h2⟩
      | some w =>
        exact setFile_keeps w0 s f { w with editing := false } h1 h2
          (by intro w1 hw1 d hd; rw [hf] at hw1; simp at hw1; subst hw1; exact hd) (by intro hn; rw [hf] at hn; simp at hn)
    · next hdep =>
      -- no dependant needs f
      have hnot : ∀ x w, s.files x = some w → f ∉ w.deps := by
        intro x w hx hfd
        apply hdep
        rw [Ws.isDependency, List.any_eq_true]
        exact ⟨x, h2 x w hx (by intro e; rw [e] at hfd; simp at hfd), by simp [hx, hfd]⟩
      split at h
      · split at h
        · simp at h
        · next wf hf =>
          simp only [Option.some.injEq] at h; rw [← h]
          constructor
          · intro x w d hx hd hnone
            simp only [upd] at hx hnone
            split at hx
            · simp at hx
            · next hxf =>
              have hx' := filterClose_inv hx
              split at hnone
              · next e => subst e; exact hnot x w hx' hd
              · have hdl := h1 x w d hx' hd
                cases hwd : s.files d with
                | none => exact hdl hwd
                | some wd =>
                  have := filterClose_dropped hwd hnone
                  exact this.2.2 x (h2 x w hx' (by intro e; rw [e] at hd; simp at hd)) hxf w hx' hd
          · intro x w hx hne
            simp only [upd] at hx ⊢
            split at hx
            · simp at hx
            · next hxf =>
              have hx' := filterClose_inv hx
              simp only [if_true]; rw [List.mem_filter]
              exact ⟨h2 x w hx' hne, by simpa using hxf⟩
      · simp only [Option.some.injEq] at h; rw [← h]
        constructor
        · intro x w d hx hd hnone
          simp only [upd] at hx hnone
          split at hx
          · simp at hx
          · split at hnone
            · next e => subst e; exact hnot x w hx hd
            · exact h1 x w d hx hd hnone
        · intro x w hx hne
          simp only [upd] at hx
          split at hx
          · simp at hx
          · exact h2 x w hx hne

/-- C24 (one workspace): after every history of opening, editing, watching, reconfiguring and closing, with whatever
dependencies the analyses report and whichever of them are cancelled, every file that a loaded program depends on is
loaded. -/
theorem C24_needed_kept_partial (ws : Nat) (ops : List Op) (hws : ∀ op ∈ ops, op.ws = ws) (s : Ws)
    (h : Ws.run {} ops = some s) (f : String) (w : WFile) (d : String) (hf : s.files f = some w) (hd : d ∈ w.deps) :
    s.files d ≠ none := by
  have key : ∀ (ops : List Op) (s0 : Ws), (∀ op ∈ ops, op.ws = ws) → NeededLoaded s0 → Known ws s0 → s0.run ops = some s →
      NeededLoaded s := by
    intro ops
    induction ops with
    | nil => intro s0 _ h1 _ hr; simp [Ws.run] at hr; subst hr; exact h1
    | cons a as ih =>
      intro s0 hw h1 h2 hr
      simp only [Ws.run] at hr
      cases hs : s0.step a with
      | none => simp [hs] at hr
      | some s1 =>
        simp [hs] at hr
        have := step_keeps ws s0 s1 a (hw a (by simp)) h1 h2 hs
        exact ih s1 (fun op hop => hw op (by simp [hop])) this.1 this.2 hr
  exact key ops {} hws (by intro f w d hf; simp at hf) (by intro f w hf; simp at hf) h f w d hf hd

/-- An open document. -/
def IsOpen (s : Ws) (f : String) : Prop := ∃ w, s.files f = some w ∧ w.editing = true

theorem parse_open {s : Ws} {f g : String} {v : Visit} (h : IsOpen s f) : IsOpen (s.parse g v).1 f := by
  obtain ⟨w, hw, he⟩ := h
  unfold Ws.parse
  cases hg : s.files g with
  | none => exact ⟨w, hw, he⟩
  | some w0 =>
    by_cases e : f = g
    · subst e; rw [hw] at hg; simp at hg; subst hg
      exact ⟨{ w with deps := if v.cancelled then w.deps else newDeps f v }, by simp only [upd, if_true], he⟩
    · exact ⟨w, by simp [upd, e, ensure_some hw], he⟩

theorem filterClose_open {s : Ws} {ws : Nat} {ds : List String} {f g : String} (h : IsOpen s f) :
    IsOpen (s.filterClose ws ds g) f := by
  obtain ⟨w, hw, he⟩ := h
  refine ⟨w, ?_, he⟩
  unfold Ws.filterClose
  simp [Ws.drops, hw, he]

theorem closeAll_open {ws : Nat} {lk : Bool} {f : String} (tcs : List (String × List String)) : ∀ s : Ws, IsOpen s f →
    IsOpen (s.closeAll ws lk tcs) f := by
  induction tcs with
  | nil => intro s h; exact h
  | cons p rest ih => 
    intro s h
    simp only [Ws.closeAll]
    split
    · exact ih _ h
    · exact ih _ (filterClose_open h)

theorem parseAll_open {ws : Nat} {f : String} (o : String → Visit) (ins : Bool) (fs : List String) : ∀ s : Ws, IsOpen s f →
    IsOpen (s.parseAll ws o ins fs).1 f := by
  induction fs with
  | nil => intro s h; exact h
  | cons g fs ih =>
    intro s h
    simp only [Ws.parseAll]
    apply ih
    have := parse_open (g := g) (v := o g) h
    split
    · exact this
    · exact this

theorem parseFile_open {ws : Nat} {f g : String} {o : String → Visit} {s : Ws} (h : IsOpen s f) :
    IsOpen (s.parseFile ws o g) f := closeAll_open _ _ (parseAll_open _ _ _ _ h)

/-- C24: an open document stays loaded and open, whatever happens to other documents in whatever workspace, until it is
closed itself. -/
theorem C24_open_kept (s s' : Ws) (op : Op) (f : String) (ho : IsOpen s f) (hne : ∀ ws, op ≠ .close ws f)
    (h : s.step op = some s') : IsOpen s' f := by
  have hset : ∀ g w', (f = g → w'.editing = true) → IsOpen { s with files := upd s.files g (some w') } f := by
    intro g w' hg
    obtain ⟨w, hw, he⟩ := ho
    by_cases e : f = g
    · exact ⟨w', by simp [upd, e], hg e⟩
    · exact ⟨w, by simp [upd, e, hw], he⟩
  cases op with
  | «open» w0 g shared skip o =>
    simp only [Ws.step, Option.some.injEq] at h; rw [← h]
    have := hset g { editing := true, deps := match s.files g with | some w => if shared then [] else w.deps | none => [] }
      (fun _ => rfl)
    split
    · exact this
    · exact parseFile_open this
  | change w0 g shared skip o =>
    simp only [Ws.step, Option.some.injEq] at h; rw [← h]
    cases hg : s.files g with
    | none =>
      simp only
      split
      · exact ho
      · exact parseFile_open ho
    | some w1 =>
      have := hset g { w1 with deps := if shared then [] else w1.deps } (by
        rintro rfl
        obtain ⟨w, hw, he⟩ := ho
        rw [hg] at hw; simp at hw; subst hw; exact he)
      simp only
      split
      · exact this
      · exact parseFile_open this
  | watched w0 g o => simp only [Ws.step, Option.some.injEq] at h; rw [← h]; exact parseFile_open ho
  | config w0 o =>
    simp only [Ws.step, Option.some.injEq] at h; rw [← h]
    exact closeAll_open _ _ (parseAll_open _ _ _ _ ho)
  | close w0 g =>
    have hfg : f ≠ g := by rintro rfl; exact hne w0 rfl
    simp only [Ws.step, Ws.closeFile] at h
    split at h
    · simp only [Option.some.injEq] at h; rw [← h]
      obtain ⟨w, hw, he⟩ := ho
      exact ⟨w, by simp [upd, hfg, hw], he⟩
    · split at h
      · split at h
        · simp at h
        · next wg hg =>
          simp only [Option.some.injEq] at h; rw [← h]
          obtain ⟨w, hw, he⟩ := filterClose_open (ws := w0) (ds := wg.deps) (g := g) ho
          exact ⟨w, by simp [upd, hfg, hw], he⟩
      · simp only [Option.some.injEq] at h; rw [← h]
        obtain ⟨w, hw, he⟩ := ho
        exact ⟨w, by simp [upd, hfg, hw], he⟩

/-- C24: when document `f` is closed, any other file `d` that disappears was a dependency of `f`, was not open, and no
other known program of the workspace depends on it. -/
theorem C24_drop_only_unneeded (s s' : Ws) (ws : Nat) (f d : String) (w : WFile) (h : s.step (.close ws f) = some s')
    (hd : s.files d = some w) (hgone : s'.files d = none) (hne : d ≠ f) :
    (∃ wf, s.files f = some wf ∧ d ∈ wf.deps) ∧ w.editing = false ∧
      ∀ g ∈ s.dependants ws, g ≠ f → ∀ wg, s.files g = some wg → d ∉ wg.deps := by
  simp only [Ws.step, Ws.closeFile] at h
  split at h
  · simp only [Option.some.injEq] at h; rw [← h] at hgone
    simp [upd, hne, hd] at hgone
  · split at h
    · split at h
      · simp at h
      · next wf hf =>
        simp only [Option.some.injEq] at h; rw [← h] at hgone
        simp only [upd, hne, if_false] at hgone
        have := filterClose_dropped hd hgone
        exact ⟨⟨wf, hf, this.1⟩, this.2⟩
    · simp only [Option.some.injEq] at h; rw [← h] at hgone
      simp [upd, hne, hd] at hgone

/-- Violation with two workspaces: both programs use the macro `m`; closing program `a` of workspace 0 drops `m` although
program `b`, open in workspace 1, depends on it. -/
theorem C24_witness_two_workspaces :
    let v : String → Visit := fun _ => ⟨["m"], false⟩
    ∃ s, Ws.run {} [.open 0 "a" false false v, .open 1 "b" false false v, .close 0 "a"] = some s ∧
      s.files "b" = some ⟨true, ["m"]⟩ ∧ s.files "m" = none :=
  ⟨_, rfl, by decide +kernel, by decide +kernel⟩

/-- Non-vacuity: in one workspace the shared macro stays, the exclusive one goes. -/
example :
    let v : String → Visit := fun f => ⟨if f = "a" then ["m", "n"] else ["m"], false⟩
    ∃ s, Ws.run {} [.open 0 "a" false false v, .open 0 "b" false false v, .close 0 "a"] = some s ∧
      (s.files "m").isSome ∧ s.files "n" = none ∧ s.files "a" = none ∧ s.dependants 0 = ["b"] :=
  ⟨_, rfl, by decide +kernel, by decide +kernel, by decide +kernel, by decide +kernel⟩

end Verif.Workspace
