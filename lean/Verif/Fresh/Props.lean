import Verif.Fresh.Spec

namespace Verif.Fresh

variable {A : Oracle} {member : File → Bool}

@[simp] theorem upd_same {β} (f : File → β) (a : File) (b : β) : upd f a b a = b := by simp [upd]
theorem upd_ne {β} (f : File → β) {a x : File} (b : β) (h : x ≠ a) : upd f a b x = f x := by simp [upd, h]

/-- The invariant, with `T` the programs waiting to be analysed again. -/
structure Inv (A : Oracle) (member : File → Bool) (T : File → Prop) (s : State) : Prop where
  prog : ∀ g ∈ s.dependants, member g = false ∧ ∃ w, s.files g = some w
  fresh : ∀ g w, s.files g = some w → member g = false → ¬ T g →
    w.slot = some (analysis A s.text g) ∧ w.deps = depsOf A s.text g
  dep : ∀ g w, s.files g = some w → w.deps ≠ [] → g ∈ s.dependants
  mem : ∀ g w d, s.files g = some w → d ∈ w.deps → member d = true
  saved : ∀ x w, s.files x = some w → w.editing = false → s.disk x = some w.text

theorem depsOf_mem (ha : Apart A member) (hl : Local A) {t g d} (h : d ∈ depsOf A t g) :
    d ∈ A.asks t g ∧ d ≠ g ∧ member d = true := by
  simp only [depsOf, List.mem_filter, decide_eq_true_eq] at h
  have h1 := (hl.used _ _ _ h.1).1
  refine ⟨h1, h.2, ?_⟩
  rcases ha.asked _ _ _ h1 with h2 | h2
  · exact absurd h2 h.2
  · exact h2

theorem depsOf_alone (ha : Apart A member) (hl : Local A) {t g} (h : member g = true) : depsOf A t g = [] := by
  rw [List.eq_nil_iff_forall_not_mem]
  intro d hd
  have h1 := depsOf_mem ha hl hd
  exact h1.2.1 (ha.alone _ _ _ h h1.1)

theorem visit_some {s : State} {c sl x w} (h : s.files x = some w) :
    ∃ v, s.visit c sl x = some v ∧ v.text = w.text ∧ v.editing = w.editing ∧ v.deps = w.deps ∧
      v.slot = if x ∈ c then some sl else w.slot := by
  by_cases hx : x ∈ c
  · exact ⟨{ w with slot := some sl }, by simp [State.visit, hx, h], rfl, rfl, rfl, by simp [hx]⟩
  · exact ⟨w, by simp [State.visit, hx, h], rfl, rfl, rfl, by simp [hx]⟩

theorem visit_none {s : State} {c sl x v} (h : s.files x = none) (hv : s.visit c sl x = some v) :
    s.disk x = some v.text ∧ v.editing = false ∧ v.deps = [] ∧ x ∈ c := by
  by_cases hx : x ∈ c
  · simp only [State.visit, hx, if_true, h, Option.map_eq_some_iff] at hv
    obtain ⟨t, ht, rfl⟩ := hv
    exact ⟨ht, rfl, rfl, hx⟩
  · simp [State.visit, hx, h] at hv

theorem parse_none {s : State} {g} (h : s.files g = none) : s.parse A g = (s, []) := by simp [State.parse, h]

theorem parse_files {s : State} {g w} (h : s.files g = some w) :
    (s.parse A g).1.files = upd (s.visit (A.asks s.text g) (analysis A s.text g)) g
      (some { w with deps := depsOf A s.text g, slot := some (analysis A s.text g) }) := by simp [State.parse, h]

theorem parse_dependants {s : State} {g w} (h : s.files g = some w) :
    (s.parse A g).1.dependants =
      if (depsOf A s.text g).isEmpty || s.dependants.contains g then s.dependants else g :: s.dependants := by
  simp [State.parse, h]

theorem parse_disk (s : State) (g : File) : (s.parse A g).1.disk = s.disk := by
  unfold State.parse
  split <;> rfl

theorem parse_text (s : State) (g : File) : (s.parse A g).1.text = s.text := by
  funext x
  cases h : s.files g with
  | none => rw [parse_none h]
  | some w =>
    simp only [State.text, parse_files h, parse_disk]
    by_cases hx : x = g
    · subst hx; simp [h]
    · rw [upd_ne _ _ hx]
      cases hf : s.files x with
      | some v =>
        obtain ⟨v', hv, ht, -⟩ := visit_some (c := A.asks s.text g) (sl := analysis A s.text g) hf
        simp only [hv, ht]
      | none =>
        cases hv : s.visit (A.asks s.text g) (analysis A s.text g) x with
        | none => rfl
        | some v => simp only; exact (visit_none hf hv).1.symm

/-- Files stay in the map, with their text and the editor's flag, when a program is analysed. -/
theorem parse_keeps {s : State} {g x w} (h : s.files x = some w) :
    ∃ v, (s.parse A g).1.files x = some v ∧ v.text = w.text ∧ v.editing = w.editing := by
  cases hg : s.files g with
  | none => rw [parse_none hg]; exact ⟨w, h, rfl, rfl⟩
  | some wg =>
    rw [parse_files hg]
    by_cases hx : x = g
    · subst hx
      rw [h] at hg
      cases hg
      exact ⟨_, upd_same .., rfl, rfl⟩
    · rw [upd_ne _ _ hx]
      obtain ⟨v, hv, ht, he, -⟩ := visit_some (c := A.asks s.text g) (sl := analysis A s.text g) h
      exact ⟨v, hv, ht, he⟩

theorem parse_inv (hl : Local A) (ha : Apart A member) {T : File → Prop} {s : State} (hi : Inv A member T s) (g : File) :
    Inv A member (fun x => T x ∧ x ≠ g) (s.parse A g).1 := by
  cases hg : s.files g with
  | none =>
    rw [parse_none hg]
    refine ⟨hi.prog, ?_, hi.dep, hi.mem, hi.saved⟩
    intro x w hx hm ht
    refine hi.fresh x w hx hm fun h => ht ⟨h, ?_⟩
    rintro rfl
    rw [hg] at hx
    cases hx
  | some wg =>
    have hf := parse_files (A := A) hg
    have hd := parse_dependants (A := A) hg
    -- the new state of each file
    have key : ∀ x v, (s.parse A g).1.files x = some v →
        (x = g ∧ v.text = wg.text ∧ v.editing = wg.editing ∧ v.deps = depsOf A s.text g ∧
          v.slot = some (analysis A s.text g)) ∨
        (x ≠ g ∧ ∃ w, s.files x = some w ∧ v.text = w.text ∧ v.editing = w.editing ∧ v.deps = w.deps ∧
          (x ∉ A.asks s.text g → v.slot = w.slot)) ∨
        (x ≠ g ∧ s.files x = none ∧ s.disk x = some v.text ∧ v.editing = false ∧ v.deps = [] ∧ x ∈ A.asks s.text g) := by
      intro x v hv
      rw [hf] at hv
      by_cases hx : x = g
      · subst hx
        rw [upd_same] at hv
        cases hv
        exact .inl ⟨rfl, rfl, rfl, rfl, rfl⟩
      · rw [upd_ne _ _ hx] at hv
        cases hw : s.files x with
        | some w =>
          obtain ⟨v', hv', h1, h2, h3, h4⟩ := visit_some (c := A.asks s.text g) (sl := analysis A s.text g) hw
          rw [hv] at hv'
          cases hv'
          exact .inr (.inl ⟨hx, w, rfl, h1, h2, h3, fun h => by simpa [h] using h4⟩)
        | none =>
          have h1 := visit_none hw hv
          exact .inr (.inr ⟨hx, rfl, h1.1, h1.2.1, h1.2.2.1, h1.2.2.2⟩)
    have sub : ∀ x ∈ s.dependants, x ∈ (s.parse A g).1.dependants := by
      intro x hx
      rw [hd]
      split
      · exact hx
      · exact List.mem_cons_of_mem _ hx
    refine ⟨?_, ?_, ?_, ?_, ?_⟩
    · intro x hx
      have hx' : x ∈ s.dependants ∨ (x = g ∧ depsOf A s.text g ≠ []) := by
        rw [hd] at hx
        split at hx
        · exact .inl hx
        · rename_i hc
          simp only [Bool.or_eq_true, List.isEmpty_iff, not_or] at hc
          rcases List.mem_cons.1 hx with rfl | h
          · exact .inr ⟨rfl, hc.1⟩
          · exact .inl h
      rcases hx' with h | ⟨rfl, h⟩
      · obtain ⟨h1, w, h2⟩ := hi.prog x h
        obtain ⟨v, hv, -⟩ := parse_keeps (A := A) (g := g) h2
        exact ⟨h1, v, hv⟩
      · obtain ⟨v, hv, -⟩ := parse_keeps (A := A) (g := x) hg
        refine ⟨?_, v, hv⟩
        cases hm : member x with
        | false => rfl
        | true => exact absurd (depsOf_alone ha hl hm) h
    · intro x v hv hm ht
      rw [parse_text]
      rcases key x v hv with ⟨rfl, -, -, h3, h4⟩ | ⟨hne, w, hw, -, -, h3, h4⟩ | ⟨hne, -, -, -, -, h5⟩
      · exact ⟨h4, h3⟩
      · have h5 : x ∉ A.asks s.text g := by
          intro h
          rcases ha.asked _ _ _ h with h | h
          · exact hne h
          · rw [hm] at h; cases h
        rw [h4 h5, h3]
        exact hi.fresh x w hw hm fun h => ht ⟨h, hne⟩
      · rcases ha.asked _ _ _ h5 with h | h
        · exact absurd h hne
        · rw [hm] at h; cases h
    · intro x v hv hne
      rcases key x v hv with ⟨rfl, -, -, h3, -⟩ | ⟨-, w, hw, -, -, h3, -⟩ | ⟨-, -, -, -, h4, -⟩
      · rw [hd]
        split
        · rename_i hc
          simp only [Bool.or_eq_true, List.isEmpty_iff, List.contains_iff_mem] at hc
          rcases hc with h | h
          · exact absurd (h3.trans h) hne
          · exact h
        · exact List.mem_cons_self ..
      · exact sub x (hi.dep x w hw (h3 ▸ hne))
      · exact absurd h4 hne
    · intro x v d hv hdv
      rcases key x v hv with ⟨rfl, -, -, h3, -⟩ | ⟨-, w, hw, -, -, h3, -⟩ | ⟨-, -, -, -, h4, -⟩
      · exact (depsOf_mem ha hl (h3 ▸ hdv)).2.2
      · exact hi.mem x w d hw (h3 ▸ hdv)
      · rw [h4] at hdv; cases hdv
    · intro x v hv he
      rw [parse_disk]
      rcases key x v hv with ⟨rfl, h1, h2, -, -⟩ | ⟨-, w, hw, h1, h2, -, -⟩ | ⟨-, -, h1, -, -, -⟩
      · rw [h1]; exact hi.saved x wg hg (h2 ▸ he)
      · rw [h1]; exact hi.saved x w hw (h2 ▸ he)
      · exact h1

theorem parseAll_inv (hl : Local A) (ha : Apart A member) : ∀ (gs : List File) {T : File → Prop} {s : State},
    Inv A member T s → Inv A member (fun x => T x ∧ x ∉ gs) (s.parseAll A gs).1 ∧
      (s.parseAll A gs).1.text = s.text ∧ (s.parseAll A gs).1.disk = s.disk ∧
      (∀ x w, s.files x = some w → ∃ v, (s.parseAll A gs).1.files x = some v ∧ v.text = w.text ∧ v.editing = w.editing) ∧
      ∀ p ∈ (s.parseAll A gs).2, ∀ d ∈ p.2, member d = true
  | [], T, s, hi => by
    refine ⟨?_, rfl, rfl, fun x w h => ⟨w, h, rfl, rfl⟩, fun p hp => by simp [State.parseAll] at hp⟩
    exact ⟨hi.prog, fun x w h hm ht => hi.fresh x w h hm fun h => ht ⟨h, by simp⟩, hi.dep, hi.mem, hi.saved⟩
  | g :: gs, T, s, hi => by
    have h1 := parse_inv hl ha hi g
    obtain ⟨h2, h3, h4, h5, h6⟩ := parseAll_inv hl ha gs h1
    simp only [State.parseAll]
    refine ⟨?_, h3.trans (parse_text s g), h4.trans (parse_disk s g), ?_, ?_⟩
    · refine ⟨h2.prog, fun x w h hm ht => h2.fresh x w h hm fun h => ht ⟨h.1.1, ?_⟩, h2.dep, h2.mem, h2.saved⟩
      simp only [List.mem_cons, not_or]
      exact ⟨h.1.2, h.2⟩
    · intro x w h
      obtain ⟨v, hv, a, b⟩ := parse_keeps (A := A) (g := g) h
      obtain ⟨v', hv', a', b'⟩ := h5 x v hv
      exact ⟨v', hv', a'.trans a, b'.trans b⟩
    · intro p hp d hd
      rcases List.mem_cons.1 hp with rfl | hp
      · cases hg : s.files g with
        | none => simp [parse_none hg] at hd
        | some w =>
          simp only [State.parse, hg, List.mem_filter] at hd
          exact hi.mem g w d hg hd.1
      · exact h6 p hp d hd

theorem drops_spec {s : State} {c g d} (h : s.drops c g d = true) :
    d ∈ c ∧ ∃ w, s.files d = some w ∧ w.editing = false := by
  simp only [State.drops, Bool.and_eq_true, List.contains_iff_mem] at h
  refine ⟨h.1.1, ?_⟩
  have h2 := h.1.2
  cases hf : s.files d with
  | none => simp [hf] at h2
  | some w => exact ⟨w, rfl, by simpa [hf] using h2⟩

theorem filterClose_text {s : State} (hs : ∀ x w, s.files x = some w → w.editing = false → s.disk x = some w.text)
    (c : List File) (g : File) : (s.filterClose c g).text = s.text := by
  funext x
  simp only [State.text, State.filterClose]
  by_cases h : s.drops c g x = true
  · obtain ⟨-, w, hw, he⟩ := drops_spec h
    simp only [h, if_true, hw]
    exact hs x w hw he
  · simp [h]

theorem filterClose_some {s : State} {c g x w} (h : (s.filterClose c g).files x = some w) : s.files x = some w := by
  simp only [State.filterClose] at h
  split at h
  · cases h
  · exact h

theorem filterClose_keeps {s : State} {c g x w} (h : s.files x = some w) (he : w.editing = true ∨ x ∉ c) :
    (s.filterClose c g).files x = some w := by
  simp only [State.filterClose]
  split
  · rename_i hd
    obtain ⟨h1, w', h2, h3⟩ := drops_spec hd
    rw [h] at h2
    cases h2
    rcases he with he | he
    · rw [he] at h3; cases h3
    · exact absurd h1 he
  · exact h

theorem filterClose_inv {T : File → Prop} {s : State} (hi : Inv A member T s) {c : List File}
    (hc : ∀ d ∈ c, member d = true) (g : File) : Inv A member T (s.filterClose c g) := by
  refine ⟨?_, ?_, fun x w h => hi.dep x w (filterClose_some h), fun x w d h => hi.mem x w d (filterClose_some h),
    fun x w h => hi.saved x w (filterClose_some h)⟩
  · intro x hx
    obtain ⟨h1, w, h2⟩ := hi.prog x hx
    exact ⟨h1, w, filterClose_keeps h2 (.inr fun h => by rw [hc x h] at h1; cases h1)⟩
  · intro x w h hm ht
    rw [filterClose_text hi.saved]
    exact hi.fresh x w (filterClose_some h) hm ht

theorem closeAll_inv : ∀ (tcs : List (File × List File)) {T : File → Prop} {s : State}, Inv A member T s →
    (∀ p ∈ tcs, ∀ d ∈ p.2, member d = true) →
    Inv A member T (s.closeAll tcs) ∧ (s.closeAll tcs).text = s.text ∧
      (∀ x w, (s.closeAll tcs).files x = some w → s.files x = some w) ∧
      ∀ x w, s.files x = some w → w.editing = true → (s.closeAll tcs).files x = some w
  | [], T, s, hi, _ => ⟨hi, rfl, fun _ _ h => h, fun _ _ h _ => h⟩
  | (g, tc) :: rest, T, s, hi, h => by
    have h1 := filterClose_inv hi (h _ (List.mem_cons_self ..)) g
    obtain ⟨h2, h3, h4, h5⟩ := closeAll_inv rest h1 fun p hp => h p (List.mem_cons_of_mem _ hp)
    simp only [State.closeAll]
    exact ⟨h2, h3.trans (filterClose_text hi.saved _ _), fun x w hx => filterClose_some (h4 x w hx),
      fun x w hx he => h5 x w (filterClose_keeps hx (.inl he)) he⟩

/-- The files with `f` among their dependencies, and `f` itself if it is a program, are analysed when `f` changes. -/
theorem related_covers {T : File → Prop} {s : State} (hi : Inv A member T s) {f g : File} {w : FileSt}
    (hg : s.files g = some w) (hm : member g = false) (h : g = f ∨ f ∈ w.deps) : g ∈ s.related f := by
  unfold State.related
  simp only
  rcases h with rfl | h
  · rw [if_pos]
    · simp [hg]
    · rw [List.isEmpty_iff, List.filter_eq_nil_iff]
      intro x hx hn
      simp only [State.needs] at hn
      split at hn
      · rename_i v hv
        have := hi.mem x v g hv (by simpa using hn)
        rw [hm] at this
        cases this
      · cases hn
  · have hin : g ∈ s.dependants.filter (s.needs · f) := by
      rw [List.mem_filter]
      refine ⟨hi.dep g w hg fun h0 => by simp [h0] at h, ?_⟩
      simp [State.needs, hg, h]
    rw [if_neg]
    · exact hin
    · intro he
      rw [List.isEmpty_iff] at he
      rw [he] at hin
      cases hin

theorem parseFile_inv (hl : Local A) (ha : Apart A member) {s : State} {f : File}
    (hi : Inv A member (fun g => ∃ w, s.files g = some w ∧ (g = f ∨ f ∈ w.deps)) s) :
    Inv A member (fun _ => False) (s.parseFile A f) ∧ (s.parseFile A f).text = s.text ∧
      ∀ x w, s.files x = some w → w.editing = true → ∃ v, (s.parseFile A f).files x = some v ∧ v.editing = true := by
  obtain ⟨h1, h2, h3, h4, h5⟩ := parseAll_inv hl ha (s.related f) hi
  obtain ⟨h6, h7, h8, h9⟩ := closeAll_inv _ h1 h5
  unfold State.parseFile
  refine ⟨⟨h6.prog, ?_, h6.dep, h6.mem, h6.saved⟩, h7.trans h2, ?_⟩
  · intro g w hg hm _
    refine h6.fresh g w hg hm ?_
    rintro ⟨⟨w', hw', h⟩, hn⟩
    exact hn (related_covers hi hw' hm h)
  · intro x w hx he
    obtain ⟨v, hv, -, h⟩ := h4 x w hx
    exact ⟨v, h9 x v hv (h.trans he), h.trans he⟩

/-- A program that did not ask for `f` reads the same when `f` alone changes. -/
theorem analysis_same (hl : Local A) {t t' : File → Option Text} {f g : File} (h : ∀ x, x ≠ f → t' x = t x)
    (hf : f ∉ A.asks t g) : analysis A t' g = analysis A t g ∧ depsOf A t' g = depsOf A t g := by
  have hx : ∀ x ∈ A.asks t g, t x = t' x := by
    intro x hx
    exact (h x fun he => hf (he ▸ hx)).symm
  obtain ⟨h1, h2⟩ := hl.same t t' g hx
  refine ⟨?_, by simp [depsOf, h2]⟩
  simp only [analysis, h1]
  congr 1
  apply List.map_congr_left
  intro x hx'
  rw [hx x hx']

end Verif.Fresh
