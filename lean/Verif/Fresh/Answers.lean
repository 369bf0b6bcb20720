import Verif.Fresh.Props

/-!
C120: requests are answered from analyses of the current texts.
-/
namespace Verif.Fresh

variable {A : Oracle} {member : File → Bool}

theorem asked_names (A : Oracle) (t : File → Option Text) (g : File) :
    (analysis A t g).used.map (·.1) = A.asks t g := by
  simp [analysis, Function.comp_def]

/-- After one file changed, only programs using it (and itself) are to be analysed again. -/
theorem edit_inv (hl : Local A) {s s1 : State} {f : File} (hi : Inv A member (fun _ => False) s)
    (hd : s1.dependants = s.dependants) (hf : ∀ x, x ≠ f → s1.files x = s.files x)
    (hk : ∀ x, x ≠ f → s1.disk x = s.disk x)
    (hdeps : ∀ v, s1.files f = some v → v.deps = [] ∨ ∃ w, s.files f = some w ∧ v.deps = w.deps)
    (hkeep : ∀ w, s.files f = some w → ∃ v, s1.files f = some v)
    (hsaved : ∀ v, s1.files f = some v → v.editing = false → s1.disk f = some v.text) (hv : ¬ s.Vain f) :
    Inv A member (fun g => ∃ w, s1.files g = some w ∧ (g = f ∨ f ∈ w.deps)) s1 := by
  have htext : ∀ x, x ≠ f → s1.text x = s.text x := by
    intro x hx
    simp only [State.text, hf x hx, hk x hx]
  refine ⟨?_, ?_, ?_, ?_, ?_⟩
  · intro g hg
    rw [hd] at hg
    obtain ⟨h1, w, h2⟩ := hi.prog g hg
    refine ⟨h1, ?_⟩
    by_cases h : g = f
    · subst h; exact hkeep w h2
    · exact ⟨w, by rw [hf g h]; exact h2⟩
  · intro g w hg hm ht
    have h1 : g ≠ f := fun h => ht ⟨w, hg, .inl h⟩
    have h2 : f ∉ w.deps := fun h => ht ⟨w, hg, .inr h⟩
    have hg' := hg
    rw [hf g h1] at hg'
    obtain ⟨h3, h4⟩ := hi.fresh g w hg' hm id
    have h5 : f ∉ A.asks s.text g := by
      intro h
      exact hv ⟨g, w, _, hg', h3, rfl, fun h => h1 h.symm, by rw [asked_names]; exact h, h2⟩
    obtain ⟨h6, h7⟩ := analysis_same hl htext h5
    exact ⟨by rw [h6]; exact h3, by rw [h7]; exact h4⟩
  · intro g w hg hne
    rw [hd]
    by_cases h : g = f
    · subst h
      rcases hdeps w hg with h | ⟨w', h, h'⟩
      · exact absurd h hne
      · exact hi.dep g w' h (h' ▸ hne)
    · rw [hf g h] at hg
      exact hi.dep g w hg hne
  · intro g w d hg hdm
    by_cases h : g = f
    · subst h
      rcases hdeps w hg with h | ⟨w', h, h'⟩
      · rw [h] at hdm; cases hdm
      · exact hi.mem g w' d h (h' ▸ hdm)
    · rw [hf g h] at hg
      exact hi.mem g w d hg hdm
  · intro x w hx he
    by_cases h : x = f
    · subst h; exact hsaved w hx he
    · rw [hf x h] at hx
      rw [hk x h]
      exact hi.saved x w hx he

theorem remove_inv {s : State} {f : File} {ds : List File} (hi : Inv A member (fun _ => False) s)
    (hs : ∀ w, s.files f = some w → s.disk f = some w.text) (hds : ∀ x, x ∈ ds ↔ x ∈ s.dependants ∧ x ≠ f) :
    Inv A member (fun _ => False) { s with files := upd s.files f none, dependants := ds } := by
  have hsub : ∀ x w, upd s.files f none x = some w → x ≠ f ∧ s.files x = some w := by
    intro x w h
    by_cases hx : x = f
    · subst hx; simp at h
    · exact ⟨hx, by rwa [upd_ne _ _ hx] at h⟩
  have htext : State.text { s with files := upd s.files f none, dependants := ds } = s.text := by
    funext x
    simp only [State.text]
    by_cases hx : x = f
    · subst hx
      rw [upd_same]
      cases h : s.files x with
      | none => rfl
      | some w => exact hs w h
    · rw [upd_ne _ _ hx]
  refine ⟨?_, ?_, ?_, fun x w d h => hi.mem x w d (hsub x w h).2, fun x w h => hi.saved x w (hsub x w h).2⟩
  · intro x hx
    obtain ⟨h1, h2⟩ := (hds x).1 hx
    obtain ⟨h3, w, h4⟩ := hi.prog x h1
    exact ⟨h3, w, by simp only [upd_ne _ _ h2]; exact h4⟩
  · intro x w h hm ht
    rw [htext]
    exact hi.fresh x w (hsub x w h).2 hm ht
  · intro x w h hne
    exact (hds x).2 ⟨hi.dep x w (hsub x w h).2 hne, (hsub x w h).1⟩

theorem close_inv {s s' : State} {f : File} (hi : Inv A member (fun _ => False) s)
    (hq : ∀ w, s.files f = some w → s.disk f = some w.text) (h : s.closeFile f = some s') :
    Inv A member (fun _ => False) s' := by
  unfold State.closeFile at h
  split at h
  · cases h
    have hsub : ∀ x v, upd s.files f ((s.files f).map fun w => { w with editing := false }) x = some v →
        ∃ w, s.files x = some w ∧ v.text = w.text ∧ v.deps = w.deps ∧ v.slot = w.slot ∧
          (v.editing = false → s.disk x = some w.text) := by
      intro x v hx
      by_cases h : x = f
      · subst h
        rw [upd_same, Option.map_eq_some_iff] at hx
        obtain ⟨w, hw, rfl⟩ := hx
        exact ⟨w, hw, rfl, rfl, rfl, fun _ => hq w hw⟩
      · rw [upd_ne _ _ h] at hx
        exact ⟨v, hx, rfl, rfl, rfl, hi.saved x v hx⟩
    have htext : State.text { s with files := upd s.files f ((s.files f).map fun w => { w with editing := false }) } =
        s.text := by
      funext x
      simp only [State.text]
      by_cases h : x = f
      · subst h
        rw [upd_same]
        cases s.files x <;> rfl
      · rw [upd_ne _ _ h]
    refine ⟨?_, ?_, ?_, ?_, ?_⟩
    · intro x hx
      obtain ⟨h1, w, h2⟩ := hi.prog x hx
      refine ⟨h1, ?_⟩
      simp only
      by_cases h : x = f
      · subst h; exact ⟨_, by rw [upd_same, h2]; rfl⟩
      · exact ⟨w, by rw [upd_ne _ _ h]; exact h2⟩
    · intro x v hx hm ht
      obtain ⟨w, h1, -, h3, h4, -⟩ := hsub x v hx
      rw [htext, h3, h4]
      exact hi.fresh x w h1 hm ht
    · intro x v hx hne
      obtain ⟨w, h1, -, h3, -, -⟩ := hsub x v hx
      exact hi.dep x w h1 (h3 ▸ hne)
    · intro x v d hx hd
      obtain ⟨w, h1, -, h3, -, -⟩ := hsub x v hx
      exact hi.mem x w d h1 (h3 ▸ hd)
    · intro x v hx he
      obtain ⟨w, -, h2, -, -, h5⟩ := hsub x v hx
      rw [h2]
      exact h5 he
  · split at h
    · split at h
      · cases h
      · rename_i w hw
        cases h
        refine remove_inv (filterClose_inv hi (fun d hd => hi.mem f w d hw hd) f) ?_ ?_
        · intro w' hw'
          exact hq w' (filterClose_some hw')
        · intro x
          simp [List.mem_filter]
    · rename_i hc
      cases h
      refine remove_inv hi hq ?_
      intro x
      constructor
      · intro hx
        refine ⟨hx, ?_⟩
        rintro rfl
        exact hc (by simpa using hx)
      · exact fun h => h.1

theorem start_inv (disk : File → Option Text) : Inv A member (fun _ => False) { disk := disk } :=
  ⟨fun _ h => by simp at h, fun _ _ h => by simp at h, fun _ _ h => by simp at h, fun _ _ _ h => by simp at h,
    fun _ _ h => by simp at h⟩

theorem open_edit (hl : Local A) {s : State} (hi : Inv A member (fun _ => False) s) {f : File} {t : Text}
    (hv : ¬ s.Vain f) (v : FileSt) (he : v.editing = true)
    (hd : v.deps = [] ∨ ∃ w, s.files f = some w ∧ v.deps = w.deps) :
    Inv A member (fun g => ∃ w, upd s.files f (some v) g = some w ∧ (g = f ∨ f ∈ w.deps))
      { s with files := upd s.files f (some v) } := by
  refine edit_inv (s1 := { s with files := upd s.files f (some v) }) hl hi rfl (fun x hx => upd_ne _ _ hx)
    (fun _ _ => rfl) ?_ ?_ ?_ hv
  · intro v' hv'
    simp only [upd_same] at hv'
    cases hv'
    exact hd
  · intro w _
    exact ⟨v, upd_same ..⟩
  · intro v' hv' he'
    simp only [upd_same] at hv'
    cases hv'
    rw [he] at he'
    cases he'

/-- The state in which an edit leaves the files before the analyses: `f` is open with text `t`. -/
theorem edited {s s' : State} {op : Op} {f : File} {t : Text} (hop : op = .open f t ∨ op = .change f t)
    (hq : Quiet s op) (h : s.step A op = some s') :
    ¬ s.Vain f ∧ ∃ v, v.text = t ∧ v.editing = true ∧ (v.deps = [] ∨ ∃ w, s.files f = some w ∧ v.deps = w.deps) ∧
      s' = State.parseFile A { s with files := upd s.files f (some v) } f := by
  rcases hop with rfl | rfl
  · refine ⟨hq, _, rfl, rfl, ?_, by simpa [State.step] using h.symm⟩
    cases hf : s.files f with
    | none => exact .inl (by simp)
    | some w => exact .inr ⟨w, rfl, by simp⟩
  · obtain ⟨⟨w, hw, he⟩, hv⟩ := hq
    refine ⟨hv, { w with text := t }, rfl, he, .inr ⟨w, hw, rfl⟩, ?_⟩
    simpa [State.step, hw] using h.symm

theorem step_inv (hl : Local A) (ha : Apart A member) {s s' : State} {op : Op}
    (hi : Inv A member (fun _ => False) s) (hq : Quiet s op) (h : s.step A op = some s') :
    Inv A member (fun _ => False) s' := by
  have key : ∀ f t, op = .open f t ∨ op = .change f t → Inv A member (fun _ => False) s' := by
    intro f t hop
    obtain ⟨hv, v, -, he, hd, rfl⟩ := edited hop hq h
    exact (parseFile_inv hl ha (open_edit (t := t) hl hi hv v he hd)).1
  cases op with
  | «open» f t => exact key f t (.inl rfl)
  | change f t => exact key f t (.inr rfl)
  | close f => exact close_inv hi hq h
  | watched f t =>
    simp only [State.step, Option.some.injEq] at h
    subst h
    refine (parseFile_inv hl ha (edit_inv (s1 := { s with disk := upd s.disk f t }) hl hi rfl (fun _ _ => rfl)
      (fun x hx => upd_ne _ _ hx) ?_ ?_ ?_ hq.1)).1
    · intro v hv
      exact .inr ⟨v, hv, rfl⟩
    · intro w hw
      exact ⟨w, hw⟩
    · intro v hv he
      rcases hq.2 v hv with h | h
      · rw [he] at h; cases h
      · simp only [upd_same]; exact h

theorem reach_inv (hl : Local A) (ha : Apart A member) {s : State} (h : Reach A s) :
    Inv A member (fun _ => False) s := by
  induction h with
  | start disk => exact start_inv disk
  | step _ hq hs ih => exact step_inv hl ha ih hq hs

/-- The file manager's copies are what the user sees. -/
theorem text_actual {T : File → Prop} {s : State} (hi : Inv A member T s) : s.text = s.actual := by
  funext x
  simp only [State.text, State.actual]
  cases h : s.files x with
  | none => rfl
  | some w =>
    simp only
    cases he : w.editing with
    | true => rfl
    | false => exact (hi.saved x w h he).symm

theorem related_cases {s : State} {f g : File} (h : g ∈ s.related f) :
    (g ∈ s.dependants ∧ s.needs g f = true) ∨ (g = f ∧ (s.files f).isSome = true ∧ ∀ x ∈ s.dependants, s.needs x f = false) := by
  unfold State.related at h
  simp only at h
  split at h
  · rename_i he
    rw [List.isEmpty_iff, List.filter_eq_nil_iff] at he
    split at h
    · rename_i hs
      rw [List.mem_singleton] at h
      exact .inr ⟨h, hs, fun x hx => by simpa using he x hx⟩
    · cases h
  · exact .inl (List.mem_filter.1 h)

theorem related_ne {s : State} {f : File} (h : (s.files f).isSome = true) : s.related f ≠ [] := by
  unfold State.related
  simp only
  split
  · simp [h]
  · rename_i he
    simpa using he

/-- C120, part: a request about an open document is answered from analyses of programs as they are now: each of them asks
for the names, and has found the texts, that an analysis made now would. The document is a program or is used by one.
Missing: documents that are neither (`C120_witness_orphan`); programs used by other programs (`C120_witness_shared`);
histories that are not quiet (`C120_witness_unsaved`, `C120_witness_disk`, `C120_witness_created`, `C120_witness_broken`);
cancellation. -/
theorem C120_answers_partial (hl : Local A) (ha : Apart A member) {s : State} (h : Reach A s) {f : File}
    (ho : s.isOpen f) (hf : member f = false ∨ ∃ g ∈ s.dependants, s.needs g f = true) :
    s.related f ≠ [] ∧ ∀ g ∈ s.related f, ∃ w, s.files g = some w ∧ w.slot = some (analysis A s.actual g) := by
  have hi := reach_inv hl ha h
  obtain ⟨wf, hwf, -⟩ := ho
  refine ⟨related_ne (by simp [hwf]), ?_⟩
  intro g hg
  rw [← text_actual hi]
  rcases related_cases hg with ⟨h1, -⟩ | ⟨rfl, -, h2⟩
  · obtain ⟨h3, w, h4⟩ := hi.prog g h1
    exact ⟨w, h4, (hi.fresh g w h4 h3 id).1⟩
  · rcases hf with hf | ⟨x, hx, hn⟩
    · exact ⟨wf, hwf, (hi.fresh g wf hwf hf id).1⟩
    · rw [h2 x hx] at hn
      cases hn

/-- An analysis leaves its record with every file it asked for. -/
theorem parse_slot {s : State} {f g : File} {w wg : FileSt} (hf : s.files f = some w) (hg : s.files g = some wg)
    (h : f ∈ A.asks s.text g) : ∃ v, (s.parse A g).1.files f = some v ∧ v.slot = some (analysis A s.text g) := by
  rw [parse_files hg]
  by_cases hx : f = g
  · subst hx
    exact ⟨_, upd_same .., rfl⟩
  · rw [upd_ne _ _ hx]
    obtain ⟨v, hv, -, -, -, h4⟩ := visit_some (c := A.asks s.text g) (sl := analysis A s.text g) hf
    exact ⟨v, hv, by simpa [h] using h4⟩

theorem parseAll_slot : ∀ (gs : List File) {s : State} {f : File} {w : FileSt}, s.files f = some w →
    (∀ g ∈ gs, (s.files g).isSome = true ∧ f ∈ A.asks s.text g) → (gs ≠ [] ∨ UpToDate A s.text w.slot) →
    ∃ v, (s.parseAll A gs).1.files f = some v ∧ UpToDate A s.text v.slot
  | [], s, f, w, hf, _, h => by
    rcases h with h | h
    · exact absurd rfl h
    · exact ⟨w, hf, h⟩
  | g :: gs, s, f, w, hf, hg, _ => by
    obtain ⟨hgs, hask⟩ := hg g (List.mem_cons_self ..)
    obtain ⟨wg, hwg⟩ := Option.isSome_iff_exists.1 hgs
    obtain ⟨v, hv, hs⟩ := parse_slot hf hwg hask
    simp only [State.parseAll]
    rw [← parse_text (A := A) s g]
    refine parseAll_slot gs hv ?_ (.inr ⟨_, hs, by rw [parse_text]; rfl⟩)
    intro x hx
    obtain ⟨h1, h2⟩ := hg x (List.mem_cons_of_mem _ hx)
    obtain ⟨wx, hwx⟩ := Option.isSome_iff_exists.1 h1
    obtain ⟨v', hv', -⟩ := parse_keeps (A := A) (g := g) hwx
    exact ⟨by simp [hv'], by rw [parse_text]; exact h2⟩

/-- C120, part: right after a document was opened or edited, requests about it are answered from analyses of the current
texts, the new text of the document among them. This holds for members, too, whether or not a program uses them. -/
theorem C120_edited_partial (hl : Local A) (ha : Apart A member) {s s' : State} (h : Reach A s) {op : Op} {f : File}
    {t : Text} (hop : op = .open f t ∨ op = .change f t) (hq : Quiet s op) (hs : s.step A op = some s') :
    s'.actual f = some t ∧ s'.answers f ≠ [] ∧ ∀ a ∈ s'.answers f, UpToDate A s'.actual a := by
  have hi := reach_inv hl ha h
  have hi' := step_inv hl ha hi hq hs
  obtain ⟨hv, v, ht, he, hd, rfl⟩ := edited hop hq hs
  have h1 := open_edit (t := t) hl hi hv v he hd
  generalize hs1 : ({ s with files := upd s.files f (some v) } : State) = s1 at *
  have hf1 : s1.files f = some v := by rw [← hs1]; exact upd_same ..
  have hne1 : ∀ x, x ≠ f → s1.files x = s.files x := by
    intro x hx
    rw [← hs1]
    exact upd_ne _ _ hx
  have htx : ∀ x, x ≠ f → s.text x = s1.text x := by
    intro x hx
    simp only [State.text, hne1 x hx]
    rw [← hs1]
  have h1' : Inv A member (fun g => ∃ w, s1.files g = some w ∧ (g = f ∨ f ∈ w.deps)) s1 := by
    rw [← hs1]
    rw [← hs1] at h1
    exact h1
  obtain ⟨-, htext, hopen⟩ := parseFile_inv hl ha h1'
  obtain ⟨v', hv', he'⟩ := hopen f v hf1 he
  rw [← text_actual hi', htext]
  refine ⟨?_, ?_, ?_⟩
  · simp [State.text, hf1, ht]
  · simp only [State.answers, ne_eq, List.map_eq_nil_iff]
    exact related_ne (by simp [hv'])
  · intro a ha'
    simp only [State.answers, List.mem_map] at ha'
    obtain ⟨g, hg, rfl⟩ := ha'
    have hfresh : ∀ w, (s1.parseFile A f).files g = some w → member g = false →
        UpToDate A s1.text (((s1.parseFile A f).files g).bind (·.slot)) := by
      intro w hw hm
      refine ⟨analysis A s1.text g, ?_, rfl⟩
      rw [hw]
      have := (hi'.fresh g w hw hm id).1
      rw [htext] at this
      exact this
    rcases related_cases hg with ⟨h2, -⟩ | ⟨rfl, -, -⟩
    · obtain ⟨h3, w, h4⟩ := hi'.prog g h2
      exact hfresh w h4 h3
    · -- the document itself: the last program analysed has left its record there
      obtain ⟨p1, p2, p3, p4, p5⟩ := parseAll_inv hl ha (s1.related g) h1'
      obtain ⟨q1, q2, q3, q4⟩ := closeAll_inv _ p1 p5
      have hall : ∀ x ∈ s1.related g, (s1.files x).isSome = true ∧ g ∈ A.asks s1.text x := by
        intro x hx
        rcases related_cases hx with ⟨h2, h3⟩ | ⟨rfl, h2, -⟩
        · obtain ⟨h4, w, h5⟩ := h1'.prog x h2
          refine ⟨by simp [h5], ?_⟩
          simp only [State.needs, h5, List.contains_iff_mem] at h3
          have h6 : member g = true := h1'.mem x w g h5 h3
          have hxg : x ≠ g := fun h => by rw [h, h6] at h4; cases h4
          rw [hne1 x hxg] at h5
          have h7 := (hi.fresh x w h5 h4 id).2
          rw [h7] at h3
          have h8 := (depsOf_mem ha hl h3).1
          by_cases h9 : g ∈ A.asks s1.text x
          · exact h9
          · have h10 := (hl.same s1.text s.text x fun y hy => by
              by_cases hyg : y = g
              · subst hyg; exact absurd hy h9
              · exact (htx y hyg).symm).1
            rw [h10] at h8
            exact h8
        · exact ⟨h2, hl.self _ _⟩
      obtain ⟨u, hu, hup⟩ := parseAll_slot (s1.related g) hf1 hall (.inl (related_ne (by simp [hf1])))
      have hv2 := q3 g v' hv'
      rw [hu] at hv2
      cases hv2
      rw [hv']
      exact hup

/-- C120, part: closing a document never follows a null pointer. -/
theorem C120_defined (hl : Local A) (ha : Apart A member) {s : State} (h : Reach A s) (op : Op) :
    ∃ s', s.step A op = some s' := by
  have hi := reach_inv hl ha h
  cases op with
  | «open» f t => exact ⟨_, rfl⟩
  | change f t => exact ⟨_, rfl⟩
  | watched f t => exact ⟨_, rfl⟩
  | close f =>
    simp only [State.step, State.closeFile]
    split
    · exact ⟨_, rfl⟩
    · split
      · rename_i hc
        obtain ⟨-, w, hw⟩ := hi.prog f (by simpa using hc)
        rw [hw]
        exact ⟨_, rfl⟩
      · exact ⟨_, rfl⟩

/-! ### Concrete cases -/

/-- Files 0 and 1 are programs; text 1 calls macro 2, text 2 calls macro 3, text 3 calls both. Macros define what their
name says unless their text is 0. -/
def demo : Oracle where
  asks t g := match g, t g with
    | 0, some 1 => [0, 2]
    | 0, some 2 => [0, 3]
    | 0, some 3 => [0, 2, 3]
    | 1, some 1 => [1, 2]
    | g, _ => [g]
  uses t g := ((match g, t g with
    | 0, some 1 => [0, 2]
    | 0, some 2 => [0, 3]
    | 0, some 3 => [0, 2, 3]
    | 1, some 1 => [1, 2]
    | g, _ => [g]).filter fun x => (t x).isSome && (decide (x < 2) || t x != some 0))

def demoMember : File → Bool := fun x => decide (2 ≤ x)

theorem demo_local : Local demo := by
  refine ⟨?_, ?_, ?_⟩
  · intro t g
    simp only [demo]
    split <;> simp
  · intro t g x h
    simp only [demo, List.mem_filter, Bool.and_eq_true] at h
    exact ⟨h.1, h.2.1⟩
  · intro t t' g h
    have hg : t g = t' g := h g (by simp only [demo]; split <;> simp)
    have h1 : demo.asks t' g = demo.asks t g := by simp only [demo, hg]
    refine ⟨h1, ?_⟩
    show (demo.asks t' g).filter _ = (demo.asks t g).filter _
    rw [h1]
    apply List.filter_congr
    intro x hx
    rw [h x hx]

theorem demo_apart : Apart demo demoMember := by
  refine ⟨?_, ?_⟩
  · intro t g x h
    simp only [demo] at h
    split at h <;> simp_all [demoMember] <;> (try (rcases h with rfl | rfl | rfl <;> simp))
  · intro t g x hm h
    simp only [demo] at h
    split at h <;> simp_all [demoMember]

/-- On the disk: program 0 calls macro 2, macros 2 and 3 exist. -/
def demoDisk : File → Option Text
  | 0 => some 1
  | 2 => some 5
  | 3 => some 6
  | _ => none

def demoRun (ops : List Op) : State := (State.run demo { disk := demoDisk } ops).getD {}

theorem reach_open : Reach demo (demoRun [.open 0 1]) :=
  .step (op := .open 0 1) (.start demoDisk) (by rintro ⟨g, w, sl, h, -⟩; cases h) rfl

theorem quiet_member : Quiet (demoRun [.open 0 1]) (.open 2 7) := by
  rintro ⟨g, w, sl, hg, hs, rfl, hne, hu, hd⟩
  by_cases h0 : sl.root = 0
  · rw [h0] at hg
    have h1 : (demoRun [.open 0 1]).files 0 = some ⟨1, true, [2],
        some ⟨0, [(0, some 1), (2, some 5)]⟩⟩ := by decide
    rw [h1] at hg
    cases hg
    simp at hd
  · by_cases h2 : sl.root = 2
    · exact hne h2.symm
    · have h1 : (demoRun [.open 0 1]).files sl.root = none := by
        simp [demoRun, State.run, State.step, State.parseFile, State.parseAll, State.related, State.parse, State.closeAll,
          State.filterClose, State.visit, upd, h0, h2, demo, State.text, demoDisk]
      rw [h1] at hg
      cases hg

theorem reach_member : Reach demo (demoRun [.open 0 1, .open 2 7]) :=
  .step (op := .open 2 7) reach_open quiet_member rfl

-- Program 0 and the macro it calls are open: requests about the macro are answered from the analysis of the program with
-- the macro's buffer, not with what is on the disk.
example : (demoRun [.open 0 1, .open 2 7]).related 2 = [0] ∧
    ((demoRun [.open 0 1, .open 2 7]).files 0).bind (·.slot) = some ⟨0, [(0, some 1), (2, some 7)]⟩ := by decide

example : ∀ g ∈ (demoRun [.open 0 1, .open 2 7]).related 2, ∃ w, (demoRun [.open 0 1, .open 2 7]).files g = some w ∧
    w.slot = some (analysis demo (demoRun [.open 0 1, .open 2 7]).actual g) :=
  (C120_answers_partial demo_local demo_apart reach_member ⟨_, rfl, rfl⟩ (.inr ⟨0, by decide, by decide⟩)).2

example : (demoRun [.open 0 1, .open 2 7]).actual 2 = some 7 ∧ (demoRun [.open 0 1, .open 2 7]).answers 2 ≠ [] ∧
    ∀ a ∈ (demoRun [.open 0 1, .open 2 7]).answers 2, UpToDate demo (demoRun [.open 0 1, .open 2 7]).actual a := by
  exact C120_edited_partial demo_local demo_apart reach_open (op := .open 2 7) (.inl rfl) quiet_member rfl

example : ∃ s', (demoRun [.open 0 1, .open 2 7]).step demo (.close 0) = some s' :=
  C120_defined demo_local demo_apart reach_member _

/-! ### Where answers are not up to date -/

/-- An analysis is not up to date, by comparing the record. -/
theorem stale {A : Oracle} {t : File → Option Text} {sl : Slot} (h : sl ≠ analysis A t sl.root) :
    ¬ UpToDate A t (some sl) := by
  rintro ⟨sl', h1, h2⟩
  cases h1
  exact h h2

/-- C120, violated: a macro's document is closed without saving. The discarded text (7) remains in use, although the disk has
another one (5). -/
theorem C120_witness_unsaved :
    (demoRun [.open 0 1, .open 2 7, .close 2]).actual 2 = some 5 ∧
    (demoRun [.open 0 1, .open 2 7, .close 2]).answers 0 = [some ⟨0, [(0, some 1), (2, some 7)]⟩] ∧
    ¬ UpToDate demo (demoRun [.open 0 1, .open 2 7, .close 2]).actual (some ⟨0, [(0, some 1), (2, some 7)]⟩) :=
  ⟨by decide, by decide, stale (by decide)⟩

/-- C120, violated: even editing the program then does not bring the macro's text from the disk into use. -/
theorem C120_witness_unsaved_stays :
    (demoRun [.open 0 1, .open 2 7, .close 2, .change 0 3]).answers 0 =
      [some ⟨0, [(0, some 3), (2, some 7), (3, some 6)]⟩] ∧
    (demoRun [.open 0 1, .open 2 7, .close 2, .change 0 3]).actual 2 = some 5 := by decide

/-- C120, violated: a macro in use changes on the disk (5 becomes 8). The programs using it are analysed again, with the old
text. -/
theorem C120_witness_disk :
    (demoRun [.open 0 1, .watched 2 (some 8)]).actual 2 = some 8 ∧
    (demoRun [.open 0 1, .watched 2 (some 8)]).answers 0 = [some ⟨0, [(0, some 1), (2, some 5)]⟩] ∧
    ¬ UpToDate demo (demoRun [.open 0 1, .watched 2 (some 8)]).actual (some ⟨0, [(0, some 1), (2, some 5)]⟩) :=
  ⟨by decide, by decide, stale (by decide)⟩

/-- C120, violated: a macro a program has missed is created. The program is not analysed again. -/
theorem C120_witness_created :
    (demoRun [.watched 3 none, .open 0 2, .watched 3 (some 6)]).actual 3 = some 6 ∧
    (demoRun [.watched 3 none, .open 0 2, .watched 3 (some 6)]).answers 0 = [some ⟨0, [(0, some 2), (3, none)]⟩] ∧
    ¬ UpToDate demo (demoRun [.watched 3 none, .open 0 2, .watched 3 (some 6)]).actual
      (some ⟨0, [(0, some 2), (3, none)]⟩) :=
  ⟨by decide, by decide, stale (by decide)⟩

/-- C120, violated: while a macro is edited it does not define what its name says for a moment (text 0). Its program stops
depending on it and does not notice when the definition is whole again (text 5). -/
theorem C120_witness_broken :
    (demoRun [.open 0 1, .open 2 0, .change 2 5]).actual 2 = some 5 ∧
    (demoRun [.open 0 1, .open 2 0, .change 2 5]).answers 0 = [some ⟨0, [(0, some 1), (2, some 0)]⟩] ∧
    ¬ UpToDate demo (demoRun [.open 0 1, .open 2 0, .change 2 5]).actual (some ⟨0, [(0, some 1), (2, some 0)]⟩) :=
  ⟨by decide, by decide, stale (by decide)⟩

/-- C120, violated: an open macro no program uses any more keeps the analysis made for the program as it was. -/
theorem C120_witness_orphan :
    (demoRun [.open 0 1, .open 2 7, .change 0 2]).actual 0 = some 2 ∧
    (demoRun [.open 0 1, .open 2 7, .change 0 2]).answers 2 = [some ⟨0, [(0, some 1), (2, some 7)]⟩] ∧
    ¬ UpToDate demo (demoRun [.open 0 1, .open 2 7, .change 0 2]).actual (some ⟨0, [(0, some 1), (2, some 7)]⟩) :=
  ⟨by decide, by decide, stale (by decide)⟩

/-- Like `demo`, but program 1 copies program 0. -/
def demoShared : Oracle where
  asks t g := if g = 1 then [1, 0] else demo.asks t g
  uses t g := if g = 1 then [1, 0].filter fun x => (t x).isSome else demo.uses t g

/-- C120, violated: program 0, which calls macro 2, is copied by program 1. Requests about the macro's document are answered
from an analysis that has not read it. -/
theorem C120_witness_shared :
    ∃ s, State.run demoShared { disk := demoDisk } [.open 0 1, .open 2 7, .open 1 4] = some s ∧
      s.actual 0 = some 1 ∧ s.related 2 = [0] ∧ s.answers 2 = [some ⟨1, [(1, some 4), (0, some 1)]⟩] :=
  ⟨_, rfl, by decide⟩

end Verif.Fresh
