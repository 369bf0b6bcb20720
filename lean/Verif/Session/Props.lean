import Verif.Session.Spec
/-!
C138: a debug session and the editor do not disturb each other.
-/
namespace Verif.Session
open Verif.TextSync Verif.FileManager

/-! ### the file manager -/

theorem hold_inv {m : Mgr} (h : Inv m) {id : Nat} (hid : id < m.next) : Inv (hold m id) := held_inv h hid _

/-- What taking a pointer to a processor file does: a new object or the one of the map, held once more, with the content of the document. -/
structure Taken (m m' : Mgr) (u : String) (id : Nat) : Prop where
  inv : Inv m'
  agree : ∀ s, Agree m s → Agree m' s
  proc : (m'.heap id).isProc = true
  held : m'.held id = m.held id + 1
  heldOther : ∀ i, i ≠ id → m'.held i = m.held i
  text : ∀ s f, Agree m s → s u = some f → (m'.heap id).file = f
  kept : ∀ i, 0 < m.held i → (m.heap i).isProc = true → m'.heap i = m.heap i

theorem into_taken {m : Mgr} (h : Inv m) {u : String} {id : Nat} (hu : m.files u = some id) :
    Taken m (hold (m.intoProcessor u id).1 (m.intoProcessor u id).2) u (m.intoProcessor u id).2 := by
  have hb := h.bound u id hu
  have hstep : m.step (.findProcessor u) = some (hold (m.intoProcessor u id).1 (m.intoProcessor u id).2) := by
    simp only [Mgr.step, Mgr.findProcessor, hu]; rfl
  have hinv : Inv (hold (m.intoProcessor u id).1 (m.intoProcessor u id).2) :=
    (step_ok h (s := fun _ => none) (by intro u f h; simp at h) hstep).1
  have hag : ∀ s, Agree m s → Agree (hold (m.intoProcessor u id).1 (m.intoProcessor u id).2) s := by
    intro s ha
    have := (step_ok h ha hstep).2
    simpa [docStep] using this
  refine ⟨hinv, hag, ?_, ?_, ?_, ?_, ?_⟩
  · unfold Mgr.intoProcessor
    split
    · assumption
    · simp [hold, Mgr.alloc, upd]
  · have : (m.intoProcessor u id).1.held = m.held := by
      unfold Mgr.intoProcessor; split <;> rfl
    simp [hold, this, upd_same]
  · intro i hi
    have : (m.intoProcessor u id).1.held = m.held := by
      unfold Mgr.intoProcessor; split <;> rfl
    simp [hold, this, upd_ne _ _ hi]
  · intro s f ha hs
    obtain ⟨⟨i, hi, hf⟩, _⟩ := ha u f hs
    rw [hu] at hi; cases hi
    unfold Mgr.intoProcessor
    split
    · exact hf
    · simp [hold, Mgr.alloc, upd, hf]
  · intro i hi hp
    have hlt := h.held i hi
    unfold Mgr.intoProcessor
    split
    · rfl
    · next hn =>
      have h1 : i ≠ m.next := by omega
      have h2 : i ≠ id := by rintro rfl; exact hn hp
      simp [hold, Mgr.alloc, Mgr.setFile, upd, h1, h2]

theorem add_taken {m : Mgr} (h : Inv m) (u : String) : Taken m (addProcessor m u).1 u (addProcessor m u).2 := by
  unfold addProcessor
  cases hu : m.files u with
  | some id => exact into_taken h hu
  | none =>
    refine ⟨hold_inv (alloc_inv h u _) (by simp [Mgr.alloc]), ?_, by simp [hold, Mgr.alloc, upd], by simp [hold, Mgr.alloc, upd], ?_, ?_, ?_⟩
    · intro s ha v g hg
      obtain ⟨⟨i, hi, hfile⟩, h2⟩ := ha v g hg
      have hb := h.bound v i hi
      refine ⟨⟨i, ?_, ?_⟩, h2⟩
      · have : v ≠ u := by rintro rfl; rw [hu] at hi; cases hi
        simp [hold, Mgr.alloc, upd, this, hi]
      · have : i ≠ m.next := by omega
        simp [hold, Mgr.alloc, upd, this, hfile]
    · intro i hi; simp only [hold, Mgr.alloc] at hi ⊢; exact upd_ne _ _ hi
    · intro s f ha hs
      obtain ⟨⟨i, hi, _⟩, _⟩ := ha u f hs
      rw [hu] at hi; cases hi
    · intro i hi _
      have := h.held i hi
      have : i ≠ m.next := by omega
      simp [hold, Mgr.alloc, upd, this]

theorem get_taken {m : Mgr} (h : Inv m) (u : String) : Taken m (getProcessor m u).1 u (getProcessor m u).2 := by
  unfold getProcessor
  cases hu : m.files u with
  | some id => exact into_taken h hu
  | none =>
    show Taken m (hold { m with heap := upd m.heap m.next { isProc := true }, next := m.next + 1 } m.next) u m.next
    have hi0 : Inv { m with heap := upd m.heap m.next { isProc := true }, next := m.next + 1 } :=
      ⟨fun v i hv => Nat.lt_succ_of_lt (h.bound v i hv), h.inj, fun i hi => Nat.lt_succ_of_lt (h.held i hi)⟩
    refine ⟨hold_inv hi0 (Nat.lt_succ_self _), ?_, by simp [hold, upd], by simp [hold, upd], ?_, ?_, ?_⟩
    · intro s ha v g hg
      obtain ⟨⟨i, hi, hfile⟩, h2⟩ := ha v g hg
      have hb := h.bound v i hi
      have : i ≠ m.next := by omega
      exact ⟨⟨i, hi, by simp [hold, upd, this, hfile]⟩, h2⟩
    · intro i hi; simp only [hold] at hi ⊢; exact upd_ne _ _ hi
    · intro s f ha hs
      obtain ⟨⟨i, hi, _⟩, _⟩ := ha u f hs
      rw [hu] at hi; cases hi
    · intro i hi _
      have := h.held i hi
      have : i ≠ m.next := by omega
      simp [hold, upd, this]

/-- An object the session holds is left alone by the editor, if it is open and up to date; it stays a processor file in any case. -/
theorem op_keeps {m m' : Mgr} (h : Inv m) {o : Op} (hs : m.step o = some m') {id : Nat} (hh : 0 < m.held id)
    (hp : (m.heap id).isProc = true) : (m'.heap id).isProc = true ∧
      ((m.heap id).file.editing = true → (m.heap id).file.upToDate = true → (m'.heap id).file = (m.heap id).file) := by
  have hlt := h.held id hh
  have eq : ∀ {m' : Mgr}, m'.heap id = m.heap id → (m'.heap id).isProc = true ∧
      ((m.heap id).file.editing = true → (m.heap id).file.upToDate = true → (m'.heap id).file = (m.heap id).file) := by
    intro m' e; rw [e]; exact ⟨hp, fun _ _ => rfl⟩
  cases o with
  | didOpen u v t => exact eq (C05_snapshot_isolated m m' h id hh _ (.inl ⟨u, v, t, rfl⟩) hs)
  | didChange u cs => exact eq (C05_snapshot_isolated m m' h id hh _ (.inr (.inl ⟨u, cs, rfl⟩)) hs)
  | didClose u => exact eq (C05_snapshot_isolated m m' h id hh _ (.inr (.inr ⟨u, rfl⟩)) hs)
  | remove u => simp only [Mgr.step, Option.some.injEq] at hs; subst hs; exact eq rfl
  | addFile u =>
    simp only [Mgr.step, Option.some.injEq] at hs; subst hs
    apply eq
    unfold Mgr.addFile Mgr.emplace
    cases m.files u with
    | some i => rfl
    | none =>
      have : id ≠ m.next := by omega
      simp [Mgr.alloc, upd, this]
  | find u =>
    simp only [Mgr.step, Option.some.injEq] at hs; subst hs
    apply eq
    unfold Mgr.find
    cases m.files u <;> rfl
  | findProcessor u =>
    cases hu : m.files u with
    | none => simp only [Mgr.step, Mgr.findProcessor, hu, Option.some.injEq] at hs; subst hs; exact eq rfl
    | some i =>
      have hstep : m.step (.findProcessor u) = some (hold (m.intoProcessor u i).1 (m.intoProcessor u i).2) := by
        simp only [Mgr.step, Mgr.findProcessor, hu]; rfl
      rw [hstep] at hs; cases hs
      exact eq ((into_taken h hu).kept id hh hp)
  | release i => simp only [Mgr.step, Option.some.injEq] at hs; subst hs; exact eq rfl
  | update i d =>
    simp only [Mgr.step, Mgr.update, Option.some.injEq] at hs; subst hs
    split
    · by_cases e : id = i
      · subst e
        refine ⟨by simpa [Mgr.setFile, upd] using hp, ?_⟩
        intro he _
        simp [Mgr.setFile, upd, File.updateAndGetBad, he]
      · exact eq (by simp [Mgr.setFile, upd, e])
    · exact eq rfl
  | getText i d =>
    simp only [Mgr.step, Mgr.getText, Option.some.injEq] at hs; subst hs
    split
    · by_cases e : id = i
      · subst e
        refine ⟨by simpa [Mgr.setFile, upd] using hp, ?_⟩
        intro _ hu
        simp [Mgr.setFile, upd, File.getText, hu]
      · exact eq (by simp [Mgr.setFile, upd, e])
    · exact eq rfl

/-- One more holder is not less. -/
theorem more_held (h : Nat → Nat) (a x : Nat) : h x ≤ upd h a (h a + 1) x := by
  unfold upd
  by_cases e : x = a
  · subst e; simp
  · simp [e]

/-- How the holders of an object change. -/
theorem op_held {m m' : Mgr} {o : Op} (hs : m.step o = some m') (id : Nat) :
    m.held id ≤ m'.held id ∨ (o = .release id ∧ m'.held id = m.held id - 1) := by
  cases o with
  | didOpen u v t =>
    simp only [Mgr.step, Option.some.injEq] at hs; subst hs
    left
    unfold Mgr.didOpen Mgr.emplace Mgr.prepare
    cases m.files u <;> simp only [] <;> split <;> simp [Mgr.setFile, Mgr.alloc]
  | didChange u cs =>
    simp only [Mgr.step, Mgr.didChange] at hs
    left
    cases hu : m.files u with
    | none => simp [hu] at hs; subst hs; exact Nat.le_refl _
    | some i =>
      simp only [hu, Option.map_eq_some_iff] at hs
      obtain ⟨f, _, rfl⟩ := hs
      unfold Mgr.prepare; split <;> simp [Mgr.setFile, Mgr.alloc]
  | didClose u =>
    simp only [Mgr.step, Mgr.didClose, Option.some.injEq] at hs; subst hs
    left
    cases m.files u with
    | none => exact Nat.le_refl _
    | some i => simp only []; unfold Mgr.prepare; split <;> simp [Mgr.setFile, Mgr.alloc]
  | remove u => simp only [Mgr.step, Option.some.injEq] at hs; subst hs; exact .inl (Nat.le_refl _)
  | addFile u =>
    simp only [Mgr.step, Option.some.injEq] at hs; subst hs
    left
    unfold Mgr.addFile Mgr.emplace
    cases m.files u <;> exact more_held _ _ _
  | find u =>
    simp only [Mgr.step, Option.some.injEq] at hs; subst hs
    left
    unfold Mgr.find
    cases m.files u with
    | none => exact Nat.le_refl _
    | some i => exact more_held _ _ _
  | findProcessor u =>
    simp only [Mgr.step, Option.some.injEq] at hs; subst hs
    left
    unfold Mgr.findProcessor
    cases m.files u with
    | none => exact Nat.le_refl _
    | some i =>
      simp only []
      unfold Mgr.intoProcessor
      split <;> exact more_held _ _ _
  | release i =>
    simp only [Mgr.step, Option.some.injEq] at hs; subst hs
    by_cases e : id = i
    · subst e; right; exact ⟨rfl, by simp [Mgr.release, upd]⟩
    · left; simp [Mgr.release, upd, e]
  | update i d => simp only [Mgr.step, Option.some.injEq] at hs; subst hs; left; unfold Mgr.update; split <;> exact Nat.le_refl _
  | getText i d => simp only [Mgr.step, Option.some.injEq] at hs; subst hs; left; unfold Mgr.getText; split <;> exact Nat.le_refl _

/-! ### the session -/

/-- What is known of an activity: its object is a processor file, with the text the document had when the pointer was taken. -/
def Good (evs : List Ev) (m : Mgr) : Act → Prop
  | .looking .. => True
  | .inFind .. => True
  | .found u id t | .reading u id t | .parsing u id t =>
    (m.heap id).isProc = true ∧ t ≤ evs.length ∧ ∀ f, doc u (told (evs.take t)) = some f →
      (m.heap id).file = f ∧ f.editing = true ∧ f.upToDate = true

structure Ok (evs : List Ev) (s : Sys) : Prop where
  inv : Inv s.mgr
  agree : Agree s.mgr (fun u => doc u (told evs))
  clock : s.clock = evs.length
  counts : ∀ id, s.mine.count id ≤ s.mgr.held id
  acts : ∀ a ∈ s.stack, Good evs s.mgr a
  reads : ∀ r ∈ s.reads, r.time ≤ evs.length ∧ ∀ f, doc r.uri (told (evs.take r.time)) = some f → r.text = f.text

theorem told_snoc (evs : List Ev) (e : Ev) : told (evs ++ [e]) = told evs ++ told [e] := by simp [told, List.filterMap_append]

theorem take_snoc {evs : List Ev} {e : Ev} {t : Nat} (h : t ≤ evs.length) : (evs ++ [e]).take t = evs.take t := by
  rw [List.take_append_of_le_length h]

theorem Good.snoc {evs : List Ev} {m m' : Mgr} {a : Act} (e : Ev) (h : Good evs m a)
    (hk : ∀ id, a.holds = some id → (m.heap id).isProc = true → (m'.heap id).isProc = true ∧
      ((m.heap id).file.editing = true → (m.heap id).file.upToDate = true → (m'.heap id).file = (m.heap id).file)) :
    Good (evs ++ [e]) m' a := by
  cases a with
  | looking => trivial
  | inFind => trivial
  | found u id t | reading u id t | parsing u id t =>
    obtain ⟨hp, ht, hf⟩ := h
    obtain ⟨k1, k2⟩ := hk id rfl hp
    refine ⟨k1, by simp; omega, ?_⟩
    rw [take_snoc ht]
    intro f hd
    obtain ⟨e1, e2, e3⟩ := hf f hd
    exact ⟨by rw [k2 (by rw [e1]; exact e2) (by rw [e1]; exact e3)]; exact e1, e2, e3⟩

theorem reads_snoc {evs : List Ev} {rs : List Read} (e : Ev)
    (h : ∀ r ∈ rs, r.time ≤ evs.length ∧ ∀ f, doc r.uri (told (evs.take r.time)) = some f → r.text = f.text) :
    ∀ r ∈ rs, r.time ≤ (evs ++ [e]).length ∧ ∀ f, doc r.uri (told ((evs ++ [e]).take r.time)) = some f → r.text = f.text := by
  intro r hr
  obtain ⟨h1, h2⟩ := h r hr
  refine ⟨by simp; omega, ?_⟩
  rw [take_snoc h1]; exact h2

theorem mine_pos {s : Sys} {evs : List Ev} (h : Ok evs s) {a : Act} (ha : a ∈ s.stack) {id : Nat} (hi : a.holds = some id) :
    0 < s.mgr.held id := by
  have : id ∈ s.mine := List.mem_filterMap.2 ⟨a, ha, hi⟩
  have := List.count_pos_iff.2 this
  have := h.counts id
  omega

/-- A step that leaves the file manager alone and only changes the stack in ways that keep the pointers. -/
theorem Ok.same {evs : List Ev} {s s' : Sys} (e : Ev) (h : Ok evs s) (ht : told [e] = []) (hm : s'.mgr = s.mgr) (hr : s'.reads = s.reads)
    (hmine : s'.mine = s.mine) (hc : s'.clock = evs.length + 1) (hst : ∀ a ∈ s'.stack, Good evs s.mgr a) : Ok (evs ++ [e]) s' := by
  refine ⟨hm ▸ h.inv, ?_, by simp [hc], ?_, ?_, ?_⟩
  · rw [told_snoc, ht, List.append_nil, hm]; exact h.agree
  · rw [hmine, hm]; exact h.counts
  · intro a ha; rw [hm]
    exact (hst a ha).snoc e (fun id _ hp => ⟨hp, fun _ _ => rfl⟩)
  · rw [hr]; exact reads_snoc e h.reads

/-- A step in which a pointer is taken, by the session (`new`) or by the editor. -/
theorem Ok.taken {evs : List Ev} {s s' : Sys} (e : Ev) (h : Ok evs s) (ht : told [e] = []) {u : String} {id : Nat}
    (hm : Taken s.mgr s'.mgr u id) (hr : s'.reads = s.reads) (hc : s'.clock = evs.length + 1)
    (hmine : s'.mine = s.mine ∨ s'.mine = id :: s.mine)
    (hst : ∀ a ∈ s'.stack, (a ∈ s.stack) ∨ a.holds = none ∨ a = .found u id evs.length) : Ok (evs ++ [e]) s' := by
  refine ⟨hm.inv, ?_, by simp [hc], ?_, ?_, ?_⟩
  · rw [told_snoc, ht, List.append_nil]; exact hm.agree _ h.agree
  · intro i
    have := h.counts i
    by_cases hi : i = id
    · subst hi
      have h1 := hm.held
      rcases hmine with e | e <;> rw [e]
      · omega
      · rw [List.count_cons_self]; omega
    · have h1 := hm.heldOther i hi
      rcases hmine with e | e <;> rw [e]
      · omega
      · rw [List.count_cons_of_ne (Ne.symm hi)]; omega
  · intro a ha
    rcases hst a ha with h1 | h1 | h1
    · refine (h.acts a h1).snoc e ?_
      intro i hi hp
      rw [hm.kept i (mine_pos h h1 hi) hp]
      exact ⟨hp, fun _ _ => rfl⟩
    · cases a <;> simp_all [Act.holds, Good]
    · subst h1
      refine ⟨hm.proc, by simp, ?_⟩
      rw [take_snoc (Nat.le_refl _), List.take_length]
      intro f hf
      have := h.agree u f hf
      exact ⟨hm.text _ f h.agree hf, this.2⟩
  · rw [hr]; exact reads_snoc e h.reads

theorem get_same {m : Mgr} (h : Inv m) (id : Nat) (d : Option Bytes) : Inv (m.getText id d) ∧ (m.getText id d).held = m.held := by
  unfold Mgr.getText
  split
  · exact ⟨setFile_inv h _ _, rfl⟩
  · exact ⟨h, rfl⟩

theorem step_good {evs : List Ev} {s s' : Sys} {e : Ev} (h : Ok evs s) (hs : s.step e = .ok s') : Ok (evs ++ [e]) s' := by
  unfold Sys.step at hs
  split at hs
  case h_2 => cases hs
  next s1 ha =>
  cases hs
  have hc := h.clock
  cases e with
  | launch u =>
    simp only [Sys.act] at ha
    split at ha
    · next hst =>
      cases ha
      refine h.taken _ rfl (get_taken h.inv u) rfl (by simp [hc]) (.inr ?_) ?_
      · simp only [Sys.mine, hst]; rfl
      · intro a ha; simp at ha; right; right; rw [ha, hc]
    · cases ha; exact h.same _ rfl rfl rfl rfl (by simp [hc]) h.acts
  | ask name =>
    simp only [Sys.act] at ha
    split at ha
    · next u id t rest hst =>
      cases ha
      refine h.same _ rfl rfl rfl ?_ (by simp [hc]) ?_
      · simp only [Sys.mine, hst]; rfl
      · intro a ha
        simp only [List.mem_cons] at ha
        rcases ha with rfl | ha
        · trivial
        · exact h.acts a (by rw [hst]; simpa using ha)
    · cases ha; exact h.same _ rfl rfl rfl rfl (by simp [hc]) h.acts
  | enter =>
    simp only [Sys.act] at ha
    split at ha
    · next name gen i rest hst =>
      split at ha
      · cases ha
      · split at ha
        · cases ha
          refine h.same _ rfl rfl rfl ?_ (by simp [hc]) ?_
          · simp only [Sys.mine, hst]; rfl
          · intro a ha
            simp only [List.mem_cons] at ha
            rcases ha with rfl | ha
            · trivial
            · exact h.acts a (by rw [hst]; simp [ha])
        · cases ha
          refine h.same _ rfl rfl rfl ?_ (by simp [hc]) ?_
          · simp only [Sys.mine, hst]; rfl
          · intro a ha
            exact h.acts a (by rw [hst]; simp [show a ∈ rest from ha])
    · cases ha; exact h.same _ rfl rfl rfl rfl (by simp [hc]) h.acts
  | leave now =>
    simp only [Sys.act] at ha
    split at ha
    · next name gen i rest hst =>
      cases ha
      unfold Sys.endFind
      cases hl : s.libs[i]? with
      | none => exact h.same _ rfl rfl rfl rfl (by simp [hc]) h.acts
      | some l =>
        simp only []
        cases hp : (l.list now).path name with
        | none =>
          refine h.same _ rfl rfl rfl ?_ (by simp [hc]) ?_
          · simp only [Sys.mine, hst]; rfl
          · intro a ha
            simp only [List.mem_cons] at ha
            rcases ha with rfl | ha
            · trivial
            · exact h.acts a (by rw [hst]; simp [ha])
        | some u =>
          refine h.taken _ rfl (add_taken h.inv u) rfl (by simp [hc]) (.inr ?_) ?_
          · simp only [Sys.mine, hst]; rfl
          · intro a ha
            simp only [List.mem_cons] at ha
            rcases ha with rfl | ha
            · right; right; rw [hc]
            · left; rw [hst]; simp [ha]
    · cases ha; exact h.same _ rfl rfl rfl rfl (by simp [hc]) h.acts
  | read =>
    simp only [Sys.act] at ha
    split at ha
    · next u id t rest hst =>
      cases ha
      refine h.same _ rfl rfl rfl ?_ (by simp [hc]) ?_
      · simp only [Sys.mine, hst]; rfl
      · intro a ha
        simp only [List.mem_cons] at ha
        rcases ha with rfl | ha
        · have := h.acts (.found u id t) (by rw [hst]; simp)
          exact this
        · exact h.acts a (by rw [hst]; simp [ha])
    · cases ha; exact h.same _ rfl rfl rfl rfl (by simp [hc]) h.acts
  | analyse disk =>
    simp only [Sys.act] at ha
    split at ha
    · next u id t rest hst =>
      cases ha
      have hgs := get_same h.inv id disk
      have hstep : s.mgr.step (.getText id disk) = some (s.mgr.getText id disk) := rfl
      have hg := h.acts (.reading u id t) (by rw [hst]; simp)
      have hk : ∀ a ∈ s.stack, ∀ i, a.holds = some i → (s.mgr.heap i).isProc = true → ((s.mgr.getText id disk).heap i).isProc = true ∧
          ((s.mgr.heap i).file.editing = true → (s.mgr.heap i).file.upToDate = true →
            ((s.mgr.getText id disk).heap i).file = (s.mgr.heap i).file) :=
        fun a ha i hi hp => op_keeps h.inv hstep (mine_pos h ha hi) hp
      refine ⟨hgs.1, ?_, by simp [hc], ?_, ?_, ?_⟩
      · have := (step_ok h.inv h.agree hstep).2
        rw [told_snoc]; simpa [docStep, told] using this
      · intro i
        have := h.counts i
        simp only [Sys.mine, hst, Act.holds, List.filterMap_cons] at this ⊢
        rw [hgs.2]; exact this
      · intro a ha
        simp only [List.mem_cons] at ha
        rcases ha with rfl | ha
        · exact Good.snoc (a := .parsing u id t) _ hg (fun i hi hp => hk (.reading u id t) (by rw [hst]; simp) i hi hp)
        · have hm : a ∈ s.stack := by rw [hst]; simp [ha]
          exact (h.acts a hm).snoc _ (hk a hm)
      · intro r hr
        simp only [List.mem_append, List.mem_singleton] at hr
        rcases hr with hr | rfl
        · exact reads_snoc _ h.reads r hr
        · obtain ⟨_, ht, hf⟩ := hg
          refine ⟨by simp; omega, ?_⟩
          simp only []
          rw [take_snoc ht]
          intro f hd
          obtain ⟨e1, _, e3⟩ := hf f hd
          simp [File.getText, e1, e3]
    · cases ha; exact h.same _ rfl rfl rfl rfl (by simp [hc]) h.acts
  | finish =>
    simp only [Sys.act] at ha
    split at ha
    · next u id t rest hst =>
      cases ha
      have hstep : s.mgr.step (.release id) = some (s.mgr.release id) := rfl
      obtain ⟨hi, hagr⟩ := step_ok h.inv h.agree hstep
      refine ⟨hi, ?_, by simp [hc], ?_, ?_, reads_snoc _ h.reads⟩
      · rw [told_snoc]; simpa [docStep, told] using hagr
      · intro i
        have := h.counts i
        simp only [Sys.mine, hst, Act.holds, List.filterMap_cons] at this ⊢
        by_cases e : i = id
        · subst e
          simp only [List.count_cons_self] at this
          simp only [Mgr.release, upd_same]; omega
        · rw [List.count_cons_of_ne (Ne.symm e)] at this
          simp only [Mgr.release, upd_ne _ _ e]; exact this
      · intro a ha
        have hm : a ∈ s.stack := by rw [hst]; simp [show a ∈ rest from ha]
        exact (h.acts a hm).snoc _ (fun i hi hp => ⟨hp, fun _ _ => rfl⟩)
    · cases ha; exact h.same _ rfl rfl rfl rfl (by simp [hc]) h.acts
  | editor o =>
    simp only [Sys.act, Sys.operate] at ha
    split at ha
    · cases ha
    · split at ha
      · next hcan =>
        cases hstep : s.mgr.step o with
        | none => simp [hstep] at ha
        | some m =>
          simp only [hstep, Except.ok.injEq] at ha
          subst ha
          obtain ⟨hi, hagr⟩ := step_ok h.inv h.agree hstep
          refine ⟨hi, ?_, by simp [hc], ?_, ?_, reads_snoc _ h.reads⟩
          · rw [told_snoc]
            simpa [told, doc, List.foldl_append] using hagr
          · intro i
            have := h.counts i
            show s.mine.count i ≤ m.held i
            rcases op_held hstep i with h1 | ⟨rfl, h1⟩
            · omega
            · simp only [Sys.can, decide_eq_true_eq] at hcan
              omega
          · intro a ha
            exact (h.acts a ha).snoc _ (fun i hi hp => op_keeps h.inv hstep (mine_pos h ha hi) hp)
      · next hcan =>
        cases ha
        cases o with
        | release i =>
          refine ⟨h.inv, ?_, by simp [hc], h.counts, fun a ha => (h.acts a ha).snoc _ (fun i _ hp => ⟨hp, fun _ _ => rfl⟩),
            reads_snoc _ h.reads⟩
          rw [told_snoc]
          have := h.agree
          simpa [told, doc, List.foldl_append, docStep] using this
        | _ => simp [Sys.can] at hcan
  | editorAdd u =>
    simp only [Sys.act] at ha
    cases ha
    exact h.taken _ rfl (add_taken h.inv u) rfl (by simp [hc]) (.inl rfl) (fun a ha => .inl ha)
  | editorLook i now =>
    simp only [Sys.act] at ha
    split at ha
    · cases ha
    · split at ha <;> (cases ha; exact h.same _ rfl rfl rfl rfl (by simp [hc]) h.acts)
  | refresh i now =>
    simp only [Sys.act] at ha
    split at ha
    · cases ha
    · cases ha; exact h.same _ rfl rfl rfl rfl (by simp [hc]) h.acts
  | reload libs =>
    simp only [Sys.act] at ha
    split at ha
    · cases ha
    · cases ha; exact h.same _ rfl rfl rfl rfl (by simp [hc]) h.acts

theorem run_good : ∀ {evs : List Ev} {s s' : Sys} {done : List Ev}, Ok done s → s.run evs = .ok s' → Ok (done ++ evs) s'
  | [], s, s', done, h, hr => by cases hr; simpa using h
  | e :: es, s, s', done, h, hr => by
    unfold Sys.run at hr
    split at hr
    · next s1 h1 => simpa using run_good (step_good h h1) hr
    · cases hr

theorem start_ok (libs : List Lib) : Ok [] (start libs) :=
  ⟨init_inv, by intro u f h; simp [told, doc] at h, rfl, by simp [start, Sys.mine], by simp [start], by simp [start]⟩

/-! ### C138 -/

/-- For every interleaving: the text a session analyses under the name of a document that was open when the session looked the file up is
the text the document had at that time, whatever has been done in the editor since. -/
theorem C138_texts (libs : List Lib) (evs : List Ev) (s : Sys) (hr : (start libs).run evs = .ok s) :
    ∀ r ∈ s.reads, ∀ f, doc r.uri (told (evs.take r.time)) = some f → r.text = f.text := by
  intro r hm
  have := (run_good (start_ok libs) hr).reads r hm
  simpa using this.2

/-- For every interleaving: the documents are what the notifications of the editor say, whatever the session does. -/
theorem C138_documents (libs : List Lib) (evs : List Ev) (s : Sys) (hr : (start libs).run evs = .ok s) (u : String) (f : File)
    (hd : doc u (told evs) = some f) : ∃ id, s.mgr.files u = some id ∧ (s.mgr.heap id).file = f := by
  have := (run_good (start_ok libs) hr).agree u f (by simpa using hd)
  exact this.1

/-- The group the session refers to is of the last reading of the configuration. -/
def Current (s : Sys) : Prop :=
  ∀ name gen i rest, (s.stack = .looking name gen i :: rest ∨ s.stack = .inFind name gen i :: rest) → gen = s.gen

/-- Below the innermost activity there are only files being analysed. -/
def Nested (s : Sys) : Prop := ∀ a ∈ s.stack.tail, ∃ u id t, a = .parsing u id t

theorem inLib_iff {s : Sys} {i : Nat} : s.inLib i = true ↔ ∃ name gen rest, s.stack = .inFind name gen i :: rest := by
  unfold Sys.inLib
  split
  · next n g j r h => simp only [beq_iff_eq, h]; constructor
                      · rintro rfl; exact ⟨n, g, r, rfl⟩
                      · rintro ⟨_, _, _, e⟩; injection e with e1 e2; injection e1 with _ _ e3; exact e3.symm
  · next h => simp only [Bool.false_eq_true, false_iff]; rintro ⟨n, g, r, e⟩; exact h n g i r e

theorem inText_iff {s : Sys} {id : Nat} : s.inText id = true ↔ ∃ u t rest, s.stack = .reading u id t :: rest := by
  unfold Sys.inText
  split
  · next n j t r h => simp only [beq_iff_eq, h]; constructor
                      · rintro rfl; exact ⟨n, t, r, rfl⟩
                      · rintro ⟨_, _, _, e⟩; injection e with e1 e2; injection e1
  · next h => simp only [Bool.false_eq_true, false_iff]; rintro ⟨n, g, r, e⟩; exact h n id g r e

theorem inGroup_searching {s : Sys} (h : s.inGroup = true) : s.searching := by
  unfold Sys.inGroup at h
  split at h
  · next n g j r e => exact ⟨n, g, j, r, .inr e⟩
  · cases h

/-- A step in which nothing disturbs the session goes well for it. -/
theorem step_calm {s : Sys} {e : Ev} (hc : Current s) (hn : Nested s) (hd : ¬ Disturbs s e) :
    (∃ s', s.step e = .ok s' ∧ Current s' ∧ Nested s') ∨ s.step e = .error .thrown := by
  have same : ∀ {s1 : Sys}, s1.stack = s.stack → s1.gen = s.gen → s.act e = .ok s1 →
      (∃ s', s.step e = .ok s' ∧ Current s' ∧ Nested s') ∨ s.step e = .error .thrown := by
    intro s1 h1 h2 h3
    left
    refine ⟨{ s1 with clock := s.clock + 1 }, by simp only [Sys.step, h3], ?_, ?_⟩
    · intro n g i r h; simp only [h1, h2] at h ⊢; exact hc n g i r h
    · intro a ha; simp only [h1] at ha; exact hn a ha
  have new : ∀ {s1 : Sys} {top : Act} {rest : List Act}, s1.stack = top :: rest → (∀ a ∈ rest, ∃ u id t, a = Act.parsing u id t) →
      (∀ n g i, top = .looking n g i ∨ top = .inFind n g i → g = s1.gen) → s.act e = .ok s1 →
      (∃ s', s.step e = .ok s' ∧ Current s' ∧ Nested s') ∨ s.step e = .error .thrown := by
    intro s1 top rest h1 h2 h3 h4
    left
    refine ⟨{ s1 with clock := s.clock + 1 }, by simp only [Sys.step, h4], ?_, ?_⟩
    · intro n g i r h
      simp only [h1, List.cons.injEq] at h ⊢
      exact h3 n g i (h.imp And.left And.left)
    · intro a ha; simp only [h1, List.tail_cons] at ha; exact h2 a ha
  cases e with
  | launch u =>
    cases hst : s.stack with
    | nil =>
      have hact : s.act (.launch u) = .ok { s with mgr := (getProcessor s.mgr u).1, stack := [.found u (getProcessor s.mgr u).2 s.clock] } := by
        simp only [Sys.act, hst]
      refine new rfl (by simp) ?_ hact
      intro n g i h
      rcases h with h | h <;> cases h
    | cons a r => exact same (s1 := s) rfl rfl (by simp only [Sys.act, hst])
  | ask name =>
    by_cases hp : ∃ u id t rest, s.stack = .parsing u id t :: rest
    · obtain ⟨u, id, t, rest, hst⟩ := hp
      have hact : s.act (.ask name) = .ok { s with stack := .looking name s.gen 0 :: .parsing u id t :: rest } := by simp only [Sys.act, hst]
      refine new (top := .looking name s.gen 0) (rest := .parsing u id t :: rest) rfl ?_ ?_ hact
      · intro a ha
        simp only [List.mem_cons] at ha
        rcases ha with rfl | ha
        · exact ⟨_, _, _, rfl⟩
        · exact hn a (by rw [hst]; exact ha)
      · intro n g i h
        rcases h with h | h <;> cases h
        rfl
    · refine same (s1 := s) rfl rfl ?_
      simp only [Sys.act]
      split
      · next u id t rest h => exact absurd ⟨u, id, t, rest, h⟩ hp
      · rfl
  | enter =>
    by_cases hp : ∃ name gen i rest, s.stack = .looking name gen i :: rest
    · obtain ⟨name, gen, i, rest, hst⟩ := hp
      have hg := hc name gen i rest (.inl hst)
      have hrest : ∀ a ∈ rest, ∃ u id t, a = Act.parsing u id t := fun a ha => hn a (by rw [hst]; exact ha)
      by_cases hi : i < s.libs.length
      · refine new (top := .inFind name gen i) (rest := rest) ?_ hrest ?_
          (s1 := { s with stack := .inFind name gen i :: rest }) (by simp only [Sys.act, hst, hg]; simp [hi])
        · rfl
        · intro n g j h
          rcases h with h | h <;> cases h
          exact hg
      · left
        refine ⟨{ s with stack := rest, clock := s.clock + 1 }, by simp only [Sys.step, Sys.act, hst, hg]; simp [hi], ?_, ?_⟩
        · intro n g j r h
          rcases h with h | h <;> simp only [] at h
          · obtain ⟨_, _, _, e⟩ := hrest _ (h ▸ List.mem_cons_self); cases e
          · obtain ⟨_, _, _, e⟩ := hrest _ (h ▸ List.mem_cons_self); cases e
        · intro a ha; exact hrest a (List.mem_of_mem_tail ha)
    · refine same (s1 := s) rfl rfl ?_
      simp only [Sys.act]
      split
      · next u id t rest h => exact absurd ⟨u, id, t, rest, h⟩ hp
      · rfl
  | leave now =>
    by_cases hp : ∃ name gen i rest, s.stack = .inFind name gen i :: rest
    · obtain ⟨name, gen, i, rest, hst⟩ := hp
      have hg := hc name gen i rest (.inr hst)
      have hrest : ∀ a ∈ rest, ∃ u id t, a = Act.parsing u id t := fun a ha => hn a (by rw [hst]; exact ha)
      have hact : s.act (.leave now) = .ok (s.endFind name gen i rest now) := by simp only [Sys.act, hst]
      unfold Sys.endFind at hact
      cases hl : s.libs[i]? with
      | none => rw [hl] at hact; exact same rfl rfl hact
      | some l =>
        rw [hl] at hact
        simp only [] at hact
        cases hpth : (l.list now).path name with
        | none =>
          rw [hpth] at hact
          refine new (top := .looking name gen (i + 1)) rfl hrest ?_ hact
          intro n g j h
          rcases h with h | h <;> cases h
          exact hg
        | some u =>
          rw [hpth] at hact
          refine new (top := .found u _ _) rfl hrest ?_ hact
          intro n g j h
          rcases h with h | h <;> cases h
    · refine same (s1 := s) rfl rfl ?_
      simp only [Sys.act]
      split
      · next u id t rest h => exact absurd ⟨u, id, t, rest, h⟩ hp
      · rfl
  | read =>
    by_cases hp : ∃ u id t rest, s.stack = .found u id t :: rest
    · obtain ⟨u, id, t, rest, hst⟩ := hp
      refine new (top := .reading u id t) (rest := rest) rfl (fun a ha => hn a (by rw [hst]; exact ha)) ?_
        (s1 := { s with stack := .reading u id t :: rest }) (by simp only [Sys.act, hst])
      intro n g i h
      rcases h with h | h <;> cases h
    · refine same (s1 := s) rfl rfl ?_
      simp only [Sys.act]
      split
      · next u id t rest h => exact absurd ⟨u, id, t, rest, h⟩ hp
      · rfl
  | analyse disk =>
    by_cases hp : ∃ u id t rest, s.stack = .reading u id t :: rest
    · obtain ⟨u, id, t, rest, hst⟩ := hp
      have hact : s.act (.analyse disk) = .ok { s with mgr := s.mgr.getText id disk, stack := .parsing u id t :: rest
                                                       reads := s.reads ++ [⟨u, t, ((s.mgr.heap id).file.getText disk).2⟩] } := by
        simp only [Sys.act, hst]
      refine new rfl (fun a ha => hn a (by rw [hst]; exact ha)) ?_ hact
      intro n g i h
      rcases h with h | h <;> cases h
    · refine same (s1 := s) rfl rfl ?_
      simp only [Sys.act]
      split
      · next u id t rest h => exact absurd ⟨u, id, t, rest, h⟩ hp
      · rfl
  | finish =>
    by_cases hp : ∃ u id t rest, s.stack = .parsing u id t :: rest
    · obtain ⟨u, id, t, rest, hst⟩ := hp
      have hrest : ∀ a ∈ rest, ∃ u id t, a = Act.parsing u id t := fun a ha => hn a (by rw [hst]; exact ha)
      left
      refine ⟨{ s with mgr := s.mgr.release id, stack := rest, clock := s.clock + 1 }, by simp only [Sys.step, Sys.act, hst], ?_, ?_⟩
      · intro n g j r h
        rcases h with h | h <;> simp only [] at h
        · obtain ⟨_, _, _, e⟩ := hrest _ (h ▸ List.mem_cons_self); cases e
        · obtain ⟨_, _, _, e⟩ := hrest _ (h ▸ List.mem_cons_self); cases e
      · intro a ha; exact hrest a (List.mem_of_mem_tail ha)
    · refine same (s1 := s) rfl rfl ?_
      simp only [Sys.act]
      split
      · next u id t rest h => exact absurd ⟨u, id, t, rest, h⟩ hp
      · rfl
  | editor o =>
    have hm : s.meets o = false := by
      cases o with
      | getText id d =>
        simp only [Sys.meets]
        cases hb : s.inText id with
        | false => rfl
        | true =>
          obtain ⟨u, t, rest, hst⟩ := inText_iff.1 hb
          cases hu : (s.mgr.heap id).file.upToDate with
          | true => rfl
          | false => exact absurd (Disturbs.load d hst hu) hd
      | update id d =>
        simp only [Sys.meets]
        cases hb : s.inText id with
        | false => rfl
        | true =>
          obtain ⟨u, t, rest, hst⟩ := inText_iff.1 hb
          cases hu : (s.mgr.heap id).file.upToDate with
          | false => exact absurd (Disturbs.update d hst (.inr hu)) hd
          | true =>
            cases he : (s.mgr.heap id).file.editing with
            | true => rfl
            | false => exact absurd (Disturbs.update d hst (.inl he)) hd
      | _ => rfl
    by_cases hcan : s.can o = true
    · cases hstep : s.mgr.step o with
      | none => right; simp [Sys.step, Sys.act, Sys.operate, hm, hcan, hstep]
      | some m => exact same (s1 := { s with mgr := m }) rfl rfl (by simp [Sys.act, Sys.operate, hm, hcan, hstep])
    · exact same (s1 := s) rfl rfl (by simp [Sys.act, Sys.operate, hm, hcan])
  | editorAdd u => exact same (s1 := { s with mgr := (addProcessor s.mgr u).1 }) rfl rfl rfl
  | editorLook i now =>
    have hno : (s.inLib i && !s.listed i) = false := by
      cases hb : s.inLib i with
      | false => rfl
      | true =>
        obtain ⟨n, g, r, hst⟩ := inLib_iff.1 hb
        unfold Sys.listed
        cases hl : s.libs[i]? with
        | none => rfl
        | some l =>
          cases hu : l.listed with
          | true => simp [hu]
          | false => exact absurd (Disturbs.list now hst hl hu) hd
    cases hl : s.libs[i]? with
    | none => exact same (s1 := s) rfl rfl (by simp only [Sys.act, hno, hl]; simp)
    | some l => exact same (s1 := { s with libs := s.libs.set i (l.list now) }) rfl rfl (by simp only [Sys.act, hno, hl]; simp)
  | refresh i now =>
    have hno : s.inLib i = false := by
      cases hb : s.inLib i with
      | false => rfl
      | true =>
        obtain ⟨n, g, r, hst⟩ := inLib_iff.1 hb
        exact absurd (Disturbs.refresh now hst) hd
    exact same (s1 := { s with libs := s.libs.set i ⟨true, now⟩ }) rfl rfl (by simp [Sys.act, hno])
  | reload libs =>
    have hs : ¬ s.searching := fun h => hd (.reload libs h)
    have hno : s.inGroup = false := by
      cases hb : s.inGroup with
      | false => rfl
      | true => exact absurd (inGroup_searching hb) hs
    left
    refine ⟨{ s with libs := libs, gen := s.gen + 1, clock := s.clock + 1 }, by simp [Sys.step, Sys.act, hno], ?_, hn⟩
    intro n g i r h
    exact absurd ⟨n, g, i, r, h⟩ hs

theorem run_causes : ∀ (evs : List Ev) (s : Sys) (b : Bad), Current s → Nested s → s.run evs = .error b → b ≠ .thrown →
    ∃ pre e post s1, evs = pre ++ e :: post ∧ s.run pre = .ok s1 ∧ Disturbs s1 e
  | [], s, b, _, _, hr, _ => by cases hr
  | e :: es, s, b, hc, hn, hr, hb => by
    by_cases hd : Disturbs s e
    · exact ⟨[], e, es, s, rfl, rfl, hd⟩
    · rcases step_calm hc hn hd with ⟨s', h1, h2, h3⟩ | h1
      · simp only [Sys.run, h1] at hr
        obtain ⟨pre, e', post, s1, e1, e2, e3⟩ := run_causes es s' b h2 h3 hr hb
        exact ⟨e :: pre, e', post, s1, by rw [e1]; rfl, by simp only [Sys.run, h1]; exact e2, e3⟩
      · simp only [Sys.run, h1, Except.error.injEq] at hr
        exact absurd hr.symm hb

/-- For every interleaving: a session that fails was disturbed in one of the ways listed in `Disturbs`; opening, changing and closing
documents, and analyses that find everything listed and loaded, never disturb it. What is missing is that a session is not disturbed at
all. -/
theorem C138_undisturbed_partial (libs : List Lib) (evs : List Ev) (b : Bad) (hr : (start libs).run evs = .error b) (hb : b ≠ .thrown) :
    ∃ pre e post s1, evs = pre ++ e :: post ∧ (start libs).run pre = .ok s1 ∧ Disturbs s1 e :=
  run_causes evs _ b (by intro n g i r h; simp [start] at h) (by intro a h; simp [start] at h) hr hb

/-- The session looks into the libraries from one on. -/
def search (now : List (String × String)) : Nat → List Ev
  | 0 => [.enter, .leave now]
  | k + 1 => .enter :: .leave now :: search now k

theorem search_told (now : List (String × String)) (k : Nat) : told (search now k) = [] := by
  induction k with
  | zero => rfl
  | succ k ih => simpa [search, told] using ih

theorem told_append (a b : List Ev) : told (a ++ b) = told a ++ told b := by simp [told, List.filterMap_append]

theorem told_take {l : List Ev} (h : told l = []) (n : Nat) : told (l.take n) = [] := by
  unfold told at h ⊢
  rw [List.filterMap_eq_nil_iff] at h ⊢
  exact fun a ha => h a (List.mem_of_mem_take ha)

theorem run_append (s s' : Sys) (a b : List Ev) (h : s.run a = .ok s') : s.run (a ++ b) = s'.run b := by
  induction a generalizing s with
  | nil => cases h; rfl
  | cons e es ih =>
    simp only [List.cons_append, Sys.run] at h ⊢
    split at h
    · next s1 h1 => exact ih s1 h
    · cases h

theorem run_search (now : List (String × String)) (name u : String) (l : Lib) :
    ∀ (k j : Nat) (s : Sys) (rest : List Act), s.stack = .looking name s.gen j :: rest →
      (∀ i, j ≤ i → i < j + k → ∃ l', s.libs[i]? = some l' ∧ l'.listed = true ∧ l'.path name = none) →
      s.libs[j + k]? = some l → l.listed = true → l.path name = some u →
      ∃ s' id t, s.run (search now k) = .ok s' ∧ s'.stack = .found u id t :: rest ∧ s'.reads = s.reads ∧ s.clock ≤ t ∧ s'.libs = s.libs
  | 0, j, s, rest, hst, _, hl, hli, hp => by
    have hj : j < s.libs.length := by
      rw [List.getElem?_eq_some_iff] at hl; obtain ⟨h, _⟩ := hl; simpa using h
    have hl' : s.libs[j]? = some l := by simpa using hl
    have hset : s.libs.set j l = s.libs := by
      apply List.ext_getElem? ; intro i
      by_cases e : j = i
      · subst e; rw [List.getElem?_set_self (by simpa using hj)]; exact hl'.symm
      · rw [List.getElem?_set_ne e]
    refine ⟨{ s with mgr := (addProcessor s.mgr u).1, libs := s.libs.set j l,
                     stack := .found u (addProcessor s.mgr u).2 (s.clock + 1) :: rest, clock := s.clock + 1 + 1 }, _, _, by
      simp only [search, Sys.run, Sys.step, Sys.act, hst]
      simp only [ne_eq, not_true_eq_false, if_false, hj, if_true, Sys.endFind, hl', Lib.list, hli, hp], rfl, rfl, ?_, ?_⟩
    · simp
    · simp [hset]
  | k + 1, j, s, rest, hst, hb, hl, hli, hp => by
    obtain ⟨l', hl', hli', hp'⟩ := hb j (Nat.le_refl _) (by omega)
    have hj : j < s.libs.length := by
      rw [List.getElem?_eq_some_iff] at hl'; obtain ⟨h, _⟩ := hl'; exact h
    have hset : s.libs.set j l' = s.libs := by
      apply List.ext_getElem? ; intro i
      by_cases e : j = i
      · subst e; rw [List.getElem?_set_self hj]; exact hl'.symm
      · rw [List.getElem?_set_ne e]
    let s2 : Sys := { s with stack := .looking name s.gen (j + 1) :: rest, clock := s.clock + 2 }
    have h2 : s.run [.enter, .leave now] = .ok s2 := by
      simp only [Sys.run, Sys.step, Sys.act, hst]
      simp only [ne_eq, not_true_eq_false, if_false, hj, if_true, Sys.endFind, hl', Lib.list, hli', hp', hset]
      rfl
    obtain ⟨s', id, t, e1, e2, e3, e4, e5⟩ := run_search now name u l k (j + 1) s2 rest rfl
      (fun i h1 h2 => hb i (by omega) (by omega)) (by rw [show j + 1 + k = j + (k + 1) by omega]; exact hl) hli hp
    refine ⟨s', id, t, ?_, e2, e3, ?_, e5⟩
    · show s.run ([.enter, .leave now] ++ search now k) = _
      rw [run_append _ _ _ _ h2]; exact e1
    · have : s.clock + 2 ≤ t := e4
      omega

/-- A member the program needs is taken from the first library that has it, and if it is open in the editor the session analyses the text
in the editor. -/
theorem C138_member (libs : List Lib) (evs : List Ev) (s : Sys) (hr : (start libs).run evs = .ok s) {v : String} {id t : Nat}
    {rest : List Act} (hst : s.stack = .parsing v id t :: rest) (name u : String) (k : Nat) (l : Lib)
    (hb : ∀ i < k, ∃ l', s.libs[i]? = some l' ∧ l'.listed = true ∧ l'.path name = none) (hl : s.libs[k]? = some l)
    (hli : l.listed = true) (hp : l.path name = some u) (now : List (String × String)) (disk : Option Bytes) :
    ∃ s' r, s.run (.ask name :: search now k ++ [.read, .analyse disk]) = .ok s' ∧ s'.reads = s.reads ++ [r] ∧ r.uri = u ∧
      ∀ f, doc u (told evs) = some f → r.text = f.text := by
  let s1 : Sys := { s with stack := .looking name s.gen 0 :: s.stack, clock := s.clock + 1 }
  have h1 : s.run [.ask name] = .ok s1 := by
    simp only [Sys.run, Sys.step, Sys.act, hst]
    simp only [s1, hst]
  obtain ⟨s2, id2, t2, e1, e2, e3, e4, _⟩ := run_search now name u l k 0 s1 s.stack rfl
    (fun i _ h => hb i (by omega)) (by simpa [s1] using hl) hli hp
  have h3 : ∃ s3 x, s2.run [.read, .analyse disk] = .ok s3 ∧ s3.reads = s2.reads ++ [⟨u, t2, x⟩] :=
    ⟨_, _, by simp only [Sys.run, Sys.step, Sys.act, e2]; rfl, rfl⟩
  obtain ⟨s3, x, e5, e6⟩ := h3
  have hrun : s.run (.ask name :: search now k ++ [.read, .analyse disk]) = .ok s3 := by
    show s.run ([.ask name] ++ (search now k ++ [.read, .analyse disk])) = _
    rw [run_append _ _ _ _ h1, run_append _ _ _ _ e1]; exact e5
  refine ⟨s3, ⟨u, t2, x⟩, hrun, by rw [e6, e3], rfl, ?_⟩
  intro f hf
  have hall : (start libs).run (evs ++ (.ask name :: search now k ++ [.read, .analyse disk])) = .ok s3 := by
    rw [run_append _ _ _ _ hr]; exact hrun
  refine C138_texts libs _ s3 hall ⟨u, t2, x⟩ (by rw [e6]; simp) f ?_
  have hc : s.clock = evs.length := by simpa using (run_good (start_ok libs) hr).clock
  have ht : evs.length ≤ t2 := by
    have : s.clock + 1 ≤ t2 := e4
    omega
  have : told ((evs ++ (Ev.ask name :: search now k ++ [Ev.read, Ev.analyse disk])).take t2) = told evs := by
    rw [List.take_append, List.take_of_length_le ht]
    have hq : told (Ev.ask name :: search now k ++ [Ev.read, Ev.analyse disk]) = [] := by
      rw [told_append]
      show told (search now k) ++ [] = []
      rw [search_told]; rfl
    rw [told_append, told_take hq, List.append_nil]
  simp only []
  rw [this]; exact hf

/-! ### what disturbs it -/

/-- Whenever the configuration is read again while a session is about to look into the next library, the session follows a reference to a
processor group that is no more. -/
theorem C138_reload_negation (s : Sys) (hc : Current s) {name : String} {gen i : Nat} {rest : List Act}
    (hst : s.stack = .looking name gen i :: rest) (libs : List Lib) : s.run [.reload libs, .enter] = .error .dangling := by
  have hg := hc name gen i rest (.inl hst)
  have : s.inGroup = false := by simp [Sys.inGroup, hst]
  simp only [Sys.run, Sys.step, Sys.act, this]
  simp [hst, hg]

/-- Whenever files are reported as changed while a session is in a library, both use the list of its members. -/
theorem C138_refresh_negation (s : Sys) {name : String} {gen i : Nat} {rest : List Act} (hst : s.stack = .inFind name gen i :: rest)
    (now : List (String × String)) : s.run [.refresh i now] = .error .raced := by
  have : s.inLib i = true := inLib_iff.2 ⟨name, gen, rest, hst⟩
  simp [Sys.run, Sys.step, Sys.act, this]

/-- Whenever the editor reads a file for the first time while the session does, both change its text. -/
theorem C138_load_negation (s : Sys) {u : String} {id t : Nat} {rest : List Act} (hst : s.stack = .reading u id t :: rest)
    (hn : (s.mgr.heap id).file.upToDate = false) (disk : Option Bytes) : s.run [.editor (.getText id disk)] = .error .raced := by
  have : s.inText id = true := inText_iff.2 ⟨u, t, rest, hst⟩
  simp [Sys.run, Sys.step, Sys.act, Sys.operate, Sys.meets, this, hn]

/-- A program is open and debugged; its macro is found in the second library. -/
def story : List Ev :=
  [.editor (.didOpen "p" 1 [97]), .editor (.didOpen "l/m" 1 [98]), .launch "p", .editor (.didChange "p" [.whole [99]]), .read, .analyse none,
    .ask "M"]

/-- The libraries of the story. -/
def shelves : List Lib := [⟨true, []⟩, ⟨true, [("M", "l/m"), ("N", "l/n")]⟩]

/-- Reading the configuration again ends the story of every session that is looking for a macro at that time. -/
theorem C138_reload_witness : (match (start shelves).run (story ++ [.enter, .leave [], .reload shelves, .enter]) with
    | .error b => some b
    | .ok _ => none) = some .dangling := by decide +kernel

/-- So do changed files and first readings. -/
theorem C138_race_witness : (match (start shelves).run (story ++ [.enter, .refresh 0 []]) with
    | .error b => some b
    | .ok _ => none) = some .raced ∧ (match (start shelves).run (story ++ [.enter, .reload shelves]) with
    | .error b => some b
    | .ok _ => none) = some .raced ∧ (match (start shelves).run (story ++ [.enter, .leave [], .enter, .leave [], .read, .analyse none,
      .ask "N", .enter, .leave [], .enter, .leave [], .editorAdd "l/n", .read, .editor (.getText 5 (some [100]))]) with
    | .error b => some b
    | .ok _ => none) = some .raced := by decide +kernel

/-- The session analyses the program as it was when debugging began, and the macro as it was when it was found. -/
example : (match (start shelves).run (story ++ [.editor (.didChange "l/m" [.whole [100]]), .enter, .leave [], .enter, .leave [],
      .editor (.didChange "l/m" [.whole [101]]), .read, .editor (.didClose "l/m"), .analyse none]) with
    | .error _ => []
    | .ok s => s.reads) = [⟨"p", 2, [97]⟩, ⟨"l/m", 11, [100]⟩] ∧
    doc "l/m" (told ((story ++ [Ev.editor (.didChange "l/m" [.whole [100]]), Ev.enter, Ev.leave [], Ev.enter, Ev.leave []]).take 11)) =
      some { text := [100], lines := [0], upToDate := true, editing := true, version := 2 } := by decide +kernel

/-- The hypotheses of `C138_member` and `C138_reload_negation` are met. -/
example : (match (start shelves).run (story.take 6) with
    | .error _ => none
    | .ok s => some (s.stack, s.libs)) = some ([.parsing "p" 2 2], shelves) ∧ (⟨true, []⟩ : Lib).path "M" = none ∧
    (⟨true, [("M", "l/m"), ("N", "l/n")]⟩ : Lib).path "M" = some "l/m" ∧ (match (start shelves).run story with
    | .error _ => none
    | .ok s => some (s.stack, s.gen)) = some ([.looking "M" 0 0, .parsing "p" 2 2], 0) := by decide +kernel

end Verif.Session
