import Verif.FileManager.Model
/-!
C05: open documents are authoritative and versioned.

Specification (`docStep`): what the editor's notifications about one document say, ignoring everything else: the disk, other
documents, and who holds pointers to the file.
-/
namespace Verif.FileManager
open Verif.TextSync

/-- The document `u` as its own notifications describe it; `none` when it is not open. -/
def docStep (u : String) (s : Option File) : Op → Option File
  | .didOpen u' v t => if u' = u then some (File.didOpen {} t v) else s
  | .didChange u' cs => if u' = u then s.bind (·.changes cs) else s
  | .didClose u' => if u' = u then none else s
  | .remove u' => if u' = u then none else s
  | _ => s

def doc (u : String) (ops : List Op) : Option File := ops.foldl (docStep u) none

/-! ### Helper lemmas -/

structure Inv (m : Mgr) : Prop where
  bound : ∀ u id, m.files u = some id → id < m.next
  inj : ∀ u u' id, m.files u = some id → m.files u' = some id → u = u'
  held : ∀ id, 0 < m.held id → id < m.next

def Agree (m : Mgr) (s : String → Option File) : Prop :=
  ∀ u f, s u = some f → (∃ id, m.files u = some id ∧ (m.heap id).file = f) ∧ f.editing = true ∧ f.upToDate = true

theorem change_flags {f f' : File} {c : Change} (h : f.change c = some f') :
    f'.editing = f.editing ∧ f'.upToDate = f.upToDate := by
  cases c with
  | whole t => simp [File.change, File.didChangeWhole] at h; subst h; simp
  | range r t =>
    simp only [File.change, File.didChangeRange, Option.bind_eq_bind] at h
    cases hb : indexFromPosition f.text f.lines r.start with
    | none => simp [hb] at h
    | some b =>
      cases he : indexFromPosition f.text f.lines r.fin with
      | none => simp [hb, he] at h
      | some e =>
        simp only [hb, he, Option.bind_some] at h
        split at h
        · simp at h
        · cases hu : updateLines f.lines r.start.line r.fin.line b e t with
          | none => simp [hu] at h
          | some l => simp [hu] at h; subst h; simp

theorem changes_flags {cs : List Change} : ∀ {f f' : File}, f.changes cs = some f' →
    f'.editing = f.editing ∧ f'.upToDate = f.upToDate := by
  induction cs with
  | nil => intro f f' h; simp [File.changes] at h; subst h; simp
  | cons c cs ih =>
    intro f f' h
    simp only [File.changes] at h
    cases hc : f.change c with
    | none => simp [hc] at h
    | some f1 =>
      simp [hc] at h
      have h1 := change_flags hc
      have h2 := ih h
      exact ⟨h2.1.trans h1.1, h2.2.trans h1.2⟩

theorem changes_version {cs : List Change} : ∀ {f f' : File}, f.changes cs = some f' →
    f'.version = f.version + cs.length := by
  induction cs with
  | nil => intro f f' h; simp [File.changes] at h; subst h; simp
  | cons c cs ih =>
    intro f f' h
    simp only [File.changes] at h
    cases hc : f.change c with
    | none => simp [hc] at h
    | some f1 =>
      simp [hc] at h
      have h2 := ih h
      have h1 : f1.version = f.version + 1 := by
        cases c with
        | whole t => simp [File.change, File.didChangeWhole] at hc; subst hc; simp
        | range r t =>
          simp only [File.change, File.didChangeRange, Option.bind_eq_bind] at hc
          cases hb : indexFromPosition f.text f.lines r.start with
          | none => simp [hb] at hc
          | some b =>
            cases he : indexFromPosition f.text f.lines r.fin with
            | none => simp [hb, he] at hc
            | some e =>
              simp only [hb, he, Option.bind_some] at hc
              split at hc
              · simp at hc
              · cases hu : updateLines f.lines r.start.line r.fin.line b e t with
                | none => simp [hu] at hc
                | some l => simp [hu] at hc; subst hc; simp
      simp; omega

theorem upd_same {α β} [DecidableEq α] (f : α → β) (a : α) (b : β) : upd f a b a = b := by simp [upd]
theorem upd_ne {α β} [DecidableEq α] (f : α → β) {a x : α} (b : β) (h : x ≠ a) : upd f a b x = f x := by simp [upd, h]

/-- What `emplace` then `prepare` (or `prepare` alone) guarantee: a private object for `u` with the old content. -/
structure Fresh (m m2 : Mgr) (u : String) (id : Nat) : Prop where
  inv : Inv m2
  points : m2.files u = some id
  unheld : m2.held id = 0
  others : ∀ v, v ≠ u → m2.files v = m.files v
  heapOld : ∀ i, i < m.next → m2.heap i = m.heap i
  heldEq : m2.held = m.held
  nextLe : m.next ≤ m2.next

theorem alloc_inv {m : Mgr} (h : Inv m) (u : String) (o : Obj) : Inv (m.alloc u o).1 := by
  refine ⟨?_, ?_, ?_⟩
  · intro v id hv
    simp only [Mgr.alloc, upd] at hv ⊢
    split at hv
    · simp at hv; omega
    · have := h.bound v id hv; omega
  · intro v v' id hv hv'
    simp only [Mgr.alloc, upd] at hv hv'
    split at hv <;> split at hv'
    · next a b => exact a.trans b.symm
    · simp at hv; have := h.bound v' id hv'; omega
    · simp at hv'; have := h.bound v id hv; omega
    · exact h.inj v v' id hv hv'
  · intro id hid
    have := h.held id hid
    simp only [Mgr.alloc]; omega

theorem alloc_fresh {m : Mgr} (h : Inv m) (u : String) (o : Obj) : Fresh m (m.alloc u o).1 u m.next := by
  refine ⟨alloc_inv h u o, by simp [Mgr.alloc, upd], ?_, ?_, ?_, rfl, by simp [Mgr.alloc]⟩
  · have := h.held m.next
    simp only [Mgr.alloc]
    rcases Nat.eq_zero_or_pos (m.held m.next) with h0 | h0
    · exact h0
    · have := this h0; omega
  · intro v hv; simp [Mgr.alloc, upd, hv]
  · intro i hi; simp only [Mgr.alloc, upd]; rw [if_neg (by omega)]

theorem prepare_fresh {m : Mgr} (h : Inv m) {u : String} {id : Nat} (hu : m.files u = some id) :
    Fresh m (m.prepare u id).1 u (m.prepare u id).2 ∧ (m.prepare u id).1.heap (m.prepare u id).2 = m.heap id := by
  unfold Mgr.prepare
  split
  · next h0 => exact ⟨⟨h, hu, h0, fun _ _ => rfl, fun _ _ => rfl, rfl, Nat.le_refl _⟩, rfl⟩
  · exact ⟨alloc_fresh h u _, by simp [Mgr.alloc, upd]⟩

theorem setFile_inv {m : Mgr} (h : Inv m) (id : Nat) (f : File) : Inv (m.setFile id f) :=
  ⟨h.bound, h.inj, h.held⟩

/-- Writing a private object changes nothing for the other documents. -/
theorem agree_write {m m2 : Mgr} {u : String} {id : Nat} (hm : Inv m) (hf : Fresh m m2 u id) {s : String → Option File}
    (ha : Agree m s) (f : File) (s' : String → Option File) (hs' : ∀ v, v ≠ u → s' v = s v)
    (hu : ∀ g, s' u = some g → g = f ∧ f.editing = true ∧ f.upToDate = true) :
    Agree (m2.setFile id f) s' := by
  intro v g hg
  by_cases hv : v = u
  · subst hv
    obtain ⟨rfl, h2, h3⟩ := hu g hg
    exact ⟨⟨id, hf.points, by simp [Mgr.setFile, upd]⟩, h2, h3⟩
  · rw [hs' v hv] at hg
    obtain ⟨⟨i, hi, hfile⟩, h2, h3⟩ := ha v g hg
    refine ⟨⟨i, ?_, ?_⟩, h2, h3⟩
    · show m2.files v = some i
      rw [hf.others v hv]; exact hi
    · have hne : i ≠ id := by
        rintro rfl
        exact hv (hf.inv.inj v u i (by rw [hf.others v hv]; exact hi) hf.points)
      simp only [Mgr.setFile, upd_ne _ _ hne]
      rw [hf.heapOld i (hm.bound v i hi)]; exact hfile

theorem emplace_prepare_fresh {m : Mgr} (h : Inv m) (u : String) :
    ∃ m2 id2, (let (m1, id1) := m.emplace u; m1.prepare u id1) = (m2, id2) ∧ Fresh m m2 u id2 := by
  unfold Mgr.emplace
  cases hu : m.files u with
  | some id =>
    obtain ⟨h1, _⟩ := prepare_fresh h hu
    exact ⟨_, _, rfl, h1⟩
  | none =>
    have hf := alloc_fresh h u {}
    refine ⟨(m.alloc u {}).1, m.next, ?_, hf⟩
    show (m.alloc u {}).1.prepare u (m.alloc u {}).2 = _
    unfold Mgr.prepare
    have : (m.alloc u {}).2 = m.next := rfl
    rw [this, if_pos hf.unheld]

/-- Touching an object without changing the files of open documents. -/
theorem agree_disk {m : Mgr} {s : String → Option File} (ha : Agree m s) (id : Nat) (g : File → File)
    (hg : ∀ f : File, f.editing = true → f.upToDate = true → g f = f) : Agree (m.setFile id (g (m.heap id).file)) s := by
  intro v f hf
  obtain ⟨⟨i, hi, hfile⟩, h2, h3⟩ := ha v f hf
  refine ⟨⟨i, hi, ?_⟩, h2, h3⟩
  by_cases hne : i = id
  · subst hne
    simp [Mgr.setFile, upd, hfile, hg f h2 h3]
  · simp only [Mgr.setFile, upd_ne _ _ hne]; exact hfile

theorem held_inv {m : Mgr} (h : Inv m) {id : Nat} (hid : id < m.next) (n : Nat) :
    Inv { m with held := upd m.held id n } := by
  refine ⟨h.bound, h.inj, ?_⟩
  intro i hi
  by_cases hne : i = id
  · subst hne; exact hid
  · simp only [upd_ne _ _ hne] at hi; exact h.held i hi

theorem step_ok {m m' : Mgr} {o : Op} (h : Inv m) {s : String → Option File} (ha : Agree m s) (hs : m.step o = some m') :
    Inv m' ∧ Agree m' (fun u => docStep u (s u) o) := by
  cases o with
  | didOpen u v t =>
    simp only [Mgr.step, Option.some.injEq] at hs
    obtain ⟨m2, id2, he, hf⟩ := emplace_prepare_fresh h u
    have : m' = m2.setFile id2 ((m2.heap id2).file.didOpen t v) := by
      rw [← hs, Mgr.didOpen]; simp only at he ⊢; rw [he]
    subst this
    refine ⟨setFile_inv hf.inv _ _, ?_⟩
    refine agree_write h hf ha _ _ ?_ ?_
    · intro v hv; simp [docStep, Ne.symm hv]
    · intro g hg; simp [docStep] at hg; subst hg; simp [File.didOpen]
  | didChange u cs =>
    simp only [Mgr.step, Mgr.didChange] at hs
    cases hu : m.files u with
    | none =>
      simp only [hu, Option.some.injEq] at hs; subst hs
      refine ⟨h, ?_⟩
      intro v g hg
      simp only [docStep] at hg
      split at hg
      · next huv =>
        subst huv
        cases hsu : s u with
        | none => simp [hsu] at hg
        | some f => obtain ⟨⟨i, hi, _⟩, _⟩ := ha u f hsu; rw [hu] at hi; simp at hi
      · exact ha v g hg
    | some id =>
      simp only [hu] at hs
      obtain ⟨hf, hheap⟩ := prepare_fresh h hu
      rw [hheap] at hs
      cases hc : (m.heap id).file.changes cs with
      | none => simp [hc] at hs
      | some f =>
        simp [hc] at hs; subst hs
        refine ⟨setFile_inv hf.inv _ _, ?_⟩
        refine agree_write h hf ha _ _ ?_ ?_
        · intro v hv; simp [docStep, Ne.symm hv]
        · intro g hg
          simp only [docStep, if_true] at hg
          cases hsu : s u with
          | none => simp [hsu] at hg
          | some f0 =>
            obtain ⟨⟨i, hi, hfile⟩, h2, h3⟩ := ha u f0 hsu
            rw [hu] at hi; simp at hi; subst hi
            simp only [hsu, Option.bind_some] at hg
            rw [← hfile, hc] at hg
            simp at hg; subst hg
            have := changes_flags hc
            rw [hfile] at this
            exact ⟨rfl, by rw [this.1, h2], by rw [this.2, h3]⟩
  | didClose u =>
    simp only [Mgr.step, Mgr.didClose, Option.some.injEq] at hs
    cases hu : m.files u with
    | none =>
      simp only [hu] at hs; subst hs
      refine ⟨h, ?_⟩
      intro v g hg
      simp only [docStep] at hg
      split at hg
      · simp at hg
      · exact ha v g hg
    | some id =>
      simp only [hu] at hs; subst hs
      obtain ⟨hf, hheap⟩ := prepare_fresh h hu
      refine ⟨setFile_inv hf.inv _ _, agree_write h hf ha _ _ ?_ ?_⟩
      · intro v hv; simp [docStep, Ne.symm hv]
      · intro g hg; simp [docStep] at hg
  | remove u =>
    simp only [Mgr.step, Mgr.remove, Option.some.injEq] at hs; subst hs
    refine ⟨⟨?_, ?_, h.held⟩, ?_⟩
    · intro v id hv; simp only [upd] at hv; split at hv
      · simp at hv
      · exact h.bound v id hv
    · intro v v' id hv hv'
      simp only [upd] at hv hv'
      split at hv <;> split at hv'
      · simp at hv
      · simp at hv
      · simp at hv'
      · exact h.inj v v' id hv hv'
    · intro v g hg
      simp only [docStep] at hg
      split at hg
      · simp at hg
      · next hne =>
        obtain ⟨⟨i, hi, hfile⟩, h2⟩ := ha v g hg
        exact ⟨⟨i, by simp only [upd_ne _ _ (Ne.symm hne)]; exact hi, hfile⟩, h2⟩
  | addFile u =>
    simp only [Mgr.step, Mgr.addFile, Option.some.injEq] at hs; subst hs
    unfold Mgr.emplace
    cases hu : m.files u with
    | some id => exact ⟨held_inv h (h.bound u id hu) _, ha⟩
    | none =>
      refine ⟨held_inv (alloc_inv h u {}) (by simp [Mgr.alloc]) _, ?_⟩
      intro v g hg
      obtain ⟨⟨i, hi, hfile⟩, h2⟩ := ha v g hg
      have hb := h.bound v i hi
      refine ⟨⟨i, ?_, ?_⟩, h2⟩
      · simp only [Mgr.alloc, upd]; split
        · next e => subst e; rw [hu] at hi; simp at hi
        · exact hi
      · simp only [Mgr.alloc, upd]; rw [if_neg (by omega)]; exact hfile
  | find u =>
    simp only [Mgr.step, Mgr.find, Option.some.injEq] at hs; subst hs
    cases hu : m.files u with
    | none => exact ⟨h, ha⟩
    | some id => exact ⟨held_inv h (h.bound u id hu) _, ha⟩
  | findProcessor u =>
    simp only [Mgr.step, Mgr.findProcessor, Option.some.injEq] at hs; subst hs
    cases hu : m.files u with
    | none => exact ⟨h, ha⟩
    | some id =>
      simp only
      unfold Mgr.intoProcessor
      split
      · exact ⟨held_inv h (h.bound u id hu) _, ha⟩
      · refine ⟨held_inv (alloc_inv (setFile_inv h _ _) u _) (by simp [Mgr.alloc]) _, ?_⟩
        intro v g hg
        obtain ⟨⟨i, hi, hfile⟩, h2⟩ := ha v g hg
        have hb := h.bound v i hi
        refine ⟨?_, h2⟩
        by_cases hv : v = u
        · subst hv
          rw [hu] at hi; simp at hi; subst hi
          exact ⟨m.next, by simp [Mgr.alloc, Mgr.setFile, upd], by simp [Mgr.alloc, Mgr.setFile, upd, hfile]⟩
        · refine ⟨i, by simp [Mgr.alloc, Mgr.setFile, upd, hv, hi], ?_⟩
          have hne : i ≠ id := by rintro rfl; exact hv (h.inj v u i hi hu)
          have hne2 : i ≠ m.next := by omega
          simp [Mgr.alloc, Mgr.setFile, upd, hne, hne2, hfile]
  | release id =>
    simp only [Mgr.step, Mgr.release, Option.some.injEq] at hs; subst hs
    refine ⟨⟨h.bound, h.inj, ?_⟩, ha⟩
    intro i hi
    by_cases hne : i = id
    · subst hne; simp [upd] at hi; exact h.held i (by omega)
    · simp only [upd_ne _ _ hne] at hi; exact h.held i hi
  | update id d =>
    simp only [Mgr.step, Mgr.update, Option.some.injEq] at hs; subst hs
    split
    · exact ⟨setFile_inv h _ _, agree_disk ha id (fun f => (f.updateAndGetBad d).1) (by
        intro f h1 h2; simp [File.updateAndGetBad, h1])⟩
    · exact ⟨h, ha⟩
  | getText id d =>
    simp only [Mgr.step, Mgr.getText, Option.some.injEq] at hs; subst hs
    split
    · exact ⟨setFile_inv h _ _, agree_disk ha id (fun f => (f.getText d).1) (by
        intro f h1 h2; simp [File.getText, h2])⟩
    · exact ⟨h, ha⟩

theorem run_ok {ops : List Op} : ∀ {m m' : Mgr} (_ : Inv m) {s : String → Option File} (_ : Agree m s)
    (_ : m.run ops = some m'), Inv m' ∧ Agree m' (fun u => ops.foldl (docStep u) (s u)) := by
  induction ops with
  | nil => intro m m' h s ha hr; simp [Mgr.run] at hr; subst hr; exact ⟨h, ha⟩
  | cons o os ih =>
    intro m m' h s ha hr
    simp only [Mgr.run] at hr
    cases hs : m.step o with
    | none => simp [hs] at hr
    | some m1 =>
      simp [hs] at hr
      obtain ⟨h1, h2⟩ := step_ok h ha hs
      exact ih h1 h2 hr

theorem init_inv : Inv Mgr.init := ⟨by simp [Mgr.init], by simp [Mgr.init], by simp [Mgr.init]⟩

/-! ### C05 -/

/-- For every history of notifications, look-ups, releases and disk accesses: the content the server uses for an open
document is exactly what that document's own notifications say, independent of the disk and of all other documents. -/
theorem C05_open_document_authoritative (ops : List Op) (m : Mgr) (hr : Mgr.init.run ops = some m) (u : String) (f : File)
    (hd : doc u ops = some f) :
    ∃ id, m.files u = some id ∧ (m.heap id).file = f := by
  have := (run_ok init_inv (s := fun _ => none) (by intro u f h; simp at h) hr).2 u f hd
  exact this.1

/-- Reading an open document (`get_text`, `update_and_get_bad`) returns the editor's text for any disk content. -/
theorem C05_read_ignores_disk (ops : List Op) (m : Mgr) (hr : Mgr.init.run ops = some m) (u : String) (f : File)
    (hd : doc u ops = some f) (disk : Option Bytes) :
    ∃ id, m.files u = some id ∧ ((m.heap id).file.getText disk) = (f, f.text) ∧
      ((m.heap id).file.updateAndGetBad disk) = (f, false) := by
  obtain ⟨⟨id, h1, h2⟩, h3, h4⟩ := (run_ok init_inv (s := fun _ => none) (by intro u f h; simp at h) hr).2 u f hd
  exact ⟨id, h1, by simp [h2, File.getText, h4], by simp [h2, File.updateAndGetBad, h3]⟩

/-- The version is the one of the last `didOpen` plus the number of changes since: `changes` adds one per change. -/
theorem C05_version_counts (t : Bytes) (v : Nat) (cs : List Change) (f' : File)
    (h : (File.didOpen {} t v).changes cs = some f') : f'.version = v + cs.length := by
  have := changes_version h
  simpa [File.didOpen] using this

/-- Changes for a URI the server does not know have no effect at all. -/
theorem C05_unknown_change_ignored (m : Mgr) (u : String) (cs : List Change) (h : m.files u = none) :
    m.didChange u cs = some m := by
  simp [Mgr.didChange, h]

/-- Snapshot isolation: a component that holds a pointer to a file keeps seeing the same content while the editor opens,
changes or closes that or any other document. -/
theorem C05_snapshot_isolated (m m' : Mgr) (hi : Inv m) (id : Nat) (hh : 0 < m.held id) (o : Op)
    (ho : (∃ u v t, o = .didOpen u v t) ∨ (∃ u cs, o = .didChange u cs) ∨ (∃ u, o = .didClose u))
    (hs : m.step o = some m') : m'.heap id = m.heap id := by
  have key : ∀ {m2 : Mgr} {u : String} {id2 : Nat} (f : File), Fresh m m2 u id2 → (m2.setFile id2 f).heap id = m.heap id := by
    intro m2 u id2 f hf
    have hne : id ≠ id2 := by
      rintro rfl
      have := hf.unheld; rw [hf.heldEq] at this; omega
    simp only [Mgr.setFile, upd_ne _ _ hne]
    exact hf.heapOld id (hi.held id hh)
  rcases ho with ⟨u, v, t, rfl⟩ | ⟨u, cs, rfl⟩ | ⟨u, rfl⟩
  · simp only [Mgr.step, Option.some.injEq] at hs
    obtain ⟨m2, id2, he, hf⟩ := emplace_prepare_fresh hi u
    have : m' = m2.setFile id2 ((m2.heap id2).file.didOpen t v) := by
      rw [← hs, Mgr.didOpen]; simp only at he ⊢; rw [he]
    subst this; exact key _ hf
  · simp only [Mgr.step, Mgr.didChange] at hs
    cases hu : m.files u with
    | none => simp [hu] at hs; subst hs; rfl
    | some id1 =>
      simp only [hu] at hs
      obtain ⟨hf, hheap⟩ := prepare_fresh hi hu
      cases hc : ((m.prepare u id1).1.heap (m.prepare u id1).2).file.changes cs with
      | none => simp [hc] at hs
      | some f => simp [hc] at hs; subst hs; exact key _ hf
  · simp only [Mgr.step, Mgr.didClose, Option.some.injEq] at hs
    cases hu : m.files u with
    | none => simp [hu] at hs; subst hs; rfl
    | some id1 =>
      simp only [hu] at hs; subst hs
      obtain ⟨hf, hheap⟩ := prepare_fresh hi hu
      exact key _ hf

/-- Isolation does not extend to the conversion into a processor file, which moves the content out of an object that may be
held: a component that looked the file up before sees it become empty. -/
theorem C05_snapshot_witness :
    ∃ m m' : Mgr, Mgr.init.run [.didOpen "u" 1 [97], .find "u"] = some m ∧ 0 < m.held 0 ∧ (m.heap 0).file.text = [97] ∧
      m.step (.findProcessor "u") = some m' ∧ (m'.heap 0).file.text = [] := by
  refine ⟨_, _, rfl, by decide, by decide, rfl, by decide⟩

/-- Every state reached from the start satisfies the hypothesis of `C05_snapshot_isolated`. -/
theorem C05_reachable_inv (ops : List Op) (m : Mgr) (hr : Mgr.init.run ops = some m) : Inv m :=
  (run_ok init_inv (s := fun _ => none) (by intro u f h; simp at h) hr).1

/-- Non-vacuity: open, hold, change, read with a different disk content; the document is as the editor said. -/
example : doc "u" [.didOpen "u" 7 [97], .find "u", .didOpen "w" 1 [120], .didChange "u" [.whole [98], .whole [99]],
    .update 0 (some [100]), .getText 1 none] = some { text := [99], lines := [0], upToDate := true, editing := true, version := 9 }
    ∧ (Mgr.init.run [.didOpen "u" 7 [97], .find "u", .didOpen "w" 1 [120], .didChange "u" [.whole [98], .whole [99]],
    .update 0 (some [100]), .getText 1 none]).isSome := by
  exact ⟨by decide, by decide⟩

end Verif.FileManager
