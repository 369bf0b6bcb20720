import Verif.Broken.Props
/-!
C139 for any number of documents: what makes the server fail.
-/
namespace Verif.Broken

/-- The first request about the document that is not marked brings a text. -/
def promised (u : Uri) : List (Req × Bool) → Prop
  | [] => False
  | (r, v) :: q => if r.doc = u ∧ v = true then r.parses = true else promised u q

/-- Marked requests are followed by one for the same document that brings a text. -/
def okqs : List (Req × Bool) → Prop
  | [] => True
  | (r, v) :: q => (v = false → promised r.doc q) ∧ okqs q

theorem promised_append {u : Uri} {q : List (Req × Bool)} (x) (h : promised u q) : promised u (q ++ x) := by
  induction q with
  | nil => exact h.elim
  | cons a q ih =>
    obtain ⟨r, v⟩ := a
    simp only [promised, List.cons_append] at h ⊢
    split at h
    · rename_i hc
      rw [if_pos hc]
      exact h
    · rename_i hc
      rw [if_neg hc]
      exact ih h

theorem okqs_snoc {q : List (Req × Bool)} (r : Req) (h : okqs q) : okqs (q ++ [(r, true)]) := by
  induction q with
  | nil => exact ⟨by simp, trivial⟩
  | cons a q ih => exact ⟨fun hv => promised_append _ (h.1 hv), ih h.2⟩

/-- What the arrival of a new text does to the queue. -/
def mark (d : Uri) (q : List (Req × Bool)) : List (Req × Bool) := q.map (fun q => if q.1.doc = d then (q.1, false) else q)

theorem mark_fst (d : Uri) (q : List (Req × Bool)) : (mark d q).map (·.1) = q.map (·.1) := by
  unfold mark
  rw [List.map_map]
  apply List.map_congr_left
  intro a _
  simp only [Function.comp]
  split <;> rfl

theorem mark_promised (r : Req) (hr : r.parses = true) (q : List (Req × Bool)) : promised r.doc (mark r.doc q ++ [(r, true)]) := by
  induction q with
  | nil => simpa [mark, promised] using hr
  | cons a q ih =>
    obtain ⟨x, v⟩ := a
    simp only [mark, List.map_cons, List.cons_append]
    split
    · simp only [promised, Bool.false_eq_true, and_false, if_false]
      exact ih
    · rename_i hx
      simp only [promised, hx, false_and, if_false]
      exact ih

theorem mark_other (d u : Uri) (hu : u ≠ d) (q : List (Req × Bool)) (h : promised u q) : promised u (mark d q) := by
  induction q with
  | nil => exact h
  | cons a q ih =>
    obtain ⟨x, v⟩ := a
    simp only [mark, List.map_cons]
    simp only [promised] at h
    split
    · rename_i hx
      have hne : x.doc ≠ u := fun e => hu (e ▸ hx)
      simp only [promised, hne, false_and, if_false] at h ⊢
      exact ih h
    · simp only [promised]
      split at h
      · rename_i hc
        rw [if_pos hc]
        exact h
      · rename_i hc
        rw [if_neg hc]
        exact ih h

theorem mark_okqs (r : Req) (hr : r.parses = true) (q : List (Req × Bool)) (h : okqs q) : okqs (mark r.doc q ++ [(r, true)]) := by
  induction q with
  | nil => exact ⟨by simp, trivial⟩
  | cons a q ih =>
    obtain ⟨x, v⟩ := a
    simp only [mark, List.map_cons, List.cons_append]
    split
    · rename_i hx
      refine ⟨fun _ => ?_, ih h.2⟩
      rw [hx]
      exact mark_promised r hr q
    · rename_i hx
      refine ⟨fun hv => ?_, ih h.2⟩
      exact promised_append _ (mark_other _ _ hx q (h.1 hv))

/-- A file that is there has an analysis. -/
def Has (u : Uri) (s : St) : Prop := ∀ o, s.files u = some o → o.ctx ≠ none

/-- The document is about to be analysed. -/
def Pending (u : Uri) (s : St) : Prop :=
  (∃ r, s.phase = .begun r ∧ r.doc = u ∧ r.parses = true ∧ s.cancel = false) ∨ (∃ f, s.phase = .updated u f ∧ s.cancel = false)

/-- The document of what is being carried out. -/
def Phase.doc : Phase → Option Uri
  | .idle => none
  | .begun r => some r.doc
  | .updated d _ => some d
  | .parsing d .. => some d
  | .parsed d .. => some d
  | .reported d _ => some d

/-- Nothing that a program still needs is on its list of files to be closed. -/
def ClosingOk (fs : Uri → Option File) (closing : List (Uri × List Uri)) : Prop :=
  ∀ p ∈ closing, ∀ o, fs p.1 = some o → ∀ x ∈ p.2, x ∉ o.deps

/-- A file with an analysis. -/
def Kept (fs : Uri → Option File) (m : Uri) : Prop := ∃ o, fs m = some o ∧ o.ctx ≠ none

def ManyOk (w : World) (s : St) : Prop :=
  match s.phase with
  | .idle => True
  | .begun r => (s.cancel = true → promised r.doc s.queue) ∧ w.conf r.doc = false ∧ (s.cancel = false → r.parses = false → Has r.doc s)
  | .updated d _ => (s.cancel = true → promised d s.queue) ∧ w.conf d = false
  | .parsing d _ t i left busy asked rest closing => Has d s ∧ Kept s.files t ∧ (∀ m ∈ asked, Kept s.files m) ∧ i < s.ctxs.length ∧
      Calm t busy left ∧ ClosingOk s.files closing ∧ (closing.map (·.1) ++ t :: rest).Nodup
  | .parsed d _ t asked rest closing => Has d s ∧ Kept s.files t ∧ (∀ m ∈ asked, Kept s.files m) ∧
      ClosingOk s.files closing ∧ (closing.map (·.1) ++ t :: rest).Nodup
  | .reported d _ => Has d s

structure Files (s : St) : Prop where
  ctxv : ∀ u o i, s.files u = some o → o.ctx = some i → i < s.ctxs.length
  mem : ∀ u o m, s.files u = some o → m ∈ o.deps → Kept s.files m
  dpt : ∀ u o, s.files u = some o → o.deps ≠ [] → u ∈ s.dependants ∧ o.ctx ≠ none
  srt : s.dependants.Pairwise (· < ·)

structure Many (w : World) (s : St) (as : List Req) : Prop where
  arr : s.log.map (·.req) ++ s.phase.now ++ s.queue.map (·.1) = as
  conf : ∀ r ∈ as, w.conf r.doc = false
  fil : Files s
  edt : ∀ u, isOpen u (s.log.map (·.req)) = true → ∃ o, s.files u = some o ∧ o.editing = true
  okq : okqs s.queue
  cur : ∀ d, s.phase.doc = some d → s.cur = some d
  has : ∀ u, Has u s ∨ promised u s.queue ∨ Pending u s
  ph : ManyOk w s

theorem many_init (w : World) : Many w {} [] := by
  refine ⟨rfl, by simp, ⟨by simp, by simp, by simp, by simp⟩, by simp [isOpen, isOpenFrom], trivial, by simp [Phase.doc], ?_, trivial⟩
  intro u
  left
  intro o ho
  simp at ho

theorem many_arrive {w s as} (h : Many w s as) (r : Req) (hr : w.conf r.doc = false) : Many w (s.arrive r) (as ++ [r]) := by
  have hc' : ∀ x ∈ as ++ [r], w.conf x.doc = false := by
    intro x hx
    simp at hx
    rcases hx with hx | hx
    · exact h.conf x hx
    · exact hx ▸ hr
  by_cases hc : s.cur = some r.doc ∧ r.parses = true
  · simp only [St.arrive, if_pos hc]
    have hp := mark_promised r hc.2 s.queue
    refine ⟨?_, hc', ⟨h.fil.ctxv, h.fil.mem, h.fil.dpt, h.fil.srt⟩, h.edt, mark_okqs r hc.2 s.queue h.okq, h.cur, ?_, ?_⟩
    · simp only [← h.arr]
      have := mark_fst r.doc s.queue
      unfold mark at this
      simp only [List.map_append, List.map_cons, List.map_nil, this]
      simp
    · intro u
      by_cases hu : u = r.doc
      · subst hu
        exact Or.inr (Or.inl hp)
      · rcases h.has u with g | g | g
        · exact Or.inl g
        · exact Or.inr (Or.inl (promised_append _ (mark_other r.doc u hu s.queue g)))
        · exfalso
          have hcu : s.cur = some u := by
            apply h.cur
            rcases g with ⟨x, g1, g2, _⟩ | ⟨f, g1, _⟩
            · rw [g1, Phase.doc, g2]
            · rw [g1, Phase.doc]
          rw [hc.1] at hcu
          exact hu (Option.some.inj hcu).symm
    · have := h.ph
      have hcur := h.cur
      unfold ManyOk at this ⊢
      cases hph : s.phase <;> simp only [hph] at this ⊢ <;> simp only [hph, Phase.doc] at hcur
      · refine ⟨fun _ => ?_, this.2.1, by simp⟩
        have := (hcur _ rfl).symm.trans hc.1
        rw [Option.some.inj this]
        exact hp
      · refine ⟨fun _ => ?_, this.2⟩
        have := (hcur _ rfl).symm.trans hc.1
        rw [Option.some.inj this]
        exact hp
      · exact this
      · exact this
      · exact this
  · simp only [St.arrive, if_neg hc]
    refine ⟨?_, hc', ⟨h.fil.ctxv, h.fil.mem, h.fil.dpt, h.fil.srt⟩, h.edt, okqs_snoc r h.okq, h.cur, ?_, ?_⟩
    · simp only [← h.arr]
      simp
    · intro u
      rcases h.has u with g | g | g
      · exact Or.inl g
      · exact Or.inr (Or.inl (promised_append _ g))
      · exact Or.inr (Or.inr g)
    · have := h.ph
      unfold ManyOk at this ⊢
      cases hph : s.phase <;> simp only [hph] at this ⊢
      · exact ⟨fun hx => promised_append _ (this.1 hx), this.2⟩
      · exact ⟨fun hx => promised_append _ (this.1 hx), this.2⟩
      · exact this
      · exact this
      · exact this

theorem many_take {w s as} (h : Many w s as) {r v q} (hp : s.phase = .idle) (hq : s.queue = (r, v) :: q) :
    Many w { s with queue := q, cur := some r.doc, cancel := !v, phase := .begun r } as := by
  have ho := h.okq
  have hhas := h.has
  rw [hq] at ho hhas
  refine ⟨?_, h.conf, ⟨h.fil.ctxv, h.fil.mem, h.fil.dpt, h.fil.srt⟩, h.edt, ho.2, by simp [Phase.doc], ?_, ?_, ?_, ?_⟩
  · rw [← h.arr, hp, hq]
    simp [Phase.now]
  · intro u
    rcases hhas u with g | g | g
    · exact Or.inl g
    · simp only [promised] at g
      split at g
      · rename_i hc
        exact Or.inr (Or.inr (Or.inl ⟨r, rfl, hc.1, g, by simp [hc.2]⟩))
      · exact Or.inr (Or.inl g)
    · exfalso
      rcases g with ⟨x, g1, _⟩ | ⟨f, g1, _⟩
      · rw [hp] at g1
        cases g1
      · rw [hp] at g1
        cases g1
  · intro hv
    exact ho.1 (by simpa using hv)
  · exact h.conf r (by rw [← h.arr, hq]; simp)
  · intro hv hr
    have : v = true := by simpa using hv
    subst this
    rcases hhas r.doc with g | g | g
    · exact g
    · simp [promised, hr] at g
    · exfalso
      rcases g with ⟨x, g1, _⟩ | ⟨f, g1, _⟩
      · rw [hp] at g1
        cases g1
      · rw [hp] at g1
        cases g1

/-! ### Looking up and closing files -/

theorem asProc_get {fs us x o} (h : fs x = some o) : ∃ o', asProc fs us x = some o' ∧ o'.ctx = o.ctx ∧ o'.deps = o.deps ∧ o'.editing = o.editing := by
  unfold asProc
  split
  · exact ⟨{ o with proc := true }, by simp [h], rfl, rfl, rfl⟩
  · exact ⟨o, h, rfl, rfl, rfl⟩

theorem kept_asProc {fs us m} (h : Kept fs m) : Kept (asProc fs us) m := by
  obtain ⟨o, h1, h2⟩ := h
  obtain ⟨o', h3, h4, _⟩ := asProc_get (us := us) h1
  exact ⟨o', h3, by rw [h4]; exact h2⟩

theorem has_asProc {u : Uri} {s s' : St} (us : List Uri) (h : Has u s) (hf : s'.files = asProc s.files us) : Has u s' := by
  intro o ho
  rw [hf] at ho
  obtain ⟨o', h1, _, _, h4, _⟩ := asProc_some ho
  rw [h4]
  exact h o' h1

theorem files_asProc {s s' : St} (us : List Uri) (h : Files s) (hf : s'.files = asProc s.files us) (hc : s'.ctxs = s.ctxs)
    (hd : s'.dependants = s.dependants) : Files s' := by
  refine ⟨?_, ?_, ?_, by rw [hd]; exact h.srt⟩
  · intro u o i ho hi
    rw [hf] at ho
    obtain ⟨o', h1, _, _, h4, _⟩ := asProc_some ho
    rw [hc]
    exact h.ctxv u o' i h1 (h4 ▸ hi)
  · intro u o m ho hm
    rw [hf] at ho ⊢
    obtain ⟨o', h1, _, h3, _, _⟩ := asProc_some ho
    exact kept_asProc (h.mem u o' m h1 (h3 ▸ hm))
  · intro u o ho hm
    rw [hf] at ho
    obtain ⟨o', h1, _, h3, h4, _⟩ := asProc_some ho
    rw [hd, h4]
    exact h.dpt u o' h1 (h3 ▸ hm)

/-- What is there after files were closed was there before. -/
theorem closeDeps_some {s : St} {deps : List Uri} {p u : Uri} {o : File} (h : (closeDeps s deps p).files u = some o) :
    ∃ o', s.files u = some o' ∧ o.ctx = o'.ctx ∧ o.deps = o'.deps ∧ o.editing = o'.editing := by
  simp only [closeDeps] at h
  split at h
  · cases h
  · obtain ⟨o', h1, _⟩ := asProc_some h
    obtain ⟨o2, h3, h4, h5, h6⟩ := asProc_get (us := deps ++ s.dependants) h1
    rw [h] at h3
    cases h3
    exact ⟨o', h1, h4, h5, h6⟩

/-- A file stays if it is open, or if another dependant needs it, or if it is not on the list. -/
theorem closeDeps_keep {s : St} {deps : List Uri} {p u : Uri} {o : File} (h : s.files u = some o)
    (hk : u ∉ deps ∨ o.editing = true ∨ ∃ q ∈ s.dependants, q ≠ p ∧ ∃ oq, s.files q = some oq ∧ u ∈ oq.deps) :
    ∃ o', (closeDeps s deps p).files u = some o' ∧ o'.ctx = o.ctx ∧ o'.deps = o.deps ∧ o'.editing = o.editing := by
  obtain ⟨o', h1, h2, h3, h4⟩ := asProc_get (us := deps ++ s.dependants) h
  refine ⟨o', ?_, h2, h3, h4⟩
  simp only [closeDeps]
  rw [if_neg]
  · exact h1
  · intro hm
    obtain ⟨m1, m2⟩ := List.mem_filter.mp hm
    simp only [h1, Bool.and_eq_true, Bool.not_eq_true', List.any_eq_false] at m2
    rcases hk with hk | hk | ⟨q, q1, q2, oq, q3, q4⟩
    · exact hk m1
    · rw [h4, hk] at m2
      simp at m2
    · apply m2.2 q q1
      obtain ⟨oq', e1, _, e3, _⟩ := asProc_get (us := deps ++ s.dependants) q3
      simp [q2, needs, e1, e3, q4]

theorem has_closeDeps {u : Uri} {s : St} {deps p} (h : Has u s) : Has u (closeDeps s deps p) := by
  intro o ho
  obtain ⟨o', h1, h2, _⟩ := closeDeps_some ho
  rw [h2]
  exact h o' h1

theorem files_closeDeps {s : St} (h : Files s) {deps : List Uri} {p : Uri} (hp : ∀ o, s.files p = some o → ∀ x ∈ deps, x ∉ o.deps) :
    Files (closeDeps s deps p) := by
  refine ⟨?_, ?_, ?_, h.srt⟩
  · intro u o i ho hi
    obtain ⟨o', h1, h2, _⟩ := closeDeps_some ho
    exact h.ctxv u o' i h1 (h2 ▸ hi)
  · intro u o m ho hm
    obtain ⟨o', h1, h2, h3, _⟩ := closeDeps_some ho
    rw [h3] at hm
    obtain ⟨om, k1, k2⟩ := h.mem u o' m h1 hm
    have hne : o'.deps ≠ [] := by
      intro e
      simp [e] at hm
    have : m ∉ deps ∨ om.editing = true ∨ ∃ q ∈ s.dependants, q ≠ p ∧ ∃ oq, s.files q = some oq ∧ m ∈ oq.deps := by
      by_cases hu : u = p
      · left
        intro hmd
        exact hp o' (hu ▸ h1) m hmd hm
      · exact Or.inr (Or.inr ⟨u, (h.dpt u o' h1 hne).1, hu, o', h1, hm⟩)
    obtain ⟨om', e1, e2, _⟩ := closeDeps_keep k1 this
    exact ⟨om', e1, by rw [e2]; exact k2⟩
  · intro u o ho hm
    obtain ⟨o', h1, h2, h3, _⟩ := closeDeps_some ho
    rw [h2]
    exact h.dpt u o' h1 (h3 ▸ hm)

theorem edt_closeDeps {s : St} {u : Uri} {deps p} (h : ∃ o, s.files u = some o ∧ o.editing = true) :
    ∃ o, (closeDeps s deps p).files u = some o ∧ o.editing = true := by
  obtain ⟨o, h1, h2⟩ := h
  obtain ⟨o', h3, _, _, h4⟩ := closeDeps_keep (deps := deps) (p := p) h1 (Or.inr (Or.inl h2))
  exact ⟨o', h3, by rw [h4]; exact h2⟩

theorem closing_closeDeps {s : St} {deps p} {closing : List (Uri × List Uri)} (h : ClosingOk s.files closing) :
    ClosingOk (closeDeps s deps p).files closing := by
  intro q hq o ho x hx
  obtain ⟨o', h1, _, h3, _⟩ := closeDeps_some ho
  rw [h3]
  exact h q hq o' h1 x hx

theorem fold_closeDeps : ∀ (closing : List (Uri × List Uri)) (s : St), Files s → ClosingOk s.files closing →
    let s' := closing.foldl (fun s p => closeDeps s p.2 p.1) s
    Files s' ∧ (∀ u, Has u s → Has u s') ∧ (∀ u, (∃ o, s.files u = some o ∧ o.editing = true) → ∃ o, s'.files u = some o ∧ o.editing = true) ∧
      s'.queue = s.queue ∧ s'.log = s.log ∧ s'.cur = s.cur ∧ s'.ctxs = s.ctxs ∧ s'.cancel = s.cancel
  | [], s, h, _ => ⟨h, fun _ g => g, fun _ g => g, rfl, rfl, rfl, rfl, rfl⟩
  | p :: l, s, h, hc => by
    have h1 := files_closeDeps h (hc p (by simp))
    have h2 := closing_closeDeps (deps := p.2) (p := p.1) (closing := l) (fun q hq => hc q (by simp [hq]))
    obtain ⟨g1, g2, g3, g4⟩ := fold_closeDeps l _ h1 h2
    exact ⟨g1, fun u hu => g2 u (has_closeDeps hu), fun u hu => g3 u (edt_closeDeps hu), g4⟩

/-! ### Files set -/

theorem kept_set {fs : Uri → Option File} {u m : Uri} {o : File} (h : Kept fs m) (ho : m = u → o.ctx ≠ none) :
    Kept (setFile fs u (some o)) m := by
  by_cases hm : m = u
  · exact ⟨o, by simp [setFile, hm], ho hm⟩
  · obtain ⟨x, h1, h2⟩ := h
    exact ⟨x, by simpa [setFile, hm] using h1, h2⟩

theorem files_set {s s' : St} (h : Files s) (u : Uri) (o : File) (hf : s'.files = setFile s.files u (some o))
    (hl : s.ctxs.length ≤ s'.ctxs.length) (hd : ∀ x ∈ s.dependants, x ∈ s'.dependants) (hs : s'.dependants.Pairwise (· < ·))
    (h1 : ∀ i, o.ctx = some i → i < s'.ctxs.length) (h2 : ∀ m ∈ o.deps, Kept s'.files m)
    (h3 : o.deps ≠ [] → u ∈ s'.dependants ∧ o.ctx ≠ none) (h4 : Kept s.files u → o.ctx ≠ none) : Files s' := by
  have key : ∀ v x, s'.files v = some x → (v = u ∧ x = o) ∨ s.files v = some x := by
    intro v x hx
    rw [hf] at hx
    by_cases hv : v = u
    · left
      simp [setFile, hv] at hx
      exact ⟨hv, hx.symm⟩
    · right
      simpa [setFile, hv] using hx
  refine ⟨?_, ?_, ?_, hs⟩
  · intro v x i hx hi
    rcases key v x hx with ⟨rfl, rfl⟩ | g
    · exact h1 i hi
    · exact Nat.lt_of_lt_of_le (h.ctxv v x i g hi) hl
  · intro v x m hx hm
    rcases key v x hx with ⟨rfl, rfl⟩ | g
    · exact h2 m hm
    · have hk := h.mem v x m g hm
      rw [hf]
      exact kept_set hk (fun e => h4 (e ▸ hk))
  · intro v x hx hm
    rcases key v x hx with ⟨rfl, rfl⟩ | g
    · exact h3 hm
    · exact ⟨hd v (h.dpt v x g hm).1, (h.dpt v x g hm).2⟩

theorem has_set {s s' : St} {u v : Uri} {o : File} (hf : s'.files = setFile s.files u (some o)) (h : Has v s) (ho : v = u → o.ctx ≠ none) :
    Has v s' := by
  intro x hx
  rw [hf] at hx
  by_cases hv : v = u
  · simp [setFile, hv] at hx
    rw [← hx]
    exact ho hv
  · exact h x (by simpa [setFile, hv] using hx)

theorem not_pending_idle {u : Uri} {s : St} {r} (h : Pending u s) (hp : s.phase = .begun r) : r.doc = u ∧ r.parses = true ∧ s.cancel = false := by
  rcases h with ⟨x, g1, g2⟩ | ⟨f, g1, _⟩
  · rw [hp] at g1
    cases g1
    exact g2
  · rw [hp] at g1
    cases g1

theorem many_opened {w s as} (h : Many w s as) {u} (hp : s.phase = .begun (.opened u)) :
    ∃ s', s.carry (.opened u) = .ok s' ∧ Many w s' as := by
  have hph := h.ph
  simp only [ManyOk, hp] at hph
  have harr := h.arr
  rw [hp] at harr
  have hcur := h.cur u (by rw [hp]; rfl)
  refine ⟨_, rfl, ?_⟩
  have hold : ∀ o, s.files u = some o → ((s.files u).getD {}) = o := by
    intro o ho
    simp [ho]
  refine ⟨?_, h.conf, ?_, ?_, h.okq, ?_, ?_, ?_⟩
  · rw [← harr]
    simp [Phase.now, St.note]
  · refine files_set h.fil u { (s.files u).getD {} with editing := true, text := s.clock + 1 } rfl (Nat.le_refl _) (fun _ hx => hx) h.fil.srt ?_ ?_ ?_ ?_
    · intro i hi
      cases hf : s.files u with
      | none => simp [hf] at hi
      | some o => exact h.fil.ctxv u o i hf (by simpa [hf] using hi)
    · intro m hm
      cases hf : s.files u with
      | none => simp [hf] at hm
      | some o =>
        have hk := h.fil.mem u o m hf (by simpa [hf] using hm)
        refine kept_set hk ?_
        intro e
        obtain ⟨x, k1, k2⟩ := hk
        rw [e, hf] at k1
        cases k1
        simpa using k2
    · intro hm
      cases hf : s.files u with
      | none => simp [hf] at hm
      | some o => exact h.fil.dpt u o hf (by simpa [hf] using hm)
    · rintro ⟨x, k1, k2⟩
      simpa [hold x k1] using k2
  · intro v hv
    by_cases hvu : v = u
    · exact ⟨{ (s.files u).getD {} with editing := true, text := s.clock + 1 }, by simp [St.note, setFile, hvu], rfl⟩
    · have : isOpen v (s.log.map (·.req)) = true := by
        simpa [St.note, isOpen_snoc, isOpenFrom, Ne.symm hvu] using hv
      obtain ⟨o, e1, e2⟩ := h.edt v this
      exact ⟨o, by simpa [St.note, setFile, hvu] using e1, e2⟩
  · intro d hd
    simp [St.note, Phase.doc] at hd
    rw [← hd]
    exact hcur
  · intro v
    by_cases hvu : v = u
    · subst hvu
      cases hc : s.cancel with
      | true => exact Or.inr (Or.inl (hph.1 hc))
      | false => exact Or.inr (Or.inr (Or.inr ⟨true, rfl, by first | exact hc | rfl⟩))
    · rcases h.has v with g | g | g
      · exact Or.inl (has_set rfl g (fun e => absurd e hvu))
      · exact Or.inr (Or.inl g)
      · exact absurd (not_pending_idle g hp).1.symm hvu
  · exact ⟨hph.1, hph.2.1⟩

theorem many_changed {w s as} (h : Many w s as) {u} (hp : s.phase = .begun (.changed u)) :
    ∃ s', s.carry (.changed u) = .ok s' ∧ Many w s' as := by
  have hph := h.ph
  simp only [ManyOk, hp] at hph
  have harr := h.arr
  rw [hp] at harr
  have hcur := h.cur u (by rw [hp]; rfl)
  refine ⟨_, rfl, ?_⟩
  cases hf : s.files u with
  | none =>
    have hs : setFile s.files u (Option.map (fun (o : File) => { o with text := s.clock + 1 }) none) = s.files := by
      funext x
      unfold setFile
      split
      · rename_i hx
        rw [hx, hf]
        rfl
      · rfl
    simp only [hs]
    refine ⟨?_, h.conf, ⟨h.fil.ctxv, h.fil.mem, h.fil.dpt, h.fil.srt⟩, ?_, h.okq, ?_, ?_, hph.1, hph.2.1⟩
    · rw [← harr]
      simp [Phase.now, St.note]
    · intro v hv
      exact h.edt v (by simpa [St.note, isOpen_snoc, isOpenFrom] using hv)
    · intro d hd
      simp [St.note, Phase.doc] at hd
      rw [← hd]
      exact hcur
    · intro v
      by_cases hvu : v = u
      · subst hvu
        left
        intro o ho
        simp [St.note, hf] at ho
      · rcases h.has v with g | g | g
        · exact Or.inl g
        · exact Or.inr (Or.inl g)
        · exact absurd (not_pending_idle g hp).1.symm hvu
  | some o =>
    refine ⟨?_, h.conf, ?_, ?_, h.okq, ?_, ?_, hph.1, hph.2.1⟩
    · rw [← harr]
      simp [Phase.now, St.note]
    · refine files_set h.fil u { o with text := s.clock + 1 } rfl (Nat.le_refl _) (fun _ hx => hx) h.fil.srt (h.fil.ctxv u o · hf) ?_ ?_ ?_
      · intro m hm
        have hk := h.fil.mem u o m hf hm
        refine kept_set hk ?_
        intro e
        obtain ⟨x, k1, k2⟩ := hk
        rw [e, hf] at k1
        cases k1
        exact k2
      · exact h.fil.dpt u o hf
      · rintro ⟨x, k1, k2⟩
        rw [hf] at k1
        cases k1
        exact k2
    · intro v hv
      obtain ⟨x, e1, e2⟩ := h.edt v (by simpa [St.note, isOpen_snoc, isOpenFrom] using hv)
      by_cases hvu : v = u
      · subst hvu
        rw [hf] at e1
        cases e1
        exact ⟨{ o with text := s.clock + 1 }, by simp [St.note, setFile], e2⟩
      · exact ⟨x, by simpa [St.note, setFile, hvu] using e1, e2⟩
    · intro d hd
      simp [St.note, Phase.doc] at hd
      rw [← hd]
      exact hcur
    · intro v
      by_cases hvu : v = u
      · subst hvu
        cases hc : s.cancel with
        | true => exact Or.inr (Or.inl (hph.1 hc))
        | false => exact Or.inr (Or.inr (Or.inr ⟨false, rfl, by first | exact hc | rfl⟩))
      · rcases h.has v with g | g | g
        · exact Or.inl (has_set rfl g (fun e => absurd e hvu))
        · exact Or.inr (Or.inl g)
        · exact absurd (not_pending_idle g hp).1.symm hvu

theorem insertSet_mem (x : Uri) (l : List Uri) : ∀ y, y ∈ insertSet x l ↔ y = x ∨ y ∈ l := by
  induction l with
  | nil => simp [insertSet]
  | cons a l ih =>
    intro y
    unfold insertSet
    split
    · simp
    · split
      · rename_i _ hx
        subst hx
        simp
      · simp [ih]
        constructor
        · rintro (h | h | h)
          · exact Or.inr (Or.inl h)
          · exact Or.inl h
          · exact Or.inr (Or.inr h)
        · rintro (h | h | h)
          · exact Or.inr (Or.inl h)
          · exact Or.inl h
          · exact Or.inr (Or.inr h)

theorem insertSet_sorted (x : Uri) (l : List Uri) (h : l.Pairwise (· < ·)) : (insertSet x l).Pairwise (· < ·) := by
  induction l with
  | nil => simp [insertSet]
  | cons a l ih =>
    obtain ⟨h1, h2⟩ := List.pairwise_cons.mp h
    unfold insertSet
    split
    · rename_i hx
      refine List.pairwise_cons.mpr ⟨?_, h⟩
      intro y hy
      rcases List.mem_cons.mp hy with rfl | hy
      · exact hx
      · exact Nat.lt_trans hx (h1 y hy)
    · split
      · exact h
      · rename_i g1 g2
        refine List.pairwise_cons.mpr ⟨?_, ih h2⟩
        intro y hy
        rcases (insertSet_mem x l y).mp hy with rfl | hy
        · exact Nat.lt_of_le_of_ne (Nat.le_of_not_lt g1) (fun e => g2 e.symm)
        · exact h1 y hy

/-! ### Closing -/

theorem not_needed {s : St} (h : Files s) {u : Uri} (hn : dependantsOf s u = []) : ∀ v o, s.files v = some o → u ∉ o.deps := by
  intro v o ho hm
  have hv := (h.dpt v o ho (by intro e; simp [e] at hm)).1
  have : v ∈ dependantsOf s u := List.mem_filter.mpr ⟨hv, by simp [needs, ho, hm]⟩
  rw [hn] at this
  simp at this

theorem close_many {s : St} (h : Files s) {u : Uri} (hu : (s.files u).isSome = true) :
    ∃ s', s.close u = .ok s' ∧ Files s' ∧ (∀ v, Has v s → Has v s') ∧
      (∀ v, v ≠ u → (∃ o, s.files v = some o ∧ o.editing = true) → ∃ o, s'.files v = some o ∧ o.editing = true) ∧
      s'.queue = s.queue ∧ s'.log = s.log := by
  let s0 : St := { s with files := asProc s.files s.dependants }
  have hf0 : Files s0 := files_asProc s.dependants h rfl rfl rfl
  have hh0 : ∀ v, Has v s → Has v s0 := fun v g => has_asProc s.dependants g rfl
  have he0 : ∀ v, (∃ o, s.files v = some o ∧ o.editing = true) → ∃ o, s0.files v = some o ∧ o.editing = true := by
    rintro v ⟨o, h1, h2⟩
    obtain ⟨o', h3, _, _, h4⟩ := asProc_get (us := s.dependants) h1
    exact ⟨o', h3, by rw [h4]; exact h2⟩
  have hsome : ∃ o, s0.files u = some o := by
    have : (s0.files u).isSome = true := by
      show (asProc s.files s.dependants u).isSome = true
      rw [asProc_isSome]
      exact hu
    exact Option.isSome_iff_exists.mp this
  obtain ⟨o, ho⟩ := hsome
  have hclose : s.close u = if dependantsOf s0 u ≠ [] then
      .ok { s0 with files := setFile s0.files u ((s0.files u).map (fun (o : File) => { o with editing := false })) }
    else if u ∈ s0.dependants then
      (match s0.files u with
        | none => .error .noFile
        | some o =>
          .ok { closeDeps s0 o.deps u with dependants := s0.dependants.erase u, files := setFile (closeDeps s0 o.deps u).files u none })
    else .ok { s0 with files := setFile s0.files u none } := rfl
  rw [hclose]
  by_cases hn : dependantsOf s0 u = []
  · rw [if_neg (by simp [hn])]
    have hnn := not_needed hf0 hn
    by_cases hd : u ∈ s0.dependants
    · rw [if_pos hd, ho]
      refine ⟨_, rfl, ⟨?_, ?_, ?_, ?_⟩, ?_, ?_, rfl, rfl⟩
      · intro v x i hx hi
        by_cases hv : v = u
        · simp [setFile, hv] at hx
        · obtain ⟨o', h1, h2, _⟩ := closeDeps_some (by simpa [setFile, hv] using hx)
          exact hf0.ctxv v o' i h1 (h2 ▸ hi)
      · intro v x m hx hm
        by_cases hv : v = u
        · simp [setFile, hv] at hx
        · obtain ⟨o', h1, _, h3, _⟩ := closeDeps_some (by simpa [setFile, hv] using hx)
          rw [h3] at hm
          obtain ⟨om, k1, k2⟩ := hf0.mem v o' m h1 hm
          have hmu : m ≠ u := fun e => hnn v o' h1 (e ▸ hm)
          have hvd := (hf0.dpt v o' h1 (by intro e; simp [e] at hm)).1
          obtain ⟨om', e1, e2, _⟩ := closeDeps_keep (deps := o.deps) (p := u) k1 (Or.inr (Or.inr ⟨v, hvd, hv, o', h1, hm⟩))
          exact ⟨om', by simpa [setFile, hmu] using e1, by rw [e2]; exact k2⟩
      · intro v x hx hm
        by_cases hv : v = u
        · simp [setFile, hv] at hx
        · obtain ⟨o', h1, h2, h3, _⟩ := closeDeps_some (by simpa [setFile, hv] using hx)
          obtain ⟨g1, g2⟩ := hf0.dpt v o' h1 (h3 ▸ hm)
          exact ⟨(List.mem_erase_of_ne hv).mpr g1, by rw [h2]; exact g2⟩
      · exact hf0.srt.sublist List.erase_sublist
      · intro v g x hx
        by_cases hv : v = u
        · simp [setFile, hv] at hx
        · exact has_closeDeps (hh0 v g) x (by simpa [setFile, hv] using hx)
      · intro v hv g
        obtain ⟨x, e1, e2⟩ := edt_closeDeps (deps := o.deps) (p := u) (he0 v g)
        exact ⟨x, by simpa [setFile, hv] using e1, e2⟩
    · rw [if_neg hd]
      refine ⟨_, rfl, ⟨?_, ?_, ?_, hf0.srt⟩, ?_, ?_, rfl, rfl⟩
      · intro v x i hx hi
        by_cases hv : v = u
        · simp [setFile, hv] at hx
        · exact hf0.ctxv v x i (by simpa [setFile, hv] using hx) hi
      · intro v x m hx hm
        by_cases hv : v = u
        · simp [setFile, hv] at hx
        · have hx' : s0.files v = some x := by simpa [setFile, hv] using hx
          obtain ⟨om, k1, k2⟩ := hf0.mem v x m hx' hm
          have hmu : m ≠ u := fun e => hnn v x hx' (e ▸ hm)
          exact ⟨om, by simpa [setFile, hmu] using k1, k2⟩
      · intro v x hx hm
        by_cases hv : v = u
        · simp [setFile, hv] at hx
        · exact hf0.dpt v x (by simpa [setFile, hv] using hx) hm
      · intro v g x hx
        by_cases hv : v = u
        · simp [setFile, hv] at hx
        · exact hh0 v g x (by simpa [setFile, hv] using hx)
      · intro v hv g
        obtain ⟨x, e1, e2⟩ := he0 v g
        exact ⟨x, by simpa [setFile, hv] using e1, e2⟩
  · rw [if_pos hn, ho]
    refine ⟨_, rfl, ?_, ?_, ?_, rfl, rfl⟩
    · refine files_set hf0 u { o with editing := false } rfl (Nat.le_refl _) (fun _ hx => hx) hf0.srt (hf0.ctxv u o · ho) ?_ ?_ ?_
      · intro m hm
        have hk := hf0.mem u o m ho hm
        refine kept_set hk ?_
        intro e
        obtain ⟨x, k1, k2⟩ := hk
        rw [e, ho] at k1
        cases k1
        exact k2
      · exact hf0.dpt u o ho
      · rintro ⟨x, k1, k2⟩
        rw [ho] at k1
        cases k1
        exact k2
    · intro v g
      exact has_set rfl (hh0 v g) (fun e => hh0 v g o (e ▸ ho))
    · intro v hv g
      obtain ⟨x, e1, e2⟩ := he0 v g
      exact ⟨x, by simpa [setFile, hv] using e1, e2⟩

theorem many_closed {w s as} (h : Many w s as) (ho : Orderly as) {u} (hp : s.phase = .begun (.closed u)) :
    ∃ s', s.carry (.closed u) = .ok s' ∧ Many w s' as := by
  have harr := h.arr
  rw [hp] at harr
  have hopen : isOpen u (s.log.map (·.req)) = true := ho _ u (s.queue.map (·.1)) (by rw [← harr]; simp [Phase.now])
  obtain ⟨o, e1, e2⟩ := h.edt u hopen
  obtain ⟨s', h0, h1, h2, h3, h4, h5⟩ := close_many h.fil (u := u) (by rw [e1]; rfl)
  refine ⟨St.note { s' with phase := .idle } (.closed u) none, by simp only [St.carry, h0], ?_⟩
  refine ⟨?_, h.conf, ⟨h1.ctxv, h1.mem, h1.dpt, h1.srt⟩, ?_, ?_, by simp [St.note, Phase.doc], ?_, trivial⟩
  · rw [← harr]
    simp [Phase.now, St.note, h4, h5]
  · intro v hv
    simp only [St.note, h5] at hv
    by_cases hvu : v = u
    · simp [hvu, isOpen_snoc, isOpenFrom] at hv
    · exact h3 v hvu (h.edt v (by simpa [isOpen_snoc, isOpenFrom, Ne.symm hvu] using hv))
  · simp only [St.note, h4]
    exact h.okq
  · intro v
    rcases h.has v with g | g | g
    · exact Or.inl (h2 v g)
    · exact Or.inr (Or.inl (by simp only [St.note, h4]; exact g))
    · have := (not_pending_idle g hp).2.1
      simp [Req.parses] at this

/-! ### Questions -/

theorem fromFile_many {s : St} (h : Files s) {p d : Uri} {need : Bool} (hh : Has p s) :
    (∃ a, fromFile s p d need = .ok a) ∨
      (need = true ∧ ∃ o i c, s.files p = some o ∧ o.ctx = some i ∧ s.ctxs[i]? = some c ∧ c.whole = false ∧ d ∈ c.known) := by
  unfold fromFile
  cases hf : s.files p with
  | none => exact Or.inl ⟨_, rfl⟩
  | some o =>
    simp only
    cases hc : o.ctx with
    | none => exact absurd hc (hh o hf)
    | some i =>
      have hi := h.ctxv p o i hf hc
      simp only [List.getElem?_eq_getElem hi]
      split
      · rename_i hn
        simp at hn
        exact Or.inr ⟨hn.1.1, o, i, s.ctxs[i], rfl, hc, List.getElem?_eq_getElem hi, hn.1.2, hn.2⟩
      · exact Or.inl ⟨_, rfl⟩

theorem related_has {s : St} (h : Files s) {d p : Uri} (hd : Has d s) (hr : related s d = some p) : Has p s := by
  unfold related at hr
  split at hr
  · rename_i q hq
    cases hr
    obtain ⟨_, hn⟩ := List.mem_filter.mp (List.mem_of_getLast? hq)
    intro o ho
    simp [needs, ho] at hn
    exact (h.dpt p o ho (by intro e; simp [e] at hn)).2
  · split at hr
    · cases hr
      exact hd
    · cases hr

theorem answer_many {s : St} (h : Files s) {k : Kind} {d : Uri} (hd : Has d s) :
    (∃ a, answer s k d = .ok a) ∨ (k = .complete true ∧ ∃ p o i c, related s d = some p ∧ s.files p = some o ∧
      o.ctx = some i ∧ s.ctxs[i]? = some c ∧ c.whole = false ∧ d ∈ c.known) := by
  cases k with
  | tokens =>
    left
    simp only [answer]
    cases hf : s.files d with
    | none => exact ⟨_, rfl⟩
    | some o =>
      simp only
      split
      · rcases fromFile_many (need := false) (d := d) h hd with g | g
        · exact g
        · exact absurd g.1 (by simp)
      · exact ⟨_, rfl⟩
  | lookup =>
    left
    simp only [answer]
    cases hr : related s d with
    | none => exact ⟨_, rfl⟩
    | some p =>
      rcases fromFile_many (need := false) (d := d) h (related_has h hd hr) with g | g
      · exact g
      · exact absurd g.1 (by simp)
  | complete b =>
    simp only [answer]
    cases hr : related s d with
    | none => exact Or.inl ⟨_, rfl⟩
    | some p =>
      rcases fromFile_many (need := b) (d := d) h (related_has h hd hr) with g | ⟨g, o, i, c, g1, g2⟩
      · exact Or.inl g
      · exact Or.inr ⟨by rw [g], p, o, i, c, rfl, g1, g2⟩

theorem many_ask {w s as} (h : Many w s as) {k u} (hp : s.phase = .begun (.ask k u)) :
    (∃ s', s.carry (.ask k u) = .ok s' ∧ Many w s' as) ∨ Stuck s := by
  have hph := h.ph
  simp only [ManyOk, hp] at hph
  have harr := h.arr
  rw [hp] at harr
  simp only [Phase.now] at harr
  have hnp : ∀ v, ¬ Pending v s := by
    intro v g
    have := (not_pending_idle g hp).2.1
    simp [Req.parses] at this
  cases hc : s.cancel with
  | true =>
    left
    refine ⟨St.note { s with phase := .idle } (.ask k u) (some .nothing), by simp [St.carry, hc], ?_⟩
    refine ⟨?_, h.conf, ⟨h.fil.ctxv, h.fil.mem, h.fil.dpt, h.fil.srt⟩, ?_, h.okq, by simp [St.note, Phase.doc], ?_, trivial⟩
    · rw [← harr]
      simp [St.note, Phase.now]
    · intro v hv
      exact h.edt v (by simpa [St.note, isOpen_snoc, isOpenFrom] using hv)
    · intro v
      rcases h.has v with g | g | g
      · exact Or.inl g
      · exact Or.inr (Or.inl g)
      · exact absurd g (hnp v)
  | false =>
    have hh : Has u s := hph.2.2 hc rfl
    rcases answer_many (k := k) h.fil hh with ⟨a, ha⟩ | ⟨rfl, p, o, i, c, g⟩
    · left
      obtain ⟨us, hus⟩ := filesAfter_eq s k u
      refine ⟨St.note { s with files := filesAfter s k u, phase := .idle } (.ask k u) (some a), by simp [St.carry, hc, ha], ?_⟩
      refine ⟨?_, h.conf, files_asProc us h.fil hus rfl rfl, ?_, h.okq, by simp [St.note, Phase.doc], ?_, trivial⟩
      · rw [← harr]
        simp [St.note, Phase.now]
      · intro v hv
        obtain ⟨x, e1, e2⟩ := h.edt v (by simpa [St.note, isOpen_snoc, isOpenFrom] using hv)
        obtain ⟨x', e3, _, _, e4⟩ := asProc_get (us := us) e1
        exact ⟨x', by simp only [St.note, hus]; exact e3, by rw [e4]; exact e2⟩
      · intro v
        rcases h.has v with g | g | g
        · exact Or.inl (has_asProc us g hus)
        · exact Or.inr (Or.inl g)
        · exact absurd g (hnp v)
    · exact Or.inr ⟨u, p, o, i, c, hp, hc, g⟩

/-! ### Analyses -/

theorem closing_set {fs : Uri → Option File} {t : Uri} {o o' : File} {closing : List (Uri × List Uri)} (h : ClosingOk fs closing)
    (ht : fs t = some o) (hd : o'.deps = o.deps) : ClosingOk (setFile fs t (some o')) closing := by
  intro p hp x hx y hy
  by_cases he : p.1 = t
  · simp [setFile, he] at hx
    rw [← hx, hd]
    exact h p hp o (he ▸ ht) y hy
  · exact h p hp x (by simpa [setFile, he] using hx) y hy

/-- What stays as it is while a request is carried out. -/
def Same (s s' : St) : Prop := s'.queue = s.queue ∧ s'.log = s.log ∧ s'.cur = s.cur ∧ s'.cancel = s.cancel

theorem analyse_many (w : World) {s : St} {d : Uri} {f : Bool} {t : Uri} {rest : List Uri} {closing : List (Uri × List Uri)} (h : Files s)
    (hcalm : ∀ n t, Calm t [] (w.steps n t)) (hd : Has d s ∨ t = d) (hc : ClosingOk s.files closing)
    (hn : (closing.map (·.1) ++ t :: rest).Nodup) :
    let s' := St.analyse w s d f t rest closing
    Files s' ∧ ManyOk w s' ∧ Has d s' ∧ (∀ v, Has v s → Has v s') ∧
      (∀ v, (∃ o, s.files v = some o ∧ o.editing = true) → ∃ o, s'.files v = some o ∧ o.editing = true) ∧
      Same s s' ∧ s'.phase.now = [] ∧ s'.phase.doc = some d ∧ ∀ v, ¬ Pending v s' := by
  simp only [St.analyse]
  cases hf : s.files t with
  | none =>
    have hd' : Has d s := by
      rcases hd with g | g
      · exact g
      · intro o ho
        rw [← g, hf] at ho
        cases ho
    exact ⟨⟨h.ctxv, h.mem, h.dpt, h.srt⟩, hd', hd', fun _ g => g, fun _ g => g, ⟨rfl, rfl, rfl, rfl⟩, rfl, rfl, by
      rintro v (⟨r, g, _⟩ | ⟨f, g, _⟩) <;> cases g⟩
  | some o =>
    have hfs : ∀ v, Has v s → Has v { s with
        files := setFile s.files t (some { o with proc := true, ctx := some s.ctxs.length })
        ctxs := s.ctxs ++ [{ owner := t, text := o.text, known := [], whole := false }]
        phase := .parsing d f t s.ctxs.length (w.steps s.ctxs.length t) [] [] rest closing } := by
      intro v g
      exact has_set rfl g (fun _ => by simp)
    have hdd : Has d { s with
        files := setFile s.files t (some { o with proc := true, ctx := some s.ctxs.length })
        ctxs := s.ctxs ++ [{ owner := t, text := o.text, known := [], whole := false }]
        phase := .parsing d f t s.ctxs.length (w.steps s.ctxs.length t) [] [] rest closing } := by
      rcases hd with g | g
      · exact hfs d g
      · intro x hx
        simp [setFile, g] at hx
        rw [← hx]
        simp
    refine ⟨?_, ⟨hdd, ⟨_, by simp [setFile]; rfl, by simp⟩, by simp, by simp, hcalm _ _, closing_set hc hf rfl, hn⟩, hdd, hfs, ?_, ⟨rfl, rfl, rfl, rfl⟩, rfl, rfl, ?_⟩
    · refine files_set h t { o with proc := true, ctx := some s.ctxs.length } rfl (by simp) (fun _ hx => hx) h.srt ?_ ?_ ?_ ?_
      · intro i hi
        simp at hi
        simp [← hi]
      · intro m hm
        exact kept_set (h.mem t o m hf hm) (fun _ => by simp)
      · intro hm
        exact ⟨(h.dpt t o hf hm).1, by simp⟩
      · intro _
        simp
    · rintro v ⟨x, e1, e2⟩
      by_cases hv : v = t
      · subst hv
        rw [hf] at e1
        cases e1
        exact ⟨{ o with proc := true, ctx := some s.ctxs.length }, by simp [setFile], e2⟩
      · exact ⟨x, by simpa [setFile, hv] using e1, e2⟩
    · rintro v (⟨r, g, _⟩ | ⟨f, g, _⟩) <;> cases g

theorem many_updated {w s as} (hcalm : ∀ n t, Calm t [] (w.steps n t)) (h : Many w s as) {u f}
    (hp : s.phase = .updated u f) (hc : s.cancel = false) : Many w (St.startParse w s u f) as := by
  have hph := h.ph
  simp only [ManyOk, hp] at hph
  have harr := h.arr
  rw [hp] at harr
  have hcur := h.cur u (by rw [hp]; rfl)
  have hpend : ∀ v, v ≠ u → ¬ Pending v s := by
    rintro v hv (⟨r, g, _⟩ | ⟨f, g, _⟩)
    · rw [hp] at g
      cases g
    · rw [hp] at g
      cases g
      exact hv rfl
  cases ht : targets w s u with
  | nil =>
    simp only [St.startParse, ht]
    have hd : Has u s := by
      simp only [targets, hph.2, Bool.false_eq_true, if_false] at ht
      split at ht
      · split at ht
        · cases ht
        · rename_i hn
          intro o ho
          simp [ho] at hn
      · rename_i hx
        exact absurd ht hx
    refine ⟨harr, h.conf, ⟨h.fil.ctxv, h.fil.mem, h.fil.dpt, h.fil.srt⟩, h.edt, h.okq, ?_, ?_, hd⟩
    · intro d hd
      simp [Phase.doc] at hd
      rw [← hd]
      exact hcur
    · intro v
      by_cases hv : v = u
      · exact Or.inl (hv ▸ hd)
      · rcases h.has v with g | g | g
        · exact Or.inl g
        · exact Or.inr (Or.inl g)
        · exact absurd g (hpend v hv)
  | cons t rest =>
    simp only [St.startParse, ht]
    have hdt : (Has u s ∨ t = u) ∧ (t :: rest).Nodup := by
      simp only [targets, hph.2, Bool.false_eq_true, if_false] at ht
      split at ht
      · split at ht
        · cases ht
          exact ⟨Or.inr rfl, by simp⟩
        · cases ht
      · refine ⟨Or.inl ?_, ?_⟩
        · have hm : t ∈ dependantsOf s u := by rw [ht]; simp
          obtain ⟨_, hn⟩ := List.mem_filter.mp hm
          unfold needs at hn
          cases hf : s.files t with
          | none => simp [hf] at hn
          | some o =>
            simp [hf] at hn
            obtain ⟨x, k1, k2⟩ := h.fil.mem t o u hf hn
            intro y hy
            rw [k1] at hy
            cases hy
            exact k2
        · rw [← ht]
          exact ((h.fil.srt.imp (fun {a b} hab => Nat.ne_of_lt hab)).filter _ : (dependantsOf s u).Nodup)
    have hf0 : Files { s with files := asProc s.files s.dependants } := files_asProc s.dependants h.fil rfl rfl rfl
    have hd0 : Has u { s with files := asProc s.files s.dependants } ∨ t = u := by
      rcases hdt.1 with g | g
      · exact Or.inl (has_asProc s.dependants g rfl)
      · exact Or.inr g
    obtain ⟨a1, a2, a3, a4, a5, ⟨a6, a7, a8, a9⟩, a10, a11, a12⟩ := analyse_many (f := f) w hf0 hcalm hd0
      (closing := []) (rest := rest) (by simp [ClosingOk]) (by simpa using hdt.2)
    refine ⟨?_, h.conf, a1, ?_, ?_, ?_, ?_, a2⟩
    · rw [a6, a7, a10, ← harr]
      rfl
    · intro v hv
      rw [a7] at hv
      obtain ⟨x, e1, e2⟩ := h.edt v hv
      obtain ⟨x', e3, _, _, e4⟩ := asProc_get (us := s.dependants) e1
      exact a5 v ⟨x', e3, by rw [e4]; exact e2⟩
    · rw [a6]
      exact h.okq
    · intro d hd
      rw [a11] at hd
      rw [a8, ← hd]
      exact hcur
    · intro v
      by_cases hv : v = u
      · exact Or.inl (hv ▸ a3)
      · rcases h.has v with g | g | g
        · exact Or.inl (a4 v (has_asProc s.dependants g rfl))
        · exact Or.inr (Or.inl (by rw [a6]; exact g))
        · exact absurd g (hpend v hv)

theorem many_keep {w s s' as} (h : Many w s as) (hp : s.phase.now = []) (hn : ∀ v, ¬ Pending v s) (hf : Files s') (hm : ManyOk w s')
    (hh : ∀ v, Has v s → Has v s') (he : ∀ v, (∃ o, s.files v = some o ∧ o.editing = true) → ∃ o, s'.files v = some o ∧ o.editing = true)
    (hs : Same s s') (hp' : s'.phase.now = []) (hd : s'.phase.doc = none ∨ s'.phase.doc = s.phase.doc) : Many w s' as := by
  obtain ⟨e1, e2, e3, e4⟩ := hs
  refine ⟨?_, h.conf, hf, ?_, by rw [e1]; exact h.okq, ?_, ?_, hm⟩
  · rw [e1, e2, hp', ← h.arr, hp]
  · intro v hv
    rw [e2] at hv
    exact he v (h.edt v hv)
  · intro d hd'
    rw [e3]
    rcases hd with g | g
    · rw [g] at hd'
      cases hd'
    · exact h.cur d (g ▸ hd')
  · intro v
    rcases h.has v with g | g | g
    · exact Or.inl (hh v g)
    · exact Or.inr (Or.inl (by rw [e1]; exact g))
    · exact absurd g (hn v)

theorem many_parsing {w s as} (h : Many w s as) {u f t i left busy asked rest closing}
    (hp : s.phase = .parsing u f t i left busy asked rest closing) :
    ∃ s', s.loop u f t i left busy asked rest closing = .ok s' ∧ Many w s' as := by
  have hph := h.ph
  simp only [ManyOk, hp] at hph
  obtain ⟨p1, p2, p3, p4, p5, p6, p7⟩ := hph
  have hnow : s.phase.now = [] := by rw [hp]; rfl
  have hdoc : s.phase.doc = some u := by rw [hp]; rfl
  have hn : ∀ v, ¬ Pending v s := by
    rintro v (⟨r, g, _⟩ | ⟨f, g, _⟩) <;> rw [hp] at g <;> cases g
  cases hc : s.cancel with
  | true =>
    refine ⟨{ s with phase := .parsed u f t asked rest closing }, by simp [St.loop, hc], ?_⟩
    exact many_keep h hnow hn ⟨h.fil.ctxv, h.fil.mem, h.fil.dpt, h.fil.srt⟩ ⟨p1, p2, p3, p6, p7⟩ (fun _ g => g) (fun _ g => g) ⟨rfl, rfl, rfl, rfl⟩ rfl
      (Or.inr hdoc.symm)
  | false =>
    match left, p5 with
    | [], _ =>
      refine ⟨{ s with
          ctxs := s.ctxs.modify i (fun c => { c with known := t :: c.known, whole := true })
          phase := .parsed u f t asked rest closing }, by simp [St.loop, hc], ?_⟩
      exact many_keep h hnow hn ⟨by simpa using h.fil.ctxv, h.fil.mem, h.fil.dpt, h.fil.srt⟩ ⟨p1, p2, p3, p6, p7⟩ (fun _ g => g) (fun _ g => g)
        ⟨rfl, rfl, rfl, rfl⟩ rfl (Or.inr hdoc.symm)
    | .done m ok :: l, p5 =>
      refine ⟨{ s with
          ctxs := if ok then s.ctxs.modify i (fun c => { c with known := m :: c.known }) else s.ctxs
          phase := .parsing u f t i l (busy.erase m) asked rest closing }, by simp [St.loop, hc], ?_⟩
      have hl : (if ok then s.ctxs.modify i (fun c => { c with known := m :: c.known }) else s.ctxs).length = s.ctxs.length := by
        split <;> simp
      exact many_keep h hnow hn ⟨by intro a b c d e; show _ < List.length _; rw [hl]; exact h.fil.ctxv a b c d e, h.fil.mem, h.fil.dpt, h.fil.srt⟩
        ⟨p1, p2, p3, by show _ < List.length _; rw [hl]; exact p4, p5, p6, p7⟩ (fun _ g => g) (fun _ g => g)
        ⟨rfl, rfl, rfl, rfl⟩ rfl (Or.inr hdoc.symm)
    | .ask m :: l, p5 =>
      obtain ⟨c1, c2, c3⟩ := p5
      refine ⟨{ s with
          files := setFile s.files m (some { (s.files m).getD {} with proc := true, ctx := some i })
          phase := .parsing u f t i l (m :: busy) (m :: asked) rest closing }, by simp [St.loop, hc, c1, c2], ?_⟩
      have hk : ∀ x, Kept s.files x → Kept (setFile s.files m (some { (s.files m).getD {} with proc := true, ctx := some i })) x :=
        fun x g => kept_set g (fun _ => by simp)
      have hh : ∀ v, Has v s → Has v { s with
          files := setFile s.files m (some { (s.files m).getD {} with proc := true, ctx := some i })
          phase := .parsing u f t i l (m :: busy) (m :: asked) rest closing } := fun v g => has_set rfl g (fun _ => by simp)
      refine many_keep h hnow hn ?_ ⟨hh u p1, hk t p2, ?_, p4, c3, ?_, p7⟩ hh ?_ ⟨rfl, rfl, rfl, rfl⟩ rfl (Or.inr hdoc.symm)
      · refine files_set h.fil m { (s.files m).getD {} with proc := true, ctx := some i } rfl (Nat.le_refl _) (fun _ hx => hx) h.fil.srt ?_ ?_ ?_ ?_
        · intro j hj
          simp at hj
          exact hj ▸ p4
        · intro x hx
          cases hf : s.files m with
          | none => simp [hf] at hx
          | some o => exact hf ▸ hk x (h.fil.mem m o x hf (by simpa [hf] using hx))
        · intro hx
          cases hf : s.files m with
          | none => simp [hf] at hx
          | some o => exact ⟨(h.fil.dpt m o hf (by simpa [hf] using hx)).1, by simp⟩
        · intro _
          simp
      · intro x hx
        rcases List.mem_cons.mp hx with rfl | hx
        · exact ⟨_, by simp [setFile]; rfl, by simp⟩
        · exact hk x (p3 x hx)
      · intro q hq x hx y hy
        by_cases he : q.1 = m
        · cases hf : s.files m with
          | none =>
            simp [setFile, he, hf] at hx
            simp [← hx]
          | some o =>
            simp [setFile, he, hf] at hx
            rw [← hx]
            exact p6 q hq o (he ▸ hf) y hy
        · exact p6 q hq x (by simpa [setFile, he] using hx) y hy
      · rintro v ⟨x, e1, e2⟩
        by_cases hv : v = m
        · subst hv
          exact ⟨{ (s.files v).getD {} with proc := true, ctx := some i }, by simp [setFile], by simp [e1, e2]⟩
        · exact ⟨x, by simpa [setFile, hv] using e1, e2⟩

theorem many_parsed {w s as} (hcalm : ∀ n t, Calm t [] (w.steps n t)) (h : Many w s as) {u f t asked rest closing}
    (hp : s.phase = .parsed u f t asked rest closing) : Many w (St.afterLoop w s u f t asked rest closing) as := by
  have hph := h.ph
  simp only [ManyOk, hp] at hph
  obtain ⟨p1, ⟨o, p2, p3⟩, p4, p5, p6⟩ := hph
  have hnow : s.phase.now = [] := by rw [hp]; rfl
  have hdoc : s.phase.doc = some u := by rw [hp]; rfl
  have hn : ∀ v, ¬ Pending v s := by
    rintro v (⟨r, g, _⟩ | ⟨f, g, _⟩) <;> rw [hp] at g <;> cases g
  simp only [St.afterLoop, p2]
  have hdk : ∀ m ∈ (if s.cancel then o.deps else asked.filter (fun x => decide (x ≠ t))), Kept s.files m := by
    intro m hm
    split at hm
    · exact h.fil.mem t o m p2 hm
    · exact p4 m (List.mem_filter.mp hm).1
  generalize (if s.cancel then o.deps else asked.filter (fun x => decide (x ≠ t))) = deps at *
  have hcl : ∀ x ∈ o.deps.filter (fun x => decide (x ∉ deps)), x ∉ deps := by
    intro x hx
    simpa using (List.mem_filter.mp hx).2
  generalize o.deps.filter (fun x => decide (x ∉ deps)) = cl at *
  have hf1 : Files { s with
      files := setFile s.files t (some { o with deps := deps })
      dependants := if deps = [] then s.dependants else insertSet t s.dependants } := by
    refine files_set h.fil t { o with deps := deps } rfl (Nat.le_refl _) ?_ ?_ (h.fil.ctxv t o · p2) ?_ ?_ (fun _ => p3)
    · intro x hx
      show x ∈ (if deps = [] then s.dependants else insertSet t s.dependants)
      split
      · exact hx
      · exact (insertSet_mem t _ x).mpr (Or.inr hx)
    · show (if deps = [] then s.dependants else insertSet t s.dependants).Pairwise (· < ·)
      split
      · exact h.fil.srt
      · exact insertSet_sorted t _ h.fil.srt
    · intro m hm
      exact kept_set (hdk m hm) (fun _ => p3)
    · intro hm
      refine ⟨?_, p3⟩
      show t ∈ (if deps = [] then s.dependants else insertSet t s.dependants)
      rw [if_neg hm]
      exact (insertSet_mem t _ t).mpr (Or.inl rfl)
  have hh1 : ∀ v, Has v s → Has v { s with
      files := setFile s.files t (some { o with deps := deps })
      dependants := if deps = [] then s.dependants else insertSet t s.dependants } := fun v g => has_set rfl g (fun _ => p3)
  have he1 : ∀ v, (∃ o, s.files v = some o ∧ o.editing = true) →
      ∃ x, setFile s.files t (some { o with deps := deps }) v = some x ∧ x.editing = true := by
    rintro v ⟨x, e1, e2⟩
    by_cases hv : v = t
    · subst hv
      rw [p2] at e1
      cases e1
      exact ⟨{ o with deps := deps }, by simp [setFile], e2⟩
    · exact ⟨x, by simpa [setFile, hv] using e1, e2⟩
  have hnt : ∀ q ∈ closing, q.1 ≠ t := by
    intro q hq e
    have := (List.nodup_append.mp p6).2.2 q.1 (List.mem_map_of_mem hq) t (by simp)
    exact this e
  have hc1 : ClosingOk (setFile s.files t (some { o with deps := deps })) (closing ++ [(t, cl)]) := by
    intro q hq x hx y hy
    rcases List.mem_append.mp hq with hq | hq
    · exact p5 q hq x (by simpa [setFile, hnt q hq] using hx) y hy
    · simp at hq
      subst hq
      simp [setFile] at hx
      rw [← hx]
      exact hcl y hy
  cases rest with
  | cons t' rest =>
    obtain ⟨a1, a2, a3, a4, a5, a6, a10, a11, a12⟩ := analyse_many (f := f) (d := u) (t := t') (rest := rest) (closing := closing ++ [(t, cl)]) w hf1 hcalm
      (Or.inl (hh1 u p1)) hc1 (by simpa using p6)
    exact many_keep h hnow hn a1 a2 (fun v g => a4 v (hh1 v g)) (fun v g => a5 v (he1 v g)) a6 a10 (Or.inr (a11.trans hdoc.symm))
  | nil =>
    obtain ⟨a1, a2, a3, a4, a5, a6, a7, a8⟩ := fold_closeDeps (closing ++ [(t, cl)]) _ hf1 hc1
    exact many_keep h hnow hn ⟨a1.ctxv, a1.mem, a1.dpt, a1.srt⟩ (a2 u (hh1 u p1)) (fun v g => a2 v (hh1 v g)) (fun v g => a3 v (he1 v g))
      ⟨a4, a5, a6, a8⟩ rfl (Or.inr hdoc.symm)

theorem many_finish {w s as} (h : Many w s as) {u f} (hp : s.phase = .reported u f) : ∃ s', s.finish u f = .ok s' ∧ Many w s' as := by
  have hph := h.ph
  simp only [ManyOk, hp] at hph
  have hn : ∀ v, ¬ Pending v s := by
    rintro v (⟨r, g, _⟩ | ⟨f, g, _⟩) <;> rw [hp] at g <;> cases g
  refine ⟨{ s with phase := .idle }, ?_, many_keep h (by rw [hp]; rfl) hn ⟨h.fil.ctxv, h.fil.mem, h.fil.dpt, h.fil.srt⟩ trivial (fun _ g => g) (fun _ g => g)
    ⟨rfl, rfl, rfl, rfl⟩ rfl (Or.inl rfl)⟩
  unfold St.finish
  split
  · rfl
  · cases hf : s.files u with
    | none => rfl
    | some o =>
      have := hph o hf
      cases hc : o.ctx with
      | none => exact absurd hc this
      | some i => simp [hc]

theorem many_work {w s as} (hcalm : ∀ n t, Calm t [] (w.steps n t)) (ho : Orderly as) (h : Many w s as) :
    (∃ s', s.work w = .ok s' ∧ Many w s' as) ∨ Stuck s := by
  unfold St.work
  cases hp : s.phase with
  | idle =>
    left
    cases hq : s.queue with
    | nil => exact ⟨s, rfl, h⟩
    | cons a q => exact ⟨_, rfl, many_take h hp hq⟩
  | begun r =>
    cases r with
    | opened u => exact Or.inl (many_opened h hp)
    | changed u => exact Or.inl (many_changed h hp)
    | closed u => exact Or.inl (many_closed h ho hp)
    | ask k u => exact many_ask h hp
  | updated u f =>
    left
    cases hc : s.cancel with
    | true =>
      have hn : ∀ v, ¬ Pending v s := by
        rintro v (⟨r, g, _⟩ | ⟨f, g, e⟩)
        · rw [hp] at g
          cases g
        · rw [hc] at e
          cases e
      exact ⟨{ s with phase := .idle }, by simp [hc], many_keep h (by rw [hp]; rfl) hn ⟨h.fil.ctxv, h.fil.mem, h.fil.dpt, h.fil.srt⟩ trivial
        (fun _ g => g) (fun _ g => g) ⟨rfl, rfl, rfl, rfl⟩ rfl (Or.inl rfl)⟩
    | false => exact ⟨St.startParse w s u f, by simp [hc], many_updated hcalm h hp hc⟩
  | parsing u f t i left busy asked rest closing => exact Or.inl (many_parsing h hp)
  | parsed u f t asked rest closing => exact Or.inl ⟨_, rfl, many_parsed hcalm h hp⟩
  | reported u f => exact Or.inl (many_finish h hp)

theorem orderly_prefix {a b : List Req} (h : Orderly (a ++ b)) : Orderly a := by
  intro pre d post hs
  exact h pre d (post ++ b) (by rw [hs]; simp)

theorem many_run {w : World} (hcalm : ∀ n t, Calm t [] (w.steps n t)) : ∀ (evs : List Ev) (s : St) (as : List Req), Many w s as →
    (∀ r ∈ arrivals evs, w.conf r.doc = false) → Orderly (as ++ arrivals evs) →
      (∃ s', St.run w s evs = .ok s') ∨
        ∃ before after s', evs = before ++ .work :: after ∧ St.run w s before = .ok s' ∧ Stuck s'
  | [], s, as, h, _, _ => Or.inl ⟨s, rfl⟩
  | .arrive r :: es, s, as, h, hc, ho => by
    have := many_run hcalm es (s.arrive r) (as ++ [r]) (many_arrive h r (hc r (by simp [arrivals])))
      (fun x hx => hc x (by simp [arrivals, hx])) (by simpa [arrivals] using ho)
    rcases this with g | ⟨b, a, s', g1, g2, g3⟩
    · exact Or.inl g
    · exact Or.inr ⟨.arrive r :: b, a, s', by rw [g1]; rfl, g2, g3⟩
  | .work :: es, s, as, h, hc, ho => by
    rcases many_work hcalm (orderly_prefix ho) h with ⟨s1, h1, h2⟩ | g
    · have := many_run hcalm es s1 as h2 hc ho
      rcases this with ⟨s', g⟩ | ⟨b, a, s', g1, g2, g3⟩
      · exact Or.inl ⟨s', by simp only [St.run, St.step, h1, g]⟩
      · exact Or.inr ⟨.work :: b, a, s', by rw [g1]; rfl, by simp only [St.run, St.step, h1, g2], g3⟩
    · exact Or.inr ⟨[], es, s, rfl, rfl, g⟩

/-- C139: with any number of documents, any notifications and questions and any cancellation, there is only one way for the server to fail: a symbol is to
be completed in a document that an analysis had come to know before it was broken off. (Partial: the full property says that there is none; the
documents are not configuration files, no program needs a file while it is analysed, and the client closes only what is open.) -/
theorem C139_only_partial (w : World) (hcalm : ∀ n t, Calm t [] (w.steps n t)) (evs : List Ev)
    (hconf : ∀ r ∈ arrivals evs, w.conf r.doc = false) (ho : Orderly (arrivals evs)) :
    (∃ s, St.run w {} evs = .ok s) ∨
      ∃ before after s, evs = before ++ .work :: after ∧ St.run w {} before = .ok s ∧ Stuck s :=
  many_run hcalm evs {} [] (many_init w) hconf (by simpa using ho)

/-- And there it fails indeed. -/
theorem C139_stuck_negation (w : World) (s : St) (h : Stuck s) : s.work w = .error .noOpencode := by
  obtain ⟨d, p, o, i, c, h1, h2, h3, h4, h5, h6, h7, h8⟩ := h
  simp [St.work, h1, St.carry, h2, answer, h3, fromFile, h4, h5, h6, h7, h8]

/-- The programs of `desk` do not need their own files. -/
theorem desk_calm : ∀ n t, Calm t [] (desk.steps n t) := by
  intro n t
  simp only [desk]
  split
  · rename_i ht
    subst ht
    simp [Calm]
  · trivial

/-- A case of `C139_only_partial`: program 1, member 2 and another document are open; program 1 is being analysed again when the client asks about the others, types on and closes
member 2. Everything is carried out; the question about member 2 is answered from the analysis of program 1 that was broken off. -/
example : (∀ n t, Calm t [] (desk.steps n t)) ∧
    Orderly [.opened 1, .opened 2, .opened 5, .changed 1, .ask .lookup 2, .ask .tokens 5, .changed 1, .closed 2] ∧
    (entries desk ([.arrive (.opened 1)] ++ works 20 ++ [.arrive (.opened 2)] ++ works 20 ++ [.arrive (.opened 5)] ++ works 20 ++ [.arrive (.changed 1)] ++
      works 5 ++ [.arrive (.ask .lookup 2), .arrive (.ask .tokens 5), .arrive (.changed 1), .arrive (.closed 2)] ++ works 30)).map (fun e => (e.req, e.ans)) =
    [(.opened 1, none), (.opened 2, none), (.opened 5, none), (.changed 1, none), (.ask .lookup 2, some (.from ⟨1, 4, [2], false⟩)),
      (.ask .tokens 5, some (.from ⟨5, 3, [5], true⟩)), (.changed 1, none), (.closed 2, none)] := by
  refine ⟨desk_calm, ?_, by decide +kernel⟩
  intro pre d post h
  match pre, h with
  | [_, _, _, _, _, _, _], h =>
    simp at h
    obtain ⟨rfl, rfl, rfl, rfl, rfl, rfl, rfl, rfl, rfl⟩ := h
    decide +kernel
  | [], h => simp at h
  | [_], h => simp at h
  | [_, _], h => simp at h
  | [_, _, _], h => simp at h
  | [_, _, _, _], h => simp at h
  | [_, _, _, _, _], h => simp at h
  | [_, _, _, _, _, _], h => simp at h
  | _ :: _ :: _ :: _ :: _ :: _ :: _ :: _ :: l, h => simp at h

end Verif.Broken
