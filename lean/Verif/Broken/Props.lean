import Verif.Broken.Spec
/-!
C139: questions about documents are answered, and from what they are answered.
-/
namespace Verif.Broken

/-! ### Lists of messages -/

theorem arrivals_append (a b : List Ev) : arrivals (a ++ b) = arrivals a ++ arrivals b := by
  induction a with
  | nil => rfl
  | cons e es ih => cases e <;> simp [arrivals, ih]

theorem notified_append (a b : List Req) : notified (a ++ b) = notified a + notified b := by
  induction a with
  | nil => simp [notified]
  | cons r rs ih => cases r <;> simp [notified, ih] <;> omega

theorem isOpenFrom_append (d : Uri) (n : Bool) (a b : List Req) :
    isOpenFrom d n (a ++ b) = isOpenFrom d (isOpenFrom d n a) b := by
  induction a generalizing n with
  | nil => rfl
  | cons r rs ih => cases r <;> simp [isOpenFrom, ih]

theorem isOpen_snoc (d : Uri) (a : List Req) (r : Req) : isOpen d (a ++ [r]) = isOpenFrom d (isOpen d a) [r] :=
  isOpenFrom_append d false a [r]

/-! ### The queue -/

/-- The first request that is not marked brings a text. -/
def promise : List (Req × Bool) → Prop
  | [] => False
  | (r, true) :: _ => r.parses = true
  | (_, false) :: q => promise q

/-- Marked requests are followed by one that brings a text. -/
def okq : List (Req × Bool) → Prop
  | [] => True
  | (_, v) :: q => (v = false → promise q) ∧ okq q

theorem promise_append {q : List (Req × Bool)} (x) (h : promise q) : promise (q ++ x) := by
  induction q with
  | nil => exact h.elim
  | cons a q ih =>
    obtain ⟨r, v⟩ := a
    cases v
    · exact ih h
    · exact h

theorem okq_snoc {q : List (Req × Bool)} (r : Req) (h : okq q) : okq (q ++ [(r, true)]) := by
  induction q with
  | nil => exact ⟨by simp, trivial⟩
  | cons a q ih => exact ⟨fun hv => promise_append _ (h.1 hv), ih h.2⟩

theorem marked_promise (q : List (Req × Bool)) (r : Req) (hr : r.parses = true) (h : ∀ x ∈ q, x.2 = false) :
    promise (q ++ [(r, true)]) ∧ okq (q ++ [(r, true)]) := by
  induction q with
  | nil => exact ⟨hr, by simp, trivial⟩
  | cons a q ih =>
    obtain ⟨a, v⟩ := a
    obtain ⟨h1, h2⟩ := ih (fun x hx => h x (by simp [hx]))
    have : v = false := h (a, v) (by simp)
    subst this
    exact ⟨h1, fun _ => h1, h2⟩

theorem promise_notified {q : List (Req × Bool)} (h : promise q) : 0 < notified (q.map (·.1)) := by
  induction q with
  | nil => exact h.elim
  | cons a q ih =>
    obtain ⟨r, v⟩ := a
    cases v
    · have := ih h
      cases r <;> simp [notified] <;> exact this
    · cases r <;> simp_all [promise, Req.parses, notified]

/-! ### Files -/

theorem asProc_isSome (fs us x) : (asProc fs us x).isSome = (fs x).isSome := by
  unfold asProc
  split <;> simp

theorem asProc_some {fs us x o} (h : asProc fs us x = some o) :
    ∃ o', fs x = some o' ∧ o.text = o'.text ∧ o.deps = o'.deps ∧ o.ctx = o'.ctx ∧ (o'.proc = true → o.proc = true) := by
  unfold asProc at h
  split at h
  · cases hf : fs x with
    | none => simp [hf] at h
    | some o' =>
      simp [hf] at h
      subst h
      exact ⟨o', rfl, rfl, rfl, rfl, fun _ => rfl⟩
  · exact ⟨o, h, rfl, rfl, rfl, id⟩

theorem asProc_of {fs us x o} (h : fs x = some o) (hp : o.proc = true) : asProc fs us x = some o := by
  unfold asProc
  split
  · obtain ⟨p, e, t, c, ds⟩ := o
    simp only at hp
    subst hp
    simp [h]
  · exact h

theorem closeDeps_files (s : St) (deps : List Uri) (p d : Uri) (h : d ∉ deps) :
    (closeDeps s deps p).files d = asProc s.files (deps ++ s.dependants) d := by
  simp only [closeDeps]
  rw [if_neg]
  intro hm
  exact h (List.mem_filter.mp hm).1

/-! ### One document -/

/-- There is no file, or its analysis is complete and of its text. -/
def Good (d : Uri) (s : St) : Prop :=
  ∀ o, s.files d = some o → o.proc = true ∧
    ∃ i c, o.ctx = some i ∧ s.ctxs[i]? = some c ∧ c.whole = true ∧ c.owner = d ∧ c.text = s.clock

/-- The file's analysis has number `i` and is of its text. -/
def Mine (d : Uri) (s : St) (i : Nat) (o : File) (c : Ctx) : Prop :=
  s.files d = some o ∧ o.proc = true ∧ o.ctx = some i ∧ s.ctxs[i]? = some c ∧ c.owner = d ∧ c.text = s.clock

def PhaseOk (d : Uri) (s : St) : Prop :=
  match s.phase with
  | .idle => Good d s ∨ promise s.queue
  | .begun r => (s.cancel = true → promise s.queue) ∧ (s.cancel = false → (∃ k u, r = .ask k u) → Good d s)
  | .updated d' _ => d' = d ∧ (s.cancel = true → promise s.queue)
  | .parsing d' _ t i left busy _ rest closing =>
    d' = d ∧ t = d ∧ rest = [] ∧ closing = [] ∧ (s.cancel = true → promise s.queue) ∧ Calm d busy left ∧ ∃ o c, Mine d s i o c
  | .parsed d' _ t _ rest closing =>
    d' = d ∧ t = d ∧ rest = [] ∧ closing = [] ∧ (s.cancel = true → promise s.queue) ∧
      ∃ i o c, Mine d s i o c ∧ (s.cancel = false → c.whole = true)
  | .reported d' _ => d' = d ∧ (s.cancel = true → promise s.queue) ∧ (s.cancel = false → Good d s)

/-- The request that is about to be carried out. -/
def Phase.now : Phase → List Req
  | .begun r => [r]
  | _ => []

structure Inv (d : Uri) (s : St) (as : List Req) : Prop where
  arr : s.log.map (·.req) ++ s.phase.now ++ s.queue.map (·.1) = as
  docs : ∀ r ∈ as, r.doc = d
  cnt : s.arrived = notified as
  clk : s.clock = notified (s.log.map (·.req))
  opn : (s.files d).isSome = isOpen d (s.log.map (·.req))
  txt : ∀ o, s.files d = some o → o.text = s.clock
  dep : s.dependants = [] ∨ (s.dependants = [d] ∧ (s.files d).isSome = true)
  own : ∀ o, s.files d = some o → d ∉ o.deps
  okq : okq s.queue
  ans : ∀ pre e post, s.log = pre ++ e :: post → Served d (pre.map (·.req)) e
  ph : PhaseOk d s

theorem inv_init (d : Uri) : Inv d {} [] := by
  refine ⟨rfl, by simp, rfl, rfl, rfl, by simp, Or.inl rfl, by simp, trivial, by simp, ?_⟩
  left
  intro o ho
  simp at ho

theorem notified_one (r : Req) : notified [r] = if r.parses then 1 else 0 := by cases r <;> rfl

/-- A message arrives. -/
theorem inv_arrive {d s as} (h : Inv d s as) (r : Req) (hr : r.doc = d) : Inv d (s.arrive r) (as ++ [r]) := by
  have hd : ∀ x ∈ as ++ [r], x.doc = d := by
    intro x hx
    simp at hx
    rcases hx with hx | hx
    · exact h.docs x hx
    · exact hx ▸ hr
  have hcnt : s.arrived + (if r.parses then 1 else 0) = notified (as ++ [r]) := by
    rw [notified_append, notified_one, h.cnt]
  by_cases hc : s.cur = some r.doc ∧ r.parses = true
  · simp only [St.arrive, if_pos hc]
    have hq : s.queue.map (fun q => if q.1.doc = r.doc then (q.1, false) else q) = s.queue.map (fun q => (q.1, false)) := by
      apply List.map_congr_left
      intro q hq
      have : q.1.doc = d := h.docs _ (by rw [← h.arr]; exact List.mem_append_right _ (List.mem_map_of_mem hq))
      simp [this, hr]
    have hp := marked_promise (s.queue.map (fun q => (q.1, false))) r hc.2 (by simp)
    simp only [hq]
    refine ⟨?_, hd, hcnt, h.clk, h.opn, h.txt, h.dep, h.own, hp.2, h.ans, ?_⟩
    · simp only [← h.arr]
      simp [List.map_map, Function.comp_def]
    · have := h.ph
      unfold PhaseOk at this ⊢
      cases hph : s.phase <;> simp only [hph] at this ⊢
      · exact Or.inr hp.1
      · exact ⟨fun _ => hp.1, by simp⟩
      · exact ⟨this.1, fun _ => hp.1⟩
      · obtain ⟨a1, a2, a3, a4, a5, a6, a7⟩ := this
        exact ⟨a1, a2, a3, a4, fun _ => hp.1, a6, a7⟩
      · obtain ⟨a1, a2, a3, a4, a5, i, o, c, a6, a7⟩ := this
        exact ⟨a1, a2, a3, a4, fun _ => hp.1, i, o, c, a6, by simp⟩
      · exact ⟨this.1, fun _ => hp.1, by simp⟩
  · simp only [St.arrive, if_neg hc]
    refine ⟨?_, hd, hcnt, h.clk, h.opn, h.txt, h.dep, h.own, okq_snoc r h.okq, h.ans, ?_⟩
    · simp only [← h.arr]
      simp
    · have := h.ph
      unfold PhaseOk at this ⊢
      cases hph : s.phase <;> simp only [hph] at this ⊢
      · rcases this with g | g
        · exact Or.inl g
        · exact Or.inr (promise_append _ g)
      · exact ⟨fun hc => promise_append _ (this.1 hc), this.2⟩
      · exact ⟨this.1, fun hc => promise_append _ (this.2 hc)⟩
      · obtain ⟨a1, a2, a3, a4, a5, a6, a7⟩ := this
        exact ⟨a1, a2, a3, a4, fun hc => promise_append _ (a5 hc), a6, a7⟩
      · obtain ⟨a1, a2, a3, a4, a5, a6⟩ := this
        exact ⟨a1, a2, a3, a4, fun hc => promise_append _ (a5 hc), a6⟩
      · exact ⟨this.1, fun hc => promise_append _ (this.2.1 hc), this.2.2⟩

theorem served_snoc {d : Uri} {log : List Entry} {e : Entry}
    (h : ∀ pre e post, log = pre ++ e :: post → Served d (pre.map (·.req)) e) (he : Served d (log.map (·.req)) e) :
    ∀ pre e' post, log ++ [e] = pre ++ e' :: post → Served d (pre.map (·.req)) e' := by
  intro pre e' post hs
  rcases List.append_eq_append_iff.mp hs with ⟨l, h1, h2⟩ | ⟨l, h1, h2⟩
  · cases l with
    | nil =>
      simp at h1 h2
      rw [h1, ← h2.1]
      exact he
    | cons x l => simp at h2
  · cases l with
    | nil =>
      simp at h1 h2
      rw [← h1, h2.1]
      exact he
    | cons x l =>
      simp at h2
      exact h pre e' l (by rw [h1, h2.1])

theorem needs_own {fs : Uri → Option File} {d : Uri} (h : ∀ o, fs d = some o → d ∉ o.deps) : needs fs d d = false := by
  unfold needs
  cases hf : fs d with
  | none => rfl
  | some o => simp [h o hf]

theorem dependantsOf_nil {s : St} {d : Uri} (hd : ∀ x ∈ s.dependants, x = d) (h : ∀ o, s.files d = some o → d ∉ o.deps) :
    dependantsOf s d = [] := by
  unfold dependantsOf
  rw [List.filter_eq_nil_iff]
  intro x hx
  rw [hd x hx, needs_own h]
  simp

theorem Inv.only {d s as} (h : Inv d s as) : ∀ x ∈ s.dependants, x = d := by
  rcases h.dep with g | g
  · simp [g]
  · simp [g.1]

theorem good_asProc {d : Uri} {s s' : St} (us : List Uri) (h : Good d s) (hf : s'.files d = asProc s.files us d) (hc : s'.ctxs = s.ctxs)
    (hk : s'.clock = s.clock) : Good d s' := by
  intro o ho
  rw [hf] at ho
  obtain ⟨o', h1, h2, h3, h4, h5⟩ := asProc_some ho
  obtain ⟨g1, i, c, g2⟩ := h o' h1
  exact ⟨h5 g1, i, c, by rw [h4, hc, hk]; exact g2⟩

/-- The worker takes a request. -/
theorem inv_take {d s as} (h : Inv d s as) {r v q} (hp : s.phase = .idle) (hq : s.queue = (r, v) :: q) :
    Inv d { s with queue := q, cur := some r.doc, cancel := !v, phase := .begun r } as := by
  have ho := h.okq
  have hph := h.ph
  rw [hq] at ho
  simp only [PhaseOk, hp, hq] at hph
  refine ⟨?_, h.docs, h.cnt, h.clk, h.opn, h.txt, h.dep, h.own, ho.2, h.ans, ?_, ?_⟩
  · rw [← h.arr, hp, hq]
    simp [Phase.now]
  · intro hv
    exact ho.1 (by simpa using hv)
  · intro hv ⟨k, u, hr⟩
    have : v = true := by simpa using hv
    subst this hr
    rcases hph with g | g
    · exact g
    · simp [promise, Req.parses] at g

theorem served_other {d : Uri} {pre : List Req} {e : Entry} (h : ∀ k u, e.req ≠ .ask k u) : Served d pre e :=
  fun k hk => absurd hk (h k d)

theorem inv_opened {d s as} (h : Inv d s as) {u} (hp : s.phase = .begun (.opened u)) :
    ∃ s', s.carry (.opened u) = .ok s' ∧ Inv d s' as := by
  have hu : u = d := h.docs (.opened u) (by rw [← h.arr, hp]; simp [Phase.now])
  subst hu
  have hph := h.ph
  simp only [PhaseOk, hp] at hph
  refine ⟨_, rfl, ?_⟩
  refine ⟨?_, h.docs, h.cnt, ?_, ?_, ?_, ?_, ?_, h.okq, ?_, ?_⟩
  · rw [← h.arr, hp]
    simp [Phase.now, St.note]
  · simp [St.note, notified_append, notified, h.clk]
  · simp [St.note, isOpen_snoc, isOpenFrom, setFile]
  · intro o ho
    simp [St.note, setFile] at ho
    simp [St.note, ← ho]
  · rcases h.dep with g | g
    · exact Or.inl g
    · exact Or.inr ⟨g.1, by simp [St.note, setFile]⟩
  · intro o ho
    simp [St.note, setFile] at ho
    rw [← ho]
    cases hf : s.files u with
    | none => simp
    | some o' => simpa using h.own o' hf
  · exact served_snoc h.ans (served_other (by simp))
  · exact ⟨rfl, hph.1⟩

theorem inv_changed {d s as} (h : Inv d s as) {u} (hp : s.phase = .begun (.changed u)) :
    ∃ s', s.carry (.changed u) = .ok s' ∧ Inv d s' as := by
  have hu : u = d := h.docs (.changed u) (by rw [← h.arr, hp]; simp [Phase.now])
  subst hu
  have hph := h.ph
  simp only [PhaseOk, hp] at hph
  refine ⟨_, rfl, ?_⟩
  refine ⟨?_, h.docs, h.cnt, ?_, ?_, ?_, ?_, ?_, h.okq, ?_, ?_⟩
  · rw [← h.arr, hp]
    simp [Phase.now, St.note]
  · simp [St.note, notified_append, notified, h.clk]
  · simp [St.note, isOpen_snoc, isOpenFrom, setFile, h.opn]
  · intro o ho
    simp [St.note, setFile] at ho
    obtain ⟨o', _, ho⟩ := ho
    simp [St.note, ← ho]
  · rcases h.dep with g | g
    · exact Or.inl g
    · exact Or.inr ⟨g.1, by simpa [St.note, setFile] using g.2⟩
  · intro o ho
    simp [St.note, setFile] at ho
    obtain ⟨o', h1, ho⟩ := ho
    rw [← ho]
    exact h.own o' h1
  · exact served_snoc h.ans (served_other (by simp))
  · exact ⟨rfl, hph.1⟩

theorem close_ok {d s as} (h : Inv d s as) :
    ∃ s', s.close d = .ok s' ∧ s'.files d = none ∧ s'.dependants = [] ∧ s'.queue = s.queue ∧ s'.log = s.log ∧ s'.arrived = s.arrived ∧
      s'.clock = s.clock := by
  have hnil : dependantsOf { s with files := asProc s.files s.dependants } d = [] := by
    refine dependantsOf_nil (s := { s with files := asProc s.files s.dependants }) h.only ?_
    intro o ho
    obtain ⟨o', h1, _, h3, _⟩ := asProc_some ho
    rw [h3]
    exact h.own o' h1
  unfold St.close
  simp only [hnil, ne_eq, not_true_eq_false, if_false]
  rcases h.dep with g | g
  · simp only [g, List.not_mem_nil, if_false]
    exact ⟨_, rfl, by simp [setFile], by simp [g], rfl, rfl, rfl, rfl⟩
  · simp only [g.1, List.mem_singleton, if_true]
    have hs : (asProc s.files [d] d).isSome = true := by rw [asProc_isSome]; exact g.2
    cases hf : asProc s.files [d] d with
    | none => simp [hf] at hs
    | some o => exact ⟨_, rfl, by simp [setFile], by simp [closeDeps, g.1], rfl, rfl, rfl, rfl⟩

theorem inv_closed {d s as} (h : Inv d s as) {u} (hp : s.phase = .begun (.closed u)) :
    ∃ s', s.carry (.closed u) = .ok s' ∧ Inv d s' as := by
  have hu : u = d := h.docs (.closed u) (by rw [← h.arr, hp]; simp [Phase.now])
  subst hu
  obtain ⟨s', h0, h1, h2, h3, h4, h5, h6⟩ := close_ok h
  refine ⟨St.note { s' with phase := .idle } (.closed u) none, by simp only [St.carry, h0], ?_⟩
  refine ⟨?_, h.docs, ?_, ?_, ?_, ?_, Or.inl h2, ?_, ?_, ?_, Or.inl ?_⟩
  · rw [← h.arr, hp]
    simp [Phase.now, St.note, h3, h4]
  · simp [St.note, h5, h.cnt]
  · simp [St.note, notified_append, notified, h.clk, h4, h6]
  · simp [St.note, isOpen_snoc, isOpenFrom, h1]
  · intro o ho
    simp [St.note, h1] at ho
  · intro o ho
    simp [St.note, h1] at ho
  · simp only [St.note, h3]
    exact h.okq
  · simp only [St.note, h4]
    exact served_snoc h.ans (served_other (by simp))
  · intro o ho
    simp [St.note, h1] at ho

theorem answer_ok {d s as} (h : Inv d s as) (g : Good d s) (k : Kind) :
    ∃ a, answer s k d = .ok a ∧
      ((∃ c, a = .from c ∧ isOpen d (s.log.map (·.req)) = true ∧ c.whole = true ∧ c.owner = d ∧ c.text = notified (s.log.map (·.req))) ∨
        (a = .nothing ∧ isOpen d (s.log.map (·.req)) = false)) := by
  have hnil := dependantsOf_nil h.only h.own
  have hr : related s d = if (s.files d).isSome then some d else none := by simp [related, hnil]
  cases hf : s.files d with
  | none =>
    have ho : isOpen d (s.log.map (·.req)) = false := by rw [← h.opn, hf]; rfl
    refine ⟨.nothing, ?_, Or.inr ⟨rfl, ho⟩⟩
    cases k <;> simp [answer, hr, hf]
  | some o =>
    have ho : isOpen d (s.log.map (·.req)) = true := by rw [← h.opn, hf]; rfl
    obtain ⟨g1, i, c, g2, g3, g4, g5, g6⟩ := g o hf
    refine ⟨.from c, ?_, Or.inl ⟨c, rfl, ho, g4, g5, by rw [g6, h.clk]⟩⟩
    cases k <;> simp [answer, hr, hf, fromFile, g1, g2, g3, g4]

theorem filesAfter_eq (s : St) (k : Kind) (d : Uri) : ∃ us, filesAfter s k d = asProc s.files us := by
  cases k with
  | tokens => exact ⟨[], by funext x; simp [filesAfter, asProc]⟩
  | lookup => exact ⟨_, rfl⟩
  | complete b => exact ⟨_, rfl⟩

theorem inv_ask {d s as} (h : Inv d s as) {k u} (hp : s.phase = .begun (.ask k u)) :
    ∃ s', s.carry (.ask k u) = .ok s' ∧ Inv d s' as := by
  have hu : u = d := h.docs (.ask k u) (by rw [← h.arr, hp]; simp [Phase.now])
  subst hu
  have hph := h.ph
  simp only [PhaseOk, hp] at hph
  have harr := h.arr
  rw [hp] at harr
  simp only [Phase.now] at harr
  cases hc : s.cancel with
  | true =>
    refine ⟨St.note { s with phase := .idle } (.ask k u) (some .nothing), by simp [St.carry, hc], ?_⟩
    have hpr := hph.1 hc
    refine ⟨?_, h.docs, h.cnt, ?_, ?_, h.txt, h.dep, h.own, h.okq, ?_, Or.inr hpr⟩
    · rw [← harr]
      simp [St.note, Phase.now]
    · simp [St.note, notified_append, notified, h.clk]
    · simp [St.note, isOpen_snoc, isOpenFrom, h.opn]
    · refine served_snoc h.ans ?_
      intro k' _
      refine Or.inr ⟨rfl, Or.inr ?_⟩
      have := promise_notified hpr
      simp only [h.cnt, ← harr, notified_append]
      omega
  | false =>
    have g := hph.2 hc ⟨k, u, rfl⟩
    obtain ⟨a, ha, hs⟩ := answer_ok h g k
    obtain ⟨us, hus⟩ := filesAfter_eq s k u
    refine ⟨St.note { s with files := filesAfter s k u, phase := .idle } (.ask k u) (some a), by simp [St.carry, hc, ha], ?_⟩
    refine ⟨?_, h.docs, h.cnt, ?_, ?_, ?_, ?_, ?_, h.okq, ?_, Or.inl ?_⟩
    · rw [← harr]
      simp [St.note, Phase.now]
    · simp [St.note, notified_append, notified, h.clk]
    · simp [St.note, isOpen_snoc, isOpenFrom, h.opn, hus, asProc_isSome]
    · intro o ho
      simp only [St.note, hus] at ho
      obtain ⟨o', h1, h2, _⟩ := asProc_some ho
      rw [h2]
      exact h.txt o' h1
    · rcases h.dep with g | g
      · exact Or.inl g
      · exact Or.inr ⟨g.1, by simpa [St.note, hus, asProc_isSome] using g.2⟩
    · intro o ho
      simp only [St.note, hus] at ho
      obtain ⟨o', h1, _, h3, _⟩ := asProc_some ho
      rw [h3]
      exact h.own o' h1
    · refine served_snoc h.ans ?_
      intro k' _
      rcases hs with ⟨c, rfl, hs⟩ | ⟨rfl, hs⟩
      · exact Or.inl ⟨c, rfl, hs⟩
      · exact Or.inr ⟨rfl, Or.inl hs⟩
    · exact good_asProc us g (by simp [St.note, hus]) rfl rfl

theorem inv_updated {w : World} {d s as} (hconf : w.conf d = false) (hcalm : ∀ n, Calm d [] (w.steps n d)) (h : Inv d s as) {u f}
    (hp : s.phase = .updated u f) (hc : s.cancel = false) : Inv d (St.startParse w s u f) as := by
  have hph := h.ph
  simp only [PhaseOk, hp] at hph
  obtain ⟨rfl, hpr⟩ := hph
  have harr := h.arr
  rw [hp] at harr
  have hnil := dependantsOf_nil h.only h.own
  cases hf : s.files u with
  | none =>
    have ht : targets w s u = [] := by simp [targets, hconf, hnil, hf]
    simp only [St.startParse, ht]
    refine ⟨harr, h.docs, h.cnt, h.clk, h.opn, h.txt, h.dep, h.own, h.okq, h.ans, rfl, hpr, ?_⟩
    intro _ o ho
    simp [hf] at ho
  | some o =>
    have ht : targets w s u = [u] := by simp [targets, hconf, hnil, hf]
    have ha : ∃ o', asProc s.files s.dependants u = some o' ∧ o'.text = s.clock ∧ u ∉ o'.deps := by
      cases hg : asProc s.files s.dependants u with
      | none =>
        have := asProc_isSome s.files s.dependants u
        simp [hf, hg] at this
      | some o' =>
        obtain ⟨o2, h1, h2, h3, _⟩ := asProc_some hg
        exact ⟨o', rfl, by rw [h2]; exact h.txt o2 h1, by rw [h3]; exact h.own o2 h1⟩
    obtain ⟨o', ha, hat, had⟩ := ha
    simp only [St.startParse, ht, St.analyse, ha]
    refine ⟨harr, h.docs, h.cnt, h.clk, ?_, ?_, ?_, ?_, h.okq, h.ans, rfl, rfl, rfl, rfl, hpr, hcalm _, ?_⟩
    · rw [← h.opn, hf]
      simp [setFile]
    · intro x hx
      simp [setFile] at hx
      rw [← hx]
      exact hat
    · rcases h.dep with g | g
      · exact Or.inl g
      · exact Or.inr ⟨g.1, by simp [setFile]⟩
    · intro x hx
      simp [setFile] at hx
      rw [← hx]
      exact had
    · exact ⟨{ o' with proc := true, ctx := some s.ctxs.length }, ⟨u, o'.text, [], false⟩, by simp [setFile], rfl, rfl, by simp, rfl, hat⟩

theorem modify_get {l : List Ctx} {i : Nat} {c : Ctx} (f : Ctx → Ctx) (h : l[i]? = some c) : (l.modify i f)[i]? = some (f c) := by
  simp [List.getElem?_modify, h]

theorem inv_parsing {d s as} (h : Inv d s as) {u f t i left busy asked rest closing}
    (hp : s.phase = .parsing u f t i left busy asked rest closing) :
    ∃ s', s.loop u f t i left busy asked rest closing = .ok s' ∧ Inv d s' as := by
  have hph := h.ph
  simp only [PhaseOk, hp] at hph
  obtain ⟨rfl, rfl, rfl, rfl, hpr, hcalm, o, c, hm⟩ := hph
  have harr := h.arr
  rw [hp] at harr
  cases hc : s.cancel with
  | true =>
    refine ⟨{ s with phase := .parsed t f t asked [] [] }, by simp [St.loop, hc], ?_⟩
    exact ⟨harr, h.docs, h.cnt, h.clk, h.opn, h.txt, h.dep, h.own, h.okq, h.ans, rfl, rfl, rfl, rfl, hpr, i, o, c, hm, by simp [hc]⟩
  | false =>
    obtain ⟨m1, m2, m3, m4, m5, m6⟩ := hm
    match left, hcalm with
    | [], _ =>
      refine ⟨{ s with
          ctxs := s.ctxs.modify i (fun c => { c with known := t :: c.known, whole := true })
          phase := .parsed t f t asked [] [] }, by simp [St.loop, hc], ?_⟩
      exact ⟨harr, h.docs, h.cnt, h.clk, h.opn, h.txt, h.dep, h.own, h.okq, h.ans, rfl, rfl, rfl, rfl, hpr, i, o, _,
        ⟨m1, m2, m3, modify_get _ m4, m5, m6⟩, fun _ => rfl⟩
    | .ask m :: l, hcalm =>
      obtain ⟨c1, c2, c3⟩ := hcalm
      have hs : (setFile s.files m (some { (s.files m).getD {} with proc := true, ctx := some i })) t = s.files t := by
        simp [setFile, Ne.symm c1]
      refine ⟨{ s with
          files := setFile s.files m (some { (s.files m).getD {} with proc := true, ctx := some i })
          phase := .parsing t f t i l (m :: busy) (m :: asked) [] [] }, by simp [St.loop, hc, c1, c2], ?_⟩
      refine ⟨harr, h.docs, h.cnt, h.clk, by rw [← h.opn]; simp only [hs], ?_, ?_, ?_, h.okq, h.ans, rfl, rfl, rfl, rfl, hpr, c3, o, c,
        by rw [← m1]; exact hs, m2, m3, m4, m5, m6⟩
      · intro x hx
        exact h.txt x (by rw [← hs]; exact hx)
      · rcases h.dep with g | g
        · exact Or.inl g
        · exact Or.inr ⟨g.1, (congrArg Option.isSome hs).trans g.2⟩
      · intro x hx
        exact h.own x (by rw [← hs]; exact hx)
    | .done m ok :: l, hcalm =>
      refine ⟨{ s with
          ctxs := if ok then s.ctxs.modify i (fun c => { c with known := m :: c.known }) else s.ctxs
          phase := .parsing t f t i l (busy.erase m) asked [] [] }, by simp [St.loop, hc], ?_⟩
      refine ⟨harr, h.docs, h.cnt, h.clk, h.opn, h.txt, h.dep, h.own, h.okq, h.ans, rfl, rfl, rfl, rfl, hpr, hcalm, o, ?_⟩
      cases ok with
      | true => exact ⟨_, m1, m2, m3, modify_get _ m4, m5, m6⟩
      | false => exact ⟨c, m1, m2, m3, m4, m5, m6⟩

theorem closeDeps_other (s : St) (deps p) : (closeDeps s deps p).ctxs = s.ctxs ∧ (closeDeps s deps p).dependants = s.dependants ∧
    (closeDeps s deps p).queue = s.queue ∧ (closeDeps s deps p).cancel = s.cancel ∧ (closeDeps s deps p).clock = s.clock ∧
    (closeDeps s deps p).arrived = s.arrived ∧ (closeDeps s deps p).log = s.log := ⟨rfl, rfl, rfl, rfl, rfl, rfl, rfl⟩

theorem inv_parsed {w : World} {d s as} (h : Inv d s as) {u f t asked rest closing}
    (hp : s.phase = .parsed u f t asked rest closing) : Inv d (St.afterLoop w s u f t asked rest closing) as := by
  have hph := h.ph
  simp only [PhaseOk, hp] at hph
  obtain ⟨rfl, rfl, rfl, rfl, hpr, i, o, c, ⟨m1, m2, m3, m4, m5, m6⟩, hw⟩ := hph
  have harr := h.arr
  rw [hp] at harr
  have hdeps : t ∉ (if s.cancel then o.deps else asked.filter (fun x => decide (x ≠ t))) := by
    cases s.cancel
    · simp
    · simpa using h.own o m1
  have hto := h.txt o m1
  have hown := h.own o m1
  simp only [St.afterLoop, m1, List.nil_append, List.foldl_cons, List.foldl_nil]
  generalize hds : (if s.cancel then o.deps else asked.filter (fun x => decide (x ≠ t))) = deps at *
  have hcl : t ∉ o.deps.filter (fun x => decide (x ∉ deps)) := fun hm => hown (List.mem_filter.mp hm).1
  generalize o.deps.filter (fun x => decide (x ∉ deps)) = cl at *
  have hfile : (closeDeps { s with
        files := setFile s.files t (some { o with deps := deps })
        dependants := if deps = [] then s.dependants else insertSet t s.dependants } cl t).files t = some { o with deps := deps } := by
    rw [closeDeps_files _ _ _ _ hcl]
    exact asProc_of (by simp [setFile]) m2
  refine ⟨harr, h.docs, h.cnt, h.clk, ?_, ?_, ?_, ?_, h.okq, h.ans, rfl, hpr, ?_⟩
  · have : isOpen t (s.log.map (·.req)) = true := by rw [← h.opn, m1]; rfl
    exact (congrArg Option.isSome hfile).trans this.symm
  · intro x hx
    simp only [hfile, Option.some.injEq] at hx
    rw [← hx]
    exact hto
  · by_cases hd : deps = []
    · rcases h.dep with g | g
      · exact Or.inl (by simp [closeDeps_other, hd, g])
      · exact Or.inr ⟨by simp [closeDeps_other, hd, g.1], by simp only [hfile, Option.isSome]⟩
    · right
      refine ⟨?_, by simp only [hfile, Option.isSome]⟩
      rcases h.dep with g | g
      · simp [closeDeps_other, hd, g, insertSet]
      · simp [closeDeps_other, hd, g.1, insertSet]
  · intro x hx
    simp only [hfile, Option.some.injEq] at hx
    rw [← hx]
    exact hdeps
  · intro hc x hx
    simp only [hfile, Option.some.injEq] at hx
    rw [← hx]
    exact ⟨m2, i, c, m3, m4, hw hc, m5, m6⟩

theorem inv_finish {d s as} (h : Inv d s as) {u f} (hp : s.phase = .reported u f) : ∃ s', s.finish u f = .ok s' ∧ Inv d s' as := by
  have hph := h.ph
  simp only [PhaseOk, hp] at hph
  obtain ⟨rfl, hpr, hg⟩ := hph
  have harr := h.arr
  rw [hp] at harr
  have hi : Inv u { s with phase := .idle } as := by
    refine ⟨harr, h.docs, h.cnt, h.clk, h.opn, h.txt, h.dep, h.own, h.okq, h.ans, ?_⟩
    cases hc : s.cancel with
    | true => exact Or.inr (hpr hc)
    | false => exact Or.inl (hg hc)
  refine ⟨{ s with phase := .idle }, ?_, hi⟩
  unfold St.finish
  split
  · rfl
  · rename_i hc
    simp at hc
    cases hf : s.files u with
    | none => rfl
    | some o =>
      obtain ⟨_, i, c, g2, _⟩ := hg hc.1 o hf
      simp [g2]

theorem inv_work {w : World} {d s as} (hconf : w.conf d = false) (hcalm : ∀ n, Calm d [] (w.steps n d)) (h : Inv d s as) :
    ∃ s', s.work w = .ok s' ∧ Inv d s' as := by
  unfold St.work
  cases hp : s.phase with
  | idle =>
    cases hq : s.queue with
    | nil => exact ⟨s, rfl, h⟩
    | cons a q => exact ⟨_, rfl, inv_take h hp hq⟩
  | begun r =>
    cases r with
    | opened u => exact inv_opened h hp
    | changed u => exact inv_changed h hp
    | closed u => exact inv_closed h hp
    | ask k u => exact inv_ask h hp
  | updated u f =>
    cases hc : s.cancel with
    | true =>
      refine ⟨{ s with phase := .idle }, by simp [hc], ?_⟩
      have hph := h.ph
      have harr := h.arr
      simp only [PhaseOk, hp] at hph
      rw [hp] at harr
      exact ⟨harr, h.docs, h.cnt, h.clk, h.opn, h.txt, h.dep, h.own, h.okq, h.ans, Or.inr (hph.2 hc)⟩
    | false => exact ⟨St.startParse w s u f, by simp [hc], inv_updated hconf hcalm h hp hc⟩
  | parsing u f t i left busy asked rest closing => exact inv_parsing h hp
  | parsed u f t asked rest closing => exact ⟨_, rfl, inv_parsed h hp⟩
  | reported u f => exact inv_finish h hp

theorem inv_run {w : World} {d : Uri} (hconf : w.conf d = false) (hcalm : ∀ n, Calm d [] (w.steps n d)) :
    ∀ (evs : List Ev) (s : St) (as : List Req), Inv d s as → (∀ r ∈ arrivals evs, r.doc = d) →
      ∃ s', St.run w s evs = .ok s' ∧ Inv d s' (as ++ arrivals evs)
  | [], s, as, h, _ => ⟨s, rfl, by simpa [arrivals] using h⟩
  | .arrive r :: es, s, as, h, hd => by
    obtain ⟨s', h1, h2⟩ := inv_run hconf hcalm es (s.arrive r) (as ++ [r]) (inv_arrive h r (hd r (by simp [arrivals])))
      (fun x hx => hd x (by simp [arrivals, hx]))
    exact ⟨s', h1, by simpa [arrivals] using h2⟩
  | .work :: es, s, as, h, hd => by
    obtain ⟨s1, h1, h2⟩ := inv_work hconf hcalm h
    obtain ⟨s', h3, h4⟩ := inv_run hconf hcalm es s1 as h2 hd
    exact ⟨s', by simp only [St.run, St.step, h1, h3], by simpa [arrivals] using h4⟩

/-! ### Everything is carried out -/

theorem run_append (w : World) (s : St) (a b : List Ev) : St.run w s (a ++ b) = (match St.run w s a with
    | .ok s => St.run w s b
    | .error e => .error e) := by
  induction a generalizing s with
  | nil => rfl
  | cons e es ih =>
    simp only [List.cons_append, St.run]
    cases s.step w e with
    | ok s' => exact ih s'
    | error b => rfl

/-- The worker is let go on `n` times. -/
def works (n : Nat) : List Ev := List.replicate n .work

theorem arrivals_works (n : Nat) : arrivals (works n) = [] := by
  induction n with
  | zero => rfl
  | succ n ih => simpa [works, List.replicate_succ, arrivals] using ih

/-- The worker gets to the next request. -/
def Reach (w : World) (d : Uri) (as : List Req) (s : St) : Prop :=
  ∃ n s', St.run w s (works n) = .ok s' ∧ Inv d s' as ∧ s'.phase = .idle ∧ s'.queue = s.queue

theorem reach_cons {w : World} {d as} {s s1 : St} (h : s.work w = .ok s1) (hq : s1.queue = s.queue) (hr : Reach w d as s1) :
    Reach w d as s := by
  obtain ⟨n, s', h1, h2, h3, h4⟩ := hr
  exact ⟨n + 1, s', by simp only [works, List.replicate_succ, St.run, St.step, h]; exact h1, h2, h3, h4.trans hq⟩

theorem reach_idle {w : World} {d as} {s : St} (h : Inv d s as) (hp : s.phase = .idle) : Reach w d as s := ⟨0, s, rfl, h, hp, rfl⟩

theorem finish_idle {s s' : St} {u f} (h : s.finish u f = .ok s') : s'.phase = .idle ∧ s'.queue = s.queue := by
  unfold St.finish at h
  split at h
  · cases h
    exact ⟨rfl, rfl⟩
  · split at h
    · split at h
      · cases h
      · cases h
        exact ⟨rfl, rfl⟩
    · cases h
      exact ⟨rfl, rfl⟩

theorem reach_reported {w : World} {d as} {s : St} (h : Inv d s as) {u f} (hp : s.phase = .reported u f) : Reach w d as s := by
  obtain ⟨s', h1, h2⟩ := inv_finish h hp
  obtain ⟨h3, h4⟩ := finish_idle h1
  exact reach_cons (by simp only [St.work, hp, h1]) h4 (reach_idle h2 h3)

theorem reach_parsed {w : World} {d as} {s : St} (h : Inv d s as) {u f t asked rest closing} (hp : s.phase = .parsed u f t asked rest closing) :
    Reach w d as s := by
  have h2 := inv_parsed (w := w) h hp
  have hph := h.ph
  simp only [PhaseOk, hp] at hph
  obtain ⟨rfl, rfl, rfl, rfl, hpr, i, o, c, ⟨m1, m2, m3, m4, m5, m6⟩, hw⟩ := hph
  refine reach_cons (s1 := St.afterLoop w s t f t asked [] []) (by simp only [St.work, hp]) ?_ (reach_reported (u := t) (f := f) h2 ?_)
  · simp [St.afterLoop, m1, closeDeps]
  · simp [St.afterLoop, m1]

theorem loop_queue {s s' : St} {u f t i left busy asked rest closing} (h : s.loop u f t i left busy asked rest closing = .ok s') :
    s'.queue = s.queue ∧ s'.cancel = s.cancel ∧ ((∃ busy' asked' a, left = a :: left.tail ∧ s'.phase = .parsing u f t i left.tail busy' asked' rest closing) ∨
      s'.phase = .parsed u f t asked rest closing) := by
  unfold St.loop at h
  split at h
  · cases h
    exact ⟨rfl, rfl, Or.inr rfl⟩
  · split at h
    · split at h
      · cases h
      · cases h
        exact ⟨rfl, rfl, Or.inl ⟨_, _, _, rfl, rfl⟩⟩
    · cases h
      exact ⟨rfl, rfl, Or.inl ⟨_, _, _, rfl, rfl⟩⟩
    · cases h
      exact ⟨rfl, rfl, Or.inr rfl⟩

theorem reach_parsing {w : World} {d as} : ∀ (n : Nat) (s : St) (u : Uri) (f : Bool) (t : Uri) (i : Nat) (left : List Step) (busy asked rest : List Uri)
    (closing : List (Uri × List Uri)), left.length = n → Inv d s as → s.phase = .parsing u f t i left busy asked rest closing → Reach w d as s
  | n, s, u, f, t, i, left, busy, asked, rest, closing, hn, h, hp => by
    obtain ⟨s', h1, h2⟩ := inv_parsing h hp
    obtain ⟨h3, _, h4⟩ := loop_queue h1
    refine reach_cons (by simp only [St.work, hp]; exact h1) h3 ?_
    rcases h4 with ⟨b, a, x, hl, h4⟩ | h4
    · have : left.tail.length < n := by
        rw [← hn, hl]
        simp
      exact reach_parsing left.tail.length s' u f t i left.tail b a rest closing rfl h2 h4
    · exact reach_parsed h2 h4
termination_by n => n

theorem analyse_phase (w : World) (s : St) (d f t rest closing) : (St.analyse w s d f t rest closing).queue = s.queue ∧
    ((St.analyse w s d f t rest closing).phase = .reported d f ∨
      ∃ t' i left b a r c, (St.analyse w s d f t rest closing).phase = .parsing d f t' i left b a r c) := by
  unfold St.analyse
  simp only
  cases s.files t with
  | none => exact ⟨rfl, Or.inl rfl⟩
  | some o => exact ⟨rfl, Or.inr ⟨_, _, _, _, _, _, _, rfl⟩⟩

theorem startParse_phase (w : World) (s : St) (d f) : (St.startParse w s d f).queue = s.queue ∧
    ((St.startParse w s d f).phase = .reported d f ∨
      ∃ t i left b a r c, (St.startParse w s d f).phase = .parsing d f t i left b a r c) := by
  unfold St.startParse
  cases targets w s d with
  | nil => exact ⟨rfl, Or.inl rfl⟩
  | cons t rest => exact analyse_phase w { s with files := asProc s.files s.dependants } d f t rest []

theorem reach_updated {w : World} {d as} {s : St} (hconf : w.conf d = false) (hcalm : ∀ n, Calm d [] (w.steps n d)) (h : Inv d s as) {u f}
    (hp : s.phase = .updated u f) : Reach w d as s := by
  obtain ⟨s', h1, h2⟩ := inv_work hconf hcalm h
  have h1' := h1
  simp only [St.work, hp] at h1
  split at h1
  · cases h1
    exact reach_cons h1' rfl (reach_idle h2 rfl)
  · cases h1
    obtain ⟨h3, h4⟩ := startParse_phase w s u f
    rcases h4 with h4 | ⟨t, i, left, b, a, r, c, h4⟩
    · exact reach_cons h1' h3 (reach_reported h2 h4)
    · exact reach_cons h1' h3 (reach_parsing _ _ _ _ _ _ _ _ _ _ _ rfl h2 h4)

theorem carry_queue {s s' : St} {r} (h : s.carry r = .ok s') : s'.queue = s.queue ∧ (s'.phase = .idle ∨ ∃ u f, s'.phase = .updated u f) := by
  cases r with
  | opened u =>
    cases h
    exact ⟨rfl, Or.inr ⟨_, _, rfl⟩⟩
  | changed u =>
    cases h
    exact ⟨rfl, Or.inr ⟨_, _, rfl⟩⟩
  | closed u =>
    simp only [St.carry] at h
    cases hc : s.close u with
    | error e => simp [hc] at h
    | ok s1 =>
      simp only [hc] at h
      cases h
      refine ⟨?_, Or.inl rfl⟩
      show s1.queue = s.queue
      unfold St.close at hc
      simp only at hc
      split at hc
      · cases hc
        rfl
      · split at hc
        · split at hc
          · cases hc
          · cases hc
            rfl
        · cases hc
          rfl
  | ask k u =>
    simp only [St.carry] at h
    split at h
    · cases h
      exact ⟨rfl, Or.inl rfl⟩
    · split at h
      · cases h
        exact ⟨rfl, Or.inl rfl⟩
      · cases h

theorem reach_begun {w : World} {d as} {s : St} (hconf : w.conf d = false) (hcalm : ∀ n, Calm d [] (w.steps n d)) (h : Inv d s as) {r}
    (hp : s.phase = .begun r) : Reach w d as s := by
  obtain ⟨s', h1, h2⟩ := inv_work hconf hcalm h
  have h1' := h1
  simp only [St.work, hp] at h1
  obtain ⟨h3, h4⟩ := carry_queue h1
  refine reach_cons h1' h3 ?_
  rcases h4 with h4 | ⟨u, f, h4⟩
  · exact reach_idle h2 h4
  · exact reach_updated hconf hcalm h2 h4

theorem reach_any {w : World} {d as} {s : St} (hconf : w.conf d = false) (hcalm : ∀ n, Calm d [] (w.steps n d)) (h : Inv d s as) : Reach w d as s := by
  cases hp : s.phase with
  | idle => exact reach_idle h hp
  | begun r => exact reach_begun hconf hcalm h hp
  | updated u f => exact reach_updated hconf hcalm h hp
  | parsing u f t i left busy asked rest closing => exact reach_parsing _ _ _ _ _ _ _ _ _ _ _ rfl h hp
  | parsed u f t asked rest closing => exact reach_parsed h hp
  | reported u f => exact reach_reported h hp

theorem works_add (w : World) (s s1 s2 : St) (m n : Nat) (h1 : St.run w s (works m) = .ok s1) (h2 : St.run w s1 (works n) = .ok s2) :
    St.run w s (works (m + n)) = .ok s2 := by
  have : works (m + n) = works m ++ works n := by simp [works, List.replicate_append_replicate]
  rw [this, run_append, h1]
  exact h2

/-- The queue gets empty. -/
theorem drain {w : World} {d as} (hconf : w.conf d = false) (hcalm : ∀ n, Calm d [] (w.steps n d)) : ∀ (q : List (Req × Bool)) (s : St),
    Inv d s as → s.queue = q → ∃ n s', St.run w s (works n) = .ok s' ∧ Inv d s' as ∧ s'.phase = .idle ∧ s'.queue = []
  | [], s, h, hq => by
    obtain ⟨n, s', h1, h2, h3, h4⟩ := reach_any hconf hcalm h
    exact ⟨n, s', h1, h2, h3, h4.trans hq⟩
  | (r, v) :: q, s, h, hq => by
    obtain ⟨n, s1, h1, h2, h3, h4⟩ := reach_any hconf hcalm h
    rw [hq] at h4
    have h5 := inv_take h2 h3 h4
    have h6 : St.run w s1 (works 1) = .ok { s1 with queue := q, cur := some r.doc, cancel := !v, phase := .begun r } := by
      simp [works, List.replicate, St.run, St.step, St.work, h3, h4]
    obtain ⟨m, s', h7, h8⟩ := drain hconf hcalm q _ h5 rfl
    exact ⟨n + 1 + m, s', works_add w s _ s' (n + 1) m (works_add w s s1 _ n 1 h1 h6) h7, h8⟩

/-! ### The theorems -/

/-- C139: while one document is worked on, every question about it is answered, in the order of the messages and without a failure, whatever is
cancelled and whenever: from a complete analysis of the text the document has after the messages before the question; the answer is empty only if
the document is not open or a newer text has arrived. The program may need any other files, and other ones each time. (Partial: one document,
which is not a configuration file, and whose program does not need its own file; see the negations for what happens otherwise.) -/
theorem C139_one_partial (w : World) (d : Uri) (hconf : w.conf d = false) (hcalm : ∀ n, Calm d [] (w.steps n d)) (evs : List Ev)
    (hd : ∀ r ∈ arrivals evs, r.doc = d) :
    ∃ s, St.run w {} evs = .ok s ∧ s.log.map (·.req) <+: arrivals evs ∧ s.arrived = notified (arrivals evs) ∧
      ∀ pre e post, s.log = pre ++ e :: post → Served d (pre.map (·.req)) e := by
  obtain ⟨s, h1, h2⟩ := inv_run hconf hcalm evs {} [] (inv_init d) hd
  refine ⟨s, h1, ?_, h2.cnt, h2.ans⟩
  have := h2.arr
  rw [List.nil_append] at this
  exact ⟨s.phase.now ++ s.queue.map (·.1), by rw [← this]; simp⟩

/-- C139: and when no more messages arrive, all of them are carried out after finitely many steps of the worker; so every question has its answer. (Partial
as `C139_one_partial`.) -/
theorem C139_all_partial (w : World) (d : Uri) (hconf : w.conf d = false) (hcalm : ∀ n, Calm d [] (w.steps n d)) (evs : List Ev)
    (hd : ∀ r ∈ arrivals evs, r.doc = d) :
    ∃ n s, St.run w {} (evs ++ works n) = .ok s ∧ s.log.map (·.req) = arrivals evs ∧
      ∀ pre e post, s.log = pre ++ e :: post → Served d (pre.map (·.req)) e := by
  obtain ⟨s, h1, h2⟩ := inv_run hconf hcalm evs {} [] (inv_init d) hd
  obtain ⟨n, s', h3, h4, h5, h6⟩ := drain hconf hcalm s.queue s h2 rfl
  refine ⟨n, s', by rw [run_append, h1]; exact h3, ?_, h4.ans⟩
  have := h4.arr
  rw [h5, h6] at this
  simpa [Phase.now] using this

/-- What the witnesses show of a run. -/
def failure (w : World) (evs : List Ev) : Option Bad :=
  match St.run w {} evs with
  | .error b => some b
  | .ok _ => none

/-- Program 1 needs member 2 and then member 3; the others need nothing. Document 9 is `proc_grps.json`. -/
def desk : World :=
  { conf := fun d => d == 9
    loads := fun _ => true
    steps := fun _ t => if t = 1 then [.ask 2, .done 2 true, .ask 3, .done 3 true] else [] }

/-- Program 1 and member 2 are open and analysed. Program 1 is changed; while it is analysed, after member 2 but before the end, the user asks for the symbols after
an `&` in member 2 and then types on in program 1: the analysis is broken off and the question is answered from what there is of it. -/
theorem C139_broken_off_witness :
    failure desk ([.arrive (.opened 1)] ++ works 20 ++ [.arrive (.opened 2)] ++ works 20 ++ [.arrive (.changed 1)] ++ works 5 ++
      [.arrive (.ask (.complete true) 2), .arrive (.changed 1)] ++ works 5) = some .noOpencode := by decide +kernel

/-- A question about a configuration file. -/
theorem C139_conf_witness : failure desk ([.arrive (.opened 9)] ++ works 6 ++ [.arrive (.ask .lookup 9)] ++ works 2) = some .noAnalysis := by
  decide +kernel

/-- A library member is opened that needs a member of its own name: a macro without its MACRO statement. -/
theorem C139_own_name_witness :
    failure { desk with steps := fun _ t => [.ask t] } ([.arrive (.opened 2)] ++ works 6) = some .replaced := by decide +kernel

/-- A program is opened that needs a member which, while it is analysed, needs a member of its own name. -/
theorem C139_own_member_witness :
    failure { desk with steps := fun _ _ => [.ask 2, .ask 2] } ([.arrive (.opened 1)] ++ works 6) = some .replaced := by decide +kernel

/-- That a configuration file is opened and changed, with no question about it, is no failure. -/
theorem C139_conf_opened_witness :
    failure desk ([.arrive (.opened 1)] ++ works 20 ++ [.arrive (.opened 9), .arrive (.changed 9)] ++ works 30) = none := by decide +kernel

/-- Program 1 and member 2 are open; member 2 is changed and asked about: the answer comes from the analysis of program 1, which is done again. -/
theorem C139_member_witness :
    (match St.run desk {} ([.arrive (.opened 1)] ++ works 20 ++ [.arrive (.opened 2)] ++ works 20 ++ [.arrive (.changed 2)] ++ works 20 ++
        [.arrive (.ask .lookup 2)] ++ works 3) with
      | .ok s => s.log.map (·.ans)
      | .error _ => []) = [none, none, none, some (.from ⟨1, 1, [1, 3, 2], true⟩)] := by decide +kernel

/-- The full property, that no messages make the server fail, does not hold: not even for programs that do not need their own files and without configuration
files among the documents. -/
theorem C139_negation : ¬ ∀ (w : World) (evs : List Ev), (∀ n t, Calm t [] (w.steps n t)) → (∀ r ∈ arrivals evs, w.conf r.doc = false) →
    ∃ s, St.run w {} evs = .ok s := by
  intro h
  have hc : ∀ n t, Calm t [] (desk.steps n t) := by
    intro n t
    simp only [desk]
    split
    · rename_i ht
      subst ht
      simp [Calm]
    · trivial
  obtain ⟨s, hs⟩ := h desk _ hc (by decide +kernel : ∀ r ∈ arrivals ([.arrive (.opened 1)] ++ works 20 ++ [.arrive (.opened 2)] ++ works 20 ++
    [.arrive (.changed 1)] ++ works 5 ++ [.arrive (.ask (.complete true) 2), .arrive (.changed 1)] ++ works 5), desk.conf r.doc = false)
  have := C139_broken_off_witness
  simp only [failure, hs] at this
  cases this

/-- The entries of a run. -/
def entries (w : World) (evs : List Ev) : List Entry :=
  match St.run w {} evs with
  | .error _ => []
  | .ok s => s.log

/-- A case of `C139_one_partial`: program 1 is opened and changed twice; the second change comes in the middle of the analysis of the first. The question before it is answered with
nothing, the one after it from the analysis of the third text, with both members. -/
example : entries desk ([.arrive (.opened 1)] ++ works 20 ++ [.arrive (.changed 1)] ++ works 4 ++
      [.arrive (.ask .lookup 1), .arrive (.changed 1), .arrive (.ask (.complete true) 1)] ++ works 30) =
    [⟨.opened 1, none, 1⟩, ⟨.changed 1, none, 2⟩, ⟨.ask .lookup 1, some .nothing, 3⟩, ⟨.changed 1, none, 3⟩,
      ⟨.ask (.complete true) 1, some (.from ⟨1, 3, [1, 3, 2], true⟩), 3⟩] := by decide +kernel

end Verif.Broken
