import Verif.RequestManager.Model
/-! C10, C11: order, completeness and cancellation of requests, for every schedule. -/
namespace Verif.RequestManager

theorem run_induct (P : State → Prop) (hstep : ∀ s s' a, P s → s.step a = some s' → P s') :
    ∀ (as : List Act) (s s' : State), P s → s.run as = some s' → P s' := by
  intro as
  induction as with
  | nil => intro s s' h hr; simp [State.run] at hr; subst hr; exact h
  | cons a as ih =>
    intro s s' h hr
    simp only [State.run] at hr
    cases hs : s.step a with
    | none => simp [hs] at hr
    | some s1 => simp [hs] at hr; exact ih s1 s' (hstep s s1 a h hs) hr

/-- Arrival numbers of the requests of server `sv` that arrived, in order. -/
def arrived (s : State) (sv : Nat) : List Nat := ((s.added.map (·.1)).filter (·.server = sv)).map (·.id)

/-- Arrival numbers of the requests of server `sv` whose execution started, in order. -/
def started (s : State) (sv : Nat) : List Nat := ((s.starts.map (·.req)).filter (·.server = sv)).map (·.id)

/-- Arrival numbers of the requests of server `sv` still to be executed. -/
def pending (s : State) (sv : Nat) : List Nat :=
  match s.lock with
  | .executing sv' todo => if sv' = sv then (todo.filter (·.server = sv)).map (·.id)
      else (s.requests.filter (·.server = sv)).map (·.id)
  | _ => (s.requests.filter (·.server = sv)).map (·.id)

theorem invalidate_filter (f : String) (sv : Nat) (rs : List Req) :
    ((invalidate f rs).filter (·.server = sv)).map (·.id) = (rs.filter (·.server = sv)).map (·.id) := by
  induction rs with
  | nil => rfl
  | cons r rs ih =>
    simp only [invalidate, List.map_cons] at ih ⊢
    by_cases hf : r.msg.file = f <;> by_cases hs : r.server = sv <;> simp_all [List.filter_cons]

theorem invalidate_ids (f : String) (rs : List Req) : (invalidate f rs).map (·.id) = rs.map (·.id) := by
  induction rs with
  | nil => rfl
  | cons r rs ih =>
    simp only [invalidate, List.map_cons] at ih ⊢
    by_cases hf : r.msg.file = f <;> simp_all

/-- The order invariant, for one server. -/
def Ordered (sv : Nat) (s : State) : Prop := started s sv ++ pending s sv = arrived s sv

/-- The requests a closing server still has to run belong to it. -/
def TodoOwned (s : State) : Prop := ∀ sv todo, s.lock = .executing sv todo → ∀ r ∈ todo, r.server = sv

theorem step_ordered (sv : Nat) (s s' : State) (a : Act) (hi : Ordered sv s ∧ TodoOwned s) (h : s.step a = some s') :
    Ordered sv s' ∧ TodoOwned s' := by
  obtain ⟨ho, hT⟩ := hi
  cases a with
  | add m sv0 =>
    simp only [State.step] at h
    split at h
    · simp at h
    · next hl =>
      simp only [ne_eq, Decidable.not_not] at hl
      simp only [Ordered, started, pending, arrived, hl] at ho
      split at h <;>
      · simp at h; subst h
        refine ⟨?_, by intro a b hab; simp [hl] at hab⟩
        simp only [Ordered, started, pending, arrived, hl, List.filter_append, List.map_append, invalidate_filter]
        rw [← List.append_assoc, ho]
        by_cases he : sv0 = sv <;> simp [he]
  | take =>
    simp only [State.step] at h
    split at h
    · simp at h
    · next hl =>
      simp only [not_or, ne_eq, Decidable.not_not] at hl
      obtain ⟨hl, -, -⟩ := hl
      simp only [Ordered, started, pending, arrived, hl] at ho
      split at h
      · simp at h
      · next r rs hr =>
        simp at h; subst h
        refine ⟨?_, by intro a b hab; simp [hl] at hab⟩
        rw [hr] at ho
        simp only [Ordered, started, pending, arrived, hl]
        rw [← ho]
        by_cases he : r.server = sv <;> simp [List.filter_append, he]
  | done =>
    simp only [State.step] at h
    split at h
    · simp at h
    · simp at h; subst h; exact ⟨ho, hT⟩
  | finishEnter sv0 =>
    simp only [State.step] at h
    split at h
    · simp at h
    · next hl =>
      simp only [ne_eq, Decidable.not_not] at hl
      split at h
      · simp at h; subst h; exact ⟨ho, hT⟩
      · simp at h; subst h
        refine ⟨?_, by intro a b hab; simp at hab⟩
        simpa only [Ordered, started, pending, arrived, hl] using ho
  | finishReady =>
    simp only [State.step] at h
    split at h
    · next sv0 hl =>
      split at h
      · simp at h
      · simp at h; subst h
        refine ⟨?_, ?_⟩
        · simp only [Ordered, started, pending, arrived, hl] at ho ⊢
          rw [← ho]
          by_cases he : sv0 = sv <;> simp [he]
        · intro a b hab r hr
          simp at hab
          obtain ⟨rfl, rfl⟩ := hab
          simpa using (List.mem_filter.mp hr).2
    · simp at h
  | finishExec =>
    simp only [State.step] at h
    split at h
    · next sv0 r todo hl =>
      simp at h; subst h
      have hrs : r.server = sv0 := hT sv0 _ hl r (by simp)
      refine ⟨?_, ?_⟩
      · simp only [Ordered, started, pending, arrived, hl] at ho ⊢
        rw [← ho]
        by_cases he : sv0 = sv
        · simp [he, List.filter_append, hrs]
        · have : ¬ r.server = sv := by omega
          simp [he, List.filter_append, this]
      · intro a b hab r' hr'
        simp at hab
        obtain ⟨rfl, rfl⟩ := hab
        exact hT _ _ hl r' (by simp [hr'])
    · simp at h
  | finishLeave =>
    simp only [State.step] at h
    split at h
    · next sv0 hl =>
      simp at h; subst h
      refine ⟨?_, by intro a b hab; simp at hab⟩
      simp only [Ordered, started, pending, arrived, hl] at ho ⊢
      rw [← ho]
      by_cases he : sv0 = sv
      · subst he
        simp [List.filter_filter]
      · simp only [he, if_false, List.filter_filter]
        congr 2
        apply List.filter_congr
        intro r _
        by_cases h2 : r.server = sv <;> simp [h2]
        omega
    · simp at h
  | endWorker =>
    simp only [State.step] at h
    split at h
    · simp at h
    · simp at h; subst h; exact ⟨ho, hT⟩

/-- C10: under every schedule and for every server, the requests whose execution has started, followed by those still
queued, are exactly the requests that arrived for it, in arrival order: no loss, no duplicate, no reordering. -/
theorem C10_in_order_exactly_once (as : List Act) (s : State) (h : State.run {} as = some s) (sv : Nat) :
    started s sv ++ pending s sv = arrived s sv :=
  (run_induct (fun s => Ordered sv s ∧ TodoOwned s) (fun s s' a => step_ordered sv s s' a) as {} s
    ⟨rfl, by intro a b hab; simp at hab⟩ h).1

/-- When the closing of server `sv` completes (and had something to do), every request that arrived for it has been
executed and none of them is still running. -/
theorem C10_finish_complete (as : List Act) (s s' : State) (h : State.run {} as = some s) (sv : Nat)
    (hl : s.lock = .executing sv []) (hs : s.step .finishLeave = some s') :
    started s' sv = arrived s' sv ∧ pending s' sv = [] ∧ s'.lock = .free := by
  have h1 := C10_in_order_exactly_once as s h sv
  simp only [State.step, hl] at hs
  simp at hs; subst hs
  simp only [started, pending, arrived, hl] at h1 ⊢
  refine ⟨by simpa using h1, ?_, trivial⟩
  simp [List.filter_filter]

/-- While server `sv` is executing its remaining requests on the closing thread, the worker is not executing one of its
requests: executions of one server never overlap. -/
theorem C10_no_overlap (as : List Act) (s : State) (h : State.run {} as = some s) (sv : Nat) (todo : List Req)
    (hl : s.lock = .executing sv todo) : ∀ r, s.running = some r → r.server ≠ sv := by
  have := run_induct (fun s => ∀ sv todo, s.lock = .executing sv todo → ∀ r, s.running = some r → r.server ≠ sv) ?_
    as {} s (by intro _ _ h; simp at h) h
  · exact this sv todo hl
  · intro s s' a hi hs
    cases a with
    | add m sv0 =>
      simp only [State.step] at hs
      split at hs
      · simp at hs
      · next hl => split at hs <;> (simp at hs; subst hs; exact hi)
    | take =>
      simp only [State.step] at hs
      split at hs
      · simp at hs
      · next hl =>
        simp only [not_or, ne_eq, Decidable.not_not] at hl
        split at hs
        · simp at hs
        · simp at hs; subst hs
          intro a b hab; simp [hl.1] at hab
    | done =>
      simp only [State.step] at hs
      split at hs
      · simp at hs
      · simp at hs; subst hs; intro _ _ _ r hr; simp at hr
    | finishEnter sv0 =>
      simp only [State.step] at hs
      split at hs
      · simp at hs
      · split at hs
        · simp at hs; subst hs; exact hi
        · simp at hs; subst hs; intro a b hab; simp at hab
    | finishReady =>
      simp only [State.step] at hs
      split at hs
      · split at hs
        · simp at hs
        · next hr =>
          simp at hs; subst hs
          intro a b hab r hr'
          simp at hab hr'
          rw [hr'] at hr
          simp at hr
          omega
      · simp at hs
    | finishExec =>
      simp only [State.step] at hs
      split at hs
      · next hl =>
        simp at hs; subst hs
        intro a b hab r hr'
        simp at hab hr'
        obtain ⟨rfl, rfl⟩ := hab
        exact hi _ _ hl r hr'
      · simp at hs
    | finishLeave =>
      simp only [State.step] at hs
      split at hs
      · simp at hs; subst hs; intro a b hab; simp at hab
      · simp at hs
    | endWorker =>
      simp only [State.step] at hs
      split at hs
      · simp at hs
      · simp at hs; subst hs; exact hi

/-- As long as no server is closed, requests of all servers together start in arrival order. -/
theorem C10_global_order (as : List Act) (s : State) (h : State.run {} as = some s)
    (hf : ∀ a ∈ as, ∀ sv, a ≠ .finishEnter sv) :
    s.starts.map (·.req.id) ++ s.requests.map (·.id) = s.added.map (·.1.id) := by
  have key : ∀ (as : List Act) (s0 s : State), s0.lock = .free ∧
      s0.starts.map (·.req.id) ++ s0.requests.map (·.id) = s0.added.map (·.1.id) →
      (∀ a ∈ as, ∀ sv, a ≠ .finishEnter sv) → s0.run as = some s →
      s.starts.map (·.req.id) ++ s.requests.map (·.id) = s.added.map (·.1.id) := by
    intro as
    induction as with
    | nil => intro s0 s hi _ hr; simp [State.run] at hr; subst hr; exact hi.2
    | cons a as ih =>
      intro s0 s hi hf hr
      simp only [State.run] at hr
      cases hs : s0.step a with
      | none => simp [hs] at hr
      | some s1 =>
        simp [hs] at hr
        refine ih s1 s ?_ (fun a ha => hf a (by simp [ha])) hr
        obtain ⟨hl, ho⟩ := hi
        cases a with
        | add m sv0 =>
          simp only [State.step, hl] at hs
          simp only [ne_eq, not_true, if_false] at hs
          split at hs <;>
          · simp at hs; subst hs
            refine ⟨rfl, ?_⟩
            simp only [List.map_append, invalidate_ids]
            rw [← List.append_assoc, ho]; simp
        | take =>
          simp only [State.step] at hs
          split at hs
          · simp at hs
          · split at hs
            · simp at hs
            · next r rs hreq =>
              simp at hs; subst hs
              refine ⟨hl, ?_⟩
              rw [hreq] at ho
              simpa using ho
        | done =>
          simp only [State.step] at hs
          split at hs
          · simp at hs
          · simp at hs; subst hs; exact ⟨hl, ho⟩
        | finishEnter sv0 => exact absurd rfl (hf _ (by simp) sv0)
        | finishReady => simp [State.step, hl] at hs
        | finishExec => simp [State.step, hl] at hs
        | finishLeave => simp [State.step, hl] at hs
        | endWorker => simp [State.step, hl] at hs; subst hs; exact ⟨rfl, ho⟩
  exact key as {} s ⟨rfl, rfl⟩ hf h

/-- The steps the manager makes by itself: no new requests, no further closing of servers, no end of the worker. -/
def Internal (a : Act) : Prop :=
  a = .take ∨ a = .done ∨ a = .finishReady ∨ a = .finishExec ∨ a = .finishLeave

/-- Work left. -/
def work (s : State) : Nat :=
  3 * s.requests.length + (if s.running = none then 0 else 1) +
    (match s.lock with | .free => 0 | .waiting _ => s.requests.length + 2 | .executing _ todo => todo.length + 1)

/-- No request is stuck: while the worker has not been told to end, some internal step is possible unless every request has
been executed. -/
theorem C10_never_stuck (s : State) (he : s.endWorker = false) (h : ∀ a, Internal a → s.step a = none) :
    s.requests = [] ∧ s.running = none ∧ s.lock = .free := by
  have h1 := h .take (by simp [Internal])
  have h2 := h .done (by simp [Internal])
  have h3 := h .finishReady (by simp [Internal])
  have h4 := h .finishExec (by simp [Internal])
  have h5 := h .finishLeave (by simp [Internal])
  have hr : s.running = none := by
    simp only [State.step] at h2
    split at h2 <;> simp_all
  cases hl : s.lock with
  | free =>
    refine ⟨?_, hr, rfl⟩
    simp only [State.step, hl, hr, he] at h1
    cases hq : s.requests with
    | nil => rfl
    | cons a b => simp [hq] at h1
  | waiting sv => simp [State.step, hl, hr] at h3
  | executing sv todo =>
    cases todo with
    | nil => simp [State.step, hl] at h5
    | cons a b => simp [State.step, hl] at h4

/-- ... and every internal step reduces the amount of work left, so all of it is done after finitely many steps. -/
theorem C10_finite_work (s s' : State) (a : Act) (ha : Internal a) (h : s.step a = some s') : work s' < work s := by
  rcases ha with rfl | rfl | rfl | rfl | rfl
  · simp only [State.step] at h
    split at h
    · simp at h
    · next hc =>
      simp only [not_or, ne_eq, Decidable.not_not] at hc
      split at h
      · simp at h
      · next r rs hq =>
        simp at h; subst h
        simp only [work, hq, hc.1, hc.2.1, List.length_cons]
        simp; omega
  · simp only [State.step] at h
    split at h
    · simp at h
    · next hc => simp at h; subst h; simp [work, hc]
  · simp only [State.step] at h
    split at h
    · next sv hl =>
      split at h
      · simp at h
      · simp at h; subst h
        simp only [work, hl]
        have := List.length_filter_le (fun r : Req => decide (r.server = sv)) s.requests
        omega
    · simp at h
  · simp only [State.step] at h
    split at h
    · next sv r todo hl => simp at h; subst h; simp [work, hl]
    · simp at h
  · simp only [State.step] at h
    split at h
    · next sv hl =>
      simp at h; subst h
      simp only [work, hl]
      have := List.length_filter_le (fun r : Req => !decide (r.server = sv)) s.requests
      simp; omega
    · simp at h

/-- Where the code falls short: closing a server returns at once when the queue is empty, although the worker may still be
executing a request of that very server. -/
theorem C10_finish_witness :
    ∃ s s', State.run {} [.add ⟨some "textDocument/didOpen", "a"⟩ 7, .take] = some s ∧
      s.step (.finishEnter 7) = some s' ∧ s'.lock = .free ∧ s'.running.map (·.server) = some 7 := by
  refine ⟨_, _, rfl, rfl, ?_, ?_⟩ <;> decide

/-- `r` was made stale by `r'`: a later didOpen/didChange for the same document, which arrived while that document was the
one most recently taken by the worker. -/
def StaleBy (s : State) (r : Req) : Prop :=
  ∃ p ∈ s.added, r.id < p.1.id ∧ p.1.msg.file = r.msg.file ∧
    (p.1.msg.method = some "textDocument/didOpen" ∨ p.1.msg.method = some "textDocument/didChange") ∧
    p.2 = r.msg.file ∧ r.msg.file ≠ ""

theorem parsing_methods {m : Msg} (h : m.parsing = true) :
    m.method = some "textDocument/didOpen" ∨ m.method = some "textDocument/didChange" := by
  unfold Msg.parsing at h
  split at h
  · simp at h
  · next me hme =>
    split at h
    · simp at h; simpa [hme] using h
    · simp at h

theorem StaleBy.mono {s s' : State} {r : Req} (h : StaleBy s r) (hs : ∀ p ∈ s.added, p ∈ s'.added) : StaleBy s' r := by
  obtain ⟨p, hp, h⟩ := h
  exact ⟨p, hs p hp, h⟩

/-- The cancellation invariant. -/
structure CancelInv (s : State) : Prop where
  queueIds : ∀ r ∈ s.requests, r.id < s.added.length
  runIds : ∀ r, s.running = some r → r.id < s.added.length ∧ s.runningFile = r.msg.file
  queue : ∀ r ∈ s.requests, r.valid = false → StaleBy s r
  todo : ∀ sv todo, s.lock = .executing sv todo → ∀ r ∈ todo, r ∈ s.requests
  starts : ∀ e ∈ s.starts, e.byWorker = true → e.cancelled = true → StaleBy s e.req
  running : ∀ r, s.running = some r → s.cancel = true → StaleBy s r ∨ s.finishSet = true

theorem step_cancelInv (s s' : State) (a : Act) (hi : CancelInv s) (h : s.step a = some s') : CancelInv s' := by
  cases a with
  | add m sv0 =>
    simp only [State.step] at h
    split at h
    · simp at h
    · next hl =>
      simp only [ne_eq, Decidable.not_not] at hl
      split at h
      · next hc =>
        simp at h; subst h
        obtain ⟨hc1, hc2, hc3⟩ := hc
        have hstale : ∀ r : Req, r.id < s.added.length → r.msg.file = m.file → 
            StaleBy { s with added := s.added ++ [(⟨s.added.length, m, sv0, true⟩, s.runningFile)] } r := by
          intro r hr hrf
          exact ⟨(⟨s.added.length, m, sv0, true⟩, s.runningFile), by simp, hr, hrf.symm, parsing_methods hc3, by rw [hc1, hrf], by
            rw [hrf, ← hc1]; exact hc2⟩
        refine ⟨?_, ?_, ?_, by intro a b hab; simp [hl] at hab, ?_, ?_⟩
        · intro r hr
          simp only [List.mem_append, invalidate, List.mem_map, List.mem_singleton, List.length_append, List.length_singleton] at hr ⊢
          rcases hr with ⟨r0, hr0, rfl⟩ | rfl
          · have := hi.queueIds r0 hr0
            split <;> exact Nat.lt_succ_of_lt this
          · simp
        · intro r hr
          have := hi.runIds r hr
          exact ⟨by simp; omega, this.2⟩
        · intro r hr hv
          simp only [List.mem_append, invalidate, List.mem_map, List.mem_singleton] at hr
          rcases hr with ⟨r0, hr0, rfl⟩ | rfl
          · by_cases hf : r0.msg.file = m.file
            · rw [if_pos hf] at hv ⊢
              exact hstale _ (hi.queueIds r0 hr0) hf
            · rw [if_neg hf] at hv ⊢
              exact (hi.queue r0 hr0 hv).mono (fun p hp => by simp [hp])
          · simp at hv
        · intro e he hb hc
          exact (hi.starts e he hb hc).mono (fun p hp => by simp [hp])
        · intro r hr _
          left
          have := hi.runIds r hr
          exact hstale r this.1 (by rw [← this.2, hc1])
      · simp at h; subst h
        refine ⟨?_, ?_, ?_, by intro a b hab; simp [hl] at hab, ?_, ?_⟩
        · intro r hr
          simp only [List.mem_append, List.mem_singleton, List.length_append, List.length_singleton] at hr ⊢
          rcases hr with hr | rfl
          · have := hi.queueIds r hr; omega
          · simp
        · intro r hr
          have := hi.runIds r hr
          exact ⟨by simp; omega, this.2⟩
        · intro r hr hv
          simp only [List.mem_append, List.mem_singleton] at hr
          rcases hr with hr | rfl
          · exact (hi.queue r hr hv).mono (fun p hp => by simp [hp])
          · simp at hv
        · intro e he hb hc
          exact (hi.starts e he hb hc).mono (fun p hp => by simp [hp])
        · intro r hr hc
          rcases hi.running r hr hc with h | h
          · exact Or.inl (h.mono (fun p hp => by simp [hp]))
          · exact Or.inr h
  | take =>
    simp only [State.step] at h
    split at h
    · simp at h
    · next hl =>
      simp only [not_or, ne_eq, Decidable.not_not] at hl
      split at h
      · simp at h
      · next r rs hr =>
        simp at h; subst h
        have hmem : ∀ x ∈ rs, x ∈ s.requests := fun x hx => by rw [hr]; simp [hx]
        have hrm : r ∈ s.requests := by rw [hr]; simp
        refine ⟨fun x hx => hi.queueIds x (hmem x hx), ?_, fun x hx => hi.queue x (hmem x hx), by
          intro a b hab; simp [hl.1] at hab, ?_, ?_⟩
        · intro x hx; simp at hx; subst hx; exact ⟨hi.queueIds r hrm, rfl⟩
        · intro e he hb hc
          simp only [List.mem_append, List.mem_singleton] at he
          rcases he with he | rfl
          · exact hi.starts e he hb hc
          · exact hi.queue r hrm (by simpa using hc)
        · intro x hx hc
          simp at hx hc; subst hx
          exact Or.inl (hi.queue r hrm hc)
  | done =>
    simp only [State.step] at h
    split at h
    · simp at h
    · simp at h; subst h
      exact ⟨hi.queueIds, by intro r hr; simp at hr, hi.queue, hi.todo, hi.starts, by intro r hr; simp at hr⟩
  | finishEnter sv0 =>
    simp only [State.step] at h
    split at h
    · simp at h
    · split at h
      · simp at h; subst h; exact hi
      · simp at h; subst h
        exact ⟨hi.queueIds, hi.runIds, hi.queue, by intro a b hab; simp at hab, hi.starts, fun _ _ _ => Or.inr rfl⟩
  | finishReady =>
    simp only [State.step] at h
    split at h
    · split at h
      · simp at h
      · simp at h; subst h
        refine ⟨hi.queueIds, hi.runIds, hi.queue, ?_, hi.starts, hi.running⟩
        intro a b hab r hr
        simp at hab
        obtain ⟨rfl, rfl⟩ := hab
        exact (List.mem_filter.mp hr).1
    · simp at h
  | finishExec =>
    simp only [State.step] at h
    split at h
    · next sv0 r todo hl =>
      simp at h; subst h
      refine ⟨hi.queueIds, hi.runIds, hi.queue, ?_, ?_, hi.running⟩
      · intro a b hab x hx
        simp at hab
        obtain ⟨rfl, rfl⟩ := hab
        exact hi.todo _ _ hl x (by simp [hx])
      · intro e he hb hc
        simp only [List.mem_append, List.mem_singleton] at he
        rcases he with he | rfl
        · exact hi.starts e he hb hc
        · simp at hb
    · simp at h
  | finishLeave =>
    simp only [State.step] at h
    split at h
    · next sv0 hl =>
      simp at h; subst h
      refine ⟨fun r hr => hi.queueIds r (List.mem_filter.mp hr).1, hi.runIds,
        fun r hr => hi.queue r (List.mem_filter.mp hr).1, by intro a b hab; simp at hab, hi.starts, hi.running⟩
    · simp at h
  | endWorker =>
    simp only [State.step] at h
    split at h
    · simp at h
    · simp at h; subst h
      exact ⟨hi.queueIds, hi.runIds, hi.queue, hi.todo, hi.starts, hi.running⟩

theorem cancelInv (as : List Act) (s : State) (h : State.run {} as = some s) : CancelInv s :=
  run_induct CancelInv step_cancelInv as {} s
    ⟨by simp, by simp, by simp, by intro a b hab; simp at hab, by simp, by simp⟩ h

/-- C11: the worker runs a request with the cancellation flag initially set only if a later didOpen/didChange for the same
document arrived while that document was the one the worker had taken last. -/
theorem C11_cancel_only_stale (as : List Act) (s : State) (h : State.run {} as = some s) (e : Start) (he : e ∈ s.starts)
    (hw : e.byWorker = true) (hc : e.cancelled = true) : StaleBy s e.req :=
  (cancelInv as s h).starts e he hw hc

/-- Consequently the latest request for a document is never started cancelled. -/
theorem C11_latest_not_cancelled (as : List Act) (s : State) (h : State.run {} as = some s) (e : Start) (he : e ∈ s.starts)
    (hw : e.byWorker = true) (hlast : ∀ p ∈ s.added, p.1.msg.file = e.req.msg.file → p.1.id ≤ e.req.id) :
    e.cancelled = false := by
  cases hc : e.cancelled with
  | false => rfl
  | true =>
    obtain ⟨p, hp, h1, h2, _⟩ := C11_cancel_only_stale as s h e he hw hc
    have := hlast p hp h2
    omega

/-- A running request is cancelled only by a later didOpen/didChange of the same document, or by the closing of some
server. -/
theorem C11_running_cancelled (as : List Act) (s : State) (h : State.run {} as = some s) (r : Req)
    (hr : s.running = some r) (hc : s.cancel = true) : StaleBy s r ∨ s.finishSet = true :=
  (cancelInv as s h).running r hr hc

/-- Conversely, a didOpen/didChange for the document the worker has taken last cancels the running analysis, and every older
request waiting for that document will start cancelled; the new request itself stays valid. -/
theorem C11_edit_cancels_older (s s' : State) (m : Msg) (sv : Nat) (h : s.step (.add m sv) = some s')
    (hm : m.method = some "textDocument/didOpen" ∨ m.method = some "textDocument/didChange")
    (hf : s.runningFile = m.uri) (hne : m.uri ≠ "") :
    s'.cancel = true ∧
    ∃ old new, s'.requests = old ++ [new] ∧ new.valid = true ∧ new.msg = m ∧ new.server = sv ∧
      old.map (fun r => (r.id, r.msg)) = s.requests.map (fun r => (r.id, r.msg)) ∧
      ∀ r ∈ old, r.msg.file = m.uri → r.valid = false := by
  have hfile : m.file = m.uri := by
    unfold Msg.file
    rcases hm with hm | hm <;> rw [hm] <;> exact if_pos (by decide +kernel)
  have hpar : m.parsing = true := by
    unfold Msg.parsing
    rcases hm with hm | hm <;> rw [hm] <;> decide +kernel
  simp only [State.step] at h
  split at h
  · simp at h
  · rw [if_pos ⟨by rw [hfile, hf], by rw [hf]; exact hne, hpar⟩] at h
    simp at h; subst h
    refine ⟨rfl, _, _, rfl, rfl, rfl, rfl, ?_, ?_⟩
    · simp only [invalidate, List.map_map]
      apply List.map_congr_left
      intro r _
      simp only [Function.comp]
      split <;> rfl
    · intro r hr hrf
      simp only [invalidate, List.mem_map] at hr
      obtain ⟨r0, _, rfl⟩ := hr
      by_cases hc : r0.msg.file = m.file
      · simp [hc]
      · simp only [hc, if_false] at hrf ⊢
        exact absurd (hrf.trans hfile.symm) hc

/-- A request starts on the worker with the cancellation flag set exactly when it has been invalidated. -/
theorem C11_start_flag (s s' : State) (h : s.step .take = some s') :
    ∃ r rest, s.requests = r :: rest ∧ s'.starts = s.starts ++ [⟨r, !r.valid, true⟩] ∧ s'.cancel = !r.valid ∧
      s'.requests = rest := by
  simp only [State.step] at h
  split at h
  · simp at h
  · split at h
    · simp at h
    · next r rs hq => simp at h; subst h; exact ⟨r, rs, hq, rfl, rfl, rfl⟩

/-- The second disjunct is real: closing server 9 cancels the analysis of server 7's document, though no edit arrived. -/
theorem C11_finish_witness :
    ∃ s, State.run {} [.add ⟨some "textDocument/didOpen", "a"⟩ 7, .take, .add ⟨none, ""⟩ 9, .finishEnter 9] = some s ∧
      s.cancel = true ∧ s.running.map (·.server) = some 7 ∧
      (s.added.filter (fun p => p.1.msg.file = "a")).length = 1 := by
  refine ⟨_, rfl, ?_, ?_, ?_⟩ <;> decide

/-- Non-vacuity: a schedule with a cancelled stale request and an uncancelled latest one. -/
example : ∃ s, State.run {} [.add ⟨some "textDocument/didOpen", "a"⟩ 7, .take, .add ⟨some "textDocument/didChange", "a"⟩ 7,
      .add ⟨some "textDocument/didChange", "a"⟩ 7, .add ⟨some "textDocument/didOpen", "b"⟩ 7, .done, .take, .done, .take,
      .done, .finishEnter 7, .finishReady, .finishExec, .finishLeave] = some s ∧
    s.starts.map (fun e => (e.req.id, e.cancelled, e.byWorker)) =
      [(0, false, true), (1, true, true), (2, false, true), (3, true, false)] := by
  refine ⟨_, rfl, ?_⟩; decide

end Verif.RequestManager
