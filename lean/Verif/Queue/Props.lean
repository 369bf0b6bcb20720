import Verif.Queue.Model
/-! C08, C09: the inter-thread queue, for every schedule. -/
namespace Verif.Queue

/-- The pushes that count: those made before termination. -/
def accepted {T} (s : State T) : List T := (s.pushes.filter (fun x => !x.2)).map (·.1)

/-- The elements handed out, in order. -/
def handedOut {T} (s : State T) : List T := s.results.filterMap id

theorem finishPop_fields {T} (p : Policy) (s : State T) :
    (s.finishPop p).sleeping = s.sleeping ∧ (s.finishPop p).woken = s.woken ∧ (s.finishPop p).notifies = s.notifies ∧
    (s.finishPop p).terminated = s.terminated ∧ (s.finishPop p).pushes = s.pushes ∧
    handedOut (s.finishPop p) ++ (s.finishPop p).queue = handedOut s ++ s.queue := by
  unfold State.finishPop
  split
  · simp [handedOut]
  · split <;> simp_all [handedOut]

theorem step_order {T} {p : Policy} {s s' : State T} {a : Act T} (h : s.step p a = some s')
    (hi : handedOut s ++ s.queue = accepted s) : handedOut s' ++ s'.queue = accepted s' := by
  cases a with
  | push x =>
    simp only [State.step] at h
    split at h
    · next ht =>
      simp at h; subst h
      simpa [handedOut, accepted, ht] using hi
    · next ht =>
      simp at h ht; subst h
      simp [handedOut, accepted, ht] at hi ⊢
      rw [← hi]; simp
  | notify =>
    simp only [State.step] at h
    split at h
    · simp at h
    · split at h <;> (simp at h; subst h; exact hi)
  | popEnter =>
    simp only [State.step] at h
    split at h
    · simp at h; subst h
      have hf := finishPop_fields p s
      rw [hf.2.2.2.2.2, hi]; simp [accepted, hf.2.2.2.2.1]
    · simp at h; subst h; exact hi
  | popWoken =>
    simp only [State.step] at h
    split at h
    · simp at h
    · split at h
      · simp at h; subst h
        have hf := finishPop_fields p { s with woken := s.woken - 1 }
        rw [hf.2.2.2.2.2]
        simp only [accepted, hf.2.2.2.2.1]
        exact hi
      · simp at h; subst h; exact hi
  | spurious =>
    simp only [State.step] at h
    split at h
    · simp at h
    · simp at h; subst h; exact hi
  | terminate => simp [State.step] at h; subst h; exact hi

/-- Invariant induction over schedules. -/
theorem run_induct {T} {p : Policy} (P : State T → Prop)
    (hstep : ∀ s s' a, P s → s.step p a = some s' → P s') :
    ∀ (as : List (Act T)) (s s' : State T), P s → s.run p as = some s' → P s' := by
  intro as
  induction as with
  | nil => intro s s' h hr; simp [State.run] at hr; subst hr; exact h
  | cons a as ih =>
    intro s s' h hr
    simp only [State.run] at hr
    cases hs : s.step p a with
    | none => simp [hs] at hr
    | some s1 => simp [hs] at hr; exact ih s1 s' (hstep s s1 a h hs) hr

/-- C08: under every schedule of any number of producers and consumers, what has been handed out followed by what is still
queued is exactly the sequence of pushes made before termination: order kept, nothing lost, nothing twice. -/
theorem C08_fifo_exactly_once {T} (p : Policy) (as : List (Act T)) (s : State T) (h : State.run p {} as = some s) :
    handedOut s ++ s.queue = accepted s :=
  run_induct (p := p) (fun s => handedOut s ++ s.queue = accepted s) (fun _ _ _ hi hs => step_order hs hi) as {} s rfl h

/-- With the policy used by the server, every `pop` that completes after termination reports the end. -/
theorem C08_end_after_terminate {T} (s s' : State T) (a : Act T) (ht : s.terminated = true)
    (h : s.step .drop a = some s') : s'.terminated = true ∧ handedOut s' = handedOut s := by
  cases a with
  | push x => simp [State.step, ht] at h; subst h; simp [handedOut, ht]
  | notify =>
    simp only [State.step] at h
    split at h
    · simp at h
    · split at h <;> (simp at h; subst h; simp [handedOut, ht])
  | popEnter => simp [State.step, State.ready, State.finishPop, ht] at h; subst h; simp [handedOut, ht]
  | popWoken =>
    simp only [State.step] at h
    split at h
    · simp at h
    · simp [State.ready, State.finishPop, ht] at h; subst h; simp [handedOut, ht]
  | spurious =>
    simp only [State.step] at h
    split at h
    · simp at h
    · simp at h; subst h; simp [handedOut, ht]
  | terminate => simp [State.step] at h; subst h; simp [handedOut]

/-- Under either policy a `pop` reports the end only after termination (and, when elements are to be processed, only when
none is left). -/
theorem C08_end_only_after_terminate {T} (p : Policy) (s s' : State T) (a : Act T) (h : s.step p a = some s')
    (hr : s'.results = s.results ++ [none]) : s.terminated = true ∧ (p = .process → s.queue = []) := by
  have hlen : s'.results.length ≠ s.results.length := by rw [hr]; simp
  have fin : ∀ s0 : State T, s0.queue = s.queue → s0.terminated = s.terminated → s0.results = s.results →
      (s0.queue ≠ [] ∨ s0.terminated = true) → (s0.finishPop p).results = s0.results ++ [none] →
      s.terminated = true ∧ (p = .process → s.queue = []) := by
    intro s0 e1 e2 e3 hready hf
    unfold State.finishPop at hf
    split at hf
    · next hc =>
      rcases hc with ⟨rfl, ht⟩ | ⟨rfl, hq⟩
      · exact ⟨by rw [← e2]; exact ht, by simp⟩
      · have hq' : s0.queue = [] := by simpa using hq
        exact ⟨by rw [← e2]; exact hready.resolve_left (by simp [hq']), fun _ => by rw [← e1, hq']⟩
    · split at hf
      · next hq =>
        exact ⟨by rw [← e2]; exact hready.resolve_left (by simp [hq]), fun _ => by rw [← e1, hq]⟩
      · simp at hf
  have rdy : s.ready = true → (s.queue ≠ [] ∨ s.terminated = true) := by
    intro h; simpa [State.ready] using h
  cases a with
  | push x =>
    simp only [State.step] at h
    split at h <;> (simp at h; subst h; simp at hlen)
  | notify =>
    simp only [State.step] at h
    split at h
    · simp at h
    · split at h <;> (simp at h; subst h; simp at hlen)
  | popEnter =>
    simp only [State.step] at h
    split at h
    · next hready => simp at h; subst h; exact fin s rfl rfl rfl (rdy hready) hr
    · simp at h; subst h; simp at hlen
  | popWoken =>
    simp only [State.step] at h
    split at h
    · simp at h
    · split at h
      · next hready => simp at h; subst h; exact fin { s with woken := s.woken - 1 } rfl rfl rfl (rdy hready) hr
      · simp at h; subst h; simp at hlen
  | spurious =>
    simp only [State.step] at h
    split at h
    · simp at h
    · simp at h; subst h; simp at hlen
  | terminate => simp [State.step] at h; subst h; simp at hlen

/-- Before termination a consumer that finds elements takes the oldest one. -/
theorem C08_pop_takes_oldest {T} (p : Policy) (s : State T) (x : T) (q : List T) (hq : s.queue = x :: q)
    (ht : s.terminated = false) :
    ∃ s', s.step p .popEnter = some s' ∧ s'.results = s.results ++ [some x] ∧ s'.queue = q := by
  refine ⟨{ s with queue := q, results := s.results ++ [some x] }, ?_, rfl, rfl⟩
  simp [State.step, State.ready, State.finishPop, hq, ht]

/-- With the other policy (`process_elements`), a `pop` reports the end only when the queue is terminated and empty. -/
theorem C08_process_policy_drains {T} (s s' : State T) (h : s.step .process .popEnter = some s')
    (hr : s'.results = s.results ++ [none]) : s.terminated = true ∧ s.queue = [] := by
  simp only [State.step] at h
  split at h
  · next hready =>
    simp at h; subst h
    unfold State.finishPop at hr
    split at hr
    · next hc =>
      simp at hc
      exact ⟨by simpa [State.ready, hc] using hready, hc⟩
    · split at hr
      · next hq => exact ⟨by simpa [State.ready, hq] using hready, hq⟩
      · simp at hr
  · simp at h; subst h
    simp only at hr
    exact absurd (congrArg List.length hr) (by simp)

/-- C09 for one consumer (the way the server uses the queue: one thread reads each queue): whenever the consumer is asleep
although an element is available or the queue is terminated, a notification is on its way. -/
theorem C09_no_lost_wakeup_partial {T} (p : Policy) (as : List (Act T)) (s : State T) (h : State.run p {} as = some s)
    (h1 : singleConsumer p ({} : State T) as) :
    0 < s.sleeping → (s.queue ≠ [] ∨ s.terminated = true) → 0 < s.notifies := by
  suffices hh : 0 < s.sleeping → s.ready = true → 0 < s.notifies from
    fun h1 h2 => hh h1 (by simpa [State.ready] using h2)
  -- invariant: at most one consumer inside `pop`, and the claim
  have key : ∀ (as : List (Act T)) (s0 s : State T), (s0.sleeping + s0.woken ≤ 1 ∧
      (0 < s0.sleeping → s0.ready = true → 0 < s0.notifies)) → singleConsumer p s0 as → s0.run p as = some s →
      (s.sleeping + s.woken ≤ 1 ∧ (0 < s.sleeping → s.ready = true → 0 < s.notifies)) := by
    intro as
    induction as with
    | nil => intro s0 s hi _ hr; simp [State.run] at hr; subst hr; exact hi
    | cons a as ih =>
      intro s0 s hi hs hr
      simp only [State.run] at hr
      cases hst : s0.step p a with
      | none => simp [hst] at hr
      | some s1 =>
        simp [hst] at hr
        simp only [singleConsumer, hst] at hs
        refine ih s1 s ?_ hs.2 hr
        obtain ⟨hle, hw⟩ := hi
        cases a with
        | push x =>
          simp only [State.step] at hst
          split at hst
          · simp at hst; subst hst; exact ⟨hle, hw⟩
          · next ht =>
            simp at hst ht; subst hst
            refine ⟨hle, ?_⟩
            intro hsl _
            simp only at hsl ⊢
            by_cases hq : s0.queue = []
            · simp [hq]
            · have := hw hsl (by simp [State.ready, hq]); omega
        | notify =>
          simp only [State.step] at hst
          split at hst
          · simp at hst
          · split at hst
            · next h0 => simp at hst; subst hst; exact ⟨hle, fun h => absurd h0 (by simp only at h; omega)⟩
            · simp at hst; subst hst
              simp only
              refine ⟨by omega, ?_⟩
              intro hsl; omega
        | popEnter =>
          have hs0 := hs.1
          simp only [State.step] at hst
          split at hst
          · simp at hst; subst hst
            obtain ⟨e1, e2, e3, _⟩ := finishPop_fields p s0
            rw [e1, e2]
            exact ⟨hle, fun h => by omega⟩
          · next hnr => simp at hst; subst hst; exact ⟨by simp only; omega, fun _ h => absurd h (by simpa [State.ready] using hnr)⟩
        | popWoken =>
          simp only [State.step] at hst
          split at hst
          · simp at hst
          · split at hst
            · simp at hst; subst hst
              obtain ⟨e1, e2, e3, _⟩ := finishPop_fields p { s0 with woken := s0.woken - 1 }
              rw [e1, e2]
              exact ⟨by simp only; omega, fun h => by simp only at h; omega⟩
            · next hnr => simp at hst; subst hst; exact ⟨by simp only; omega, fun _ h => absurd h (by simpa [State.ready] using hnr)⟩
        | spurious =>
          simp only [State.step] at hst
          split at hst
          · simp at hst
          · simp at hst; subst hst
            exact ⟨by simp only; omega, fun h => by simp only at h; omega⟩
        | terminate =>
          simp [State.step] at hst; subst hst
          exact ⟨hle, fun _ _ => by simp⟩
  exact (key as {} s ⟨by simp, by simp [State.ready]⟩ h1 h).2

theorem finishPop_results {T} (p : Policy) (s : State T) : ∃ r, (s.finishPop p).results = s.results ++ [r] := by
  unfold State.finishPop
  split
  · exact ⟨_, rfl⟩
  · split <;> exact ⟨_, rfl⟩

/-- ... and once that notification is delivered and the woken consumer gets the mutex, its `pop` completes. -/
theorem C09_wakeup_completes {T} (p : Policy) (s : State T) (hs : 0 < s.sleeping)
    (hr : s.queue ≠ [] ∨ s.terminated = true) (hn : 0 < s.notifies) :
    ∃ s1 s2 r, s.step p .notify = some s1 ∧ s1.step p .popWoken = some s2 ∧ s2.results = s.results ++ [r] ∧
      s2.sleeping = s.sleeping - 1 := by
  have e1 : s.step p .notify =
      some { s with notifies := s.notifies - 1, sleeping := s.sleeping - 1, woken := s.woken + 1 } := by
    simp [State.step, Nat.pos_iff_ne_zero.mp hs, Nat.pos_iff_ne_zero.mp hn]
  have e2 := finishPop_results p { s with notifies := s.notifies - 1, sleeping := s.sleeping - 1 }
  obtain ⟨r, e2⟩ := e2
  refine ⟨_, _, r, e1, ?_, e2, (finishPop_fields p _).1⟩
  simp only [State.step]
  rw [if_neg (by simp), if_pos (by simpa [State.ready] using hr)]
  simp

/-- With two consumers the property fails: both sleep, two elements are pushed, only the first push notifies; one consumer
takes an element and leaves, the other sleeps on although an element is queued, and no notification is pending. -/
theorem C09_witness_two_consumers :
    ∃ s, State.run .drop ({} : State Nat) [.popEnter, .popEnter, .push 1, .push 2, .notify, .popWoken] = some s ∧
      0 < s.sleeping ∧ s.queue = [2] ∧ s.notifies = 0 ∧ s.woken = 0 := by
  refine ⟨_, rfl, by decide, by decide, by decide, by decide⟩

/-- Likewise termination wakes only one of two sleeping consumers. -/
theorem C09_witness_terminate :
    ∃ s, State.run .drop ({} : State Nat) [.popEnter, .popEnter, .terminate, .notify, .popWoken] = some s ∧
      0 < s.sleeping ∧ s.terminated = true ∧ s.notifies = 0 ∧ s.woken = 0 := by
  refine ⟨_, rfl, by decide, by decide, by decide, by decide⟩

/-- Non-vacuity: a single-consumer schedule that sleeps, is woken, pops twice and sees the end. -/
example : singleConsumer .drop ({} : State Nat)
      [.popEnter, .push 1, .push 2, .notify, .popWoken, .popEnter, .popEnter, .terminate, .push 3, .notify, .popWoken] ∧
    ∃ s, State.run .drop ({} : State Nat)
      [.popEnter, .push 1, .push 2, .notify, .popWoken, .popEnter, .popEnter, .terminate, .push 3, .notify, .popWoken] = some s ∧
      s.results = [some 1, some 2, none] ∧ accepted s = [1, 2] := by
  refine ⟨?_, _, rfl, by decide, by decide⟩
  simp [singleConsumer, State.step, State.ready, State.finishPop]

end Verif.Queue
