import Verif.Debugger.Polite
/-! C60, C61: where the debugger stops, and that it can be woken and ended. -/
namespace Verif.Debugger

/-- **C60.** Whatever the program, the breakpoints, the commands and the interleaving: every decision of the debugger is the
one its history calls for (`EvOk`), its events about each statement come in the only sensible order (`Chained`: look, decide,
stop exactly if decided so, process), and statements are processed in program order, none left out. -/
theorem C60_history {tr b₀ e todo st} (h : (launch tr b₀ e todo).Reaches st) :
    LogOk tr b₀ st.log ∧ Chained (ownLog st.log) ∧ processedIn st.log <+: tr := by
  obtain ⟨h, -⟩ := inv_reachable h
  exact ⟨h.ok, h.chain, ⟨_, by rw [← List.append_assoc]; exact h.trace⟩⟩

theorem logOk_mem {tr b₀ e} : ∀ {l}, LogOk tr b₀ l → e ∈ l → ∃ r, EvOk tr b₀ e r
  | [], _, h => by simp at h
  | f :: r, h, hm => by
    rcases List.mem_cons.mp hm with rfl | hm
    · exact ⟨r, h.1⟩
    · exact logOk_mem h.2 hm

theorem chained_tail {e r} (h : Chained (e :: r)) : Chained r := by
  cases r with
  | nil => trivial
  | cons f r => cases e <;> exact h.2

theorem chained_head {e f r} (h : Chained (e :: f :: r)) : Follows e f := by cases e <;> exact h.1

theorem decided_looked {s b} : ∀ {l}, Chained l → Ev.decided s b ∈ l → ∃ h, Ev.looked s h ∈ l
  | [], _, h => by simp at h
  | e :: r, hc, hm => by
    rcases List.mem_cons.mp hm with rfl | hm
    · cases r with
      | nil => simp [Chained] at hc
      | cons f r =>
        have := chained_head hc
        cases f <;> simp [Follows] at this
        subst this
        rename_i x
        exact ⟨x, by simp⟩
    · obtain ⟨h, hh⟩ := decided_looked (chained_tail hc) hm
      exact ⟨h, List.mem_cons_of_mem _ hh⟩

theorem stopped_decided {s} : ∀ {l}, Chained l → Ev.stopped s ∈ l → Ev.decided s true ∈ l
  | [], _, h => by simp at h
  | e :: r, hc, hm => by
    rcases List.mem_cons.mp hm with rfl | hm
    · cases r with
      | nil => simp [Chained] at hc
      | cons f r =>
        have := chained_head hc
        cases f <;> simp [Follows] at this
        obtain ⟨rfl, rfl⟩ := this
        simp
    · exact List.mem_cons_of_mem _ (stopped_decided (chained_tail hc) hm)

theorem mem_ownLog {e : Ev} {l} : e ∈ ownLog l ↔ e ∈ l ∧ e.own = true := by simp [ownLog]

/-- **C60.** The debugger never stops in a lookahead, in a macro or copy definition, or at a blank statement. -/
theorem C60_only_executed {tr b₀ e todo st} (h : (launch tr b₀ e todo).Reaches st) {s} (hs : Ev.stopped s ∈ st.log) :
    s.kind = .ordinary ∧ s.emptyOp = false := by
  obtain ⟨hok, hch, -⟩ := C60_history h
  obtain ⟨x, hx⟩ := decided_looked hch (stopped_decided hch (mem_ownLog.mpr ⟨hs, rfl⟩))
  obtain ⟨r, hr⟩ := logOk_mem hok (mem_ownLog.mp hx).1
  exact hr.1

/-- **C60.** A client answers each stop with new breakpoints and a resume command. Under every schedule the program has
stopped at the expected statements in the expected order, at all of them once it has ended, and no behaviour is undefined. -/
theorem C60_run {tr b₀ e rs st} (h : (launch tr b₀ e (polite rs)).Reaches st) :
    stopList st.log <+: expectedStops b₀ ⟨e, none⟩ tr rs ∧
    (st.apc = .done → stopList st.log = expectedStops b₀ ⟨e, none⟩ tr rs) ∧ st.ub = none := by
  obtain ⟨acts, h⟩ := h
  have g := sim_run (inv_launch ..) (inv2_launch ..) (sim_launch tr b₀ e rs) h
  obtain ⟨h1, h2⟩ := sim_prefix g
  exact ⟨h1, h2, g.ub⟩

/-- A state in which neither thread can move. -/
def Stuck (st : St) : Prop := st.step .a = none ∧ st.step .c = none

theorem cont_from_todo {st st' : St} {act} (hs : st.step act = some st') (h : Cmd.cont ∉ st.todo) (h' : Ev.cont ∉ st.log) :
    Cmd.cont ∉ st'.todo ∧ Ev.cont ∉ st'.log := by
  unfold St.step at hs
  split at hs
  · simp at hs
  cases act with
  | a =>
    simp only [St.stepA] at hs
    (repeat' split at hs) <;> simp only [Option.some.injEq, reduceCtorEq] at hs <;> subst hs <;> simp_all
  | c =>
    simp only [St.stepC, St.wake, St.stoppedAt] at hs
    (repeat' split at hs) <;> simp only [Option.some.injEq, reduceCtorEq] at hs <;> subst hs <;> simp_all
  | spurious =>
    simp only at hs
    split at hs <;> simp only [Option.some.injEq, reduceCtorEq] at hs
    subst hs
    exact ⟨h, h'⟩

theorem run_no_cont : ∀ {acts} {st st' : St}, st.run acts = some st' → Cmd.cont ∉ st.todo → Ev.cont ∉ st.log → Ev.cont ∉ st'.log
  | [], st, st', hr, _, h => by cases hr; exact h
  | a :: as, st, st', hr, h, h' => by
    simp only [St.run, Option.bind_eq_some_iff] at hr
    obtain ⟨s1, h1, h2⟩ := hr
    obtain ⟨p, q⟩ := cont_from_todo h1 h h'
    exact run_no_cont h2 p q

theorem polite_no_cont {rs : List Reply} (h : ∀ r ∈ rs, r.resume ≠ .cont) : Cmd.cont ∉ polite rs := by
  induction rs with
  | nil => simp [polite]
  | cons r rs ih =>
    have := h r (by simp)
    cases hr : r.resume <;> simp_all [polite, Resume.cmd]

set_option maxHeartbeats 1000000 in
/-- **C60 / C61.** If every answer is a step, then whenever neither thread can move the program has stopped at all the
expected statements: no expected stop is missed and no step is lost. The same is false of `continue`, see
`C61_witness_lost`. -/
theorem C60_all_stops_partial {tr b₀ e rs st} (hr : ∀ r ∈ rs, r.resume ≠ .cont) (h : (launch tr b₀ e (polite rs)).Reaches st)
    (hst : Stuck st) : stopList st.log = expectedStops b₀ ⟨e, none⟩ tr rs := by
  obtain ⟨hi, hi2⟩ := inv_reachable h
  obtain ⟨acts, h⟩ := h
  have g := sim_run (inv_launch ..) (inv2_launch ..) (sim_launch tr b₀ e rs) h
  have hnc : Ev.cont ∉ st.log := run_no_cont h (polite_no_cont hr) (by simp [launch])
  obtain ⟨g1, g2, g3, g4⟩ := g
  obtain ⟨sa, sc⟩ := hst
  simp only [St.step, g1, Option.isSome_none, Bool.false_eq_true, if_false] at sa sc
  have hctlc := hi.ctlC
  have hctl := hi.ctl
  have hvc := hi2.varC
  have hva := hi2.varA
  have notC : st.cpc ≠ .notify ∧ st.cpc ≠ .setCont ∧ st.cpc ≠ .bareCont := by
    refine ⟨?_, ?_, ?_⟩ <;> intro hc <;> simp [St.stepC, hc] at sc
  have freeC : Idle st → st.control ≠ some .c ∧ st.var ≠ some .c := by
    rintro (hc | hc)
    · simp_all [CPc.holdsControl]
    · exact absurd hc notC.1
  cases hp : st.apc <;> simp only [hp, SimA, St.stepA] at g4 sa
  case loop => split at sa <;> (try simp at sa); split at sa <;> simp at sa
  case enter => (repeat' split at sa) <;> simp at sa
  case decide => (repeat' split at sa) <;> simp at sa
  case start | wantControl | wantVar =>
    exfalso
    first
      | obtain ⟨rs, c, -⟩ := g4
        have := freeC c
        simp only [ite_eq_right_iff, reduceCtorEq, imp_false] at sa
        simp only [hp, APc.holdsVar, APc.holdsControl] at hva hctl
        generalize st.var = v at *
        generalize st.control = w at *
        rcases v with _ | ⟨_ | _⟩ <;> rcases w with _ | ⟨_ | _⟩ <;> simp_all
      | obtain ⟨rs, ⟨c, -⟩, -⟩ := g4
        have := freeC c
        simp only [ite_eq_right_iff, reduceCtorEq, imp_false] at sa
        simp only [hp, APc.holdsVar, APc.holdsControl] at hva hctl
        generalize st.var = v at *
        rcases v with _ | ⟨_ | _⟩ <;> simp_all
  case locked | check | unlockEnd => (repeat' split at sa) <;> simp at sa
  case done => obtain ⟨⟨rs, c, t, s, e⟩, q⟩ := g4; simp [e, q, expectedStops]
  case woken =>
    exfalso
    simp only [ite_eq_right_iff, reduceCtorEq, imp_false] at sa
    simp only [hp, APc.holdsControl] at hctl
    have : st.control = some .c := by
      generalize st.control = w at *
      rcases w with _ | ⟨_ | _⟩ <;> simp_all
    have := hctlc.mp this
    cases hc : st.cpc <;> simp [hc, CPc.holdsControl] at this <;> simp [St.stepC, hc] at sc
  case asleep x =>
    have hfree : st.control = none := by
      simp only [hp, APc.holdsControl] at hctl
      generalize hw : st.control = w at *
      rcases w with _ | ⟨_ | _⟩
      · rfl
      · simp at hctl
      · have := hctlc.mp rfl
        cases hc : st.cpc <;> simp [hc, CPc.holdsControl] at this <;> simp [St.stepC, hc] at sc
    rcases g4 with ⟨rs, ⟨c, t, s, hf, e⟩, p, q⟩ | ⟨r, rs, c, t, s, hf, e, p, q⟩ | ⟨rs, c, t, s, hf, e, w⟩ | ⟨rs, ⟨c, t, s, e⟩, hf, w⟩
    · cases rs with
      | nil => simp [e, after]
      | cons r rs =>
        rcases c with c | c
        · simp only [St.stepC, c, t, polite] at sc
          rw [if_pos (by omega)] at sc
          simp at sc
        · exact absurd c notC.1
    · rcases c with c | c
      · obtain ⟨bs, res⟩ := r
        cases bs with
        | cons b bs => simp [St.stepC, c, t] at sc
        | nil => cases res <;> simp [St.stepC, c, t, Resume.cmd, hfree, St.stoppedAt, hp] at sc
      · exact absurd c notC.1
    · rcases c with c | c
      · exact absurd c notC.2.1
      · exact absurd c notC.2.2
    · rcases w with w | w
      · have := hi2.r2 x hp w
        rcases c with c | c <;> simp [c] at this
        exact absurd c notC.1
      · exact absurd w hnc
  all_goals simp at sa

/-! ### C61 -/

/-- **C61.** The user has asked for a step or to disconnect since the program last stopped, and the request has returned (or
waits for the analysing thread to end): the analysing thread is not asleep. Missing: `continue`, for which it is false. -/
theorem C61_woken_partial {tr b₀ e todo st} (h : (launch tr b₀ e todo).Reaches st)
    (hc : st.cpc = .idle ∨ st.cpc = .join ∨ st.cpc = .inspecting) (ha : resumeAsked st.log = true) :
    (∀ s, st.apc ≠ .asleep s) ∧ ∀ s, st.apc ≠ .sleepy s := by
  obtain ⟨-, h⟩ := inv_reachable h
  refine ⟨fun s hs => ?_, fun s hs => ?_⟩
  · have := h.r2 s hs ha
    rcases hc with hc | hc | hc <;> simp [hc] at this
  · simp [h.r1 s hs] at ha

/-- Upper bound on the steps of the analysing thread once the client has disconnected. -/
def APc.rank : APc → Nat
  | .done => 0
  | .unlockEnd => 1
  | .finish => 2
  | .loop => 3
  | .start => 4
  | .process _ => 4
  | .enter _ => 10
  | .look _ => 9
  | .decide _ _ => 8
  | .unlockVar _ => 7
  | .wantControl _ => 6
  | .locked _ => 5
  | .wantVar _ => 5
  | .check _ => 6
  | .woken _ => 7
  | _ => 0

set_option maxHeartbeats 1000000 in
theorem rank_stepA {tr b₀ st st'} (h : Inv tr b₀ st) (h2 : Inv2 st) (hc : st.cpc = .join) (hs : st.stepA = some st') :
    st'.cpc = .join ∧ st'.apc.rank < st.apc.rank := by
  have hd := h.discs (by simp [hc, CPc.discing])
  have hcan : st.cancel = true := by simpa [hc] using h2.canc2 hd
  have hcon : st.cont = true := by simpa [hc] using h2.cont2 hd
  have hra := h2.nostop hd
  have hl := h.live
  have hr1 := h2.r1
  simp only [St.stepA] at hs
  cases hp : st.apc <;> simp only [hp] at hs hl hr1 <;> (repeat' split at hs) <;>
    simp only [Option.some.injEq, reduceCtorEq] at hs <;> subst hs <;> simp_all [APc.rank, APc.resetting]

theorem enabled_joined {tr b₀ st} (h : Inv tr b₀ st) (h2 : Inv2 st) (hc : st.cpc = .join) :
    st.apc = .done ∨ ∃ st', st.stepA = some st' := by
  have hd := h.discs (by simp [hc, CPc.discing])
  have hra := h2.nostop hd
  have hctl := h.ctl
  have hctlc := h.ctlC
  have hva := h2.varA
  have hvc := h2.varC
  simp only [hc, CPc.holdsControl] at hctlc hvc
  cases hp : st.apc <;> simp only [St.stepA, hp] <;> simp only [hp, APc.holdsControl, APc.holdsVar] at hctl hva
  case asleep x => simpa [hc] using h2.r2 x hp hra
  case start | wantVar =>
    right
    generalize hv : st.var = v at *
    rcases v with _ | ⟨_ | _⟩ <;> simp_all
  case wantControl | woken =>
    right
    generalize hv : st.control = v at *
    rcases v with _ | ⟨_ | _⟩ <;> simp_all
  case done => exact Or.inl trivial
  all_goals
    right
    repeat' split
    all_goals exact ⟨_, rfl⟩

theorem apc_done_stepC {st st' : St} (h : st.apc = .done) (hs : st.stepC = some st') : st'.apc = .done := by
  simp only [St.stepC, St.wake, St.stoppedAt, h] at hs
  (repeat' split at hs) <;> simp only [Option.some.injEq, reduceCtorEq] at hs <;> subst hs <;> first | exact h | simp_all

theorem joined_step {tr b₀ st st' act} (h : Inv tr b₀ st) (h2 : Inv2 st) (hj : st.cpc = .join ∨ st.apc = .done)
    (hs : st.step act = some st') :
    (st'.cpc = .join ∨ st'.apc = .done) ∧ st'.apc.rank + [act].count .a ≤ st.apc.rank := by
  unfold St.step at hs
  split at hs
  · simp at hs
  by_cases hd : st.apc = .done
  · cases act with
    | a => simp [St.stepA, hd] at hs
    | c => have := apc_done_stepC hd hs; exact ⟨Or.inr this, by simp [this, APc.rank]⟩
    | spurious => simp [hd] at hs
  have hj : st.cpc = .join := by simpa [hd] using hj
  cases act with
  | a =>
    obtain ⟨p, q⟩ := rank_stepA h h2 hj hs
    exact ⟨Or.inl p, by simp only [List.count_singleton_self]; omega⟩
  | c => simp [St.stepC, hj, hd] at hs
  | spurious =>
    simp only at hs
    split at hs <;> simp only [Option.some.injEq, reduceCtorEq] at hs
    rename_i x hx
    have := h2.r2 x hx (h2.nostop (h.discs (by simp [hj, CPc.discing])))
    simp [hj] at this

theorem joined_run {tr b₀} : ∀ {acts : List Act} {st st' : St}, Inv tr b₀ st → Inv2 st → st.cpc = .join ∨ st.apc = .done →
    st.run acts = some st' → (st'.cpc = .join ∨ st'.apc = .done) ∧ st'.apc.rank + acts.count .a ≤ st.apc.rank
  | [], st, st', _, _, hj, hr => by cases hr; exact ⟨hj, by simp⟩
  | a :: as, st, st', h, h2, hj, hr => by
    simp only [St.run, Option.bind_eq_some_iff] at hr
    obtain ⟨s1, h1, hr⟩ := hr
    obtain ⟨p, q⟩ := joined_step h h2 hj h1
    obtain ⟨p', q'⟩ := joined_run (inv_step h h1) (inv2_step h h2 h1) p hr
    refine ⟨p', ?_⟩
    have : (a :: as).count Act.a = [a].count .a + as.count .a := by
      rw [← List.count_append]; rfl
    omega

theorem rank_le (p : APc) : p.rank ≤ 10 := by cases p <;> simp [APc.rank]

/-- **C61.** Once `disconnect` waits for the analysing thread, then whatever the schedule, that thread is able to move until
it has ended (or behaviour is undefined, see `C61_witness_unlock`), and it moves at most ten times. The program may be of any
length: only the statement being processed is finished. -/
theorem C61_disconnect_ends {tr b₀ e todo st} (h : (launch tr b₀ e todo).Reaches st) (hc : st.cpc = .join)
    (acts : List Act) (st' : St) (hr : st.run acts = some st') :
    (st'.apc = .done ∨ st'.ub ≠ none ∨ (st'.step .a).isSome = true) ∧ acts.count .a ≤ 10 := by
  obtain ⟨h, h2⟩ := inv_reachable h
  obtain ⟨p, q⟩ := joined_run h h2 (Or.inl hc) hr
  obtain ⟨h', h2'⟩ := run_inv h h2 hr
  refine ⟨?_, by have := rank_le st.apc; omega⟩
  rcases p with p | p
  · rcases enabled_joined h' h2' p with k | ⟨s1, k⟩
    · exact Or.inl k
    · cases hu : st'.ub with
      | none => exact Or.inr (Or.inr (by simp [St.step, hu, k]))
      | some u => exact Or.inr (Or.inl (by simp))
  · exact Or.inl p

/-- Steps until the analysing thread releases `control_mtx`. -/
def APc.hold : APc → Nat
  | .locked _ => 5
  | .clearCont _ => 4
  | .event _ => 3
  | .check _ => 2
  | .sleepy _ | .wantVar _ => 1
  | _ => 0

theorem ub_stepA {tr b₀ st st'} (h : Inv tr b₀ st) (hh : st.control = some .a) (hu : st.ub = none) (hs : st.stepA = some st') :
    st'.ub = none := by
  have := h.ctl.mp hh
  simp only [St.stepA] at hs
  cases hp : st.apc <;> simp only [hp, APc.holdsControl, reduceCtorEq, Bool.false_eq_true] at hs this <;> (repeat' split at hs) <;>
    simp only [Option.some.injEq, reduceCtorEq] at hs <;> subst hs <;> exact hu

theorem hold_stepA {st st' : St} {n} (hn : st.apc.hold = n + 1) (hc : st.cpc = .idle) (hs : st.stepA = some st') :
    st'.apc.hold ≤ n ∧ st'.cpc = .idle ∧ st'.todo = st.todo := by
  simp only [St.stepA] at hs
  cases hp : st.apc <;> simp only [hp, APc.hold] at hs hn <;> (try omega) <;> (repeat' split at hs) <;>
    simp only [Option.some.injEq, reduceCtorEq] at hs <;> subst hs <;> refine ⟨?_, hc, rfl⟩ <;> simp only [APc.hold] <;> omega

theorem release {tr b₀} : ∀ (n : Nat) {st : St}, Inv tr b₀ st → Inv2 st → st.ub = none → st.cpc = .idle → st.apc.hold = n →
    ∃ acts st', st.run acts = some st' ∧ st'.control = none ∧ st'.cpc = .idle ∧ st'.todo = st.todo ∧ st'.ub = none
  | 0, st, h, h2, hu, hc, hn => by
    refine ⟨[], st, rfl, ?_, hc, rfl, hu⟩
    have h1 := h.ctl
    have h2 := h.ctlC
    simp only [hc, CPc.holdsControl] at h2
    cases hv : st.control with
    | none => rfl
    | some v =>
      cases v with
      | c => simp [hv] at h2
      | a =>
        have := h1.mp hv
        cases hp : st.apc <;> simp [hp, APc.holdsControl, APc.hold] at this hn
  | n + 1, st, h, h2, hu, hc, hn => by
    have hh : st.control = some .a := by
      apply h.ctl.mpr
      cases hp : st.apc <;> simp [hp, APc.hold, APc.holdsControl] at hn ⊢
    have hv : st.apc.holdsVar = false → st.var = none := by
      intro hf
      cases hv : st.var with
      | none => rfl
      | some v =>
        cases v with
        | a => simp [h2.varA hv] at hf
        | c => have := h2.varC.mp hv; simp [hc] at this
    have step : ∃ st', st.stepA = some st' := by
      cases hp : st.apc <;> simp only [hp, APc.hold] at hn <;> try omega
      case wantVar x =>
        have := hv (by simp [hp, APc.holdsVar])
        simp [St.stepA, hp, this]
      all_goals
        simp only [St.stepA, hp]
        repeat' split
        all_goals exact ⟨_, rfl⟩
    obtain ⟨s1, hs⟩ := step
    obtain ⟨hle, hc1, ht1⟩ := hold_stepA hn hc hs
    have hstep : st.step .a = some s1 := by simp [St.step, hu, hs]
    obtain ⟨acts, st', hr, a, b, c, d⟩ := release s1.apc.hold (inv_step h hstep) (inv2_step h h2 hstep) (ub_stepA h hh hu hs) hc1 rfl
    exact ⟨.a :: acts, st', by simp [St.run, hstep, hr], a, b, c.trans ht1, d⟩
termination_by n => n

/-- **C61.** `disconnect` can always get through: from every reachable state in which the client is about to issue it there
is a way to the point where it waits for the analysing thread (from where `C61_disconnect_ends` applies). -/
theorem C61_disconnect_possible {tr b₀ e todo st t} (h : (launch tr b₀ e todo).Reaches st) (hc : st.cpc = .idle)
    (ht : st.todo = .disconnect :: t) (hu : st.ub = none) : ∃ st', st.Reaches st' ∧ st'.cpc = .join ∧ st'.ub = none := by
  obtain ⟨h, h2⟩ := inv_reachable h
  obtain ⟨acts, s1, hr, hf, hc1, ht1, hu1⟩ := release _ h h2 hu hc rfl
  rw [ht] at ht1
  have app : ∀ (as bs : List Act) (s s' s'' : St), s.run as = some s' → s'.run bs = some s'' → s.run (as ++ bs) = some s'' := by
    intro as
    induction as with
    | nil => intro bs s s' s'' p q; cases p; exact q
    | cons a as ih =>
      intro bs s s' s'' p q
      simp only [St.run, Option.bind_eq_some_iff, List.cons_append] at p ⊢
      obtain ⟨m, pm, pr⟩ := p
      exact ⟨m, pm, ih bs m s' s'' pr q⟩
  let s2 : St := { s1 with todo := t, control := some .c, disconnected := true, cpc := .disc1, log := .disconnect :: s1.log }
  let s3 : St := { s2 with cont := true, cpc := .disc2 }
  let s4 : St := { s3 with cancel := true, control := none, cpc := .discNotify }
  let s5 : St := { s4.wake with cpc := .join }
  have hw : s4.wake.ub = none := by
    unfold St.wake
    split <;> exact hu1
  refine ⟨s5, ⟨acts ++ [.c, .c, .c, .c], app _ _ _ _ _ hr ?_⟩, rfl, hw⟩
  have e1 : s1.step .c = some s2 := by simp [St.step, hu1, St.stepC, hc1, ht1, hf, s2]
  have e2 : s2.step .c = some s3 := by simp [St.step, St.stepC, s2, s3, hu1]
  have e3 : s3.step .c = some s4 := by simp [St.step, St.stepC, s2, s3, s4, hu1]
  have e4 : s4.step .c = some s5 := by simp [St.step, St.stepC, s2, s3, s4, s5, hu1]
  simp only [St.run, e1, e2, e3, e4, Option.bind_some]

/-- **C61.** Undefined behaviour arises only if the client disconnects between the decision to stop and the stop, or issues
`next` while the program is not stopped. -/
theorem C61_ub {tr b₀ e todo st} (h : (launch tr b₀ e todo).Reaches st) :
    (st.ub = some .unlock → ∃ s, Ev.aborted s ∈ st.log) ∧
    (st.ub = some .ctx → ∃ t, st.todo = .next :: t ∧ st.stoppedAt = none) := by
  obtain ⟨-, h⟩ := inv_reachable h
  exact ⟨h.ub, h.ubC⟩

/-! ### Witnesses and examples -/

/-- A three-statement program: a macro call in open code, a statement of the macro, the next statement of open code. -/
def demo : List Stmt :=
  [{ first := 3, last := 3 }, { file := "m", first := 1, last := 1, depth := 2 }, { first := 4, last := 4 }]

/-- The final state of a schedule. -/
def finalOf (st : St) (acts : List Act) : St := (st.run acts).getD st

theorem reaches_final {st : St} {acts : List Act} (h : (st.run acts).isSome = true) : st.Reaches (finalOf st acts) := by
  obtain ⟨x, hx⟩ := Option.isSome_iff_exists.mp h
  exact ⟨acts, by simp [finalOf, hx]⟩

/-- **C61 is violated.** `continue_debug` changes `continue_` without the mutex: if it does so between the analysing thread's
test and its falling asleep, the notification is lost. The client has continued, its request has returned, nothing is left to
do, and the analysing thread sleeps although `continue_` is set. -/
theorem C61_witness_lost : ∃ st, (launch demo (fun _ => []) true (polite [⟨[], .cont⟩])).Reaches st ∧ Stuck st ∧
    st.cpc = .idle ∧ st.todo = [] ∧ st.cont = true ∧ (∃ s, st.apc = .asleep s) ∧ stopList st.log = demo.take 1 :=
  let acts : List Act := List.replicate 11 .a ++ [.c, .c, .c, .c, .a]
  ⟨finalOf _ acts, reaches_final (by decide +kernel), ⟨rfl, rfl⟩, rfl, rfl, rfl, ⟨_, rfl⟩, by decide +kernel⟩

/-- **C61 is violated.** If the client disconnects after the debugger has decided to stop and before it has stopped, the
analysing thread returns without having locked `variable_mtx_` again and then unlocks it at its end: undefined behaviour. -/
theorem C61_witness_unlock : ∃ st, (launch demo (fun _ => []) true [.disconnect]).Reaches st ∧ st.ub = some .unlock :=
  let acts : List Act := List.replicate 6 .a ++ [.c, .c, .c, .c] ++ List.replicate 6 .a
  ⟨finalOf _ acts, reaches_final (by decide +kernel), rfl⟩

/-- **C61 is violated.** `next` after the end of the program follows a pointer into the destroyed analyser. -/
theorem C61_witness_next : ∃ st, (launch demo (fun _ => []) false [.next]).Reaches st ∧ st.ub = some .ctx ∧ st.apc = .done :=
  let acts : List Act := List.replicate 19 .a ++ [.c]
  ⟨finalOf _ acts, reaches_final (by decide +kernel), rfl, rfl⟩

-- C60_history, C60_run, C60_only_executed: a run in which stop on entry and a step-over are answered
example : ∃ st, (launch demo (fun _ => []) true (polite [⟨[], .next⟩, ⟨[], .stepIn⟩])).Reaches st ∧ st.apc = .done ∧
    stopList st.log = [demo[0], demo[2]] ∧ expectedStops (fun _ => []) ⟨true, none⟩ demo [⟨[], .next⟩, ⟨[], .stepIn⟩] = [demo[0], demo[2]] :=
  let acts : List Act := List.replicate 12 .a ++ List.replicate 4 .c ++ List.replicate 20 .a ++ List.replicate 4 .c ++
    List.replicate 7 .a
  ⟨finalOf _ acts, reaches_final (by decide +kernel), by decide +kernel, by decide +kernel, by decide +kernel⟩

-- a breakpoint set at a stop is honoured, in the right file only
example : expectedStops (fun _ => []) ⟨true, none⟩ demo [⟨[("m", [1]), ("a", [7])], .cont⟩, ⟨[], .cont⟩] = [demo[0], demo[1]] := by
  decide +kernel

-- C61_woken_partial: a step has been asked for and the thread runs
example : ∃ st, (launch demo (fun _ => []) true (polite [⟨[], .stepIn⟩])).Reaches st ∧ st.cpc = .idle ∧
    resumeAsked st.log = true ∧ ∃ s, st.apc = .woken s :=
  let acts : List Act := List.replicate 12 .a ++ List.replicate 4 .c
  ⟨finalOf _ acts, reaches_final (by decide +kernel), rfl, by decide +kernel, ⟨_, rfl⟩⟩

-- C60_all_stops_partial: a stuck state
example : ∃ st, (launch demo (fun _ => []) true (polite [⟨[], .next⟩])).Reaches st ∧ Stuck st ∧
    stopList st.log = [demo[0], demo[2]] :=
  let acts : List Act := List.replicate 12 .a ++ List.replicate 4 .c ++ List.replicate 20 .a
  ⟨finalOf _ acts, reaches_final (by decide +kernel), ⟨rfl, rfl⟩, by decide +kernel⟩

-- C61_disconnect_ends: the client waits for the thread, which was asleep
example : ∃ st, (launch demo (fun _ => []) true [.disconnect]).Reaches st ∧ st.cpc = .join ∧ st.apc.rank = 7 :=
  let acts : List Act := List.replicate 12 .a ++ List.replicate 4 .c
  ⟨finalOf _ acts, reaches_final (by decide +kernel), rfl, rfl⟩

end Verif.Debugger
