import Verif.Debugger.Inv
/-!
A client that answers every stop with (possibly) new breakpoints and one resume command: where does the program stop?
-/
namespace Verif.Debugger

/-- How the user resumes. -/
inductive Resume | next | stepIn | cont
deriving DecidableEq, Repr

/-- What the user does at a stop: sets breakpoints, then resumes. -/
structure Reply where
  bps : List (String × List Nat) := []
  resume : Resume
deriving DecidableEq, Repr

/-- What is pending while the program runs: a step-in, and a step-over with the depth it began at. -/
structure Mode where
  step : Bool
  over : Option Nat
deriving DecidableEq, Repr

/-- The pending request after resuming from statement `s`. -/
def Resume.mode (s : Stmt) : Resume → Mode
  | .next => ⟨false, some s.depth⟩
  | .stepIn => ⟨true, none⟩
  | .cont => ⟨false, none⟩

/-- Breakpoints after setting those of the list, in order. -/
def setAll (b : String → List Nat) : List (String × List Nat) → String → List Nat
  | [] => b
  | (f, ls) :: r => setAll (fun g => if g = f then ls else b g) r

/-- The user expects a stop before `s`. -/
def Expected (b : String → List Nat) (m : Mode) (s : Stmt) : Prop :=
  Visible s ∧ (m.step = true ∨ OnBreakpoint b s ∨ ∃ d, m.over = some d ∧ s.depth ≤ d)

instance (b : String → List Nat) (m : Mode) (s : Stmt) : Decidable (Expected b m s) :=
  decidable_of_iff (Visible s ∧ (m.step = true ∨ OnBreakpoint b s ∨ m.over.any fun d => s.depth ≤ d)) (by
    cases hm : m.over <;> simp_all [Expected])

/-- Specification: the statements at which the program stops, when the user's answers are `rs` (the program waits for ever at
the first stop for which there is no answer). -/
def expectedStops (b : String → List Nat) (m : Mode) : List Stmt → List Reply → List Stmt
  | [], _ => []
  | s :: t, rs =>
    if Expected b m s then
      s :: (match rs with
        | [] => []
        | r :: rs => expectedStops (setAll b r.bps) (r.resume.mode s) t rs)
    else expectedStops b m t rs

def Resume.cmd : Resume → Cmd
  | .next => .next
  | .stepIn => .stepIn
  | .cont => .cont

/-- The requests the client sends. -/
def polite : List Reply → List Cmd
  | [] => []
  | r :: rs => .waitStop :: (r.bps.map (fun p => .setBps p.1 p.2) ++ r.resume.cmd :: polite rs)

/-! ### Simulation -/

def pend (log : List Ev) : Mode := ⟨stepPending log, overPending log⟩

def after (b : String → List Nat) (s : Stmt) (t : List Stmt) : List Reply → List Stmt
  | [] => []
  | r :: rs => expectedStops (setAll b r.bps) (r.resume.mode s) t rs

def Idle (st : St) : Prop := st.cpc = .idle ∨ st.cpc = .notify

structure Run (E : List Stmt) (st : St) (cur : List Stmt) (rs : List Reply) : Prop where
  cpc : Idle st
  todo : st.todo = polite rs
  seen : st.seen = stopsIn st.log
  exp : E = stopList st.log ++ expectedStops st.bps (pend st.log) (cur ++ st.trace) rs

structure Stopping (E : List Stmt) (st : St) (s : Stmt) (rs : List Reply) : Prop where
  cpc : Idle st
  todo : st.todo = polite rs
  seen : st.seen = stopsIn st.log
  exp : E = stopList st.log ++ s :: after st.bps s st.trace rs

structure StopA (E : List Stmt) (st : St) (s : Stmt) (rs : List Reply) : Prop where
  cpc : Idle st
  todo : st.todo = polite rs
  seen : st.seen + 1 = stopsIn st.log
  cont : st.cont = false
  exp : E = stopList st.log ++ after st.bps s st.trace rs

structure StopB (E : List Stmt) (st : St) (s : Stmt) (r : Reply) (rs : List Reply) : Prop where
  cpc : Idle st
  todo : st.todo = r.bps.map (fun p => .setBps p.1 p.2) ++ r.resume.cmd :: polite rs
  seen : st.seen = stopsIn st.log
  cont : st.cont = false
  exp : E = stopList st.log ++ after st.bps s st.trace (r :: rs)
  step : stepPending st.log = false
  over : overPending st.log = none

structure StopC (E : List Stmt) (st : St) (rs : List Reply) : Prop where
  cpc : st.cpc = .setCont ∨ st.cpc = .bareCont
  todo : st.todo = polite rs
  seen : st.seen = stopsIn st.log
  cont : st.cont = false
  exp : E = stopList st.log ++ expectedStops st.bps (pend st.log) st.trace rs
  why : resumeAsked st.log = true ∨ Ev.cont ∈ st.log

structure StopD (E : List Stmt) (st : St) (rs : List Reply) : Prop where
  run : Run E st [] rs
  cont : st.cont = true
  why : resumeAsked st.log = true ∨ Ev.cont ∈ st.log

def Stopped (E : List Stmt) (st : St) (s : Stmt) : Prop :=
  (∃ rs, StopA E st s rs ∧ stepPending st.log = false ∧ overPending st.log = none) ∨ (∃ r rs, StopB E st s r rs) ∨
  (∃ rs, StopC E st rs) ∨ ∃ rs, StopD E st rs

def SimA (E : List Stmt) (st : St) : Prop :=
  match st.apc with
  | .start | .loop | .process _ => ∃ rs, Run E st [] rs
  | .enter s => ∃ rs, Run E st [s] rs
  | .look s => (∃ rs, Run E st [s] rs)
  | .decide s h => (∃ rs, Run E st [s] rs) ∧ h = hit st.bps s ∧ Visible s
  | .finish | .unlockEnd | .done => (∃ rs, Run E st [] rs) ∧ st.trace = []
  | .unlockVar s | .wantControl s | .locked s | .clearCont s => ∃ rs, Stopping E st s rs
  | .event s => ∃ rs, Stopping E st s rs ∧ st.cont = false
  | .check s | .sleepy s | .asleep s | .woken s => Stopped E st s
  | .wantVar _ => ∃ rs, StopD E st rs

structure Sim (E : List Stmt) (st : St) : Prop where
  ub : st.ub = none
  disc : st.disconnected = false
  canc : st.cancel = false
  a : SimA E st

@[simp] theorem stopList_stopped (s : Stmt) (r : List Ev) : stopList (.stopped s :: r) = stopList r ++ [s] := by simp [stopList]
@[simp] theorem stopsIn_stopped (s : Stmt) (r : List Ev) : stopsIn (.stopped s :: r) = stopsIn r + 1 := by simp [stopsIn]

theorem stopList_skip {e : Ev} (h : ∀ s, e ≠ .stopped s) (r : List Ev) : stopList (e :: r) = stopList r := by
  cases e <;> simp_all [stopList]
theorem stopsIn_skip {e : Ev} (h : ∀ s, e ≠ .stopped s) (r : List Ev) : stopsIn (e :: r) = stopsIn r := by
  cases e <;> simp_all [stopsIn]

theorem sim_launch (tr b₀ e rs) : Sim (expectedStops b₀ ⟨e, none⟩ tr rs) (launch tr b₀ e (polite rs)) :=
  ⟨rfl, rfl, rfl, rs, Or.inl rfl, rfl, by simp [launch, stopsIn], by simp [launch, stopList, pend, stepPending, overPending]⟩

set_option maxHeartbeats 4000000 in
theorem sim_stepA {tr b₀ E st st'} (h : Inv tr b₀ st) (h2 : Inv2 st) (g : Sim E st) (hs : st.stepA = some st') : Sim E st' := by
  obtain ⟨g1, g2, g3, g4⟩ := g
  simp only [St.stepA] at hs
  cases hp : st.apc with
  | start =>
    simp only [hp, SimA] at hs g4
    obtain ⟨rs, c, t, s, e⟩ := g4
    split at hs <;> simp only [Option.some.injEq, reduceCtorEq] at hs
    subst hs
    exact ⟨g1, g2, g3, rs, c, t, s, e⟩
  | loop =>
    simp only [hp, SimA] at hs g4
    obtain ⟨rs, c, t, s, e⟩ := g4
    simp only [g3] at hs
    split at hs
    · contradiction
    split at hs <;> simp only [Option.some.injEq, reduceCtorEq] at hs
    · rename_i h; subst hs; exact ⟨g1, g2, rfl, ⟨rs, c, t, s, e⟩, h⟩
    · rename_i h; subst hs; exact ⟨g1, g2, rfl, rs, c, t, s, by simpa [h] using e⟩
  | enter x =>
    simp only [hp, SimA] at hs g4
    obtain ⟨rs, c, t, s, e⟩ := g4
    simp only [g2] at hs
    have key : ¬ Visible x → E = stopList st.log ++ expectedStops st.bps (pend st.log) st.trace rs := by
      intro hv
      rw [e]; simp [expectedStops, Expected, hv]
    split at hs
    · contradiction
    split at hs
    · rename_i hk
      simp only [Option.some.injEq] at hs; subst hs
      refine ⟨g1, rfl, g3, rs, c, t, ?_, ?_⟩
      · simpa [stopsIn_skip] using s
      · simpa [stopList_skip, pend, stepPending, overPending] using key (by simp [Visible, hk])
    split at hs
    · rename_i hk
      simp only [Option.some.injEq] at hs; subst hs
      refine ⟨g1, rfl, g3, rs, c, t, ?_, ?_⟩
      · simpa [stopsIn_skip] using s
      · simpa [stopList_skip, pend, stepPending, overPending] using key (by simp [Visible, hk])
    · simp only [Option.some.injEq] at hs; subst hs
      exact ⟨g1, rfl, g3, rs, c, t, s, e⟩
  | look x =>
    simp only [hp, SimA] at hs g4
    obtain ⟨rs, c, t, s, e⟩ := g4
    simp only [Option.some.injEq] at hs; subst hs
    refine ⟨g1, g2, g3, ⟨rs, c, t, ?_, ?_⟩, rfl, h.vis x hp⟩
    · simpa [stopsIn_skip] using s
    · simpa [stopList_skip, pend, stepPending, overPending] using e
  | decide x hh =>
    simp only [hp, SimA] at hs g4
    obtain ⟨⟨rs, c, t, s, e⟩, hhit, hv⟩ := g4
    have h4 := h.stop
    have h5 := h.over
    simp only [hp, APc.resetting, Bool.false_eq_true, if_false] at h4 h5
    have hiff : (st.stopNext || hh || (st.stepOver && Decidable.decide (x.depth ≤ st.stepDepth))) = true ↔
        Expected st.bps (pend st.log) x := by
      rw [h4, hhit]
      simp only [Expected, pend, hv, true_and, ← h5, Bool.or_eq_true, hit_iff, Bool.and_eq_true, decide_eq_true_eq, or_assoc]
      cases st.stepOver <;> simp
    split at hs
    · rename_i hc
      simp only [Option.some.injEq] at hs; subst hs
      refine ⟨g1, g2, g3, rs, c, t, ?_, ?_⟩
      · simpa [stopsIn_skip] using s
      · rw [e]
        simp only [List.cons_append, List.nil_append, expectedStops, if_pos (hiff.mp hc)]
        rw [stopList_skip (by simp)]
        cases rs <;> rfl
    · rename_i hc
      simp only [Option.some.injEq] at hs; subst hs
      refine ⟨g1, g2, g3, rs, c, t, ?_, ?_⟩
      · simpa [stopsIn_skip] using s
      · rw [e]
        simp only [List.cons_append, List.nil_append, expectedStops, if_neg (fun q => hc (hiff.mpr q))]
        rw [stopList_skip (by simp)]
        rfl
  | unlockVar x =>
    simp only [hp, SimA] at hs g4
    obtain ⟨rs, c, t, s, e⟩ := g4
    simp only [Option.some.injEq] at hs; subst hs
    exact ⟨g1, g2, g3, rs, c, t, s, e⟩
  | wantControl x =>
    simp only [hp, SimA] at hs g4
    obtain ⟨rs, c, t, s, e⟩ := g4
    split at hs <;> simp only [Option.some.injEq, reduceCtorEq] at hs
    subst hs
    exact ⟨g1, g2, g3, rs, c, t, s, e⟩
  | locked x =>
    simp only [hp, SimA] at hs g4
    obtain ⟨rs, c, t, s, e⟩ := g4
    simp only [g2] at hs
    split at hs
    · contradiction
    simp only [Option.some.injEq] at hs; subst hs
    exact ⟨g1, rfl, g3, rs, c, t, s, e⟩
  | clearCont x =>
    simp only [hp, SimA] at hs g4
    obtain ⟨rs, c, t, s, e⟩ := g4
    simp only [Option.some.injEq] at hs; subst hs
    exact ⟨g1, g2, g3, rs, ⟨c, t, s, e⟩, rfl⟩
  | event x =>
    simp only [hp, SimA] at hs g4
    obtain ⟨rs, ⟨c, t, s, e⟩, hcont⟩ := g4
    simp only [Option.some.injEq] at hs; subst hs
    refine ⟨g1, g2, g3, Or.inl ⟨rs, ⟨c, t, ?_, hcont, ?_⟩, rfl, rfl⟩⟩
    · simpa using s
    · simpa using e
  | check x =>
    simp only [hp, SimA] at hs g4
    split at hs <;> rename_i hc <;> simp only [Option.some.injEq] at hs <;> subst hs
    · refine ⟨g1, g2, g3, ?_⟩
      rcases g4 with ⟨rs, ⟨c, t, s, hf, e⟩, _, _⟩ | ⟨r, rs, c, t, s, hf, e, _, _⟩ | ⟨rs, c, t, s, hf, e, w⟩ | ⟨rs, ⟨c, t, s, e⟩, hf, w⟩
      · simp [hf] at hc
      · simp [hf] at hc
      · simp [hf] at hc
      · exact ⟨rs, ⟨c, t, s, e⟩, hf, w⟩
    · refine ⟨g1, g2, g3, ?_⟩
      rcases g4 with ⟨rs, ⟨c, t, s, hf, e⟩, p, q⟩ | ⟨r, rs, c, t, s, hf, e, p, q⟩ | ⟨rs, c, t, s, hf, e, w⟩ | ⟨rs, ⟨c, t, s, e⟩, hf, w⟩
      · exact Or.inl ⟨rs, ⟨c, t, s, hf, e⟩, p, q⟩
      · exact Or.inr (Or.inl ⟨r, rs, c, t, s, hf, e, p, q⟩)
      · exact Or.inr (Or.inr (Or.inl ⟨rs, c, t, s, hf, e, w⟩))
      · simp [hf] at hc
  | sleepy x =>
    simp only [hp, SimA] at hs g4
    simp only [Option.some.injEq] at hs; subst hs
    refine ⟨g1, g2, g3, ?_⟩
    rcases g4 with ⟨rs, ⟨c, t, s, hf, e⟩, p, q⟩ | ⟨r, rs, c, t, s, hf, e, p, q⟩ | ⟨rs, c, t, s, hf, e, w⟩ | ⟨rs, ⟨c, t, s, e⟩, hf, w⟩
    · exact Or.inl ⟨rs, ⟨c, t, s, hf, e⟩, p, q⟩
    · exact Or.inr (Or.inl ⟨r, rs, c, t, s, hf, e, p, q⟩)
    · exact Or.inr (Or.inr (Or.inl ⟨rs, c, t, s, hf, e, w⟩))
    · exact Or.inr (Or.inr (Or.inr ⟨rs, ⟨c, t, s, e⟩, hf, w⟩))
  | asleep x => simp [hp] at hs
  | woken x =>
    simp only [hp, SimA] at hs g4
    split at hs <;> simp only [Option.some.injEq, reduceCtorEq] at hs
    subst hs
    refine ⟨g1, g2, g3, ?_⟩
    rcases g4 with ⟨rs, ⟨c, t, s, hf, e⟩, p, q⟩ | ⟨r, rs, c, t, s, hf, e, p, q⟩ | ⟨rs, c, t, s, hf, e, w⟩ | ⟨rs, ⟨c, t, s, e⟩, hf, w⟩
    · exact Or.inl ⟨rs, ⟨c, t, s, hf, e⟩, p, q⟩
    · exact Or.inr (Or.inl ⟨r, rs, c, t, s, hf, e, p, q⟩)
    · exact Or.inr (Or.inr (Or.inl ⟨rs, c, t, s, hf, e, w⟩))
    · exact Or.inr (Or.inr (Or.inr ⟨rs, ⟨c, t, s, e⟩, hf, w⟩))
  | wantVar x =>
    simp only [hp, SimA] at hs g4
    obtain ⟨rs, ⟨c, t, s, e⟩, hf, w⟩ := g4
    split at hs <;> simp only [Option.some.injEq, reduceCtorEq] at hs
    subst hs
    exact ⟨g1, g2, g3, rs, c, t, s, e⟩
  | process x =>
    simp only [hp, SimA] at hs g4
    obtain ⟨rs, c, t, s, e⟩ := g4
    simp only [Option.some.injEq] at hs; subst hs
    refine ⟨g1, g2, g3, rs, c, t, ?_, ?_⟩
    · simpa [stopsIn_skip] using s
    · simpa [stopList_skip, pend, stepPending, overPending] using e
  | finish =>
    simp only [hp, SimA] at hs g4
    obtain ⟨⟨rs, c, t, s, e⟩, ht⟩ := g4
    simp only [g2, Option.some.injEq] at hs; subst hs
    refine ⟨g1, rfl, g3, ⟨rs, c, t, ?_, ?_⟩, ht⟩
    · simpa [stopsIn_skip] using s
    · simpa [stopList_skip, pend, stepPending, overPending] using e
  | unlockEnd =>
    simp only [hp, SimA] at hs g4
    obtain ⟨⟨rs, c, t, s, e⟩, ht⟩ := g4
    have hv : st.var = some .a := by
      rcases h2.varA' (by simp [hp, APc.holdsVar]) with hv | ⟨x, hx⟩
      · exact hv
      · rw [h2.ab x hx] at g3; contradiction
    rw [if_pos hv] at hs
    simp only [Option.some.injEq] at hs; subst hs
    exact ⟨g1, g2, g3, ⟨rs, c, t, s, e⟩, ht⟩
  | done => simp [hp] at hs

theorem polite_cmd (r : Resume) (rs : List Reply) (t : List Cmd) (c : Cmd) (h : c :: t = r.cmd :: polite rs) :
    c = r.cmd ∧ t = polite rs := by simpa using h

set_option maxHeartbeats 4000000 in
theorem sim_stepC {tr b₀ E st st'} (h : Inv tr b₀ st) (g : Sim E st) (hs : st.stepC = some st') : Sim E st' := by
  obtain ⟨g1, g2, g3, g4⟩ := g
  have hctl := h.ctl
  cases hc : st.cpc with
  | notify =>
    simp only [St.stepC, hc, Option.some.injEq] at hs
    subst hs
    refine ⟨?_, ?_, ?_, ?_⟩
    · cases hp : st.apc <;> simpa [St.wake, hp] using g1
    · cases hp : st.apc <;> simpa [St.wake, hp] using g2
    · cases hp : st.apc <;> simpa [St.wake, hp] using g3
    cases hp : st.apc <;> simp only [hp, SimA, St.wake] at g4 ⊢
    case start | loop | process | enter | look =>
      obtain ⟨rs, c, t, s, e⟩ := g4; exact ⟨rs, Or.inl rfl, t, s, e⟩
    case decide => obtain ⟨⟨rs, c, t, s, e⟩, q⟩ := g4; exact ⟨⟨rs, Or.inl rfl, t, s, e⟩, q⟩
    case unlockVar | wantControl | locked | clearCont =>
      obtain ⟨rs, c, t, s, e⟩ := g4; exact ⟨rs, Or.inl rfl, t, s, e⟩
    case event => obtain ⟨rs, ⟨c, t, s, e⟩, q⟩ := g4; exact ⟨rs, ⟨Or.inl rfl, t, s, e⟩, q⟩
    case check | sleepy | asleep | woken =>
      rcases g4 with ⟨rs, ⟨c, t, s, hf, e⟩, p, q⟩ | ⟨r, rs, c, t, s, hf, e, p, q⟩ | ⟨rs, c, t, s, hf, e, w⟩ | ⟨rs, ⟨c, t, s, e⟩, hf, w⟩
      · exact Or.inl ⟨rs, ⟨Or.inl rfl, t, s, hf, e⟩, p, q⟩
      · exact Or.inr (Or.inl ⟨r, rs, Or.inl rfl, t, s, hf, e, p, q⟩)
      · rw [hc] at c; simp at c
      · exact Or.inr (Or.inr (Or.inr ⟨rs, ⟨Or.inl rfl, t, s, e⟩, hf, w⟩))
    case wantVar => obtain ⟨rs, ⟨c, t, s, e⟩, q, w⟩ := g4; exact ⟨rs, ⟨Or.inl rfl, t, s, e⟩, q, w⟩
    case finish | unlockEnd | done => obtain ⟨⟨rs, c, t, s, e⟩, q⟩ := g4; exact ⟨⟨rs, Or.inl rfl, t, s, e⟩, q⟩
  | setCont | bareCont =>
    simp only [St.stepC, hc, Option.some.injEq] at hs
    subst hs
    refine ⟨g1, g2, g3, ?_⟩
    cases hp : st.apc <;> simp only [hp, SimA, Stopped] at g4 ⊢
    case start | loop | process | enter | look | unlockVar | wantControl | locked | clearCont =>
      obtain ⟨rs, c, t, s, e⟩ := g4; simp [Idle, hc] at c
    case decide | finish | unlockEnd | done => obtain ⟨⟨rs, c, t, s, e⟩, q⟩ := g4; simp [Idle, hc] at c
    case event | wantVar => obtain ⟨rs, ⟨c, t, s, e⟩, q⟩ := g4; simp [Idle, hc] at c
    case check | sleepy | asleep | woken =>
      rcases g4 with ⟨rs, ⟨c, t, s, hf, e⟩, p, q⟩ | ⟨r, rs, c, t, s, hf, e, p, q⟩ | ⟨rs, c, t, s, hf, e, w⟩ | ⟨rs, ⟨c, t, s, e⟩, hf, w⟩
      · simp [Idle, hc] at c
      · simp [Idle, hc] at c
      · exact Or.inr (Or.inr (Or.inr ⟨rs, ⟨Or.inr rfl, t, s, e⟩, rfl, w⟩))
      · simp [Idle, hc] at c
  | disc1 | disc2 | discNotify | join =>
    have := h.discs (by simp [hc, CPc.discing])
    simp [g2] at this
  | inspecting =>
    exfalso
    cases hp : st.apc <;> simp only [hp, SimA, Stopped] at g4
    case start | loop | process | enter | look | unlockVar | wantControl | locked | clearCont =>
      obtain ⟨rs, c, t, s, e⟩ := g4; simp [Idle, hc] at c
    case decide | finish | unlockEnd | done => obtain ⟨⟨rs, c, t, s, e⟩, q⟩ := g4; simp [Idle, hc] at c
    case event | wantVar => obtain ⟨rs, ⟨c, t, s, e⟩, q⟩ := g4; simp [Idle, hc] at c
    case check | sleepy | asleep | woken =>
      rcases g4 with ⟨rs, ⟨c, t, s, hf, e⟩, p, q⟩ | ⟨r, rs, c, t, s, hf, e, p, q⟩ | ⟨rs, c, t, s, hf, e, w⟩ | ⟨rs, ⟨c, t, s, e⟩, hf, w⟩ <;>
        simp [Idle, hc] at c
  | idle =>
    have noMove : ∀ rs, st.todo = polite rs → st.seen = stopsIn st.log → False := by
      intro rs ht hse
      cases rs with
      | nil => simp [St.stepC, hc, ht, polite] at hs
      | cons r rs => simp [St.stepC, hc, ht, polite, hse] at hs
    cases hp : st.apc <;> simp only [hp, SimA] at g4
    case start | loop | process | enter | look | unlockVar | wantControl | locked | clearCont =>
      obtain ⟨rs, c, t, s, e⟩ := g4; exact (noMove rs t s).elim
    case decide | finish | unlockEnd | done => obtain ⟨⟨rs, c, t, s, e⟩, q⟩ := g4; exact (noMove rs t s).elim
    case event | wantVar => obtain ⟨rs, ⟨c, t, s, e⟩, q⟩ := g4; exact (noMove rs t s).elim
    case check x | sleepy x | asleep x | woken x =>
      rcases g4 with ⟨rs, ⟨c, t, s, hf, e⟩, p, q⟩ | ⟨r, rs, c, t, s, hf, e, p, q⟩ | ⟨rs, c, t, s, hf, e, w⟩ | ⟨rs, ⟨c, t, s, e⟩, hf, w⟩
      · -- the stop is noticed
        cases rs with
        | nil => simp [St.stepC, hc, t, polite] at hs
        | cons r rs =>
          simp only [St.stepC, hc, t, polite] at hs
          rw [if_pos (by omega)] at hs
          simp only [Option.some.injEq] at hs; subst hs
          refine ⟨g1, g2, g3, ?_⟩
          simp only [SimA, hp]
          exact Or.inr (Or.inl ⟨r, rs, Or.inl rfl, rfl, s, hf, e, p, q⟩)
      · obtain ⟨bs, res⟩ := r
        cases bs with
        | cons b bs =>
          obtain ⟨f, ls⟩ := b
          simp only [St.stepC, hc, t, List.map_cons, List.cons_append, Option.some.injEq] at hs
          subst hs
          refine ⟨g1, g2, g3, ?_⟩
          simp only [SimA, hp]
          refine Or.inr (Or.inl ⟨⟨bs, res⟩, rs, Or.inl rfl, rfl, ?_, hf, ?_, p, q⟩)
          · simpa [stopsIn_skip] using s
          · simpa [stopList_skip, after, setAll] using e
        | nil =>
          cases res with
          | cont =>
            simp only [St.stepC, hc, t, List.map_nil, List.nil_append, Resume.cmd, Option.some.injEq] at hs
            subst hs
            refine ⟨g1, g2, g3, ?_⟩
            simp only [SimA, hp]
            refine Or.inr (Or.inr (Or.inl ⟨rs, Or.inr rfl, rfl, ?_, hf, ?_, by simp [resumeAsked]⟩))
            · simpa [stopsIn_skip] using s
            · simpa [stopList_skip, after, setAll, Resume.mode, pend, stepPending, overPending, q] using e
          | stepIn =>
            simp only [St.stepC, hc, t, List.map_nil, List.nil_append, Resume.cmd] at hs
            split at hs <;> simp only [Option.some.injEq, reduceCtorEq] at hs
            subst hs
            refine ⟨g1, g2, g3, ?_⟩
            simp only [SimA, hp]
            refine Or.inr (Or.inr (Or.inl ⟨rs, Or.inl rfl, rfl, ?_, hf, ?_, by simp [resumeAsked]⟩))
            · simpa [stopsIn_skip] using s
            · simpa [stopList_skip, after, setAll, Resume.mode, pend, stepPending, overPending, q] using e
          | next =>
            simp only [St.stepC, hc, t, List.map_nil, List.nil_append, Resume.cmd, St.stoppedAt, hp] at hs
            rw [hp] at hctl
            split at hs <;> simp only [Option.some.injEq, reduceCtorEq] at hs
            first
            | (subst hs
               refine ⟨g1, g2, g3, ?_⟩
               simp only [SimA, hp]
               refine Or.inr (Or.inr (Or.inl ⟨rs, Or.inl rfl, rfl, ?_, hf, ?_, by simp [resumeAsked]⟩))
               · simpa [stopsIn_skip] using s
               · simpa [stopList_skip, after, setAll, Resume.mode, pend, stepPending, overPending, p] using e)
            | simp_all [APc.holdsControl]
      · rw [hc] at c; simp at c
      · exact (noMove rs t s).elim

theorem sim_step {tr b₀ E st st' act} (h : Inv tr b₀ st) (h2 : Inv2 st) (g : Sim E st) (hs : st.step act = some st') : Sim E st' := by
  unfold St.step at hs
  split at hs
  · simp at hs
  cases act with
  | a => exact sim_stepA h h2 g hs
  | c => exact sim_stepC h g hs
  | spurious =>
    obtain ⟨g1, g2, g3, g4⟩ := g
    simp only at hs
    split at hs <;> simp only [Option.some.injEq, reduceCtorEq] at hs
    rename_i x hp
    subst hs
    refine ⟨g1, g2, g3, ?_⟩
    simp only [SimA, hp] at g4 ⊢
    rcases g4 with ⟨rs, ⟨c, t, s, hf, e⟩, p, q⟩ | ⟨r, rs, c, t, s, hf, e, p, q⟩ | ⟨rs, c, t, s, hf, e, w⟩ | ⟨rs, ⟨c, t, s, e⟩, hf, w⟩
    · exact Or.inl ⟨rs, ⟨c, t, s, hf, e⟩, p, q⟩
    · exact Or.inr (Or.inl ⟨r, rs, c, t, s, hf, e, p, q⟩)
    · exact Or.inr (Or.inr (Or.inl ⟨rs, c, t, s, hf, e, w⟩))
    · exact Or.inr (Or.inr (Or.inr ⟨rs, ⟨c, t, s, e⟩, hf, w⟩))

theorem sim_run {tr b₀ E} : ∀ {acts st st'}, Inv tr b₀ st → Inv2 st → Sim E st → st.run acts = some st' → Sim E st'
  | [], st, st', _, _, g, hr => by cases hr; exact g
  | a :: as, st, st', h, h', g, hr => by
    simp only [St.run, Option.bind_eq_some_iff] at hr
    obtain ⟨s1, h1, h2⟩ := hr
    exact sim_run (inv_step h h1) (inv2_step h h' h1) (sim_step h h' g h1) h2

theorem sim_prefix {E st} (g : Sim E st) : stopList st.log <+: E ∧ (st.apc = .done → stopList st.log = E) := by
  obtain ⟨g1, g2, g3, g4⟩ := g
  cases hp : st.apc <;> simp only [hp, SimA] at g4
  case start | loop | process | enter | look | unlockVar | wantControl | locked | clearCont =>
    obtain ⟨rs, c, t, s, e⟩ := g4; exact ⟨⟨_, e.symm⟩, by simp⟩
  case decide => obtain ⟨⟨rs, c, t, s, e⟩, q⟩ := g4; exact ⟨⟨_, e.symm⟩, by simp⟩
  case finish | unlockEnd | done =>
    obtain ⟨⟨rs, c, t, s, e⟩, q⟩ := g4
    exact ⟨⟨_, e.symm⟩, by simp [e, q, expectedStops]⟩
  case event | wantVar => obtain ⟨rs, ⟨c, t, s, e⟩, q⟩ := g4; exact ⟨⟨_, e.symm⟩, by simp⟩
  case check | sleepy | asleep | woken =>
    rcases g4 with ⟨rs, ⟨c, t, s, hf, e⟩, p, q⟩ | ⟨r, rs, c, t, s, hf, e, p, q⟩ | ⟨rs, c, t, s, hf, e, w⟩ | ⟨rs, ⟨c, t, s, e⟩, hf, w⟩ <;>
      exact ⟨⟨_, e.symm⟩, by simp⟩

end Verif.Debugger
