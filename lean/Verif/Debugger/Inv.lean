import Verif.Debugger.Spec
/-! Invariants of the debugger model. -/
namespace Verif.Debugger

/-- The statement the analysing thread has fetched but not finished. -/
def APc.cur : APc → List Stmt
  | .enter s | .look s | .decide s _ | .unlockVar s | .wantControl s | .locked s | .clearCont s | .event s
  | .check s | .sleepy s | .asleep s | .woken s | .wantVar s | .process s => [s]
  | _ => []

def APc.holdsControl : APc → Bool
  | .locked _ | .clearCont _ | .event _ | .check _ | .sleepy _ | .wantVar _ => true
  | _ => false

/-- positions at which the thread owns `variable_mtx_`, unless it has returned early -/
def APc.holdsVar : APc → Bool
  | .loop | .enter _ | .look _ | .decide _ _ | .unlockVar _ | .process _ | .finish | .unlockEnd => true
  | _ => false

/-- inside `analyze`, before `variable_mtx_` is released -/
def APc.inStmt : APc → Bool
  | .enter _ | .look _ | .decide _ _ | .unlockVar _ => true
  | _ => false

def CPc.holdsControl : CPc → Bool
  | .setCont | .disc1 | .disc2 => true
  | _ => false

def CPc.discing : CPc → Bool
  | .disc1 | .disc2 | .discNotify | .join => true
  | _ => false

def HeadOk : APc → List Ev → Prop
  | .start, l => l = []
  | .loop, l | .enter _, l | .look _, l | .finish, l => l = [] ∨ ∃ t r, l = .processed t :: r
  | .decide s h, l => ∃ r, l = .looked s h :: r
  | .unlockVar s, l | .wantControl s, l | .locked s, l | .clearCont s, l | .event s, l => ∃ r, l = .decided s true :: r
  | .check s, l | .sleepy s, l | .asleep s, l | .woken s, l | .wantVar s, l => ∃ r, l = .stopped s :: r
  | .process s, l => ∃ r, l = .skipped s :: r ∨ l = .decided s false :: r ∨ l = .stopped s :: r ∨ l = .aborted s :: r
  | .unlockEnd, _ | .done, _ => True

/-- The flags as the history says. -/
def APc.resetting : APc → Bool
  | .clearCont _ | .event _ => true
  | _ => false

structure Inv (tr : List Stmt) (b₀ : String → List Nat) (st : St) : Prop where
  ctl : st.control = some .a ↔ st.apc.holdsControl = true
  ctlC : st.control = some .c ↔ st.cpc.holdsControl = true
  bps : ∀ f, st.bps f = bpsAt b₀ st.log f
  stop : st.stopNext = if st.apc.resetting then false else stepPending st.log
  over : (if st.stepOver then some st.stepDepth else none) = if st.apc.resetting then none else overPending st.log
  head : HeadOk st.apc (ownLog st.log)
  chain : Chained (ownLog st.log)
  disc : st.disconnected = true ↔ Ev.disconnect ∈ st.log
  ok : LogOk tr b₀ st.log
  canc : st.cancel = true → st.disconnected = true
  discs : st.cpc.discing = true → st.disconnected = true
  fin : st.apc = .finish → st.cancel = true ∨ st.trace = []
  live : st.apc.resetting = true → st.disconnected = false
  vis : ∀ s, (st.apc = .look s → Visible s)
  trace : processedIn st.log ++ st.apc.cur ++ st.trace = tr

theorem inv_launch (tr b₀ e todo) : Inv tr b₀ (launch tr b₀ e todo) := by
  constructor <;> simp [launch, bpsAt, stepPending, overPending, HeadOk, LogOk, EvOk, APc.holdsControl, CPc.holdsControl, CPc.discing, APc.resetting, ownLog, Ev.own,
    Chained, processedIn, APc.cur]

@[simp] theorem ownLog_skipped (s : Stmt) (r : List Ev) : ownLog (.skipped s :: r) = .skipped s :: ownLog r := rfl
@[simp] theorem ownLog_looked (s : Stmt) (h : Bool) (r : List Ev) : ownLog (.looked s h :: r) = .looked s h :: ownLog r := rfl
@[simp] theorem ownLog_decided (s : Stmt) (h : Bool) (r : List Ev) : ownLog (.decided s h :: r) = .decided s h :: ownLog r := rfl
@[simp] theorem ownLog_aborted (s : Stmt) (r : List Ev) : ownLog (.aborted s :: r) = .aborted s :: ownLog r := rfl
@[simp] theorem ownLog_stopped (s : Stmt) (r : List Ev) : ownLog (.stopped s :: r) = .stopped s :: ownLog r := rfl
@[simp] theorem ownLog_processed (s : Stmt) (r : List Ev) : ownLog (.processed s :: r) = .processed s :: ownLog r := rfl
@[simp] theorem ownLog_exited (r : List Ev) : ownLog (.exited  :: r) = .exited :: ownLog r := rfl
@[simp] theorem ownLog_launched (b : Bool) (r : List Ev) : ownLog (.launched b :: r) = ownLog r := rfl
@[simp] theorem ownLog_next (d : Nat) (r : List Ev) : ownLog (.next d :: r) = ownLog r := rfl
@[simp] theorem ownLog_stepIn (r : List Ev) : ownLog (.stepIn  :: r) = ownLog r := rfl
@[simp] theorem ownLog_cont (r : List Ev) : ownLog (.cont  :: r) = ownLog r := rfl
@[simp] theorem ownLog_disconnect (r : List Ev) : ownLog (.disconnect  :: r) = ownLog r := rfl
@[simp] theorem ownLog_setBps (f : String) (ls : List Nat) (r : List Ev) : ownLog (.setBps f ls :: r) = ownLog r := rfl
@[simp] theorem processedIn_skipped (s : Stmt) (r : List Ev) : processedIn (.skipped s :: r) = processedIn r := by
  simp [processedIn]
@[simp] theorem processedIn_looked (s : Stmt) (h : Bool) (r : List Ev) : processedIn (.looked s h :: r) = processedIn r := by
  simp [processedIn]
@[simp] theorem processedIn_decided (s : Stmt) (h : Bool) (r : List Ev) : processedIn (.decided s h :: r) = processedIn r := by
  simp [processedIn]
@[simp] theorem processedIn_aborted (s : Stmt) (r : List Ev) : processedIn (.aborted s :: r) = processedIn r := by
  simp [processedIn]
@[simp] theorem processedIn_stopped (s : Stmt) (r : List Ev) : processedIn (.stopped s :: r) = processedIn r := by
  simp [processedIn]
@[simp] theorem processedIn_processed (s : Stmt) (r : List Ev) : processedIn (.processed s :: r) = processedIn r ++ [s] := by
  simp [processedIn]
@[simp] theorem processedIn_exited (r : List Ev) : processedIn (.exited  :: r) = processedIn r := by
  simp [processedIn]
@[simp] theorem processedIn_launched (b : Bool) (r : List Ev) : processedIn (.launched b :: r) = processedIn r := by
  simp [processedIn]
@[simp] theorem processedIn_next (d : Nat) (r : List Ev) : processedIn (.next d :: r) = processedIn r := by
  simp [processedIn]
@[simp] theorem processedIn_stepIn (r : List Ev) : processedIn (.stepIn  :: r) = processedIn r := by
  simp [processedIn]
@[simp] theorem processedIn_cont (r : List Ev) : processedIn (.cont  :: r) = processedIn r := by
  simp [processedIn]
@[simp] theorem processedIn_disconnect (r : List Ev) : processedIn (.disconnect  :: r) = processedIn r := by
  simp [processedIn]
@[simp] theorem processedIn_setBps (f : String) (ls : List Nat) (r : List Ev) : processedIn (.setBps f ls :: r) = processedIn r := by
  simp [processedIn]

theorem hit_iff {b : String → List Nat} {s : Stmt} : hit b s = true ↔ OnBreakpoint b s := by
  simp [hit, OnBreakpoint]

set_option maxHeartbeats 2000000 in
theorem inv_stepA {tr b₀ st st'} (h : Inv tr b₀ st) (hs : st.stepA = some st') : Inv tr b₀ st' := by
  obtain ⟨h1, h2, h3, h4, h5, h6, h7, h8, h10, h11, h15, h12, h13, h14, h9⟩ := h
  simp only [St.stepA] at hs
  have h3' : st.bps = bpsAt b₀ st.log := funext h3
  cases hp : st.apc <;> simp only [hp] at hs h1 h4 h5 h6 h9 h12 h13 h14 <;> (repeat' split at hs) <;>
    simp only [Option.some.injEq, reduceCtorEq] at hs <;> subst hs <;> constructor <;>
    simp_all [APc.holdsControl, APc.resetting, stepPending, overPending, bpsAt, HeadOk, APc.cur, LogOk, EvOk, Visible, hit_iff]
  all_goals grind [Chained, Follows]

set_option maxHeartbeats 2000000 in
theorem inv_stepC {tr b₀ st st'} (h : Inv tr b₀ st) (hs : st.stepC = some st') : Inv tr b₀ st' := by
  obtain ⟨h1, h2, h3, h4, h5, h6, h7, h8, h10, h11, h15, h12, h13, h14, h9⟩ := h
  simp only [St.stepC, St.wake, St.stoppedAt] at hs
  have h3' : st.bps = bpsAt b₀ st.log := funext h3
  cases hp : st.cpc <;> simp only [hp] at hs h2 h15 <;> (repeat' split at hs) <;>
    simp only [Option.some.injEq, reduceCtorEq] at hs <;> subst hs <;> constructor <;>
    simp_all [APc.holdsControl, CPc.holdsControl, CPc.discing, APc.resetting, stepPending, overPending, bpsAt, HeadOk, APc.cur, LogOk, EvOk]
  all_goals grind

set_option maxHeartbeats 2000000 in
theorem inv_step {tr b₀ st st' act} (h : Inv tr b₀ st) (hs : st.step act = some st') : Inv tr b₀ st' := by
  unfold St.step at hs
  split at hs
  · simp at hs
  cases act with
  | a => exact inv_stepA h hs
  | c => exact inv_stepC h hs
  | spurious =>
    obtain ⟨h1, h2, h3, h4, h5, h6, h7, h8, h10, h11, h15, h12, h13, h14, h9⟩ := h
    simp only at hs
    split at hs <;> simp only [Option.some.injEq, reduceCtorEq] at hs
    subst hs
    constructor <;> simp_all [APc.holdsControl, APc.resetting, HeadOk, APc.cur]

def APc.waiting : APc → Bool
  | .check _ | .sleepy _ | .asleep _ | .woken _ => true
  | _ => false

/-- The invariant behind wake-ups, disconnection and the ownership of `variable_mtx_`. -/
structure Inv2 (st : St) : Prop where
  canc2 : st.disconnected = true → st.cpc = .disc1 ∨ st.cpc = .disc2 ∨ st.cancel = true
  cont2 : st.disconnected = true → st.cpc = .disc1 ∨ st.cont = true
  nostop : st.disconnected = true → resumeAsked st.log = true
  r1 : ∀ s, st.apc = .sleepy s → resumeAsked st.log = false
  r2 : ∀ s, st.apc = .asleep s → resumeAsked st.log = true → st.cpc = .setCont ∨ st.cpc = .notify ∨ st.cpc = .disc1 ∨ st.cpc = .disc2 ∨ st.cpc = .discNotify
  r3 : st.apc.waiting = true → resumeAsked st.log = true → st.cont = true ∨ st.cpc = .setCont ∨ st.cpc = .disc1
  varC : st.var = some .c ↔ st.cpc = .inspecting
  varA : st.var = some .a → st.apc.holdsVar = true
  varA' : st.apc.holdsVar = true → st.var = some .a ∨ ∃ s, Ev.aborted s ∈ st.log
  ab : ∀ s, Ev.aborted s ∈ st.log → st.cancel = true
  varS : st.apc.inStmt = true → st.var = some .a
  ub : st.ub = some .unlock → ∃ s, Ev.aborted s ∈ st.log
  ubC : st.ub = some .ctx → ∃ t, st.todo = .next :: t ∧ st.stoppedAt = none

theorem inv2_launch (tr b₀ e todo) : Inv2 (launch tr b₀ e todo) := by
  constructor <;> simp [launch, APc.holdsVar, APc.waiting, APc.inStmt]

set_option maxHeartbeats 2000000 in
theorem inv2_stepA {tr b₀ st st'} (h : Inv tr b₀ st) (h' : Inv2 st) (hu : st.ub = none) (hs : st.stepA = some st') : Inv2 st' := by
  obtain ⟨h1, h2, -, -, -, -, -, -, -, -, -, -, h13, -, -⟩ := h
  obtain ⟨g1, g2, g3, g4, g5, g6, g7, g8, g9, g12, g13, g10, g11⟩ := h'
  simp only [St.stepA] at hs
  cases hp : st.apc <;> simp only [hp] at hs h1 h13 g4 g5 g6 g8 g9 g13 <;> (repeat' split at hs) <;>
    simp only [Option.some.injEq, reduceCtorEq] at hs <;> subst hs <;> constructor <;>
    simp_all [APc.holdsControl, CPc.holdsControl, APc.resetting, APc.holdsVar, APc.waiting, APc.inStmt, resumeAsked]
  all_goals grind

set_option maxHeartbeats 2000000 in
theorem inv2_stepC {tr b₀ st st'} (h : Inv tr b₀ st) (h' : Inv2 st) (hu : st.ub = none) (hs : st.stepC = some st') : Inv2 st' := by
  obtain ⟨h1, h2, -, -, -, -, -, -, -, -, h15, -, h13, -, -⟩ := h
  obtain ⟨g1, g2, g3, g4, g5, g6, g7, g8, g9, g12, g13, g10, g11⟩ := h'
  simp only [St.stepC, St.wake, St.stoppedAt] at hs
  cases hp : st.cpc <;> simp only [hp] at hs h2 h15 g1 g2 g5 g6 g7 <;> (repeat' split at hs) <;>
    simp only [Option.some.injEq, reduceCtorEq] at hs <;> subst hs <;> constructor <;>
    simp_all [APc.holdsControl, CPc.holdsControl, APc.resetting, APc.holdsVar, APc.waiting, APc.inStmt, resumeAsked, St.stoppedAt, CPc.discing]
  all_goals grind

set_option maxHeartbeats 2000000 in
theorem inv2_step {tr b₀ st st' act} (h : Inv tr b₀ st) (h' : Inv2 st) (hs : st.step act = some st') : Inv2 st' := by
  unfold St.step at hs
  split at hs
  · simp at hs
  rename_i hu
  have hu : st.ub = none := by simpa using hu
  cases act with
  | a => exact inv2_stepA h h' hu hs
  | c => exact inv2_stepC h h' hu hs
  | spurious =>
    obtain ⟨g1, g2, g3, g4, g5, g6, g7, g8, g9, g12, g13, g10, g11⟩ := h'
    simp only at hs
    split at hs <;> simp only [Option.some.injEq, reduceCtorEq] at hs
    subst hs
    constructor <;> simp_all [APc.holdsVar, APc.waiting, APc.inStmt]
    exact g12

theorem run_inv {tr b₀} : ∀ {acts st st'}, Inv tr b₀ st → Inv2 st → st.run acts = some st' → Inv tr b₀ st' ∧ Inv2 st'
  | [], st, st', h, h', hr => by cases hr; exact ⟨h, h'⟩
  | a :: as, st, st', h, h', hr => by
    simp only [St.run, Option.bind_eq_some_iff] at hr
    obtain ⟨s1, h1, h2⟩ := hr
    exact run_inv (inv_step h h1) (inv2_step h h' h1) h2

theorem inv_reachable {tr b₀ e todo st} (h : (launch tr b₀ e todo).Reaches st) : Inv tr b₀ st ∧ Inv2 st := by
  obtain ⟨acts, h⟩ := h
  exact run_inv (inv_launch ..) (inv2_launch ..) h

end Verif.Debugger
