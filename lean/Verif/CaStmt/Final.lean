import Verif.CaStmt.Decl
/-!
Macro calls, whole programs, and what goes wrong. C122.
-/
namespace Verif.CaStmt
open Verif.Context

/-! ### Macro calls -/

/-- The scope of a call before anything is in it. -/
def bare (s : St) (params : Name → Bool) : St :=
  { s with top := { id := s.ndx + 1, params := params }, rest := s.top :: s.rest, ndx := s.ndx + 1 }

theorem inv_bare {s : St} (h : Inv s) (params : Name → Bool) : Inv (bare s params) := by
  refine ⟨h.globals, h.globInj, ?_, ?_, ?_, h.uniq, ?_, ?_, ?_⟩
  · intro sc hsc
    rcases List.mem_cons.mp hsc with rfl | hsc
    · intro n a hn; simp [bare] at hn
    · exact h.scopes sc hsc
  · simp only [bare]
    rw [List.map_cons, List.nodup_cons]
    refine ⟨?_, h.ids⟩
    intro hm
    obtain ⟨sc, hsc, e⟩ := List.mem_map.mp hm
    have := h.idle sc hsc
    simp at e; omega
  · intro sc hsc
    rcases List.mem_cons.mp hsc with rfl | hsc
    · exact Nat.le_refl _
    · have := h.idle sc hsc; exact Nat.le_succ_of_le this
  · intro a sa k n ha ho
    exact Nat.le_succ_of_le (h.fresh a sa k n ha ho)
  · intro sc hsc n hn
    rcases List.mem_cons.mp hsc with rfl | hsc
    · rfl
    · exact h.disjoint sc hsc n hn
  · intro sc hsc a sa n ha ho
    rcases List.mem_cons.mp hsc with rfl | hsc
    · have := h.fresh a sa _ n ha ho
      simp [bare] at this; omega
    · exact h.alive sc hsc a sa n ha ho

theorem enterMacro_eq (s : St) (params : Name → Bool) (sys : List (Name × Val)) (sg : List Name) :
    s.enterMacro params sys sg = sg.foldl St.insertGlob (((SYSNDX, Val.c (sysndxValue s.ndx)) :: sys).foldl St.insertSys (bare s params)) := by
  have comm1 : ∀ (s : St) (p : Name × Val) (k : Nat), { s.insertSys p with ndx := k } = St.insertSys { s with ndx := k } p := by
    intro s p k; unfold St.insertSys; simp only; cases s.top.vars p.1 <;> rfl
  have comm2 : ∀ (s : St) (n : Name) (k : Nat), { s.insertGlob n with ndx := k } = St.insertGlob { s with ndx := k } n := by
    intro s n k; unfold St.insertGlob; simp only; cases s.top.vars n <;> cases s.globals n <;> rfl
  have comm3 : ∀ (l : List (Name × Val)) (s : St) (k : Nat),
      { l.foldl St.insertSys s with ndx := k } = l.foldl St.insertSys { s with ndx := k } := by
    intro l; induction l with
    | nil => intro s k; rfl
    | cons p l ih => intro s k; rw [List.foldl_cons, List.foldl_cons, ih, comm1]
  have comm4 : ∀ (l : List Name) (s : St) (k : Nat),
      { l.foldl St.insertGlob s with ndx := k } = l.foldl St.insertGlob { s with ndx := k } := by
    intro l; induction l with
    | nil => intro s k; rfl
    | cons p l ih => intro s k; rw [List.foldl_cons, List.foldl_cons, ih, comm2]
  unfold St.enterMacro
  simp only
  rw [comm4, comm3, comm1]
  rfl

/-- A variable with one value. -/
def single (v : Val) : Var := ⟨v.ty, true, fun i => if i = 0 then some v else none⟩

def specSys (σ : Spec.Store) (p : Name × Val) : Spec.Store :=
  match σ.here.names p.1 with
  | some _ => σ
  | none => σ.declare p.1 (single p.2)

def specGlob (σ : Spec.Store) (n : Name) : Spec.Store :=
  match σ.here.names n, σ.globals n with
  | none, some _ => { σ with here := { σ.here with names := Spec.put σ.here.names n (some .global) } }
  | _, _ => σ

theorem names_iff {s : St} {σ : Spec.Store} (h : Rel s σ) (n : Name) : σ.here.names n = none ↔ s.top.vars n = none := by
  rcases h.top_cases n with ⟨h1, h2⟩ | ⟨a, x, h1, _, _, h2⟩ | ⟨a, x, h1, _, _, _, h2, _⟩
  · simp [h1, h2]
  · simp [h1, h2]
  · simp [h1, h2]

theorem sys_rel {s : St} {σ : Spec.Store} (h : Rel s σ) (p : Name × Val) (hp : s.top.params p.1 = false) : Rel (s.insertSys p) (specSys σ p) := by
  unfold St.insertSys specSys
  cases hv : s.top.vars p.1 with
  | some a =>
    cases hn : σ.here.names p.1 with
    | none => rw [(names_iff h p.1).mp hn] at hv; cases hv
    | some _ => exact h
  | none =>
    rw [(names_iff h p.1).mpr hv]
    simp only
    have h1 := rel_newLocal h p.1 p.2.ty true hv hp
    have h2 := rel_assign h1 p.1 s.heap.length { scalar := true, ty := p.2.ty, owner := some (s.top.id, p.1) } (by simp [St.newLocal, upd])
      (by simp [St.newLocal]) 0 p.2 0 rfl
    have e : (σ.declare p.1 (Spec.fresh p.2.ty true)).assign p.1 0 p.2 = σ.declare p.1 (single p.2) := by
      simp only [Spec.Store.assign, Spec.Store.declare, Spec.put, if_true]
      congr 2
      funext m
      by_cases hm : m = p.1
      · simp [Spec.put, hm, single, Spec.Var.with, Spec.fresh]
      · simp [Spec.put, hm]
    rw [e] at h2
    exact h2

theorem glob_rel {s : St} {σ : Spec.Store} (h : Rel s σ) (n : Name) (hp : s.top.params n = false) : Rel (s.insertGlob n) (specGlob σ n) := by
  unfold St.insertGlob specGlob
  cases hv : s.top.vars n with
  | some a =>
    cases hn : σ.here.names n with
    | none => rw [(names_iff h n).mp hn] at hv; cases hv
    | some _ => exact h
  | none =>
    rw [(names_iff h n).mpr hv]
    cases hg : s.globals n with
    | none => rw [h.globNone n hg]; exact h
    | some a =>
      obtain ⟨x, hx, ho, hsx⟩ := h.globSome n a hg
      rw [hsx]
      simp only
      have hu : σ.look n = .undef := by
        rw [← h.view_eq]; simp [view, St.resolve, hv, hp]
      have := rel_newGlobal h n x.ty x.scalar hv hp (fun v hv' => by rw [hsx] at hv'; cases hv'; exact ⟨rfl, rfl⟩)
      simp only [St.newGlobal, hg, Spec.declareOne, hu, if_true, hsx, seen, and_self] at this
      exact this

theorem sysFold_rel (params : Name → Bool) : ∀ (l : List (Name × Val)) (s : St) (σ : Spec.Store), Rel s σ → s.top.params = params →
    (∀ p ∈ l, params p.1 = false) → Rel (l.foldl St.insertSys s) (l.foldl specSys σ) ∧ (l.foldl St.insertSys s).top.params = params
  | [], _, _, h, hp, _ => ⟨h, hp⟩
  | p :: l, s, σ, h, hp, hl => sysFold_rel params l _ _ (sys_rel h p (by rw [hp]; exact hl p (by simp)))
      (by rw [(insertSys_top s p).1, hp]) fun q hq => hl q (by simp [hq])

theorem globFold_rel (params : Name → Bool) : ∀ (l : List Name) (s : St) (σ : Spec.Store), Rel s σ → s.top.params = params →
    (∀ n ∈ l, params n = false) → Rel (l.foldl St.insertGlob s) (l.foldl specGlob σ)
  | [], _, _, h, _, _ => h
  | n :: l, s, σ, h, hp, hl => globFold_rel params l _ _ (glob_rel h n (by rw [hp]; exact hl n (by simp)))
      (by rw [(insertGlob_top s n).1, hp]) fun q hq => hl q (by simp [hq])

/-- The names after some system variables are added. -/
def addSys (l : List (Name × Val)) (names : Name → Option Spec.Bind) (n : Name) : Option Spec.Bind :=
  (names n).or ((l.find? (·.1 = n)).map fun p => .own (single p.2))

/-- The names after the global ones are added. -/
def addGlob (l : List Name) (gl : Name → Option Var) (names : Name → Option Spec.Bind) (n : Name) : Option Spec.Bind :=
  (names n).or (if n ∈ l ∧ (gl n).isSome then some .global else none)

def withNames (σ : Spec.Store) (names : Name → Option Spec.Bind) : Spec.Store := { σ with here := { σ.here with names := names } }

theorem withNames_self (σ : Spec.Store) : withNames σ σ.here.names = σ := rfl

theorem sysFold_eq (l : List (Name × Val)) : ∀ (σ : Spec.Store), l.foldl specSys σ = withNames σ (addSys l σ.here.names) := by
  induction l with
  | nil =>
    intro σ
    have : addSys [] σ.here.names = σ.here.names := by
      funext n; unfold addSys; cases σ.here.names n <;> rfl
    rw [this, withNames_self]; rfl
  | cons p l ih =>
    intro σ
    rw [List.foldl_cons, ih]
    have hs : specSys σ p = withNames σ (specSys σ p).here.names := by
      unfold specSys; cases σ.here.names p.1 <;> rfl
    rw [hs]
    show withNames σ _ = withNames σ _
    congr 1
    funext n
    unfold specSys addSys withNames
    cases hn : σ.here.names p.1 with
    | some b =>
      cases hm : σ.here.names n with
      | some b => simp [hm]
      | none =>
        have : ¬ p.1 = n := by rintro rfl; rw [hn] at hm; cases hm
        simp [List.find?_cons, this, hm]
    | none =>
      by_cases hpn : n = p.1
      · subst hpn; simp [hn, Spec.Store.declare, Spec.put]
      · have : ¬ p.1 = n := fun e => hpn e.symm
        simp [hpn, List.find?_cons, this, Spec.Store.declare, Spec.put]

theorem globFold_eq (l : List Name) : ∀ (σ : Spec.Store), l.foldl specGlob σ = withNames σ (addGlob l σ.globals σ.here.names) := by
  induction l with
  | nil =>
    intro σ
    have : addGlob [] σ.globals σ.here.names = σ.here.names := by
      funext n; unfold addGlob; cases σ.here.names n <;> simp
    rw [this, withNames_self]; rfl
  | cons q l ih =>
    intro σ
    rw [List.foldl_cons, ih]
    have hs : specGlob σ q = withNames σ (specGlob σ q).here.names := by
      unfold specGlob; cases σ.here.names q <;> cases σ.globals q <;> rfl
    rw [hs]
    show withNames σ _ = withNames σ _
    congr 1
    funext n
    unfold specGlob addGlob withNames
    cases hn : σ.here.names q with
    | some b =>
      cases hm : σ.here.names n with
      | some b => simp [hm]
      | none =>
        have : ¬ n = q := by rintro rfl; rw [hn] at hm; cases hm
        simp [this, hm]
    | none =>
      cases hg : σ.globals q with
      | none =>
        cases hm : σ.here.names n with
        | some b => simp [hm]
        | none =>
          by_cases hq : n = q
          · subst hq; simp [hg, hm]
          · simp [hq, hm]
      | some v =>
        by_cases hq : n = q
        · subst hq; simp [hn, hg, Spec.put]
        · simp [hq, Spec.put]

theorem enter_rel {s : St} {σ : Spec.Store} (h : Rel s σ) (params : Name → Bool) (sys : List (Name × Val)) (globs : List Name)
    (hr : Spec.Regular σ (.enter params sys globs)) : Rel (s.enterMacro params sys globs) (Spec.enter σ params sys globs) := by
  obtain ⟨r1, r2, r3⟩ := hr
  have h0 : Rel (bare s params) { σ with here := ⟨fun _ => none, params⟩, callers := σ.here :: σ.callers, calls := σ.calls + 1 } := by
    refine ⟨inv_bare h.inv params, h.globNone, h.globSome, ⟨rfl, fun n => ⟨fun _ => rfl, fun a ha => by simp [bare] at ha⟩⟩, ⟨h.here, h.callers⟩, ?_⟩
    simp only [bare, h.calls]
  obtain ⟨h1, hp⟩ := sysFold_rel params ((SYSNDX, Val.c (sysndxValue s.ndx)) :: sys) _ _ h0 rfl (by
    intro p hp
    rcases List.mem_cons.mp hp with rfl | hp
    · exact r1
    · exact r2 p hp)
  have h2 := globFold_rel params globs _ _ h1 hp r3
  rw [enterMacro_eq]
  rw [globFold_eq, sysFold_eq] at h2
  have e : Spec.initial σ sys globs = addGlob globs σ.globals (addSys ((SYSNDX, Val.c (sysndxValue s.ndx)) :: sys) fun _ => none) := by
    funext n
    unfold Spec.initial addGlob addSys
    rw [h.calls]
    cases ((SYSNDX, Val.c (sysndxValue s.ndx)) :: sys).find? (·.1 = n) <;> rfl
  unfold Spec.enter
  rw [e]
  exact h2

theorem leave_rel {s : St} {σ : Spec.Store} (h : Rel s σ) : Rel (s.step .leave) (Spec.leave σ) := by
  have hinv := inv_step h.inv .leave trivial
  have hc := h.callers
  unfold Spec.leave
  simp only [St.step] at hinv ⊢
  cases hr : s.rest with
  | nil =>
    cases hcc : σ.callers with
    | nil => exact h
    | cons c cs => rw [hr, hcc] at hc; exact hc.elim
  | cons sc r =>
    cases hcc : σ.callers with
    | nil => rw [hr, hcc] at hc; exact hc.elim
    | cons c cs =>
      rw [hr, hcc] at hc
      rw [hr] at hinv
      exact ⟨hinv, h.globNone, h.globSome, hc.1, hc.2, h.calls⟩

theorem step_rel {s : State} {σ : Spec.Store} (h : InStep s σ) (st : Stmt) (hr : Spec.Regular σ st) : InStep (step s st) (Spec.step σ st) := by
  cases st with
  | set ty label ops =>
    obtain ⟨h1, h2, h3⟩ := set_rel h.rel ty label ops hr
    exact ⟨h1, h3.trans h.recs, h2.trans (by rw [h.rep]; rfl)⟩
  | decl glob ty label ops =>
    obtain ⟨h1, h2, h3⟩ := decl_rel h.rel glob ty label ops hr
    exact ⟨h1, h3.trans h.recs, h2.trans (by rw [h.rep]; rfl)⟩
  | aread label ops now => exact aread_rel h label ops now hr
  | enter params sys globs => exact ⟨enter_rel h.rel params sys globs hr, h.recs, h.rep⟩
  | leave =>
    have hk : (Spec.leave σ).recs = σ.recs ∧ (Spec.leave σ).reported = σ.reported := by
      unfold Spec.leave; split <;> exact ⟨rfl, rfl⟩
    exact ⟨leave_rel h.rel, hk.1.trans h.recs, hk.2.trans h.rep⟩

theorem run_rel : ∀ (p : List Stmt) (s : State) (σ : Spec.Store), InStep s σ → Spec.AllRegular σ p → InStep (run s p) (Spec.run σ p)
  | [], _, _, h, _ => h
  | st :: p, s, σ, h, hr => run_rel p _ _ (step_rel h st hr.1) hr.2

theorem init_rel (recs : List Bytes) : InStep { recs := recs } { recs := recs } := by
  refine ⟨⟨inv_init, fun _ _ => rfl, fun n a h => (by cases h), ⟨rfl, fun n => ⟨fun _ => rfl, fun a h => (by cases h)⟩⟩, trivial, rfl⟩, rfl, rfl⟩

/-- C122: after any program of macro calls, returns, LCLx, GBLx, SETx and AREAD, each name stands for what it should: for nothing, for a
parameter, or for a variable of that type and shape with those values. The records that are left and whether anything was reported are as they
should be, too. Partial: `AllRegular` leaves out what the witnesses show. -/
theorem C122_program_partial (p : List Stmt) (recs : List Bytes) (hr : Spec.AllRegular { recs := recs } p) :
    view (run { recs := recs } p).st = (Spec.run { recs := recs } p).look ∧
    (run { recs := recs } p).recs = (Spec.run { recs := recs } p).recs ∧
    (run { recs := recs } p).rep = (Spec.run { recs := recs } p).reported := by
  have h := run_rel p _ _ (init_rel recs) hr
  exact ⟨h.rel.view_eq, h.recs.symm, h.rep.symm⟩

/-- C122: the time in hundredths of a second and the time in hours, minutes, seconds and hundredths, at every time of the day. -/
theorem C122_clock (ns : Nat) (h : ns < 24 * 60 * 60 * 1000000000) : clockb ns = Spec.timeB ns ∧ clockd ns = Spec.timeD ns :=
  ⟨clockb_eq ns h, clockd_eq ns h⟩

/-! ### Examples and witnesses -/

/-- A variable, with a subscript or without. -/
def scalarT (n : Name) : Label := .var ⟨fun _ => some n, []⟩
def elemT (n : Name) (i : Int) : Label := .var ⟨fun _ => some n, [fun _ => (i, false)]⟩
def numE (v : Int) : SetOp := .expr fun _ => (.a v, false)

/-- The value of an element, as a model reads it. -/
def valueOf (v : View) (n : Name) (i : Nat) : Option Val :=
  match v n with
  | .var x => x.elem i
  | _ => none

def known (v : View) (n : Name) : Bool :=
  match v n with
  | .undef => false
  | _ => true

/-- `&A + 1` of an arithmetic variable. -/
def succE (n : Name) : SetOp := .expr fun v => match valueOf v n 0 with
  | some (.a x) => (.a (x + 1), false)
  | _ => (.a 1, true)

/-- `GBLA &G`, `&G SETA 5`, a call, `GBLA &G`, `&G SETA &G+1`, `&X(2) SETA 7,8`, `&R AREAD`, back. -/
def sample : List Stmt :=
  [.decl true .A .empty [.var ⟨fun _ => some [71], []⟩], .set .A (scalarT [71]) [numE 5], .enter (fun _ => false) [] [],
    .decl true .A .empty [.var ⟨fun _ => some [71], []⟩], .set .A (scalarT [71]) [succE [71]], .set .A (elemT [88] 2) [numE 7, numE 8],
    .aread (scalarT [82]) [] 0]

example : valueOf (view (run { recs := [[65], [66]] } sample).st) [71] 0 = some (.a 6) := by decide +kernel
example : valueOf (view (run { recs := [[65], [66]] } sample).st) [88] 3 = some (.a 8) := by decide +kernel
example : valueOf (view (run { recs := [[65], [66]] } sample).st) [82] 0 = some (.c [65]) := by decide +kernel
example : (run { recs := [[65], [66]] } sample).recs = [[66]] ∧ (run { recs := [[65], [66]] } sample).rep = false := by decide +kernel
example : valueOf (view (run { recs := [[65], [66]] } (sample ++ [.leave])).st) [71] 0 = some (.a 6) ∧
    known (view (run { recs := [[65], [66]] } (sample ++ [.leave])).st) [88] = false := by decide +kernel
/-- The program is one the theorem speaks about. -/
example : Spec.AllRegular { recs := [[65], [66]] } sample := by
  refine ⟨?_, ?_, ?_, ?_, ?_, ?_, ?_, trivial⟩
  · intro _ t n v ht hn _ hv
    cases hv
  · refine ⟨rfl, fun p hp => ?_⟩
    refine ⟨rfl, fun n sub _ _ => ⟨rfl, rfl⟩, fun _ => by decide⟩
  · exact ⟨rfl, by simp, by simp⟩
  · intro _ t n v ht hn _ hv
    simp at ht; subst ht
    cases hn
    have e : (Spec.step (Spec.step (Spec.step { recs := [[65], [66]] } (.decl true .A .empty [.var ⟨fun _ => some [71], []⟩]))
      (.set .A (scalarT [71]) [numE 5])) (.enter (fun _ => false) [] [])).globals [71] = some ⟨.A, true, _⟩ := rfl
    rw [e] at hv
    cases hv
    exact ⟨rfl, rfl⟩
  · refine ⟨rfl, fun p hp => ⟨rfl, fun n sub _ _ => ⟨rfl, rfl⟩, fun _ => by decide⟩⟩
  · refine ⟨rfl, fun p hp => ⟨rfl, fun n sub _ _ => ⟨rfl, rfl⟩, fun h => ?_⟩⟩
    have e : p = ([88], some 2) := Option.some.inj (hp.symm.trans (by decide +kernel))
    rw [e] at h
    cases h
  · exact ⟨rfl, fun h => by simp at h, by decide⟩

/-- Violation: `&A(1) SETA 1,,3` assigns 3 to the second element. -/
theorem C122_witness_omitted :
    let p := [Stmt.set .A (elemT [65] 1) [numE 1, .empty, numE 3]]
    valueOf (view (run {} p).st) [65] 2 = some (.a 3) ∧ valueOf (view (run {} p).st) [65] 3 = none ∧
    valueOf (Spec.run {} p).look [65] 2 = none ∧ valueOf (Spec.run {} p).look [65] 3 = some (.a 3) := by decide +kernel

/-- Violation: `&A SETA 1,2` without a message; the last value stays. -/
theorem C122_witness_several :
    let p := [Stmt.set .A (scalarT [65]) [numE 1, numE 2]]
    valueOf (view (run {} p).st) [65] 0 = some (.a 2) ∧ (run {} p).rep = false ∧ (Spec.run {} p).reported = true := by decide +kernel

/-- Violation: `&A SETA` without operand is reported, but makes the variable. -/
theorem C122_witness_missing :
    let p := [Stmt.set .A (scalarT [65]) []]
    known (view (run {} p).st) [65] = true ∧ (run {} p).rep = true ∧ known (Spec.run {} p).look [65] = false := by decide +kernel

/-- Violation: the same with an operand that is not an expression, `&A SETA .X`. -/
theorem C122_witness_operand :
    let p := [Stmt.set .A (scalarT [65]) [.other]]
    known (view (run {} p).st) [65] = true ∧ (run {} p).rep = true ∧ known (Spec.run {} p).look [65] = false := by decide +kernel

/-- Violation: a created name that is not a name is reported, but makes a variable with an empty name. -/
theorem C122_witness_name :
    let p := [Stmt.set .A (.var ⟨fun _ => none, []⟩) [numE 1]]
    known (view (run {} p).st) [] = true ∧ (run {} p).rep = true ∧ known (Spec.run {} p).look [] = false := by decide +kernel

/-- Violation: a second `GBLC &G(1)` of `GBLA &G` is not reported. -/
theorem C122_witness_global :
    let g (ty : Ty) (subs : List (View → Int × Bool)) := Stmt.decl true ty .empty [.var ⟨fun _ => some [71], subs⟩]
    let p := [g .A [], .enter (fun _ => false) [] [], g .C [fun _ => (1, false)]]
    (run {} p).rep = false ∧ known (view (run {} p).st) [71] = true ∧ (Spec.run {} p).reported = true ∧
      known (Spec.run {} p).look [71] = false := by decide +kernel

/-- Violation: what is written behind the first operand of AREAD is not looked at. -/
theorem C122_witness_aread :
    let p := [.enter (fun _ => false) [] [], Stmt.aread (scalarT [65]) [.sym NOSTMT, .other] 0]
    (run { recs := [[66]] } p).rep = false ∧ (Spec.run { recs := [[66]] } p).reported = true := by decide +kernel

example : clockb (((12 * 60 + 34) * 60 + 56) * 1000000000 + 780000000) = [48, 52, 53, 50, 57, 54, 55, 56] := by decide +kernel
example : clockd (((12 * 60 + 34) * 60 + 56) * 1000000000 + 780000000) = [49, 50, 51, 52, 53, 54, 55, 56] := by decide +kernel

end Verif.CaStmt
