import Verif.Gen.Model
import Verif.Gen.Spec

/-!
The relation between the processing of the model and the frames and worlds of the specification, and what one statement does to both.
-/
namespace Verif.Gen

open Verif.Gen.Spec

variable {S : Sem} {u : Bool}

/-- The names of a scope with parameters. -/
def namesOf (vars : Name → Option (Var S.Val)) (params : Name → Option S.Val) : Name → Option (Is S.Val) := fun x =>
  match vars x with
  | some (.own v) => some (.local v)
  | some .shared => some .global
  | none => (params x).map .param

/-- The parameters visible in a state. -/
def State.params (s : State S) : Name → Option S.Val :=
  match s.calls with
  | [] => fun _ => none
  | c :: _ => c.params

/-- &SYSNDX visible in a state. -/
def State.num (s : State S) : Option Nat :=
  match s.calls with
  | [] => none
  | c :: _ => some c.ndx

/-- The innermost scope is the frame. -/
structure F (s : State S) (f : Frame S) : Prop where
  names : f.names = namesOf s.scope.vars s.params
  branches : f.branches = s.scope.ctr
  actrs : f.actrs = s.scope.changes
  ndx : f.ndx = s.num

/-- The rest is the world. -/
structure W (u : Bool) (s : State S) (w : World S) : Prop where
  macros : w.macros = s.macros
  globals : w.globals = s.globals
  calls : w.calls = s.ndx
  told : w.told = s.log.filter (counts u)

theorem look_eq (s : State S) (x : Name) : s.look x = match s.scope.vars x with
    | some v => some (.var v)
    | none => (s.params x).map .param := by
  unfold State.look State.params
  cases s.scope.vars x <;> cases s.calls <;> rfl

theorem env_eq {s : State S} {f : Frame S} {w : World S} (hF : F s f) (hW : W u s w) :
    s.env = sees f.names w f.ndx s.calls.length := by
  unfold State.env sees
  congr 1
  · funext x
    simp only [State.read, look_eq, hF.names, namesOf, hW.globals]
    rcases s.scope.vars x with _ | v
    · cases s.params x <;> rfl
    · cases v <;> rfl
  · rw [hF.ndx]
    rfl

theorem namesOf_upd_own (vars : Name → Option (Var S.Val)) (ps : Name → Option S.Val) (x : Name) (v : S.Val) :
    namesOf (upd vars x (.own v)) ps = change (namesOf vars ps) x (.local v) := by
  funext y
  by_cases h : y = x <;> simp [namesOf, upd, change, h]

theorem namesOf_upd_shared (vars : Name → Option (Var S.Val)) (ps : Name → Option S.Val) (x : Name) :
    namesOf (upd vars x .shared) ps = change (namesOf vars ps) x .global := by
  funext y
  by_cases h : y = x <;> simp [namesOf, upd, change, h]

theorem upd_eq_change {α : Type} (m : Name → Option α) (x : Name) (v : α) : upd m x v = change m x v := rfl

@[simp] theorem onScope_calls_length (s : State S) (g : Scope S.Val → Scope S.Val) : (s.onScope g).calls.length = s.calls.length := by
  unfold State.onScope
  split <;> simp_all

@[simp] theorem onScope_scope (s : State S) (g : Scope S.Val → Scope S.Val) : (s.onScope g).scope = g s.scope := by
  unfold State.onScope State.scope
  cases h : s.calls <;> simp [h]

@[simp] theorem onScope_params (s : State S) (g : Scope S.Val → Scope S.Val) : (s.onScope g).params = s.params := by
  unfold State.onScope State.params
  cases h : s.calls <;> simp [h]

@[simp] theorem onScope_num (s : State S) (g : Scope S.Val → Scope S.Val) : (s.onScope g).num = s.num := by
  unfold State.onScope State.num
  cases h : s.calls <;> simp [h]

@[simp] theorem onScope_globals (s : State S) (g : Scope S.Val → Scope S.Val) : (s.onScope g).globals = s.globals := by
  unfold State.onScope
  split <;> rfl

@[simp] theorem onScope_macros (s : State S) (g : Scope S.Val → Scope S.Val) : (s.onScope g).macros = s.macros := by
  unfold State.onScope
  split <;> rfl

@[simp] theorem onScope_ndx (s : State S) (g : Scope S.Val → Scope S.Val) : (s.onScope g).ndx = s.ndx := by
  unfold State.onScope
  split <;> rfl

@[simp] theorem onScope_log (s : State S) (g : Scope S.Val → Scope S.Val) : (s.onScope g).log = s.log := by
  unfold State.onScope
  split <;> rfl

/-- The same stack of calls with the same open code, apart from what variables of the innermost scope, global variables and counters are. -/
structure Like (s s' : State S) : Prop where
  pos : s'.pos = s.pos
  syms : s'.syms = s.syms
  stop : s'.stop = s.stop
  finished : s'.finished = s.finished
  main : s.calls ≠ [] → s'.main = s.main
  calls : match s.calls with
    | [] => s'.calls = []
    | c :: cs => ∃ sc, s'.calls = { c with scope := sc } :: cs

theorem Like.refl (s : State S) : Like s s :=
  ⟨rfl, rfl, rfl, rfl, fun _ => rfl, by cases h : s.calls with
    | nil => rfl
    | cons c cs => exact ⟨c.scope, rfl⟩⟩

theorem Like.trans {a b c : State S} (h : Like a b) (h' : Like b c) : Like a c := by
  refine ⟨h'.pos.trans h.pos, h'.syms.trans h.syms, h'.stop.trans h.stop, h'.finished.trans h.finished, ?_, ?_⟩
  · intro hc
    have h1 := h.calls
    have : b.calls ≠ [] := by
      cases ha : a.calls with
      | nil => exact absurd ha hc
      | cons x xs =>
        rw [ha] at h1
        obtain ⟨sc, h1⟩ := h1
        rw [h1]
        simp
    rw [h'.main this, h.main hc]
  · have h1 := h.calls
    have h2 := h'.calls
    cases ha : a.calls with
    | nil =>
      rw [ha] at h1
      simp only at h1 ⊢
      rw [h1] at h2
      exact h2
    | cons x xs =>
      rw [ha] at h1
      obtain ⟨sc, h1⟩ := h1
      rw [h1] at h2
      obtain ⟨sc', h2⟩ := h2
      exact ⟨sc', h2⟩

theorem like_onScope (s : State S) (g : Scope S.Val → Scope S.Val) : Like s (s.onScope g) := by
  unfold State.onScope
  cases h : s.calls with
  | nil => exact ⟨rfl, rfl, rfl, rfl, fun hc => absurd h hc, by rw [h]⟩
  | cons c cs => exact ⟨rfl, rfl, rfl, rfl, fun _ => rfl, by rw [h]; exact ⟨_, rfl⟩⟩

theorem like_tell (s : State S) (e : Event S.Out) : Like s (s.tell e) :=
  ⟨rfl, rfl, rfl, rfl, fun _ => rfl, (Like.refl s).calls⟩

theorem like_globals (s : State S) (g : Name → Option S.Val) : Like s { s with globals := g } :=
  ⟨rfl, rfl, rfl, rfl, fun _ => rfl, (Like.refl s).calls⟩

theorem Like.length {s s' : State S} (h : Like s s') : s'.calls.length = s.calls.length := by
  have h1 := h.calls
  cases hs : s.calls with
  | nil =>
    rw [hs] at h1
    exact congrArg List.length h1
  | cons c cs =>
    rw [hs] at h1
    obtain ⟨sc, h1⟩ := h1
    rw [h1]
    rfl

theorem W.tell {s : State S} {w : World S} (h : W u s w) (e : Event S.Out) (he : counts u e = true) : W u (s.tell e) (w.tell e) :=
  ⟨h.macros, h.globals, h.calls, by simp [State.tell, World.tell, h.told, List.filter_append, he]⟩

theorem F.tell {s : State S} {f : Frame S} (h : F s f) (e : Event S.Out) : F (s.tell e) f := ⟨h.names, h.branches, h.actrs, h.ndx⟩

theorem F.globals {s : State S} {f : Frame S} (h : F s f) (g : Name → Option S.Val) : F { s with globals := g } f :=
  ⟨h.names, h.branches, h.actrs, h.ndx⟩

/-- A change of variables in the innermost scope. -/
theorem F.onVars {s : State S} {f : Frame S} (h : F s f) (g : (Name → Option (Var S.Val)) → Name → Option (Var S.Val)) :
    F (s.onScope fun c => { c with vars := g c.vars }) { f with names := namesOf (g s.scope.vars) s.params } :=
  ⟨by simp, by simp [h.branches], by simp [h.actrs], by simp [h.ndx]⟩

theorem W.onScope {s : State S} {w : World S} (h : W u s w) (g : Scope S.Val → Scope S.Val) : W u (s.onScope g) w :=
  ⟨by simp [h.macros], by simp [h.globals], by simp [h.calls], by simp [h.told]⟩

theorem F.dec {s : State S} {f : Frame S} (h : F s f) :
    F (s.onScope fun c => { c with ctr := c.ctr - 1 }) { f with branches := f.branches - 1 } :=
  ⟨by simp [h.names], by simp [h.branches], by simp [h.actrs], by simp [h.ndx]⟩

/-- What processing a statement does once its sequence symbol is registered. -/
def State.act (P : Prog S) (s : State S) (op : Op S) : State S :=
  match op with
  | .set x e => s.assign x e
  | .gbl x => s.declared x fun s => s.newGlobal x
  | .lcl x => s.declared x fun s => s.newLocal x
  | .aif bs => s.branch P (aifTarget s.env bs)
  | .ago l => s.branch P (agoTarget 1 [l])
  | .agoNth e ls => s.branch P (agoTarget (S.number e s.env) ls)
  | .actr e => let n := S.number e s.env; s.onScope fun c => { c with ctr := n, changes := c.changes + 1 }
  | .anop => s
  | .call m args =>
    match s.macros m with
    | none => s.tell (.err .E049)
    | some m => s.enter m args
  | .mexit => match s.calls with | [] => s.tell (.err .E054) | _ => s.leave
  | .mend => match s.calls with | [] => s.tell (.err .E054) | _ => s
  | .gen t => s.tell (.out (S.text t s.env))
  | .define m ps body => { s with macros := upd s.macros m ⟨ps, body⟩ }

theorem aifTarget_eq (v : Env S.Val) (bs : List (S.Cnd × Lab)) :
    aifTarget v bs = (bs.find? fun b => S.holds b.1 v).map (·.2) := by
  induction bs with
  | nil => rfl
  | cons b bs ih =>
    obtain ⟨c, l⟩ := b
    simp only [aifTarget, List.find?_cons]
    cases S.holds c v <;> simp [ih]

theorem agoTarget_zero (n : Int) (ls : List Lab) (h : n ≤ 0) : agoTarget n ls = none := by
  unfold agoTarget
  rw [if_neg (by omega)]

theorem agoTarget_succ (n : Nat) (ls : List Lab) : agoTarget (.ofNat (n + 1)) ls = ls[n]? := by
  unfold agoTarget
  have h1 : (Int.ofNat (n + 1) - 1).toNat = n := by
    simp only [Int.ofNat_eq_natCast]
    omega
  rw [h1]
  split
  · rfl
  · rename_i h
    rw [eq_comm, List.getElem?_eq_none_iff]
    simp only [Int.ofNat_eq_natCast] at h
    omega

theorem newLocal_fresh {s : State S} {x : Name} (h : s.scope.vars x = none) :
    s.newLocal x = s.onScope fun c => { c with vars := upd c.vars x (.own S.dflt) } := by
  unfold State.newLocal
  rw [h]

/-- A statement that asks to go on with the next one. -/
theorem act_next (P : Prog S) {s : State S} {f : Frame S} {w : World S} (hF : F s f) (hW : W u s w) (st : Stmt S)
    {names : Name → Option (Is S.Val)} {w' : World S} (h : asks s.calls.length f w st = .next names w') :
    Like s (s.act P st.op) ∧ F (s.act P st.op) { f with names := names } ∧ W u (s.act P st.op) w' := by
  have hE := env_eq hF hW
  have tell : ∀ e : Event S.Out, counts u e = true → ∀ n w', n = f.names → w' = w.tell e →
      Like s (s.tell e) ∧ F (s.tell e) { f with names := n } ∧ W u (s.tell e) w' := by
    intro e he n w' hn hw
    subst hn hw
    exact ⟨like_tell s e, hF.tell e, hW.tell e he⟩
  have keep : ∀ n w', n = f.names → w' = w → Like s s ∧ F s { f with names := n } ∧ W u s w' := by
    intro n w' hn hw
    subst hn hw
    exact ⟨Like.refl s, hF, hW⟩
  have hnm : ∀ x, f.names x = namesOf s.scope.vars s.params x := fun x => by rw [hF.names]
  unfold asks at h
  simp only [← hE] at h
  unfold State.act
  cases hop : st.op with
  | set x e =>
    rw [hop] at h
    simp only at h ⊢
    rw [hnm x] at h
    unfold namesOf at h
    unfold State.assign
    rw [look_eq]
    rcases hv : s.scope.vars x with _ | v
    · rw [hv] at h
      simp only at h ⊢
      rcases hp : s.params x with _ | p
      · rw [hp] at h
        simp only [Option.map_none] at h ⊢
        simp only [Asks.next.injEq] at h
        obtain ⟨hn, hw⟩ := h
        rw [newLocal_fresh hv]
        have hF1 : F (s.onScope fun c => { c with vars := upd c.vars x (.own S.dflt) })
            { f with names := change f.names x (.local S.dflt) } := by
          have := hF.onVars fun v => upd v x (.own S.dflt)
          rw [namesOf_upd_own, ← hF.names] at this
          exact this
        have hW1 : W u (s.onScope fun c => { c with vars := upd c.vars x (.own S.dflt) }) w := hW.onScope _
        have hE1 := env_eq hF1 hW1
        simp only [onScope_calls_length] at hE1
        rw [hE1]
        have hvx : (s.onScope fun c => { c with vars := upd c.vars x (.own S.dflt) }).scope.vars x = some (.own S.dflt) := by
          simp [upd]
        unfold State.store
        rw [hvx]
        simp only
        refine ⟨(like_onScope _ _).trans (like_onScope _ _), ?_, ?_⟩
        · have := hF1.onVars fun v => upd v x (.own (S.value e
              (sees (change f.names x (.local S.dflt)) w f.ndx s.calls.length)))
          rw [namesOf_upd_own, onScope_params, onScope_scope, namesOf_upd_own, ← hF.names] at this
          have e2 : names = change (change f.names x (.local S.dflt)) x (.local (S.value e
              (sees (change f.names x (.local S.dflt)) w f.ndx s.calls.length))) := by
            rw [← hn]
            funext y
            by_cases hy : y = x <;> simp [change, hy]
          rw [e2]
          exact this
        · rw [← hw]
          exact hW1.onScope _
      · rw [hp] at h
        simp only [Option.map_some, Asks.next.injEq] at h ⊢
        exact tell _ rfl _ _ h.1.symm h.2.symm
    · have hnl : s.newLocal x = s := by
        unfold State.newLocal
        rw [hv]
      rw [hv] at h
      cases v with
      | own v =>
        simp only [Asks.next.injEq] at h ⊢
        obtain ⟨hn, hw⟩ := h
        rw [hnl]
        unfold State.store
        rw [hv]
        simp only
        refine ⟨like_onScope _ _, ?_, ?_⟩
        · have := hF.onVars fun v => upd v x (.own (S.value e s.env))
          rw [namesOf_upd_own, ← hF.names, hn] at this
          exact this
        · rw [← hw]
          exact hW.onScope _
      | shared =>
        simp only [Asks.next.injEq] at h ⊢
        obtain ⟨hn, hw⟩ := h
        rw [hnl]
        unfold State.store
        rw [hv]
        simp only
        refine ⟨like_globals _ _, ?_, ?_⟩
        · rw [← hn]
          exact hF.globals _
        · rw [← hw]
          exact ⟨hW.macros, by rw [hW.globals]; rfl, hW.calls, hW.told⟩
  | gbl x =>
    rw [hop] at h
    simp only at h ⊢
    rw [hnm x] at h
    unfold namesOf at h
    unfold State.declared
    rw [look_eq]
    rcases hv : s.scope.vars x with _ | v
    · rw [hv] at h
      simp only at h ⊢
      rcases hp : s.params x with _ | p
      · rw [hp] at h
        simp only [Option.map_none] at h ⊢
        simp only [Asks.next.injEq] at h
        obtain ⟨hn, hw⟩ := h
        unfold State.newGlobal
        rw [hv]
        simp only
        rcases hg : s.globals x with _ | g
        · simp only
          refine ⟨(like_globals s _).trans (like_onScope _ _), ?_, ?_⟩
          · have := (hF.globals (upd s.globals x S.dflt)).onVars fun v => upd v x .shared
            rw [namesOf_upd_shared] at this
            rw [← hn, hF.names]
            exact this
          · rw [← hw]
            apply W.onScope
            exact ⟨hW.macros, by simp [hW.globals, hg]; rfl, hW.calls, hW.told⟩
        · simp only
          refine ⟨like_onScope _ _, ?_, ?_⟩
          · have := hF.onVars fun v => upd v x .shared
            rw [namesOf_upd_shared] at this
            rw [← hn, hF.names]
            exact this
          · rw [← hw]
            apply W.onScope
            refine ⟨hW.macros, ?_, hW.calls, hW.told⟩
            funext y
            by_cases hy : y = x <;> simp [hW.globals, hg, change, hy]
      · rw [hp] at h
        simp only [Option.map_some, Asks.next.injEq] at h ⊢
        exact tell _ rfl _ _ h.1.symm h.2.symm
    · rw [hv] at h
      cases v <;>
      · simp only [Asks.next.injEq] at h ⊢
        exact tell _ rfl _ _ h.1.symm h.2.symm
  | lcl x =>
    rw [hop] at h
    simp only at h ⊢
    rw [hnm x] at h
    unfold namesOf at h
    unfold State.declared
    rw [look_eq]
    rcases hv : s.scope.vars x with _ | v
    · rw [hv] at h
      simp only at h ⊢
      rcases hp : s.params x with _ | p
      · rw [hp] at h
        simp only [Option.map_none] at h ⊢
        simp only [Asks.next.injEq] at h
        obtain ⟨hn, hw⟩ := h
        rw [newLocal_fresh hv]
        refine ⟨like_onScope _ _, ?_, ?_⟩
        · have := hF.onVars fun v => upd v x (.own S.dflt)
          rw [namesOf_upd_own] at this
          rw [← hn, hF.names]
          exact this
        · rw [← hw]
          exact hW.onScope _
      · rw [hp] at h
        simp only [Option.map_some, Asks.next.injEq] at h ⊢
        exact tell _ rfl _ _ h.1.symm h.2.symm
    · rw [hv] at h
      cases v <;>
      · simp only [Asks.next.injEq] at h ⊢
        exact tell _ rfl _ _ h.1.symm h.2.symm
  | aif bs =>
    rw [hop] at h
    simp only [aifTarget_eq] at h ⊢
    cases hb : bs.find? fun b => S.holds b.1 s.env with
    | some b => rw [hb] at h; simp at h
    | none =>
      rw [hb] at h
      simp only [Asks.next.injEq] at h
      exact keep _ _ h.1.symm h.2.symm
  | ago l =>
    rw [hop] at h
    simp at h
  | agoNth e ls =>
    rw [hop] at h
    simp only at h ⊢
    cases hn : S.number e s.env with
    | ofNat n =>
      rw [hn] at h
      cases n with
      | zero =>
        simp only [Asks.next.injEq] at h
        rw [agoTarget_zero _ _ (by simp)]
        exact keep _ _ h.1.symm h.2.symm
      | succ n =>
        rw [agoTarget_succ]
        simp only at h
        cases hl : ls[n]? with
        | some l => rw [hl] at h; simp at h
        | none =>
          rw [hl] at h
          simp only [Asks.next.injEq] at h
          exact keep _ _ h.1.symm h.2.symm
    | negSucc n =>
      rw [hn] at h
      simp only [Asks.next.injEq] at h
      rw [agoTarget_zero _ _ (by have := Int.negSucc_lt_zero n; omega)]
      exact keep _ _ h.1.symm h.2.symm
  | actr e => rw [hop] at h; simp at h
  | anop =>
    rw [hop] at h
    simp only [Asks.next.injEq] at h
    exact keep _ _ h.1.symm h.2.symm
  | call m args =>
    rw [hop] at h
    simp only at h ⊢
    rw [hW.macros] at h
    cases hm : s.macros m with
    | some m => rw [hm] at h; simp at h
    | none =>
      rw [hm] at h
      simp only [Asks.next.injEq] at h ⊢
      exact tell _ rfl _ _ h.1.symm h.2.symm
  | mexit =>
    rw [hop] at h
    simp only at h ⊢
    cases hc : s.calls with
    | nil =>
      rw [hc] at h
      simp only [List.length_nil, if_true, Asks.next.injEq] at h ⊢
      exact tell _ rfl _ _ h.1.symm h.2.symm
    | cons c cs => rw [hc] at h; simp at h
  | mend =>
    rw [hop] at h
    simp only at h ⊢
    cases hc : s.calls with
    | nil =>
      rw [hc] at h
      simp only [List.length_nil, if_true, Asks.next.injEq] at h ⊢
      exact tell _ rfl _ _ h.1.symm h.2.symm
    | cons c cs =>
      rw [hc] at h
      simp at h
      exact keep _ _ h.1.symm h.2.symm
  | gen t =>
    rw [hop] at h
    simp only [Asks.next.injEq] at h ⊢
    exact tell _ rfl _ _ h.1.symm h.2.symm
  | define m ps body =>
    rw [hop] at h
    simp only [Asks.next.injEq] at h ⊢
    obtain ⟨hn, hw⟩ := h
    subst hn hw
    exact ⟨⟨rfl, rfl, rfl, rfl, fun _ => rfl, (Like.refl s).calls⟩, ⟨hF.names, hF.branches, hF.actrs, hF.ndx⟩,
      ⟨by rw [hW.macros]; rfl, hW.globals, hW.calls, hW.told⟩⟩

/-- A statement that asks to go on at a sequence symbol. -/
theorem act_goto (P : Prog S) {s : State S} {f : Frame S} {w : World S} (hF : F s f) (hW : W u s w) (st : Stmt S) {l : Lab}
    (h : asks s.calls.length f w st = .goto l) : s.act P st.op = s.jump P l := by
  have hE := env_eq hF hW
  unfold asks at h
  simp only [← hE] at h
  unfold State.act
  cases hop : st.op with
  | set x e =>
    rw [hop] at h
    simp only at h
    split at h <;> simp at h
  | gbl x =>
    rw [hop] at h
    simp only at h
    split at h <;> simp at h
  | lcl x =>
    rw [hop] at h
    simp only at h
    split at h <;> simp at h
  | aif bs =>
    rw [hop] at h
    simp only [aifTarget_eq] at h ⊢
    cases hb : bs.find? fun b => S.holds b.1 s.env with
    | some b =>
      rw [hb] at h
      simp only [Asks.goto.injEq] at h
      rw [← h]
      rfl
    | none => rw [hb] at h; simp at h
  | ago l' =>
    rw [hop] at h
    simp only [Asks.goto.injEq] at h
    rw [← h]
    rfl
  | agoNth e ls =>
    rw [hop] at h
    simp only at h ⊢
    cases hn : S.number e s.env with
    | ofNat n =>
      rw [hn] at h
      cases n with
      | zero => simp at h
      | succ n =>
        rw [agoTarget_succ]
        simp only at h
        cases hl : ls[n]? with
        | some l' =>
          rw [hl] at h
          simp only [Asks.goto.injEq] at h
          rw [← h]
          rfl
        | none => rw [hl] at h; simp at h
    | negSucc n => rw [hn] at h; simp at h
  | actr e => rw [hop] at h; simp at h
  | anop => rw [hop] at h; simp at h
  | call m args =>
    rw [hop] at h
    simp only at h
    split at h <;> simp at h
  | mexit =>
    rw [hop] at h
    simp only at h
    split at h <;> simp at h
  | mend =>
    rw [hop] at h
    simp only at h
    split at h <;> simp at h
  | gen t => rw [hop] at h; simp at h
  | define m ps body => rw [hop] at h; simp at h

/-- A statement that asks for another number of branches. -/
theorem act_limit (P : Prog S) {s : State S} {f : Frame S} {w : World S} (hF : F s f) (hW : W u s w) (st : Stmt S) {n : Int}
    (h : asks s.calls.length f w st = .limit n) :
    s.act P st.op = s.onScope fun c => { c with ctr := n, changes := c.changes + 1 } := by
  have hE := env_eq hF hW
  unfold asks at h
  simp only [← hE] at h
  unfold State.act
  cases hop : st.op with
  | actr e =>
    rw [hop] at h
    simp only [Asks.limit.injEq] at h ⊢
    rw [h]
  | ago l' => rw [hop] at h; simp at h
  | anop => rw [hop] at h; simp at h
  | gen t => rw [hop] at h; simp at h
  | define m ps body => rw [hop] at h; simp at h
  | agoNth e ls =>
    rw [hop] at h
    simp only at h
    split at h
    · split at h <;> simp at h
    · simp at h
  | _ =>
    rw [hop] at h
    simp only at h
    split at h <;> simp at h

/-- A statement that asks to leave. -/
theorem act_leave (P : Prog S) {s : State S} {f : Frame S} {w : World S} (hF : F s f) (hW : W u s w) (st : Stmt S)
    (h : asks s.calls.length f w st = .leave) : s.calls ≠ [] ∧ s.act P st.op = s.leave := by
  have hE := env_eq hF hW
  unfold asks at h
  simp only [← hE] at h
  unfold State.act
  cases hop : st.op with
  | mexit =>
    rw [hop] at h
    simp only at h ⊢
    cases hc : s.calls with
    | nil => rw [hc] at h; simp at h
    | cons c cs => simp
  | actr e => rw [hop] at h; simp at h
  | ago l' => rw [hop] at h; simp at h
  | anop => rw [hop] at h; simp at h
  | gen t => rw [hop] at h; simp at h
  | define m ps body => rw [hop] at h; simp at h
  | agoNth e ls =>
    rw [hop] at h
    simp only at h
    split at h
    · split at h <;> simp at h
    · simp at h
  | _ =>
    rw [hop] at h
    simp only at h
    split at h <;> simp at h

theorem bind_eq (d : S.Val) (ps : List Name) (vs : List S.Val) (x : Name) :
    bind d ps vs x = (ps.idxOf? x).map fun i => vs[i]?.getD d := by
  induction ps generalizing vs with
  | nil => rfl
  | cons p ps ih =>
    unfold bind
    rw [List.idxOf?_cons]
    by_cases h : x = p
    · subst h
      cases vs <;> simp
    · have h' : (p == x) = false := by simpa using fun e => h e.symm
      rw [if_neg h, h', ih]
      simp only [Bool.false_eq_true, if_false, Option.map_map]
      congr 1
      funext i
      cases vs <;> simp

/-- A statement that asks for a macro to be obeyed. -/
theorem act_obey (P : Prog S) {s : State S} {f : Frame S} {w : World S} (hF : F s f) (hW : W u s w) (st : Stmt S) {m : Macro S}
    {args : List S.Val} (h : asks s.calls.length f w st = .obey m args) :
    ∃ c, s.act P st.op = { s with calls := c :: s.calls, ndx := s.ndx + 1 } ∧ c.body = m.body ∧ c.next = 0 ∧
      F (s.act P st.op) (Frame.call m.params args w.calls) ∧ W u (s.act P st.op) { w with calls := w.calls + 1 } := by
  have hE := env_eq hF hW
  unfold asks at h
  simp only [← hE] at h
  unfold State.act
  cases hop : st.op with
  | call m' es =>
    rw [hop] at h
    simp only at h ⊢
    rw [hW.macros] at h
    cases hm : s.macros m' with
    | none => rw [hm] at h; simp at h
    | some m'' =>
      rw [hm] at h
      simp only [Asks.obey.injEq] at h
      obtain ⟨h1, h2⟩ := h
      subst h1 h2
      refine ⟨_, rfl, rfl, rfl, ?_, ?_⟩
      · refine ⟨?_, rfl, rfl, ?_⟩
        · funext x
          simp only [Frame.call, namesOf, State.enter, State.scope, Scope.new, State.params, bind_eq, Option.map_map]
          rfl
        · simp [Frame.call, State.enter, State.num, hW.calls]
      · exact ⟨hW.macros, hW.globals, by simp [State.enter, hW.calls], hW.told⟩
  | actr e => rw [hop] at h; simp at h
  | ago l' => rw [hop] at h; simp at h
  | anop => rw [hop] at h; simp at h
  | gen t => rw [hop] at h; simp at h
  | define m ps body => rw [hop] at h; simp at h
  | agoNth e ls =>
    rw [hop] at h
    simp only at h
    split at h
    · split at h <;> simp at h
    · simp at h
  | _ =>
    rw [hop] at h
    simp only at h
    split at h <;> simp at h

end Verif.Gen
