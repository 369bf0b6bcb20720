import Verif.SysVar.Lemmas
/-! What holds of the system variables after every history (C141). -/
namespace Verif.SysVar
open Verif.Context

/-- The scopes, the innermost first, belong to the calls that are not finished, and have their system variables. -/
def Fit (heap : List SetSym) : List Scope → List Spec.Call → Prop
  | sc :: scs, [] => scs = [] ∧ ∀ n ∈ Spec.names, n ∉ globalNames → sc.vars n = none
  | sc :: scs, c :: cs => (∀ p ∈ localVars c.here (cs.length + 1), Has heap sc p) ∧ sc.vars SYSMAC = none ∧ Fit heap scs cs
  | [], _ => False

theorem localVars_names (here : Here) (d : Nat) : (localVars here d).map (·.1) = [SYSECT, SYSSTYP, SYSLOC, SYSNEST] := rfl

theorem local_mem {here : Here} {d : Nat} {p : Name × Val} (h : p ∈ localVars here d) :
    p.1 = SYSECT ∨ p.1 = SYSSTYP ∨ p.1 = SYSLOC ∨ p.1 = SYSNEST := by
  have : p.1 ∈ (localVars here d).map (·.1) := List.mem_map_of_mem (f := (·.1)) h
  rw [localVars_names] at this
  simpa using this

theorem local_sys {here : Here} {d : Nat} {p : Name × Val} (h : p ∈ localVars here d) : p.1 ∈ Spec.names := by
  rcases local_mem h with e | e | e | e <;> rw [e] <;> decide +kernel

theorem fit_same {s s' : St} (hs : Same s s') : ∀ (scs : List Scope) (cs : List Spec.Call), Fit s.heap scs cs → Fit s'.heap scs cs
  | [], _, h => h.elim
  | _ :: _, [], h => h
  | sc :: scs, c :: cs, h => by
    obtain ⟨h1, h2, h3⟩ := h
    exact ⟨fun p hp => (h1 p hp).mono hs (local_sys hp) rfl (fun _ h => h), h2, fit_same hs scs cs h3⟩

theorem fit_quiet {s s' : St} (hq : Quiet s s') (cs : List Spec.Call) (h : Fit s.heap (s.top :: s.rest) cs) :
    Fit s'.heap (s'.top :: s'.rest) cs := by
  rw [hq.rest]
  cases cs with
  | nil => exact ⟨h.1, fun n hn hg => hq.new n hn (h.2 n hn hg)⟩
  | cons c cs =>
    obtain ⟨h1, h2, h3⟩ := h
    refine ⟨fun p hp => (h1 p hp).mono hq.same (local_sys hp) hq.id (fun a ha => hq.vars _ a ha), hq.new _ (by decide +kernel) h2, ?_⟩
    exact fit_same hq.same s.rest cs h3

/-- A global variable that all scopes know. -/
def Known (s : St) (n : Name) (x : SetSym) : Prop := ∃ a, s.globals n = some a ∧ s.heap[a]? = some x ∧ ∀ sc ∈ s.top :: s.rest, sc.vars n = some a

/-- The statements that are neither calls nor returns. -/
def plain : Op → Bool
  | .enter _ _ _ => false
  | .leave => false
  | _ => true

/-- A statement does not declare and does not set a system variable. -/
def Away : Op → Prop
  | .set _ n _ _ => n ∉ Spec.names
  | .lcl _ n _ => n ∉ Spec.names
  | .gbl _ n _ => n ∉ Spec.names
  | _ => True

theorem quiet_step {s : St} (inv : Inv s) (op : Op) (hp : plain op = true) (ha : Away op) : Quiet s (s.step op) := by
  cases op with
  | lcl ty n sc =>
    simp only [St.step]
    split
    · next hr => exact quiet_newLocal ty sc (resolve_undef hr).1 ha
    · exact Quiet.refl s
  | gbl ty n sc =>
    simp only [St.step]
    split
    · next hr => exact quiet_newGlobal ty sc (resolve_undef hr).1 ha
    · exact Quiet.refl s
  | set ty n sub vals => exact quiet_set inv ty n sub vals ha
  | enter _ _ _ => exact absurd hp (by simp [plain])
  | leave => exact absurd hp (by simp [plain])

theorem assign_ne {s : St} {a b base : Nat} {vs : List Val} {x : SetSym} (h : b ≠ a) (hx : s.heap[a]? = some x) :
    (s.assign b base vs).heap[a]? = some x := by
  show (s.heap.modify b fun y => y.assign base vs)[a]? = some x
  rw [List.getElem?_modify, hx]; simp [h]

theorem glob_heap {s : St} (inv : Inv s) (op : Op) (hp : plain op = true) (ha : Away op) {n : Name} (hn : n ∈ Spec.names) {a : Nat} {x : SetSym}
    (hg : s.globals n = some a) (hx : s.heap[a]? = some x) : (s.step op).heap[a]? = some x := by
  have hl : a < s.heap.length := by rw [List.getElem?_eq_some_iff] at hx; exact hx.1
  cases op with
  | lcl ty m sc =>
    simp only [St.step]
    split
    · exact getElem?_append_some hx
    · exact hx
  | gbl ty m sc =>
    simp only [St.step]
    split
    · unfold St.newGlobal
      split
      · exact hx
      · exact getElem?_append_some hx
    · exact hx
  | set ty m sub vals =>
    simp only [Away] at ha
    simp only [St.step, St.setStmt]
    split
    · exact hx
    · split
      · exact hx
      · exact assign_ne (by omega) (getElem?_append_some hx)
    · next b hb =>
      split
      · exact hx
      · split
        · exact hx
        · split
          · exact hx
          · split
            · exact hx
            · refine assign_ne ?_ hx
              rintro rfl
              obtain ⟨y, hy, ho⟩ := inv.globals n b hg
              obtain ⟨z, hz, hz'⟩ := inv.scopes s.top (by simp) m b (top_vars_of_resolve hb)
              rw [hy] at hz; simp at hz; subst hz
              rcases hz' with hz' | ⟨_, h3⟩
              · rw [ho] at hz'; simp at hz'
              · exact ha (inv.globInj n m b hg h3 ▸ hn)
  | enter _ _ _ => exact absurd hp (by simp [plain])
  | leave => exact absurd hp (by simp [plain])

theorem known_plain {s : St} (inv : Inv s) (op : Op) (hp : plain op = true) (ha : Away op) {n : Name} (hn : n ∈ Spec.names) {x : SetSym}
    (h : Known s n x) : Known (s.step op) n x := by
  obtain ⟨a, h1, h2, h3⟩ := h
  have hq := quiet_step inv op hp ha
  refine ⟨a, globals_step s op n a h1, glob_heap inv op hp ha hn h1 h2, ?_⟩
  intro sc hsc
  rcases List.mem_cons.mp hsc with rfl | hsc
  · exact hq.vars n a (h3 s.top (by simp))
  · rw [hq.rest] at hsc; exact h3 sc (by simp [hsc])

theorem known_leave {s : St} {n : Name} {x : SetSym} (h : Known s n x) : Known (s.step .leave) n x := by
  obtain ⟨a, h1, h2, h3⟩ := h
  simp only [St.step]
  split
  · exact ⟨a, h1, h2, h3⟩
  · next sc r hr => exact ⟨a, h1, h2, fun y hy => h3 y (by rw [hr]; simp at hy ⊢; exact Or.inr hy)⟩

/-! ### Calls -/

/-- The scope of a call before the system variables are put in. -/
def opened (s : St) (params : Name → Bool) : St := { s with top := { id := s.ndx + 1, params := params }, rest := s.top :: s.rest }

/-- All variables put into a macro scope. -/
def callVars (s : St) (here : Here) (d : Nat) : List (Name × Val) := (SYSNDX, .c (sysndxValue s.ndx)) :: localVars here d

theorem enter_eq (s : St) (params : Name → Bool) (here : Here) (d : Nat) :
    s.step (.enter params (localVars here d) globalNames) =
      { globalNames.foldl St.insertGlob ((callVars s here d).foldl St.insertSys (opened s params)) with ndx := s.ndx + 1 } := rfl

theorem heap_foldSys : ∀ (l : List (Name × Val)) (s : St) (a : Nat) (x : SetSym), s.heap[a]? = some x → (l.foldl St.insertSys s).heap[a]? = some x
  | [], _, _, _, h => h
  | p :: l, s, a, x, h => by
    rw [List.foldl_cons]
    refine heap_foldSys l _ a x ?_
    unfold St.insertSys
    split
    · exact h
    · have hl : a < s.heap.length := by rw [List.getElem?_eq_some_iff] at h; exact h.1
      exact assign_ne (by omega) (getElem?_append_some h)

theorem callVars_names (s : St) (here : Here) (d : Nat) : (callVars s here d).map (·.1) = [SYSNDX, SYSECT, SYSSTYP, SYSLOC, SYSNEST] := rfl

theorem known_enter {s : St} (params : Name → Bool) (here : Here) (d : Nat) {n : Name} (hn : n ∈ globalNames) {x : SetSym} (h : Known s n x) :
    Known (s.step (.enter params (localVars here d) globalNames)) n x := by
  obtain ⟨a, h1, h2, h3⟩ := h
  rw [enter_eq]
  obtain ⟨f1, f2, f3, f4, f5, f6⟩ := foldSys_facts (callVars s here d) (opened s params)
  obtain ⟨g1, g2, g3, g4, g5, g6, g7⟩ := foldGlob_facts globalNames ((callVars s here d).foldl St.insertSys (opened s params))
  have hnn : n ∉ (callVars s here d).map (·.1) := by
    rw [callVars_names]
    have : ∀ n ∈ globalNames, n ∉ [SYSNDX, SYSECT, SYSSTYP, SYSLOC, SYSNEST] := by decide +kernel
    exact this n hn
  refine ⟨a, ?_, ?_, ?_⟩
  · show (globalNames.foldl St.insertGlob _).globals n = some a
    rw [g2, f3]; exact h1
  · show (globalNames.foldl St.insertGlob _).heap[a]? = some x
    rw [g3]; exact heap_foldSys _ _ a x h2
  · intro sc hsc
    rcases List.mem_cons.mp hsc with rfl | hsc
    · exact g7 n a hn (by rw [f6 n hnn]; rfl) (by rw [f3]; exact h1)
    · have e : (globalNames.foldl St.insertGlob ((callVars s here d).foldl St.insertSys (opened s params))).rest = s.top :: s.rest := by
        rw [g1, f2]; rfl
      exact h3 sc (e ▸ hsc)

theorem fit_enter {s : St} (params : Name → Bool) (mac : Bytes) (here : Here) (cs : List Spec.Call) (h : Fit s.heap (s.top :: s.rest) cs) :
    Fit (s.step (.enter params (localVars here (cs.length + 1)) globalNames)).heap
      ((s.step (.enter params (localVars here (cs.length + 1)) globalNames)).top :: (s.step (.enter params (localVars here (cs.length + 1)) globalNames)).rest)
      (⟨mac, here⟩ :: cs) := by
  rw [enter_eq]
  obtain ⟨f1, f2, f3, f4, f5, f6⟩ := foldSys_facts (callVars s here (cs.length + 1)) (opened s params)
  obtain ⟨g1, g2, g3, g4, g5, g6, g7⟩ := foldGlob_facts globalNames ((callVars s here (cs.length + 1)).foldl St.insertSys (opened s params))
  have hhas := foldSys_has (callVars s here (cs.length + 1)) (opened s params) (by rw [callVars_names]; decide +kernel) (fun _ _ => rfl) (by
    intro p hp
    have : p.1 ∈ (callVars s here (cs.length + 1)).map (·.1) := List.mem_map_of_mem (f := (·.1)) hp
    rw [callVars_names] at this
    have k : ∀ n ∈ [SYSNDX, SYSECT, SYSSTYP, SYSLOC, SYSNEST], n ∈ Spec.names := by decide +kernel
    exact k _ this)
  refine ⟨?_, ?_, ?_⟩
  · intro p hp
    refine (hhas p (by unfold callVars; simp [hp])).mono ?_ (local_sys hp) g4 (fun a ha => g5 _ a ha)
    intro a x k n _ hx _
    show (globalNames.foldl St.insertGlob _).heap[a]? = some x
    rw [g3]; exact hx
  · show (globalNames.foldl St.insertGlob _).top.vars SYSMAC = none
    rw [g6 SYSMAC (by decide +kernel), f6 SYSMAC (by rw [callVars_names]; decide +kernel)]
    rfl
  · have e : (globalNames.foldl St.insertGlob ((callVars s here (cs.length + 1)).foldl St.insertSys (opened s params))).rest = s.top :: s.rest := by
      rw [g1, f2]; rfl
    show Fit _ (globalNames.foldl St.insertGlob _).rest cs
    rw [e]
    refine fit_same (s := s) ?_ _ _ h
    intro a x k n _ hx _
    show (globalNames.foldl St.insertGlob _).heap[a]? = some x
    rw [g3]; exact heap_foldSys _ _ a x hx

theorem fit_leave {s : St} (cs : List Spec.Call) (h : Fit s.heap (s.top :: s.rest) cs) :
    Fit (s.step .leave).heap ((s.step .leave).top :: (s.step .leave).rest) cs.tail := by
  simp only [St.step]
  split
  · next hr =>
    cases cs with
    | nil => exact h
    | cons c cs =>
      rw [hr] at h
      exact h.2.2.elim
  · next sc r hr =>
    cases cs with
    | nil => rw [hr] at h; exact absurd h.1 (by simp)
    | cons c cs => rw [hr] at h; exact h.2.2

/-! ### All together -/

/-- The frames belong to the calls. -/
def Framed : List Frame → List Spec.Call → Prop
  | [], [] => True
  | f :: fs, c :: cs => f.mac = c.mac ∧ f.sysmac = sysmac f.mac fs ∧ Framed fs cs
  | _, _ => False

theorem framed_length : ∀ {fs : List Frame} {cs : List Spec.Call}, Framed fs cs → fs.length = cs.length
  | [], [], _ => rfl
  | [], _ :: _, h => h.elim
  | _ :: _, [], h => h.elim
  | _ :: _, _ :: _, h => by simp [framed_length h.2.2]

structure Good (s : State) (cs : List Spec.Call) : Prop where
  inv : Inv s.st
  fit : Fit s.st.heap (s.st.top :: s.st.rest) cs
  framed : Framed s.frames cs

/-- The calls after one event. -/
def after (cs : List Spec.Call) (e : Ev) : List Spec.Call := Spec.calls cs [e]

theorem calls_cons (cs : List Spec.Call) (e : Ev) (evs : List Ev) : Spec.calls cs (e :: evs) = Spec.calls (after cs e) evs := by
  cases e <;> rfl

theorem good_step {s : State} {cs : List Spec.Call} (h : Good s cs) (e : Ev) (hp : Spec.Proper e) : Good (step s e) (after cs e) := by
  cases e with
  | lcl ty n sc => exact ⟨inv_step h.inv (.lcl ty n sc) trivial, fit_quiet (quiet_step h.inv (.lcl ty n sc) rfl hp) cs h.fit, h.framed⟩
  | gbl ty n sc => exact ⟨inv_step h.inv (.gbl ty n sc) trivial, fit_quiet (quiet_step h.inv (.gbl ty n sc) rfl hp) cs h.fit, h.framed⟩
  | set ty n sub vals => exact ⟨inv_step h.inv (.set ty n sub vals) trivial, fit_quiet (quiet_step h.inv (.set ty n sub vals) rfl hp) cs h.fit, h.framed⟩
  | call mac params here =>
    have hl := framed_length h.framed
    refine ⟨inv_step h.inv (.enter (fun n => params n || n = SYSMAC) (localVars here (s.frames.length + 1)) globalNames) ?_, ?_, ?_⟩
    · have hpar : ∀ n ∈ Spec.names, n ≠ SYSMAC → (params n || decide (n = SYSMAC)) = false := by
        intro n hn hne
        rw [hp n hn]; simp [hne]
      have k1 : ∀ n ∈ [SYSNDX, SYSECT, SYSSTYP, SYSLOC, SYSNEST], n ∈ Spec.names ∧ n ≠ SYSMAC := by decide +kernel
      have k2 : ∀ n ∈ globalNames, n ∈ Spec.names ∧ n ≠ SYSMAC := by decide +kernel
      refine ⟨hpar _ (by decide +kernel) (by decide +kernel), ?_, ?_⟩
      · intro p hp'
        have := k1 p.1 (by rcases local_mem hp' with e | e | e | e <;> rw [e] <;> simp)
        exact hpar _ this.1 this.2
      · intro n hn
        exact hpar n (k2 n hn).1 (k2 n hn).2
    · simp only [step, after, Spec.calls]
      rw [hl]
      exact fit_enter _ mac here cs h.fit
    · exact ⟨rfl, rfl, h.framed⟩
  | ret =>
    refine ⟨inv_step h.inv .leave trivial, fit_leave cs h.fit, ?_⟩
    show Framed s.frames.tail cs.tail
    have hf := h.framed
    cases hfr : s.frames with
    | nil => rw [hfr] at hf; cases cs with
      | nil => trivial
      | cons c cs => exact hf.elim
    | cons f fs => rw [hfr] at hf; cases cs with
      | nil => exact hf.elim
      | cons c cs => exact hf.2.2

theorem known_step {s : State} (h : Inv s.st) (e : Ev) (hp : Spec.Proper e) {n : Name} (hn : n ∈ globalNames) {x : SetSym}
    (hk : Known s.st n x) : Known (step s e).st n x := by
  have hnn : n ∈ Spec.names := by
    have : ∀ n ∈ globalNames, n ∈ Spec.names := by decide +kernel
    exact this n hn
  cases e with
  | lcl ty m sc => exact known_plain h (.lcl ty m sc) rfl hp hnn hk
  | gbl ty m sc => exact known_plain h (.gbl ty m sc) rfl hp hnn hk
  | set ty m sub vals => exact known_plain h (.set ty m sub vals) rfl hp hnn hk
  | call mac params here => exact known_enter _ here _ hn hk
  | ret => exact known_leave hk

theorem good_run : ∀ (evs : List Ev) (s : State) (cs : List Spec.Call), Good s cs → (∀ e ∈ evs, Spec.Proper e) → Good (run s evs) (Spec.calls cs evs)
  | [], _, _, h, _ => h
  | e :: evs, s, cs, h, hp => by
    rw [calls_cons]
    exact good_run evs (step s e) (after cs e) (good_step h e (hp e (by simp))) (fun e he => hp e (by simp [he]))

theorem known_run : ∀ (evs : List Ev) (s : State) (cs : List Spec.Call), Good s cs → (∀ e ∈ evs, Spec.Proper e) → ∀ {n : Name} {x : SetSym},
    n ∈ globalNames → Known s.st n x → Known (run s evs).st n x
  | [], _, _, _, _ => fun _ h => h
  | e :: evs, s, cs, h, hp => fun hn hk =>
    known_run evs (step s e) (after cs e) (good_step h e (hp e (by simp))) (fun e he => hp e (by simp [he])) hn
      (known_step h.inv e (hp e (by simp)) hn hk)

/-! ### The beginning -/

theorem inv_addGlobal {s : St} (h : Inv s) (p : Name × Ty × Option Val) (hn : s.top.vars p.1 = none) (hp : s.top.params p.1 = false) :
    Inv (addGlobal s p) := inv_assign (inv_newGlobal h p.1 p.2.1 true hn hp) _ _ _

/-- The variable made at the beginning, as an object. -/
def made (p : Name × Ty × Option Val) : SetSym := ({ scalar := true, ty := p.2.1, owner := none } : SetSym).assign 0 p.2.2.toList

theorem addGlobal_eq (s : St) (p : Name × Ty × Option Val) (hg : s.globals p.1 = none) :
    addGlobal s p = { s with
      heap := (s.heap ++ [({ scalar := true, ty := p.2.1, owner := none } : SetSym)]).modify s.heap.length (fun y => y.assign 0 p.2.2.toList)
      globals := upd s.globals p.1 (some s.heap.length)
      top := { s.top with vars := upd s.top.vars p.1 (some s.heap.length) } } := by
  unfold addGlobal St.newGlobal
  rw [hg]; rfl

theorem known_made (s : St) (p : Name × Ty × Option Val) (hg : s.globals p.1 = none) (hr : s.rest = []) : Known (addGlobal s p) p.1 (made p) := by
  rw [addGlobal_eq s p hg]
  refine ⟨s.heap.length, by simp [upd], ?_, ?_⟩
  · show (List.modify _ _ _)[s.heap.length]? = _
    rw [List.getElem?_modify, List.getElem?_append_right (Nat.le_refl _)]
    simp [made]
  · intro sc hsc
    rw [hr] at hsc
    simp at hsc
    subst hsc
    simp [upd]

theorem known_add (s : St) (p : Name × Ty × Option Val) (hg : s.globals p.1 = none) (hr : s.rest = []) {n : Name} (hn : n ≠ p.1) {x : SetSym}
    (h : Known s n x) : Known (addGlobal s p) n x := by
  obtain ⟨a, h1, h2, h3⟩ := h
  rw [addGlobal_eq s p hg]
  have hl : a < s.heap.length := by rw [List.getElem?_eq_some_iff] at h2; exact h2.1
  refine ⟨a, by simp [upd, hn, h1], ?_, ?_⟩
  · show (List.modify _ _ _)[a]? = _
    rw [List.getElem?_modify, getElem?_append_some h2]
    have : ¬ s.heap.length = a := by omega
    simp [this]
  · intro sc hsc
    rw [hr] at hsc
    simp at hsc
    subst hsc
    simp [upd, hn, h3 s.top (by simp)]

theorem fold_add : ∀ (l : List (Name × Ty × Option Val)) (s : St), Inv s → s.rest = [] → (∀ n, s.top.params n = false) → (l.map (·.1)).Nodup →
    (∀ p ∈ l, s.top.vars p.1 = none ∧ s.globals p.1 = none) →
    Inv (l.foldl addGlobal s) ∧ (l.foldl addGlobal s).rest = [] ∧
    (∀ n, n ∉ l.map (·.1) → (l.foldl addGlobal s).top.vars n = s.top.vars n ∧ ∀ x, Known s n x → Known (l.foldl addGlobal s) n x) ∧
    (∀ p ∈ l, Known (l.foldl addGlobal s) p.1 (made p))
  | [], s, hi, hr, _, _, _ => ⟨hi, hr, fun _ _ => ⟨rfl, fun _ h => h⟩, fun p hp => absurd hp (by simp)⟩
  | p :: l, s, hi, hr, hp, hd, hu => by
    rw [List.map_cons, List.nodup_cons] at hd
    have hg := (hu p (by simp)).2
    have hv := (hu p (by simp)).1
    have hne : ∀ q ∈ l, q.1 ≠ p.1 := fun q hq e => hd.1 (e ▸ List.mem_map_of_mem (f := (·.1)) hq)
    obtain ⟨h1, h2, h3, h4⟩ := fold_add l (addGlobal s p) (inv_addGlobal hi p hv (hp _)) (by rw [addGlobal_eq s p hg]; exact hr)
      (by rw [addGlobal_eq s p hg]; exact hp) hd.2 (by
        intro q hq
        rw [addGlobal_eq s p hg]
        have := hu q (by simp [hq])
        simp [upd, hne q hq, this.1, this.2])
    rw [List.foldl_cons]
    refine ⟨h1, h2, ?_, ?_⟩
    · intro n hn
      simp only [List.map_cons, List.mem_cons, not_or] at hn
      obtain ⟨g1, g2⟩ := h3 n hn.2
      refine ⟨?_, fun x hx => g2 x (known_add s p hg hr hn.1 hx)⟩
      rw [g1, addGlobal_eq s p hg]
      simp [upd, hn.1]
    · intro q hq
      rcases List.mem_cons.mp hq with rfl | hq
      · exact (h3 q.1 hd.1).2 _ (known_made s q hg hr)
      · exact h4 q hq

theorem globalVars_names (t : Tm) (parm : Bytes) : (globalVars t parm).map (·.1) = globalNames := rfl

theorem start_facts (t : Tm) (parm : Bytes) : Good (start t parm) [] ∧ ∀ p ∈ globalVars t parm, Known (start t parm).st p.1 (made p) := by
  obtain ⟨h1, h2, h3, h4⟩ := fold_add (globalVars t parm) {} inv_init rfl (fun _ => rfl) (by rw [globalVars_names]; decide +kernel) (fun _ _ => ⟨rfl, rfl⟩)
  refine ⟨⟨h1, ⟨h2, ?_⟩, trivial⟩, h4⟩
  intro n _ hn
  exact (h3 n (by rw [globalVars_names]; exact hn)).1

/-- Reading a scalar. -/
theorem ask_scalar {s : State} {n : Name} {a : Nat} {x : SetSym} (hv : s.st.top.vars n = some a) (hx : s.st.heap[a]? = some x) (hs : x.scalar = true) :
    ask s n [] = some x.get := by
  unfold ask find
  rw [hv]
  simp [hx, Attr.testRead, hs, Attr.readVar]

end Verif.SysVar
