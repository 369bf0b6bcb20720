import Verif.CaStmt.Spec
/-!
The variables kept in objects (model) and those kept by name (specification) always look the same. C122.
-/
namespace Verif.CaStmt
open Verif.Context

/-! ### The relation -/

def ScopeRel (heap : List SetSym) (globals : Name → Option Nat) (sc : Scope) (sc' : Spec.Scope) : Prop :=
  sc'.params = sc.params ∧ ∀ n, (sc.vars n = none → sc'.names n = none) ∧ ∀ a, sc.vars n = some a → ∃ x, heap[a]? = some x ∧
    ((x.owner = some (sc.id, n) ∧ sc'.names n = some (.own (seen x))) ∨
      (x.owner = none ∧ globals n = some a ∧ sc'.names n = some .global))

def ScopesRel (heap : List SetSym) (globals : Name → Option Nat) : List Scope → List Spec.Scope → Prop
  | [], [] => True
  | sc :: l, sc' :: l' => ScopeRel heap globals sc sc' ∧ ScopesRel heap globals l l'
  | _, _ => False

theorem ScopesRel.mono {h h' : List SetSym} {g g' : Name → Option Nat} : ∀ {l : List Scope} {l' : List Spec.Scope}, ScopesRel h g l l' →
    (∀ sc ∈ l, ∀ sc', ScopeRel h g sc sc' → ScopeRel h' g' sc sc') → ScopesRel h' g' l l'
  | [], [], _, _ => trivial
  | sc :: l, sc' :: l', hr, hm => ⟨hm sc (by simp) sc' hr.1, ScopesRel.mono hr.2 fun x hx => hm x (by simp [hx])⟩
  | [], _ :: _, hr, _ => hr.elim
  | _ :: _, [], hr, _ => hr.elim

structure Rel (s : St) (σ : Spec.Store) : Prop where
  inv : Inv s
  globNone : ∀ n, s.globals n = none → σ.globals n = none
  globSome : ∀ n a, s.globals n = some a → ∃ x, s.heap[a]? = some x ∧ x.owner = none ∧ σ.globals n = some (seen x)
  here : ScopeRel s.heap s.globals s.top σ.here
  callers : ScopesRel s.heap s.globals s.rest σ.callers
  calls : σ.calls = s.ndx

theorem Rel.report {s : St} {σ : Spec.Store} (h : Rel s σ) (b : Bool) : Rel s (σ.report b) := ⟨h.inv, h.globNone, h.globSome, h.here, h.callers, h.calls⟩

theorem look_report (σ : Spec.Store) (b : Bool) : (σ.report b).look = σ.look := rfl

theorem Rel.top_cases {s : St} {σ : Spec.Store} (h : Rel s σ) (n : Name) :
    (s.top.vars n = none ∧ σ.here.names n = none) ∨
    (∃ a x, s.top.vars n = some a ∧ s.heap[a]? = some x ∧ x.owner = some (s.top.id, n) ∧ σ.here.names n = some (.own (seen x))) ∨
    (∃ a x, s.top.vars n = some a ∧ s.heap[a]? = some x ∧ x.owner = none ∧ s.globals n = some a ∧ σ.here.names n = some .global ∧
      σ.globals n = some (seen x)) := by
  cases hv : s.top.vars n with
  | none => exact Or.inl ⟨rfl, (h.here.2 n).1 hv⟩
  | some a =>
    obtain ⟨x, hx, ⟨h1, h2⟩ | ⟨h1, h2, h3⟩⟩ := (h.here.2 n).2 a hv
    · exact Or.inr (Or.inl ⟨a, x, rfl, hx, h1, h2⟩)
    · obtain ⟨y, hy, _, hz⟩ := h.globSome n a h2
      rw [hx] at hy; cases hy
      exact Or.inr (Or.inr ⟨a, x, rfl, hx, h1, h2, h3, hz⟩)

theorem Rel.view_eq {s : St} {σ : Spec.Store} (h : Rel s σ) : view s = σ.look := by
  funext n
  unfold view St.resolve Spec.Store.look
  rcases h.top_cases n with ⟨h1, h2⟩ | ⟨a, x, h1, h2, _, h3⟩ | ⟨a, x, h1, h2, _, _, h3, h4⟩
  · simp only [h1, h2, h.here.1]
    cases s.top.params n <;> rfl
  · simp only [h1, h2, h3]
  · simp only [h1, h2, h3, h4]

/-- What a name stands for, on both sides. -/
theorem Rel.look_cases {s : St} {σ : Spec.Store} (h : Rel s σ) (n : Name) :
    (s.resolve n = .undef ∧ σ.look n = .undef ∧ s.top.vars n = none ∧ s.top.params n = false) ∨
    (s.resolve n = .param ∧ σ.look n = .param) ∨
    (∃ a x, s.resolve n = .sym a ∧ s.top.vars n = some a ∧ s.heap[a]? = some x ∧ σ.look n = .var (seen x)) := by
  have hv := congrFun h.view_eq n
  rcases h.top_cases n with ⟨h1, h2⟩ | ⟨a, x, h1, h2, _, h3⟩ | ⟨a, x, h1, h2, _, _, h3, h4⟩
  · cases hp : s.top.params n with
    | false =>
      refine Or.inl ⟨by simp [St.resolve, h1, hp], ?_, h1, rfl⟩
      rw [← hv]; simp [view, St.resolve, h1, hp]
    | true =>
      refine Or.inr (Or.inl ⟨by simp [St.resolve, h1, hp], ?_⟩)
      rw [← hv]; simp [view, St.resolve, h1, hp]
  · refine Or.inr (Or.inr ⟨a, x, by simp [St.resolve, h1], h1, h2, ?_⟩)
    rw [← hv]; simp [view, St.resolve, h1, h2]
  · refine Or.inr (Or.inr ⟨a, x, by simp [St.resolve, h1], h1, h2, ?_⟩)
    rw [← hv]; simp [view, St.resolve, h1, h2]

theorem seen_new (ty : Ty) (scalar : Bool) (o : Option (Nat × Name)) : seen { scalar := scalar, ty := ty, owner := o } = Spec.fresh ty scalar := by
  unfold seen Spec.fresh
  congr 1
  funext i
  cases scalar <;> cases i <;> rfl

theorem ScopeRel.append {h : List SetSym} {g : Name → Option Nat} (y : SetSym) {sc : Scope} {sc' : Spec.Scope} (hr : ScopeRel h g sc sc') :
    ScopeRel (h ++ [y]) g sc sc' := by
  refine ⟨hr.1, fun n => ⟨(hr.2 n).1, fun a ha => ?_⟩⟩
  obtain ⟨x, hx, ho⟩ := (hr.2 n).2 a ha
  exact ⟨x, getElem?_append_some hx, ho⟩

theorem rel_newLocal {s : St} {σ : Spec.Store} (h : Rel s σ) (n : Name) (ty : Ty) (scalar : Bool) (hn : s.top.vars n = none)
    (hp : s.top.params n = false) : Rel (s.newLocal n ty scalar) (σ.declare n (Spec.fresh ty scalar)) := by
  refine ⟨inv_newLocal h.inv n ty scalar hn hp, h.globNone, ?_, ?_, ?_, h.calls⟩
  · intro m a hm
    obtain ⟨x, hx, ho⟩ := h.globSome m a hm
    exact ⟨x, getElem?_append_some hx, ho⟩
  · refine ⟨h.here.1, fun m => ?_⟩
    simp only [St.newLocal, upd, Spec.Store.declare, Spec.put]
    by_cases hm : m = n
    · subst hm
      simp only [if_true]
      refine ⟨fun hh => (by cases hh), fun a ha => ?_⟩
      cases ha
      exact ⟨{ scalar := scalar, ty := ty, owner := some (s.top.id, m) }, by simp, Or.inl ⟨rfl, by rw [seen_new]⟩⟩
    · simp only [if_neg hm]
      exact (h.here.append { scalar := scalar, ty := ty, owner := some (s.top.id, n) }).2 m
  · exact h.callers.mono fun sc _ sc' hr => hr.append _

theorem rel_newGlobal {s : St} {σ : Spec.Store} (h : Rel s σ) (n : Name) (ty : Ty) (scalar : Bool) (hn : s.top.vars n = none)
    (hp : s.top.params n = false) (hg : ∀ v, σ.globals n = some v → v.ty = ty ∧ v.scalar = scalar) :
    Rel (s.newGlobal n ty scalar) (Spec.declareOne true ty σ n scalar) := by
  have hu : σ.look n = .undef := by
    rw [← h.view_eq]; simp [view, St.resolve, hn, hp]
  have hinv := inv_newGlobal h.inv n ty scalar hn hp
  have hd : Spec.declareOne true ty σ n scalar = match σ.globals n with
      | none => { σ with globals := Spec.put σ.globals n (some (Spec.fresh ty scalar)), here := { σ.here with names := Spec.put σ.here.names n (some .global) } }
      | some _ => { σ with here := { σ.here with names := Spec.put σ.here.names n (some .global) } } := by
    unfold Spec.declareOne
    simp only [hu, if_true]
    cases hgn : σ.globals n with
    | none => rfl
    | some v => simp only [hg v hgn, and_self, if_true]
  rw [hd]
  cases hs : s.globals n with
  | some a0 =>
    obtain ⟨x0, hx0, ho0, hv0⟩ := h.globSome n a0 hs
    rw [hv0]
    simp only [St.newGlobal, hs] at hinv ⊢
    refine ⟨hinv, h.globNone, h.globSome, ⟨h.here.1, fun m => ?_⟩, h.callers, h.calls⟩
    simp only [upd, Spec.put]
    by_cases hm : m = n
    · subst hm
      simp only [if_true]
      refine ⟨fun hh => (by cases hh), fun a ha => ?_⟩
      cases ha
      exact ⟨x0, hx0, Or.inr ⟨ho0, hs, trivial⟩⟩
    · simp only [if_neg hm]
      exact h.here.2 m
  | none =>
    rw [h.globNone n hs]
    simp only [St.newGlobal, hs] at hinv ⊢
    have lift : ∀ sc sc', ScopeRel s.heap s.globals sc sc' →
        ScopeRel (s.heap ++ [{ scalar := scalar, ty := ty, owner := none }]) (upd s.globals n (some s.heap.length)) sc sc' := by
      intro sc sc' hr
      refine ⟨hr.1, fun m => ⟨(hr.2 m).1, fun a ha => ?_⟩⟩
      obtain ⟨x, hx, ho | ⟨h1, h2, h3⟩⟩ := (hr.2 m).2 a ha
      · exact ⟨x, getElem?_append_some hx, Or.inl ho⟩
      · refine ⟨x, getElem?_append_some hx, Or.inr ⟨h1, ?_, h3⟩⟩
        simp only [upd]
        split
        · next e => subst e; rw [hs] at h2; cases h2
        · exact h2
    refine ⟨hinv, ?_, ?_, ⟨h.here.1, fun m => ?_⟩, h.callers.mono fun sc _ sc' hr => lift sc sc' hr, h.calls⟩
    · intro m hm
      simp only [upd, Spec.put] at hm ⊢
      split at hm
      · cases hm
      · next e => rw [if_neg e]; exact h.globNone m hm
    · intro m a hm
      simp only [upd, Spec.put] at hm ⊢
      split at hm
      · next e =>
        cases hm
        rw [if_pos e]
        exact ⟨{ scalar := scalar, ty := ty, owner := none }, by simp, rfl, by rw [seen_new]⟩
      · next e =>
        rw [if_neg e]
        obtain ⟨x, hx, ho⟩ := h.globSome m a hm
        exact ⟨x, getElem?_append_some hx, ho⟩
    · by_cases hm : m = n
      · subst hm
        simp only [upd, Spec.put, if_true]
        refine ⟨fun hh => (by cases hh), fun a ha => ?_⟩
        cases ha
        exact ⟨{ scalar := scalar, ty := ty, owner := none }, by simp, Or.inr ⟨rfl, rfl, trivial⟩⟩
      · have := (lift _ _ h.here).2 m
        simp only [upd, Spec.put, if_neg hm] at this ⊢
        exact this

/-! ### Assignment -/

theorem seen_setAt (x : SetSym) (v : Val) (k : Nat) : seen (x.setAt v k) = Spec.Var.with (seen x) (if x.scalar then 0 else k + 1) v := by
  unfold seen SetSym.setAt Spec.Var.with
  simp only
  congr 1
  funext i
  cases hs : x.scalar <;> cases i <;> simp [dataFind_set]

theorem modify_at {heap : List SetSym} {a : Nat} {x : SetSym} (hx : heap[a]? = some x) (f : SetSym → SetSym) :
    (heap.modify a f)[a]? = some (f x) := by
  rw [List.getElem?_modify, hx]; simp

theorem modify_ne {heap : List SetSym} {a b : Nat} (h : a ≠ b) (f : SetSym → SetSym) : (heap.modify a f)[b]? = heap[b]? := by
  rw [List.getElem?_modify]; simp [h]

/-- An assignment to what a name stands for. -/
theorem rel_assign {s : St} {σ : Spec.Store} (h : Rel s σ) (n : Name) (a : Nat) (x : SetSym) (hv : s.top.vars n = some a)
    (hx : s.heap[a]? = some x) (k : Nat) (v : Val) (i : Nat) (hi : i = if x.scalar then 0 else k + 1) :
    Rel (s.assign a k [v]) (σ.assign n i v) := by
  have hinv := inv_assign h.inv a k [v]
  have hseen : seen (x.setAt v k) = Spec.Var.with (seen x) i v := by rw [seen_setAt, hi]
  have hat : (s.assign a k [v]).heap[a]? = some (x.setAt v k) := modify_at hx _
  have hne : ∀ b, a ≠ b → (s.assign a k [v]).heap[b]? = s.heap[b]? := fun b hb => modify_ne hb _
  rcases h.top_cases n with ⟨h1, _⟩ | ⟨a', x', h1, h2, h3, h4⟩ | ⟨a', x', h1, h2, h3, h4, h5, h6⟩
  · rw [hv] at h1; cases h1
  · rw [hv] at h1; cases h1
    rw [hx] at h2; cases h2
    have hσ : σ.assign n i v = σ.declare n (Spec.Var.with (seen x) i v) := by simp only [Spec.Store.assign, h4]
    rw [hσ]
    have hglob : ∀ m b, s.globals m = some b → a ≠ b := by
      rintro m b hm rfl
      obtain ⟨y, hy, ho, _⟩ := h.globSome m a hm
      rw [hx] at hy; cases hy
      rw [h3] at ho; cases ho
    refine ⟨hinv, h.globNone, ?_, ⟨h.here.1, fun m => ?_⟩, ?_, h.calls⟩
    · intro m b hm
      obtain ⟨y, hy, ho⟩ := h.globSome m b hm
      exact ⟨y, by rw [hne b (hglob m b hm)]; exact hy, ho⟩
    · simp only [Spec.Store.declare, Spec.put]
      by_cases hm : m = n
      · subst hm
        simp only [if_true]
        refine ⟨fun hh => (by rw [show (s.assign a k [v]).top = s.top from rfl, hv] at hh; cases hh), fun b hb => ?_⟩
        rw [show (s.assign a k [v]).top = s.top from rfl, hv] at hb
        cases hb
        exact ⟨x.setAt v k, hat, Or.inl ⟨h3, by rw [hseen]⟩⟩
      · simp only [if_neg hm]
        refine ⟨(h.here.2 m).1, fun b hb => ?_⟩
        obtain ⟨y, hy, ho⟩ := (h.here.2 m).2 b hb
        have : a ≠ b := by
          rintro rfl
          rw [hx] at hy; cases hy
          rcases ho with ⟨ho, _⟩ | ⟨ho, _⟩
          · rw [h3] at ho; simp at ho; exact hm ho.symm
          · rw [h3] at ho; cases ho
        exact ⟨y, by rw [hne b this]; exact hy, ho⟩
    · refine h.callers.mono fun sc hsc sc' hr => ⟨hr.1, fun m => ⟨(hr.2 m).1, fun b hb => ?_⟩⟩
      obtain ⟨y, hy, ho⟩ := (hr.2 m).2 b hb
      have : a ≠ b := by
        rintro rfl
        rw [hx] at hy; cases hy
        rcases ho with ⟨ho, _⟩ | ⟨ho, _⟩
        · rw [h3] at ho; simp at ho
          have hid := h.inv.ids
          rw [List.map_cons, List.nodup_cons] at hid
          exact hid.1 (List.mem_map.mpr ⟨sc, hsc, ho.1.symm⟩)
        · rw [h3] at ho; cases ho
      exact ⟨y, by rw [hne b this]; exact hy, ho⟩
  · rw [hv] at h1; cases h1
    rw [hx] at h2; cases h2
    have hσ : σ.assign n i v = { σ with globals := Spec.put σ.globals n (some (Spec.Var.with (seen x) i v)) } := by
      simp only [Spec.Store.assign, h5, h6]
    rw [hσ]
    have lift : ∀ sc sc', ScopeRel s.heap s.globals sc sc' → ScopeRel (s.assign a k [v]).heap (s.assign a k [v]).globals sc sc' := by
      intro sc sc' hr
      refine ⟨hr.1, fun m => ⟨(hr.2 m).1, fun b hb => ?_⟩⟩
      obtain ⟨y, hy, ho⟩ := (hr.2 m).2 b hb
      by_cases hab : a = b
      · subst hab
        rw [hx] at hy; cases hy
        rcases ho with ⟨ho, _⟩ | ho
        · rw [h3] at ho; cases ho
        · exact ⟨x.setAt v k, hat, Or.inr ho⟩
      · exact ⟨y, by rw [hne b hab]; exact hy, ho⟩
    refine ⟨hinv, ?_, ?_, lift _ _ h.here, h.callers.mono fun sc _ sc' => lift sc sc', h.calls⟩
    · intro m hm
      simp only [Spec.put]
      split
      · next e => subst e; rw [show (s.assign a k [v]).globals = s.globals from rfl, h4] at hm; cases hm
      · exact h.globNone m hm
    · intro m b hm
      rw [show (s.assign a k [v]).globals = s.globals from rfl] at hm
      simp only [Spec.put]
      split
      · next e =>
        subst e
        rw [h4] at hm; cases hm
        exact ⟨x.setAt v k, hat, h3, by rw [hseen]⟩
      · next e =>
        obtain ⟨y, hy, ho⟩ := h.globSome m b hm
        have : a ≠ b := by
          rintro rfl
          exact e (h.inv.globInj m n a hm h4)
        exact ⟨y, by rw [hne b this]; exact hy, ho⟩

end Verif.CaStmt
