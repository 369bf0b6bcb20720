import Verif.CaStmt.Props
/-!
Every statement keeps the relation between the model and the specification. C122.
-/
namespace Verif.CaStmt
open Verif.Context

/-! ### SETx -/

def idxOf : Option Nat → Int
  | none => -1
  | some i => i

/-- The symbol an assignment goes to. -/
structure Goes (s : St) (n : Name) (sub : Option Nat) (a : Nat) : Prop where
  vars : s.top.vars n = some a
  obj : ∃ x, s.heap[a]? = some x ∧ x.scalar = sub.isNone

theorem Goes.assign {s : St} {n : Name} {sub : Option Nat} {a : Nat} (h : Goes s n sub a) (k : Nat) (vs : List Val) : Goes (s.assign a k vs) n sub a := by
  refine ⟨h.vars, ?_⟩
  obtain ⟨x, hx, hs⟩ := h.obj
  exact ⟨_, modify_at hx _, by rw [(assign_shape vs x k).1, hs]⟩

/-- The place found by the specification and the symbol found by the model are the same. -/
inductive Agree (s : St) (σ : Spec.Store) : Option (Name × Option Nat) → Option (Option Nat × Name × Int) → Prop where
  | none : Agree s σ none none
  | new (n : Name) (sub : Option Nat) (hs : ∀ i, sub = some i → 1 ≤ i) (hu : s.resolve n = .undef) : Agree s σ (some (n, sub)) (some (none, n, idxOf sub))
  | old (n : Name) (sub : Option Nat) (hs : ∀ i, sub = some i → 1 ≤ i) (a : Nat) (hg : Goes s n sub a) (hl : σ.look n ≠ .undef) :
    Agree s σ (some (n, sub)) (some (some a, n, idxOf sub))

theorem testSymbol_place {s : St} {σ : Spec.Store} (h : Rel s σ) (t : Target) (ty : Ty) (hn : (t.name σ.look).isSome) :
    Agree s σ (Spec.place σ t ty) (testSymbol s t ty) := by
  obtain ⟨n, hn⟩ := Option.isSome_iff_exists.mp hn
  have hv := h.view_eq
  unfold Spec.place
  simp only [hn]
  have hfit : ∀ (scalar : Bool) (ty : Ty), (s.resolve n = .undef ∧ Spec.fits (σ.look n) ty scalar = true) ∨
      (s.resolve n = .param ∧ Spec.fits (σ.look n) ty scalar = false) ∨
      ∃ a x, s.resolve n = .sym a ∧ s.top.vars n = some a ∧ s.heap[a]? = some x ∧ σ.look n ≠ .undef ∧
        Spec.fits (σ.look n) ty scalar = (x.ty = ty && x.scalar = scalar) := by
    intro scalar ty
    rcases h.look_cases n with ⟨h1, h2, _⟩ | ⟨h1, h2⟩ | ⟨a, x, h1, h2, h3, h4⟩
    · exact Or.inl ⟨h1, by rw [h2]; rfl⟩
    · exact Or.inr (Or.inl ⟨h1, by rw [h2]; rfl⟩)
    · exact Or.inr (Or.inr ⟨a, x, h1, h2, h3, by rw [h4]; exact fun hh => Look.noConfusion hh, by rw [h4]; rfl⟩)
  rcases hsub : t.subs with _ | ⟨e, _ | ⟨e', es⟩⟩
  · have ht : t.eval (view s) = (n, [], false) := by simp [Target.eval, hv, hn, hsub]
    simp only
    rcases hfit true ty with ⟨h1, h2⟩ | ⟨h1, h2⟩ | ⟨a, x, h1, h2, h3, h4, h5⟩
    · have e : testSymbol s t ty = some (none, n, idxOf none) := by simp [testSymbol, ht, h1, idxOf]
      rw [if_pos h2, e]
      exact .new n none (fun i hi => by cases hi) h1
    · have e : testSymbol s t ty = none := by simp [testSymbol, ht, h1]
      rw [h2, e]
      exact .none
    · rw [h5]
      by_cases hty : x.ty = ty <;> cases hsc : x.scalar
      · have e : testSymbol s t ty = none := by simp [testSymbol, ht, h1, h3, hty, hsc]
        rw [e]; simp only [decide_false, Bool.and_false, Bool.false_eq_true, if_false]
        exact .none
      · have e : testSymbol s t ty = some (some a, n, idxOf none) := by simp [testSymbol, ht, h1, h3, hty, hsc, idxOf]
        rw [e]; simp only [hty, decide_true, Bool.and_self, if_true]
        exact .old n none (fun i hi => by cases hi) a ⟨h2, x, h3, by simp [hsc]⟩ h4
      · have e : testSymbol s t ty = none := by simp [testSymbol, ht, h1, h3, hty]
        rw [e]; simp only [hty, decide_false, Bool.false_and, Bool.false_eq_true, if_false]
        exact .none
      · have e : testSymbol s t ty = none := by simp [testSymbol, ht, h1, h3, hty]
        rw [e]; simp only [hty, decide_false, Bool.false_and, Bool.false_eq_true, if_false]
        exact .none
  · have ht : t.eval (view s) = (n, [(e σ.look).1], (e σ.look).2) := by simp [Target.eval, hv, hn, hsub]
    simp only
    by_cases hi : 1 ≤ (e σ.look).1
    · have hi' : ¬ (e σ.look).1 < 1 := by omega
      have hidx : idxOf (some (e σ.look).1.toNat) = (e σ.look).1 := by simp only [idxOf]; omega
      have hsub' : ∀ i, some (e σ.look).1.toNat = some i → 1 ≤ i := by
        intro i hh; cases hh; omega
      simp only [hi, true_and]
      rcases hfit false ty with ⟨h1, h2⟩ | ⟨h1, h2⟩ | ⟨a, x, h1, h2, h3, h4, h5⟩
      · have e : testSymbol s t ty = some (none, n, idxOf (some (e σ.look).1.toNat)) := by
          rw [hidx]; simp [testSymbol, ht, h1, hi']
        rw [if_pos h2, e]
        exact .new n _ hsub' h1
      · have e : testSymbol s t ty = none := by simp [testSymbol, ht, h1]
        rw [h2, e]
        exact .none
      · rw [h5]
        by_cases hty : x.ty = ty <;> cases hsc : x.scalar
        · have e : testSymbol s t ty = some (some a, n, idxOf (some (e σ.look).1.toNat)) := by
            rw [hidx]; simp [testSymbol, ht, h1, h3, hty, hsc, hi']
          rw [e]; simp only [hty, decide_true, Bool.and_self, if_true]
          exact .old n _ hsub' a ⟨h2, x, h3, by simp [hsc]⟩ h4
        · have e : testSymbol s t ty = none := by simp [testSymbol, ht, h1, h3, hty, hsc, hi']
          rw [e]; simp only [Bool.true_eq_false, decide_false, Bool.and_false, Bool.false_eq_true, if_false]
          exact .none
        · have e : testSymbol s t ty = none := by simp [testSymbol, ht, h1, h3, hty, hi']
          rw [e]; simp only [hty, decide_false, Bool.false_and, Bool.false_eq_true, if_false]
          exact .none
        · have e : testSymbol s t ty = none := by simp [testSymbol, ht, h1, h3, hty, hi']
          rw [e]; simp only [hty, decide_false, Bool.false_and, Bool.false_eq_true, if_false]
          exact .none
    · have hi' : (e σ.look).1 < 1 := by omega
      have e : testSymbol s t ty = none := by simp [testSymbol, ht, hi']
      rw [if_neg (fun hh => hi hh.1), e]
      exact .none
  · have ht : t.eval (view s) = (n, (e σ.look).1 :: (e' σ.look).1 :: es.map (fun e => (e σ.look).1), t.subs.any fun e => (e σ.look).2) := by
      simp [Target.eval, hv, hn, hsub]
    have e : testSymbol s t ty = none := by simp [testSymbol, ht]
    rw [e]
    exact .none

theorem getSymbol_rel {s : St} {σ : Spec.Store} (h : Rel s σ) (n : Name) (sub : Option Nat) (ty : Ty) (r : Option Nat × Name × Int)
    (hr : (s.resolve n = .undef ∧ r = (none, n, idxOf sub)) ∨ ∃ a, Goes s n sub a ∧ σ.look n ≠ .undef ∧ r = (some a, n, idxOf sub)) :
    Rel (getSymbol s ty r).2 (Spec.ensure σ (n, sub) ty) ∧ Goes (getSymbol s ty r).2 n sub (getSymbol s ty r).1 ∧
      (getSymbol s ty r).2.rest = s.rest := by
  rcases hr with ⟨hu, rfl⟩ | ⟨a, hg, hl, rfl⟩
  · obtain ⟨h1, h2⟩ := resolve_undef hu
    have hl : σ.look n = .undef := by rw [← h.view_eq]; simp [view, hu]
    have hsc : (idxOf sub == -1) = sub.isNone := by
      cases sub with
      | none => rfl
      | some i => simp only [idxOf, Option.isNone_some, beq_eq_false_iff_ne]; omega
    simp only [getSymbol, Spec.ensure, hl, hsc]
    refine ⟨rel_newLocal h n ty _ h1 h2, ⟨by simp [St.newLocal, upd], _, by simp only [St.newLocal]; exact List.getElem?_concat_length, rfl⟩, rfl⟩
  · have : Spec.ensure σ (n, sub) ty = σ := by
      unfold Spec.ensure
      cases hh : σ.look n with
      | undef => exact absurd hh hl
      | param => rfl
      | var v => rfl
    simp only [getSymbol]
    rw [this]
    exact ⟨h, hg, trivial⟩

/-- Assigning in the model and in the specification. -/
theorem assign_goes {s : St} {σ : Spec.Store} (h : Rel s σ) {n : Name} {sub : Option Nat} {a : Nat} (hg : Goes s n sub a)
    (hs : ∀ i, sub = some i → 1 ≤ i) (k : Nat) (v : Val) :
    Rel (s.assign a (idxOf sub - 1 + k).toNat [v]) (σ.assign n (Spec.index sub k) v) := by
  obtain ⟨x, hx, hsc⟩ := hg.obj
  refine rel_assign h n a x hg.vars hx _ v _ ?_
  cases sub with
  | none => simp [hsc, Spec.index]
  | some i =>
    have := hs i rfl
    simp only [hsc, Spec.index, idxOf, Option.isNone_some, Bool.false_eq_true, if_false]
    omega

def exprsOf (ops : List SetOp) : List (View → Val × Bool) := ops.filterMap SetOp.expr?

theorem empties : ∀ (ops : List SetOp), ops.all Spec.isBlank = true →
    exprsOf ops = [] ∧ ∀ n sub k σ, Spec.assignOps n sub k ops σ = σ
  | [], _ => ⟨rfl, fun _ _ _ _ => rfl⟩
  | .empty :: ops, h => by
    obtain ⟨h1, h2⟩ := empties ops (by simpa [Spec.isBlank] using h)
    exact ⟨h1, fun n sub k σ => h2 n sub (k + 1) σ⟩
  | .expr _ :: _, h => by simp [Spec.isBlank] at h
  | .other :: _, h => by simp [Spec.isBlank] at h

theorem assignAll_rel (n : Name) (sub : Option Nat) (a : Nat) (hs : ∀ i, sub = some i → 1 ≤ i) : ∀ (ops : List SetOp) (k : Nat) (s : St) (σ : Spec.Store),
    Rel s σ → Goes s n sub a → Spec.noGap ops = true → ops.any Spec.isOther = false → ∀ rep,
    Rel (assignAll a (idxOf sub) k (exprsOf ops) (s, rep)).1 (Spec.assignOps n sub k ops σ) ∧
    (σ.reported = rep → (Spec.assignOps n sub k ops σ).reported = (assignAll a (idxOf sub) k (exprsOf ops) (s, rep)).2) ∧
    (Spec.assignOps n sub k ops σ).recs = σ.recs
  | [], _, _, _, h, _, _, _, _ => ⟨h, fun hr => hr, rfl⟩
  | .expr e :: ops, k, s, σ, h, hg, hgap, ho, rep => by
    have hv := h.view_eq
    have h' := (assign_goes h hg hs k (e σ.look).1).report (e σ.look).2
    have ih := assignAll_rel n sub a hs ops (k + 1) _ _ h' (hg.assign _ _) (by simpa [Spec.noGap] using hgap)
      (by simpa [Spec.isOther] using ho) (rep || (e σ.look).2)
    have e1 : exprsOf (.expr e :: ops) = e :: exprsOf ops := rfl
    have hrec : ∀ (σ : Spec.Store) (n i x), (σ.assign n i x).recs = σ.recs ∧ (σ.assign n i x).reported = σ.reported := by
      intro σ n i x
      unfold Spec.Store.assign
      split
      · exact ⟨rfl, rfl⟩
      · split <;> exact ⟨rfl, rfl⟩
      · exact ⟨rfl, rfl⟩
    rw [e1]
    simp only [assignAll, Spec.assignOps, hv]
    refine ⟨ih.1, fun hr => ih.2.1 ?_, ih.2.2.trans (hrec σ _ _ _).1⟩
    simp only [Spec.Store.report, (hrec σ _ _ _).2, hr]
  | .empty :: ops, k, s, σ, h, _, hgap, _, rep => by
    have hgap' : ops.all Spec.isBlank = true := by simpa [Spec.noGap] using hgap
    obtain ⟨h1, h2⟩ := empties ops hgap'
    have e1 : exprsOf (.empty :: ops) = [] := h1
    have e2 : Spec.assignOps n sub k (.empty :: ops) σ = σ := h2 n sub (k + 1) σ
    rw [e1, e2]
    exact ⟨h, fun hr => hr, rfl⟩
  | .other :: ops, _, _, _, _, _, _, ho, _ => by simp [Spec.isOther] at ho

theorem setOperands_eq (ops : List SetOp) : setOperands ops =
    if ops.any Spec.isOther = false ∧ ops.any Spec.isExpr = true then some (exprsOf ops) else none := by
  have h1 : ops.any SetOp.isOther = ops.any Spec.isOther := by
    congr 1
  have h2 : ∀ ops : List SetOp, (exprsOf ops).isEmpty = !ops.any Spec.isExpr := by
    intro ops
    induction ops with
    | nil => rfl
    | cons o ops ih =>
      cases o with
      | empty => rw [show exprsOf (.empty :: ops) = exprsOf ops from rfl, ih]; rfl
      | expr e => simp [exprsOf, Spec.isExpr, SetOp.expr?]
      | other => rw [show exprsOf (.other :: ops) = exprsOf ops from rfl, ih]; rfl
  change (if ops.any SetOp.isOther = true then none else if (exprsOf ops).isEmpty then none else some (exprsOf ops)) = _
  rw [h1, h2]
  cases ops.any Spec.isOther <;> cases ops.any Spec.isExpr <;> rfl

theorem count_pos (ops : List SetOp) (h : ops.any Spec.isExpr = true) : 1 ≤ (ops.filter Spec.isExpr).length := by
  obtain ⟨o, ho, he⟩ := List.any_eq_true.mp h
  have : o ∈ ops.filter Spec.isExpr := List.mem_filter.mpr ⟨ho, he⟩
  exact List.length_pos_of_mem this

theorem ensure_keeps (σ : Spec.Store) (p : Name × Option Nat) (ty : Ty) : (Spec.ensure σ p ty).recs = σ.recs ∧ (Spec.ensure σ p ty).reported = σ.reported ∧
    (Spec.ensure σ p ty).callers = σ.callers := by
  unfold Spec.ensure
  split <;> exact ⟨rfl, rfl, rfl⟩

/-- SETx. -/
theorem set_rel {s : St} {σ : Spec.Store} (h : Rel s σ) (ty : Ty) (label : Label) (ops : List SetOp) (hr : Spec.Regular σ (.set ty label ops)) :
    Rel (processSet s ty label ops).1 (Spec.setStmt σ ty label ops) ∧
    (Spec.setStmt σ ty label ops).reported = (σ.reported || (processSet s ty label ops).2) ∧ (Spec.setStmt σ ty label ops).recs = σ.recs := by
  cases label with
  | empty => exact ⟨h.report true, rfl, rfl⟩
  | seq => exact ⟨h.report true, rfl, rfl⟩
  | other => exact ⟨h.report true, rfl, rfl⟩
  | var t =>
    obtain ⟨hn, hreg⟩ := hr
    have key := testSymbol_place h t ty hn
    simp only [processSet, Spec.setStmt]
    rcases hp : Spec.place σ t ty with _ | ⟨n, sub⟩
    · rw [hp] at key
      generalize ho : testSymbol s t ty = o at key ⊢
      cases key
      exact ⟨h.report true, by simp [Spec.Store.report], rfl⟩
    · rw [hp] at key
      obtain ⟨hgap, hnew, hone⟩ := hreg _ hp
      have hd : (t.eval (view s)).2.2 = Spec.subsReported σ t := by
        rw [h.view_eq]
        have : (t.name σ.look).isNone = false := by
          cases hh : t.name σ.look with
          | none => rw [show Spec.namedOk σ (.var t) = ((t.name σ.look).isSome = true) from rfl, hh] at hn; cases hn
          | some _ => rfl
        simp only [Target.eval, this, Spec.subsReported, Bool.false_or]
      obtain ⟨hs, r, htest, hrr⟩ : (∀ i, sub = some i → 1 ≤ i) ∧ ∃ r, testSymbol s t ty = some r ∧
          ((s.resolve n = .undef ∧ r = (none, n, idxOf sub)) ∨ ∃ a, Goes s n sub a ∧ σ.look n ≠ .undef ∧ r = (some a, n, idxOf sub)) := by
        generalize ho : testSymbol s t ty = o at key ⊢
        cases key with
        | new _ _ hs hu => exact ⟨hs, _, rfl, Or.inl ⟨hu, rfl⟩⟩
        | old _ _ hs a hg hl => exact ⟨hs, _, rfl, Or.inr ⟨a, hg, hl, rfl⟩⟩
      have hidx : r.2.2 = idxOf sub := by
        rcases hrr with ⟨_, rfl⟩ | ⟨a, _, _, rfl⟩ <;> rfl
      obtain ⟨g1, g2, _⟩ := getSymbol_rel h n sub ty r hrr
      simp only [htest, setOperands_eq, hidx]
      by_cases hop : ops.any Spec.isOther = false ∧ ops.any Spec.isExpr = true
      · have hprop : Spec.proper ops sub = true := by
          simp only [Spec.proper, hop.1, hop.2, Bool.not_false, Bool.true_and]
          cases sub with
          | some i => rfl
          | none =>
            have a1 := hone rfl
            have a2 := count_pos ops hop.2
            simp only [Option.isSome_none, Bool.false_or, beq_iff_eq]
            omega
        simp only [if_pos hop, hprop, if_true]
        have main := assignAll_rel n sub (getSymbol s ty r).1 hs ops 0 _ _ (g1.report (Spec.subsReported σ t)) g2 hgap hop.1
        have ek := ensure_keeps σ (n, sub) ty
        rw [hd]
        refine ⟨(main _).1, ?_, ?_⟩
        · -- the flag carried along
          have e := (main (σ.reported || Spec.subsReported σ t)).2.1 (by simp only [Spec.Store.report, ek.2.1])
          rw [e]
          have comm : ∀ (es : List (View → Val × Bool)) (a : Nat) (idx : Int) (k : Nat) (s : St) (b c : Bool),
              (assignAll a idx k es (s, b || c)).2 = (b || (assignAll a idx k es (s, c)).2) := by
            intro es
            induction es with
            | nil => intro a idx k s b c; rfl
            | cons e es ih =>
              intro a idx k s b c
              simp only [assignAll]
              rw [Bool.or_assoc, ih]
          exact comm _ _ _ _ _ _ _
        · exact (main false).2.2.trans ek.1
      · have hprop : Spec.proper ops sub = false := by
          cases h1 : ops.any Spec.isOther with
          | true => simp [Spec.proper, h1]
          | false =>
            cases h2 : ops.any Spec.isExpr with
            | false => simp [Spec.proper, h2]
            | true => exact absurd ⟨h1, h2⟩ hop
        simp only [if_neg hop, hprop, Bool.false_eq_true, if_false]
        refine ⟨?_, by simp [Spec.Store.report], rfl⟩
        rcases hrr with ⟨hu, rfl⟩ | ⟨a, _, _, rfl⟩
        · exact absurd (hnew n sub rfl (by rw [← h.view_eq]; simp [view, hu])) hop
        · exact h.report true

end Verif.CaStmt
