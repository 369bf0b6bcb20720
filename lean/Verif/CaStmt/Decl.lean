import Verif.CaStmt.Stmts
/-!
Declarations, AREAD, macro calls. C122.
-/
namespace Verif.CaStmt
open Verif.Context

/-! ### LCLx and GBLx -/

theorem declLoop_none (s : St) : ∀ (ops : List DeclOp) (r : List (Name × Bool) × Bool), declLoop s ops r = none ↔ ops.any Spec.declIsOther = true
  | [], r => by simp [declLoop]
  | .empty :: ops, r => by simpa [declLoop, Spec.declIsOther] using declLoop_none s ops r
  | .other :: ops, r => by simp [declLoop, Spec.declIsOther]
  | .var t :: ops, (ids, rep) => by
    simp only [declLoop, List.any_cons, Spec.declIsOther, Bool.false_or]
    split
    · exact declLoop_none s ops _
    · split
      · exact declLoop_none s ops _
      · split <;> exact declLoop_none s ops _

/-- One more variable is created. -/
theorem create_rel {s : St} {σ : Spec.Store} (h : Rel s σ) (glob : Bool) (ty : Ty) (n : Name) (scalar : Bool) (hu : s.resolve n = .undef)
    (hg : glob = true → ∀ v, σ.globals n = some v → v.ty = ty ∧ v.scalar = scalar) :
    Rel (create glob ty s (n, scalar)) (Spec.declareOne glob ty σ n scalar) ∧
    (∀ m, (create glob ty s (n, scalar)).resolve m = .undef ↔ s.resolve m = .undef ∧ m ≠ n) ∧
    (Spec.declareOne glob ty σ n scalar).reported = σ.reported ∧ (Spec.declareOne glob ty σ n scalar).recs = σ.recs ∧
    ∀ m, m ≠ n → (Spec.declareOne glob ty σ n scalar).globals m = σ.globals m := by
  obtain ⟨h1, h2⟩ := resolve_undef hu
  have hl : σ.look n = .undef := by rw [← h.view_eq]; simp [view, hu]
  have hres : ∀ (s' : St) (a : Nat), s'.top.vars = upd s.top.vars n (some a) → s'.top.params = s.top.params →
      ∀ m, s'.resolve m = .undef ↔ s.resolve m = .undef ∧ m ≠ n := by
    intro s' a e1 e2 m
    unfold St.resolve
    rw [e1, e2]
    simp only [upd]
    by_cases hm : m = n
    · simp [hm]
    · simp [hm]
  cases glob with
  | false =>
    simp only [create, h1, Bool.false_eq_true, if_false, Spec.declareOne, hl]
    exact ⟨rel_newLocal h n ty scalar h1 h2, hres _ s.heap.length rfl rfl, rfl, rfl, fun _ _ => rfl⟩
  | true =>
    simp only [create, h1, if_true]
    refine ⟨rel_newGlobal h n ty scalar h1 h2 (hg rfl), ?_, ?_⟩
    · cases hs : s.globals n with
      | none => exact hres _ s.heap.length (by simp [St.newGlobal, hs]) (by simp [St.newGlobal, hs])
      | some a => exact hres _ a (by simp [St.newGlobal, hs]) (by simp [St.newGlobal, hs])
    · simp only [Spec.declareOne, hl, if_true]
      cases hgn : σ.globals n with
      | none => exact ⟨rfl, rfl, fun m hm => by simp [Spec.put, hm]⟩
      | some v =>
        simp only [hg rfl v hgn, and_self, if_true]
        exact ⟨trivial, trivial, fun _ _ => trivial⟩

theorem declareOps_rel (glob : Bool) (ty : Ty) (s : St) (σ : Spec.Store) (h : Rel s σ) : ∀ (ops : List DeclOp) (l : List (Name × Bool)) (σl : Spec.Store) (rep : Bool),
    Rel (l.foldl (create glob ty) s) σl →
    (∀ m, (l.foldl (create glob ty) s).resolve m = .undef ↔ s.resolve m = .undef ∧ l.any (·.1 = m) = false) →
    (∀ m, l.any (·.1 = m) = false → σl.globals m = σ.globals m) →
    (glob = true → ∀ t n v, DeclOp.var t ∈ ops → t.name σ.look = some n → (σ.look n matches .undef) = true → σ.globals n = some v →
      v.ty = ty ∧ v.scalar = t.subs.isEmpty) →
    σl.reported = (σ.reported || rep) → σl.recs = σ.recs →
    ∀ ids rep', declLoop s ops (l, rep) = some (ids, rep') →
      Rel (ids.foldl (create glob ty) s) (Spec.declareOps glob ty σ.look ops σl) ∧
      (Spec.declareOps glob ty σ.look ops σl).reported = (σ.reported || rep') ∧ (Spec.declareOps glob ty σ.look ops σl).recs = σ.recs
  | [], l, σl, rep, hr, _, _, _, hrep, hrec, ids, rep', he => by
    simp only [declLoop, Option.some.injEq, Prod.mk.injEq] at he
    obtain ⟨rfl, rfl⟩ := he
    exact ⟨hr, hrep, hrec⟩
  | .empty :: ops, l, σl, rep, hr, hres, hgl, hreg, hrep, hrec, ids, rep', he =>
    declareOps_rel glob ty s σ h ops l σl rep hr hres hgl (fun hg t n v ht => hreg hg t n v (by simp [ht])) hrep hrec ids rep' he
  | .other :: ops, l, σl, rep, hr, hres, hgl, hreg, hrep, hrec, ids, rep', he => by simp [declLoop] at he
  | .var t :: ops, l, σl, rep, hr, hres, hgl, hreg, hrep, hrec, ids, rep', he => by
    have hreg' : glob = true → ∀ t n v, DeclOp.var t ∈ ops → t.name σ.look = some n → (σ.look n matches .undef) = true → σ.globals n = some v →
        v.ty = ty ∧ v.scalar = t.subs.isEmpty := fun hg t n v ht => hreg hg t n v (by simp [ht])
    have hrept : ∀ b, (σl.report b).reported = (σ.reported || (rep || b)) := by
      intro b; simp only [Spec.Store.report, hrep, Bool.or_assoc]
    rw [declLoop, h.view_eq] at he
    cases hn : t.name σ.look with
    | none =>
      simp only [hn, Option.isNone_none, if_true] at he
      simp only [Spec.declareOps, hn]
      exact declareOps_rel glob ty s σ h ops l σl.report true (hr.report true) hres hgl hreg'
        (by simp [Spec.Store.report]) hrec ids rep' he
    | some n =>
      have hev : t.eval σ.look = (n, t.subs.map (fun e => (e σ.look).1), t.subs.any fun e => (e σ.look).2) := by simp [Target.eval, hn]
      simp only [hn, hev, Option.isNone_some, Bool.false_eq_true, if_false] at he
      simp only [Spec.declareOps, hn]
      by_cases hu : s.resolve n = .undef ∧ l.any (·.1 = n) = false
      · -- declared
        have hu' := (hres n).mpr hu
        rw [if_neg (by simp [hu.1]), if_neg (by rw [hu.2]; simp)] at he
        have hlook : (σ.look n matches .undef) = true := by rw [← h.view_eq]; simp [view, hu.1]
        obtain ⟨c1, c2, c3, c4, c5⟩ := create_rel hr glob ty n t.subs.isEmpty hu' (fun hg v hv => by
          rw [hgl n hu.2] at hv
          exact hreg hg t n v (by simp) hn hlook hv)
        have hemp : (t.subs.map (fun e => (e σ.look).1)).isEmpty = t.subs.isEmpty := by cases t.subs <;> rfl
        rw [hemp] at he
        have hany : ∀ m, (l ++ [(n, t.subs.isEmpty)]).any (·.1 = m) = false ↔ l.any (·.1 = m) = false ∧ m ≠ n := by
          intro m
          rw [List.any_append, Bool.or_eq_false_iff]
          simp only [List.any_cons, List.any_nil, Bool.or_false, decide_eq_false_iff_not]
          exact ⟨fun hh => ⟨hh.1, fun e => hh.2 e.symm⟩, fun hh => ⟨hh.1, fun e => hh.2 e.symm⟩⟩
        refine declareOps_rel glob ty s σ h ops (l ++ [(n, t.subs.isEmpty)]) _ _ ?_ ?_ ?_ hreg' ?_ ?_ ids rep' he
        · rw [List.foldl_append]; exact c1.report _
        · intro m
          rw [List.foldl_append, hany]
          exact (c2 m).trans ⟨fun hh => ⟨((hres m).mp hh.1).1, ((hres m).mp hh.1).2, hh.2⟩, fun hh => ⟨(hres m).mpr ⟨hh.1, hh.2.1⟩, hh.2.2⟩⟩
        · intro m hm
          have := (hany m).mp hm
          exact (c5 m this.2).trans (hgl m this.1)
        · simp only [Spec.Store.report, c3, hrep, Bool.or_assoc]
        · exact c4.trans hrec
      · -- known already
        have hne : (l.foldl (create glob ty) s).resolve n ≠ .undef := fun hh => hu ((hres n).mp hh)
        have hnl : Spec.declareOne glob ty σl n t.subs.isEmpty = σl.report := by
          have : σl.look n ≠ .undef := by
            rcases hr.look_cases n with ⟨a1, _⟩ | ⟨_, a2⟩ | ⟨a, x, _, _, _, a2⟩
            · exact absurd a1 hne
            · rw [a2]; exact fun hh => Look.noConfusion hh
            · rw [a2]; exact fun hh => Look.noConfusion hh
          unfold Spec.declareOne
          cases hh : σl.look n with
          | undef => exact absurd hh this
          | param => rfl
          | var v => rfl
        rw [hnl]
        have he' : declLoop s ops (l, true) = some (ids, rep') := by
          by_cases h1 : s.resolve n = .undef
          · have h2 : l.any (·.1 = n) = true := by
              cases hh : l.any (·.1 = n) with
              | true => rfl
              | false => exact absurd ⟨h1, hh⟩ hu
            rw [if_neg (by simp [h1]), if_pos h2] at he
            exact he
          · rw [if_pos h1] at he
            exact he
        exact declareOps_rel glob ty s σ h ops l _ true ((hr.report true).report _) hres hgl hreg'
          (by simp [Spec.Store.report]) hrec ids rep' he'

theorem all_empty (ops : List DeclOp) (h : ops.any Spec.declIsOther = false) : ops.all DeclOp.isEmpty = !ops.any Spec.declIsVar := by
  induction ops with
  | nil => rfl
  | cons o ops ih =>
    rw [List.any_cons, Bool.or_eq_false_iff] at h
    rw [List.all_cons, List.any_cons, ih h.2]
    cases o with
    | empty => simp [DeclOp.isEmpty, Spec.declIsVar]
    | var t => simp [DeclOp.isEmpty, Spec.declIsVar]
    | other => simp [Spec.declIsOther] at h

/-- LCLx and GBLx. -/
theorem decl_rel {s : St} {σ : Spec.Store} (h : Rel s σ) (glob : Bool) (ty : Ty) (label : Label) (ops : List DeclOp)
    (hr : Spec.Regular σ (.decl glob ty label ops)) :
    Rel (processDecl s glob ty label ops).1 (Spec.declStmt σ glob ty label ops) ∧
    (Spec.declStmt σ glob ty label ops).reported = (σ.reported || (processDecl s glob ty label ops).2) ∧
    (Spec.declStmt σ glob ty label ops).recs = σ.recs := by
  have hlab : labelReported label = Spec.labelWrong label := by cases label <;> rfl
  unfold processDecl Spec.declStmt
  cases ho : ops.any Spec.declIsOther with
  | true =>
    simp only [(declLoop_none s ops _).mpr ho, true_or, if_true]
    exact ⟨h.report true, rfl, rfl⟩
  | false =>
    cases hl : declLoop s ops ([], labelReported label) with
    | none => rw [(declLoop_none s ops _).mp hl] at ho; cases ho
    | some r =>
      obtain ⟨ids, rep'⟩ := r
      simp only [all_empty ops ho]
      cases hv : ops.any Spec.declIsVar with
      | false =>
        simp only [Bool.not_false, if_true, or_true]
        exact ⟨h.report true, rfl, rfl⟩
      | true =>
        simp only [Bool.not_true, Bool.false_eq_true, if_false, Bool.true_eq_false, or_self]
        exact declareOps_rel glob ty s σ h ops [] (σ.report (Spec.labelWrong label)) (labelReported label) (h.report _)
          (fun m => by simp) (fun m _ => rfl) hr (by rw [hlab]; rfl) rfl ids rep' hl

/-! ### AREAD -/

theorem toDec_lt (n : Nat) (h : n < 10) : toDec n = [48 + UInt8.ofNat n] := by rw [toDec, if_pos h]

theorem toDec_ge (n : Nat) (h : ¬ n < 10) : toDec n = toDec (n / 10) ++ [48 + UInt8.ofNat (n % 10)] := by rw [toDec, if_neg h]

theorem digits_zero : ∀ k, Spec.digits k 0 = List.replicate k 48
  | 0 => rfl
  | k + 1 => by
    rw [Spec.digits, Nat.zero_div, digits_zero k, List.replicate_succ']
    rfl

theorem digit_eq (n : Nat) (h : n < 10) : (48 + UInt8.ofNat n : UInt8) = UInt8.ofNat (48 + n) := by
  have : ∀ n : Fin 10, (48 + UInt8.ofNat n.val : UInt8) = UInt8.ofNat (48 + n.val) := by decide
  exact this ⟨n, h⟩

theorem zeroPad_digits : ∀ (k m : Nat), m < 10 ^ (k + 1) → zeroPad (toDec m) (k + 1) = Spec.digits (k + 1) m
  | 0, m, h => by
    have h' : m < 10 := by simpa using h
    rw [toDec_lt m h', digit_eq m h']
    simp [zeroPad, Spec.digits, Nat.mod_eq_of_lt h']
  | k + 1, m, h => by
    by_cases hm : m < 10
    · rw [toDec_lt m hm, digit_eq m hm, Spec.digits, Nat.div_eq_of_lt hm, digits_zero, Nat.mod_eq_of_lt hm]
      simp [zeroPad]
    · have ih := zeroPad_digits k (m / 10) (by
        rw [Nat.div_lt_iff_lt_mul (by decide)]
        rw [Nat.pow_succ] at h
        exact h)
      rw [toDec_ge m hm, Spec.digits, ← ih, digit_eq _ (Nat.mod_lt _ (by decide))]
      simp [zeroPad, List.append_assoc]

theorem clockb_eq (ns : Nat) (h : ns < 24 * 60 * 60 * 1000000000) : clockb ns = Spec.timeB ns := by
  unfold clockb Spec.timeB
  have e : ns / 1000000 / 10 = ns / 10000000 := by omega
  rw [e]
  exact zeroPad_digits 7 _ (by omega)

theorem clockd_eq (ns : Nat) (h : ns < 24 * 60 * 60 * 1000000000) : clockd ns = Spec.timeD ns := by
  unfold clockd Spec.timeD
  have e1 : ns / 10000000 / 100 / 60 / 60 = ns / 3600000000000 := by omega
  have e2 : ns / 10000000 / 100 / 60 % 60 = ns / 60000000000 % 60 := by omega
  have e3 : ns / 10000000 / 100 % 60 = ns / 1000000000 % 60 := by omega
  have e4 : ns / 10000000 % 100 = ns / 1000000 % 1000 / 10 := by omega
  simp only [e1, e2, e3, e4]
  rw [zeroPad_digits 1 _ (by omega), zeroPad_digits 1 _ (by omega), zeroPad_digits 1 _ (by omega), zeroPad_digits 1 _ (by omega)]

theorem variant_eq (ops : List ReadOp) (h : 1 < ops.length → ∀ n, ops.head? ≠ some (.sym n)) : variant ops = Spec.source ops := by
  rcases ops with _ | ⟨o, _ | ⟨o', ops⟩⟩
  · rfl
  · cases o <;> rfl
  · have h := h (by simp)
    cases o with
    | sym n => exact absurd rfl (h n)
    | other => cases o' <;> rfl
    | empty => cases o' <;> cases ops <;> rfl

theorem callers_empty {s : St} {σ : Spec.Store} (h : Rel s σ) : σ.callers.isEmpty = s.rest.isEmpty := by
  have := h.callers
  cases hr : s.rest <;> cases hc : σ.callers <;> simp_all [ScopesRel]

theorem headD_next (l : List Bytes) : nextRecord l = (l.headD [], l.tail) := by cases l <;> rfl

/-- The model and the specification are in step. -/
structure InStep (s : State) (σ : Spec.Store) : Prop where
  rel : Rel s.st σ
  recs : σ.recs = s.recs
  rep : σ.reported = s.rep

theorem assign_keeps (σ : Spec.Store) (n : Name) (i : Nat) (x : Val) : (σ.assign n i x).recs = σ.recs ∧ (σ.assign n i x).reported = σ.reported := by
  unfold Spec.Store.assign
  split
  · exact ⟨rfl, rfl⟩
  · split <;> exact ⟨rfl, rfl⟩
  · exact ⟨rfl, rfl⟩

theorem InStep.report {s : State} {σ : Spec.Store} (h : InStep s σ) : InStep { s with rep := true } σ.report :=
  ⟨h.rel.report true, h.recs, by simp [Spec.Store.report]⟩

theorem aread_rel {s : State} {σ : Spec.Store} (h : InStep s σ) (label : Label) (ops : List ReadOp) (now : Nat)
    (hr : Spec.Regular σ (.aread label ops now)) : InStep (processAread s label ops now) (Spec.areadStmt σ label ops now) := by
  obtain ⟨hn, hop, hnow⟩ := hr
  have hvar := variant_eq ops hop
  unfold processAread Spec.areadStmt
  rw [← hvar]
  cases label with
  | empty => cases variant ops <;> exact h.report
  | seq => cases variant ops <;> exact h.report
  | other => cases variant ops <;> exact h.report
  | var t =>
    simp only
    cases hw : variant ops with
    | none => cases s.st.rest.isEmpty <;> exact h.report
    | some w =>
      simp only [callers_empty h.rel]
      cases s.st.rest.isEmpty with
      | true => exact h.report
      | false =>
        simp only [Bool.false_eq_true, if_false]
        have key := testSymbol_place h.rel t .C hn
        rcases hp : Spec.place σ t .C with _ | ⟨n, sub⟩
        · rw [hp] at key
          generalize ho : testSymbol s.st t .C = o at key ⊢
          cases key
          exact h.report
        · rw [hp] at key
          have hd : (t.eval (view s.st)).2.2 = Spec.subsReported σ t := by
            rw [h.rel.view_eq]
            have : (t.name σ.look).isNone = false := by
              cases hh : t.name σ.look with
              | none => rw [show Spec.namedOk σ (.var t) = ((t.name σ.look).isSome = true) from rfl, hh] at hn; cases hn
              | some _ => rfl
            simp only [Target.eval, this, Spec.subsReported, Bool.false_or]
          obtain ⟨hs, r, htest, hrr⟩ : (∀ i, sub = some i → 1 ≤ i) ∧ ∃ r, testSymbol s.st t .C = some r ∧
              ((s.st.resolve n = .undef ∧ r = (none, n, idxOf sub)) ∨ ∃ a, Goes s.st n sub a ∧ σ.look n ≠ .undef ∧ r = (some a, n, idxOf sub)) := by
            generalize ho : testSymbol s.st t .C = o at key ⊢
            cases key with
            | new _ _ hs hu => exact ⟨hs, _, rfl, Or.inl ⟨hu, rfl⟩⟩
            | old _ _ hs a hg hl => exact ⟨hs, _, rfl, Or.inr ⟨a, hg, hl, rfl⟩⟩
          have hidx : r.2.2 = idxOf sub := by
            rcases hrr with ⟨_, rfl⟩ | ⟨a, _, _, rfl⟩ <;> rfl
          obtain ⟨g1, g2, _⟩ := getSymbol_rel h.rel n sub .C r hrr
          have ek := ensure_keeps σ (n, sub) .C
          have main : ∀ v, Rel ((getSymbol s.st .C r).2.assign (getSymbol s.st .C r).1 (r.2.2 - 1).toNat [.c v])
              ((Spec.ensure σ (n, sub) .C).assign n (sub.getD 0) (.c v)) := by
            intro v
            have := assign_goes g1 g2 hs 0 (.c v)
            rw [hidx]
            have e1 : idxOf sub - 1 + (0 : Nat) = idxOf sub - 1 := by omega
            have e2 : Spec.index sub 0 = sub.getD 0 := by cases sub <;> rfl
            rw [e1, e2] at this
            exact this
          simp only [htest]
          have fin : ∀ (v : Bytes) (l : List Bytes), InStep
              { st := (getSymbol s.st .C r).2.assign (getSymbol s.st .C r).1 (r.2.2 - 1).toNat [.c v], recs := l, rep := s.rep || (t.eval (view s.st)).2.2 }
              { (Spec.ensure σ (n, sub) .C).assign n (sub.getD 0) (.c v) with recs := l, reported := σ.reported || Spec.subsReported σ t } := by
            intro v l
            have m := main v
            exact ⟨⟨m.inv, m.globNone, m.globSome, m.here, m.callers, m.calls⟩, rfl, by simp only [h.rep, hd]⟩
          cases w with
          | reader =>
            simp only [headD_next, if_true, h.recs]
            exact fin _ _
          | clockb =>
            simp only [clockb_eq now hnow, h.recs]
            exact fin _ _
          | clockd =>
            simp only [clockd_eq now hnow, h.recs]
            exact fin _ _

end Verif.CaStmt
