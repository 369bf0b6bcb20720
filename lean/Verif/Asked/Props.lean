import Verif.Asked.Spec
import Mathlib.Tactic.Tauto

/-! C127: before a statement is processed, everything it asks about symbols is known. -/
namespace Verif.Asked
open Attr (Env Kind Diag Out evalOrd evalVar lookOrd lookVar testRead readVar extract symbolName evalSubst ordAttr)
open Context (Val)
open Ord (Sym)

variable {O : Opr} {E : Env} {r : Bytes → Option Sym}

/-! ### Attribute references -/

theorem evalOrd_same {k n} (hm : More E.refs r) (h : lookOrd E k n = []) : evalOrd (withRefs E r) k n = evalOrd E k n := by
  unfold lookOrd at h
  unfold evalOrd
  by_cases hk : k.isOrdinary = true
  · simp only [hk, if_true]
    have hs : ((withRefs E r).symbols n).or ((withRefs E r).refs n) = (E.symbols n).or (E.refs n) := by
      simp only [withRefs]
      cases h1 : E.symbols n with
      | some s => simp
      | none =>
        cases h2 : E.refs n with
        | some s => simp [hm n s h2]
        | none => simp [hk, h1, h2] at h
    unfold ordAttr
    rw [hs]
  · simp only [hk]
    cases k <;> rfl

theorem lookOrd_nil {k n} : lookOrd E k n = [] ↔ (k.isOrdinary = true → E.symbols n = none → E.refs n ≠ none) := by
  unfold lookOrd
  split
  next h => simp_all
  next h =>
    simp only [true_iff]
    intro h1 h2 h3
    exact h ⟨h1, by simp [h2], by simp [h3]⟩

theorem lookOrd_same {k n} (hm : More E.refs r) (h : lookOrd E k n = []) : lookOrd (withRefs E r) k n = [] := by
  rw [lookOrd_nil] at h ⊢
  intro h1 h2
  have := h h1 h2
  cases h3 : E.refs n with
  | none => exact absurd h3 this
  | some s => simp [withRefs, hm n s h3]

theorem lookVar_none {k name sub v text n} (hk : k.isOrdinary = true) (hv : E.vars name = some v) (ht : testRead v sub = none)
    (hr : readVar v sub = .c text) (hn : symbolName text = some n) (h : lookVar E k name sub = []) : lookOrd E k n = [] := by
  simpa [lookVar, hk, hv, ht, hr, hn] using h

theorem evalSubst_same {k name sub v} (hs : Simple E) (hm : More E.refs r) (hv : E.vars name = some v)
    (h : lookVar E k name sub = []) : evalSubst (withRefs E r) k v sub = evalSubst E k v sub := by
  unfold evalSubst
  cases ht : testRead v sub with
  | some d => rfl
  | none =>
    simp only
    cases hr : readVar v sub with
    | a _ => rfl
    | b _ => rfl
    | c text =>
      simp only
      cases he : extract text with
      | none => rfl
      | some s =>
        simp only
        cases hn : symbolName s with
        | none => rfl
        | some n =>
          simp only
          by_cases hk : k.isOrdinary = true
          · exact evalOrd_same hm (lookVar_none hk hv ht hr (hs name v sub text s n hv hr he hn) h)
          · exact evalOrd_same hm (by simp [lookOrd, hk])

theorem evalVar_same {k name sub} (hs : Simple E) (hm : More E.refs r) (h : lookVar E k name sub = []) :
    evalVar (withRefs E r) k name sub = evalVar E k name sub := by
  unfold evalVar
  change (match E.vars name with | none => _ | some v => _) = _
  cases hv : E.vars name with
  | none => rfl
  | some v =>
    simp only
    have he := fun k h => evalSubst_same (k := k) (r := r) hs hm hv (sub := sub) h
    cases k <;> simp only [Kind.requiresOrdinary] <;> first | rfl | exact he _ h | skip
    have hT := he .T h
    simp only [hT]
    rfl

theorem lookVar_same {k name sub} (hm : More E.refs r) (h : lookVar E k name sub = []) :
    lookVar (withRefs E r) k name sub = [] := by
  unfold lookVar at h ⊢
  by_cases hk : k.isOrdinary = false
  · simp [hk]
  · simp only [hk] at h ⊢
    change (match E.vars name with | none => _ | some v => _) = _
    cases hv : E.vars name with
    | none => rfl
    | some v =>
      simp only [hv] at h ⊢
      cases ht : testRead v sub with
      | some d => simp
      | none =>
        simp only [ht] at h ⊢
        cases hr : readVar v sub with
        | a _ => simp
        | b _ => simp
        | c text =>
          simp only [hr] at h ⊢
          cases hn : symbolName text with
          | none => simp
          | some n =>
            simp only [hn] at h ⊢
            simpa using lookOrd_same hm (by simpa using h)

theorem getVar_same (name : Bytes) (sub : List Int) : getVar (withRefs E r) name sub = getVar E name sub := rfl

/-! ### Pieces without attribute references -/

mutual
theorem silentE : ∀ e : Expr, e.refers = false → evalE O (withRefs E r) e = evalE O E e
  | .const _, _ => rfl
  | .op n args, h => by
    simp only [Expr.refers] at h
    simp only [evalE, silentEs args h]
  | .var v, h => by
    simp only [Expr.refers] at h
    simp only [evalE, silentV v h, getVar_same]
  | .attr _ _, h => by simp [Expr.refers] at h
  | .attrVar _ _, h => by simp [Expr.refers] at h
  | .str c ps, h => by
    simp only [Expr.refers, Bool.or_eq_false_iff] at h
    simp only [evalE, silentC c h.1, silentEs ps h.2]
theorem silentEs : ∀ es : Exprs, es.refers = false → evalEs O (withRefs E r) es = evalEs O E es
  | .nil, _ => rfl
  | .cons e es, h => by
    simp only [Exprs.refers, Bool.or_eq_false_iff] at h
    simp only [evalEs, silentE e h.1, silentEs es h.2]
theorem silentV : ∀ v : VarSym, v.refers = false → evalV O (withRefs E r) v = evalV O E v
  | .named n subs, h => by
    simp only [VarSym.refers] at h
    simp only [evalV, silentEs subs h]
  | .created n subs, h => by
    simp only [VarSym.refers, Bool.or_eq_false_iff] at h
    simp only [evalV, silentC n h.1, silentEs subs h.2]
theorem silentC : ∀ c : Chain, c.refers = false → evalC O (withRefs E r) c = evalC O E c
  | .nil, _ => rfl
  | .text t rest, h => by
    simp only [Chain.refers] at h
    simp only [evalC, silentC rest h]
  | .var v rest, h => by
    simp only [Chain.refers, Bool.or_eq_false_iff] at h
    simp only [evalC, silentV v h.1, silentC rest h.2, getVar_same]
  | .sub l rest, h => by
    simp only [Chain.refers, Bool.or_eq_false_iff] at h
    simp only [evalC, silentCs l h.1, silentC rest h.2]
theorem silentCs : ∀ l : Chains, l.refers = false → evalCs O (withRefs E r) l = evalCs O E l
  | .nil, _ => rfl
  | .cons c cs, h => by
    simp only [Chains.refers, Bool.or_eq_false_iff] at h
    simp only [evalCs, silentC c h.1, silentCs cs h.2]
end

/-! ### Nothing asked: nothing changes -/

mutual
theorem sameE (hs : Simple E) (hm : More E.refs r) : ∀ e : Expr, e.open = true → lookE O E e = [] →
    evalE O (withRefs E r) e = evalE O E e ∧ lookE O (withRefs E r) e = []
  | .const _, _, _ => ⟨rfl, rfl⟩
  | .op n args, h, hl => by
    simp only [Expr.open] at h
    simp only [lookE] at hl ⊢
    have := sameEs hs hm args h hl
    exact ⟨by simp only [evalE, this.1], this.2⟩
  | .var v, h, hl => by
    simp only [Expr.open] at h
    simp only [lookE] at hl ⊢
    have := sameV hs hm v h hl
    exact ⟨by simp only [evalE, this.1, getVar_same], this.2⟩
  | .attr k n, _, hl => by
    simp only [lookE] at hl ⊢
    exact ⟨by simp only [evalE, evalOrd_same hm hl], lookOrd_same hm hl⟩
  | .attrVar k v, h, hl => by
    simp only [Expr.open] at h
    simp only [lookE] at hl ⊢
    by_cases hv : lookV O E v = []
    · have := sameV hs hm v h hv
      simp only [hv, List.isEmpty_nil, if_true] at hl
      simp only [this.2, this.1, List.isEmpty_nil, if_true, evalE]
      exact ⟨by rw [evalVar_same hs hm hl], lookVar_same hm hl⟩
    · simp [hv] at hl
  | .str c ps, h, hl => by
    simp only [Expr.open, Bool.and_eq_true, Bool.not_eq_true'] at h
    simp only [lookE] at hl ⊢
    have := sameEs hs hm ps h.2 hl
    exact ⟨by simp only [evalE, this.1, silentC c h.1], this.2⟩
theorem sameEs (hs : Simple E) (hm : More E.refs r) : ∀ es : Exprs, es.open = true → lookEs O E es = [] →
    evalEs O (withRefs E r) es = evalEs O E es ∧ lookEs O (withRefs E r) es = []
  | .nil, _, _ => ⟨rfl, rfl⟩
  | .cons e es, h, hl => by
    simp only [Exprs.open, Bool.and_eq_true] at h
    simp only [lookEs, List.append_eq_nil_iff] at hl ⊢
    have h1 := sameE hs hm e h.1 hl.1
    have h2 := sameEs hs hm es h.2 hl.2
    exact ⟨by simp only [evalEs, h1.1, h2.1], h1.2, h2.2⟩
theorem sameV (hs : Simple E) (hm : More E.refs r) : ∀ v : VarSym, v.open = true → lookV O E v = [] →
    evalV O (withRefs E r) v = evalV O E v ∧ lookV O (withRefs E r) v = []
  | .named n subs, h, hl => by
    simp only [VarSym.open] at h
    simp only [lookV] at hl ⊢
    have := sameEs hs hm subs h hl
    exact ⟨by simp only [evalV, this.1], this.2⟩
  | .created n subs, h, hl => by
    simp only [VarSym.open, Bool.and_eq_true] at h
    simp only [lookV, List.append_eq_nil_iff] at hl ⊢
    have h1 := sameEs hs hm subs h.2 hl.1
    have h2 := sameN hs hm n h.1 hl.2
    exact ⟨by simp only [evalV, h1.1, h2.1], h1.2, h2.2⟩
theorem sameN (hs : Simple E) (hm : More E.refs r) : ∀ c : Chain, c.openName = true → lookN O E c = [] →
    evalC O (withRefs E r) c = evalC O E c ∧ lookN O (withRefs E r) c = []
  | .nil, _, _ => ⟨rfl, rfl⟩
  | .text t rest, h, hl => by
    simp only [Chain.openName] at h
    simp only [lookN] at hl ⊢
    have := sameN hs hm rest h hl
    exact ⟨by simp only [evalC, this.1], this.2⟩
  | .var v rest, h, hl => by
    simp only [Chain.openName, Bool.and_eq_true] at h
    simp only [lookN, List.append_eq_nil_iff] at hl ⊢
    have h1 := sameV hs hm v h.1 hl.1
    have h2 := sameN hs hm rest h.2 hl.2
    exact ⟨by simp only [evalC, h1.1, h2.1, getVar_same], h1.2, h2.2⟩
  | .sub _ _, h, _ => by simp [Chain.openName] at h
end

mutual
theorem sameC (hs : Simple E) (hm : More E.refs r) : ∀ c : Chain, c.open = true → lookC O E c = [] →
    evalC O (withRefs E r) c = evalC O E c ∧ lookC O (withRefs E r) c = []
  | .nil, _, _ => ⟨rfl, rfl⟩
  | .text t rest, h, hl => by
    simp only [Chain.open] at h
    simp only [lookC] at hl ⊢
    have := sameC hs hm rest h hl
    exact ⟨by simp only [evalC, this.1], this.2⟩
  | .var v rest, h, hl => by
    simp only [Chain.open, Bool.and_eq_true] at h
    simp only [lookC, List.append_eq_nil_iff] at hl ⊢
    have h1 := sameV hs hm v h.1 hl.1
    have h2 := sameC hs hm rest h.2 hl.2
    exact ⟨by simp only [evalC, h1.1, h2.1, getVar_same], h1.2, h2.2⟩
  | .sub l rest, h, hl => by
    simp only [Chain.open, Bool.and_eq_true] at h
    simp only [lookC, List.append_eq_nil_iff] at hl ⊢
    have h1 := sameCs hs hm l h.1 hl.1
    have h2 := sameC hs hm rest h.2 hl.2
    exact ⟨by simp only [evalC, h1.1, h2.1], h1.2, h2.2⟩
theorem sameCs (hs : Simple E) (hm : More E.refs r) : ∀ l : Chains, l.open = true → lookCs O E l = [] →
    evalCs O (withRefs E r) l = evalCs O E l ∧ lookCs O (withRefs E r) l = []
  | .nil, _, _ => ⟨rfl, rfl⟩
  | .cons c cs, h, hl => by
    simp only [Chains.open, Bool.and_eq_true] at h
    simp only [lookCs, List.append_eq_nil_iff] at hl ⊢
    have h1 := sameC hs hm c h.1 hl.1
    have h2 := sameCs hs hm cs h.2 hl.2
    exact ⟨by simp only [evalCs, h1.1, h2.1], h1.2, h2.2⟩
end

theorem sameLabel (hs : Simple E) (hm : More E.refs r) (l : Label) (h : l.open = true) (hl : lookLabel O E l = []) :
    evalLabel O (withRefs E r) l = evalLabel O E l ∧ lookLabel O (withRefs E r) l = [] := by
  cases l with
  | plain => exact ⟨rfl, rfl⟩
  | var v =>
    have := sameV hs hm v h hl
    exact ⟨by simp only [evalLabel, this.1, getVar_same], this.2⟩
  | conc c => exact sameC hs hm c h hl

theorem sameOperand (hs : Simple E) (hm : More E.refs r) (o : Operand) (h : o.open = true) (hl : lookOperand O E o = []) :
    evalOperand O (withRefs E r) o = evalOperand O E o ∧ lookOperand O (withRefs E r) o = [] := by
  cases o with
  | model c =>
    have := sameC hs hm c h hl
    exact ⟨by simp only [evalOperand, this.1], this.2⟩
  | mac c =>
    have := sameC hs hm c h hl
    exact ⟨by simp only [evalOperand, this.1], this.2⟩
  | caVar v =>
    have := sameV hs hm v h hl
    exact ⟨by simp only [evalOperand, this.1], this.2⟩
  | caExpr e =>
    have := sameE hs hm e h hl
    exact ⟨by simp only [evalOperand, this.1], this.2⟩
  | branch e =>
    have := sameE hs hm e h hl
    exact ⟨by simp only [evalOperand, this.1], this.2⟩
  | plain => exact ⟨rfl, rfl⟩

theorem asks_nil {s : Stmt} (h : asks O E s = []) : lookInstr O E s = [] ∧ lookStmt O E s = [] := by
  unfold asks at h
  by_cases hi : lookInstr O E s = []
  · simp only [hi, List.isEmpty_nil, if_true] at h
    exact ⟨hi, h⟩
  · simp [hi] at h

theorem sameInstr (hs : Simple E) (hm : More E.refs r) {s : Stmt} (ho : s.open = true) (h : lookInstr O E s = []) :
    s.instr.map (evalC O (withRefs E r)) = s.instr.map (evalC O E) ∧ lookInstr O (withRefs E r) s = [] := by
  simp only [Stmt.open, Bool.and_eq_true] at ho
  unfold lookInstr at h ⊢
  cases hi : s.instr with
  | none => simp
  | some c =>
    simp only [hi] at h ho
    have := sameC hs hm c (by simpa using ho.1.1) h
    simp [this.1, this.2]

theorem sameStmt (hs : Simple E) (hm : More E.refs r) {s : Stmt} (ho : s.open = true) (h : lookStmt O E s = []) :
    (evalLabel O (withRefs E r) s.label = evalLabel O E s.label ∧
      (s.operands.map fun l => l.map (evalOperand O (withRefs E r))) = s.operands.map fun l => l.map (evalOperand O E)) ∧
    lookStmt O (withRefs E r) s = [] := by
  simp only [Stmt.open, Bool.and_eq_true] at ho
  unfold lookStmt at h ⊢
  rw [List.append_eq_nil_iff] at h ⊢
  have hl := sameLabel hs hm s.label ho.1.2 h.2
  refine ⟨⟨hl.1, ?_⟩, ?_, hl.2⟩
  · cases hp : s.operands with
    | none => rfl
    | some l =>
      simp only [hp, List.flatMap_eq_nil_iff, Option.map_some, Option.getD_some, List.all_eq_true] at h ho ⊢
      congr 1
      exact List.map_congr_left fun o hm' => (sameOperand hs hm o (ho.2 o hm') (h.1 o hm')).1
  · cases hp : s.operands with
    | none => rfl
    | some l =>
      simp only [hp, List.flatMap_eq_nil_iff, Option.map_some, Option.getD_some, List.all_eq_true] at h ho ⊢
      exact fun o hm' => (sameOperand hs hm o (ho.2 o hm') (h.1 o hm')).2

/-- **C127**, what the statement reads: when nothing is asked any more, all that the statement reads (instruction, name field,
operands, with the diagnostics) is the same, whatever more might be found by looking ahead. Missing: attribute references between the
apostrophes of strings (`C127_witness_string`), and values that name a symbol without being its name (`C127_witness_leading`). -/
theorem C127_complete_partial (s : Stmt) (ho : s.open = true) (hs : Simple E) (h : asks O E s = []) (hm : More E.refs r) :
    evalStmt O (withRefs E r) s = evalStmt O E s := by
  have ⟨hi, hl⟩ := asks_nil h
  have h1 := sameInstr (r := r) hs hm ho hi
  have h2 := sameStmt (r := r) hs hm ho hl
  simp only [evalStmt, h1.1, h2.1.1, h2.1.2]

/-! ### Only unknown symbols are asked for, and only those the statement refers to -/

theorem lookOrd_mem {k n x} (h : x ∈ lookOrd E k n) : x = n ∧ k ∈ [Kind.L, .I, .S, .T] ∧ E.symbols n = none ∧ E.refs n = none := by
  unfold lookOrd at h
  split at h
  next hc =>
    simp only [List.mem_singleton] at h
    refine ⟨h, ?_, by simpa using hc.2.1, by simpa using hc.2.2⟩
    cases k <;> simp_all [Kind.isOrdinary]
  next => simp at h

/-- The name is that of an unknown symbol, and one of the expressions refers to it. -/
def Needs (O : Opr) (E : Env) (n : Bytes) (l : List Expr) : Prop :=
  E.symbols n = none ∧ E.refs n = none ∧ ∃ e ∈ l, Asks O E n e

theorem Needs.mono {n : Bytes} {l l' : List Expr} (h : Needs O E n l) (hs : ∀ e ∈ l, e ∈ l') : Needs O E n l' := by
  obtain ⟨h1, h2, e, he, ha⟩ := h
  exact ⟨h1, h2, e, hs e he, ha⟩

mutual
theorem needE (n : Bytes) : ∀ e : Expr, n ∈ lookE O E e → Needs O E n e.parts
  | .const _, h => by simp [lookE] at h
  | .op _ args, h => by
    simp only [lookE] at h
    exact (needEs n args h).mono (by simp [Expr.parts]; tauto)
  | .var v, h => by
    simp only [lookE] at h
    exact (needV n v h).mono (by simp [Expr.parts]; tauto)
  | .attr k m, h => by
    simp only [lookE] at h
    obtain ⟨rfl, hk, h1, h2⟩ := lookOrd_mem h
    exact ⟨h1, h2, _, by simp [Expr.parts], .name k hk⟩
  | .attrVar k v, h => by
    simp only [lookE] at h
    by_cases hv : lookV O E v = []
    · simp only [hv, List.isEmpty_nil, if_true] at h
      unfold lookVar at h
      split at h
      · simp at h
      · split at h
        · simp at h
        next x hx =>
          split at h
          · simp at h
          · split at h
            next text ht =>
              split at h
              · simp at h
              next m hm =>
                obtain ⟨rfl, hk, h1, h2⟩ := lookOrd_mem h
                exact ⟨h1, h2, _, by simp [Expr.parts], .value k hk v x text hx ht hm⟩
            · simp at h
    · simp only [List.isEmpty_iff, hv, if_false] at h
      exact (needV n v h).mono (by simp [Expr.parts]; tauto)
  | .str c ps, h => by
    simp only [lookE] at h
    exact (needEs n ps h).mono (by simp [Expr.parts]; tauto)
theorem needEs (n : Bytes) : ∀ es : Exprs, n ∈ lookEs O E es → Needs O E n es.parts
  | .nil, h => by simp [lookEs] at h
  | .cons e es, h => by
    simp only [lookEs, List.mem_append] at h
    rcases h with h | h
    · exact (needE n e h).mono (by simp [Exprs.parts]; tauto)
    · exact (needEs n es h).mono (by simp [Exprs.parts]; tauto)
theorem needV (n : Bytes) : ∀ v : VarSym, n ∈ lookV O E v → Needs O E n v.parts
  | .named _ subs, h => by
    simp only [lookV] at h
    exact (needEs n subs h).mono (by simp [VarSym.parts])
  | .created m subs, h => by
    simp only [lookV, List.mem_append] at h
    rcases h with h | h
    · exact (needEs n subs h).mono (by simp [VarSym.parts]; tauto)
    · exact (needN n m h).mono (by simp [VarSym.parts]; tauto)
theorem needN (n : Bytes) : ∀ c : Chain, n ∈ lookN O E c → Needs O E n c.parts
  | .nil, h => by simp [lookN] at h
  | .text _ rest, h => by
    simp only [lookN] at h
    exact (needN n rest h).mono (by simp [Chain.parts])
  | .var v rest, h => by
    simp only [lookN, List.mem_append] at h
    rcases h with h | h
    · exact (needV n v h).mono (by simp [Chain.parts]; tauto)
    · exact (needN n rest h).mono (by simp [Chain.parts]; tauto)
  | .sub _ rest, h => by
    simp only [lookN] at h
    exact (needN n rest h).mono (by simp [Chain.parts]; tauto)
end

mutual
theorem needC (n : Bytes) : ∀ c : Chain, n ∈ lookC O E c → Needs O E n c.parts
  | .nil, h => by simp [lookC] at h
  | .text _ rest, h => by
    simp only [lookC] at h
    exact (needC n rest h).mono (by simp [Chain.parts])
  | .var v rest, h => by
    simp only [lookC, List.mem_append] at h
    rcases h with h | h
    · exact (needV n v h).mono (by simp [Chain.parts]; tauto)
    · exact (needC n rest h).mono (by simp [Chain.parts]; tauto)
  | .sub l rest, h => by
    simp only [lookC, List.mem_append] at h
    rcases h with h | h
    · exact (needCs n l h).mono (by simp [Chain.parts]; tauto)
    · exact (needC n rest h).mono (by simp [Chain.parts]; tauto)
theorem needCs (n : Bytes) : ∀ l : Chains, n ∈ lookCs O E l → Needs O E n l.parts
  | .nil, h => by simp [lookCs] at h
  | .cons c cs, h => by
    simp only [lookCs, List.mem_append] at h
    rcases h with h | h
    · exact (needC n c h).mono (by simp [Chains.parts]; tauto)
    · exact (needCs n cs h).mono (by simp [Chains.parts]; tauto)
end

theorem needOperand (n : Bytes) (o : Operand) (h : n ∈ lookOperand O E o) : Needs O E n o.parts := by
  cases o with
  | model c => exact needC n c h
  | mac c => exact needC n c h
  | caVar v => exact needV n v h
  | caExpr e => exact needE n e h
  | branch e => exact needE n e h
  | plain => simp [lookOperand] at h

theorem needLabel (n : Bytes) (l : Label) (h : n ∈ lookLabel O E l) : Needs O E n l.parts := by
  cases l with
  | plain => simp [lookLabel] at h
  | var v => exact needV n v h
  | conc c => exact needC n c h

/-- **C127**, no needless searches: the program is searched only for symbols that are neither defined nor found before, and whose
length, integer, scale or type attribute the statement refers to, by name or through a variable symbol with that value. -/
theorem C127_needed (s : Stmt) (n : Bytes) (h : n ∈ asks O E s) :
    E.symbols n = none ∧ E.refs n = none ∧ ∃ e ∈ s.parts, Asks O E n e := by
  have h' : n ∈ lookInstr O E s ∨ n ∈ lookStmt O E s := by
    unfold asks at h
    split at h
    · exact .inr h
    · exact .inl h
  change Needs O E n s.parts
  rcases h' with h | h
  · unfold lookInstr at h
    cases hi : s.instr with
    | none => simp [hi] at h
    | some c =>
      simp only [hi] at h
      exact (needC n c h).mono (by simp [Stmt.parts, hi]; tauto)
  · unfold lookStmt at h
    rw [List.mem_append] at h
    rcases h with h | h
    · cases hp : s.operands with
      | none => simp [hp] at h
      | some l =>
        simp only [hp, List.mem_flatMap] at h
        obtain ⟨o, ho, h⟩ := h
        exact (needOperand n o h).mono (by simp [Stmt.parts, hp]; intro e he; exact .inr (.inr ⟨o, ho, he⟩))
    · exact (needLabel n s.label h).mono (by simp [Stmt.parts]; tauto)

/-! ### How often the program is searched -/

mutual
/-- How many searches are needed at most. -/
def missE (O : Opr) (E : Env) : Expr → Nat
  | .const _ => 0
  | .op _ args => missEs O E args
  | .var v => missV O E v
  | .attr k n => if lookOrd E k n = [] then 0 else 1
  | .attrVar k v =>
    if missV O E v = 0 then (if lookVar E k (evalV O E v).1.1 (evalV O E v).1.2 = [] then 0 else 1) else missV O E v + 1
  | .str _ parts => missEs O E parts
def missEs (O : Opr) (E : Env) : Exprs → Nat
  | .nil => 0
  | .cons e es => max (missE O E e) (missEs O E es)
def missV (O : Opr) (E : Env) : VarSym → Nat
  | .named _ subs => missEs O E subs
  | .created n subs => max (missEs O E subs) (missN O E n)
def missN (O : Opr) (E : Env) : Chain → Nat
  | .nil => 0
  | .text _ rest => missN O E rest
  | .var v rest => max (missV O E v) (missN O E rest)
  | .sub _ rest => missN O E rest
end

mutual
theorem missE_zero : ∀ e : Expr, missE O E e = 0 ↔ lookE O E e = []
  | .const _ => by simp [missE, lookE]
  | .op _ args => by simpa only [missE, lookE] using missEs_zero args
  | .var v => by simpa only [missE, lookE] using missV_zero v
  | .attr k n => by simp [missE, lookE]
  | .attrVar k v => by
    have := missV_zero v
    simp only [missE, lookE]
    by_cases h : missV O E v = 0
    · simp [h, this.1 h]
    · simp [h, mt this.2 h]
  | .str _ ps => by simpa only [missE, lookE] using missEs_zero ps
theorem missEs_zero : ∀ es : Exprs, missEs O E es = 0 ↔ lookEs O E es = []
  | .nil => by simp [missEs, lookEs]
  | .cons e es => by simp only [missEs, lookEs, List.append_eq_nil_iff, Nat.max_eq_zero_iff, missE_zero e, missEs_zero es]
theorem missV_zero : ∀ v : VarSym, missV O E v = 0 ↔ lookV O E v = []
  | .named _ subs => by simpa only [missV, lookV] using missEs_zero subs
  | .created n subs => by simp only [missV, lookV, List.append_eq_nil_iff, Nat.max_eq_zero_iff, missEs_zero subs, missN_zero n]
theorem missN_zero : ∀ c : Chain, missN O E c = 0 ↔ lookN O E c = []
  | .nil => by simp [missN, lookN]
  | .text _ rest => by simpa only [missN, lookN] using missN_zero rest
  | .var v rest => by simp only [missN, lookN, List.append_eq_nil_iff, Nat.max_eq_zero_iff, missV_zero v, missN_zero rest]
  | .sub _ rest => by simpa only [missN, lookN] using missN_zero rest
end

mutual
theorem missE_depth : ∀ e : Expr, missE O E e ≤ e.depth
  | .const _ => by simp [missE]
  | .op _ args => by simpa only [missE, Expr.depth] using missEs_depth args
  | .var v => by simpa only [missE, Expr.depth] using missV_depth v
  | .attr k n => by simp only [missE, Expr.depth]; split <;> omega
  | .attrVar k v => by
    have := missV_depth v
    simp only [missE, Expr.depth]
    repeat' split
    all_goals omega
  | .str _ ps => by simpa only [missE, Expr.depth] using missEs_depth ps
theorem missEs_depth : ∀ es : Exprs, missEs O E es ≤ es.depth
  | .nil => by simp [missEs]
  | .cons e es => by
    have h1 := missE_depth e
    have h2 := missEs_depth es
    simp only [missEs, Exprs.depth]
    omega
theorem missV_depth : ∀ v : VarSym, missV O E v ≤ v.depth
  | .named _ subs => by simpa only [missV, VarSym.depth] using missEs_depth subs
  | .created n subs => by
    have h1 := missN_depth n
    have h2 := missEs_depth subs
    simp only [missV, VarSym.depth]
    omega
theorem missN_depth : ∀ c : Chain, missN O E c ≤ c.depth
  | .nil => by simp [missN]
  | .text _ rest => by simpa only [missN, Chain.depth] using missN_depth rest
  | .var v rest => by
    have h1 := missV_depth v
    have h2 := missN_depth rest
    simp only [missN, Chain.depth]
    omega
  | .sub _ rest => by
    have h2 := missN_depth rest
    simp only [missN, Chain.depth]
    omega
end

theorem lookOrd_found {k n} (hf : ∀ x ∈ lookOrd E k n, (r x).isSome) (hm : More E.refs r) :
    lookOrd (withRefs E r) k n = [] := by
  by_cases h : lookOrd E k n = []
  · exact lookOrd_same hm h
  · rw [lookOrd_nil]
    intro _ _ h3
    have hn : n ∈ lookOrd E k n := by
      unfold lookOrd at h ⊢
      split at h
      next hc => simp [hc]
      next => exact absurd rfl h
    have := hf n hn
    simp only [withRefs] at h3
    simp [h3] at this

theorem lookVar_found {k name sub} (hf : ∀ x ∈ lookVar E k name sub, (r x).isSome) (hm : More E.refs r) :
    lookVar (withRefs E r) k name sub = [] := by
  by_cases h : lookVar E k name sub = []
  · exact lookVar_same hm h
  · unfold lookVar at hf h ⊢
    by_cases hk : k.isOrdinary = false
    · simp [hk]
    · simp only [hk] at hf h ⊢
      change (match E.vars name with | none => _ | some v => _) = _
      cases hv : E.vars name with
      | none => rfl
      | some v =>
        simp only [hv] at hf h ⊢
        cases ht : testRead v sub with
        | some d => simp
        | none =>
          simp only [ht] at hf h ⊢
          cases hr : readVar v sub with
          | a _ => simp
          | b _ => simp
          | c text =>
            simp only [hr] at hf h ⊢
            cases hn : symbolName text with
            | none => simp
            | some n =>
              simp only [hn] at hf h ⊢
              simpa using lookOrd_found (by simpa using hf) hm

mutual
theorem missE_step (hs : Simple E) (hm : More E.refs r) : ∀ e : Expr, e.open = true → (∀ x ∈ lookE O E e, (r x).isSome) →
    missE O (withRefs E r) e ≤ missE O E e - 1
  | .const _, _, _ => by simp [missE]
  | .op _ args, h, hf => by
    simp only [Expr.open] at h
    simp only [lookE] at hf
    simpa only [missE] using missEs_step hs hm args h hf
  | .var v, h, hf => by
    simp only [Expr.open] at h
    simp only [lookE] at hf
    simpa only [missE] using missV_step hs hm v h hf
  | .attr k n, _, hf => by
    simp only [lookE] at hf
    simp [missE, lookOrd_found hf hm]
  | .attrVar k v, h, hf => by
    simp only [Expr.open] at h
    simp only [lookE] at hf
    by_cases hv : lookV O E v = []
    · have h1 := sameV (r := r) hs hm v h hv
      simp only [hv, List.isEmpty_nil, if_true] at hf
      simp only [missE, (missV_zero v).2 h1.2, h1.1, lookVar_found hf hm, if_true]
      omega
    · simp only [List.isEmpty_iff, hv, if_false] at hf
      have h1 := missV_step hs hm v h hf
      have h2 : missV O E v ≠ 0 := mt (missV_zero v).1 hv
      simp only [missE, h2, if_false]
      repeat' split
      all_goals omega
  | .str c ps, h, hf => by
    simp only [Expr.open, Bool.and_eq_true] at h
    simp only [lookE] at hf
    simpa only [missE] using missEs_step hs hm ps h.2 hf
theorem missEs_step (hs : Simple E) (hm : More E.refs r) : ∀ es : Exprs, es.open = true → (∀ x ∈ lookEs O E es, (r x).isSome) →
    missEs O (withRefs E r) es ≤ missEs O E es - 1
  | .nil, _, _ => by simp [missEs]
  | .cons e es, h, hf => by
    simp only [Exprs.open, Bool.and_eq_true] at h
    simp only [lookEs, List.mem_append] at hf
    have h1 := missE_step hs hm e h.1 fun x hx => hf x (.inl hx)
    have h2 := missEs_step hs hm es h.2 fun x hx => hf x (.inr hx)
    simp only [missEs]
    omega
theorem missV_step (hs : Simple E) (hm : More E.refs r) : ∀ v : VarSym, v.open = true → (∀ x ∈ lookV O E v, (r x).isSome) →
    missV O (withRefs E r) v ≤ missV O E v - 1
  | .named _ subs, h, hf => by
    simp only [VarSym.open] at h
    simp only [lookV] at hf
    simpa only [missV] using missEs_step hs hm subs h hf
  | .created n subs, h, hf => by
    simp only [VarSym.open, Bool.and_eq_true] at h
    simp only [lookV, List.mem_append] at hf
    have h1 := missEs_step hs hm subs h.2 fun x hx => hf x (.inl hx)
    have h2 := missN_step hs hm n h.1 fun x hx => hf x (.inr hx)
    simp only [missV]
    omega
theorem missN_step (hs : Simple E) (hm : More E.refs r) : ∀ c : Chain, c.openName = true → (∀ x ∈ lookN O E c, (r x).isSome) →
    missN O (withRefs E r) c ≤ missN O E c - 1
  | .nil, _, _ => by simp [missN]
  | .text _ rest, h, hf => by
    simp only [Chain.openName] at h
    simp only [lookN] at hf
    simpa only [missN] using missN_step hs hm rest h hf
  | .var v rest, h, hf => by
    simp only [Chain.openName, Bool.and_eq_true] at h
    simp only [lookN, List.mem_append] at hf
    have h1 := missV_step hs hm v h.1 fun x hx => hf x (.inl hx)
    have h2 := missN_step hs hm rest h.2 fun x hx => hf x (.inr hx)
    simp only [missN]
    omega
  | .sub _ _, h, _ => by simp [Chain.openName] at h
end

mutual
def missC (O : Opr) (E : Env) : Chain → Nat
  | .nil => 0
  | .text _ rest => missC O E rest
  | .var v rest => max (missV O E v) (missC O E rest)
  | .sub l rest => max (missCs O E l) (missC O E rest)
def missCs (O : Opr) (E : Env) : Chains → Nat
  | .nil => 0
  | .cons c cs => max (missC O E c) (missCs O E cs)
end

mutual
theorem missC_zero : ∀ c : Chain, missC O E c = 0 ↔ lookC O E c = []
  | .nil => by simp [missC, lookC]
  | .text _ rest => by simpa only [missC, lookC] using missC_zero rest
  | .var v rest => by simp only [missC, lookC, List.append_eq_nil_iff, Nat.max_eq_zero_iff, missV_zero v, missC_zero rest]
  | .sub l rest => by simp only [missC, lookC, List.append_eq_nil_iff, Nat.max_eq_zero_iff, missCs_zero l, missC_zero rest]
theorem missCs_zero : ∀ l : Chains, missCs O E l = 0 ↔ lookCs O E l = []
  | .nil => by simp [missCs, lookCs]
  | .cons c cs => by simp only [missCs, lookCs, List.append_eq_nil_iff, Nat.max_eq_zero_iff, missC_zero c, missCs_zero cs]
end

mutual
theorem missC_depth : ∀ c : Chain, missC O E c ≤ c.depth
  | .nil => by simp [missC]
  | .text _ rest => by simpa only [missC, Chain.depth] using missC_depth rest
  | .var v rest => by
    have h1 := missV_depth (O := O) (E := E) v
    have h2 := missC_depth rest
    simp only [missC, Chain.depth]
    omega
  | .sub l rest => by
    have h1 := missCs_depth l
    have h2 := missC_depth rest
    simp only [missC, Chain.depth]
    omega
theorem missCs_depth : ∀ l : Chains, missCs O E l ≤ l.depth
  | .nil => by simp [missCs]
  | .cons c cs => by
    have h1 := missC_depth c
    have h2 := missCs_depth cs
    simp only [missCs, Chains.depth]
    omega
end

mutual
theorem missC_step (hs : Simple E) (hm : More E.refs r) : ∀ c : Chain, c.open = true → (∀ x ∈ lookC O E c, (r x).isSome) →
    missC O (withRefs E r) c ≤ missC O E c - 1
  | .nil, _, _ => by simp [missC]
  | .text _ rest, h, hf => by
    simp only [Chain.open] at h
    simp only [lookC] at hf
    simpa only [missC] using missC_step hs hm rest h hf
  | .var v rest, h, hf => by
    simp only [Chain.open, Bool.and_eq_true] at h
    simp only [lookC, List.mem_append] at hf
    have h1 := missV_step hs hm v h.1 fun x hx => hf x (.inl hx)
    have h2 := missC_step hs hm rest h.2 fun x hx => hf x (.inr hx)
    simp only [missC]
    omega
  | .sub l rest, h, hf => by
    simp only [Chain.open, Bool.and_eq_true] at h
    simp only [lookC, List.mem_append] at hf
    have h1 := missCs_step hs hm l h.1 fun x hx => hf x (.inl hx)
    have h2 := missC_step hs hm rest h.2 fun x hx => hf x (.inr hx)
    simp only [missC]
    omega
theorem missCs_step (hs : Simple E) (hm : More E.refs r) : ∀ l : Chains, l.open = true → (∀ x ∈ lookCs O E l, (r x).isSome) →
    missCs O (withRefs E r) l ≤ missCs O E l - 1
  | .nil, _, _ => by simp [missCs]
  | .cons c cs, h, hf => by
    simp only [Chains.open, Bool.and_eq_true] at h
    simp only [lookCs, List.mem_append] at hf
    have h1 := missC_step hs hm c h.1 fun x hx => hf x (.inl hx)
    have h2 := missCs_step hs hm cs h.2 fun x hx => hf x (.inr hx)
    simp only [missCs]
    omega
end

def missLabel (O : Opr) (E : Env) : Label → Nat
  | .plain => 0
  | .var v => missV O E v
  | .conc c => missC O E c

def missOperand (O : Opr) (E : Env) : Operand → Nat
  | .model c => missC O E c
  | .mac c => missC O E c
  | .caVar v => missV O E v
  | .caExpr e => missE O E e
  | .branch e => missE O E e
  | .plain => 0

theorem missLabel_step (hs : Simple E) (hm : More E.refs r) (l : Label) (h : l.open = true)
    (hf : ∀ x ∈ lookLabel O E l, (r x).isSome) : missLabel O (withRefs E r) l ≤ missLabel O E l - 1 := by
  cases l with
  | plain => simp [missLabel]
  | var v => exact missV_step hs hm v h hf
  | conc c => exact missC_step hs hm c h hf

theorem missLabel_depth (l : Label) : missLabel O E l ≤ l.depth := by
  cases l with
  | plain => simp [missLabel]
  | var v => exact missV_depth v
  | conc c => exact missC_depth c

theorem missLabel_zero (l : Label) : missLabel O E l = 0 ↔ lookLabel O E l = [] := by
  cases l with
  | plain => simp [missLabel, lookLabel]
  | var v => exact missV_zero v
  | conc c => exact missC_zero c

theorem missOperand_step (hs : Simple E) (hm : More E.refs r) (o : Operand) (h : o.open = true)
    (hf : ∀ x ∈ lookOperand O E o, (r x).isSome) : missOperand O (withRefs E r) o ≤ missOperand O E o - 1 := by
  cases o with
  | model c => exact missC_step hs hm c h hf
  | mac c => exact missC_step hs hm c h hf
  | caVar v => exact missV_step hs hm v h hf
  | caExpr e => exact missE_step hs hm e h hf
  | branch e => exact missE_step hs hm e h hf
  | plain => simp [missOperand]

theorem missOperand_depth (o : Operand) : missOperand O E o ≤ o.depth := by
  cases o with
  | model c => exact missC_depth c
  | mac c => exact missC_depth c
  | caVar v => exact missV_depth v
  | caExpr e => exact missE_depth e
  | branch e => exact missE_depth e
  | plain => simp [missOperand]

theorem missOperand_zero (o : Operand) : missOperand O E o = 0 ↔ lookOperand O E o = [] := by
  cases o with
  | model c => exact missC_zero c
  | mac c => exact missC_zero c
  | caVar v => exact missV_zero v
  | caExpr e => exact missE_zero e
  | branch e => exact missE_zero e
  | plain => simp [missOperand, lookOperand]

def missOperands (O : Opr) (E : Env) (l : List Operand) : Nat := l.foldr (fun o d => max (missOperand O E o) d) 0

theorem missOperands_step (hs : Simple E) (hm : More E.refs r) : ∀ l : List Operand, (∀ o ∈ l, o.open = true) →
    (∀ x ∈ l.flatMap (lookOperand O E), (r x).isSome) → missOperands O (withRefs E r) l ≤ missOperands O E l - 1
  | [], _, _ => by simp [missOperands]
  | o :: l, h, hf => by
    have h1 := missOperand_step (O := O) hs hm o (h o (by simp)) fun x hx => hf x (by simp [hx])
    have h2 := missOperands_step hs hm l (fun o' ho => h o' (by simp [ho])) fun x hx => hf x (by
      rw [List.flatMap_cons, List.mem_append]
      exact .inr hx)
    simp only [missOperands, List.foldr_cons] at h2 ⊢
    omega

theorem missOperands_zero : ∀ l : List Operand, missOperands O E l = 0 ↔ l.flatMap (lookOperand O E) = []
  | [] => by simp [missOperands]
  | o :: l => by
    have h1 := missOperand_zero (O := O) (E := E) o
    have h2 := missOperands_zero l
    simp only [missOperands, List.foldr_cons, List.flatMap_cons, List.append_eq_nil_iff, Nat.max_eq_zero_iff] at h2 ⊢
    rw [h1, h2]

theorem missOperands_depth : ∀ l : List Operand, missOperands O E l ≤ l.foldr (fun o d => max o.depth d) 0
  | [] => by simp [missOperands]
  | o :: l => by
    have h1 := missOperand_depth (O := O) (E := E) o
    have h2 := missOperands_depth l
    simp only [missOperands, List.foldr_cons] at h2 ⊢
    omega

def missInstr (O : Opr) (E : Env) (s : Stmt) : Nat := (s.instr.map (missC O E)).getD 0
def missStmt (O : Opr) (E : Env) (s : Stmt) : Nat :=
  max ((s.operands.map (missOperands O E)).getD 0) (missLabel O E s.label)

theorem missInstr_zero (s : Stmt) : missInstr O E s = 0 ↔ lookInstr O E s = [] := by
  unfold missInstr lookInstr
  cases s.instr with
  | none => simp
  | some c => exact missC_zero c

theorem missStmt_zero (s : Stmt) : missStmt O E s = 0 ↔ lookStmt O E s = [] := by
  unfold missStmt lookStmt
  rw [Nat.max_eq_zero_iff, List.append_eq_nil_iff, missLabel_zero]
  cases s.operands with
  | none => simp
  | some l => simp only [Option.map_some, Option.getD_some, missOperands_zero]

theorem missInstr_depth (s : Stmt) : missInstr O E s ≤ (s.instr.map Chain.depth).getD 0 := by
  unfold missInstr
  cases s.instr with
  | none => simp
  | some c => exact missC_depth c

theorem missStmt_depth (s : Stmt) : missStmt O E s ≤
    max ((s.operands.map fun l => l.foldr (fun o d => max o.depth d) 0).getD 0) s.label.depth := by
  have h1 := missLabel_depth (O := O) (E := E) s.label
  unfold missStmt
  cases s.operands with
  | none => simp only [Option.map_none, Option.getD_none]; omega
  | some l =>
    have h2 := missOperands_depth (O := O) (E := E) l
    simp only [Option.map_some, Option.getD_some]
    omega

theorem missInstr_step (hs : Simple E) (hm : More E.refs r) {s : Stmt} (ho : s.open = true)
    (hf : ∀ x ∈ lookInstr O E s, (r x).isSome) : missInstr O (withRefs E r) s ≤ missInstr O E s - 1 := by
  simp only [Stmt.open, Bool.and_eq_true] at ho
  unfold missInstr
  unfold lookInstr at hf
  cases hi : s.instr with
  | none => simp
  | some c =>
    simp only [hi] at hf ho
    exact missC_step hs hm c (by simpa using ho.1.1) hf

theorem missStmt_step (hs : Simple E) (hm : More E.refs r) {s : Stmt} (ho : s.open = true)
    (hf : ∀ x ∈ lookStmt O E s, (r x).isSome) : missStmt O (withRefs E r) s ≤ missStmt O E s - 1 := by
  simp only [Stmt.open, Bool.and_eq_true] at ho
  unfold missStmt
  unfold lookStmt at hf
  simp only [List.mem_append] at hf
  have h1 := missLabel_step hs hm s.label ho.1.2 fun x hx => hf x (.inr hx)
  cases hp : s.operands with
  | none => simp only [Option.map_none, Option.getD_none]; omega
  | some l =>
    simp only [hp, Option.map_some, Option.getD_some, List.all_eq_true] at hf ho ⊢
    have h2 := missOperands_step hs hm l ho.2 fun x hx => hf x (.inl hx)
    omega

/-- How many searches are left at most. -/
def left (O : Opr) (E : Env) (s : Stmt) : Nat :=
  if missInstr O E s = 0 then missStmt O E s
  else missInstr O E s + max ((s.operands.map fun l => l.foldr (fun o d => max o.depth d) 0).getD 0) s.label.depth

theorem left_zero {s : Stmt} (h : left O E s = 0) : asks O E s = [] := by
  unfold left at h
  split at h
  next hi => simp [asks, (missInstr_zero s).1 hi, (missStmt_zero s).1 h]
  next hi => omega

theorem left_step (hs : Simple E) (hm : More E.refs r) {s : Stmt} (ho : s.open = true)
    (hf : ∀ x ∈ asks O E s, (r x).isSome) : left O (withRefs E r) s ≤ left O E s - 1 := by
  unfold asks at hf
  by_cases hi : lookInstr O E s = []
  · simp only [hi, List.isEmpty_nil, if_true] at hf
    have h1 := (missInstr_zero s).2 (sameInstr (r := r) hs hm ho hi).2
    have h2 := missStmt_step hs hm ho hf
    simp only [left, h1, (missInstr_zero s).2 hi, if_true]
    exact h2
  · simp only [List.isEmpty_iff, hi, if_false] at hf
    have h1 := missInstr_step hs hm ho hf
    have h2 : missInstr O E s ≠ 0 := mt (missInstr_zero s).1 hi
    have h3 := missStmt_depth (O := O) (E := withRefs E r) s
    simp only [left, h2, if_false]
    split <;> omega

theorem rounds_left {s : Stmt} (ho : s.open = true) {k E E'} (h : Rounds O s k E E') : Simple E →
    left O E' s ≤ left O E s - k := by
  induction h with
  | zero => intro _; omega
  | succ hf _ ih =>
    intro hs
    obtain ⟨r, rfl, hm, hf⟩ := hf
    have h1 := ih hs
    have h2 := left_step hs hm ho hf
    omega

/-- **C127**, the searches end: when the program has been searched as many times as attribute references are nested in the
instruction and in the rest of the statement, nothing is asked any more and the statement is processed. -/
theorem C127_rounds_partial (s : Stmt) (ho : s.open = true) (hs : Simple E) {k : Nat} {E' : Env} (h : Rounds O s k E E')
    (hk : s.depth ≤ k) : asks O E' s = [] := by
  have h1 := rounds_left ho h hs
  have h2 := missInstr_depth (O := O) (E := E) s
  have h3 := missStmt_depth (O := O) (E := E) s
  have h4 : left O E s ≤ s.depth := by
    unfold left Stmt.depth
    split <;> omega
  exact left_zero (by omega)

/-! ### Examples and witnesses -/

/-- Numbers are subscripts, character values texts; operators return their first operand. -/
def exOpr : Opr where
  op := fun _ l => (l.headD .undef, [])
  int := fun c => match c with | .known (.a n) => n | _ => 0
  text := fun c => match c with | .known (.c t) => t | _ => []
  join := List.flatten
  str := fun t _ => (.known (.c t), [])
  name := id

/-- `&A` is an array whose second value is `Y`, `&B` has the value `X+1`. -/
def exEnv : Env where
  symbols := fun _ => none
  refs := fun _ => none
  macros := fun _ => false
  instrs := fun _ => none
  library := fun _ => false
  vars := fun n =>
    if n = [65] then some (.set { scalar := false, ty := .C, owner := none, data := [(1, .c [89])] })
    else if n = [66] then some (.set { scalar := true, ty := .C, owner := none, data := [(0, .c [88, 43, 49])] })
    else none

/-- Without `&B`. -/
def exEnv' : Env where
  symbols := fun _ => none
  refs := fun _ => none
  macros := fun _ => false
  instrs := fun _ => none
  library := fun _ => false
  vars := fun n =>
    if n = [65] then some (.set { scalar := false, ty := .C, owner := none, data := [(1, .c [89])] })
    else none

/-- A symbol of length 2. -/
def exSym : Sym := { val := .undef, type := 0, len := some 2, scale := none, integer := 0, si := false }

/-- `X` is found. -/
def exX : Bytes → Option Sym := fun n => if n = [88] then some exSym else none
/-- `X` and `Y` are found. -/
def exXY : Bytes → Option Sym := fun n => if n = [88] ∨ n = [89] then some exSym else none

/-- `L'&A(L'X)` as the operand. -/
def exStmt : Stmt where
  instr := none
  label := .plain
  operands := some [.caExpr (.attrVar .L (.named [65] (.cons (.attr .L [88]) .nil)))]

/-- First `X` is asked for, then `Y`, then nothing. -/
example : asks exOpr exEnv' exStmt = [[88]] ∧ asks exOpr (withRefs exEnv' exX) exStmt = [[89]] ∧
    asks exOpr (withRefs exEnv' exXY) exStmt = [] ∧ exStmt.depth = 2 ∧ exStmt.open = true := by decide +kernel

theorem exSimple (r : Bytes → Option Sym) : Simple (withRefs exEnv' r) := by
  intro name v sub text s n hv hr he hn
  by_cases h : name = [65]
  · simp only [withRefs, exEnv', h, if_true, Option.some.injEq] at hv
    subst hv
    have ht : text = [] ∨ text = [89] := by
      cases sub with
      | nil =>
        simp [readVar, Context.SetSym.get, Context.Ty.default] at hr
        exact .inl hr
      | cons i _ =>
        simp only [readVar, Context.SetSym.getAt, Context.dataFind, List.find?] at hr
        by_cases hi : Attr.toSize (i - 1) = 1
        · simp [hi] at hr
          exact .inr hr.symm
        · simp [Ne.symm hi, Context.Ty.default] at hr
          exact .inl hr
    rcases ht with rfl | rfl
    · have : extract [] = none := by decide +kernel
      simp [this] at he
    · have : extract [89] = some [89] := by decide +kernel
      rw [this] at he
      cases he
      exact hn
  · simp [withRefs, exEnv', h] at hv

example : Rounds exOpr exStmt 2 exEnv' (withRefs exEnv' exXY) := by
  refine .succ ⟨exX, rfl, fun n s h => by simp [exEnv'] at h, ?_⟩
    (.succ ⟨exXY, rfl, fun n s h => ?_, ?_⟩ (.zero _))
  · decide +kernel
  · simp only [withRefs, exX] at h
    by_cases hn : n = [88]
    · simpa [hn, exXY] using h
    · simp [hn] at h
  · decide +kernel

/-- The operand is `'&A(L'X)'`. -/
def exString : Stmt where
  instr := none
  label := .plain
  operands := some [.caExpr (.str (.var (.named [65] (.cons (.attr .L [88]) .nil)) .nil) .nil)]

/-- The values of the operands that are texts, and how many diagnostics they have. -/
def texts (s : Option (List (Result × List Diag))) : List (Bytes × Nat) :=
  (s.getD []).map fun x => (match x.1 with | .value (.known (.c t)) => t | _ => [], x.2.length)

/-- **C127 does not hold** for attribute references in strings: nothing is asked for `'&A(L'X)'`, although the program defines `X` with
the length 2; the statement gets the first value of `&A` and a warning instead of the second one. -/
theorem C127_witness_string : asks exOpr exEnv' exString = [] ∧ Simple exEnv' ∧
    texts (evalStmt exOpr exEnv' exString).2.2 = [([], 1)] ∧
    texts (evalStmt exOpr (withRefs exEnv' exX) exString).2.2 = [([89], 0)] :=
  ⟨by decide +kernel, exSimple _, by decide +kernel, by decide +kernel⟩

/-- The operand is `L'&B`. -/
def exLeading : Stmt where
  instr := none
  label := .plain
  operands := some [.caExpr (.attrVar .L (.named [66] .nil))]

/-- The numbers among the values of the operands. -/
def numbers (s : Option (List (Result × List Diag))) : List (Int × Nat) :=
  (s.getD []).map fun x => (match x.1 with | .value (.known (.a n)) => n | _ => 0, x.2.length)

/-- **C127 does not hold** for values like `X+1`: the length is that of `X`, but nothing is asked, so it is 1 with a warning instead
of 2. -/
theorem C127_witness_leading : asks exOpr exEnv exLeading = [] ∧ exLeading.open = true ∧
    numbers (evalStmt exOpr exEnv exLeading).2.2 = [(1, 1)] ∧
    numbers (evalStmt exOpr (withRefs exEnv exX) exLeading).2.2 = [(2, 0)] :=
  ⟨by decide +kernel, by decide +kernel, by decide +kernel, by decide +kernel⟩

end Verif.Asked
