import Verif.AsmCheck.Props3

/-!
# The checks of assembler instructions: how many messages there are and where they are put
-/

namespace Verif.AsmCheck

/-- The place of a message exists: it is the statement, one of its operands or a parameter of one of them. In the code each place
is read from the operand it belongs to (`asm_operands[i]->operand_range`), so that a place that does not exist is an access behind
the end of an array. -/
inductive Exists (ops : List AOp) : Where → Prop
  | stmt : Exists ops .stmt
  | op (i : Nat) : i < ops.length → Exists ops (.op i)
  | param (i j : Nat) (id : String) (ps : List AOp) : ops[i]? = some (.complex id ps) → j < ps.length → Exists ops (.param i j)

/-- Accepted without a message, or refused with exactly one that is at a place that exists. -/
inductive Reported (ops : List AOp) : Out → Prop
  | accepted : Reported ops ⟨true, []⟩
  | refused (d : Diag) : Exists ops d.place → Reported ops ⟨false, [d]⟩

theorem reported_accept (ops : List AOp) : Reported ops accept := .accepted
theorem reported_stmt (ops : List AOp) (c : Nat) : Reported ops (refuse c .stmt) := .refused _ .stmt
theorem reported_op (ops : List AOp) (c i : Nat) (h : i < ops.length) : Reported ops (refuse c (.op i)) := .refused _ (.op i h)

theorem reported_ite {ops : List AOp} {p : Prop} [Decidable p] {a b : Out} (ha : p → Reported ops a) (hb : ¬ p → Reported ops b) :
    Reported ops (if p then a else b) := by
  by_cases h : p
  · rw [if_pos h]; exact ha h
  · rw [if_neg h]; exact hb h

theorem sized_prop {P : Out → Prop} (lo : Nat) (hi : Option Nat) (ops : List AOp) (k : Out) (hs : ∀ c, P (refuse c .stmt))
    (h : lo ≤ ops.length → (∀ n, hi = some n → ops.length ≤ n) → P k) : P (sized lo hi ops k) := by
  unfold sized
  split
  next h' =>
    rw [Bool.and_eq_true, decide_eq_true_eq] at h'
    refine h h'.1 fun n e => ?_
    subst e
    simpa using h'.2
  next =>
    split
    · exact hs _
    · split
      · exact hs _
      · split <;> exact hs _

theorem reported_sized {lo : Nat} {hi : Option Nat} {ops : List AOp} {k : Out}
    (h : lo ≤ ops.length → (∀ n, hi = some n → ops.length ≤ n) → Reported ops k) : Reported ops (sized lo hi ops k) :=
  sized_prop lo hi ops k (reported_stmt ops) h

theorem firstWrong_some (f : Nat → AOp → Option Diag) (l : List AOp) (k : Nat) (d : Diag) (h : firstWrong f k l = some d) :
    ∃ j o, l[j]? = some o ∧ f (k + j) o = some d := by
  induction l generalizing k with
  | nil => simp [firstWrong] at h
  | cons a r ih =>
    simp only [firstWrong, Option.or_eq_some_iff] at h
    rcases h with h | ⟨-, h⟩
    · exact ⟨0, a, rfl, h⟩
    · obtain ⟨j, o, h1, h2⟩ := ih (k + 1) h
      exact ⟨j + 1, o, h1, by rw [← h2]; congr 1; omega⟩

theorem reported_outOf {ops : List AOp} {x : Option Diag} (h : ∀ d, x = some d → Exists ops d.place) : Reported ops (outOf x) := by
  cases x with
  | none => exact .accepted
  | some d => exact .refused d (h d rfl)

/-- A loop over all operands. -/
theorem reported_loop {ops : List AOp} {f : Nat → AOp → Option Diag}
    (h : ∀ i o d, ops[i]? = some o → i < ops.length → f i o = some d → Exists ops d.place) :
    Reported ops (outOf (firstWrong f 0 ops)) := by
  refine reported_outOf fun d hd => ?_
  obtain ⟨j, o, h1, h2⟩ := firstWrong_some f ops 0 d hd
  rw [Nat.zero_add] at h2
  exact h j o d h1 (List.getElem?_eq_some_iff.1 h1).1 h2

theorem checkNoOperands_reported (ops : List AOp) : Reported ops (checkNoOperands ops) := reported_sized fun _ _ => .accepted

theorem checkExpression_reported (ops : List AOp) : Reported ops (checkExpression ops) := by
  unfold checkExpression
  split
  · exact .accepted
  · exact .accepted
  · refine reported_sized fun _ _ => ?_
    unfold checkExpression1
    split
    · exact reported_ite (fun _ => .accepted) fun _ => reported_op _ _ _ (by simp)
    · exact reported_op _ _ _ (by simp)
    · exact reported_op _ _ _ (by simp)

theorem checkCnop_reported (ops : List AOp) : Reported ops (checkCnop ops) := by
  unfold checkCnop
  refine reported_sized fun h _ => ?_
  split
  · split
    · exact reported_op _ _ _ (by simp)
    · exact reported_op _ _ _ (by simp)
    · unfold checkCnop2
      exact reported_ite (fun _ => reported_op _ _ _ (by simp)) fun _ => reported_ite (fun _ => reported_op _ _ _ (by simp))
        fun _ => reported_ite (fun _ => reported_op _ _ _ (by simp)) fun _ => .accepted
  · exact .accepted

theorem checkIctl2_reported (ops : List AOp) (b e : Int) (c : Option Int) (h0 : 0 < ops.length)
    (h1 : (e < 41 ∨ e > 80 ∨ 45 < e ∧ e < b + 5 ∨ e ≤ 45 ∧ e < b + 5) → b ≤ 40 → 1 < ops.length)
    (h2 : ∀ x, c = some x → (x < 2 ∨ x > 40) → 2 < ops.length) : Reported ops (checkIctl2 b e c) := by
  unfold checkIctl2
  refine reported_ite (fun _ => reported_op _ _ _ h0) fun hb => ?_
  refine reported_ite (fun h => reported_op _ _ _ (h1 (by omega) (by omega))) fun he => ?_
  refine reported_ite (fun h => reported_op _ _ _ (h1 (by omega) (by omega))) fun hbe => ?_
  cases c with
  | none => exact .accepted
  | some x =>
    exact reported_ite (fun h => reported_op _ _ _ (h2 x rfl h)) fun _ => reported_ite (fun _ => reported_stmt _ _) fun _ => .accepted

theorem checkIctl_reported (ops : List AOp) : Reported ops (checkIctl ops) := by
  unfold checkIctl
  refine reported_sized fun h _ => ?_
  unfold checkIctl3
  split
  · exact reported_op _ _ _ (by simp)
  next ops' _ =>
    split
    next d hd =>
      obtain ⟨j, o, h1, h2⟩ := firstWrong_some _ _ 0 d hd
      rw [Nat.zero_add] at h2
      refine .refused d ?_
      have hj := (List.getElem?_eq_some_iff.1 h1).1
      unfold ictlForm at h2
      split at h2
      · split at h2
        · simp at h2
        · cases h2; exact .op j hj
      · cases h2; exact .op j hj
    next =>
      rcases ops with _ | ⟨a, _ | ⟨b, _ | ⟨c, r⟩⟩⟩
      · simp at h
      · refine checkIctl2_reported _ _ _ _ (by simp) ?_ ?_
        · simp only [ictlValues]; omega
        · simp only [ictlValues]; rintro x e; cases e; omega
      · refine checkIctl2_reported _ _ _ _ (by simp) (by simp) ?_
        simp [ictlValues]
      · refine checkIctl2_reported _ _ _ _ (by simp) (by simp) (by simp)

theorem checkIseq_reported (ops : List AOp) : Reported ops (checkIseq ops) := by
  unfold checkIseq
  split
  · exact .accepted
  · split
    · unfold checkIseq2
      exact reported_ite (fun _ => .accepted) fun _ => reported_ite (fun _ => reported_stmt _ _) fun _ => reported_stmt _ _
    · exact reported_stmt _ _
  · exact reported_stmt _ _

theorem checkEntry_reported (ops : List AOp) : Reported ops (checkEntry ops) := by
  unfold checkEntry
  refine reported_sized fun h _ => reported_ite (fun _ => reported_stmt _ _) fun _ => reported_loop fun i o d _ hi hd => ?_
  unfold entryOperand at hd
  split at hd
  · cases hd
  · cases hd; exact .op i hi

theorem checkExternal_reported (ops : List AOp) : Reported ops (checkExternal ops) := by
  unfold checkExternal
  refine reported_sized fun h _ => reported_loop fun i o d _ hi hd => ?_
  cases o with
  | complex id ps =>
    simp only [externalOperand] at hd
    split at hd
    · cases hd; exact .op i hi
    · split at hd
      · cases hd
      · cases hd; exact .op i hi
  | simple t v =>
    simp only [externalOperand] at hd
    split at hd
    · cases hd; exact .op i hi
    · cases hd
  | empty => cases hd; exact .op i hi

theorem endLanguage_reported (o l : AOp) : Reported [o, l] (endLanguage l) := by
  cases l with
  | empty => exact .accepted
  | simple t v => exact reported_op _ _ _ (by simp)
  | complex id ps =>
    simp only [endLanguage]
    refine reported_ite (fun _ => reported_stmt _ _) fun hl => reported_ite (fun _ => reported_op _ _ _ (by simp)) fun _ => ?_
    have hp : ∀ j, j < ps.length → Exists [o, .complex id ps] (.param 1 j) := fun j hj => .param 1 j id ps rfl hj
    rw [not_not] at hl
    split
    next d hd =>
      obtain ⟨j, p, h1, h2⟩ := firstWrong_some _ _ 0 d hd
      rw [Nat.zero_add] at h2
      unfold endParam at h2
      split at h2
      · cases h2
      · cases h2
        exact .refused _ (hp j (List.getElem?_eq_some_iff.1 h1).1)
    next =>
      split
      · unfold endTexts
        exact reported_ite (fun _ => .refused _ (hp 0 (by omega))) fun _ => reported_ite (fun _ => .refused _ (hp 1 (by omega)))
          fun _ => reported_ite (fun _ => .refused _ (hp 2 (by omega))) fun _ => .accepted
      · exact .accepted

theorem checkEnd_reported (ops : List AOp) : Reported ops (checkEnd ops) := by
  unfold checkEnd
  refine reported_sized fun h _ => ?_
  split
  · exact .accepted
  · refine reported_ite (fun _ => reported_op _ _ _ (by simp)) fun _ => ?_
    split
    · exact endLanguage_reported _ _
    · exact .accepted

theorem mnoteTexts_reported (ops : List AOp) (t : String) (i : Nat) (f : Option (String × Option Int)) (hi : i < ops.length) :
    Reported ops (mnoteTexts t i f) := by
  unfold mnoteTexts
  refine reported_ite (fun _ => reported_op _ _ _ hi) fun _ => reported_ite (fun _ => reported_op _ _ _ hi) fun _ => ?_
  split
  · exact .accepted
  · exact reported_ite (fun _ => reported_stmt _ _) fun _ => reported_ite (fun _ => .accepted) fun _ =>
      reported_ite (fun _ => reported_op _ _ _ (by omega)) fun _ => reported_ite (fun _ => .accepted) fun _ => reported_op _ _ _ (by omega)

theorem checkMnote_reported (ops : List AOp) : Reported ops (checkMnote ops) := by
  unfold checkMnote
  refine reported_sized fun h _ => ?_
  split
  · exact mnoteTexts_reported _ _ _ _ (by simp)
  · exact reported_op _ _ _ (by simp)
  · exact mnoteTexts_reported _ _ _ _ (by simp)
  · exact mnoteTexts_reported _ _ _ _ (by simp)
  · exact reported_op _ _ _ (by simp)
  · exact reported_op _ _ _ (by simp)
  · exact .accepted

theorem checkOpsyn_reported (ops : List AOp) : Reported ops (checkOpsyn ops) := by
  unfold checkOpsyn
  refine reported_sized fun h _ => ?_
  split
  · exact reported_ite (fun _ => reported_op _ _ _ (by simp)) fun _ => .accepted
  · exact .accepted

theorem stackLoop_reported (ops : List AOp) (seen : List String) (i : Nat) (r : List AOp) (h : i + r.length = ops.length) :
    Reported ops (stackLoop ops.length seen i r) := by
  induction r generalizing seen i with
  | nil => exact .accepted
  | cons o r ih =>
    have hi : i < ops.length := by simp at h; omega
    have hr : i + 1 + r.length = ops.length := by simp at h; omega
    cases o with
    | simple t v =>
      simp only [stackLoop]
      refine reported_ite (fun _ => reported_ite (fun _ => reported_stmt _ _) fun _ => ih _ _ hr) fun _ => ?_
      exact reported_ite (fun _ => reported_ite (fun _ => reported_op _ _ _ hi) fun _ => reported_ite (fun _ => reported_stmt _ _)
        fun _ => ih _ _ hr) fun _ => reported_op _ _ _ hi
    | complex id ps => exact reported_op _ _ _ hi
    | empty => exact reported_op _ _ _ hi

theorem checkStack_reported (ops : List AOp) : Reported ops (checkStack ops) :=
  reported_sized fun _ _ => stackLoop_reported ops [] 0 ops (by simp)

theorem checkPrint_reported (ops : List AOp) : Reported ops (checkPrint ops) := by
  unfold checkPrint
  refine reported_sized fun h _ => reported_loop fun i o d _ hi hd => ?_
  unfold printOperand at hd
  split at hd
  · cases hd
  · cases hd; exact .op i hi

theorem checkPunch_reported (ops : List AOp) : Reported ops (checkPunch ops) := by
  unfold checkPunch
  refine reported_sized fun h _ => ?_
  split
  · exact reported_ite (fun _ => reported_op _ _ _ (by simp)) fun _ => reported_ite (fun _ => .accepted)
      fun _ => reported_op _ _ _ (by simp)
  · exact reported_op _ _ _ h

theorem checkRmode_reported (ops : List AOp) : Reported ops (checkRmode ops) :=
  reported_sized fun h _ => reported_ite (fun _ => .accepted) fun _ => reported_op _ _ _ h

theorem checkAmode_reported (ops : List AOp) : Reported ops (checkAmode ops) :=
  reported_sized fun h _ => reported_ite (fun _ => .accepted) fun _ => reported_op _ _ _ h

theorem checkTitle_reported (ops : List AOp) : Reported ops (checkTitle ops) := by
  unfold checkTitle
  refine reported_sized fun h _ => ?_
  split
  · exact reported_ite (fun _ => reported_op _ _ _ (by simp)) fun _ => reported_ite (fun _ => reported_op _ _ _ (by simp))
      fun _ => .accepted
  · exact reported_op _ _ _ h

theorem checkDrop_reported (ops : List AOp) : Reported ops (checkDrop ops) := by
  unfold checkDrop
  split
  · exact .accepted
  · refine reported_loop fun i o d _ hi hd => ?_
    unfold dropOperand at hd
    split at hd
    · split at hd <;> cases hd; exact .op i hi
    · split at hd <;> cases hd; exact .op i hi
    · cases hd; exact .op i hi

theorem checkCcw_reported (ops : List AOp) : Reported ops (checkCcw ops) := by
  unfold checkCcw
  refine reported_sized fun h _ => reported_loop fun i o d _ hi hd => ?_
  cases o <;> cases hd <;> exact .op i hi

theorem checkAinsert_reported (ops : List AOp) : Reported ops (checkAinsert ops) := by
  unfold checkAinsert
  refine reported_sized fun h _ => ?_
  split
  next _ a b r _ =>
    cases a with
    | simple t v =>
      simp only [checkAinsert2]
      exact reported_ite (fun _ => reported_op _ _ _ (by simp)) fun _ => reported_ite (fun _ => reported_op _ _ _ (by simp))
        fun _ => reported_ite (fun _ => reported_op _ _ _ (by simp)) fun _ => reported_ite (fun _ => .accepted)
        fun _ => reported_op _ _ _ (by simp)
    | complex id ps => exact reported_op _ _ _ (by simp)
    | empty => exact reported_op _ _ _ (by simp)
  · exact .accepted

theorem checkCattr_reported (ops : List AOp) : Reported ops (checkCattr ops) := by
  unfold checkCattr
  refine reported_sized fun h _ => reported_loop fun i o d ho hi hd => ?_
  cases o with
  | simple t v =>
    simp only [cattrOperand] at hd
    split at hd <;> cases hd
    exact .op i hi
  | empty => cases hd; exact .op i hi
  | complex id ps =>
    simp only [cattrOperand] at hd
    split at hd
    · cases hd; exact .op i hi
    · split at hd
      next _ p =>
        have hp : Exists ops (.param i 0) := .param i 0 id [p] ho (by simp)
        unfold cattrParam at hd
        split at hd
        · split at hd <;> cases hd; exact hp
        · split at hd
          · split at hd <;> cases hd; exact hp
          · split at hd
            · split at hd <;> cases hd; exact hp
            · split at hd
              · split at hd <;> cases hd; exact hp
              · split at hd <;> cases hd; exact hp
      · cases hd; exact .stmt

theorem checkExitctl_reported (ops : List AOp) : Reported ops (checkExitctl ops) := by
  unfold checkExitctl
  refine reported_sized fun h _ => ?_
  split
  next _ o r _ =>
    refine reported_ite (fun _ => reported_outOf fun d hd => ?_) fun _ => reported_op _ _ _ (by simp)
    obtain ⟨j, p, h1, h2⟩ := firstWrong_some _ _ 1 d hd
    have hj := (List.getElem?_eq_some_iff.1 h1).1
    have hj' : 1 + j < (o :: r).length := by simp only [List.length_cons]; omega
    unfold exitctlValue at h2
    split at h2 <;> cases h2 <;> exact .op _ hj'
  · exact .accepted

theorem xattrRefs_place (i : Nat) (a b : Bool) (j : Nat) (r : List AOp) (d : Diag) (h : xattrRefs i a b j r = some d) :
    ∃ k, k < j + r.length ∧ d.place = .param i k := by
  induction r generalizing a b j with
  | nil => cases h
  | cons o r ih =>
    have hrec : ∀ a b, xattrRefs i a b (j + 1) r = some d → ∃ k, k < j + (o :: r).length ∧ d.place = .param i k := by
      intro a b h
      obtain ⟨k, h1, h2⟩ := ih a b (j + 1) h
      exact ⟨k, by simp only [List.length_cons]; omega, h2⟩
    have hj : j < j + (o :: r).length := by simp
    cases o with
    | simple t v =>
      simp only [xattrRefs] at h
      split at h
      · split at h
        · cases h; exact ⟨j, hj, rfl⟩
        · exact hrec _ _ h
      · split at h
        · split at h
          · cases h; exact ⟨j, hj, rfl⟩
          · exact hrec _ _ h
        · cases h; exact ⟨j, hj, rfl⟩
    | complex id ps => cases h; exact ⟨j, hj, rfl⟩
    | empty => cases h; exact ⟨j, hj, rfl⟩

theorem checkXattr_reported (ops : List AOp) : Reported ops (checkXattr ops) := by
  unfold checkXattr
  refine reported_sized fun h _ => reported_loop fun i o d ho hi hd => ?_
  cases o with
  | simple t v => cases hd; exact .op i hi
  | empty => cases hd; exact .op i hi
  | complex id ps =>
    simp only [xattrOperand] at hd
    split at hd
    · split at hd
      next p =>
        have hp : Exists ops (.param i 0) := .param i 0 id [p] ho (by simp)
        unfold xattrParam at hd
        split at hd
        · split at hd <;> cases hd; exact hp
        · split at hd
          · split at hd <;> cases hd; exact hp
          · cases hd
      · cases hd; exact .stmt
    · split at hd
      · split at hd
        · cases hd; exact .stmt
        · obtain ⟨k, h1, h2⟩ := xattrRefs_place _ _ _ _ _ _ hd
          rw [h2]
          exact .param i k id ps ho (by omega)
      · cases hd; exact .op i hi

theorem checkAcontrol_reported (ops : List AOp) : Reported ops (checkAcontrol ops) := by
  unfold checkAcontrol
  refine reported_sized fun h _ => reported_loop fun i o d ho hi hd => ?_
  cases o with
  | simple t v =>
    simp only [acontrolOperand] at hd
    split at hd <;> cases hd
    exact .op i hi
  | empty => cases hd; exact .op i hi
  | complex id ps =>
    have hp : ∀ j, j < ps.length → Exists ops (.param i j) := fun j hj => .param i j id ps ho hj
    have hf : ∀ f : Nat → AOp → Option Diag, (∀ j p d, f j p = some d → d.place = .param i j) → firstWrong f 0 ps = some d →
        Exists ops d.place := by
      intro f hf h
      obtain ⟨j, p, h1, h2⟩ := firstWrong_some _ _ 0 d h
      rw [Nat.zero_add] at h2
      rw [hf j p d h2]
      exact hp j (List.getElem?_eq_some_iff.1 h1).1
    simp only [acontrolOperand] at hd
    split at hd
    · cases hd; exact .op i hi
    · split at hd
      · cases hd; exact .stmt
      · unfold acontrolParams at hd
        split at hd
        · refine hf _ (fun j p d h => ?_) hd
          split at h <;> cases h; rfl
        · split at hd
          · refine hf _ (fun j p d h => ?_) hd
            unfold flagParam at h
            split at h
            · split at h
              · cases h
              · split at h
                · split at h
                  · split at h <;> cases h; rfl
                  · cases h; rfl
                · cases h; rfl
            · cases h; rfl
          · split at hd
            · unfold optableParams at hd
              split at hd
              · split at hd <;> cases hd; exact hp 0 (by simp)
              · split at hd
                · split at hd <;> cases hd; exact hp 1 (by simp)
                · cases hd; exact hp 0 (by simp)
              · cases hd; exact .stmt
            · refine hf _ (fun j p d h => ?_) hd
              split at h <;> cases h; rfl

theorem aliasPairs_reported (ops : List AOp) (h : 0 < ops.length) (l : List Char) : Reported ops (aliasPairs l) := by
  induction l using aliasPairs.induct <;> unfold aliasPairs
  · rw [if_pos ‹_›]; exact reported_op _ _ _ h
  · rw [if_neg ‹_›]
    simp only [*]
    exact reported_op _ _ _ h
  · rw [if_neg ‹_›]
    simp only [*]
    exact reported_op _ _ _ h
  · rw [if_neg ‹_›]
    simp only [*]
    exact ‹Reported ops _›
  · split
    · simp_all
    · exact .accepted

theorem checkAlias_reported (ops : List AOp) : Reported ops (checkAlias ops) ∨ checkAlias ops = ⟨false, []⟩ := by
  unfold checkAlias
  refine sized_prop (P := fun o => Reported ops o ∨ o = ⟨false, []⟩) _ _ _ _ (fun c => Or.inl (reported_stmt _ _)) fun h _ => ?_
  split
  · split
    · exact Or.inl (reported_op _ _ _ (by simp))
    · unfold aliasText
      split
      · split
        · split
          · exact Or.inl (reported_ite (fun _ => .accepted) fun _ => reported_op _ _ _ (by simp))
          · split
            · exact Or.inl (reported_ite (fun _ => reported_op _ _ _ (by simp)) fun _ => aliasPairs_reported _ (by simp) _)
            · exact Or.inr rfl
        · exact Or.inl (reported_op _ _ _ (by simp))
      · exact Or.inl (reported_op _ _ _ (by simp))
  · exact Or.inl (reported_op _ _ _ h)

theorem checkAdata_place (ops : List AOp) :
    (∀ d ∈ (checkAdata ops).diags, Exists ops d.place) ∧ ((checkAdata ops).ok = false → (checkAdata ops).diags ≠ []) := by
  unfold checkAdata
  refine sized_prop (P := fun o => (∀ d ∈ o.diags, Exists ops d.place) ∧ (o.ok = false → o.diags ≠ [])) _ _ _ _
    (fun c => ?_) fun h h' => ?_
  · simp only [refuse, List.mem_singleton, forall_eq]
    exact ⟨.stmt, by simp⟩
  · have h5 : 4 < ops.length := h
    split
    next _ d hd =>
      obtain ⟨j, o, h1, h2⟩ := firstWrong_some _ _ 0 d hd
      rw [Nat.zero_add] at h2
      have hj := (List.getElem?_eq_some_iff.1 h1).1
      rw [List.length_dropLast] at hj
      simp only [List.mem_singleton, forall_eq]
      refine ⟨?_, by simp⟩
      unfold adataValue at h2
      split at h2 <;> cases h2
      exact .op j (by omega)
    next o _ _ =>
      cases o with
      | empty => simp [adataString, accept]
      | complex id ps =>
        simp only [adataString, refuse, List.mem_singleton, forall_eq]
        exact ⟨.op 4 h5, by simp⟩
      | simple t v =>
        simp only [adataString]
        split <;> split <;> simp [Exists.op 4 h5]
    · simp [accept]

end Verif.AsmCheck
