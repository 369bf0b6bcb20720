import Verif.DataDef.ReportOnce
import Verif.DataDef.Props

/-
  C140: messages about operands of DC and DS.
-/

namespace Verif.DataDef

open Spec (about Sort' Mistake Says)

/-- Every operand gets an answer, the same that decides its length; it is refused exactly if an error is reported. -/
theorem C140_refused (i : Instr) (op : Operand) :
    ∃ ok ms, op.report i = .ok (ok, ms) ∧ op.check i = .ok ok ∧ (ok = false ↔ ∃ m ∈ ms, m.error = true) := by
  obtain ⟨⟨ok, ms⟩, h1, h2, h3⟩ := report_ok i op
  refine ⟨ok, ms, h1, h2, ?_⟩
  exact h3

section
variable {i : Instr} {d : Definition}

theorem type_of_unknown (h : accessType d.type d.ext = none) : d.ext ∉ Spec.extensions d.type := fun hk => by
  obtain ⟨td, ht⟩ := (known_iff _ _).mpr hk
  rw [h] at ht; cases ht

/-- The messages about an operand of a known type, before its size is looked at. -/
theorem reportType_split {td : TypeDef} {r : Rep} (hr : reportType td i d.operand = .ok r) :
    ∃ p, reportOwn td d.operand (checkBase td i d.operand).2 = .ok p ∧
      (r = (reportBase td i d.operand).1.and p ∨
        ((reportBase td i d.operand).1.and p).1 = true ∧ r = (false, ((reportBase td i d.operand).1.and p).2 ++ [.D028])) := by
  unfold reportType at hr
  dsimp only at hr
  rw [(base_fst td i d.operand).2] at hr
  cases ho : reportOwn td d.operand (checkBase td i d.operand).2 with
  | error e => rw [ho] at hr; cases hr
  | ok p =>
    rw [ho] at hr
    simp only [bind, Except.bind] at hr
    refine ⟨p, rfl, ?_⟩
    cases hc : ((reportBase td i d.operand).1.and p).1 with
    | false =>
      rw [hc] at hr
      simp only [Bool.not_false, if_true, Except.ok.injEq] at hr
      exact .inl hr.symm
    | true =>
      rw [hc] at hr
      simp only [Bool.not_true, Bool.false_eq_true, if_false] at hr
      cases hl : getLength td d.operand with
      | error e => rw [hl] at hr; cases hr
      | ok n =>
        rw [hl] at hr
        dsimp only at hr
        split at hr
        · cases hr; exact .inr ⟨rfl, rfl⟩
        · cases hr; exact .inl rfl

theorem base_has (s : Sort') (td : TypeDef) (op : Operand) (hs : s ≠ .value) :
    has s (reportBase td i op).1.2 = has s (reportModifiers td i op).2 := by
  unfold reportBase
  cases hc : (reportPresent i op).2 with
  | true =>
    simp only [if_true, Rep.and, has_append, present_has, nominalType_has, decide_eq_false hs, Bool.false_and, Bool.or_false]
  | false =>
    simp only [Bool.false_eq_true, if_false, Rep.and, has_append, present_has, decide_eq_false hs, Bool.false_and, Bool.or_false]

theorem bool_iff {b : Bool} {P : Prop} (h : b = false ↔ P) : b = true ↔ ¬ P := by
  rw [← h]; cases b <;> simp

/-- What an operand of a known type is blamed for, apart from its size. -/
theorem parts_known (h : Spec.Ordinary d) (hl : Spec.LengthSeen d) {td : TypeDef} (hm : td ∈ types) (ht : td.type = d.type)
    (he : td.ext = d.ext) {p : Rep} (hp : reportOwn td d.operand (checkBase td i d.operand).2 = .ok p) :
    (has .type ((reportBase td i d.operand).1.and p).2 = false)
    ∧ (has .size ((reportBase td i d.operand).1.and p).2 = false)
    ∧ (has .dupl ((reportBase td i d.operand).1.and p).2 = false ↔ Spec.Permitted d.dupl fun v => 0 ≤ v)
    ∧ (has .length ((reportBase td i d.operand).1.and p).2 = false
        ↔ Spec.Permitted d.length (Spec.LengthOk i d.type d.ext d.bit (Spec.relocatable d)))
    ∧ (has .scale ((reportBase td i d.operand).1.and p).2 = false ↔ Spec.Permitted d.scale (Spec.ScaleOk d.type d.ext))
    ∧ (has .exponent ((reportBase td i d.operand).1.and p).2 = false
        ↔ Spec.Permitted d.exponent (Spec.ExponentOk d.type))
    ∧ (has .value ((reportBase td i d.operand).1.and p).2 = false ↔ Spec.NominalOk i d) := by
  have hon := only_own hm d.operand _ p hp
  have hno : ∀ s, s ≠ .length → s ≠ .value → has s p.2 = false := by
    intro s h1 h2
    rw [hon s]
    rcases ownSort_cases td with hs | hs <;> rw [hs] <;> simp [h1, h2]
  simp only [Rep.and, has_append]
  rw [base_has .type _ _ (by decide), base_has .size _ _ (by decide), base_has .dupl _ _ (by decide),
    base_has .length _ _ (by decide), base_has .scale _ _ (by decide), base_has .exponent _ _ (by decide),
    hno .type (by decide) (by decide), hno .size (by decide) (by decide), hno .dupl (by decide) (by decide),
    hno .scale (by decide) (by decide), hno .exponent (by decide) (by decide)]
  simp only [modifiers_has]
  refine ⟨by simp, by simp, ?_, ?_, ?_, ?_, ?_⟩
  · rw [← dupl_iff h]; simp
  · rw [← length_iff h hm ht he, ← own_length_iff h hl hm ht hp]
    simp
  · rw [← scale_iff h hm ht he]; simp
  · rw [← exponent_iff h hm ht]; simp
  · rw [← own_value_iff h hm ht he hp]
    rw [Bool.or_eq_false_iff]

/-- An operand is blamed for a mistake exactly if it has that mistake: each mistake is found though there are others. -/
theorem C140_parts_partial (i : Instr) (d : Definition) (h : Spec.Ordinary d) (hl : Spec.LengthSeen d) :
    ∃ ok ms, d.operand.report i = .ok (ok, ms) ∧ ∀ s, (∃ m ∈ ms, about m = some s) ↔ Mistake i d s := by
  obtain ⟨r, hr, hck, hsound⟩ := report_ok i d.operand
  refine ⟨r.1, r.2, hr, ?_⟩
  intro s
  rw [← has_iff]
  unfold Operand.report at hr
  have hty : d.operand.type = d.type := rfl
  have hex : d.operand.ext = d.ext := rfl
  rw [hty, hex] at hr
  cases ha : accessType d.type d.ext with
  | none =>
    rw [ha] at hr
    have hk := type_of_unknown ha
    have key : r = Rep.fail .D013 ∨ r = Rep.fail .D012 := by
      dsimp only at hr
      split at hr
      · split at hr
        · cases hr; exact .inl rfl
        · cases hr; exact .inr rfl
      · cases hr; exact .inr rfl
    have : has s r.2 = decide (s = .type) := by
      rcases key with rfl | rfl <;> cases s <;> rfl
    rw [this]
    cases s <;> simp [Mistake, hk]
  | some td =>
    rw [ha] at hr
    dsimp only at hr
    obtain ⟨hm, ht, he⟩ := accessType_mem ha
    have hk : d.ext ∈ Spec.extensions d.type := (known_iff _ _).mp ⟨td, ha⟩
    obtain ⟨p, hp, hcase⟩ := reportType_split hr
    obtain ⟨p1, p2, p3, p4, p5, p6, p7⟩ := parts_known h hl hm ht he hp
    have hother : s ≠ .size → has s r.2 = has s ((reportBase td i d.operand).1.and p).2 := by
      intro hs
      rcases hcase with rfl | ⟨_, rfl⟩
      · rfl
      · rw [has_append]
        cases s <;> first | exact absurd rfl hs | simp [has, about]
    cases s with
    | type => rw [hother (by decide), p1]; simp [Mistake, hk]
    | dupl => rw [hother (by decide), bool_iff p3]; simp [Mistake, hk]
    | length => rw [hother (by decide), bool_iff p4]; simp [Mistake, hk]
    | scale => rw [hother (by decide), bool_iff p5]; simp [Mistake, hk]
    | exponent => rw [hother (by decide), bool_iff p6]; simp [Mistake, hk]
    | value => rw [hother (by decide), bool_iff p7]; simp [Mistake, hk]
    | size =>
      obtain ⟨b, hb, hbi⟩ := wellFormed_iff (i := i) h
      rw [hck] at hb
      cases hb
      have hsd := hsound
      constructor
      · intro hsz
        rcases hcase with hre | ⟨hok, hre⟩
        · rw [hre, p2] at hsz; cases hsz
        · have hfine : Spec.ModifiersOk i d ∧ Spec.NominalOk i d := by
            obtain ⟨own, ho, hi⟩ := checks_iff (i := i) h hm ht he
            refine hi.mp ?_
            rcases agree_own hm d.operand (checkBase td i d.operand).2 with ⟨e, h1, _⟩ | ⟨p', h1, h2, _⟩
            · rw [hp] at h1; cases h1
            · rw [hp] at h1; cases h1
              rw [ho] at h2; cases h2
              have := (base_fst td i d.operand).1
              rw [← this]
              exact hok
          refine ⟨hk, hfine.1, hfine.2, ?_⟩
          intro hbits
          have hrt := hbi.mpr ⟨hk, hfine.1, hfine.2, hbits⟩
          rw [hre] at hrt
          cases hrt
      · rintro ⟨_, h1, h2, h3⟩
        have hrf : r.1 = false := by
          cases hr1 : r.1 with
          | false => rfl
          | true => exact absurd (hbi.mp hr1).size h3
        rcases hcase with hre | ⟨hok, hre⟩
        · exfalso
          obtain ⟨own, ho, hi⟩ := checks_iff (i := i) h hm ht he
          have hb := hi.mpr ⟨h1, h2⟩
          rcases agree_own hm d.operand (checkBase td i d.operand).2 with ⟨e, h4, _⟩ | ⟨p', h4, h5, _⟩
          · rw [hp] at h4; cases h4
          · rw [hp] at h4; cases h4
            rw [ho] at h5; cases h5
            rw [hre] at hrf
            have := (base_fst td i d.operand).1
            simp only [Rep.and, this] at hrf
            rw [hb] at hrf; cases hrf
        · rw [hre, has_append]
          simp [has, about]

end

/-! ### what the messages say -/

theorem extensions_zero (c : Char) (h : '\x00' ∉ Spec.extensions c) : Spec.extensions c = [] := by
  unfold Spec.extensions at h ⊢
  split <;> first | rfl | (simp_all; done)

/-- What a message says is so: it names the part that is wrong, the limits it gives are those there are, the value it
points at is one that is wrong; and it is shown at the part it complains of. -/
theorem C140_says_partial (i : Instr) (d : Definition) (h : Spec.Ordinary d) :
    ∃ ok ms, d.operand.report i = .ok (ok, ms) ∧ ∀ m ∈ ms, Says i d m ∧ ∀ s, about m = some s → Spec.Shown s m.place := by
  obtain ⟨r, hr, hck, hsound⟩ := report_ok i d.operand
  refine ⟨r.1, r.2, hr, fun m hm => ⟨?_, ?_⟩⟩
  · unfold Operand.report at hr
    have hty : d.operand.type = d.type := rfl
    have hex : d.operand.ext = d.ext := rfl
    rw [hty, hex] at hr
    cases ha : accessType d.type d.ext with
    | none =>
      rw [ha] at hr
      dsimp only at hr
      have hk := type_of_unknown ha
      have hnone : ∀ {e}, accessType d.type e = none → e ∉ Spec.extensions d.type := fun he hk => by
        obtain ⟨td, ht⟩ := (known_iff _ _).mpr hk
        rw [he] at ht; cases ht
      split at hr
      · split at hr
        · rename_i td htd
          cases hr
          rw [mem_fail hm]
          exact ⟨hk, (known_iff _ _).mp ⟨td, htd⟩⟩
        · rename_i htd
          cases hr
          rw [mem_fail hm]
          exact extensions_zero _ (hnone htd)
      · rename_i he
        cases hr
        rw [mem_fail hm]
        have he : d.ext = '\x00' := by simpa using he
        rw [he] at hk
        exact extensions_zero _ hk
    | some td =>
      rw [ha] at hr
      dsimp only at hr
      obtain ⟨htm, ht, he⟩ := accessType_mem ha
      have hk : d.ext ∈ Spec.extensions d.type := (known_iff _ _).mp ⟨td, ha⟩
      obtain ⟨p, hp, hcase⟩ := reportType_split hr
      have hbefore : ∀ m ∈ ((reportBase td i d.operand).1.and p).2, Says i d m := by
        intro x hx
        simp only [Rep.and, List.mem_append] at hx
        rcases hx with hx | hx
        · have hmods : ∀ x ∈ (reportModifiers td i d.operand).2, Says i d x := by
            intro x hx
            simp only [reportModifiers, Rep.and, List.mem_append] at hx
            rcases hx with ((hx | hx) | hx) | hx
            · exact says_dupl h hx
            · exact says_length h htm ht he hx
            · exact says_scale h htm ht he hx
            · exact says_exponent h htm ht hx
          unfold reportBase at hx
          split at hx
          · rename_i hc
            simp only [Rep.and, List.mem_append] at hx
            rcases hx with (hx | hx) | hx
            · exact hmods x hx
            · exact says_present h hx
            · refine says_nominal htm ht he ?_ hx
              cases hpr : d.operand.nominal.present with
              | true => rfl
              | false =>
                exfalso
                unfold reportPresent at hc
                rw [hpr] at hc
                cases i <;> dsimp only at hc
                · cases hz : (decide (d.operand.dupl.value = 0) && d.operand.dupl.present) <;> rw [hz] at hc <;> simp at hc
                · simp at hc
          · simp only [Rep.and, List.mem_append] at hx
            rcases hx with hx | hx
            · exact hmods x hx
            · exact says_present h hx
        · exact says_own h htm ht he hp hx
      rcases hcase with hre | ⟨hok, hre⟩
      · rw [hre] at hm
        exact hbefore m hm
      · rw [hre] at hm
        simp only [List.mem_append, List.mem_singleton] at hm
        rcases hm with hm | rfl
        · exact hbefore m hm
        · have hfine : Spec.ModifiersOk i d ∧ Spec.NominalOk i d := by
            obtain ⟨own, ho, hi⟩ := checks_iff (i := i) h htm ht he
            refine hi.mp ?_
            rcases agree_own htm d.operand (checkBase td i d.operand).2 with ⟨e, h1, _⟩ | ⟨p', h1, h2, _⟩
            · rw [hp] at h1; cases h1
            · rw [hp] at h1; cases h1
              rw [ho] at h2; cases h2
              have := (base_fst td i d.operand).1
              rw [← this]
              exact hok
          intro hbits
          obtain ⟨b, hb, hbi⟩ := wellFormed_iff (i := i) h
          rw [hck] at hb
          cases hb
          have hrt := hbi.mpr ⟨hk, hfine.1, hfine.2, hbits⟩
          rw [hre] at hrt
          cases hrt
  · intro s hs
    cases m with
    | D008 q lo hi rel => cases q <;> cases hs <;> rfl
    | D009 q => cases q <;> cases hs <;> rfl
    | D025 q => cases hs
    | _ => cases hs <;> simp [Spec.Shown, Msg.place]

/-- A message shown at one of several values, or at its displacement or base, is shown at one that is wrong. -/
theorem C140_where_partial (i : Instr) (d : Definition) (h : Spec.Ordinary d) :
    ∃ ok ms, d.operand.report i = .ok (ok, ms) ∧ ∀ m ∈ ms, Spec.WrongAt d m.place := by
  obtain ⟨ok, ms, hr, hs⟩ := C140_says_partial i d h
  refine ⟨ok, ms, hr, fun m hm => ?_⟩
  have hm := (hs m hm).1
  cases m with
  | D020 k => exact hm
  | D022 k => exact hm
  | D023 k => exact hm
  | D008 q lo hi rel => cases q <;> trivial
  | D009 q => cases q <;> trivial
  | D025 q => cases q <;> trivial
  | _ => trivial

/-! ### the statement -/

/-- Where an operand of a list is. -/
theorem operands_ok (i : Instr) : ∀ (ops : List (Option Operand)) (j : Nat),
    ∃ ok ms, reportOperands i j ops = .ok (ok, ms) ∧ (ok = false ↔ ∃ m ∈ ms, m.error = true)
      ∧ (∀ k x, .op k x ∈ ms ↔ ∃ n op r, k = j + n ∧ ops[n]? = some (some op) ∧ op.report i = .ok r ∧ x ∈ r.2)
      ∧ ms.count .A004 = ops.count none ∧ .A010 ∉ ms ∧ .D029 ∉ ms
      ∧ (ok = true ↔ ∀ o ∈ ops, ∃ op, o = some op ∧ op.check i = .ok true)
  | [], j => ⟨true, [], rfl, by simp, by simp, rfl, by simp, by simp, by simp⟩
  | none :: r, j => by
    obtain ⟨ok, ms, h1, h2, h3, h4, h5, h6, h7⟩ := operands_ok i r (j + 1)
    refine ⟨false, .A004 :: ms, by simp [reportOperands, h1, bind, Except.bind], ?_, ?_, ?_, ?_, ?_, ?_⟩
    · simp [StMsg.error]
    · intro k x
      rw [List.mem_cons, or_iff_right (by simp), h3]
      constructor
      · rintro ⟨n, op, r', rfl, hn, hr⟩
        exact ⟨n + 1, op, r', by omega, by simpa using hn, hr⟩
      · rintro ⟨n, op, r', rfl, hn, hr⟩
        cases n with
        | zero => simp at hn
        | succ n => exact ⟨n, op, r', by omega, by simpa using hn, hr⟩
    · rw [List.count_cons_self, List.count_cons_self, h4]
    · simp [h5]
    · simp [h6]
    · simp
  | some op :: r, j => by
    obtain ⟨ok, ms, h1, h2, h3, h4, h5, h6, h7⟩ := operands_ok i r (j + 1)
    obtain ⟨b, xs, g1, g2, g3⟩ := C140_refused i op
    have hc : (xs.map (StMsg.op j)).count .A004 = 0 := by
      rw [List.count_eq_zero]; simp
    refine ⟨b && ok, xs.map (.op j) ++ ms, by simp [reportOperands, h1, g1, bind, Except.bind], ?_, ?_, ?_, ?_, ?_, ?_⟩
    · rw [Bool.and_eq_false_iff, g3, h2]
      constructor
      · rintro (⟨m, hm, he⟩ | ⟨m, hm, he⟩)
        · exact ⟨.op j m, by simp [hm], he⟩
        · exact ⟨m, by simp [hm], he⟩
      · rintro ⟨m, hm, he⟩
        rw [List.mem_append, List.mem_map] at hm
        rcases hm with ⟨x, hx, rfl⟩ | hm
        · exact .inl ⟨x, hx, he⟩
        · exact .inr ⟨m, hm, he⟩
    · intro k x
      rw [List.mem_append, h3]
      constructor
      · rintro (h | ⟨n, op', r', rfl, hn, hr⟩)
        · rw [List.mem_map] at h
          obtain ⟨y, hy, he⟩ := h
          cases he
          exact ⟨0, op, _, rfl, rfl, g1, hy⟩
        · exact ⟨n + 1, op', r', by omega, by simpa using hn, hr⟩
      · rintro ⟨n, op', r', rfl, hn, hr, hx⟩
        cases n with
        | zero =>
          simp only [List.getElem?_cons_zero, Option.some.injEq] at hn
          subst hn
          rw [g1] at hr
          cases hr
          exact .inl (List.mem_map.mpr ⟨x, hx, rfl⟩)
        | succ n => exact .inr ⟨n, op', r', by omega, by simpa using hn, hr, hx⟩
    · rw [List.count_append, hc, h4, List.count_cons_of_ne (by simp)]
      omega
    · simp [h5]
    · simp [h6]
    · rw [Bool.and_eq_true, h7]
      simp only [List.mem_cons, forall_eq_or_imp, Option.some.injEq, exists_eq_left', g2, Except.ok.injEq]

theorem filterMap_written : ∀ (ops : List (Option Definition)),
    (ops.map (Option.map Definition.operand)).filterMap id = (Spec.written ops).map Definition.operand
  | [] => rfl
  | none :: r => by simpa [Spec.written] using filterMap_written r
  | some d :: r => by
    have := filterMap_written r
    exact congrArg (d.operand :: ·) this

/-- No message about an operand is repeated. -/
theorem C140_once (i : Instr) (op : Operand) (ok : Bool) (ms : List Msg) (h : op.report i = .ok (ok, ms)) : ms.Nodup :=
  report_once i op h

/-- Every statement gets an answer, and it is refused exactly if an error is reported.  The messages about an operand are
those the operand gets by itself, whatever the others are; and there is a message for every empty operand. -/
theorem C140_statement (i : Instr) (ops : List (Option Operand)) :
    ∃ ok ms, reportStatement i ops = .ok (ok, ms) ∧ (ok = false ↔ ∃ m ∈ ms, m.error = true)
      ∧ (∀ j x, .op j x ∈ ms ↔ ∃ op r, ops[j]? = some (some op) ∧ op.report i = .ok r ∧ x ∈ r.2)
      ∧ ms.count .A004 = ops.count none ∧ (.A010 ∈ ms ↔ ops = []) := by
  obtain ⟨ok, ms, h1, h2, h3, h4, h5, h6, h7⟩ := operands_ok i ops 0
  have h3' : ∀ j x, StMsg.op j x ∈ ms ↔ ∃ op r, ops[j]? = some (some op) ∧ op.report i = .ok r ∧ x ∈ r.2 := by
    intro j x
    rw [h3]
    constructor
    · rintro ⟨n, op, r, rfl, h⟩
      exact ⟨op, r, by simpa using h⟩
    · rintro ⟨op, r, h⟩
      exact ⟨j, op, r, by omega, h⟩
  unfold reportStatement
  cases ops with
  | nil => exact ⟨false, [.A010], rfl, by simp [StMsg.error], by simp, by decide, by simp⟩
  | cons o r =>
    rw [if_neg (by simp)]
    simp only [h1, bind, Except.bind]
    cases ok with
    | false => exact ⟨false, ms, rfl, h2, h3', h4, by simp [h5]⟩
    | true =>
      simp only [Bool.not_true, Bool.false_eq_true, if_false]
      obtain ⟨n, hn⟩ : ∃ n, operandsLength i ((o :: r).filterMap id) = .ok n := by
        obtain ⟨q, hq⟩ := loop_total i ((o :: r).filterMap id) 0
        unfold operandsLength
        rw [hq]
        cases q with
        | none => exact ⟨_, rfl⟩
        | some q => exact ⟨_, rfl⟩
      rw [hn]
      dsimp only
      by_cases hc : n > 2147483647
      · rw [if_pos hc]
        refine ⟨false, _, rfl, ?_, ?_, ?_, ?_⟩
        · simp [StMsg.error]
        · intro j x; rw [List.mem_append, h3' j x]; simp
        · rw [List.count_append, h4]; simp
        · simp [h5]
      · rw [if_neg hc]
        exact ⟨true, ms, rfl, h2, h3', h4, by simp [h5]⟩

theorem placed_unique {p : Nat} {ops : List Operand} {e e' : Nat} (h : Spec.Placed p ops e) (h' : Spec.Placed p ops e') :
    e = e' := by
  induction h generalizing e' with
  | nil => cases h'; rfl
  | cons hq _ ih =>
    cases h' with
    | cons hq' hr' =>
      have := next_unique hq hq'
      subst this
      exact ih hr'

/-- Operands none of which is too long by itself are reported as too long together exactly if, placed one behind the
other, they need 2^31 bytes or more. -/
theorem C140_together_partial (i : Instr) (ops : List (Option Definition)) (h : ∀ d ∈ Spec.written ops, Spec.Ordinary d) :
    ∃ ok ms, reportStatement i (ops.map (Option.map Definition.operand)) = .ok (ok, ms)
      ∧ (.D029 ∈ ms ↔ (∃ d, some d ∈ ops) ∧ (∀ o ∈ ops, ∃ d, o = some d ∧ Spec.WellFormed i d)
          ∧ ∃ e, Spec.Placed 0 ((Spec.written ops).map Definition.operand) e ∧ 2147483647 * 8 < e) := by
  obtain ⟨ok, ms, h1, h2, h3, h4, h5, h6, h7⟩ := operands_ok i (ops.map (Option.map Definition.operand)) 0
  have hall : ok = true ↔ ∀ o ∈ ops, ∃ d, o = some d ∧ Spec.WellFormed i d := by
    rw [h7]
    constructor
    · intro ha o ho
      obtain ⟨op, he, hc⟩ := ha _ (List.mem_map_of_mem ho)
      cases o with
      | none => cases he
      | some d =>
        cases he
        obtain ⟨b, hb, hi⟩ := wellFormed_iff (i := i) (h d (by simpa [Spec.written] using ho))
        rw [hc] at hb; cases hb
        exact ⟨d, rfl, hi.mp rfl⟩
    · intro ha o ho
      obtain ⟨o', ho', rfl⟩ := List.mem_map.mp ho
      obtain ⟨d, rfl, hw⟩ := ha o' ho'
      obtain ⟨b, hb, hi⟩ := wellFormed_iff (i := i) (h d (by simpa [Spec.written] using ho'))
      rw [hi.mpr hw] at hb
      exact ⟨_, rfl, hb⟩
  unfold reportStatement
  cases ops with
  | nil => exact ⟨false, [.A010], rfl, by simp⟩
  | cons o r =>
    rw [if_neg (by simp)]
    simp only [h1, bind, Except.bind]
    cases hok : ok with
    | false =>
      refine ⟨false, ms, rfl, ?_⟩
      simp only [h6, false_iff]
      rintro ⟨_, ha, _⟩
      rw [hall.mpr ha] at hok; cases hok
    | true =>
      have ha := hall.mp hok
      have hw : ∀ d ∈ Spec.written (o :: r), Spec.WellFormed i d := by
        intro d hd
        have : some d ∈ o :: r := by simpa [Spec.written] using hd
        obtain ⟨d', he, hw⟩ := ha _ this
        cases he; exact hw
      obtain ⟨e, g1, g2⟩ := loop_placed (s := 0) (Spec.written (o :: r)) 0 h hw (fun d _ => Nat.dvd_zero _)
      simp only [Nat.mul_zero, Nat.zero_add] at g2
      have hex : ∃ d, some d ∈ o :: r := by
        obtain ⟨d, he, _⟩ := ha o (by simp)
        exact ⟨d, by simp [he]⟩
      simp only [Bool.not_true, Bool.false_eq_true, if_false]
      rw [filterMap_written]
      have hlen : operandsLength i ((Spec.written (o :: r)).map Definition.operand) = .ok (roundUp e 8 / 8) := by
        unfold operandsLength; rw [g1]; rfl
      rw [hlen]
      dsimp only
      obtain ⟨⟨k, hk⟩, hk2, hk3⟩ := roundUp_next e 8 (by omega)
      have hdiv : roundUp e 8 / 8 = k := by omega
      rw [hdiv]
      by_cases hc : k > 2147483647
      · rw [if_pos hc]
        refine ⟨false, _, rfl, ?_⟩
        simp only [List.mem_append, List.mem_singleton, or_true, true_iff]
        exact ⟨hex, ha, e, g2, by omega⟩
      · rw [if_neg hc]
        refine ⟨true, ms, rfl, ?_⟩
        simp only [h6, false_iff]
        rintro ⟨_, _, e', g3, hlt⟩
        have : e' = e := placed_unique g3 g2
        omega

/-! ### examples and witnesses -/

/-- What is reported about an operand, for the examples. -/
def reports (i : Instr) (d : Definition) : Option Rep := (d.operand.report i).toOption

theorem reports_iff {i : Instr} {d : Definition} {r : Rep} : reports i d = some r ↔ d.operand.report i = .ok r := by
  unfold reports
  cases d.operand.report i <;> simp [Except.toOption]

/-- What is reported about a statement, for the examples. -/
def statementReports (i : Instr) (ops : List (Option Definition)) : Option (Bool × List StMsg) :=
  (reportStatement i (ops.map (Option.map Definition.operand))).toOption

-- four mistakes in one operand: DC (-1)FL9S400E80'1X'
def four : Definition := ⟨.abs (-1), 'F', '\x00', .abs 9, false, .abs 400, .abs 80, some (.str "1X".toList)⟩

example : reports .DC four = some (false, [.D011, .D008 .length 1 8 false, .D008 .scale (-187) 346 false,
    .D008 .exponent (-85) 75 false, .D010]) := by decide +kernel

theorem four_ordinary : Spec.Ordinary four where
  settled := by simp [four]
  absolute := by simp [four]
  dupl := by simp [four]
  scale := by simp [four]
  bit := by simp [four]
  address := by simp [four]
  size := by decide +kernel

example : Spec.Ordinary four ∧ Spec.LengthSeen four ∧ Mistake .DC four .value ∧ ¬ Mistake .DC four .size := by
  refine ⟨four_ordinary, ?_, ?_, ?_⟩
  · intro h; exact absurd h (by decide)
  · obtain ⟨ok, ms, hr, hs⟩ := C140_parts_partial .DC four four_ordinary (by intro h; exact absurd h (by decide))
    have hr' := reports_iff.mp (by decide +kernel : reports .DC four = some (false, [.D011, .D008 .length 1 8 false,
      .D008 .scale (-187) 346 false, .D008 .exponent (-85) 75 false, .D010]))
    rw [hr] at hr'; cases hr'
    exact (hs .value).mp ⟨.D010, by simp, rfl⟩
  · rintro ⟨_, h, _⟩
    have := h.dupl
    simp [Spec.Permitted, four] at this

-- S constants: the third value and the base register of the fourth
example : reports .DC (plain 'S' (some (.exprs [.expr 0 .abs false, .expr 4095 .abs false, .expr 4096 .abs false,
    .address ⟨true, 16⟩ ⟨true, 0⟩ false]))) = some (false, [.D022 2, .D023 3]) := by decide +kernel

-- a scale that is ignored gets a warning, and the operand is accepted
example : reports .DC { plain 'E' (some (.str "1".toList)) with ext := 'B', scale := .abs 1 } = some (true, [.D025 .scale]) := by
  decide +kernel

-- each operand gets its own messages
example : statementReports .DC [some (plain 'X' (some (.str "G".toList))), none, some (plain 'F' (some (.str "1".toList))),
    some (plain 'W' none)] = some (false, [.op 0 .D010, .A004, .op 3 .D012]) := by decide +kernel

-- too long together
def half : Definition := { plain 'F' none with dupl := .abs 268435456 }

theorem half_ordinary : Spec.Ordinary half where
  settled := by simp [half, plain]
  absolute := by simp [half, plain]
  dupl := by simp [half, plain]
  scale := by simp [half, plain]
  bit := by simp [half, plain]
  address := by simp [half, plain]
  size := by decide +kernel

example : statementReports .DS [some half, some half] = some (false, [.D029])
    ∧ statementReports .DS [some half, some { half with dupl := .abs 268435455 }] = some (true, [])
    ∧ ∀ d ∈ Spec.written [some half, some half], Spec.Ordinary d := by
  refine ⟨by decide +kernel, by decide +kernel, ?_⟩
  intro d hd
  simp only [Spec.written, List.filterMap_cons, id, List.filterMap_nil, List.mem_cons, List.not_mem_nil, or_false,
    or_self] at hd
  rw [hd]; exact half_ordinary

/-- C140 fails: of `DC AL9'1'` only the apostrophes are reported; the length, which is too great too, is reported only when
they are corrected. -/
theorem C140_masked_witness : ∃ d : Definition, Spec.Ordinary d ∧ Mistake .DC d .length
    ∧ d.operand.report .DC = .ok (false, [.D017]) := by
  refine ⟨{ plain 'A' (some (.str "1".toList)) with length := .abs 9 }, ⟨by simp [plain], by simp [plain], by simp [plain],
    by simp [plain], by simp [plain], by simp [plain], by decide +kernel⟩, ⟨by decide, ?_⟩,
    reports_iff.mp (by decide +kernel)⟩
  rintro (h | ⟨v, h, hl⟩)
  · cases h
  · cases h
    simp [Spec.LengthOk, plain, Spec.relocatable] at hl

/-- C140 fails: the single mistake of `DC JL.5(X)`, a length in bits, is reported twice. -/
theorem C140_twice_witness : ∃ d : Definition, Spec.Ordinary d ∧ d.length = .abs 5 ∧ d.bit = true
    ∧ d.operand.report .DC = .ok (false, [.D007 false, .D024]) :=
  ⟨⟨.none, 'J', '\x00', .abs 5, true, .none, .none, some (.exprs [.expr 0 .reloc false])⟩, ⟨by simp, by simp, by simp,
    by simp, by simp, by simp, by decide +kernel⟩, rfl, rfl, reports_iff.mp (by decide +kernel)⟩

/-- C140 fails: a duplication factor that is not absolute is taken for zero without a word. -/
theorem C140_relocatable_witness : ∃ d : Definition, d.dupl = .other ∧ Mistake .DC d .dupl
    ∧ d.operand.report .DC = .ok (true, []) ∧ Spec.bits d.operand = 0 :=
  ⟨{ plain 'F' (some (.str "1".toList)) with dupl := .other }, rfl, ⟨by decide, by simp [Spec.Permitted]⟩,
    reports_iff.mp (by decide +kernel), by decide +kernel⟩

/-- C140 fails: a scale of 65536 loses its upper bits and is accepted as a scale of zero. -/
theorem C140_narrowed_witness : ∃ d : Definition, d.scale = .abs 65536 ∧ Mistake .DC d .scale
    ∧ d.operand.report .DC = .ok (true, []) :=
  ⟨{ plain 'F' (some (.str "1".toList)) with scale := .abs 65536 }, rfl,
    ⟨by decide, by simp [Spec.Permitted, Spec.ScaleOk, plain]⟩, reports_iff.mp (by decide +kernel)⟩

/-- C140 fails: `DC F'1',` is refused, with a message that has no place, but its four bytes are reserved. -/
theorem C140_empty_witness :
    statementReports .DC [some (plain 'F' (some (.str "1".toList))), none] = some (false, [.A004])
      ∧ result .DC false 0 [some (plain 'F' (some (.str "1".toList))), none] = some ⟨0, 4, none⟩ := by
  constructor <;> decide +kernel

end Verif.DataDef
