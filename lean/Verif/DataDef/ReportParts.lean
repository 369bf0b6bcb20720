import Verif.DataDef.ReportLemmas
import Verif.DataDef.Place

/-
  Which parts of an operand the messages are about.
-/

namespace Verif.DataDef

open Spec (about Sort' Mistake Says values)

/-- The sort of mistake of a modifier. -/
def Mod.sort : Mod → Sort'
  | .length => .length
  | .bitLength => .length
  | .scale => .scale
  | .exponent => .exponent

theorem has_fine (s : Sort') : has s Rep.fine.2 = false := rfl

theorem has_fail (s : Sort') (m : Msg) : has s (Rep.fail m).2 = decide (about m = some s) := by
  simp [has, Rep.fail]

theorem some_swap (a b : Sort') : decide (some a = some b) = decide (b = a) := by
  by_cases h : b = a
  · subst h; simp
  · have h' : ¬ a = b := fun e => h e.symm
    simp [h, h']

theorem modifier_has (s : Sort') (m : Mod) (p : Bool) (v : Int) (sp : ModSpec) :
    has s (reportModifier m p v sp).2 = (decide (s = m.sort) && !checkModifier p v sp) := by
  rw [← modifier_fst m]
  unfold reportModifier
  split
  · simp [Rep.fine]
  · split
    · simp [Rep.fine]
    · simp [has, about]
    · cases m <;> cases s <;> rfl
    · split
      · cases m <;> cases s <;> rfl
      · simp [Rep.fine]

theorem dupl_has (s : Sort') (op : Operand) : has s (reportDupl op).2 = (decide (s = .dupl) && !checkDupl op) := by
  rw [← dupl_fst]
  unfold reportDupl
  split
  · split
    · cases s <;> rfl
    · simp [Rep.fine]
  · simp [Rep.fine]

theorem length_has (s : Sort') (td : TypeDef) (i : Instr) (op : Operand) :
    has s (reportLength td i op).2 = (decide (s = .length) && !checkLength td i op) := by
  rw [← length_fst]
  unfold reportLength
  split
  · cases s <;> rfl
  · split
    · rw [modifier_has, modifier_fst]; rfl
    · rw [modifier_has, modifier_fst]; rfl

theorem modifiers_has (s : Sort') (td : TypeDef) (i : Instr) (op : Operand) :
    has s (reportModifiers td i op).2 = ((decide (s = .dupl) && !checkDupl op) || (decide (s = .length) && !checkLength td i op)
      || (decide (s = .scale) && !checkModifier op.scale.present op.scale.value td.scale)
      || (decide (s = .exponent) && !checkModifier op.exponent.present op.exponent.value td.exponent)) := by
  simp only [reportModifiers, Rep.and, has_append, dupl_has, length_has, modifier_has, Mod.sort]
  rfl

theorem present_has (s : Sort') (i : Instr) (op : Operand) :
    has s (reportPresent i op).1.2 = (decide (s = .value) && !(checkNominalPresent i op).1) := by
  rw [← (present_fst i op).1]
  unfold reportPresent
  cases i
  · dsimp only
    split
    · cases s <;> rfl
    · split <;> simp [Rep.fine]
  · dsimp only
    split <;> simp [Rep.fine]

theorem addresses_has (s : Sort') : ∀ (l : List Value) (k : Nat),
    has s (reportAddresses k l) = (decide (s = .value) && l.any Value.isAddress)
  | [], _ => by simp [reportAddresses]
  | v :: l, k => by
    rw [reportAddresses, has_append, addresses_has s l (k + 1), List.any_cons]
    cases v.isAddress
    · simp
    · simp only [if_true, Bool.true_or, Bool.and_true]
      cases s <;> simp [has, about]

theorem nominalType_has (s : Sort') (td : TypeDef) (op : Operand) :
    has s (reportNominalType td op).2 = (decide (s = .value) && !checkNominalType td op) := by
  rw [← nominalType_fst]
  unfold reportNominalType
  split
  · simp [Rep.fine]
  · cases s <;> rfl
  · cases s <;> rfl
  · rw [addresses_has]; simp
  · cases s <;> rfl
  · simp [Rep.fine]

/-- What the virtual `check` of a type looks at: the length or the value. -/
def ownSort (td : TypeDef) : Sort' :=
  match td.type, td.ext with
  | 'C', 'U' | 'G', _ | 'A', _ | 'Y', _ | 'R', 'D' | 'V', 'D' | 'J', _ => .length
  | _, _ => .value

theorem sValue_has (s : Sort') (size : Nat) (signed : Bool) (k : Nat) (v : Value) :
    has s (reportSValue size signed k v).2 = (decide (s = .value) && !checkSValue size signed v) := by
  rw [← sValue_fst size signed k]
  cases v with
  | expr x kind g =>
    unfold reportSValue
    dsimp only
    repeat' split
    all_goals (cases s <;> rfl)
  | address b x g =>
    unfold reportSValue
    dsimp only
    cases g <;> cases signed <;> cases sizeSigned x.value size <;> cases sizeUnsigned x.value size <;>
      cases sizeUnsigned b.value 4 <;> cases s <;> rfl

theorem sLoop_has (s : Sort') (size : Nat) (signed : Bool) : ∀ (l : List Value) (k : Nat),
    has s (reportSLoop size signed k l).2 = (decide (s = .value) && !l.all (checkSValue size signed))
  | [], _ => by simp [reportSLoop, Rep.fine]
  | v :: l, k => by
    simp only [reportSLoop, Rep.and, has_append, sValue_has, sLoop_has s size signed l (k + 1), List.all_cons]
    cases decide (s = Sort'.value) <;> cases checkSValue size signed v <;> rfl

/-- The messages of a check are about one sort of mistake, and there are some exactly if it returns false. -/
def Only (t : Sort') (r : Except Crash Rep) : Prop := ∀ p, r = .ok p → ∀ s, has s p.2 = (decide (s = t) && !p.1)

theorem only_fine (t : Sort') : Only t (.ok Rep.fine) := by
  intro p h s; cases h; simp [Rep.fine]

theorem only_fail {t : Sort'} {m : Msg} (h : about m = some t) : Only t (.ok (Rep.fail m)) := by
  intro p hp s
  cases hp
  rw [has_fail, h, some_swap]
  simp [Rep.fail]

theorem only_if {t : Sort'} (c : Bool) {r : Except Crash Rep} (h : Only t r) : Only t (if !c then .ok Rep.fine else r) := by
  cases c
  · exact only_fine t
  · exact h

theorem only_text {t : Sort'} (op : Operand) (f : Text → Rep) (h : ∀ s, Only t (.ok (f s))) :
    Only t (do .ok (f (← getText op.nominal.value))) := by
  cases op.nominal.value with
  | str s => exact h s
  | exprs l => intro p hp; cases hp

theorem only_reportText (b : Bool) : Only .value (.ok (reportText b)) := by
  cases b
  · exact only_fail rfl
  · exact only_fine _

theorem only_EDL (ext : Char) (s : Text) : Only .value (.ok (reportEDL ext s)) := by
  rcases edl_cases ext s with ⟨h, _⟩ | ⟨h | h, _⟩ <;> rw [h]
  · exact only_fine _
  · exact only_fail rfl
  · exact only_fail rfl

theorem only_A (op : Operand) (a b c d e f : Int) : Only .length (reportALength op a b c d e f) := by
  unfold reportALength
  split
  · exact only_fine _
  · cases hg : getExprs op.nominal.value with
    | error x => intro p hp; cases hp
    | ok l =>
      simp only [bind, Except.bind]
      cases ha : allAbsolute l with
      | error x => intro p hp; cases hp
      | ok abs =>
        dsimp only
        repeat' split
        all_goals first | exact only_fine _ | exact only_fail rfl

theorem only_S (op : Operand) (size : Nat) (signed : Bool) : Only .value (reportS size signed op) := by
  unfold reportS
  cases hg : getExprs op.nominal.value with
  | error x => intro p hp; cases hp
  | ok l =>
    intro p hp s
    cases hp
    rw [sLoop_has, sLoop_fst]

theorem only_even (op : Operand) : Only .length (.ok (reportEven op)) := by
  unfold reportEven; split
  · exact only_fail rfl
  · exact only_fine _

theorem only_lengthIn (op : Operand) (l : List Int) {m : Msg} (h : about m = some .length) :
    Only .length (.ok (reportLengthIn op l m)) := by
  unfold reportLengthIn; split
  · exact only_fail h
  · exact only_fine _

theorem only_own {td : TypeDef} (h : td ∈ types) (op : Operand) (c : Bool) : Only (ownSort td) (reportOwn td op c) := by
  unfold reportOwn
  simp only [types, List.mem_cons, List.not_mem_nil, or_false] at h
  rcases h with rfl|rfl|rfl|rfl|rfl|rfl|rfl|rfl|rfl|rfl|rfl|rfl|rfl|rfl|rfl|rfl|rfl|rfl|rfl|rfl|rfl|rfl|rfl|rfl|rfl|rfl|rfl|rfl|rfl|rfl|rfl|rfl|rfl|rfl|rfl|rfl|rfl|rfl|rfl <;>
    first
    | exact only_fine _
    | exact only_even op
    | exact only_lengthIn op _ rfl
    | exact only_if c (only_A op _ _ _ _ _ _)
    | exact only_if c (only_S op _ _)
    | exact only_if c (only_text op (fun s => reportText (checkCommaSeparated isBinary s)) (fun _ => only_reportText _))
    | exact only_if c (only_text op (fun s => reportText (checkCommaSeparated isHex s)) (fun _ => only_reportText _))
    | exact only_if c (only_text op (fun s => reportText (checkHF s)) (fun _ => only_reportText _))
    | exact only_if c (only_text op (fun s => reportText (checkPZ s)) (fun _ => only_reportText _))
    | exact only_if c (only_text op (reportEDL _) (fun s => only_EDL _ s))

theorem ownSort_cases (td : TypeDef) : ownSort td = .length ∨ ownSort td = .value := by
  unfold ownSort; split <;> simp

theorem own_value : ∀ td ∈ types, ownSort td = .value → ∀ bit rel l, OwnLength td bit rel l := by
  intro td h hs bit rel l
  simp only [types, List.mem_cons, List.not_mem_nil, or_false] at h
  rcases h with rfl|rfl|rfl|rfl|rfl|rfl|rfl|rfl|rfl|rfl|rfl|rfl|rfl|rfl|rfl|rfl|rfl|rfl|rfl|rfl|rfl|rfl|rfl|rfl|rfl|rfl|rfl|rfl|rfl|rfl|rfl|rfl|rfl|rfl|rfl|rfl|rfl|rfl|rfl <;>
    first
    | exact absurd hs (by decide)
    | exact trivial

theorem own_text : ∀ td ∈ types, ownSort td = .length → td.nominal = .string → ∀ s, Spec.TextOk td.type td.ext s := by
  intro td h hs hn s
  simp only [types, List.mem_cons, List.not_mem_nil, or_false] at h
  rcases h with rfl|rfl|rfl|rfl|rfl|rfl|rfl|rfl|rfl|rfl|rfl|rfl|rfl|rfl|rfl|rfl|rfl|rfl|rfl|rfl|rfl|rfl|rfl|rfl|rfl|rfl|rfl|rfl|rfl|rfl|rfl|rfl|rfl|rfl|rfl|rfl|rfl|rfl|rfl <;>
    first
    | exact absurd hs (by decide)
    | exact absurd hn (by decide)
    | exact trivial

theorem own_exprs : ∀ td ∈ types, ownSort td = .length → td.nominal ≠ .string → ∀ l, l.any Value.isAddress = false →
    Spec.ExprsOk td.type td.ext l := by
  intro td h hs hn l
  simp only [types, List.mem_cons, List.not_mem_nil, or_false] at h
  rcases h with rfl|rfl|rfl|rfl|rfl|rfl|rfl|rfl|rfl|rfl|rfl|rfl|rfl|rfl|rfl|rfl|rfl|rfl|rfl|rfl|rfl|rfl|rfl|rfl|rfl|rfl|rfl|rfl|rfl|rfl|rfl|rfl|rfl|rfl|rfl|rfl|rfl|rfl|rfl <;>
    first
    | exact absurd hs (by decide)
    | exact absurd rfl hn
    | exact (noAddress_iff l).mp

theorem own_length_expr : ∀ td ∈ types, ownSort td = .length → td.nominal ≠ .addressOrExpression := by decide

section
variable {i : Instr} {d : Definition} {td : TypeDef}

/-- The virtual `check` and the length modifier: it reports one exactly if the length is not permitted. -/
theorem own_length_iff (h : Spec.Ordinary d) (hl : Spec.LengthSeen d) (hm : td ∈ types) (ht : td.type = d.type)
    {p : Rep} (hp : reportOwn td d.operand (checkBase td i d.operand).2 = .ok p) :
    has .length p.2 = false ↔ OwnLengthOk td d.operand (Spec.relocatable d) := by
  have hon := only_own hm d.operand _ p hp .length
  rw [hon]
  rcases ownSort_cases td with hs | hs
  · rw [hs]
    simp only [decide_true, Bool.true_and, Bool.not_eq_false']
    obtain ⟨q, hq, hpq⟩ : ∃ q, checkOwn td d.operand (checkBase td i d.operand).2 = .ok q ∧ p.1 = q := by
      rcases agree_own hm d.operand (checkBase td i d.operand).2 with ⟨e, h1, _⟩ | ⟨p', h1, h2, _⟩
      · rw [hp] at h1; cases h1
      · rw [hp] at h1; cases h1; exact ⟨_, h2, rfl⟩
    rw [hpq]
    cases hc : (checkBase td i d.operand).2 with
    | false =>
      rw [hc] at hq
      obtain ⟨b, hb, hbi⟩ := checkOwn_absent hm d.operand (Spec.relocatable d)
      rw [hq] at hb; cases hb
      rw [hbi]
      constructor
      · intro h0 hpl
        by_cases hA : td.type = 'A' ∨ td.type = 'Y'
        · exfalso
          rw [ht] at hA
          have hne : d.length ≠ .none := by
            intro hnone
            simp [Definition.operand, hnone, setField] at hpl
          obtain ⟨l, hn, hx⟩ := hl hA hne
          have hpr : d.operand.nominal.present = true := by simp [Definition.operand, hn]
          have hv : d.operand.nominal.value = .exprs l := by simp [Definition.operand, hn]
          rw [checkBase_present hpr] at hc
          have hnot : l.any Value.isAddress = false := (noAddress_iff l).mpr hx
          have hns : td.nominal ≠ .string := by
            rw [← ht] at hA
            have : ∀ td ∈ types, td.type = 'A' ∨ td.type = 'Y' → td.nominal ≠ .string := by decide
            exact this td hm hA
          unfold checkNominalType at hc
          rw [hv] at hc
          cases hk : td.nominal <;> simp_all
        · exact h0 (fun h => hA (.inl h)) (fun h => hA (.inr h)) hpl
      · exact fun h0 _ _ => h0
    | true =>
      rw [hc] at hq
      have hpr : d.operand.nominal.present = true := by
        cases hpr : d.operand.nominal.present with
        | true => rfl
        | false => rw [checkBase_absent hpr] at hc; cases hc
      rw [checkBase_present hpr] at hc
      dsimp only at hc
      cases hn : d.nominal with
      | none => simp [Definition.operand, hn, noNominal] at hpr
      | some n =>
        have hv : d.operand.nominal.value = n := by simp [Definition.operand, hn]
        cases n with
        | str s =>
          have hstr : td.nominal = .string := by
            unfold checkNominalType at hc
            rw [hv] at hc
            cases hk : td.nominal <;> simp_all
          obtain ⟨b, hb, hbi⟩ := checkOwn_text hm hstr d.operand s (Spec.relocatable d) hv
          rw [hq] at hb; cases hb
          rw [hbi]
          exact ⟨fun h => h.1, fun h => ⟨h, own_text td hm hs hstr s⟩⟩
        | exprs l =>
          have hstr : td.nominal ≠ .string := by
            intro hs'
            simp [checkNominalType, hs', hv] at hc
          obtain ⟨b, hb, hbi⟩ := checkOwn_exprs hm hstr d.operand l hv hc
          have hrel : Spec.relocatable d = relOf l := by simp only [Spec.relocatable, hn, relOf]; rfl
          rw [hq] at hb; cases hb
          rw [hbi, hrel]
          have hna : l.any Value.isAddress = false := by
            have := own_length_expr td hm hs
            unfold checkNominalType at hc
            rw [hv] at hc
            cases hk : td.nominal <;> simp_all
          exact ⟨fun h => h.1, fun h => ⟨h, own_exprs td hm hs hstr l hna⟩⟩
  · rw [hs]
    simp only [reduceCtorEq, decide_false, Bool.false_and, true_iff]
    exact fun _ => own_value td hm hs _ _ _

/-- The messages about the value: there is one exactly if the value is not permitted. -/
theorem own_value_iff (h : Spec.Ordinary d) (hm : td ∈ types) (ht : td.type = d.type) (he : td.ext = d.ext)
    {p : Rep} (hp : reportOwn td d.operand (checkBase td i d.operand).2 = .ok p) :
    (has .value (reportBase td i d.operand).1.2 = false ∧ has .value p.2 = false) ↔ Spec.NominalOk i d := by
  have hon := only_own hm d.operand _ p hp .value
  obtain ⟨q, hq, hpq⟩ : ∃ q, checkOwn td d.operand (checkBase td i d.operand).2 = .ok q ∧ p.1 = q := by
    rcases agree_own hm d.operand (checkBase td i d.operand).2 with ⟨e, h1, _⟩ | ⟨p', h1, h2, _⟩
    · rw [hp] at h1; cases h1
    · rw [hp] at h1; cases h1; exact ⟨_, h2, rfl⟩
  rw [hon, hpq]
  have hbase : has .value (reportBase td i d.operand).1.2 =
      ((!(checkNominalPresent i d.operand).1) ||
        ((checkNominalPresent i d.operand).2 && !checkNominalType td d.operand)) := by
    unfold reportBase
    rw [(present_fst i d.operand).2]
    cases hc : (checkNominalPresent i d.operand).2 with
    | true =>
      simp only [Rep.and, has_append, modifiers_has, present_has, nominalType_has, if_true]
      simp
    | false =>
      simp only [Rep.and, has_append, modifiers_has, present_has, Bool.false_eq_true, if_false]
      simp
  rw [hbase]
  unfold Spec.NominalOk
  cases hn : d.nominal with
  | none =>
    have hpr : d.operand.nominal.present = false := by simp [Definition.operand, hn, noNominal]
    have hd0 : (decide (d.operand.dupl.value = 0) && d.operand.dupl.present) = true ↔ d.dupl = .abs 0 := by
      have h1 := h.settled.1
      have h2 := h.absolute.1
      have h3 : d.operand.dupl = setField d.dupl := rfl
      rw [h3]
      cases hd : d.dupl with
      | none => simp [setField]
      | abs v =>
        simp only [setField, Bool.and_true, Arg.abs.injEq]
        exact decide_eq_true_iff
      | other => exact absurd hd h2
      | pending => exact absurd hd h1
    rw [checkBase_absent hpr] at hq
    obtain ⟨b, hb, hbi⟩ := checkOwn_absent hm d.operand (Spec.relocatable d)
    rw [hq] at hb; cases hb
    have hown : (decide (Sort'.value = ownSort td) && !q) = false := by
      rcases ownSort_cases td with hs | hs
      · simp [hs]
      · have : q = true := hbi.mpr (fun _ _ _ => own_value td hm hs _ _ _)
        simp [this]
    rw [hown]
    simp only [and_true]
    unfold checkNominalPresent
    cases i
    · cases hz : (decide (d.operand.dupl.value = 0) && d.operand.dupl.present) with
      | true =>
        have := hd0.mp hz
        simp [hpr, this]
      | false =>
        have hnz : d.dupl ≠ .abs 0 := fun h => by rw [hd0.mpr h] at hz; cases hz
        simp [hpr, hnz]
    · simp [hpr]
  | some n =>
    have hpr : d.operand.nominal.present = true := by simp [Definition.operand, hn]
    have hv : d.operand.nominal.value = n := by simp [Definition.operand, hn]
    have hcp : checkNominalPresent i d.operand = (true, true) := by
      unfold checkNominalPresent; cases i <;> simp [hpr]
    rw [hcp]
    rw [checkBase_present hpr] at hq
    simp only [Bool.not_true, Bool.false_or, Bool.true_and, Bool.not_eq_false']
    cases n with
    | str s =>
      by_cases hstr : td.nominal = .string
      · have hty : checkNominalType td d.operand = true := by simp [checkNominalType, hstr, hv]
        obtain ⟨b, hb, hbi⟩ := checkOwn_text hm hstr d.operand s (Spec.relocatable d) hv
        rw [hty] at hq ⊢
        rw [hq] at hb; cases hb
        simp only [true_and]
        rw [← ht, ← he]
        rcases ownSort_cases td with hs | hs
        · simp [hs, own_text td hm hs hstr s]
        · simp only [hs, decide_true, Bool.true_and, Bool.not_eq_false']
          rw [hbi]
          exact ⟨fun h => h.2, fun h => ⟨fun _ => own_value td hm hs _ _ _, h⟩⟩
      · have hty : checkNominalType td d.operand = false := by
          unfold checkNominalType
          rw [hv]
          cases hk : td.nominal <;> simp_all
        have := textOk_only td hm hstr s
        rw [ht, he] at this
        simp [hty, this]
    | exprs l =>
      by_cases hty : checkNominalType td d.operand = true
      · have hstr : td.nominal ≠ .string := by
          intro hs
          simp [checkNominalType, hs, hv] at hty
        obtain ⟨b, hb, hbi⟩ := checkOwn_exprs hm hstr d.operand l hv hty
        rw [hty] at hq
        rw [hq] at hb; cases hb
        simp only [hty, true_and]
        rw [← ht, ← he]
        rcases ownSort_cases td with hs | hs
        · have hna : l.any Value.isAddress = false := by
            have := own_length_expr td hm hs
            unfold checkNominalType at hty
            rw [hv] at hty
            cases hk : td.nominal <;> simp_all
          simp [hs, own_exprs td hm hs hstr l hna]
        · simp only [hs, decide_true, Bool.true_and, Bool.not_eq_false']
          rw [hbi]
          exact ⟨fun h => h.2, fun h => ⟨fun _ => own_value td hm hs _ _ _, h⟩⟩
      · have hty' : checkNominalType td d.operand = false := by simpa using hty
        have : ¬ Spec.ExprsOk d.type d.ext l := by
          rw [← ht, ← he]
          cases hk : td.nominal with
          | string => exact exprsOk_only td hm hk l
          | expressions =>
            intro h0
            have := exprsOk_noAddress td hm hk l h0
            simp [checkNominalType, hk, hv, this] at hty'
          | addressOrExpression => simp [checkNominalType, hk, hv] at hty'
        simp [hty', this]

end

end Verif.DataDef
