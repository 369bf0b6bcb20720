import Verif.DataDef.Place

/-
  The attributes of a label, and when computing them fails.
-/

namespace Verif.DataDef

open Spec (values)

/-! ### nothing fails but the attributes of packed and zoned constants -/

theorem getLength_total {td : TypeDef} (h : td ∈ types) {op : Operand} (hs : Shaped td op) :
    ∃ n, getLength td op = .ok n := by
  have hn : td.implicit = none → ∃ n, nominalLength td op.nominal = .ok n := by
    intro hi
    have key : op.nominal.present = false ∨ ∃ s, op.nominal.value = .str s := by
      cases hp : op.nominal.present with
      | false => exact .inl rfl
      | true =>
        rcases hs hp with ⟨_, s, hv⟩ | ⟨hns, _⟩
        · exact .inr ⟨s, hv⟩
        · rcases types_cases h with h' | h'
          · exact absurd hi h'.1
          · exact absurd h'.2.1 hns
    unfold nominalLength
    rcases key with hp | ⟨s, hv⟩
    · rw [hp]
      split <;> exact ⟨_, rfl⟩
    · rw [hv]
      cases op.nominal.present <;> split <;> exact ⟨_, rfl⟩
  unfold getLength
  by_cases hp : op.length.present = true
  · simp only [hp, if_true, bind, Except.bind]
    exact ⟨_, rfl⟩
  · simp only [hp, bind, Except.bind]
    cases hi : td.implicit with
    | none =>
      obtain ⟨n, hn⟩ := hn hi
      simp only [hn]
      exact ⟨_, rfl⟩
    | some l =>
      dsimp only
      cases op.nominal.present <;> exact ⟨_, rfl⟩

theorem shaped_of_type {td : TypeDef} {op : Operand} (h : op.nominal.present = true → checkNominalType td op = true) :
    Shaped td op := by
  intro hp
  have h := h hp
  unfold checkNominalType at h
  cases hv : op.nominal.value with
  | str s =>
    rw [hv] at h
    cases hk : td.nominal with
    | string => exact .inl ⟨rfl, s, rfl⟩
    | expressions => rw [hk] at h; cases h
    | addressOrExpression => rw [hk] at h; cases h
  | exprs l =>
    rw [hv] at h
    cases hk : td.nominal with
    | string => rw [hk] at h; cases h
    | expressions => exact .inr ⟨by decide, l, rfl⟩
    | addressOrExpression => exact .inr ⟨by decide, l, rfl⟩

theorem checkOwn_total {td : TypeDef} (h : td ∈ types) (i : Instr) (op : Operand) :
    ∃ b, checkOwn td op (checkBase td i op).2 = .ok b := by
  cases hp : op.nominal.present with
  | false =>
    rw [checkBase_absent hp]
    obtain ⟨b, hb, _⟩ := checkOwn_absent h op false
    exact ⟨b, hb⟩
  | true =>
    rw [checkBase_present hp]
    cases hty : checkNominalType td op with
    | false =>
      obtain ⟨b, hb, _⟩ := checkOwn_absent h op false
      exact ⟨b, hb⟩
    | true =>
      rcases shaped_of_type (fun _ => hty) hp with ⟨hs, s, hv⟩ | ⟨hs, l, hv⟩
      · obtain ⟨b, hb, _⟩ := checkOwn_text h hs op s false hv
        exact ⟨b, hb⟩
      · obtain ⟨b, hb, _⟩ := checkOwn_exprs h hs op l hv hty
        exact ⟨b, hb⟩

theorem check_total (i : Instr) (op : Operand) :
    ∃ b, op.check i = .ok b ∧ (b = true → ∃ n, op.getLength = .ok n) := by
  unfold Operand.check Operand.getLength
  cases ha : accessType op.type op.ext with
  | none => exact ⟨false, rfl, fun h => by cases h⟩
  | some td =>
    obtain ⟨hm, _, _⟩ := accessType_mem ha
    obtain ⟨own, ho⟩ := checkOwn_total hm i op
    simp only [checkType, ho, bind, Except.bind]
    cases hc : ((checkBase td i op).1 && own) with
    | false => exact ⟨false, rfl, fun h => by cases h⟩
    | true =>
      have hs : Shaped td op := by
        apply shaped_of_type
        intro hp
        rw [checkBase_present hp] at hc
        simp only [Bool.and_eq_true] at hc
        exact hc.1.2
      obtain ⟨n, hn⟩ := getLength_total hm hs
      simp only [hn]
      exact ⟨_, rfl, fun _ => ⟨n, rfl⟩⟩

theorem loop_total (i : Instr) : ∀ (ops : List Operand) (n : Nat), ∃ r, operandsLoop i ops n = .ok r
  | [], n => ⟨some n, rfl⟩
  | op :: r, n => by
    obtain ⟨b, hb, hg⟩ := check_total i op
    rw [operandsLoop]
    simp only [hb, bind, Except.bind]
    cases b with
    | false => exact ⟨none, rfl⟩
    | true =>
      obtain ⟨k, hk⟩ := hg rfl
      simp only [hk]
      exact loop_total i r _

theorem statementLength_total (i : Instr) (ops : List Operand) : ∃ n, statementLength i ops = .ok n := by
  unfold statementLength operandsLength
  obtain ⟨r, hr⟩ := loop_total i ops 0
  simp only [hr, bind, Except.bind]
  cases r <;> exact ⟨_, rfl⟩

/-- A packed or zoned constant without a length whose value stands in parentheses. -/
def Fatal (d : Definition) : Prop :=
  (d.type = 'P' ∨ d.type = 'Z') ∧ d.ext = '\x00' ∧ d.operand.length.present = false ∧ ∃ l, d.nominal = some (.exprs l)

theorem nominalLengthAttr_total {td : TypeDef} (h : td ∈ types) {nom : NominalField}
    (hf : ¬ ((td.type = 'P' ∨ td.type = 'Z') ∧ nom.present = true ∧ ∃ l, nom.value = .exprs l)) :
    ∃ n, nominalLengthAttr td nom = .ok n := by
  have hv : (td.type = 'P' ∨ td.type = 'Z') → nom.present = true → ∃ s, nom.value = .str s := by
    intro ht hp
    cases hv : nom.value with
    | str s => exact ⟨s, rfl⟩
    | exprs l => exact absurd ⟨ht, hp, l, hv⟩ hf
  unfold nominalLengthAttr
  cases hp : nom.present with
  | false => dsimp only; split <;> exact ⟨_, rfl⟩
  | true =>
    dsimp only
    split
    case h_6 =>
      obtain ⟨s, hs⟩ := hv (.inl ‹td.type = 'P'›) hp
      rw [hs]; exact ⟨_, rfl⟩
    case h_7 =>
      obtain ⟨s, hs⟩ := hv (.inr ‹td.type = 'Z'›) hp
      rw [hs]; exact ⟨_, rfl⟩
    all_goals (cases nom.value <;> exact ⟨_, rfl⟩)

theorem label_total (d : Definition) : (∃ a, d.label = .ok a) ↔ ¬ Fatal d := by
  constructor
  · rintro ⟨a, ha⟩ ⟨ht, he, hl, l, hn⟩
    have h1 : d.operand.type = d.type := rfl
    have h2 : d.operand.ext = '\x00' := he
    have h3 : d.operand.nominal = ⟨true, .exprs l⟩ := by simp [Definition.operand, hn]
    unfold Definition.label Operand.attributes at ha
    rw [h1, h2, h3] at ha
    rcases ht with ht | ht <;> rw [ht] at ha
    · have : accessType 'P' '\x00' = some (typePZ 'P') := rfl
      rw [this] at ha
      simp only [lengthAttr, hl, bind, Except.bind] at ha
      cases ha
    · have : accessType 'Z' '\x00' = some (typePZ 'Z') := rfl
      rw [this] at ha
      simp only [lengthAttr, hl, bind, Except.bind] at ha
      cases ha
  · intro hf
    unfold Definition.label Operand.attributes
    have h1 : d.operand.type = d.type := rfl
    have h2 : d.operand.ext = d.ext := rfl
    rw [h1, h2]
    cases ha : accessType d.type d.ext with
    | none => exact ⟨_, rfl⟩
    | some td =>
      obtain ⟨hm, ht, he⟩ := accessType_mem ha
      have : ∃ n, lengthAttr td d.operand.length d.operand.nominal = .ok n := by
        unfold lengthAttr
        cases hp : d.operand.length.present with
        | true => exact ⟨_, rfl⟩
        | false =>
          simp only [Bool.false_eq_true, if_false]
          cases hi : td.implicit with
          | some l => exact ⟨_, rfl⟩
          | none =>
            refine nominalLengthAttr_total hm ?_
            rintro ⟨hty, hpn, l, hl⟩
            refine hf ⟨ht ▸ hty, ?_, hp, l, ?_⟩
            · have : ∀ td ∈ types, td.type = 'P' ∨ td.type = 'Z' → td.ext = '\x00' := by decide
              rw [← he]
              exact this td hm hty
            · cases hn : d.nominal with
              | none => simp [Definition.operand, hn, noNominal] at hpn
              | some n =>
                simp [Definition.operand, hn] at hl
                rw [hl]
      obtain ⟨n, hn⟩ := this
      simp only [hn, bind, Except.bind]
      exact ⟨_, rfl⟩

/-- When the analysis of a statement ends. -/
theorem process_total (i : Instr) (label : Bool) (loc : Nat) (ops : List (Option Definition)) :
    (∃ o, process i label loc ops = .ok o) ↔ ¬ (label = true ∧ ∃ d r, ops = some d :: r ∧ Fatal d) := by
  obtain ⟨len, hlen⟩ := statementLength_total i ((ops.filterMap id).map Definition.operand)
  have key : (∃ o, process i label loc ops = .ok o) ↔ ∃ a, labelAttributes label ops = .ok a := by
    unfold process
    simp only [hlen, bind, Except.bind]
    constructor
    · rintro ⟨o, ho⟩
      split at ho
      · cases ho
      · rename_i a ha
        exact ⟨a, ha⟩
    · rintro ⟨a, ha⟩
      rw [ha]
      exact ⟨_, rfl⟩
  rw [key]
  cases ops with
  | nil => simp [labelAttributes]
  | cons o r =>
    cases o with
    | none => simp [labelAttributes]
    | some d =>
      cases label with
      | false => simp [labelAttributes]
      | true =>
        have h := label_total d
        constructor
        · rintro ⟨a, ha⟩ ⟨_, d', r', he, hf⟩
          cases he
          refine h.mp ?_ hf
          have ha : d.label.map some = .ok a := ha
          cases hd : d.label with
          | ok a => exact ⟨a, rfl⟩
          | error e => rw [hd] at ha; simp [Except.map] at ha
        · intro hf
          obtain ⟨a, ha⟩ := h.mpr fun hF => hf ⟨rfl, d, r, rfl, hF⟩
          refine ⟨some a, ?_⟩
          simp [labelAttributes, ha, Except.map]

/-! ### the length attribute -/

theorem values_head (s : Text) :
    ∃ v w r, s = v ++ w ∧ ',' ∉ v ∧ (w = [] ∨ ∃ t, w = ',' :: t) ∧ values s = v :: r := by
  obtain ⟨v, w, hs, hv, hw⟩ := comma_split s
  rcases hw with rfl | ⟨t, rfl⟩
  · exact ⟨v, [], [], hs, hv, .inl rfl, by rw [hs, List.append_nil, values_noComma v hv]⟩
  · exact ⟨v, ',' :: t, values t, hs, hv, .inr ⟨t, rfl⟩, by rw [hs, values_append v t hv]⟩

theorem takeWhile_head {v w : Text} (hv : ',' ∉ v) (hw : w = [] ∨ ∃ t, w = ',' :: t) :
    (v ++ w).takeWhile (· != ',') = v := by
  have h1 : ∀ c ∈ v, (c != ',') = true := by
    intro c hc
    simp only [bne_iff_ne, ne_eq]
    rintro rfl
    exact hv hc
  rw [List.takeWhile_append_of_pos h1]
  rcases hw with rfl | ⟨t, rfl⟩ <;> simp

theorem pAttrLoop_head : ∀ (v w : Text) (n : Nat), ',' ∉ v → (w = [] ∨ ∃ t, w = ',' :: t) →
    pAttrLoop (v ++ w) n = n + Spec.digits v
  | [], w, n, _, hw => by rcases hw with rfl | ⟨t, rfl⟩ <;> simp [pAttrLoop, Spec.digits]
  | c :: v, w, n, hv, hw => by
    have hc : c ≠ ',' := fun e => hv (by simp [e])
    have hr : ',' ∉ v := fun e => hv (by simp [e])
    rw [List.cons_append, pAttrLoop, if_neg (by simpa using hc), digits_cons, pAttrLoop_head v w _ hr hw,
      pAttrLoop_head v w _ hr hw]
    split <;> omega

theorem zAttrLoop_head : ∀ (v w : Text) (n : Nat), ',' ∉ v → (w = [] ∨ ∃ t, w = ',' :: t) →
    zAttrLoop (v ++ w) n = n + Spec.digits v
  | [], w, n, _, hw => by rcases hw with rfl | ⟨t, rfl⟩ <;> simp [zAttrLoop, Spec.digits]
  | c :: v, w, n, hv, hw => by
    have hc : c ≠ ',' := fun e => hv (by simp [e])
    have hr : ',' ∉ v := fun e => hv (by simp [e])
    rw [List.cons_append, zAttrLoop, if_neg (by simpa using hc), digits_cons, zAttrLoop_head v w _ hr hw,
      zAttrLoop_head v w _ hr hw]
    split <;> omega

theorem nonBlanks_all {v : Text} (h : ' ' ∉ v) : Spec.nonBlanks v = v.length := by
  unfold Spec.nonBlanks
  rw [List.filter_eq_self.mpr]
  intro c hc
  simp only [decide_eq_true_eq]
  rintro rfl
  exact h hc

/-- There is a first value, and if it is a bit string it is written without blanks. -/
structure FirstPlain (d : Definition) : Prop where
  some_expr : d.nominal ≠ some (.exprs [])
  blanks : d.type = 'X' ∨ d.type = 'B' → ∀ s v r, d.nominal = some (.str s) → values s = v :: r → ' ' ∉ v

/-- The length attribute of a type whose implied length depends on the value. -/
theorem nominalLengthAttr_eq {td : TypeDef} {d : Definition} (hm : td ∈ types) (ht : td.type = d.type)
    (he : td.ext = d.ext) (hs : Shaped td d.operand) (hi : td.implicit = none) (hf : FirstPlain d) :
    nominalLengthAttr td d.operand.nominal = .ok ((Spec.impliedBytes d.operand).headD 0) := by
  have himp : Spec.implied d.type d.ext = none := by rw [← ht, ← he, ← types_implied td hm, hi]
  have hty : d.operand.type = d.type := rfl
  have hex : d.operand.ext = d.ext := rfl
  rcases types_cases hm with h | ⟨_, hstr, hcases⟩
  · exact absurd hi h.1
  · by_cases hp : d.operand.nominal.present = true
    · obtain ⟨s, hv⟩ : ∃ s, d.operand.nominal.value = .str s := by
        rcases hs hp with ⟨_, h⟩ | ⟨h, _⟩
        · exact h
        · exact absurd hstr h
      have hb : Spec.impliedBytes d.operand
          = (Spec.textValues d.type s).map (Spec.valueBytes d.type d.ext) := by
        unfold Spec.impliedBytes
        rw [if_pos hp, hv]
        rfl
      rw [hb]
      obtain ⟨v, w, r, hsv, hvc, hw, hvals⟩ := values_head s
      have hn : d.nominal = some (.str s) := by
        cases hn : d.nominal with
        | none => simp [Definition.operand, hn, noNominal] at hp
        | some n =>
          simp [Definition.operand, hn] at hv
          rw [hv]
      have hbl : d.type = 'X' ∨ d.type = 'B' → ' ' ∉ v := fun h => hf.blanks h s v r hn hvals
      unfold nominalLengthAttr Spec.textValues
      rw [hv, hp]
      unfold Spec.valueBytes
      rw [himp]
      rcases hcases with ⟨h1, h2⟩ | ⟨h1, h2⟩ | ⟨h1, h2⟩ | ⟨h1, h2⟩ | ⟨h1, h2⟩ | ⟨h1, h2⟩ | ⟨h1, h2 | h2 | h2⟩ <;>
        rw [ht] at h1 <;> rw [he] at h2 <;> rw [h1] at hbl <;> rw [ht, he, h1, h2]
      · show Except.ok (xbLengthAttr s 8) = Except.ok (((values s).map _).headD 0)
        rw [hvals, xbLengthAttr, hsv, takeWhile_head hvc hw]
        simp [nonBlanks_all (hbl (.inr rfl))]
      · show Except.ok (xbLengthAttr s 2) = Except.ok (((values s).map _).headD 0)
        rw [hvals, xbLengthAttr, hsv, takeWhile_head hvc hw]
        simp [nonBlanks_all (hbl (.inl rfl))]
      · show Except.ok (pLengthAttr s) = Except.ok (((values s).map _).headD 0)
        rw [hvals, pLengthAttr, hsv, pAttrLoop_head v w 1 hvc hw]
        simp only [List.map_cons, List.headD_cons]
        congr 1
        omega
      · show Except.ok (zLengthAttr s) = Except.ok (((values s).map _).headD 0)
        rw [hvals, zLengthAttr, hsv, zAttrLoop_head v w 0 hvc hw]
        simp
      · show Except.ok (gLength s) = _
        rw [guard_g]; simp
      · show Except.ok (2 * s.length) = _
        simp
      · show Except.ok s.length = _
        simp
      · show Except.ok s.length = _
        simp
      · show Except.ok s.length = _
        simp
    · have hpf : d.operand.nominal.present = false := by simpa using hp
      have hb : Spec.impliedBytes d.operand = [Spec.absentBytes d.type d.ext] := by
        unfold Spec.impliedBytes
        rw [if_neg hp]
        rfl
      rw [hb]
      unfold nominalLengthAttr Spec.absentBytes
      rw [himp, hpf]
      rcases hcases with ⟨h1, h2⟩ | ⟨h1, h2⟩ | ⟨h1, h2⟩ | ⟨h1, h2⟩ | ⟨h1, h2⟩ | ⟨h1, h2⟩ | ⟨h1, h2 | h2 | h2⟩ <;>
        rw [ht] at h1 <;> rw [he] at h2 <;> rw [ht, he, h1, h2] <;> rfl

theorem impliedBytes_ne_nil {d : Definition} (hf : FirstPlain d) : Spec.impliedBytes d.operand ≠ [] := by
  unfold Spec.impliedBytes
  split
  · rename_i hp
    cases hn : d.nominal with
    | none => simp [Definition.operand, hn, noNominal] at hp
    | some n =>
      have hv : d.operand.nominal.value = n := by simp [Definition.operand, hn]
      rw [hv]
      cases n with
      | str s =>
        obtain ⟨v, w, r, _, _, _, hvals⟩ := values_head s
        simp only [Spec.textValues]
        split <;> simp [hvals]
      | exprs l =>
        cases l with
        | nil => exact absurd hn hf.some_expr
        | cons v l => simp
  · simp

theorem lengthAttr_eq {i : Instr} {td : TypeDef} {d : Definition} (hm : td ∈ types) (ht : td.type = d.type)
    (he : td.ext = d.ext) (hw : Spec.WellFormed i d) (hf : FirstPlain d) :
    lengthAttr td d.operand.length d.operand.nominal = .ok (Spec.firstBytes d.operand) := by
  have hs := shaped_of_ok hm ht he hw.nominal
  unfold lengthAttr Spec.firstBytes Spec.valueBits
  obtain ⟨n, l, hnl⟩ := List.exists_cons_of_ne_nil (impliedBytes_ne_nil hf)
  rw [hnl]
  simp only [List.map_cons, List.headD_cons]
  by_cases hp : d.operand.length.present = true
  · rw [if_pos hp, if_pos hp]
    rcases hw.modifiers.length with h0 | ⟨v, hv, hl⟩
    · simp [Definition.operand, h0, setField] at hp
    · have h1 := lengthOk_bounds hl
      have h2 : d.operand.length.value = v := by simp [Definition.operand, hv, setField]
      have h3 : d.operand.length.bit = d.bit := rfl
      rw [h2, h3]
      cases hb : d.bit with
      | true =>
        rw [hb] at h1
        simp only [if_true] at h1 ⊢
        rw [Int.tdiv_eq_ediv_of_nonneg (by omega)]
        congr 1
        omega
      | false =>
        rw [hb] at h1
        simp only [Bool.false_eq_true, if_false] at h1 ⊢
        congr 1
        omega
  · rw [if_neg hp, if_neg hp]
    cases hi : td.implicit with
    | none =>
      dsimp only
      rw [nominalLengthAttr_eq hm ht he hs hi hf, hnl]
      simp only [List.headD_cons]
      congr 1
      omega
    | some k =>
      have himp : Spec.implied d.type d.ext = some k := by rw [← ht, ← he, ← types_implied td hm, hi]
      have hn : n = k := by
        have : n ∈ Spec.impliedBytes d.operand := by rw [hnl]; simp
        unfold Spec.impliedBytes at this
        have hty : d.operand.type = d.type := rfl
        have hex : d.operand.ext = d.ext := rfl
        rw [hty, hex] at this
        split at this
        · cases hnv : d.operand.nominal.value with
          | str s =>
            rw [hnv] at this
            obtain ⟨v, _, rfl⟩ := List.mem_map.mp this
            simp [Spec.valueBytes, himp]
          | exprs e =>
            rw [hnv] at this
            obtain ⟨v, _, rfl⟩ := List.mem_map.mp this
            simp [Spec.valueBytes, himp]
        · rw [List.mem_singleton] at this
          rw [this]
          simp [Spec.absentBytes, himp]
      dsimp only
      rw [hn]
      congr 1
      omega

/-- The attributes of a label. -/
theorem label_eq {i : Instr} {d : Definition} (hw : Spec.WellFormed i d) (hf : FirstPlain d) :
    ∃ td s, accessType d.type d.ext = some td ∧ s = scaleAttr td d.operand.scale d.operand.nominal ∧
      d.label = .ok ⟨Spec.firstBytes d.operand, if d.scale != .none && d.scale != .pending then s else 0,
        integerImpl td (Spec.firstBytes d.operand) s⟩ := by
  obtain ⟨td, ha⟩ := (known_iff _ _).mpr hw.known
  obtain ⟨hm, ht, he⟩ := accessType_mem ha
  refine ⟨td, _, ha, rfl, ?_⟩
  unfold Definition.label Operand.attributes
  have : accessType d.operand.type d.operand.ext = some td := ha
  rw [this]
  simp only [lengthAttr_eq hm ht he hw hf, bind, Except.bind]

/-! ### scale and integer attribute -/

theorem scale_after : ∀ (b w : Text) (n : Nat), (∀ c ∈ b, c ≠ ',' ∧ c ≠ '.') → (w = [] ∨ ∃ t, w = ',' :: t) →
    n + b.length < 65536 → pzScaleLoop (b ++ w) n true = n + b.length
  | [], w, n, _, hw, _ => by rcases hw with rfl | ⟨t, rfl⟩ <;> simp [pzScaleLoop]
  | c :: b, w, n, hb, hw, hn => by
    have hc := hb c (by simp)
    simp only [List.length_cons] at hn ⊢
    rw [List.cons_append, pzScaleLoop, if_neg (by simpa using hc.1), if_neg (by simpa using hc.2), if_pos rfl,
      Nat.mod_eq_of_lt (by omega), scale_after b w (n + 1) (fun x hx => hb x (by simp [hx])) hw (by omega)]
    omega

theorem scale_before : ∀ (a t : Text), (∀ c ∈ a, c ≠ ',' ∧ c ≠ '.') →
    pzScaleLoop (a ++ t) 0 false = pzScaleLoop t 0 false
  | [], t, _ => rfl
  | c :: a, t, h => by
    have hc := h c (by simp)
    rw [List.cons_append, pzScaleLoop, if_neg (by simpa using hc.1), if_neg (by simpa using hc.2), if_neg (by simp)]
    exact scale_before a t fun x hx => h x (by simp [hx])

theorem digits_all {b : Text} (h : ∀ c ∈ b, Spec.Digit c) : Spec.digits b = b.length := by
  unfold Spec.digits
  rw [List.filter_eq_self.mpr]
  intro c hc
  have := h c hc
  simp only [Spec.Digit] at this
  simp [this.1, this.2]

theorem digit_plain {c : Char} (h : Spec.Digit c) : c ≠ ',' ∧ c ≠ '.' := by
  constructor <;> rintro rfl <;> revert h <;> unfold Spec.Digit <;> decide

/-- The implied scale the code computes. -/
theorem pzScale_eq {v w : Text} (hd : Spec.DecimalValue v) (hb : ' ' ∉ v) (hw : w = [] ∨ ∃ t, w = ',' :: t)
    (hl : v.length < 32768) : pzScaleLoop (v ++ w) 0 false = Spec.fraction v := by
  obtain ⟨sign, body, rfl, hs, hbody, _, hcnt⟩ := hd
  have hbody' : ∀ c ∈ body, Spec.Digit c ∨ c = '.' := by
    intro c hc
    rcases hbody c hc with h | h | h
    · exact .inl h
    · exact .inr h
    · subst h; exact absurd (List.mem_append_right _ hc) hb
  have hsign : ∀ c ∈ sign, c ≠ ',' ∧ c ≠ '.' := by
    intro c hc
    rcases hs with rfl | ⟨x, hx, rfl⟩
    · cases hc
    · rw [List.mem_singleton] at hc
      subst hc
      simp only [List.mem_cons, List.not_mem_nil, or_false] at hx
      rcases hx with rfl | rfl <;> decide
  have hsd : ∀ t, (sign ++ t).dropWhile (· ≠ '.') = t.dropWhile (· ≠ '.') := by
    intro t
    rw [List.dropWhile_append_of_pos]
    intro c hc
    simpa using (hsign c hc).2
  rw [List.append_assoc, scale_before sign _ hsign, Spec.fraction, hsd]
  by_cases hdot : '.' ∈ body
  · obtain ⟨a, b, rfl⟩ := List.append_of_mem hdot
    have ha : ∀ c ∈ a, Spec.Digit c := by
      intro c hc
      rcases hbody' c (by simp [hc]) with h | rfl
      · exact h
      · rw [List.count_append, List.count_cons_self] at hcnt
        have := List.count_pos_iff.mpr hc
        omega
    have hb' : ∀ c ∈ b, Spec.Digit c := by
      intro c hc
      rcases hbody' c (by simp [hc]) with h | rfl
      · exact h
      · rw [List.count_append, List.count_cons_self] at hcnt
        have := List.count_pos_iff.mpr hc
        omega
    have hdrop : (a ++ '.' :: b).dropWhile (· ≠ '.') = '.' :: b := by
      rw [List.dropWhile_append_of_pos]
      · simp
      · intro c hc
        simpa using (digit_plain (ha c hc)).2
    have hlen : b.length < 65536 := by
      simp only [List.length_append, List.length_cons] at hl
      omega
    rw [hdrop, List.append_assoc, scale_before a _ fun c hc => digit_plain (ha c hc), List.cons_append, pzScaleLoop,
      if_neg (by decide), if_pos (by decide), scale_after b w 0 (fun c hc => digit_plain (hb' c hc)) hw (by omega), digits_cons,
      digits_all hb', if_neg (by decide)]
    omega
  · have ha : ∀ c ∈ body, Spec.Digit c := by
      intro c hc
      rcases hbody' c hc with h | rfl
      · exact h
      · exact absurd hc hdot
    have hdrop : body.dropWhile (· ≠ '.') = [] := by
      have := List.dropWhile_append_of_pos (p := (· ≠ '.')) (l₁ := body) (l₂ := [])
        (fun c hc => by simpa using (digit_plain (ha c hc)).2)
      simpa using this
    rw [hdrop, scale_before body _ fun c hc => digit_plain (ha c hc)]
    rcases hw with rfl | ⟨t, rfl⟩ <;> simp [pzScaleLoop, Spec.digits]

/-- The first value of a decimal constant is written without blanks, in fewer than 32768 characters. -/
def DecimalPlain (d : Definition) : Prop :=
  d.type = 'P' ∨ d.type = 'Z' →
    ∀ s v r, d.nominal = some (.str s) → values s = v :: r → ' ' ∉ v ∧ v.length < 32768

theorem scaleAttr_eq {i : Instr} {td : TypeDef} {d : Definition} (hm : td ∈ types) (ht : td.type = d.type)
    (ho : Spec.Ordinary d) (hw : Spec.WellFormed i d) (hp : DecimalPlain d) :
    scaleAttr td d.operand.scale d.operand.nominal = Spec.scale d := by
  have h1 : d.operand.scale = ⟨(setField d.scale).present, narrow16 (setField d.scale).value⟩ := rfl
  unfold scaleAttr Spec.scale
  rw [h1]
  cases hsc : d.scale with
  | abs v =>
    have := ho.scale v hsc
    simp [setField, narrow16_eq this.1 this.2]
  | other => exact absurd hsc ho.absolute.2.1
  | pending => exact absurd hsc ho.settled.2.2.1
  | none =>
    simp only [setField, Bool.false_eq_true, if_false]
    unfold implicitScale
    rw [ht]
    by_cases hpz : d.type = 'P' ∨ d.type = 'Z'
    · rw [if_pos (by simpa using hpz)]
      cases hn : d.nominal with
      | none => rcases hpz with h | h <;> simp [Definition.operand, hn, noNominal, h]
      | some n =>
        have hpr : d.operand.nominal.present = true := by simp [Definition.operand, hn]
        have hv : d.operand.nominal.value = n := by simp [Definition.operand, hn]
        rw [hpr, hv]
        cases n with
        | exprs l => rcases hpz with h | h <;> simp [h]
        | str s =>
          obtain ⟨v, w, r, hs, hvc, hws, hvals⟩ := values_head s
          have hno := hw.nominal
          unfold Spec.NominalOk at hno
          rw [hn] at hno
          have hdv : Spec.DecimalValue v := by
            rcases hpz with h | h <;> rw [h] at hno <;> exact hno v (by rw [hvals]; simp)
          obtain ⟨hbl, hvl⟩ := hp hpz s v r hn hvals
          have key := pzScale_eq hdv hbl hws hvl
          rw [← hs] at key
          have hfr : Spec.fraction v < 32768 := by
            have h1 : Spec.fraction v ≤ (v.dropWhile (· ≠ '.')).length := List.length_filter_le _ _
            have h2 := (List.dropWhile_suffix (p := (· ≠ '.')) (l := v)).length_le
            omega
          have hnar : narrow16 (Spec.fraction v) = Spec.fraction v := narrow16_eq (by omega) (by omega)
          rcases hpz with h | h <;> simp [h, key, hvals, hnar]
    · rw [if_neg (by simpa using hpz)]
      split
      · rename_i h _; exact absurd (.inl h) hpz
      · rename_i h _; exact absurd (.inr h) hpz
      · rfl

theorem integer_eq : ∀ td ∈ types, ∀ (l : Nat) (s : Int), integerImpl td l s = Spec.integer td.type td.ext l s := by
  intro td h l s
  simp only [types, List.mem_cons, List.not_mem_nil, or_false] at h
  rcases h with rfl|rfl|rfl|rfl|rfl|rfl|rfl|rfl|rfl|rfl|rfl|rfl|rfl|rfl|rfl|rfl|rfl|rfl|rfl|rfl|rfl|rfl|rfl|rfl|rfl|rfl|rfl|rfl|rfl|rfl|rfl|rfl|rfl|rfl|rfl|rfl|rfl|rfl|rfl <;>
    first
    | rfl
    | (show (if l > 8 then _ else _) = 2 * ((l : Int) - 1) - s - (if l > 8 then 2 else 0)
       split <;> omega)

end Verif.DataDef
