import Verif.DataDef.ReportSays

/-
  No message about an operand is repeated.
-/

namespace Verif.DataDef

/-- The check a message comes from; `a` for the types whose own check looks at the range of the length. -/
def Msg.stage (a : Bool) : Msg → Nat
  | .D011 => 0
  | .D007 false => 1
  | .D008 .length .. | .D008 .bitLength .. | .D009 .length | .D009 .bitLength | .D025 .length | .D025 .bitLength => if a then 5 else 1
  | .D008 .scale .. | .D009 .scale | .D025 .scale => 2
  | .D008 .exponent .. | .D009 .exponent | .D025 .exponent => 3
  | .D016 | .D017 | .D018 | .D020 _ => 4
  | .D028 => 6
  | _ => 5

theorem modifier_nodup (m : Mod) (p : Bool) (v : Int) (sp : ModSpec) : (reportModifier m p v sp).2.Nodup := by
  unfold reportModifier
  repeat' split
  all_goals simp [Rep.fine, Rep.fail]

theorem addresses_nodup : ∀ (l : List Value) (k : Nat), (reportAddresses k l).Nodup
  | [], _ => by simp [reportAddresses]
  | v :: l, k => by
    rw [reportAddresses, List.nodup_append]
    refine ⟨by split <;> simp, addresses_nodup l (k + 1), ?_⟩
    intro x hx y hy he
    subst he
    obtain ⟨n, _, _, _, rfl, _⟩ := addresses_at l (k + 1) hy
    split at hx
    · simp only [List.mem_singleton, Msg.D020.injEq] at hx; omega
    · simp at hx

theorem sValue_nodup (size : Nat) (signed : Bool) (k : Nat) (v : Value) : (reportSValue size signed k v).2.Nodup := by
  cases v with
  | expr y kind g =>
    unfold reportSValue
    dsimp only
    repeat' split
    all_goals simp [Rep.fine, Rep.fail]
  | address b y g =>
    unfold reportSValue
    dsimp only
    repeat' split
    all_goals simp [Rep.fine, Rep.fail, Rep.and]

theorem sLoop_nodup (size : Nat) (signed : Bool) : ∀ (l : List Value) (k : Nat), (reportSLoop size signed k l).2.Nodup
  | [], _ => by simp [reportSLoop, Rep.fine]
  | v :: l, k => by
    simp only [reportSLoop, Rep.and]
    rw [List.nodup_append]
    refine ⟨sValue_nodup .., sLoop_nodup size signed l (k + 1), ?_⟩
    intro x hx y hy he
    subst he
    obtain ⟨n, w, _, hw⟩ := sLoop_mem l (k + 1) hy
    rcases sValue_mem hx with ⟨rfl, _⟩ | ⟨rfl, _⟩ <;> rcases sValue_mem hw with ⟨h, _⟩ | ⟨h, _⟩ <;>
      first | (cases h; done) | (injection h with h; omega)

theorem fail_nodup (m : Msg) : (Rep.fail m).2.Nodup := by simp [Rep.fail]

theorem fine_nodup : Rep.fine.2.Nodup := by simp [Rep.fine]

theorem aLength_nodup {op : Operand} {a b c d e f : Int} {p : Rep} (h : reportALength op a b c d e f = .ok p) : p.2.Nodup := by
  unfold reportALength at h
  split at h
  · cases h; exact fine_nodup
  · cases hg : getExprs op.nominal.value with
    | error x => rw [hg] at h; cases h
    | ok l =>
      rw [hg] at h
      simp only [bind, Except.bind] at h
      cases ha : allAbsolute l with
      | error x => rw [ha] at h; cases h
      | ok abs =>
        rw [ha] at h
        dsimp only at h
        repeat' split at h
        all_goals first | (cases h; exact fine_nodup) | (cases h; exact fail_nodup _)

theorem s_nodup {op : Operand} {n : Nat} {b : Bool} {p : Rep} (h : reportS n b op = .ok p) : p.2.Nodup := by
  unfold reportS at h
  cases hv : op.nominal.value with
  | str s => rw [hv] at h; cases h
  | exprs l =>
    rw [hv] at h
    cases h
    exact sLoop_nodup ..

theorem text_nodup {op : Operand} {f : Text → Rep} (hf : ∀ s, (f s).2.Nodup) {p : Rep}
    (h : (do .ok (f (← getText op.nominal.value)) : Except Crash Rep) = .ok p) : p.2.Nodup := by
  cases hv : op.nominal.value with
  | str s =>
    rw [hv] at h
    cases h
    exact hf s
  | exprs l => rw [hv] at h; cases h

theorem reportText_nodup (b : Bool) : (reportText b).2.Nodup := by
  cases b
  · exact fail_nodup _
  · exact fine_nodup

theorem edl_nodup (ext : Char) (s : Text) : (reportEDL ext s).2.Nodup := by
  rcases edl_cases ext s with ⟨e, _⟩ | ⟨e | e, _⟩ <;> rw [e]
  · exact fine_nodup
  · exact fail_nodup _
  · exact fail_nodup _

theorem if_nodup {c : Bool} {r : Except Crash Rep} {p : Rep} (hr : r = .ok p → p.2.Nodup)
    (h : (if !c then .ok Rep.fine else r) = .ok p) : p.2.Nodup := by
  cases c
  · cases h; exact fine_nodup
  · exact hr h

theorem own_nodup {td : TypeDef} (h : td ∈ types) {op : Operand} {c : Bool} {p : Rep} (hp : reportOwn td op c = .ok p) :
    p.2.Nodup := by
  unfold reportOwn at hp
  have heven : (reportEven op).2.Nodup := by
    unfold reportEven; split
    · exact fail_nodup _
    · exact fine_nodup
  have hin : ∀ l m, (reportLengthIn op l m).2.Nodup := by
    intro l m
    unfold reportLengthIn; split
    · exact fail_nodup _
    · exact fine_nodup
  simp only [types, List.mem_cons, List.not_mem_nil, or_false] at h
  rcases h with rfl|rfl|rfl|rfl|rfl|rfl|rfl|rfl|rfl|rfl|rfl|rfl|rfl|rfl|rfl|rfl|rfl|rfl|rfl|rfl|rfl|rfl|rfl|rfl|rfl|rfl|rfl|rfl|rfl|rfl|rfl|rfl|rfl|rfl|rfl|rfl|rfl|rfl|rfl <;>
    first
    | exact if_nodup aLength_nodup hp
    | exact if_nodup s_nodup hp
    | exact if_nodup (text_nodup (f := fun s => reportText (checkCommaSeparated isBinary s)) (fun _ => reportText_nodup _)) hp
    | exact if_nodup (text_nodup (f := fun s => reportText (checkCommaSeparated isHex s)) (fun _ => reportText_nodup _)) hp
    | exact if_nodup (text_nodup (f := fun s => reportText (checkHF s)) (fun _ => reportText_nodup _)) hp
    | exact if_nodup (text_nodup (f := fun s => reportText (checkPZ s)) (fun _ => reportText_nodup _)) hp
    | exact if_nodup (text_nodup (f := reportEDL _) (fun s => edl_nodup _ s)) hp
    | (cases hp; exact heven)
    | (cases hp; exact hin _ _)
    | (cases hp; exact fine_nodup)

/-- The types whose own check looks at the range of the length. -/
def lengthLater (td : TypeDef) : Bool := td.type == 'A' || td.type == 'Y'

theorem later_table : ∀ td ∈ types, lengthLater td = true → td.bitLength ≠ .na ∧ td.length = .noCheck ∧ td.bitLength = .noCheck
    ∧ td.dsLength = .noCheck ∧ td.dsBitLength = .noCheck := by decide

theorem modifier_stage (a : Bool) {m : Mod} {p : Bool} {v : Int} {sp : ModSpec} {x : Msg} (h : x ∈ (reportModifier m p v sp).2) :
    ∃ y, x.stage a = (Msg.D009 y).stage a ∧ y = m := by
  obtain ⟨_, hx⟩ := modifier_mem h
  refine ⟨m, ?_, rfl⟩
  rcases hx with ⟨_, rfl⟩ | ⟨_, rfl⟩ | ⟨lo, hi, _, rfl, _⟩ <;> cases m <;> rfl

theorem length_stage {td : TypeDef} (hm : td ∈ types) {i : Instr} {op : Operand} {x : Msg} (h : x ∈ (reportLength td i op).2) :
    x.stage (lengthLater td) = 1 := by
  cases hl : lengthLater td with
  | true =>
    obtain ⟨h1, h2, h3, h4, h5⟩ := later_table td hm hl
    unfold reportLength at h
    rw [if_neg (by simp [h1])] at h
    split at h
    · obtain ⟨_, hx⟩ := modifier_mem h
      cases i <;> simp [lengthSpec, h3, h5] at hx
    · obtain ⟨_, hx⟩ := modifier_mem h
      cases i <;> simp [lengthSpec, h2, h4] at hx
  | false =>
    unfold reportLength at h
    split at h
    · rw [mem_fail h]; rfl
    · split at h
      · obtain ⟨y, hy, rfl⟩ := modifier_stage false h
        rw [hy]; rfl
      · obtain ⟨y, hy, rfl⟩ := modifier_stage false h
        rw [hy]; rfl

theorem length_nodup (td : TypeDef) (i : Instr) (op : Operand) : (reportLength td i op).2.Nodup := by
  unfold reportLength
  split
  · exact fail_nodup _
  · split <;> exact modifier_nodup ..

theorem own_stage {td : TypeDef} (hm : td ∈ types) {op : Operand} {c : Bool} {p : Rep} (hp : reportOwn td op c = .ok p) {x : Msg}
    (hx : x ∈ p.2) : x.stage (lengthLater td) = 5 := by
  cases own_cases hm hp hx with
  | even h => rw [h]; rfl
  | d021 h => rw [h]; rfl
  | d024 h => rw [h]; rfl
  | text _ _ _ h => rcases h with h | ⟨h, _⟩ <;> rw [h] <;> rfl
  | s l _ _ _ h =>
    obtain ⟨n, w, _, hw⟩ := sLoop_mem l 0 h
    rcases sValue_mem hw with ⟨h, _⟩ | ⟨h, _⟩ <;> rw [h] <;> rfl
  | a _ hty hr =>
    have hl : lengthLater td = true := by unfold lengthLater; simpa using hty
    rw [hl]
    generalize aBounds td = bs at hr
    unfold reportALength at hr
    split at hr
    · cases hr; exact absurd hx not_mem_fine
    · cases hg : getExprs op.nominal.value with
      | error x => rw [hg] at hr; cases hr
      | ok l =>
        rw [hg] at hr
        simp only [bind, Except.bind] at hr
        cases ha : allAbsolute l with
        | error x => rw [ha] at hr; cases hr
        | ok abs =>
          rw [ha] at hr
          dsimp only at hr
          repeat' split at hr
          all_goals first | (cases hr; exact absurd hx not_mem_fine) | (cases hr; rw [mem_fail hx]; rfl)

theorem present_stage (a : Bool) {i : Instr} {op : Operand} {x : Msg} (h : x ∈ (reportPresent i op).1.2) :
    x = .D016 ∧ (reportPresent i op).2 = false := by
  unfold reportPresent at h ⊢
  cases i
  · dsimp only at h ⊢
    split at h
    · rename_i hc
      rw [if_pos hc]
      exact ⟨mem_fail h, rfl⟩
    · split at h <;> exact absurd h not_mem_fine
  · dsimp only at h ⊢
    split at h <;> exact absurd h not_mem_fine

theorem nominal_stage (a : Bool) {td : TypeDef} {op : Operand} {x : Msg} (h : x ∈ (reportNominalType td op).2) : x.stage a = 4 := by
  unfold reportNominalType at h
  split at h
  · exact absurd h not_mem_fine
  · rw [mem_fail h]; rfl
  · rw [mem_fail h]; rfl
  · obtain ⟨n, _, _, _, rfl, _⟩ := addresses_at _ 0 h
    rfl
  · rw [mem_fail h]; rfl
  · exact absurd h not_mem_fine

theorem nominal_nodup (td : TypeDef) (op : Operand) : (reportNominalType td op).2.Nodup := by
  unfold reportNominalType
  split
  · exact fine_nodup
  · exact fail_nodup _
  · exact fail_nodup _
  · exact addresses_nodup _ _
  · exact fail_nodup _
  · exact fine_nodup

/-- Appending messages of a later check. -/
theorem nodup_stage {a : Bool} {l r : List Msg} {n : Nat} (hl : l.Nodup) (hr : r.Nodup) (h1 : ∀ x ∈ l, x.stage a < n)
    (h2 : ∀ x ∈ r, n ≤ x.stage a) : (l ++ r).Nodup := by
  rw [List.nodup_append]
  refine ⟨hl, hr, ?_⟩
  intro x hx y hy he
  subst he
  have := h1 x hx
  have := h2 x hy
  omega

theorem stage_append {a : Bool} {l r : List Msg} {n : Nat} (h1 : ∀ x ∈ l, x.stage a < n) (h2 : ∀ x ∈ r, x.stage a < n) :
    ∀ x ∈ l ++ r, x.stage a < n := by
  intro x hx
  rw [List.mem_append] at hx
  exact hx.elim (h1 x) (h2 x)

theorem modifiers_once {td : TypeDef} (hm : td ∈ types) (i : Instr) (op : Operand) :
    (reportModifiers td i op).2.Nodup ∧ ∀ x ∈ (reportModifiers td i op).2, x.stage (lengthLater td) < 4 := by
  have hd : (reportDupl op).2.Nodup ∧ ∀ x ∈ (reportDupl op).2, x.stage (lengthLater td) = 0 := by
    unfold reportDupl
    split
    · split
      · exact ⟨fail_nodup _, fun x hx => by rw [mem_fail hx]; rfl⟩
      · exact ⟨fine_nodup, fun x hx => absurd hx not_mem_fine⟩
    · exact ⟨fine_nodup, fun x hx => absurd hx not_mem_fine⟩
  have hl := fun x => length_stage (x := x) hm (i := i) (op := op)
  have hs : ∀ x ∈ (reportModifier .scale op.scale.present op.scale.value td.scale).2, x.stage (lengthLater td) = 2 := by
    intro x hx
    obtain ⟨y, hy, rfl⟩ := modifier_stage (lengthLater td) hx
    rw [hy]; rfl
  have he : ∀ x ∈ (reportModifier .exponent op.exponent.present op.exponent.value td.exponent).2,
      x.stage (lengthLater td) = 3 := by
    intro x hx
    obtain ⟨y, hy, rfl⟩ := modifier_stage (lengthLater td) hx
    rw [hy]; rfl
  unfold reportModifiers
  simp only [Rep.and]
  have h1 : ∀ x ∈ (reportDupl op).2 ++ (reportLength td i op).2, x.stage (lengthLater td) < 2 :=
    stage_append (fun x hx => by rw [hd.2 x hx]; omega) (fun x hx => by rw [hl x hx]; omega)
  have n1 := nodup_stage (a := lengthLater td) (n := 1) hd.1 (length_nodup td i op) (fun x hx => by rw [hd.2 x hx]; omega)
    (fun x hx => by rw [hl x hx]; exact Nat.le_refl _)
  have n2 := nodup_stage (a := lengthLater td) (n := 2) n1 (modifier_nodup .scale op.scale.present op.scale.value td.scale) h1
    (fun x hx => by rw [hs x hx]; exact Nat.le_refl _)
  have h2 := stage_append (n := 3) (fun x hx => Nat.lt_succ_of_lt (h1 x hx)) (fun x hx => by rw [hs x hx]; omega)
  have n3 := nodup_stage (a := lengthLater td) (n := 3) n2
    (modifier_nodup .exponent op.exponent.present op.exponent.value td.exponent) h2 (fun x hx => by rw [he x hx]; exact Nat.le_refl _)
  exact ⟨n3, stage_append (n := 4) (fun x hx => Nat.lt_succ_of_lt (h2 x hx)) (fun x hx => by rw [he x hx]; omega)⟩

theorem base_once {td : TypeDef} (hm : td ∈ types) (i : Instr) (op : Operand) :
    (reportBase td i op).1.2.Nodup ∧ ∀ x ∈ (reportBase td i op).1.2, x.stage (lengthLater td) < 5 := by
  obtain ⟨n, h⟩ := modifiers_once hm i op
  have hlt : ∀ x ∈ (reportModifiers td i op).2, x.stage (lengthLater td) < 5 := fun x hx => Nat.lt_succ_of_lt (h x hx)
  unfold reportBase
  dsimp only
  cases hc : (reportPresent i op).2 with
  | true =>
    have hnil : (reportPresent i op).1.2 = [] := by
      rw [List.eq_nil_iff_forall_not_mem]
      intro x hx
      have := (present_stage true hx).2
      rw [hc] at this; cases this
    simp only [if_true, Rep.and, hnil, List.append_nil]
    exact ⟨nodup_stage (a := lengthLater td) (n := 4) n (nominal_nodup td op) h (fun x hx => by rw [nominal_stage _ hx]; exact Nat.le_refl _),
      stage_append hlt (fun x hx => by rw [nominal_stage _ hx]; omega)⟩
  | false =>
    have hp : ∀ x ∈ (reportPresent i op).1.2, x.stage (lengthLater td) = 4 := by
      intro x hx
      rw [(present_stage true hx).1]; rfl
    have hn : (reportPresent i op).1.2.Nodup := by
      unfold reportPresent
      cases i <;> dsimp only <;> repeat' split
      all_goals first | exact fail_nodup _ | exact fine_nodup
    simp only [Bool.false_eq_true, if_false, Rep.and]
    exact ⟨nodup_stage (a := lengthLater td) (n := 4) n hn h (fun x hx => by rw [hp x hx]; exact Nat.le_refl _),
      stage_append hlt (fun x hx => by rw [hp x hx]; omega)⟩

/-- The messages of an operand are all different. -/
theorem report_once (i : Instr) (op : Operand) {r : Rep} (hr : op.report i = .ok r) : r.2.Nodup := by
  unfold Operand.report at hr
  cases ha : accessType op.type op.ext with
  | none =>
    rw [ha] at hr
    dsimp only at hr
    split at hr
    · split at hr <;> (cases hr; exact fail_nodup _)
    · cases hr; exact fail_nodup _
  | some td =>
    rw [ha] at hr
    dsimp only at hr
    obtain ⟨hm, _, _⟩ := accessType_mem ha
    unfold reportType at hr
    dsimp only at hr
    cases ho : reportOwn td op (reportBase td i op).2 with
    | error e => rw [ho] at hr; cases hr
    | ok p =>
      rw [ho] at hr
      simp only [bind, Except.bind] at hr
      obtain ⟨n, h⟩ := base_once hm i op
      have hn : ((reportBase td i op).1.and p).2.Nodup :=
        nodup_stage (a := lengthLater td) (n := 5) n (own_nodup hm ho) h (fun x hx => by rw [own_stage hm ho hx]; exact Nat.le_refl _)
      have hlt : ∀ x ∈ ((reportBase td i op).1.and p).2, x.stage (lengthLater td) < 6 :=
        stage_append (fun x hx => Nat.lt_succ_of_lt (h x hx)) (fun x hx => by rw [own_stage hm ho hx]; omega)
      split at hr
      · cases hr; exact hn
      · cases hl : getLength td op with
        | error e => rw [hl] at hr; cases hr
        | ok k =>
          rw [hl] at hr
          dsimp only at hr
          split at hr
          · cases hr
            refine nodup_stage (a := lengthLater td) (n := 6) hn (by simp) hlt ?_
            intro x hx
            simp only [List.mem_singleton] at hx
            rw [hx]; exact Nat.le_refl 6
          · cases hr; exact hn

end Verif.DataDef
