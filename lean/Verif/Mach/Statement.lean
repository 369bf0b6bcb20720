import Verif.Mach.Operand

/-!
C92 for whole statements with the name of a machine instruction.
-/
namespace Verif.Mach

theorem slot_hasDeps {w : Option Written} (h : ∀ x, w = some x → x.Defined) : (slot w).hasDeps = false := by
  cases w with
  | none => rfl
  | some w =>
    have := h w rfl
    cases w <;> simp_all [slot, Written.src, Src.hasDeps, Written.Defined]

theorem convert_eq {op : Src} (h : op.hasDeps = false) (ins : Instr) (pos : Nat) :
    convert ins pos op = some (op.value (ins.ops[pos]?.map (·.id.ty))) := by
  unfold convert getCheckOp
  by_cases he : op = .empty
  · subst he; simp [Src.value]
  · simp [he, h]

/-- The loop over the operands of an instruction. -/
theorem loop_spec (ins : Instr) : ∀ (ops : List Src) (pos : Nat), (∀ op ∈ ops, op.hasDeps = false) → pos + ops.length ≤ ins.ops.length →
    ∃ v ds, transformDefault ins pos ops = some v ∧ v.length = ops.length ∧ checkLoop (ins.ops.drop pos) v = .ok ds ∧
      (ds = [] ↔ ∀ (i : Nat) (op : Src) (f : Fmt), ops[i]? = some op → ins.ops[pos + i]? = some f → (op.value (some f.id.ty)).check f = none) := by
  intro ops
  induction ops with
  | nil => intro pos _ _; exact ⟨[], [], rfl, rfl, by cases ins.ops.drop pos <;> rfl, by simp⟩
  | cons op r ih =>
    intro pos hd hl
    simp only [List.length_cons] at hl
    obtain ⟨v, ds, hv, hlen, hc, hiff⟩ := ih (pos + 1) (fun o ho => hd o (List.mem_cons_of_mem _ ho)) (by omega)
    have hp : pos < ins.ops.length := by omega
    have hco := convert_eq (hd op List.mem_cons_self) ins pos
    rw [List.getElem?_eq_getElem hp] at hco
    refine ⟨some (op.value (some ins.ops[pos].id.ty)) :: v, ((op.value (some ins.ops[pos].id.ty)).check ins.ops[pos]).toList ++ ds, ?_, ?_, ?_, ?_⟩
    · simp only [transformDefault, hco, hv, Option.map_some]
    · simp [hlen]
    · rw [List.drop_eq_getElem_cons hp]
      simp only [checkLoop, hc]
    · rw [List.append_eq_nil_iff, hiff]
      constructor
      · rintro ⟨h1, h2⟩ i o f ho hf
        cases i with
        | zero =>
          simp only [List.getElem?_cons_zero, Option.some.injEq] at ho
          rw [Nat.add_zero, List.getElem?_eq_getElem hp, Option.some.injEq] at hf
          subst ho; subst hf
          simpa using h1
        | succ i =>
          exact h2 i o f (by simpa using ho) (by rw [← hf]; congr 1; omega)
      · intro h
        refine ⟨?_, fun i o f ho hf => h (i + 1) o f (by simpa using ho) (by rw [← hf]; congr 1; omega)⟩
        have := h 0 op ins.ops[pos] (by simp) (by simp [List.getElem?_eq_getElem hp])
        simp [this]

theorem transformDefault_length {ins : Instr} : ∀ (ops : List Src) (pos : Nat) (v), transformDefault ins pos ops = some v → v.length = ops.length := by
  intro ops
  induction ops with
  | nil => intro pos v h; cases h; rfl
  | cons op r ih =>
    intro pos v h
    simp only [transformDefault] at h
    split at h
    · cases h
    · cases hr : transformDefault ins (pos + 1) r with
      | none => simp [hr] at h
      | some w =>
        simp only [hr, Option.map_some, Option.some.injEq] at h
        subst h; simp [ih _ _ hr]

theorem transformDefault_some {ins : Instr} : ∀ (ops : List Src) (pos : Nat), (∀ op ∈ ops, op.hasDeps = false) → ∃ v, transformDefault ins pos ops = some v := by
  intro ops
  induction ops with
  | nil => intro pos _; exact ⟨[], rfl⟩
  | cons op r ih =>
    intro pos hd
    obtain ⟨v, hv⟩ := ih (pos + 1) (fun o ho => hd o (List.mem_cons_of_mem _ ho))
    exact ⟨_, by simp only [transformDefault, convert_eq (hd op List.mem_cons_self) ins pos, hv, Option.map_some]; rfl⟩

theorem defined_slots {ws : List (Option Written)} (h : AllDefined ws) : ∀ op ∈ ws.map slot, op.hasDeps = false := by
  intro op ho
  obtain ⟨w, hw, rfl⟩ := List.mem_map.1 ho
  exact slot_hasDeps fun x hx => h x (hx ▸ hw)

/-- A statement of an instruction is accepted exactly if the number of operands is right and each is accepted in its place. -/
theorem check_instr {n : OpName} {ins : Instr} (hi : tables.instr n = some ins) (ops : List Src) (hd : ∀ op ∈ ops, op.hasDeps = false) :
    tables.check n ops = .ok [] ↔ ins.ops.length ≤ ops.length + ins.opt ∧ ops.length ≤ ins.ops.length ∧
      ∀ (i : Nat) (op : Src) (f : Fmt), ops[i]? = some op → ins.ops[i]? = some f → (op.value (some f.id.ty)).check f = none := by
  unfold Tables.check
  rw [disjoint hi]
  simp only [hi]
  by_cases hl : ops.length ≤ ins.ops.length
  · obtain ⟨v, ds, hv, hlen, hc, hiff⟩ := loop_spec ins ops 0 hd (by omega)
    rw [hv]
    simp only [Instr.check, hlen]
    rw [List.drop_zero] at hc
    by_cases ho : ins.ops.length ≤ ops.length + ins.opt
    · rw [if_neg (by omega), hc]
      simp only [Except.ok.injEq, hiff, hl, ho, true_and, Nat.zero_add]
    · rw [if_pos (by omega)]
      simp [ho]
  · obtain ⟨v, hv⟩ := transformDefault_some (ins := ins) ops 0 hd
    have := transformDefault_length _ _ _ hv
    rw [hv]
    simp only [Instr.check, this]
    rw [if_pos (by omega)]
    simp [hl]

theorem transformDefault_none {ins : Instr} : ∀ (ops : List Src) (pos : Nat), (∃ op ∈ ops, op.hasDeps = true) → transformDefault ins pos ops = none := by
  intro ops
  induction ops with
  | nil => rintro pos ⟨_, h, -⟩; simp at h
  | cons op r ih =>
    rintro pos ⟨o, ho, hd⟩
    simp only [transformDefault]
    split
    · rfl
    next c hc =>
      rcases List.mem_cons.1 ho with rfl | ho
      · exfalso
        unfold convert getCheckOp at hc
        have hne : o ≠ .empty := by rintro rfl; simp [Src.hasDeps] at hd
        simp [hne, hd] at hc
      · rw [ih (pos + 1) ⟨o, ho, hd⟩]; rfl

theorem slot_hasDeps_true {w : Written} (h : ¬ w.Defined) : w.src.hasDeps = true := by
  cases w with
  | plain d => simpa [Written.src, Src.hasDeps, Written.Defined] using h
  | paren d b => simp only [Written.Defined, ne_eq, not_and_or, not_not] at h; simpa [Written.src, Src.hasDeps] using h
  | both d x b => simp only [Written.Defined, ne_eq, not_and_or, not_not] at h; simpa [Written.src, Src.hasDeps, or_assoc] using h
  | base d b => simp only [Written.Defined, ne_eq, not_and_or, not_not] at h; simpa [Written.src, Src.hasDeps] using h
  | trailing d x => simp only [Written.Defined, ne_eq, not_and_or, not_not] at h; simpa [Written.src, Src.hasDeps] using h

/-- C92. A statement with the name of a machine instruction in which a symbol is not defined is refused with the message about the
undefined symbol and no other, whatever its operands are otherwise. -/
theorem C92_undefined (n : OpName) (ins : Instr) (hi : tables.instr n = some ins) (ws : List (Option Written)) (hd : ¬ AllDefined ws) :
    tables.check n (ws.map slot) = .ok [.plain 1010] := by
  unfold Tables.check
  rw [disjoint hi]
  simp only [hi]
  unfold AllDefined at hd
  simp only [Classical.not_forall] at hd
  obtain ⟨w, hw, hd⟩ := hd
  rw [transformDefault_none _ _ ⟨_, List.mem_map.2 ⟨some w, hw, rfl⟩, slot_hasDeps_true hd⟩]

/-- C92. A statement with the name of a machine instruction is accepted exactly if it has a number of operands the
instruction allows, none of them is empty and each is accepted in its place. -/
theorem C92_statement (n : OpName) (ins : Instr) (hi : tables.instr n = some ins) (ws : List (Option Written)) (hd : AllDefined ws) :
    tables.Accepts n ws ↔ (ins.ops.length - ins.opt ≤ ws.length ∧ ws.length ≤ ins.ops.length) ∧
      ∀ (i : Nat) w (f : Fmt), ws[i]? = some w → ins.ops[i]? = some f → ∃ x, w = some x ∧ Accepted f.place x := by
  unfold Tables.Accepts
  rw [check_instr hi _ (defined_slots hd), List.length_map]
  constructor
  · rintro ⟨h1, h2, h⟩
    refine ⟨⟨by omega, h2⟩, fun i w f hw hf => ?_⟩
    have := h i (slot w) f (by rw [List.getElem?_map, hw]; rfl) hf
    cases w with
    | none => simp [slot, Src.value, CheckOp.check] at this
    | some x => exact ⟨x, rfl, (C92_exact f (format_ok hi (List.mem_of_getElem? hf)) x).1 this⟩
  · rintro ⟨⟨h1, h2⟩, h⟩
    refine ⟨by omega, h2, fun i op f ho hf => ?_⟩
    rw [List.getElem?_map] at ho
    cases hw : ws[i]? with
    | none => simp [hw] at ho
    | some w =>
      obtain ⟨x, rfl, hx⟩ := h i w f hw hf
      simp only [hw, Option.map_some, Option.some.injEq] at ho
      subst ho
      exact (C92_exact f (format_ok hi (List.mem_of_getElem? hf)) x).2 hx

/-- C92 for statements against the specification of operands. Missing: see `C92_operand_partial`. -/
theorem C92_statement_partial (n : OpName) (ins : Instr) (hi : tables.instr n = some ins) (ws : List (Option Written)) (hd : AllDefined ws)
    (ha : ∀ w, some w ∈ ws → w.Absolute)
    (hx : ∀ (i : Nat) w (f : Fmt), ws[i]? = some (some w) → ins.ops[i]? = some f → ¬ IndexOnly f.place w) :
    tables.Accepts n ws ↔ (ins.ops.length - ins.opt ≤ ws.length ∧ ws.length ≤ ins.ops.length) ∧
      ∀ (i : Nat) w (f : Fmt), ws[i]? = some w → ins.ops[i]? = some f → ∃ x, w = some x ∧ Admissible f.place x := by
  rw [C92_statement n ins hi ws hd]
  refine and_congr Iff.rfl ⟨fun h i w f hw hf => ?_, fun h i w f hw hf => ?_⟩
  · obtain ⟨x, rfl, hx'⟩ := h i w f hw hf
    exact ⟨x, rfl, (accepted_iff _ _ (ha x (List.mem_of_getElem? hw)) (hx i x f hw hf)).1 hx'⟩
  · obtain ⟨x, rfl, hx'⟩ := h i w f hw hf
    exact ⟨x, rfl, (accepted_iff _ _ (ha x (List.mem_of_getElem? hw)) (hx i x f hw hf)).2 hx'⟩

/-! ## The limits named in diagnostics -/

theorem holds_limits (p : Param) (v : Int) : p.Holds v ↔ if p.signed then -2 ^ (p.size - 1) ≤ v ∧ v ≤ 2 ^ (p.size - 1) - 1 else 0 ≤ v ∧ v ≤ 2 ^ p.size - 1 := by
  unfold Param.Holds
  split <;> constructor <;> intro h <;> omega

/-- C92. The limits named when a single value is refused are exactly the limits of what is accepted, and the diagnostic is
never empty. -/
theorem C92_limits (f : Fmt) (hf : f.Ok = true) (v : Int) (d : Diag) (h : ((Written.plain (.abs v)).src.value (some f.id.ty)).check f = some d) :
    ∃ code lo hi, d = .limits code lo hi ∧ (if f.second = pEmpty then (f.id.ty, code) ∈ valueMessages else code = 130) ∧
      ∀ u, accepts f (.plain (.abs u)) ↔ lo ≤ u ∧ u ≤ hi := by
  have hacc : ∀ u, accepts f (.plain (.abs u)) ↔ f.id.Holds u := fun u => checkOne_none f u
  simp only [hacc]
  simp only [Written.src, Src.value, CheckOp.check] at h
  simp only [Fmt.Ok, Bool.and_eq_true] at hf
  obtain ⟨-, hok⟩ := hf
  have hl := holds_limits f.id
  unfold checkOne at h
  by_cases hs : f.isSimple = true
  · have h2 := (isSimple_iff.1 hs).2
    simp only [h2, if_true, Bool.and_eq_true] at hok
    obtain ⟨-, hok⟩ := hok
    simp only [hs, Bool.not_true, Bool.false_eq_true, if_false] at h
    cases hg : f.id.signed
    · simp only [hg, Bool.false_and, Bool.false_eq_true, if_false, Bool.not_false, Bool.true_and] at h hok hl
      split at h
      · simp only [Option.some.injEq] at h
        subst h
        cases ht : f.id.ty <;> simp only [ht, beq_iff_eq, Bool.false_eq_true] at hok ⊢
        · exact ⟨_, _, _, rfl, by simp [h2, ht, valueMessages], fun u => by rw [hl, hok]; rfl⟩
        · exact ⟨_, _, _, rfl, by simp [h2, ht, valueMessages], fun u => by rw [hl, hok]; rfl⟩
        · exact ⟨_, _, _, rfl, by simp [h2, ht, valueMessages], fun u => hl u⟩
        · exact ⟨_, _, _, rfl, by simp [h2, ht, valueMessages], fun u => by rw [hl, hok]; rfl⟩
      · cases h
    · simp only [hg, Bool.not_true, Bool.false_and, Bool.false_eq_true, if_false, Bool.true_and, if_true] at h hok hl
      split at h
      · simp only [Option.some.injEq] at h
        subst h
        cases ht : f.id.ty <;> simp only [ht, Bool.false_eq_true] at hok ⊢
        · exact ⟨_, _, _, rfl, by simp [h2, ht, valueMessages], fun u => hl u⟩
        · exact ⟨_, _, _, rfl, by simp [h2, ht, valueMessages], fun u => hl u⟩
      · cases h
  · have hs' : f.isSimple = false := by simpa using hs
    simp only [hs', Bool.not_false, if_true] at h
    have hne : ∀ {P : Prop}, if f.second = pEmpty then P else (130 : Nat) = 130 := by
      intro P
      have h2 : f.second ≠ pEmpty := by
        intro h2
        simp only [h2, if_true, Bool.and_eq_true, beq_iff_eq] at hok
        exact hs (isSimple_iff.2 ⟨hok.1, h2⟩)
      rw [if_neg h2]
    split at h
    · simp only [Option.some.injEq, dispError] at h
      subst h
      cases hg : f.id.signed
      · simp only [hg, Bool.false_eq_true, if_false] at hl ⊢; exact ⟨_, _, _, rfl, hne, hl⟩
      · simp only [hg, if_true] at hl ⊢; exact ⟨_, _, _, rfl, hne, hl⟩
    · cases h

/-- C92. When `D(X,B)` is refused in its place, the diagnostic names one of the three values, which lies outside the limits
named, and these are the limits of the field. -/
theorem C92_limits_address (f : Fmt) (hf : f.Ok = true) (h1 : f.first ≠ pEmpty) (d x b : Int) (g : Diag)
    (h : ((Written.both (.abs d) (.abs x) (.abs b)).src.value (some f.id.ty)).check f = some g) :
    ∃ code lo hi, g = .limits code lo hi ∧
      ((code = 130 ∧ ¬ (lo ≤ d ∧ d ≤ hi) ∧ ∀ u, f.id.Holds u ↔ lo ≤ u ∧ u ≤ hi) ∨
       (code = 131 ∧ ¬ (lo ≤ b ∧ b ≤ hi) ∧ ∀ u, f.second.Holds u ↔ lo ≤ u ∧ u ≤ hi) ∨
       ((f.first.ty, code) ∈ firstMessages ∧ ¬ (lo ≤ x ∧ x ≤ hi) ∧ ∀ u, f.first.HoldsFirst u ↔ lo ≤ u ∧ u ≤ hi)) := by
  have he : f.first.isEmpty = false := by
    cases hh : f.first.isEmpty
    · rfl
    · exact absurd (empty_eq.1 hh) h1
  have hs : f.isSimple = false := by
    cases hh : f.isSimple
    · rfl
    · exact absurd (isSimple_iff.1 hh).1 h1
  have h2 : f.second ≠ pEmpty := by
    intro h2
    simp only [Fmt.Ok, h2, if_true, Bool.and_eq_true, beq_iff_eq] at hf
    exact h1 hf.2.1
  simp only [Fmt.Ok, h2, if_false, h1, Bool.and_eq_true, Bool.or_eq_true, beq_iff_eq, decide_eq_true_eq, false_or] at hf
  obtain ⟨-, hb, ⟨hsg, hsz⟩, hty⟩ := hf
  simp only [Written.src, Src.value, Value.orZero, CheckOp.check, checkAddr, hs, Bool.false_eq_true, if_false, reduceCtorEq] at h
  by_cases hd : corresponds d f.id = false
  · simp only [hd, if_true, Option.some.injEq, dispError] at h
    subst h
    have hl := holds_limits f.id
    have hn := (corresponds_false _ _).1 hd
    cases hg : f.id.signed
    · simp only [hg, Bool.false_eq_true, if_false] at hl ⊢
      exact ⟨_, _, _, rfl, .inl ⟨rfl, fun hc => hn ((hl _).2 hc), hl⟩⟩
    · simp only [hg, if_true] at hl ⊢
      exact ⟨_, _, _, rfl, .inl ⟨rfl, fun hc => hn ((hl _).2 hc), hl⟩⟩
  · have hd' : corresponds d f.id = true := by simpa using hd
    simp only [hd', Bool.true_eq_false, if_false, checkParts, he, Bool.false_eq_true, or_true, true_and] at h
    by_cases hbb : corresponds b f.second = false
    · simp only [hbb, if_true, Option.some.injEq] at h
      subst h
      have hl : ∀ u, f.second.Holds u ↔ 0 ≤ u ∧ u ≤ 15 := fun u => by rw [hb, holds_limits]; rfl
      exact ⟨_, _, _, rfl, .inr (.inl ⟨rfl, fun hc => (corresponds_false _ _).1 hbb ((hl _).2 hc), hl⟩)⟩
    · have hb' : corresponds b f.second = true := by simpa using hbb
      simp only [hb', Bool.true_eq_false, if_false, checkFirst, ne_eq, reduceCtorEq, not_false_eq_true, if_true] at h
      by_cases ht : f.first.ty = .length
      · have hl : ∀ u, f.first.HoldsFirst u ↔ 0 ≤ u ∧ u ≤ 2 ^ f.first.size := fun u => by simp [Param.HoldsFirst, ht]
        cases hc : lengthCorresponds x f.first.size
        · simp only [ht, hc, true_and, if_true, Option.some.injEq, firstError] at h
          subst h
          refine ⟨_, _, _, rfl, .inr (.inr ⟨by simp [ht, firstMessages], ?_, hl⟩)⟩
          rw [← lengthCorresponds_iff, hc]; simp
        · simp [ht, hc] at h
      · have hl : ∀ u, f.first.HoldsFirst u ↔ 0 ≤ u ∧ u ≤ 2 ^ f.first.size - 1 := fun u => by
          simp only [Param.HoldsFirst, ht, if_false, holds_limits, hsg, Bool.false_eq_true]
        cases hc : corresponds x f.first
        · simp only [ht, hc, false_and, if_false, not_false_eq_true, true_and, if_true, Option.some.injEq, ne_eq] at h
          have hn : ¬ (0 ≤ x ∧ x ≤ 2 ^ f.first.size - 1) := by
            rw [← hl x]; simpa [Param.HoldsFirst, ht] using (corresponds_false _ _).1 hc
          subst h
          rcases hty with ((hty | hty) | hty) | hty
          · exact absurd hty ht
          all_goals
            simp only [hty, firstError]
            exact ⟨_, _, _, rfl, .inr (.inr ⟨by simp [firstMessages], hn, hl⟩)⟩
        · simp [ht, hc] at h

/-! ## Violations -/

/-- `LA 1,0(99)`: an index register 99 is accepted. -/
theorem C92_witness_index : tables.Accepts n!"LA" [some (.plain (.abs 1)), some (.paren (.abs 0) (.abs 99))] ∧
    ¬ Admissible dxb_12_4x4_U.place (.paren (.abs 0) (.abs 99)) ∧ ¬ tables.Accepts n!"LA" [some (.plain (.abs 1)), some (.both (.abs 0) (.abs 99) (.abs 0))] := by
  refine ⟨by decide +kernel, fun h => ?_, by decide +kernel⟩
  exact absurd (h.2 : Param.HoldsFirst pDisReg 99) (by decide)

/-- `MVC 0(999),0(1)`: a length 999 is accepted although lengths go to 256. -/
theorem C92_witness_length : tables.Accepts n!"MVC" [some (.paren (.abs 0) (.abs 999)), some (.paren (.abs 0) (.abs 1))] ∧
    ¬ Admissible db_12_8x4L_U.place (.paren (.abs 0) (.abs 999)) := by
  refine ⟨by decide +kernel, fun h => ?_⟩
  exact absurd (h.2 : Param.HoldsFirst pLength8 999) (by decide)

/-- `LA 1,0(0,LABEL)`: an address where a base register is to be written is accepted. -/
theorem C92_witness_reloc : tables.Accepts n!"LA" [some (.plain (.abs 1)), some (.both (.abs 0) (.abs 0) .reloc)] ∧
    ¬ Admissible dxb_12_4x4_U.place (.both (.abs 0) (.abs 0) .reloc) := by
  exact ⟨by decide +kernel, fun h => h.2.2⟩

/-! ## Examples -/

/-- `L 1,0(0,LATER)`: the base is not defined. -/
example : ¬ AllDefined [some (.plain (.abs 1)), some (.both (.abs 0) (.abs 0) .pending)] ∧
    (tables.instr n!"L").isSome = true ∧
    tables.check n!"L" ([some (.plain (.abs 1)), some (.both (.abs 0) (.abs 0) .pending)].map slot) = .ok [.plain 1010] := by
  refine ⟨fun h => (h (.both (.abs 0) (.abs 0) .pending) (by simp)).2.2 rfl, by decide +kernel, by decide +kernel⟩

/-- `L 15,4095(15,15)` and `MVC 4095(256,15),0(15)` are accepted, with one more in any place they are not; `VL` takes two or
three operands. -/
example : tables.Accepts n!"L" [some (.plain (.abs 15)), some (.both (.abs 4095) (.abs 15) (.abs 15))] ∧
    ¬ tables.Accepts n!"L" [some (.plain (.abs 16)), some (.both (.abs 4095) (.abs 15) (.abs 15))] ∧
    ¬ tables.Accepts n!"L" [some (.plain (.abs 15)), some (.both (.abs 4096) (.abs 15) (.abs 15))] ∧
    ¬ tables.Accepts n!"L" [some (.plain (.abs 15)), some (.both (.abs 4095) (.abs 16) (.abs 15))] ∧
    ¬ tables.Accepts n!"L" [some (.plain (.abs 15)), some (.both (.abs 4095) (.abs 15) (.abs 16))] ∧
    ¬ tables.Accepts n!"L" [some (.plain (.abs 15))] ∧
    tables.Accepts n!"MVC" [some (.both (.abs 4095) (.abs 256) (.abs 15)), some (.paren (.abs 0) (.abs 15))] ∧
    ¬ tables.Accepts n!"MVC" [some (.both (.abs 4095) (.abs 257) (.abs 15)), some (.paren (.abs 0) (.abs 15))] ∧
    tables.Accepts n!"VL" [some (.plain (.abs 1)), some (.plain .reloc)] ∧
    tables.Accepts n!"VL" [some (.plain (.abs 1)), some (.plain .reloc), some (.plain (.abs 3))] ∧
    ¬ tables.Accepts n!"VL" [some (.plain (.abs 1))] ∧ ¬ tables.Accepts n!"VL" [some (.plain (.abs 1)), none] := by decide +kernel

/-- The hypotheses of the theorems above hold for `AHI 1,-32768`, and the limits reported for `AHI 1,32768` are those of 16 bits. -/
example : tables.instr n!"AHI" = some ⟨n!"AHI", .RI_a, [reg_4_U, imm_16_S], 0⟩ ∧ imm_16_S.Ok = true ∧ (Written.plain (.abs (-32768))).Absolute ∧
    tables.Accepts n!"AHI" [some (.plain (.abs 1)), some (.plain (.abs (-32768)))] ∧
    tables.check n!"AHI" ([some (.plain (.abs 1)), some (.plain (.abs 32768))].map slot) = .ok [.limits 122 (-32768) 32767] := by
  refine ⟨by decide +kernel, by decide, trivial, by decide +kernel, by decide +kernel⟩

end Verif.Mach
