import Verif.DataDef.ReportSpec
import Verif.DataDef.Attr

/-
  The checks with messages against the checks without.
-/

namespace Verif.DataDef

open Spec (about Sort' Mistake Says values)

/-- A message complains of a sort of mistake. -/
def has (s : Sort') (l : List Msg) : Bool := l.any fun m => decide (about m = some s)

theorem has_iff (s : Sort') (l : List Msg) : has s l = true ↔ ∃ m ∈ l, about m = some s := by
  simp [has]

theorem has_append (s : Sort') (a b : List Msg) : has s (a ++ b) = (has s a || has s b) := by
  simp [has]

@[simp] theorem has_nil (s : Sort') : has s [] = false := rfl

theorem error_iff (m : Msg) : m.error = true ↔ ∃ s, about m = some s := by
  cases m with
  | D008 m lo hi rel => cases m <;> simp [Msg.error, about]
  | D009 m => cases m <;> simp [Msg.error, about]
  | _ => simp [Msg.error, about]

/-- A check returns false exactly if it reports an error. -/
def Rep.Sound (r : Rep) : Prop := r.1 = false ↔ ∃ m ∈ r.2, m.error = true

theorem sound_fine : Rep.fine.Sound := by simp [Rep.Sound, Rep.fine]

theorem sound_fail {m : Msg} (h : m.error = true) : (Rep.fail m).Sound := by simp [Rep.Sound, Rep.fail, h]

theorem sound_and {a b : Rep} (ha : a.Sound) (hb : b.Sound) : (a.and b).Sound := by
  unfold Rep.Sound Rep.and at *
  simp only [Bool.and_eq_false_iff, List.mem_append, ha, hb]
  constructor
  · rintro (⟨m, h, h'⟩ | ⟨m, h, h'⟩)
    · exact ⟨m, .inl h, h'⟩
    · exact ⟨m, .inr h, h'⟩
  · rintro ⟨m, h | h, h'⟩
    · exact .inl ⟨m, h, h'⟩
    · exact .inr ⟨m, h, h'⟩

theorem modifier_sound (m : Mod) (p : Bool) (v : Int) (s : ModSpec) : (reportModifier m p v s).Sound := by
  unfold reportModifier
  split
  · exact sound_fine
  · split
    · exact sound_fine
    · simp [Rep.Sound, Msg.error]
    · exact sound_fail rfl
    · split
      · exact sound_fail rfl
      · exact sound_fine

theorem modifier_fst (m : Mod) (p : Bool) (v : Int) (s : ModSpec) : (reportModifier m p v s).1 = checkModifier p v s := by
  unfold reportModifier checkModifier
  cases p <;> cases s <;> simp [Rep.fine, Rep.fail]
  rename_i lo hi
  by_cases h : v < lo ∨ hi < v
  · rw [if_pos h]
    rcases h with h | h
    · simp; omega
    · simp; omega
  · rw [if_neg h]
    simp; omega

theorem dupl_sound (op : Operand) : (reportDupl op).Sound := by
  unfold reportDupl
  split
  · split
    · exact sound_fail rfl
    · exact sound_fine
  · exact sound_fine

theorem dupl_fst (op : Operand) : (reportDupl op).1 = checkDupl op := by
  unfold reportDupl checkDupl
  cases op.dupl.present
  · rfl
  · by_cases h : op.dupl.value < 0 <;> simp [h, Rep.fine, Rep.fail]

theorem length_sound (td : TypeDef) (i : Instr) (op : Operand) : (reportLength td i op).Sound := by
  unfold reportLength
  split
  · exact sound_fail rfl
  · split
    · exact modifier_sound ..
    · exact modifier_sound ..

theorem length_fst (td : TypeDef) (i : Instr) (op : Operand) : (reportLength td i op).1 = checkLength td i op := by
  unfold reportLength checkLength
  split
  · rfl
  · cases op.length.bit <;> simp [modifier_fst]

theorem modifiers_sound (td : TypeDef) (i : Instr) (op : Operand) : (reportModifiers td i op).Sound :=
  sound_and (sound_and (sound_and (dupl_sound op) (length_sound td i op)) (modifier_sound ..)) (modifier_sound ..)

theorem modifiers_fst (td : TypeDef) (i : Instr) (op : Operand) : (reportModifiers td i op).1 = modifiers td i op := by
  simp only [reportModifiers, Rep.and, dupl_fst, length_fst, modifier_fst, modifiers]

theorem present_sound (i : Instr) (op : Operand) : (reportPresent i op).1.Sound := by
  unfold reportPresent
  cases i
  · dsimp only
    split
    · exact sound_fail rfl
    · split <;> exact sound_fine
  · dsimp only
    split <;> exact sound_fine

theorem present_fst (i : Instr) (op : Operand) : (reportPresent i op).1.1 = (checkNominalPresent i op).1 ∧
    (reportPresent i op).2 = (checkNominalPresent i op).2 := by
  unfold reportPresent checkNominalPresent
  cases i
  · dsimp only
    split
    · exact ⟨rfl, rfl⟩
    · split <;> exact ⟨rfl, rfl⟩
  · dsimp only
    split <;> exact ⟨rfl, rfl⟩

theorem addresses_mem : ∀ (l : List Value) (k : Nat) (m : Msg), m ∈ reportAddresses k l →
    ∃ j v, l[j]? = some v ∧ v.isAddress = true ∧ m = .D020 (k + j)
  | [], _, _, h => by cases h
  | v :: l, k, m, h => by
    simp only [reportAddresses, List.mem_append] at h
    rcases h with h | h
    · split at h
      · rename_i hv
        simp only [List.mem_cons, List.not_mem_nil, or_false] at h
        exact ⟨0, v, rfl, hv, h⟩
      · cases h
    · obtain ⟨j, w, h1, h2, h3⟩ := addresses_mem l (k + 1) m h
      exact ⟨j + 1, w, by simpa using h1, h2, by rw [h3, Nat.add_assoc, Nat.add_comm 1 j]⟩

theorem addresses_some : ∀ (l : List Value) (k : Nat), l.any Value.isAddress = true ↔ reportAddresses k l ≠ []
  | [], _ => by simp [reportAddresses]
  | v :: l, k => by
    have := addresses_some l (k + 1)
    cases hv : v.isAddress
    · simp only [List.any_cons, hv, Bool.false_or, reportAddresses, Bool.false_eq_true, if_false, List.nil_append]
      exact this
    · simp [reportAddresses, hv]

theorem nominalType_sound (td : TypeDef) (op : Operand) : (reportNominalType td op).Sound := by
  unfold reportNominalType
  split
  · exact sound_fine
  · exact sound_fail rfl
  · exact sound_fail rfl
  · rename_i l _ _
    unfold Rep.Sound
    dsimp only
    have h := addresses_some l 0
    constructor
    · intro h1
      have h2 : l.any Value.isAddress = true := by simpa using h1
      obtain ⟨m, hm⟩ := List.exists_mem_of_ne_nil _ (h.mp h2)
      obtain ⟨j, v, _, _, rfl⟩ := addresses_mem l 0 m hm
      exact ⟨_, hm, rfl⟩
    · rintro ⟨m, hm, _⟩
      have := h.mpr (by intro h0; rw [h0] at hm; cases hm)
      rw [this]; rfl
  · exact sound_fail rfl
  · exact sound_fine

theorem nominalType_fst (td : TypeDef) (op : Operand) : (reportNominalType td op).1 = checkNominalType td op := by
  unfold reportNominalType checkNominalType
  cases td.nominal <;> cases op.nominal.value <;> rfl

theorem base_sound (td : TypeDef) (i : Instr) (op : Operand) : (reportBase td i op).1.Sound := by
  unfold reportBase
  split
  · exact sound_and (sound_and (modifiers_sound ..) (present_sound ..)) (nominalType_sound ..)
  · exact sound_and (modifiers_sound ..) (present_sound ..)

theorem base_fst (td : TypeDef) (i : Instr) (op : Operand) :
    (reportBase td i op).1.1 = (checkBase td i op).1 ∧ (reportBase td i op).2 = (checkBase td i op).2 := by
  have h := present_fst i op
  have hm : (modifiers td i op) = (checkDupl op && checkLength td i op && checkModifier op.scale.present op.scale.value td.scale
    && checkModifier op.exponent.present op.exponent.value td.exponent) := rfl
  unfold reportBase checkBase
  dsimp only
  rw [h.2, ← hm]
  split
  · exact ⟨by simp only [Rep.and, modifiers_fst, h.1, nominalType_fst], nominalType_fst ..⟩
  · exact ⟨by simp only [Rep.and, modifiers_fst, h.1], rfl⟩

theorem text_sound (b : Bool) : (reportText b).Sound := by
  cases b
  · exact sound_fail rfl
  · exact sound_fine

theorem text_fst (b : Bool) : (reportText b).1 = b := by cases b <;> rfl

theorem even_sound (op : Operand) : (reportEven op).Sound := by
  unfold reportEven; split
  · exact sound_fail rfl
  · exact sound_fine

theorem even_fst (op : Operand) : (reportEven op).1 = !(op.length.present && decide (Int.tmod op.length.value 2 = 1)) := by
  unfold reportEven
  cases op.length.present <;> by_cases h : Int.tmod op.length.value 2 = 1 <;> simp [h, Rep.fine, Rep.fail]

theorem lengthIn_sound (op : Operand) (l : List Int) {m : Msg} (h : m.error = true) : (reportLengthIn op l m).Sound := by
  unfold reportLengthIn; split
  · exact sound_fail h
  · exact sound_fine

theorem lengthIn_fst (op : Operand) (l : List Int) (m : Msg) : (reportLengthIn op l m).1 = lengthIn op l := by
  unfold reportLengthIn lengthIn
  cases op.length.present <;> cases l.contains op.length.value <;> rfl

theorem edlNext_msg (ext : Char) (s : Text) :
    (∃ m, edlNextMsg ext s = .inl m ∧ edlNext ext s = .inl false ∧ (m = .D010 ∨ m = .D026 ∧ at0 s = 'R')) ∨
      ∃ t, edlNextMsg ext s = .inr t ∧ edlNext ext s = .inr t := by
  unfold edlNextMsg edlNext
  cases h : roundMode ext s with
  | none =>
    refine .inl ⟨_, rfl, rfl, .inr ⟨rfl, ?_⟩⟩
    unfold roundMode at h
    split at h
    · rename_i h'; simpa using h'
    · cases h
  | some q =>
    dsimp only
    split
    · exact .inl ⟨_, rfl, rfl, .inl rfl⟩
    · exact .inr ⟨_, rfl, rfl⟩

/-- The loop returns false with a message exactly where the loop without messages does. -/
theorem edl_msg (ext : Char) (n : Nat) : ∀ s : Text, s.length ≤ n → (edlMsg ext s = none ∧ edlLoop ext s = true) ∨
    ∃ m, edlMsg ext s = some m ∧ edlLoop ext s = false ∧ (m = .D010 ∨ m = .D026) := by
  induction n with
  | zero =>
    intro s hs
    have : s = [] := by cases s <;> simp_all
    subst this
    left; rw [edlMsg, edlLoop]; simp
  | succ n ih =>
    intro s hs
    by_cases he : s.isEmpty = true
    · left; rw [edlMsg, edlLoop]; simp [he]
    have hn : s.length ≠ 0 := by intro h0; simp_all
    rw [edlMsg, edlLoop, if_neg he, if_neg he]
    cases h1 : checkNumber edlSpec s with
    | none =>
      right; refine ⟨.D010, ?_, ?_, .inl rfl⟩
      · simp
      · simp
    | some r =>
      have hr := checkNumber_le h1
      dsimp only
      by_cases hE : (at0 r == 'E') = true
      · rw [if_pos hE, if_pos hE]
        cases h2 : checkExponent r with
        | none => exact .inr ⟨.D010, rfl, rfl, .inl rfl⟩
        | some q =>
          have hq := checkExponent_le h2
          dsimp only
          by_cases hq0 : q.isEmpty = true
          · left; simp [hq0]
          rw [if_neg hq0, if_neg hq0]
          rcases edlNext_msg ext q with ⟨m, h3, h4, h5⟩ | ⟨t, h3, h4⟩
          · right; refine ⟨m, ?_, ?_, h5.imp_right And.left⟩
            · rw [h3]
            · rw [h4]
          · have := edlNext_le h4
            have hh := ih t (by omega)
            rw [h3, h4]
            exact hh
      · rw [if_neg hE, if_neg hE]
        rcases edlNext_msg ext r with ⟨m, h3, h4, h5⟩ | ⟨t, h3, h4⟩
        · right; refine ⟨m, ?_, ?_, h5.imp_right And.left⟩
          · rw [h3]
          · rw [h4]
        · have := edlNext_le h4
          have hh := ih t (by omega)
          rw [h3, h4]
          exact hh

theorem edl_cases (ext : Char) (s : Text) : (reportEDL ext s = Rep.fine ∧ checkEDL ext s = true) ∨
    ((reportEDL ext s = Rep.fail .D010 ∨ reportEDL ext s = Rep.fail .D026) ∧ checkEDL ext s = false) := by
  unfold reportEDL checkEDL
  split
  · exact .inr ⟨.inl rfl, rfl⟩
  · split
    · exact .inr ⟨.inl rfl, rfl⟩
    · rcases edl_msg ext s.length s (Nat.le_refl _) with ⟨h1, h2⟩ | ⟨m, h1, h2, h3⟩
      · exact .inl ⟨by rw [h1], h2⟩
      · refine .inr ⟨?_, h2⟩
        rw [h1]
        rcases h3 with rfl | rfl
        · exact .inl rfl
        · exact .inr rfl

theorem edl_sound (ext : Char) (s : Text) : (reportEDL ext s).Sound := by
  rcases edl_cases ext s with ⟨h, _⟩ | ⟨h | h, _⟩ <;> rw [h]
  · exact sound_fine
  · exact sound_fail rfl
  · exact sound_fail rfl

theorem edl_fst (ext : Char) (s : Text) : (reportEDL ext s).1 = checkEDL ext s := by
  rcases edl_cases ext s with ⟨h, h'⟩ | ⟨h | h, h'⟩ <;> rw [h, h'] <;> rfl

/-! ### values in parentheses -/

theorem sValue_sound (size : Nat) (signed : Bool) (k : Nat) (v : Value) : (reportSValue size signed k v).Sound := by
  cases v with
  | expr x kind g =>
    unfold reportSValue
    dsimp only
    repeat' split
    all_goals first | exact sound_fine | exact sound_fail rfl
  | address b x g =>
    unfold reportSValue
    dsimp only
    split
    · exact sound_fine
    · apply sound_and
      · repeat' split
        all_goals first | exact sound_fine | exact sound_fail rfl
      · split
        · exact sound_fail rfl
        · exact sound_fine

theorem sValue_fst (size : Nat) (signed : Bool) (k : Nat) (v : Value) :
    (reportSValue size signed k v).1 = checkSValue size signed v := by
  cases v with
  | expr x kind g =>
    unfold reportSValue checkSValue
    dsimp only
    cases g <;> cases signed <;> cases sizeSigned x size <;> cases sizeUnsigned x size <;> rfl
  | address b x g =>
    unfold reportSValue checkSValue
    dsimp only
    cases g <;> cases signed <;> cases sizeSigned x.value size <;> cases sizeUnsigned x.value size <;>
      cases sizeUnsigned b.value 4 <;> rfl

theorem sLoop_sound (size : Nat) (signed : Bool) : ∀ (l : List Value) (k : Nat), (reportSLoop size signed k l).Sound
  | [], _ => sound_fine
  | v :: l, k => sound_and (sValue_sound ..) (sLoop_sound size signed l (k + 1))

theorem sLoop_fst (size : Nat) (signed : Bool) : ∀ (l : List Value) (k : Nat),
    (reportSLoop size signed k l).1 = l.all (checkSValue size signed)
  | [], _ => rfl
  | v :: l, k => by
    simp only [reportSLoop, Rep.and, sValue_fst, sLoop_fst size signed l (k + 1), List.all_cons]

/-- What a check with messages that does not fail has to do with the check without. -/
def Agree (r : Except Crash Rep) (c : Except Crash Bool) : Prop :=
  (∃ e, r = .error e ∧ c = .error e) ∨ ∃ p, r = .ok p ∧ c = .ok p.1 ∧ p.Sound

theorem agree_ok {p : Rep} {b : Bool} (h : p.1 = b) (hs : p.Sound) : Agree (.ok p) (.ok b) := .inr ⟨p, rfl, by rw [h], hs⟩

theorem agree_text (op : Operand) (c : Bool) (f : Text → Rep) (g : Text → Bool) (h : ∀ s, (f s).1 = g s) (hs : ∀ s, (f s).Sound) :
    Agree (if !c then .ok Rep.fine else do .ok (f (← getText op.nominal.value)))
      (if !c then .ok true else do .ok (g (← getText op.nominal.value))) := by
  cases c
  · exact agree_ok rfl sound_fine
  · cases op.nominal.value with
    | str s => exact agree_ok (h s) (hs s)
    | exprs l => exact .inl ⟨_, rfl, rfl⟩

theorem agree_A (op : Operand) (a b c d e f : Int) : Agree (reportALength op a b c d e f) (checkALength op a b c d e f) := by
  unfold reportALength checkALength
  cases hp : op.length.present with
  | false => exact agree_ok rfl sound_fine
  | true =>
    simp only [Bool.not_true, Bool.false_eq_true, if_false]
    cases hg : getExprs op.nominal.value with
    | error x => exact .inl ⟨x, rfl, rfl⟩
    | ok l =>
      simp only [bind, Except.bind]
      cases ha : allAbsolute l with
      | error x => exact .inl ⟨x, rfl, rfl⟩
      | ok abs =>
        dsimp only
        cases abs <;> cases hb : op.length.bit <;>
          simp only [if_true, if_false, Bool.false_eq_true, true_and, false_and, reduceCtorEq]
        · by_cases h : op.length.value < c ∨ op.length.value > d
          · rw [if_pos h]
            refine agree_ok ?_ (sound_fail rfl)
            symm; simp [Rep.fail]; omega
          · rw [if_neg h]
            refine agree_ok ?_ sound_fine
            symm; simp [Rep.fine]; omega
        · exact agree_ok rfl (sound_fail rfl)
        · by_cases h : op.length.value < a ∨ op.length.value > b
          · rw [if_pos h]
            refine agree_ok ?_ (sound_fail rfl)
            symm; simp [Rep.fail]; omega
          · rw [if_neg h]
            refine agree_ok ?_ sound_fine
            symm; simp [Rep.fine]; omega
        · by_cases h : op.length.value < e ∨ op.length.value > f
          · rw [if_pos h]
            refine agree_ok ?_ (sound_fail rfl)
            symm; simp [Rep.fail]; omega
          · rw [if_neg h]
            refine agree_ok ?_ sound_fine
            symm; simp [Rep.fine]; omega

theorem agree_S (op : Operand) (size : Nat) (signed : Bool) : Agree (reportS size signed op) (checkS size signed op) := by
  unfold reportS checkS
  cases hg : getExprs op.nominal.value with
  | error x => exact .inl ⟨x, rfl, rfl⟩
  | ok l => exact agree_ok (sLoop_fst ..) (sLoop_sound ..)

theorem agree_if (c : Bool) {r : Except Crash Rep} {k : Except Crash Bool} (h : Agree r k) :
    Agree (if !c then .ok Rep.fine else r) (if !c then .ok true else k) := by
  cases c
  · exact agree_ok rfl sound_fine
  · exact h

theorem agree_own {td : TypeDef} (h : td ∈ types) (op : Operand) (c : Bool) : Agree (reportOwn td op c) (checkOwn td op c) := by
  unfold reportOwn checkOwn
  simp only [types, List.mem_cons, List.not_mem_nil, or_false] at h
  rcases h with rfl|rfl|rfl|rfl|rfl|rfl|rfl|rfl|rfl|rfl|rfl|rfl|rfl|rfl|rfl|rfl|rfl|rfl|rfl|rfl|rfl|rfl|rfl|rfl|rfl|rfl|rfl|rfl|rfl|rfl|rfl|rfl|rfl|rfl|rfl|rfl|rfl|rfl|rfl <;>
    first
    | exact agree_ok rfl sound_fine
    | exact agree_ok (even_fst op) (even_sound op)
    | exact agree_ok (lengthIn_fst ..) (lengthIn_sound op _ rfl)
    | exact agree_if c (agree_A ..)
    | exact agree_if c (agree_S ..)
    | exact agree_text op c (fun s => reportText (checkCommaSeparated isBinary s)) _ (fun _ => text_fst _) (fun _ => text_sound _)
    | exact agree_text op c (fun s => reportText (checkCommaSeparated isHex s)) _ (fun _ => text_fst _) (fun _ => text_sound _)
    | exact agree_text op c (fun s => reportText (checkHF s)) _ (fun _ => text_fst _) (fun _ => text_sound _)
    | exact agree_text op c (fun s => reportText (checkPZ s)) _ (fun _ => text_fst _) (fun _ => text_sound _)
    | exact agree_text op c (reportEDL _) _ (fun _ => edl_fst ..) (fun _ => edl_sound ..)

/-- The check of an operand with messages. -/
theorem report_ok (i : Instr) (op : Operand) : ∃ r : Rep, op.report i = .ok r ∧ op.check i = .ok r.1 ∧ r.Sound := by
  obtain ⟨b, hb, _⟩ := check_total i op
  unfold Operand.report
  unfold Operand.check at hb ⊢
  cases ha : accessType op.type op.ext with
  | none =>
    dsimp only
    by_cases he : op.ext ≠ '\x00'
    · rw [if_pos he]
      cases accessType op.type '\x00' with
      | none => exact ⟨_, rfl, rfl, sound_fail rfl⟩
      | some td => exact ⟨_, rfl, rfl, sound_fail rfl⟩
    · rw [if_neg he]
      exact ⟨_, rfl, rfl, sound_fail rfl⟩
  | some td =>
    rw [ha] at hb
    obtain ⟨hm, _, _⟩ := accessType_mem ha
    have hbase := base_fst td i op
    dsimp only at hb ⊢
    unfold reportType
    unfold checkType at hb ⊢
    dsimp only at hb ⊢
    rw [hbase.2]
    rcases agree_own hm op (checkBase td i op).2 with ⟨e, h1, h2⟩ | ⟨p, h1, h2, h3⟩
    · rw [h2] at hb; cases hb
    · rw [h2] at hb
      rw [h1, h2]
      simp only [bind, Except.bind] at hb ⊢
      have hfst : ((reportBase td i op).1.and p).1 = ((checkBase td i op).1 && p.1) := by simp only [Rep.and, hbase.1]
      have hsnd : ((reportBase td i op).1.and p).Sound := sound_and (base_sound ..) h3
      rw [hfst]
      cases hc : ((checkBase td i op).1 && p.1) with
      | false =>
        simp only [Bool.not_false, if_true]
        exact ⟨_, rfl, by rw [hfst, hc], hsnd⟩
      | true =>
        rw [hc] at hb hfst
        simp only [Bool.not_true, Bool.false_eq_true, if_false] at hb ⊢
        cases hl : getLength td op with
        | error e => rw [hl] at hb; cases hb
        | ok n =>
          dsimp only
          by_cases hn : n ≥ 2 ^ 31 * 8
          · rw [if_pos hn]
            refine ⟨_, rfl, ?_, ?_⟩
            · rw [decide_eq_false (by omega)]
            · unfold Rep.Sound
              simp [Msg.error]
          · rw [if_neg hn]
            exact ⟨_, rfl, by rw [decide_eq_true (by omega), hfst], hsnd⟩

end Verif.DataDef
