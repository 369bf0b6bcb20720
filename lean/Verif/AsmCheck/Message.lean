import Verif.AsmCheck.Place
import Verif.AsmCheck.MessageSpec

/-!
# Every message about operands of assembler instructions is true
-/

namespace Verif.AsmCheck

/-- The messages of an outcome are true. -/
def True_ (i : Instr) (ops : List AOp) (out : Out) : Prop := ∀ d ∈ out.diags, Complaint i ops d.code d.place

theorem true_accept (i : Instr) (ops : List AOp) : True_ i ops accept := by simp [True_, accept]

theorem true_one {i : Instr} {ops : List AOp} {b : Bool} {d : Diag} (h : Complaint i ops d.code d.place) : True_ i ops ⟨b, [d]⟩ := by
  simpa [True_] using h

theorem true_refuse {i : Instr} {ops : List AOp} {c : Nat} {w : Where} (h : Complaint i ops c w) : True_ i ops (refuse c w) := true_one h

theorem true_ite {i : Instr} {ops : List AOp} {p : Prop} [Decidable p] {a b : Out} (ha : p → True_ i ops a) (hb : ¬ p → True_ i ops b) :
    True_ i ops (if p then a else b) := by
  by_cases h : p
  · rw [if_pos h]; exact ha h
  · rw [if_neg h]; exact hb h

theorem count_le (i : Instr) : ∀ n, (operandCount i).2 = some n → (operandCount i).1 ≤ n := by
  cases i <;> simp [operandCount]

theorem true_sized {i : Instr} {lo : Nat} {hi : Option Nat} {ops : List AOp} {k : Out} (hc : operandCount i = (lo, hi))
    (h : lo ≤ ops.length → (∀ n, hi = some n → ops.length ≤ n) → True_ i ops k) : True_ i ops (sized lo hi ops k) := by
  have hle := count_le i
  have e1 : (operandCount i).1 = lo := by rw [hc]
  have e2 : (operandCount i).2 = hi := by rw [hc]
  unfold sized
  split
  next h' =>
    rw [Bool.and_eq_true, decide_eq_true_eq] at h'
    refine h h'.1 fun n e => ?_
    subst e
    simpa using h'.2
  next h' =>
    have hw : WrongCount i ops := by
      unfold WrongCount
      rw [e1, e2]
      by_cases hlo : lo ≤ ops.length
      · right
        cases hi with
        | none => simp [hlo] at h'
        | some n => exact ⟨n, rfl, by simpa [hlo] using h'⟩
      · left; omega
    split
    · exact true_refuse (.a010 e2 hw)
    next n =>
      have := hle n e2
      rw [e1] at this
      split
      next he => exact true_refuse (.a011 (by rw [e1, e2, he]) hw)
      next he =>
        split
        · exact true_refuse (.a013 (by rw [e1, e2]; congr 1; omega) hw)
        · exact true_refuse (.a012 e2 (by rw [e1]; omega) hw)

theorem true_outOf {i : Instr} {ops : List AOp} {x : Option Diag} (h : ∀ d, x = some d → Complaint i ops d.code d.place) :
    True_ i ops (outOf x) := by
  cases x with
  | none => exact true_accept i ops
  | some d => exact true_one (h d rfl)

/-- A loop over all operands. -/
theorem true_loop {i : Instr} {ops : List AOp} {f : Nat → AOp → Option Diag}
    (h : ∀ k o d, At ops (.op k) o → ops[k]? = some o → f k o = some d → Complaint i ops d.code d.place) :
    True_ i ops (outOf (firstWrong f 0 ops)) := by
  refine true_outOf fun d hd => ?_
  obtain ⟨j, o, h1, h2⟩ := firstWrong_some f ops 0 d hd
  rw [Nat.zero_add] at h2
  exact h j o d (.op h1) h1 h2

theorem at_head {o : AOp} {r : List AOp} : At (o :: r) (.op 0) o := .op rfl
theorem at_second {a o : AOp} {r : List AOp} : At (a :: o :: r) (.op 1) o := .op rfl
theorem at_third {a b o : AOp} {r : List AOp} : At (a :: b :: o :: r) (.op 2) o := .op rfl

theorem absolute_simple {t : String} {v : Option Int} {x : Int} : Absolute (.simple t v) x ↔ v = some x := by
  unfold Absolute; simp

theorem not_absolute_complex {id : String} {ps : List AOp} {x : Int} : ¬ Absolute (.complex id ps) x := by simp [Absolute]
theorem not_absolute_empty {x : Int} : ¬ Absolute .empty x := by simp [Absolute]

theorem noOperands_true (ops : List AOp) : True_ .noOperands ops (checkNoOperands ops) := true_sized rfl fun _ _ => true_accept _ _

theorem expression_true (ops : List AOp) : True_ .expression ops (checkExpression ops) := by
  unfold checkExpression
  split
  · exact true_accept _ _
  · exact true_accept _ _
  · refine true_sized rfl fun _ _ => ?_
    unfold checkExpression1
    split
    · refine true_ite (fun _ => true_accept _ _) fun hv => true_refuse (.a148 at_head ?_)
      rintro ⟨x, hx, h0⟩
      rw [absolute_simple] at hx; cases hx; exact hv h0
    · refine true_refuse (.a148 at_head ?_)
      rintro ⟨x, hx, h0⟩
      rw [absolute_simple] at hx; cases hx
    next h1 h2 =>
      refine true_refuse (.a240 at_head ?_)
      rintro ⟨x, ⟨t, ht⟩, -⟩
      exact h1 t x ht

theorem value_none {o : AOp} (h : o.value? = none) : ¬ HasValue o (fun _ => True) := by
  rintro ⟨x, ⟨t, rfl⟩, -⟩
  simp [AOp.value?] at h

theorem cnop_true (ops : List AOp) : True_ .cnop ops (checkCnop ops) := by
  unfold checkCnop
  refine true_sized rfl fun h h' => ?_
  split
  next a b r =>
    have hr : r = [] := by
      have := h' 2 rfl
      rw [List.length_cons, List.length_cons] at this
      exact List.length_eq_zero_iff.1 (by omega)
    subst hr
    split
    next ha => exact true_refuse (.a143 at_head (value_none ha))
    next hb => exact true_refuse (.a143 at_second (value_none hb))
    next x y ha hb =>
      have ha' := (value_iff a x).1 ha
      have hb' := (value_iff b y).1 hb
      unfold checkCnop2
      refine true_ite (fun h => true_refuse (.a144 at_head ⟨x, ha', h⟩)) fun h1 => true_ite (fun h => true_refuse (.a145 at_second ⟨y, hb', ?_⟩))
        fun h2 => true_ite (fun h => true_refuse (.a146 rfl ha' hb' (by omega))) fun _ => true_accept _ _
      rintro ⟨hk, h2, h3⟩
      rcases h with h | h | h
      · omega
      · omega
      · have := (powerOfTwo_iff y h2).2 hk
        rw [this] at h; cases h
  · exact true_accept _ _

theorem ictlForm_some {k : Nat} {o : AOp} {d : Diag} (h : ictlForm k o = some d) :
    (¬ ∃ v, Decimal o v) ∧ d = ⟨if k = 0 then 122 else 242, .op k⟩ := by
  constructor
  · intro hv
    rw [(ictlForm_iff k o).2 hv] at h
    cases h
  unfold ictlForm at h
  split at h
  · split at h
    · cases h
    · cases h; rfl
  · cases h; rfl

theorem ictl_true (ops : List AOp) : True_ .ictl ops (checkIctl ops) := by
  unfold checkIctl
  refine true_sized rfl fun h h' => ?_
  unfold checkIctl3
  split
  · exact true_refuse (.a021 at_head)
  next ops' _ =>
    split
    next d hd =>
      obtain ⟨j, o, h1, h2⟩ := firstWrong_some _ _ 0 d hd
      rw [Nat.zero_add] at h2
      obtain ⟨h3, rfl⟩ := ictlForm_some h2
      refine true_one ?_
      by_cases hj : j = 0
      · simp only [hj, if_true]
        exact .a122 (.op (hj ▸ h1)) h3
      · simp only [hj, if_false]
        exact .a242 (by omega) (.op h1) h3
    next hn =>
      have hall := (firstWrong_none (P := fun o => ∃ v, Decimal o v) (fun i o => ictlForm_iff i o) ops 0).1 hn
      rcases ops with _ | ⟨a, _ | ⟨b, _ | ⟨c, _ | ⟨d, r⟩⟩⟩⟩
      · simp at h
      · obtain ⟨x, hx⟩ := hall a (by simp)
        simp only [ictlValues, decimal_value hx, Option.getD_some]
        unfold checkIctl2
        refine true_ite (fun h => true_refuse (.a123 at_head hx (by omega))) fun h1 => ?_
        rw [if_neg (by omega), if_neg (by omega)]
        simp only
        rw [if_neg (by omega)]
        exact true_ite (fun h => true_refuse (.a127_omitted rfl hx h)) fun _ => true_accept _ _
      · obtain ⟨x, hx⟩ := hall a (by simp)
        obtain ⟨y, hy⟩ := hall b (by simp)
        simp only [ictlValues, decimal_value hx, decimal_value hy, Option.getD_some]
        unfold checkIctl2
        refine true_ite (fun h => true_refuse (.a123 at_head hx (by omega))) fun h1 => ?_
        refine true_ite (fun h => true_refuse (.a124 at_second hy (by omega))) fun h2 => ?_
        exact true_ite (fun h => true_refuse (.a125 rfl hx hy h)) fun _ => true_accept _ _
      · obtain ⟨x, hx⟩ := hall a (by simp)
        obtain ⟨y, hy⟩ := hall b (by simp)
        obtain ⟨z, hz⟩ := hall c (by simp)
        simp only [ictlValues, decimal_value hx, decimal_value hy, decimal_value hz, Option.getD_some]
        unfold checkIctl2
        refine true_ite (fun h => true_refuse (.a123 at_head hx (by omega))) fun h1 => ?_
        refine true_ite (fun h => true_refuse (.a124 at_second hy (by omega))) fun h2 => ?_
        refine true_ite (fun h => true_refuse (.a125 rfl hx hy h)) fun _ => ?_
        by_cases h80 : y = 80
        · rw [if_pos h80]; exact true_accept _ _
        · rw [if_neg h80]
          exact true_ite (fun h => true_refuse (.a126 at_third hz (by omega))) fun _ =>
            true_ite (fun h => true_refuse (.a127 rfl hx hz h)) fun _ => true_accept _ _
      · have := h' 3 rfl
        simp at this

theorem iseq_true (ops : List AOp) : True_ .iseq ops (checkIseq ops) := by
  unfold checkIseq
  split
  · exact true_accept _ _
  next a b =>
    split
    next l r hl hr =>
      have hl' := (value_iff a l).1 hl
      have hr' := (value_iff b r).1 hr
      unfold checkIseq2
      refine true_ite (fun _ => true_accept _ _) fun h1 => true_ite (fun h => true_refuse (.a121 rfl hl' hr' h)) fun h2 =>
        true_refuse (.a120 (by simp) ?_)
      rintro ⟨a', b', e, ⟨x, hx, h3⟩, y, hy, h4⟩
      cases e
      have e1 := (value_iff a x).2 hx
      have e2 := (value_iff b y).2 hy
      rw [hl] at e1; rw [hr] at e2
      cases e1; cases e2
      exact h1 ⟨h3.1, h3.2, h4.1, h4.2, by omega⟩
    next h =>
      refine true_refuse (.a120 (by simp) ?_)
      rintro ⟨a', b', e, ⟨x, hx, h3⟩, y, hy, h4⟩
      cases e
      exact h x y ((value_iff a x).2 hx) ((value_iff b y).2 hy)
  next h1 h2 =>
    refine true_refuse (.a013_iseq rfl ?_ ?_)
    · intro h; exact h1 (List.length_eq_zero_iff.1 h)
    · intro h
      obtain ⟨a, b, e⟩ := length_two.1 h
      exact h2 a b e

theorem entry_true (ops : List AOp) : True_ .entry ops (checkEntry ops) := by
  unfold checkEntry
  refine true_sized rfl fun h _ => true_ite (fun h => true_refuse (.a014 rfl h)) fun _ => true_loop fun k o d ho _ hd => ?_
  unfold entryOperand at hd
  split at hd
  · cases hd
  next h' => cases hd; exact .a136 ho fun hn => h' ((text_iff o).2 hn)

theorem external_true (ops : List AOp) : True_ .external ops (checkExternal ops) := by
  unfold checkExternal
  refine true_sized rfl fun h _ => true_loop fun k o d ho _ hd => ?_
  have hname : ∀ id ps, ¬ Name (.complex id ps) := by rintro id ps ⟨t, v, -, h⟩; cases h
  cases o with
  | complex id ps =>
    simp only [externalOperand] at hd
    split at hd
    next hid =>
      cases hd
      refine .a129 ho (hname _ _) ?_
      rintro ⟨ps', e, -⟩
      cases e; exact hid rfl
    · split at hd
      · cases hd
      next hall =>
        cases hd
        refine .a129 ho (hname _ _) ?_
        rintro ⟨ps', e, h2⟩
        cases e
        exact hall (List.all_eq_true.2 fun p hp => (text_iff p).2 (h2 p hp))
  | simple t v =>
    simp only [externalOperand] at hd
    split at hd
    next ht =>
      cases hd
      refine .a129 ho ?_ (by rintro ⟨ps, e, -⟩; cases e)
      rintro ⟨t', v', h1, h2⟩
      cases h2; exact h1 ht
    · cases hd
  | empty => cases hd; exact .a021 ho

theorem filterMap_three {ps : List AOp} {a b c : String} (hl : ps.length = 3) (h : ps.filterMap AOp.text? = [a, b, c]) :
    ∃ va vb vc, ps = [.simple a va, .simple b vb, .simple c vc] := by
  rcases ps with _ | ⟨x, _ | ⟨y, _ | ⟨z, _ | ⟨w, r⟩⟩⟩⟩
  · simp at hl
  · simp at hl
  · simp at hl
  · cases x <;> cases y <;> cases z <;> simp only [List.filterMap, AOp.text?] at h <;> try (simp at h; done)
    simp only [List.cons.injEq, and_true] at h
    obtain ⟨rfl, rfl, rfl⟩ := h
    exact ⟨_, _, _, rfl⟩
  · simp at hl

theorem endLanguage_true (o l : AOp) : True_ .end_ [o, l] (endLanguage l) := by
  cases l with
  | empty => exact true_accept _ _
  | simple t v => exact true_refuse (.a001 at_second (by simp))
  | complex id ps =>
    simp only [endLanguage]
    refine true_ite (fun hl => true_refuse (.a016 (id := id) (ps := ps) (by simp) (by simpa using hl))) fun hl =>
      true_ite (fun hid => true_refuse (.a137 at_second hid)) fun _ => ?_
    rw [not_not] at hl
    have hp : ∀ j p, ps[j]? = some p → At [o, .complex id ps] (.param 1 j) p := fun j p hj => .param rfl hj
    split
    next d hd =>
      obtain ⟨j, p, h1, h2⟩ := firstWrong_some _ _ 0 d hd
      rw [Nat.zero_add] at h2
      unfold endParam at h2
      split at h2
      · cases h2
      next ht =>
        cases h2
        refine true_one (.a248 (hp j p h1) ?_)
        rintro t v rfl
        exact ht rfl
    next =>
      split
      next a b c hf =>
        obtain ⟨va, vb, vc, rfl⟩ := filterMap_three hl hf
        unfold endTexts
        refine true_ite (fun h => true_refuse (.a138 (hp 0 _ rfl) (by omega))) fun _ => true_ite (fun h => true_refuse (.a139 (hp 1 _ rfl) h))
          fun _ => true_ite (fun h => true_refuse (.a140 (hp 2 _ rfl) ?_)) fun _ => true_accept _ _
        rcases h with h | h
        · exact Or.inl h
        · right; intro hd; rw [(allDigits_iff c).2 hd] at h; cases h
      · exact true_accept _ _

theorem end_true (ops : List AOp) : True_ .end_ ops (checkEnd ops) := by
  unfold checkEnd
  refine true_sized rfl fun h h' => ?_
  clear h h'
  split
  · exact true_accept _ _
  next o r =>
    refine true_ite (fun hc => ?_) fun _ => ?_
    · cases o with
      | complex id ps => exact true_refuse (.a243 at_head)
      | simple => cases hc
      | empty => cases hc
    · split
      · exact endLanguage_true _ _
      · exact true_accept _ _

theorem not_enclosed {t : String} {v : Option Int} (h : t.length < 2 ∨ quoted t.toList = false) : ¬ ∃ body, Enclosed (.simple t v) body := by
  rintro ⟨body, hb⟩
  rw [enclosed_iff] at hb
  have := (quoted_iff t.toList).2 ⟨body, hb⟩
  rw [length_toList] at this
  rcases h with h | h
  · omega
  · rw [this.2] at h; cases h

theorem enclosed_length {t : String} {v : Option Int} {body : List Char} (h : Enclosed (.simple t v) body) : t.length = body.length + 2 := by
  rw [enclosed_iff] at h
  rw [← length_toList, h]; simp

theorem not_simple_enclosed {o : AOp} (h : ∀ t v, o ≠ .simple t v) : ¬ ∃ body, Enclosed o body := by
  rintro ⟨body, t, v, -, e⟩
  exact h t v e

theorem mnoteTexts_true (ops : List AOp) (t : String) (v : Option Int) (k : Nat) (f : Option (String × Option Int))
    (hk : At ops (.op k) (.simple t v)) (hf : ∀ s w, f = some (s, w) → ops = [.simple s w, .simple t v]) :
    True_ .mnote ops (mnoteTexts t k f) := by
  unfold mnoteTexts
  refine true_ite (fun h => true_refuse (.a300 hk (not_enclosed h))) fun _ => true_ite (fun h => true_refuse (.a117 hk ?_)) fun _ => ?_
  · rintro ⟨body, hb, hl⟩
    have := enclosed_length hb
    omega
  · split
    · exact true_accept _ _
    next s w =>
      have e := hf s w rfl
      refine true_ite (fun h => true_refuse (.a118 e h)) fun _ => true_ite (fun _ => true_accept _ _) fun hs => ?_
      have hstar : ¬ OneOf ["*"] (.simple s w) := by
        rintro ⟨t', v', h1, h2⟩
        cases h2
        exact hs (by simpa using h1)
      have hat : At ops (.op 0) (.simple s w) := by rw [e]; exact at_head
      refine true_ite (fun h => true_refuse (.a119 hat hstar ?_ (by simp))) fun hd => true_ite (fun _ => true_accept _ _) fun hb =>
        true_refuse (.a119 hat hstar ?_ (by simp))
      · rintro ⟨x, ⟨t', h1, h2⟩, -⟩
        cases h2
        rw [(allDigits_iff s).2 h1] at h; cases h
      · rintro ⟨x, ⟨t', h1, h2⟩, h3, h4⟩
        cases h2
        exact hb (by simp [byteValue, h3, h4])

theorem mnote_true (ops : List AOp) : True_ .mnote ops (checkMnote ops) := by
  unfold checkMnote
  refine true_sized rfl fun h h' => ?_
  clear h h'
  split
  · exact mnoteTexts_true _ _ _ _ _ at_head (by simp)
  next h1 =>
    refine true_refuse (.a117 at_head ?_)
    rintro ⟨body, ⟨t, v, -, e⟩, -⟩
    exact h1 t v e
  · exact mnoteTexts_true _ _ _ _ _ at_second (by simp)
  · exact mnoteTexts_true _ _ _ _ _ at_second (by simp)
  next a t v h1 h2 =>
    refine true_refuse (.a119 at_head ?_ ?_ ?_)
    · rintro ⟨t', v', -, e⟩; exact h1 t' v' e
    · rintro ⟨x, ⟨t', -, e⟩, -⟩; exact h1 t' _ e
    · intro e; exact h2 e
  next a b h1 h2 h3 =>
    refine true_refuse (.a117 at_second ?_)
    rintro ⟨body, ⟨t, v, -, e⟩, -⟩
    exact h3 t v e
  · exact true_accept _ _

theorem opsyn_true (ops : List AOp) : True_ .opsyn ops (checkOpsyn ops) := by
  unfold checkOpsyn
  refine true_sized rfl fun h h' => ?_
  clear h h'
  split
  next o =>
    refine true_ite (fun hc => ?_) fun _ => true_accept _ _
    cases o with
    | complex id ps => exact true_refuse (.a246 at_head)
    | simple => cases hc
    | empty => cases hc
  · exact true_accept _ _

theorem not_oneOf {o : AOp} {l l' : List String} (h : ¬ o.among l = true) (hs : ∀ t ∈ l', t ∈ l) : ¬ OneOf l' o := by
  rintro ⟨t, v, h1, rfl⟩
  exact h (by simpa [AOp.among, AOp.text?] using hs t h1)

theorem not_oneOf_simple {t : String} {v : Option Int} {l : List String} (h : t ∉ l) : ¬ OneOf l (.simple t v) := by
  rintro ⟨t', v', h1, e⟩
  cases e; exact h h1

theorem not_oneOf_other {o : AOp} {l : List String} (h : ∀ t v, o ≠ .simple t v) : ¬ OneOf l o := by
  rintro ⟨t, v, -, e⟩
  exact h t v e

theorem stackLoop_true (ops : List AOp) (seen : List String) (k : Nat) (r : List AOp) (h : ∀ j o, r[j]? = some o → ops[k + j]? = some o)
    (hl : k + r.length = ops.length) (hseen : ∀ t ∈ seen, ∃ j v, j < k ∧ At ops (.op j) (.simple t v)) :
    True_ .stack ops (stackLoop ops.length seen k r) := by
  induction r generalizing seen k with
  | nil => exact true_accept _ _
  | cons o r ih =>
    have ho : At ops (.op k) o := .op (h 0 o rfl)
    have hr : ∀ j p, r[j]? = some p → ops[k + 1 + j]? = some p := by
      intro j p hj
      rw [show k + 1 + j = k + (j + 1) by omega]
      exact h (j + 1) p hj
    have hl' : k + 1 + r.length = ops.length := by simp at hl; omega
    have hlk : k < ops.length := by omega
    have hmono : ∀ t ∈ seen, ∃ j v, j < k + 1 ∧ At ops (.op j) (.simple t v) := by
      intro t ht
      obtain ⟨j, v, h1, h2⟩ := hseen t ht
      exact ⟨j, v, by omega, h2⟩
    have hlast : ∀ {l' : List String}, ¬ OneOf ["PRINT", "USING", "ACONTROL", "NOPRINT"] o →
        True_ .stack ops (refuse (if k = ops.length - 1 then 110 else 111) (.op k)) := by
      intro _ hn
      by_cases hk : k = ops.length - 1
      · rw [if_pos hk]; exact true_refuse (.a110 (by omega) ho hn)
      · rw [if_neg hk]
        refine true_refuse (.a111 (by omega) ho ?_)
        rintro ⟨t, v, h1, e⟩
        refine hn ⟨t, v, ?_, e⟩
        simp only [List.mem_cons, List.not_mem_nil, or_false] at h1 ⊢
        tauto
    cases o with
    | simple t v =>
      simp only [stackLoop]
      refine true_ite (fun _ => true_ite (fun ht => ?_) fun _ => ih _ _ hr hl' ?_) fun h1 => ?_
      · obtain ⟨j, w, h1, h2⟩ := hseen t ht
        exact true_refuse (.a112 h1 h2 ho)
      · intro t' ht'
        rcases List.mem_cons.1 ht' with rfl | ht'
        · exact ⟨k, v, by omega, ho⟩
        · exact hmono t' ht'
      · refine true_ite (fun ht => ?_) fun h2 => hlast (l' := []) (not_oneOf_simple ?_)
        · subst ht
          refine true_ite (fun hk => true_refuse (.a113 (by omega) ho)) fun hk => true_ite (fun h1 => true_refuse (.a114 (v := v) ?_)) fun _ => ih _ _ hr hl' hmono
          have hk0 : k = 0 := by omega
          cases ho with
          | op ho =>
            rw [hk0] at ho
            obtain ⟨a, e⟩ := List.length_eq_one_iff.1 h1
            rw [e] at ho ⊢
            simp at ho
            rw [ho]
        · simp only [List.mem_cons, List.not_mem_nil, or_false]; tauto
    | complex id ps => exact hlast (l' := []) (not_oneOf_other (by simp))
    | empty => exact hlast (l' := []) (not_oneOf_other (by simp))

theorem stack_true (ops : List AOp) : True_ .stack ops (checkStack ops) :=
  true_sized rfl fun _ _ => stackLoop_true ops [] 0 ops (by simp) (by simp) (by simp)

theorem print_true (ops : List AOp) : True_ .print ops (checkPrint ops) := by
  unfold checkPrint
  refine true_sized rfl fun h _ => true_loop fun k o d ho _ hd => ?_
  unfold printOperand at hd
  split at hd
  · cases hd
  next hn => cases hd; exact .a109 ho (not_oneOf hn (by decide +kernel))

theorem punch_true (ops : List AOp) : True_ .punch ops (checkPunch ops) := by
  unfold checkPunch
  refine true_sized rfl fun h h' => ?_
  cases ops with
  | nil => simp at h
  | cons o r =>
    cases o with
    | simple t v =>
      refine true_ite (fun h => true_refuse (.a300 at_head (not_enclosed h))) fun _ => true_ite (fun _ => true_accept _ _) fun hn =>
        true_refuse (.a108 at_head ?_)
      rintro ⟨body, n, h1, h2, h3⟩
      rw [enclosed_iff] at h1
      rw [h1, (punch_body h2).2] at hn
      omega
    | complex id ps => exact true_refuse (.a244 at_head (not_simple_enclosed (by simp)))
    | empty => exact true_refuse (.a244 at_head (not_simple_enclosed (by simp)))

theorem rmode_true (ops : List AOp) : True_ .rmode ops (checkRmode ops) := by
  refine true_sized rfl fun h _ => true_ite (fun _ => true_accept _ _) fun hn => ?_
  cases ops with
  | nil => simp at h
  | cons o r => exact true_refuse (.a107 at_head (not_oneOf (by simpa using hn) (by decide +kernel)))

theorem amode_true (ops : List AOp) : True_ .amode ops (checkAmode ops) := by
  refine true_sized rfl fun h _ => true_ite (fun _ => true_accept _ _) fun hn => ?_
  cases ops with
  | nil => simp at h
  | cons o r => exact true_refuse (.a150 at_head (not_oneOf (by simpa using hn) (by decide +kernel)))

theorem title_true (ops : List AOp) : True_ .title ops (checkTitle ops) := by
  unfold checkTitle
  refine true_sized rfl fun h h' => ?_
  cases ops with
  | nil => simp at h
  | cons o r =>
    cases o with
    | simple t v =>
      refine true_ite (fun h => true_refuse (.a106 at_head ?_)) fun _ => true_ite (fun h => true_refuse (.a300 at_head (not_enclosed (Or.inr h))))
        fun _ => true_accept _ _
      rintro ⟨body, h1, h2, h3⟩
      have := enclosed_length h1
      omega
    | complex id ps =>
      refine true_refuse (.a106 at_head ?_)
      rintro ⟨body, h1, -⟩
      exact not_simple_enclosed (by simp) ⟨body, h1⟩
    | empty =>
      refine true_refuse (.a106 at_head ?_)
      rintro ⟨body, h1, -⟩
      exact not_simple_enclosed (by simp) ⟨body, h1⟩

theorem drop_true (ops : List AOp) : True_ .drop ops (checkDrop ops) := by
  unfold checkDrop
  split
  · exact true_accept _ _
  · refine true_loop fun k o d ho hk hd => ?_
    clear hk
    unfold dropOperand at hd
    split at hd
    next t v =>
      split at hd
      · cases hd
      next hb =>
        cases hd
        refine .a141 ho ?_ (by simp)
        rintro ⟨x, ⟨t', e⟩, h1, h2⟩
        cases e
        apply hb
        simp only [byteValue, Bool.and_eq_true, decide_eq_true_eq]
        omega
    next t =>
      split at hd
      · cases hd
      next hs =>
        cases hd
        refine .a141 ho ?_ ?_
        · rintro ⟨x, ⟨t', e⟩, -⟩; cases e
        · rintro t' e hsym
          cases e
          by_contra hc
          have hall : ∀ c ∈ t.toList, c ∉ ['$', '_', '#', '@'] := fun c h1 h2 => hc ⟨c, h1, h2⟩
          apply hs
          rw [Bool.or_eq_true, ordSymbol_iff _ hall, varSymbol_iff _ hall]
          exact hsym
    next h1 h2 =>
      cases hd
      refine .a141 ho ?_ ?_
      · rintro ⟨x, ⟨t', e⟩, -⟩; exact h1 t' x e
      · rintro t' e; exact absurd e (h2 t')

theorem ccw_true (ops : List AOp) : True_ .ccw ops (checkCcw ops) := by
  unfold checkCcw
  refine true_sized rfl fun h _ => true_loop fun k o d ho _ hd => ?_
  cases o with
  | simple t v => cases hd
  | empty => cases hd; exact .a147 ho
  | complex id ps =>
    cases hd
    simp only
    split
    · exact .a247 ho
    · refine .a143 ho ?_
      rintro ⟨x, ⟨t, e⟩, -⟩; cases e

theorem ainsert_true (ops : List AOp) : True_ .ainsert ops (checkAinsert ops) := by
  unfold checkAinsert
  refine true_sized rfl fun h _ => ?_
  rcases ops with _ | ⟨a, _ | ⟨b, r⟩⟩
  · simp at h
  · simp at h
  · simp only
    cases a with
    | simple t v =>
      simp only [checkAinsert2]
      refine true_ite (fun h => true_refuse (.a157 at_head ?_)) fun h1 => true_ite (fun h => true_refuse (.a301 at_head (not_enclosed (Or.inr h))))
        fun h2 => true_ite (fun h => true_refuse (.a021_record at_head ?_ rfl)) fun _ => true_ite (fun _ => true_accept _ _)
        fun hn => true_refuse (.a156 at_second (not_oneOf hn (by decide +kernel)))
      · rintro ⟨body, h2, h3⟩
        have := enclosed_length h2
        omega
      · rcases text_cases t with ⟨h3, -⟩ | ⟨h3, body, e, hl⟩
        · rcases h3 with h3 | h3
          · omega
          · exact absurd h3 h2
        · have he := (enclosed_iff t v body).2 e
          have := enclosed_length he
          have hb : body = [] := List.length_eq_zero_iff.1 (by omega)
          rwa [hb] at he
    | complex id ps =>
      refine true_refuse (.a157 at_head ?_)
      rintro ⟨body, h1, -⟩
      exact not_simple_enclosed (by simp) ⟨body, h1⟩
    | empty =>
      refine true_refuse (.a157 at_head ?_)
      rintro ⟨body, h1, -⟩
      exact not_simple_enclosed (by simp) ⟨body, h1⟩

theorem cattr_true (ops : List AOp) : True_ .cattr ops (checkCattr ops) := by
  unfold checkCattr
  refine true_sized rfl fun h _ => true_loop fun k o d ho hk hd => ?_
  cases o with
  | simple t v =>
    simp only [cattrOperand] at hd
    split at hd
    · cases hd
    next hn => cases hd; exact .a149 ho (not_oneOf hn (by decide +kernel)) (by simp)
  | empty => cases hd; exact .a021 ho
  | complex id ps =>
    simp only [cattrOperand] at hd
    split at hd
    next hid =>
      cases hd
      refine .a149 ho (not_oneOf_other (by simp)) ?_
      rintro id' ps' e hm
      cases e
      rw [List.contains_iff_mem.2 hm] at hid; cases hid
    · split at hd
      next _ p =>
        have hp : At ops (.param k 0) p := .param hk rfl
        unfold cattrParam at hd
        split at hd
        · split at hd
          · cases hd
          next hn => cases hd; exact .a204 hp (not_oneOf hn (by decide +kernel))
        · split at hd
          · split at hd
            · cases hd
            next hn => cases hd; exact .a205 hp (not_oneOf hn (by decide +kernel))
          · split at hd
            · split at hd
              · cases hd
              next hn =>
                cases hd
                refine .a206 hp ?_
                rintro ⟨v, h1, h2⟩
                exact hn ((digits_iff _ _).2 ⟨v, h1, by simp [byteValue, h2]⟩)
            · split at hd
              · split at hd
                · cases hd
                next hn =>
                  cases hd
                  refine .a207 hp ?_
                  rintro ⟨t, v, rfl, h1, h2⟩
                  apply hn
                  simp only [AOp.text?, Option.any_some, decide_eq_true_eq]
                  exact ⟨by rintro rfl; simp at h1, h2⟩
              · split at hd
                · cases hd
                next hn =>
                  cases hd
                  refine .a208 hp ?_
                  rintro ⟨v, h1, h2⟩
                  exact hn ((digits_iff _ _).2 ⟨v, h1, by simpa using h2⟩)
      next hne =>
        cases hd
        refine .a016 (List.mem_of_getElem? hk) ?_
        intro hl
        simp at hl
        obtain ⟨p, e⟩ := List.length_eq_one_iff.1 hl
        exact hne p e

theorem exitctl_true (ops : List AOp) : True_ .exitctl ops (checkExitctl ops) := by
  unfold checkExitctl
  refine true_sized rfl fun h _ => ?_
  cases ops with
  | nil => simp at h
  | cons o r =>
    refine true_ite (fun _ => true_outOf fun d hd => ?_) fun hn => true_refuse (.a130 at_head (not_oneOf hn (by decide +kernel)))
    obtain ⟨j, p, h1, h2⟩ := firstWrong_some _ _ 1 d hd
    have hp : At (o :: r) (.op (1 + j)) p := .op (by rw [Nat.add_comm]; exact h1)
    unfold exitctlValue at h2
    split at h2
    · cases h2
    · cases h2
      refine .a020 hp (by simp) ?_
      rintro ⟨x, ⟨t, e⟩, -⟩; cases e
    · cases h2
      refine .a131 hp (by simp) ?_
      rintro ⟨x, ⟨t, e⟩, -⟩; cases e
    · cases h2

theorem xattrRefs_true (ops ps : List AOp) (id : String) (k : Nat) (hk : ops[k]? = some (.complex id ps)) (a b : Bool) (j : Nat) (r : List AOp)
    (d : Diag) (hr : ∀ m o, r[m]? = some o → ps[j + m]? = some o)
    (ha : a = true → ∃ m o, m < j ∧ At ops (.param k m) o ∧ OneOf ["DIRECT", "INDIRECT"] o)
    (hb : b = true → ∃ m o, m < j ∧ At ops (.param k m) o ∧ OneOf ["DATA", "CODE"] o)
    (h : xattrRefs k a b j r = some d) : Complaint .xattr ops d.code d.place := by
  induction r generalizing a b j with
  | nil => cases h
  | cons o r ih =>
    have ho : At ops (.param k j) o := .param hk (hr 0 o rfl)
    have hr' : ∀ m p, r[m]? = some p → ps[j + 1 + m]? = some p := by
      intro m p hm
      rw [show j + 1 + m = j + (m + 1) by omega]
      exact hr (m + 1) p hm
    have up : ∀ {l : List String}, (∃ m o, m < j ∧ At ops (.param k m) o ∧ OneOf l o) →
        ∃ m o, m < j + 1 ∧ At ops (.param k m) o ∧ OneOf l o := by
      rintro l ⟨m, o, h1, h2⟩
      exact ⟨m, o, by omega, h2⟩
    cases o with
    | simple t v =>
      simp only [xattrRefs] at h
      split at h
      next ht =>
        have hone : OneOf ["DIRECT", "INDIRECT"] (.simple t v) := ⟨t, v, by simpa using ht, rfl⟩
        split at h
        next e =>
          cases h
          obtain ⟨m, o, h1, h2, h3⟩ := ha e
          exact .a202 h1 h2 ho h3 hone
        · exact ih _ _ _ hr' (fun _ => ⟨j, _, by omega, ho, hone⟩) (fun e => up (hb e)) h
      next ht =>
        split at h
        next ht' =>
          have hone : OneOf ["DATA", "CODE"] (.simple t v) := ⟨t, v, by simpa using ht', rfl⟩
          split at h
          next e =>
            cases h
            obtain ⟨m, o, h1, h2, h3⟩ := hb e
            exact .a203 h1 h2 ho h3 hone
          · exact ih _ _ _ hr' (fun e => up (ha e)) (fun _ => ⟨j, _, by omega, ho, hone⟩) h
        next ht' =>
          cases h
          refine .a238 ho (not_oneOf_simple ?_)
          simp only [List.mem_cons, List.not_mem_nil, or_false]; tauto
    | complex id ps => cases h; exact .a238 ho (not_oneOf_other (by simp))
    | empty => cases h; exact .a238 ho (not_oneOf_other (by simp))

theorem xattr_true (ops : List AOp) : True_ .xattr ops (checkXattr ops) := by
  unfold checkXattr
  refine true_sized rfl fun h _ => true_loop fun k o d ho hk hd => ?_
  cases o with
  | simple t v => cases hd; exact .a001 ho (by simp)
  | empty => cases hd; exact .a001 ho (by simp)
  | complex id ps =>
    simp only [xattrOperand] at hd
    split at hd
    · split at hd
      next p =>
        have hp : At ops (.param k 0) p := .param hk rfl
        unfold xattrParam at hd
        split at hd
        · split at hd
          · cases hd
          next hn => cases hd; exact .a200 hp (not_oneOf hn (by decide +kernel))
        · split at hd
          · split at hd
            · cases hd
            next hn => cases hd; exact .a201 hp (not_oneOf hn (by decide +kernel))
          · cases hd
      next hne =>
        cases hd
        refine .a016 (List.mem_of_getElem? hk) ?_
        intro hl
        simp at hl
        obtain ⟨p, e⟩ := List.length_eq_one_iff.1 hl
        exact hne p e
    next hid =>
      split at hd
      next hid' =>
        split at hd
        next hl =>
          cases hd
          exact .a018 (List.mem_of_getElem? hk) (by omega) (by omega)
        · exact xattrRefs_true ops ps id k hk false false 0 ps d (by simp) (by simp) (by simp) hd
      next hid' =>
        cases hd
        refine .a100 ho ?_
        rw [List.contains_iff_mem] at hid
        simp only [List.mem_cons, List.not_mem_nil, or_false] at hid ⊢
        tauto

theorem acontrol_true (ops : List AOp) : True_ .acontrol ops (checkAcontrol ops) := by
  unfold checkAcontrol
  refine true_sized rfl fun h _ => true_loop fun k o d ho hk hd => ?_
  cases o with
  | simple t v =>
    simp only [acontrolOperand] at hd
    split at hd
    · cases hd
    next hn =>
      cases hd
      exact .a161 ho (not_oneOf (l := acontrolSimple) (by simpa [AOp.among, AOp.text?] using hn) (by decide +kernel)) (by simp)
  | empty => cases hd; exact .a021 ho
  | complex id ps =>
    have hp : ∀ j p, ps[j]? = some p → At ops (.param k j) p := fun j p hj => .param hk hj
    have hf : ∀ f : Nat → AOp → Option Diag, (∀ j p d, At ops (.param k j) p → f j p = some d → Complaint .acontrol ops d.code d.place) →
        firstWrong f 0 ps = some d → Complaint .acontrol ops d.code d.place := by
      intro f hf h
      obtain ⟨j, p, h1, h2⟩ := firstWrong_some _ _ 0 d h
      rw [Nat.zero_add] at h2
      exact hf j p d (hp j p h1) h2
    simp only [acontrolOperand] at hd
    split at hd
    next hid =>
      cases hd
      refine .a161 ho (not_oneOf_other (by simp)) ?_
      rintro id' ps' e hm
      cases e
      have hs : ∀ t ∈ ["COMPAT", "CPAT", "FLAG", "OPTABLE", "TYPECHECK", "TC"], t ∈ ["CPAT", "COMPAT", "FLAG", "TC", "TYPECHECK", "OPTABLE"] := by
        decide +kernel
      rw [List.contains_iff_mem.2 (hs id hm)] at hid; cases hid
    · split at hd
      next he =>
        cases hd
        rw [List.isEmpty_iff] at he
        subst he
        exact .a015 (List.mem_of_getElem? hk)
      next he =>
        unfold acontrolParams at hd
        split at hd
        · refine hf _ (fun j p d hp h => ?_) hd
          split at h
          · cases h
          next hn => cases h; exact .a209 hp (not_oneOf hn (by decide +kernel))
        · split at hd
          · refine hf _ (fun j p d hp h => ?_) hd
            unfold flagParam at h
            split at h
            next t v =>
              split at h
              · cases h
              next hn =>
                have hone : ¬ OneOf ["ALIGN", "AL", "NOALIGN", "NOAL", "CONT", "NOCONT", "PAGE0", "NOPAGE0", "SUB", "NOSUB", "USING0",
                    "US0", "NOUSING0", "NOUS0", "IMPLEN", "NOIMPLEN", "EXLITW", "NOEXLITW", "SUBSTR", "NOSUBSTR"] (.simple t v) :=
                  not_oneOf (l := flagKeywords) (by simpa [AOp.among, AOp.text?] using hn) (by decide +kernel)
                split at h
                next n =>
                  split at h
                  next hdig =>
                    split at h
                    next hr => cases h; exact .a210 hp ⟨t, (allDigits_iff t).1 hdig, rfl⟩ (by omega)
                    · cases h
                  next hdig =>
                    cases h
                    refine .a211 hp hone ?_
                    rintro ⟨x, t', h1, e⟩
                    cases e
                    exact hdig ((allDigits_iff t).2 h1)
                · cases h
                  refine .a211 hp hone ?_
                  rintro ⟨x, t', h1, e⟩
                  cases e
            next hne =>
              cases h
              refine .a211 hp (not_oneOf_other hne) ?_
              rintro ⟨x, t', h1, e⟩
              exact hne _ _ e
          · split at hd
            · unfold optableParams at hd
              split at hd
              · split at hd
                · cases hd
                next hn => cases hd; exact .a212 (hp 0 _ rfl) (not_oneOf hn (by decide +kernel))
              · split at hd
                · split at hd
                  · cases hd
                  next hn => cases hd; exact .a213 (hp 1 _ rfl) (not_oneOf hn (by decide +kernel))
                next hn => cases hd; exact .a212 (hp 0 _ rfl) (not_oneOf hn (by decide +kernel))
              next h1 h2 =>
                cases hd
                refine .a018 (List.mem_of_getElem? hk) ?_ ?_
                · intro hl
                  obtain ⟨a, e⟩ := List.length_eq_one_iff.1 hl
                  exact h1 a e
                · intro hl
                  obtain ⟨a, b, e⟩ := length_two.1 hl
                  exact h2 a b e
            · refine hf _ (fun j p d hp h => ?_) hd
              split at h
              · cases h
              next hn => cases h; exact .a214 hp (not_oneOf hn (by decide +kernel))

theorem stoul2_none {a b : Char} (h : stoul2 a b = none) : hexDigit a = none := by
  unfold stoul2 at h
  split at h
  · split at h <;> cases h
  · assumption

theorem stoul2_hex {a b : Char} {v : Int} (h : stoul2 a b = some v) (hv : v < 0x42 ∨ v > 0xFE) : ¬ HexByte a b := by
  rintro ⟨x, y, h1, h2, h3, h4⟩
  simp only [stoul2, h1, h2, Option.some.injEq] at h
  omega

theorem aliasPairs_true {ops : List AOp} {t : String} {v : Option Int} {body : List Char} (hat : At ops (.op 0) (.simple t v))
    (ht : t.toList = 'X' :: '\'' :: (body ++ ['\''])) (l p : List Char) (h : body ++ ['\''] = p ++ l) (hp : p.length % 2 = 0) :
    True_ .alias ops (aliasPairs l) := by
  induction l using aliasPairs.induct generalizing p with
  | case1 a b r hx =>
    unfold aliasPairs
    rw [if_pos hx]
    refine true_refuse (.a153 hat ht ⟨p, r, h, hp⟩ (Or.inr ?_))
    rcases hx.2 with rfl | rfl <;> decide +kernel
  | case2 a b r hx hn =>
    unfold aliasPairs
    rw [if_neg hx, hn]
    exact true_refuse (.a153 hat ht ⟨p, r, h, hp⟩ (Or.inl (stoul2_none hn)))
  | case3 a b r hx x hs hv =>
    unfold aliasPairs
    rw [if_neg hx, hs]
    simp only
    rw [if_pos hv]
    exact true_refuse (.a155 hat ht ⟨p, r, h, hp⟩ (stoul2_hex hs hv))
  | case4 a b r hx x hs hv ih =>
    unfold aliasPairs
    rw [if_neg hx, hs]
    simp only
    rw [if_neg hv]
    exact ih (p ++ [a, b]) (by rw [h]; simp) (by simp; omega)
  | case5 l hne =>
    unfold aliasPairs
    split
    · exact absurd rfl (hne _ _ _)
    · exact true_accept _ _

theorem alias_true (ops : List AOp) : True_ .alias ops (checkAlias ops) := by
  unfold checkAlias
  refine true_sized rfl fun h _ => ?_
  cases ops with
  | nil => simp at h
  | cons o r =>
    cases o with
    | simple t v =>
      refine true_ite (fun hl => true_refuse (.a151 at_head ?_)) fun hl => ?_
      · rintro t' v' p body e ht
        cases e
        rw [← length_toList, ht] at hl
        simp at hl
        omega
      · unfold aliasText
        split
        next p x hx =>
          refine true_ite (fun hlast => ?_) fun hlast => true_refuse (.a151 at_head ?_)
          · have hd : x = x.dropLast ++ ['\''] := by
              have hne : x ≠ [] := by rintro rfl; simp at hlast
              rw [List.getLast?_eq_some_getLast hne] at hlast
              conv_lhs => rw [← List.dropLast_concat_getLast hne, Option.some.inj hlast]
            refine true_ite (fun hp => ?_) fun _ => true_ite (fun hp => ?_) fun _ => by simp [True_]
            · refine true_ite (fun _ => true_accept _ _) fun hall => ?_
              simp only [List.all_eq_true, Classical.not_forall] at hall
              obtain ⟨c, hc, hn⟩ := hall
              refine true_refuse (.a152 (body := x.dropLast) at_head (by rw [hx, hp, ← hd]) hc ?_)
              by_cases ha : c = '\''
              · exact Or.inr ha
              · exact Or.inl fun he => hn ((aliasChar_iff' c ha).2 he)
            · have ht : t.toList = 'X' :: '\'' :: (x.dropLast ++ ['\'']) := by rw [hx, hp, ← hd]
              refine true_ite (fun hodd => true_refuse (.a154 at_head ht ?_)) fun _ => ?_
              · rw [ht] at hodd
                simp only [List.length_cons, List.length_append, List.length_nil] at hodd
                omega
              · exact aliasPairs_true at_head ht x [] (by simpa using hd.symm) rfl
          · rintro t' v' p' body e ht
            cases e
            rw [hx] at ht
            simp only [List.cons.injEq, true_and] at ht
            rw [ht.2] at hlast
            simp at hlast
        next hne =>
          refine true_refuse (.a151 at_head ?_)
          rintro t' v' p' body e ht
          cases e
          exact hne _ _ ht
    | complex id ps => exact true_refuse (.a151 at_head (by simp))
    | empty => exact true_refuse (.a151 at_head (by simp))

theorem adata_true (ops : List AOp) : True_ .adata ops (checkAdata ops) := by
  unfold checkAdata
  refine true_sized rfl fun h h' => ?_
  have h5 : ops.length = 5 := by
    have := h' 5 rfl
    omega
  split
  next _ d hd =>
    obtain ⟨j, o, h1, h2⟩ := firstWrong_some _ _ 0 d hd
    rw [Nat.zero_add] at h2
    have hj := (List.getElem?_eq_some_iff.1 h1).1
    rw [List.length_dropLast] at hj
    have ho : At ops (.op j) o := by
      refine .op ?_
      rw [List.getElem?_dropLast] at h1
      rw [if_pos (by omega)] at h1
      exact h1
    have hn : ¬ (o = .empty ∨ ∃ v, Absolute o v) := by
      rw [← adataValue_iff j o, h2]; simp
    have e : d = ⟨158, .op j⟩ := by
      unfold adataValue at h2
      split at h2 <;> cases h2
      rfl
    subst e
    refine true_one (.a158 ho (fun e => hn (Or.inl e)) ?_)
    rintro ⟨x, hx, -⟩
    exact hn (Or.inr ⟨x, hx⟩)
  next o _ ho =>
    have hat : At ops (.op 4) o := by
      refine .op ?_
      rw [List.getLast?_eq_getElem?, h5] at ho
      exact ho
    cases o with
    | empty => exact true_accept _ _
    | complex id ps => exact true_refuse (.a239 hat (by simp) (not_simple_enclosed (by simp)))
    | simple t v =>
      simp only [adataString]
      have hwarn : ∀ d ∈ (if t.length = 1 ∨ (t.length > 1 ∧ quoted t.toList = false) then [(⟨300, .op 4⟩ : Diag)] else []),
          Complaint .adata ops d.code d.place := by
        split
        next hq =>
          simp only [List.mem_singleton, forall_eq]
          exact .a300 hat (not_enclosed (hq.imp (fun hq => by omega) fun hq => hq.2))
        · simp
      refine true_ite (fun _ => hwarn) fun hs => ?_
      intro d hd
      rcases List.mem_append.1 hd with hd | hd
      · exact hwarn d hd
      · rw [List.mem_singleton] at hd
        subst hd
        refine .a160 hat ?_
        simp only [charString, Bool.or_eq_true, Bool.not_eq_true', Bool.or_eq_false_iff, not_or, not_and] at hs
        by_cases h1 : t.length = 1
        · exact Or.inl h1
        · right
          have := hs.2 (by rw [length_toList]; simpa using h1)
          rw [length_toList] at this
          simpa using this
  · exact true_accept _ _

/-- Every message about the operands of an assembler instruction says something that is the case of the operand it is put at. -/
theorem C102_message (i : Instr) (ops : List AOp) : ∀ d ∈ (check i ops).diags, Complaint i ops d.code d.place := by
  cases i
  · exact noOperands_true ops
  · exact expression_true ops
  · exact cnop_true ops
  · exact ictl_true ops
  · exact iseq_true ops
  · exact entry_true ops
  · exact external_true ops
  · exact end_true ops
  · exact mnote_true ops
  · exact opsyn_true ops
  · exact stack_true ops
  · exact print_true ops
  · exact punch_true ops
  · exact rmode_true ops
  · exact amode_true ops
  · exact title_true ops
  · exact drop_true ops
  · exact ccw_true ops
  · exact alias_true ops
  · exact ainsert_true ops
  · exact adata_true ops
  · exact cattr_true ops
  · exact exitctl_true ops
  · exact xattr_true ops
  · exact acontrol_true ops

-- PUSH with NOPRINT that is not last; ICTL with an end before its begin
example : (check .stack [.simple "NOPRINT" none, .simple "PRINT" none]).diags = [⟨113, .op 0⟩] := by decide +kernel
example : (check .ictl [.simple "40" (some 40), .simple "41" (some 41)]).diags = [⟨125, .op 1⟩] := by decide +kernel

/-- The number that is shown with a message (diagnostic.cpp 214-220, 1056-1062): two of the functions give a number other than the one in
their name. -/
def shown (code : Nat) : Nat := if code = 107 then 108 else if code = 238 then 288 else code

/-- The numbers that are shown do not tell what is wrong: a mode that RMODE does not know and a text that is too long for PUNCH are shown
with the same number. -/
theorem C102_shown_witness : ∃ o p : AOp, ∃ c d : Diag, (check .rmode [o]).diags = [c] ∧ (check .punch [p]).diags = [d] ∧ c.code ≠ d.code ∧
    shown c.code = shown d.code :=
  ⟨.simple "16" none, .simple (String.ofList ('\'' :: List.replicate 81 'A' ++ ['\''])) none, ⟨107, .op 0⟩, ⟨108, .op 0⟩,
    by decide +kernel, by decide +kernel, by decide, rfl⟩

end Verif.AsmCheck
