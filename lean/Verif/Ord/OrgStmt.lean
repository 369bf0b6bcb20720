import Verif.Ord.OrgProps
import Verif.Ord.DepsProps
/-!
C100: the operands of `ORG`.
-/
namespace Verif.Ord

/-! ### Specification of the operands -/

/-- An expression with the absolute value `x`: everything in it is known, and no relocatable term is multiplied or divided. -/
def AbsExpr (E : Env) (T : Table) (e : MExpr) (x : Int) : Prop :=
  e.eval E.heap T = .abs x ∧ (e.collect E T).contains E = false ∧ (e.collect E T).err = false

/-- An expression for the location `v` of the section `s`: a label or `*`, possibly with absolute values added or subtracted. -/
inductive LocExpr (E : Env) (T : Table) (s : Base) : MExpr → Int → Prop where
  | label {n v} : T.value n = .reloc ⟨[(s, 1)], v, []⟩ → LocExpr E T s (.sym n) v
  | here {v} : LocExpr E T s (.loc (some ⟨[(s, 1)], v, []⟩)) v
  | par {e v} : LocExpr E T s e v → LocExpr E T s (.par e) v
  | plus {l r v x} : LocExpr E T s l v → AbsExpr E T r x → LocExpr E T s (.add l r) (v + x)
  | plus' {l r v x} : AbsExpr E T l x → LocExpr E T s r v → LocExpr E T s (.add l r) (v + x)
  | minus {l r v x} : LocExpr E T s l v → AbsExpr E T r x → LocExpr E T s (.sub l r) (v - x)

/-- The first operand: where to go, `none` if it is left out. -/
inductive First (E : Env) (T : Table) (s : Base) : Option OOperand → Option Int → Prop where
  | missing : First E T s none none
  | empty : First E T s (some .empty) none
  | loc {e v} : LocExpr E T s e v → First E T s (some (.expr e)) (some v)

/-- The second operand: a power of two from 2 to 4096, 0 if it is left out. -/
inductive Second (E : Env) (T : Table) : Option OOperand → Nat → Prop where
  | missing : Second E T none 0
  | empty : Second E T (some .empty) 0
  | pow {e k} : 1 ≤ k → k ≤ 12 → absOperand E T e = some ((2 ^ k : Nat) : Int) → Second E T (some (.expr e)) (2 ^ k)

/-- The third operand: a number, 0 if it is left out. -/
inductive Third (E : Env) (T : Table) : Option OOperand → Int → Prop where
  | missing : Third E T none 0
  | empty : Third E T (some .empty) 0
  | abs {e x} : absOperand E T e = some x → Third E T (some (.expr e)) x

/-! ### Expressions -/

theorem absOperand_of {E : Env} {T : Table} {e : MExpr} {x : Int} (h : AbsExpr E T e x) : absOperand E T e = some x := by
  unfold absOperand; rw [if_neg (by simp [h.2.1]), h.1]

structure Clean (c : Coll) : Prop where
  err : c.err = false
  syms : c.syms = []
  attrs : c.attrs = []
  spaces : c.spaces = []

theorem clean_of {E : Env} {T : Table} {e : MExpr} {x : Int} (h : AbsExpr E T e x) : Clean (e.collect E T) := by
  have h1 := h.2.1
  unfold Coll.contains at h1
  simp only [Bool.or_eq_false_iff, Bool.not_eq_false', List.isEmpty_iff] at h1
  exact ⟨h.2.2, h1.1.1.1, h1.1.1.2, h1.1.2⟩

theorem clean_addSub {E : Env} {op : AOp} {c h : Coll} (hc : Clean c) (hh : Clean h) :
    Clean (c.addSub E op h) ∧ (c.addSub E op h).addr = joinAddr E op c.addr h.addr := by
  have hd : c.mergeDone h = false := by unfold Coll.mergeDone; rw [hh.err, hc.syms, hh.syms]; rfl
  unfold Coll.addSub
  rw [if_neg (by simp [hd])]
  unfold Coll.mergeUndef
  rw [if_neg (by simp [hh.err])]
  refine ⟨⟨rfl, ?_, ?_, ?_⟩, rfl⟩
  · show addAll c.syms h.syms = []; rw [hc.syms, hh.syms]; rfl
  · show addAll c.attrs h.attrs = []; rw [hc.attrs, hh.attrs]; rfl
  · show addAll c.spaces h.spaces = []; rw [hc.spaces, hh.spaces]; rfl

theorem join_isSome (E : Env) (op : AOp) (a b : Option Addr) (h : a.isSome ∨ b.isSome) : (joinAddr E op a b).isSome := by
  unfold joinAddr
  cases a <;> cases b <;> simp_all

theorem loc_eval {E : Env} {T : Table} {s : Base} {e : MExpr} {v : Int} (h : LocExpr E T s e v) :
    e.eval E.heap T = .reloc ⟨[(s, 1)], v, []⟩ ∧ Clean (e.collect E T) ∧ (e.collect E T).addr.isSome := by
  induction h with
  | label h =>
    refine ⟨h, ?_⟩
    unfold MExpr.collect
    rw [h]
    exact ⟨⟨rfl, rfl, rfl, rfl⟩, rfl⟩
  | here => exact ⟨rfl, ⟨rfl, rfl, rfl, rfl⟩, rfl⟩
  | par _ ih => exact ih
  | plus _ hr ih =>
    obtain ⟨h1, h2, h3⟩ := ih
    have hs := clean_addSub (E := E) (op := .add) h2 (clean_of hr)
    refine ⟨?_, hs.1, ?_⟩
    · unfold MExpr.eval; rw [h1, hr.1]; rfl
    · unfold MExpr.collect; rw [hs.2]; exact join_isSome _ _ _ _ (.inl h3)
  | plus' hl _ ih =>
    obtain ⟨h1, h2, h3⟩ := ih
    have hs := clean_addSub (E := E) (op := .add) (clean_of hl) h2
    refine ⟨?_, hs.1, ?_⟩
    · unfold MExpr.eval; rw [h1, hl.1]; rfl
    · unfold MExpr.collect; rw [hs.2]; exact join_isSome _ _ _ _ (.inr h3)
  | minus _ hr ih =>
    obtain ⟨h1, h2, h3⟩ := ih
    have hs := clean_addSub (E := E) (op := .sub) h2 (clean_of hr)
    refine ⟨?_, hs.1, ?_⟩
    · unfold MExpr.eval; rw [h1, hr.1]
      simp [SVal.sub, Addr.subInt, Addr.offset, Addr.norm, Heap.norm]
    · unfold MExpr.collect; rw [hs.2]; exact join_isSome _ _ _ _ (.inl h3)

theorem boundaryOk_iff (x : Int) : boundaryOk x = true ↔ ∃ k, 1 ≤ k ∧ k ≤ 12 ∧ x = ((2 ^ k : Nat) : Int) := by
  unfold boundaryOk
  simp only [Bool.and_eq_true, decide_eq_true_eq, beq_iff_eq]
  constructor
  · rintro ⟨⟨h1, h2⟩, h3⟩
    obtain ⟨k, hk⟩ := (Nat.and_sub_one_eq_zero_iff_isPowerOfTwo (by omega)).1 h3
    refine ⟨k, ?_, ?_, by omega⟩
    · rcases k with _ | k
      · simp at hk; omega
      · omega
    · by_contra hgt
      have : 2 ^ 13 ≤ 2 ^ k := Nat.pow_le_pow_right (by decide) (by omega)
      omega
  · rintro ⟨k, h1, h2, rfl⟩
    have a1 : 2 ^ 1 ≤ 2 ^ k := Nat.pow_le_pow_right (by decide) h1
    have a2 : 2 ^ k ≤ 2 ^ 12 := Nat.pow_le_pow_right (by decide) h2
    refine ⟨⟨by omega, by omega⟩, ?_⟩
    rw [Int.toNat_natCast]
    exact (Nat.and_sub_one_eq_zero_iff_isPowerOfTwo (by omega)).2 ⟨k, rfl⟩

/-! ### C100: the statement -/

theorem round_first {E : Env} {T : Table} {s : Base} {o : OOperand} {t : Option Int} (h : First E T s (some o) t) :
    ∃ r, orgRound E T ⟨none, 0, 0⟩ 0 o = .next ⟨r, 0, 0⟩ ∧ ((t = none ∧ r = none) ∨ ∃ e v, t = some v ∧ r = some e ∧ LocExpr E T s e v) := by
  cases h with
  | empty => exact ⟨none, rfl, .inl ⟨rfl, rfl⟩⟩
  | @loc e v h =>
    refine ⟨some e, ?_, .inr ⟨e, v, rfl, rfl, h⟩⟩
    show firstRound E T _ e = _
    unfold firstRound
    rw [if_neg (by simpa [Option.isNone_iff_eq_none, ← Option.isSome_iff_ne_none] using (loc_eval h).2.2)]

theorem round_second {E : Env} {T : Table} {o : OOperand} {b : Nat} (h : Second E T (some o) b) (r : Option MExpr) :
    orgRound E T ⟨r, 0, 0⟩ 1 o = .next ⟨r, b, 0⟩ := by
  cases h with
  | empty => rfl
  | @pow e k h1 h2 he =>
    show secondRound _ (absOperand E T e) = _
    rw [he]
    unfold secondRound
    dsimp only
    rw [if_pos ((boundaryOk_iff _).2 ⟨k, h1, h2, rfl⟩), Int.toNat_natCast]

theorem round_third {E : Env} {T : Table} {o : OOperand} {x : Int} (h : Third E T (some o) x) (r : Option MExpr) (b : Nat) :
    orgRound E T ⟨r, b, 0⟩ 2 o = .next ⟨r, b, x⟩ := by
  cases h with
  | empty => rfl
  | @abs e _ he =>
    show thirdRound _ (absOperand E T e) = _
    rw [he]
    rfl

theorem loop_meant {E : Env} {T : Table} {s : Base} {ops : List OOperand} (hl : ops.length ≤ 3) {t : Option Int} {b : Nat} {x : Int}
    (h1 : First E T s ops[0]? t) (h2 : Second E T ops[1]? b) (h3 : Third E T ops[2]? x) :
    ∃ r, orgLoop E T ⟨none, 0, 0⟩ 0 ops = ([], some ⟨r, b, x⟩) ∧ ((t = none ∧ r = none) ∨ ∃ e v, t = some v ∧ r = some e ∧ LocExpr E T s e v) := by
  match ops with
  | [] => cases h1; cases h2; cases h3; exact ⟨none, rfl, .inl ⟨rfl, rfl⟩⟩
  | [o] =>
    cases h2; cases h3
    obtain ⟨r, e, h⟩ := round_first h1
    exact ⟨r, by unfold orgLoop; rw [e]; rfl, h⟩
  | [o, o2] =>
    cases h3
    obtain ⟨r, e, h⟩ := round_first h1
    refine ⟨r, ?_, h⟩
    unfold orgLoop; rw [e]; dsimp only; unfold orgLoop; rw [round_second h2]; rfl
  | [o, o2, o3] =>
    obtain ⟨r, e, h⟩ := round_first h1
    refine ⟨r, ?_, h⟩
    unfold orgLoop; rw [e]; dsimp only; unfold orgLoop; rw [round_second h2]; dsimp only; unfold orgLoop; rw [round_third h3]; rfl
  | _ :: _ :: _ :: _ :: _ => simp at hl

/-- C100: `ORG` without a first operand asks for the highest location, moved up to the boundary and by the offset. -/
theorem C100_highest (E : Env) (T : Table) (s : Base) (p : Int) (ops : List OOperand) (hl : ops.length ≤ 3) (b : Nat) (x : Int)
    (h1 : First E T s ops[0]? none) (h2 : Second E T ops[1]? b) (h3 : Third E T ops[2]? x) :
    processOrg E T ⟨[(s, 1)], p, []⟩ ops = ([], .highest b x) := by
  obtain ⟨r, e, h⟩ := loop_meant hl h1 h2 h3
  unfold processOrg
  rw [e]
  rcases h with ⟨_, rfl⟩ | ⟨_, _, h, _⟩
  · rfl
  · cases h

/-- C100: `ORG` with a location of the current section asks for this location, and is reported, without effect, exactly if the location,
moved up to the boundary and by the offset, lies before the section. -/
theorem C100_location (E : Env) (T : Table) (s : Base) (p : Int) (ops : List OOperand) (hl : ops.length ≤ 3) (v : Int) (b : Nat) (x : Int)
    (h1 : First E T s ops[0]? (some v)) (h2 : Second E T ops[1]? b) (h3 : Third E T ops[2]? x) :
    ∃ q, Upto b v q ∧
      (0 ≤ q + x → processOrg E T ⟨[(s, 1)], p, []⟩ ops = ([], .set ⟨[(s, 1)], v, []⟩ b x)) ∧
      (q + x < 0 → processOrg E T ⟨[(s, 1)], p, []⟩ ops = ([.E068], .nothing)) := by
  obtain ⟨r, e, h⟩ := loop_meant hl h1 h2 h3
  have hpow : b = 0 ∨ Pow ⟨0, b⟩ := by
    generalize ops[1]? = o at h2
    cases h2 with
    | missing => exact .inl rfl
    | empty => exact .inl rfl
    | @pow _ k _ hk _ => exact .inr ⟨k, by omega, rfl⟩
  have hq : ∃ q, Upto b v q := by
    by_cases hb : b = 0
    · exact ⟨v, .inl ⟨hb, rfl⟩⟩
    · exact ⟨_, .inr ⟨hb, alignUp_next ⟨0, b⟩ v (by show 0 < b; omega)⟩⟩
  obtain ⟨q, hq⟩ := hq
  have hpad := upto_pad hpow hq
  refine ⟨q, hq, ?_⟩
  rcases h with ⟨h, _⟩ | ⟨e', v', h, rfl, hloc⟩
  · cases h
  · cases h
    obtain ⟨k1, k2, k3⟩ := loc_eval hloc
    have hund : (e'.collect E T).undefPart = false := by unfold Coll.undefPart; rw [k2.attrs, k2.syms, k2.spaces]; rfl
    have htgt : orgTarget E T e' = some ⟨[(s, 1)], v, []⟩ := by unfold orgTarget; rw [if_neg (by simp [hund]), k1]
    have hoff : Addr.offset E.heap ⟨[(s, 1)], v, []⟩ = v := by simp [Addr.offset]
    have hsame : sameLoctr ⟨[(s, 1)], p, []⟩ ⟨[(s, 1)], v, []⟩ = true := by simp [sameLoctr, Addr.isSimple]
    unfold processOrg
    rw [e]
    constructor
    · intro h0
      have hck : checkOrg E ⟨[(s, 1)], v, []⟩ ⟨[(s, 1)], p, []⟩ b x = none := by
        unfold checkOrg
        rw [hoff, hsame, if_neg (by simp; omega)]
        rfl
      unfold orgEnd
      simp only [htgt, hck, hund]
      rfl
    · intro h0
      have hck : checkOrg E ⟨[(s, 1)], v, []⟩ ⟨[(s, 1)], p, []⟩ b x = some .E068 := by
        unfold checkOrg
        rw [hoff, hsame, if_pos (by simp; omega)]
      unfold orgEnd
      simp only [htgt, hck]
      rfl

/-- The operands `ORG` looks at. -/
def Ordinary (ops : List OOperand) : Prop := ops.length ≤ 3 ∧ OOperand.other ∉ ops

theorem round_cases (E : Env) (T : Table) (v : OVars) (i : Nat) (o : OOperand) (ho : o ≠ .other) :
    (∃ v', orgRound E T v i o = .next v') ∨ ∃ d, orgRound E T v i o = .fail d := by
  cases o with
  | empty => exact .inl ⟨v, rfl⟩
  | other => exact absurd rfl ho
  | expr e =>
    match i with
    | 0 =>
      show (∃ v', firstRound E T v e = _) ∨ ∃ d, firstRound E T v e = _
      unfold firstRound
      split
      · exact .inr ⟨_, rfl⟩
      · exact .inl ⟨_, rfl⟩
    | 1 =>
      show (∃ v', secondRound v (absOperand E T e) = _) ∨ ∃ d, secondRound v (absOperand E T e) = _
      cases absOperand E T e with
      | none => exact .inr ⟨_, rfl⟩
      | some x =>
        unfold secondRound
        dsimp only
        split
        · exact .inl ⟨_, rfl⟩
        · exact .inr ⟨_, rfl⟩
    | 2 =>
      show (∃ v', thirdRound v (absOperand E T e) = _) ∨ ∃ d, thirdRound v (absOperand E T e) = _
      cases absOperand E T e with
      | none => exact .inr ⟨_, rfl⟩
      | some x => exact .inl ⟨_, rfl⟩
    | _ + 3 => exact .inl ⟨_, rfl⟩

theorem loop_cases (E : Env) (T : Table) (ops : List OOperand) (h : OOperand.other ∉ ops) : ∀ (v : OVars) (i : Nat),
    (∃ v', orgLoop E T v i ops = ([], some v')) ∨ ∃ d, orgLoop E T v i ops = ([d], none) := by
  induction ops with
  | nil => intro v i; exact .inl ⟨v, rfl⟩
  | cons o os ih =>
    intro v i
    unfold orgLoop
    rcases round_cases E T v i o (fun e => h (by simp [e])) with ⟨v', e⟩ | ⟨d, e⟩
    · rw [e]; exact ih (fun hm => h (List.mem_cons_of_mem _ hm)) v' (i + 1)
    · rw [e]; exact .inr ⟨d, rfl⟩

/-- C100 (partial): if all operands are expressions or left out, something is reported exactly if the counter is left alone, or the analysis
is cut off by an exception. Missing: operands of another form (`C100_witness_form`). -/
theorem C100_reported_partial (E : Env) (T : Table) (cur : Addr) (ops : List OOperand) (h : OOperand.other ∉ ops)
    (hc : (processOrg E T cur ops).2 ≠ .crash) : (processOrg E T cur ops).1 ≠ [] ↔ (processOrg E T cur ops).2 = .nothing := by
  unfold processOrg at hc ⊢
  rcases loop_cases E T ops h ⟨none, 0, 0⟩ 0 with ⟨v, e⟩ | ⟨d, e⟩
  · rw [e] at hc ⊢
    simp only [List.nil_append] at hc ⊢
    unfold orgEnd at hc ⊢
    cases hv : v.reloc with
    | none => simp
    | some e' =>
      rw [hv] at hc
      dsimp only at hc ⊢
      cases ht : orgTarget E T e' with
      | none => rw [ht] at hc; exact absurd rfl hc
      | some a =>
        dsimp only
        cases checkOrg E a cur v.boundary v.offset with
        | some d => simp
        | none => dsimp only; split <;> simp
  · rw [e]; simp

theorem loop_accept {E : Env} {T : Table} {ops : List OOperand} (h : Ordinary ops) {v : OVars} (he : orgLoop E T ⟨none, 0, 0⟩ 0 ops = ([], some v)) :
    Second E T ops[1]? v.boundary ∧ Third E T ops[2]? v.offset ∧
    ((v.reloc = none ∧ (ops[0]? = none ∨ ops[0]? = some .empty)) ∨ ∃ e, v.reloc = some e ∧ ops[0]? = some (.expr e)) := by
  have first : ∀ o w, o ≠ .other → orgRound E T ⟨none, 0, 0⟩ 0 o = .next w →
      w.boundary = 0 ∧ w.offset = 0 ∧ ((w.reloc = none ∧ o = .empty) ∨ ∃ e, w.reloc = some e ∧ o = .expr e) := by
    intro o w ho hw
    cases o with
    | empty => cases hw; exact ⟨rfl, rfl, .inl ⟨rfl, rfl⟩⟩
    | other => exact absurd rfl ho
    | expr e =>
      change firstRound E T _ e = _ at hw
      unfold firstRound at hw
      split at hw
      · cases hw
      · cases hw; exact ⟨rfl, rfl, .inr ⟨e, rfl, rfl⟩⟩
  have second : ∀ r o w, o ≠ .other → orgRound E T ⟨r, 0, 0⟩ 1 o = .next w → w.reloc = r ∧ w.offset = 0 ∧ Second E T (some o) w.boundary := by
    intro r o w ho hw
    cases o with
    | empty => cases hw; exact ⟨rfl, rfl, .empty⟩
    | other => exact absurd rfl ho
    | expr e =>
      change secondRound _ (absOperand E T e) = _ at hw
      cases ha : absOperand E T e with
      | none => rw [ha] at hw; cases hw
      | some x =>
        rw [ha] at hw
        unfold secondRound at hw
        dsimp only at hw
        split at hw
        · rename_i hb
          cases hw
          obtain ⟨k, k1, k2, rfl⟩ := (boundaryOk_iff x).1 hb
          refine ⟨rfl, rfl, ?_⟩
          show Second E T _ ((2 ^ k : Nat) : Int).toNat
          rw [Int.toNat_natCast]
          exact .pow k1 k2 ha
        · cases hw
  have third : ∀ r b o w, o ≠ .other → orgRound E T ⟨r, b, 0⟩ 2 o = .next w → w.reloc = r ∧ w.boundary = b ∧ Third E T (some o) w.offset := by
    intro r b o w ho hw
    cases o with
    | empty => cases hw; exact ⟨rfl, rfl, .empty⟩
    | other => exact absurd rfl ho
    | expr e =>
      change thirdRound _ (absOperand E T e) = _ at hw
      cases ha : absOperand E T e with
      | none => rw [ha] at hw; cases hw
      | some x => rw [ha] at hw; cases hw; exact ⟨rfl, rfl, .abs ha⟩
  have next : ∀ v i o os w, o ≠ .other → orgLoop E T v i (o :: os) = ([], some w) →
      ∃ v', orgRound E T v i o = .next v' ∧ orgLoop E T v' (i + 1) os = ([], some w) := by
    intro v i o os w ho hw
    unfold orgLoop at hw
    rcases round_cases E T v i o ho with ⟨v', e⟩ | ⟨d, e⟩
    · rw [e] at hw; exact ⟨v', e, hw⟩
    · rw [e] at hw; cases hw
  obtain ⟨hl, ho⟩ := h
  match ops with
  | [] => cases he; exact ⟨.missing, .missing, .inl ⟨rfl, .inl rfl⟩⟩
  | o :: os =>
    obtain ⟨v1, r1, he⟩ := next _ _ _ _ _ (fun e => ho (by simp [e])) he
    obtain ⟨b1, o1, f1⟩ := first _ _ (fun e => ho (by simp [e])) r1
    obtain ⟨rl, bd, of⟩ := v1
    simp only at b1 o1 f1
    subst b1 o1
    have hf : (rl = none ∧ ((o :: os)[0]? = none ∨ (o :: os)[0]? = some .empty)) ∨ ∃ e, rl = some e ∧ (o :: os)[0]? = some (.expr e) := by
      rcases f1 with ⟨h1, h2⟩ | ⟨e, h1, h2⟩
      · exact .inl ⟨h1, .inr (by simp [h2])⟩
      · exact .inr ⟨e, h1, by simp [h2]⟩
    rcases os with _ | ⟨o2, os⟩
    · cases he; exact ⟨.missing, .missing, hf⟩
    · obtain ⟨v2, r2, he⟩ := next _ _ o2 _ _ (fun e => ho (by simp [e])) he
      obtain ⟨rr, oo, s2⟩ := second _ o2 _ (fun e => ho (by simp [e])) r2
      obtain ⟨rl2, bd2, of2⟩ := v2
      simp only at rr oo s2
      subst rr oo
      rcases os with _ | ⟨o3, os⟩
      · cases he; exact ⟨s2, .missing, hf⟩
      · obtain ⟨v3, r3, he⟩ := next _ _ o3 _ _ (fun e => ho (by simp [e])) he
        obtain ⟨rr, bb, t3⟩ := third _ _ o3 _ (fun e => ho (by simp [e])) r3
        rcases os with _ | ⟨o4, os⟩
        · cases he
          refine ⟨by rw [bb]; exact s2, t3, ?_⟩
          rw [rr]; exact hf
        · simp at hl

/-- C100 (partial): what is accepted is what was written: the boundary is a power of two from 2 to 4096, the location has a value in the
section of the counter, and it does not lie before the section. Missing: operands of another form and behind the third, which are ignored
(`C100_witness_form`, `C100_witness_more`). -/
theorem C100_accepted_partial (E : Env) (T : Table) (cur : Addr) (ops : List OOperand) (h : Ordinary ops) (a : Addr) (b : Nat) (x : Int)
    (hr : (processOrg E T cur ops).2 = .set a b x) : Second E T ops[1]? b ∧ Third E T ops[2]? x ∧ sameLoctr cur a = true ∧
      0 ≤ a.offset E.heap + padOrg b (a.offset E.heap) + x ∧
      ∃ e, ops[0]? = some (.expr e) ∧ e.eval E.heap T = .reloc a := by
  unfold processOrg at hr
  rcases loop_cases E T ops h.2 ⟨none, 0, 0⟩ 0 with ⟨v, e⟩ | ⟨d, e⟩
  · obtain ⟨h2, h3, h1⟩ := loop_accept h e
    rw [e] at hr
    dsimp only at hr
    unfold orgEnd at hr
    rcases h1 with ⟨hn, _⟩ | ⟨e', hs, h0⟩
    · rw [hn] at hr; cases hr
    · rw [hs] at hr
      dsimp only at hr
      cases ht : orgTarget E T e' with
      | none => rw [ht] at hr; cases hr
      | some a' =>
        rw [ht] at hr
        dsimp only at hr
        cases hck : checkOrg E a' cur v.boundary v.offset with
        | some d => rw [hck] at hr; cases hr
        | none =>
          rw [hck] at hr
          dsimp only at hr
          by_cases hu : (e'.collect E T).undefPart
          · rw [if_pos hu] at hr; cases hr
          · rw [if_neg hu] at hr
            cases hr
            unfold checkOrg at hck
            by_cases hbad : (!sameLoctr cur a || decide (a.offset E.heap + padOrg v.boundary (a.offset E.heap) + v.offset < 0)) = true
            · rw [if_pos hbad] at hck; cases hck
            · simp only [Bool.or_eq_true, Bool.not_eq_true', decide_eq_true_eq, not_or, Bool.not_eq_false] at hbad
              refine ⟨h2, h3, hbad.1, by omega, e', h0, ?_⟩
              unfold orgTarget at ht
              rw [if_neg hu] at ht
              revert ht
              cases e'.eval E.heap T <;> intro ht <;> first | (cases ht; done) | skip
              cases ht; rfl
  · rw [e] at hr; cases hr

/-! ### Witnesses -/

/-- Labels: 0 and 1 in section 5 at 8 and 2, label 2 in section 6. -/
def orgTab : Table := fun n => match n with
  | 0 => some ⟨.reloc ⟨[(some 5, 1)], 8, []⟩, 0, some 1, none, 0, false⟩
  | 1 => some ⟨.reloc ⟨[(some 5, 1)], 2, []⟩, 0, some 1, none, 0, false⟩
  | 2 => some ⟨.reloc ⟨[(some 6, 1)], 2, []⟩, 0, some 1, none, 0, false⟩
  | _ => none

/-- Where the examples are. -/
def orgCur : Addr := ⟨[(some 5, 1)], 12, []⟩

/-- Violation: `ORG A-B` with two labels of one section is not reported; `get_reloc` throws `std::bad_variant_access`, which nothing in the
analysis catches. -/
theorem C100_witness_difference : processOrg .plain orgTab orgCur [.expr (.sub (.sym 0) (.sym 1))] = ([], .crash) := by decide +kernel

/-- Violation: `ORG 10-A` is accepted as `ORG A-10`: here 8 - 10 is reported, 2 for `ORG 6-A`. -/
theorem C100_witness_minus : processOrg .plain orgTab orgCur [.expr (.sub (.const 6) (.sym 0))] = ([], .set ⟨[(some 5, 1)], 2, []⟩ 0 0) := by decide +kernel

/-- Violation: `ORG A,'X'` is reported and done all the same. -/
theorem C100_witness_form : processOrg .plain orgTab orgCur [.expr (.sym 0), .other] = ([.A115], .set ⟨[(some 5, 1)], 8, []⟩ 0 0) := by decide +kernel

/-- Violation: `ORG A,8,0,2` is accepted, whatever stands in the fourth operand. -/
theorem C100_witness_more : processOrg .plain orgTab orgCur [.expr (.sym 0), .expr (.const 8), .expr (.const 0), .expr (.sym 7)] =
    ([], .set ⟨[(some 5, 1)], 8, []⟩ 8 0) := by decide +kernel

/-- Non-vacuity: `ORG A+3,8,-5`, `ORG ,4`, `ORG A-9`, `ORG C` (another section), `ORG A,3`. -/
example : First .plain orgTab (some 5) (some (.expr (.add (.sym 0) (.const 3)))) (some 11) ∧ Second .plain orgTab (some (.expr (.const 8))) 8 ∧
    Third .plain orgTab (some (.expr (.neg (.const 5)))) (-5) ∧
    processOrg .plain orgTab orgCur [.expr (.add (.sym 0) (.const 3)), .expr (.const 8), .expr (.neg (.const 5))] = ([], .set ⟨[(some 5, 1)], 11, []⟩ 8 (-5)) ∧
    processOrg .plain orgTab orgCur [.empty, .expr (.const 4)] = ([], .highest 4 0) ∧
    processOrg .plain orgTab orgCur [.expr (.sub (.sym 0) (.const 9))] = ([.E068], .nothing) ∧
    processOrg .plain orgTab orgCur [.expr (.sym 2)] = ([.E068], .nothing) ∧
    processOrg .plain orgTab orgCur [.expr (.sym 0), .expr (.const 3)] = ([.A116], .nothing) := by
  have ha : AbsExpr .plain orgTab (.const 3) 3 := ⟨rfl, rfl, rfl⟩
  refine ⟨.loc (.plus (v := 8) (.label rfl) ha), .pow (k := 3) (by decide) (by decide) (by decide +kernel), .abs (by decide +kernel), ?_, ?_, ?_, ?_, ?_⟩ <;> decide +kernel

end Verif.Ord
