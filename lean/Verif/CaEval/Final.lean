import Verif.CaEval.Accept
/-!
C121: the values of conditional assembly expressions.
-/
namespace Verif.CaEval

open Verif.Ca (A Op)

theorem value_iff (env : Env) (k : Kind) (hk : k ≠ .undef) (t : Tree) (d : Option Val) (h : Agree k (eval env t) d) (v : Val) :
    evaluateAs env k t = .value v ↔ d = some v := by
  obtain ⟨h1, h2⟩ := h
  unfold evaluateAs
  cases he : eval env t with
  | ub => rw [he] at h1; simp [h1, fin, Ev.bind]
  | ret s dg =>
    rw [he] at h1 h2
    cases dg with
    | true =>
      simp only [h1, fin, Option.bind_none, Ev.bind]
      cases convert k (exprKind t) s with
      | ub => simp
      | ret w dg => simp
    | false =>
      have hs := h2 s rfl
      simp only [h1, fin, Option.bind_some, Ev.bind]
      cases k with
      | a =>
        simp only [shape] at hs
        simp [convert, hs, read, SetT.get]
      | c =>
        simp only [shape] at hs
        simp [convert, hs, read, SetT.get]
      | b =>
        rcases hs with ⟨hs, hb⟩ | ⟨hs, hb⟩
        · simp [convert, hs, read, SetT.get]
        · simp only [convert, hs, read, reduceCtorEq, ne_eq, not_false_eq_true, if_true, true_and, if_false]
          unfold truth
          by_cases h0 : s.a = 0
          · simp [h0, SetT.get, SetT.ofB]
          · by_cases h3 : s.a = 1
            · simp [h3, SetT.get, SetT.ofB]
            · rw [if_neg (not_or.2 ⟨h0, h3⟩), if_neg h0, if_neg h3]; simp
      | undef => exact absurd rfl hk

/-- An operand that is accepted and does not contain what the code leaves unchecked has a value if, and only if, it has a meaning, and that
value. -/
theorem C121_value_partial (env : Env) (k : Kind) (hk : k ≠ .undef) (e : Src) (t : Tree) (h : resolve e k = some t) (ho : ok env k t) (v : Val) :
    operand env k e = .value v ↔ denote env e k = some v := by
  simp only [operand, h]
  exact value_iff env k hk t _ (sound env e k t hk h ho) v

/-- An operand with a meaning is not refused, if the code recognises the character expressions that are compared or searched in it. -/
theorem C121_accepted_partial (env : Env) (k : Kind) (e : Src) (v : Val) (hh : handled e k) (hd : denote env e k = some v) :
    operand env k e ≠ .refused := by
  obtain ⟨t, ht⟩ := complete env e k v hh hd
  simp only [operand, ht, evaluateAs]
  split <;> simp

/-! Examples: `&A` is 5, `&C` is 'A', `&B` is 1; the string with number n is 'A' and the character n. -/

def someEnv : Env where
  sym := fun _ => none
  var := fun n => if n = 0 then some (.a 5) else if n = 1 then some (.c [65]) else if n = 2 then some (.b true) else none
  attrA := fun _ => some 4
  attrC := fun n => some [UInt8.ofNat n]
  chain := fun n => some [65, UInt8.ofNat n]
  selfDef := fun _ => none
  toE := id
  fAC := fun _ _ => some 1
  fACC := fun _ _ _ => 2
  fCA := fun _ _ => some [1]
  fCC := fun f x => if f = .UPPER then some (x.map fun c => if 97 ≤ c ∧ c ≤ 122 then c - 32 else c) else none

def opr (o : Op) : Src := .sym (.op (.base o))
def chr (n : Nat) : Src := .str n .absent .absent .absent

/-- `('Ax' EQ 'Ax' AND NOT (&A GT 7))` -/
def example1 : Src := .list [chr 120, opr .EQ, chr 120, opr .AND, opr .NOT, .list [.var 0, opr .GT, .num 7]]

theorem example1_handled : handled example1 .b := by
  have hg1 : grouped .b (spread (marks [.var 0, opr .GT, .num 7])) = some (.bin (.base .GT) (.leaf 0) (.leaf 2)) := by decide +kernel
  have hg : grouped .b (spread (marks [chr 120, opr .EQ, chr 120, opr .AND, opr .NOT, .list [.var 0, opr .GT, .num 7]])) =
      some (.bin (.base .AND_NOT) (.bin (.base .EQ) (.leaf 0) (.leaf 2)) (.leaf 5)) := by decide +kernel
  have h1 : handled (.list [.var 0, opr .GT, .num 7]) .b := by
    simp only [handled]
    refine ⟨by simp, by simp [opr], ?_⟩
    intro g h
    rw [hg1, Option.some.injEq] at h
    subst h
    simp [handledG, relational, needs, marks, spread, List.cons_append, List.nil_append, charG, charOf, recognised, firstOf, charSrc, handled, opr]
  unfold example1
  simp only [handled]
  refine ⟨by simp, by simp [opr, chr], ?_⟩
  intro g h
  rw [hg, Option.some.injEq] at h
  subst h
  simp only [handledG, needs, marks, spread, List.cons_append, List.nil_append, opr, chr, id]
  refine ⟨by simp, by simp [relational], ?_, ?_⟩
  · simp [relational, charG, charOf, recognised, firstOf, charSrc, handled, Src.isAbsent]
  · exact h1

theorem example1_tree : resolve example1 .b = some (.list .b (.bin (.base .AND_NOT) .b .b
    (.bin (.base .EQ) .b .c (.str 120 .absent .absent .absent) (.str 120 .absent .absent .absent))
    (.list .b (.bin (.base .GT) .b .a (.var 0 .a) (.num 7))))) := by decide +kernel

example : resolve example1 .b ≠ none ∧ (∀ t, resolve example1 .b = some t → ok someEnv .b t) ∧ handled example1 .b ∧
    denote someEnv example1 .b = some (.b true) ∧ operand someEnv .b example1 = .value (.b true) := by
  refine ⟨by decide +kernel, ?_, ?_, by decide +kernel, by decide +kernel⟩
  · intro t ht
    rw [example1_tree, Option.some.injEq] at ht
    subst ht
    simp only [ok, relational]
    refine ⟨⟨_, rfl, by simp⟩, ⟨⟨_, rfl, by simp⟩, by simp, by simp, by simp⟩, ⟨⟨_, rfl, by simp⟩, ?_, trivial, by simp⟩, fun _ _ => ⟨?_, ?_⟩⟩
    · simp [someEnv]
    · intro v d h
      have : eval someEnv (.bin (.base .EQ) .b .c (.str 120 .absent .absent .absent) (.str 120 .absent .absent .absent)) = .ret (.ofB true) false := by
        decide +kernel
      rw [this] at h
      cases h
      exact Or.inr rfl
    · intro v d h
      have : eval someEnv (.list .b (.bin (.base .GT) .b .a (.var 0 .a) (.num 7))) = .ret (.ofB false) false := by decide +kernel
      rw [this] at h
      cases h
      exact Or.inl rfl
  · exact example1_handled

/-- `'Ax'(1,1).UPPER('x')` -/
example : operand someEnv .c (.conc (.str 120 .absent (.num 1) (.num 1)) (.fn .UPPER (chr 121) .absent .absent)) = .value (.c [65, 65, 89]) := by
  decide +kernel

/-! Values of expressions without meaning -/

/-- Numbers count as logical values: `(5 AND 1)` is 1, and so is `(&A)` with `&A` 5. -/
theorem C121_witness_logical : ∃ env e v, operand env .b e = .value v ∧ denote env e .b = none :=
  ⟨someEnv, .list [.num 5, opr .AND, .num 1], .b true, by decide +kernel⟩

theorem C121_witness_variable : ∃ env n, operand env .b (.list [.var n]) = .value (.b true) ∧ env.var n = some (.a 5) ∧ denote env (.list [.var n]) .b = none :=
  ⟨someEnv, 0, by decide +kernel⟩

/-- `((T'X) EQ (T'Y))` is 1 whatever the attributes are: `C` and `D` here. -/
theorem C121_witness_attribute : ∃ env, env.attrC 67 = some [67] ∧ env.attrC 68 = some [68] ∧
    operand env .b (.list [.list [.attr true 67], opr .EQ, .list [.attr true 68]]) = .value (.b true) ∧
    denote env (.list [.list [.attr true 67], opr .EQ, .list [.attr true 68]]) .b = some (.b false) :=
  ⟨someEnv, by decide +kernel⟩

/-- `T'X+1` is 1. -/
theorem C121_witness_type : ∃ env, operand env .a (.arith .add (.attr true 67) (.num 1)) = .value (.a 1) ∧
    denote env (.arith .add (.attr true 67) (.num 1)) .a = none :=
  ⟨someEnv, by decide +kernel⟩

/-- `(5 NOT 3)` is 0, `('A' UPPER 'B')` is empty. -/
theorem C121_witness_operator : ∃ env, operand env .a (.list [.num 5, opr .NOT, .num 3]) = .value (.a 0) ∧
    denote env (.list [.num 5, opr .NOT, .num 3]) .a = none ∧
    operand env .c (.list [chr 65, .sym (.op .UPPER), chr 66]) = .value (.c []) ∧ denote env (.list [chr 65, .sym (.op .UPPER), chr 66]) .c = none :=
  ⟨someEnv, by decide +kernel⟩

/-- `UPPER(&A)` with a number in `&A` is empty. -/
theorem C121_witness_function : ∃ env, operand env .c (.fn .UPPER (.var 0) .absent .absent) = .value (.c []) ∧ env.var 0 = some (.a 5) ∧
    denote env (.fn .UPPER (.var 0) .absent .absent) .c = none :=
  ⟨someEnv, by decide +kernel⟩

/-! Expressions with meaning that are refused -/

/-- `(UPPER('a') EQ 'A')`, `(('A') EQ 'A')`, `((2)'A' EQ 'A')`. -/
theorem C121_witness_refused : ∃ env,
    (∀ l ∈ [Src.fn .UPPER (chr 97) .absent .absent, .list [chr 65], .str 65 (.num 2) .absent .absent],
      operand env .b (.list [l, opr .EQ, chr 65]) = .refused ∧ (denote env (.list [l, opr .EQ, chr 65]) .b).isSome = true) :=
  ⟨someEnv, by decide +kernel⟩

/-- `(&A EQ(-1))`, although `(&A EQ (-1))` and `(&A EQ(1))` are accepted. -/
theorem C121_witness_parameter : ∃ env, operand env .b (.list [.var 0, .opfn .EQ (.minus (.num 1))]) = .refused ∧
    operand env .b (.list [.var 0, opr .EQ, .list [.minus (.num 1)]]) = .value (.b false) ∧
    operand env .b (.list [.var 0, .opfn .EQ (.num 1)]) = .value (.b false) ∧
    denote env (.list [.var 0, .opfn .EQ (.minus (.num 1))]) .b = some (.b false) :=
  ⟨someEnv, by decide +kernel⟩

/-- `(&A AND(1))` as a number, although `(&A AND 1)` is accepted. -/
theorem C121_witness_arithmetic : ∃ env, operand env .a (.list [.var 0, .opfn .AND (.num 1)]) = .refused ∧
    operand env .a (.list [.var 0, opr .AND, .num 1]) = .value (.a 1) ∧ denote env (.list [.var 0, .opfn .AND (.num 1)]) .a = some (.a 1) :=
  ⟨someEnv, by decide +kernel⟩

end Verif.CaEval
