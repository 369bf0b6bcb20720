import Verif.AsmCheck.Props2

/-!
# The checks of the remaining assembler instructions: proofs for CATTR, EXITCTL, XATTR and ACONTROL
-/

namespace Verif.AsmCheck

theorem cattr_inv {id : String} {ps : List AOp} (h : CattrOption (.complex id ps)) :
    (id = "RMODE" ∧ ∃ p, ps = [p] ∧ OneOf ["24", "31", "64", "ANY"] p) ∨
    (id = "ALIGN" ∧ ∃ p, ps = [p] ∧ OneOf ["0", "1", "2", "3", "4", "12"] p) ∨
    (id = "FILL" ∧ ∃ p, ps = [p] ∧ ∃ v, Decimal p v ∧ 0 ≤ v ∧ v ≤ 255) ∨
    (id = "PART" ∧ ∃ p, ps = [p] ∧ ∃ t v, p = .simple t v ∧ 1 ≤ t.length ∧ t.length ≤ 63) ∨
    (id = "PRIORITY" ∧ ∃ p, ps = [p] ∧ ∃ v, Decimal p v ∧ 0 ≤ v) := by
  generalize ho : AOp.complex id ps = o at h
  cases h with
  | simple _ h => subst ho; obtain ⟨_, _, _, e⟩ := h; cases e
  | rmode p h => injection ho with h1 h2; exact Or.inl ⟨h1, p, h2, h⟩
  | align p h => injection ho with h1 h2; exact Or.inr (Or.inl ⟨h1, p, h2, h⟩)
  | fill p v h h' h'' => injection ho with h1 h2; exact Or.inr (Or.inr (Or.inl ⟨h1, p, h2, v, h, h', h''⟩))
  | part t v h h' => injection ho with h1 h2; exact Or.inr (Or.inr (Or.inr (Or.inl ⟨h1, _, h2, t, v, rfl, h, h'⟩)))
  | priority p v h h' => injection ho with h1 h2; exact Or.inr (Or.inr (Or.inr (Or.inr ⟨h1, p, h2, v, h, h'⟩)))

/-- The attribute `id` with the parameter `p`, in one statement. -/
theorem cattr_one {id : String} {p : AOp} (h : CattrOption (.complex id [p])) :
    (id = "RMODE" → OneOf ["24", "31", "64", "ANY"] p) ∧ (id = "ALIGN" → OneOf ["0", "1", "2", "3", "4", "12"] p) ∧
    (id = "FILL" → ∃ v, Decimal p v ∧ 0 ≤ v ∧ v ≤ 255) ∧
    (id = "PART" → ∃ t v, p = .simple t v ∧ 1 ≤ t.length ∧ t.length ≤ 63) ∧ (id = "PRIORITY" → ∃ v, Decimal p v ∧ 0 ≤ v) := by
  rcases cattr_inv h with ⟨rfl, _, e, h⟩ | ⟨rfl, _, e, h⟩ | ⟨rfl, _, e, h⟩ | ⟨rfl, _, e, h⟩ | ⟨rfl, _, e, h⟩ <;> cases e <;>
    refine ⟨fun e => ?_, fun e => ?_, fun e => ?_, fun e => ?_, fun e => ?_⟩ <;> first | exact h | exact absurd e (by decide)

/-! ## CATTR, EXITCTL, XATTR, ACONTROL -/

theorem ite_none {α : Type} (p : Prop) [Decidable p] (d : α) : ((if p then none else some d) = none) ↔ p := by
  by_cases h : p <;> simp [h]

theorem digits_iff (f : Int → Bool) (o : AOp) : o.digits f = true ↔ ∃ v, Decimal o v ∧ f v = true := by
  cases o with
  | simple t v =>
    cases v with
    | none => simp [AOp.digits, Decimal]
    | some x =>
      simp only [AOp.digits, Bool.and_eq_true, allDigits_iff]
      constructor
      · rintro ⟨h1, h2⟩; exact ⟨x, ⟨t, h1, rfl⟩, h2⟩
      · rintro ⟨v, ⟨t', h1, e⟩, h2⟩; cases e; exact ⟨h1, h2⟩
  | complex id ps => simp [AOp.digits, Decimal]
  | empty => simp [AOp.digits, Decimal]

theorem cattr_iff (ops : List AOp) (hq : ¬ Quirk .cattr ops) : check .cattr ops = accept ↔ Valid .cattr ops := by
  show sized 1 none ops (outOf (firstWrong cattrOperand 0 ops)) = accept ↔ (ops ≠ [] ∧ ∀ o ∈ ops, CattrOption o)
  have h : ∀ i, ∀ o ∈ ops, cattrOperand i o = none ↔ CattrOption o := by
    intro i o ho
    cases o with
    | simple t v =>
      have := among_iff (.simple t v) cattrSimple ["DEFLOAD", "EXECUTABLE", "NOTEXECUTABLE", "MOVABLE", "NOLOAD", "NOTREUS", "READONLY",
        "REFR", "REMOVABLE", "RENT", "REUS"] (by intro t; simp [cattrSimple]; tauto)
      simp only [cattrOperand]
      rw [ite_none, this]
      exact ⟨.simple _, fun h => by cases h; assumption⟩
    | empty =>
      simp only [cattrOperand]
      refine iff_of_false (by simp) ?_
      rintro ⟨_, _, _, e⟩
      simp_all
    | complex id ps =>
      simp only [cattrOperand]
      by_cases hid : id ∈ ["RMODE", "ALIGN", "FILL", "PART", "PRIORITY"]
      · rw [if_neg (by rw [List.contains_iff_mem.2 hid]; decide)]
        rcases ps with _ | ⟨p, _ | ⟨q, r⟩⟩
        · refine iff_of_false (by simp) ?_
          intro h
          rcases cattr_inv h with ⟨_, _, e, _⟩ | ⟨_, _, e, _⟩ | ⟨_, _, e, _⟩ | ⟨_, _, e, _⟩ | ⟨_, _, e, _⟩ <;> cases e
        · simp only [List.mem_cons, List.not_mem_nil, or_false] at hid
          rcases hid with rfl | rfl | rfl | rfl | rfl
          · simp only [cattrParam, if_true]
            rw [ite_none, among_iff p rmodeOptions ["24", "31", "64", "ANY"] (by intro t; simp [rmodeOptions])]
            exact ⟨.rmode p, fun h => (cattr_one h).1 rfl⟩
          · simp only [cattrParam, if_true]
            rw [if_neg (by decide), ite_none, among_iff p _ ["0", "1", "2", "3", "4", "12"] (by intro t; simp)]
            exact ⟨.align p, fun h => (cattr_one h).2.1 rfl⟩
          · simp only [cattrParam, if_true]
            rw [if_neg (by decide), if_neg (by decide), ite_none, digits_iff]
            refine ⟨?_, fun h => ?_⟩
            · rintro ⟨v, h1, h2⟩
              simp [byteValue] at h2
              exact .fill p v h1 h2.2 h2.1
            · obtain ⟨v, h1, h2, h3⟩ := (cattr_one h).2.2.1 rfl
              exact ⟨v, h1, by simp [byteValue, h2, h3]⟩
          · simp only [cattrParam, if_true]
            rw [if_neg (by decide), if_neg (by decide), if_neg (by decide), ite_none]
            cases p with
            | simple t v =>
              have hne : t ≠ "" ↔ 1 ≤ t.length := by
                rw [← length_toList, Nat.one_le_iff_ne_zero, ne_eq, ne_eq, List.length_eq_zero_iff, not_iff_not]
                exact ⟨by rintro rfl; rfl, fun h => String.toList_inj.1 (by rw [h]; rfl)⟩
              simp only [AOp.text?, Option.any_some, decide_eq_true_eq]
              constructor
              · rintro ⟨h1, h2⟩
                exact .part t v (hne.1 h1) h2
              · intro h
                obtain ⟨_, _, e, h1, h2⟩ := (cattr_one h).2.2.2.1 rfl
                cases e
                exact ⟨hne.2 h1, h2⟩
            | complex id ps =>
              refine iff_of_false (by simp [AOp.text?]) fun h => ?_
              obtain ⟨_, _, e, -⟩ := (cattr_one h).2.2.2.1 rfl
              cases e
            | empty =>
              refine iff_of_false (by simp [AOp.text?]) fun h => ?_
              obtain ⟨_, _, e, -⟩ := (cattr_one h).2.2.2.1 rfl
              cases e
          · simp only [cattrParam]
            rw [if_neg (by decide), if_neg (by decide), if_neg (by decide), if_neg (by decide), ite_none, digits_iff]
            refine ⟨?_, fun h => ?_⟩
            · rintro ⟨v, h1, h2⟩
              exact .priority p v h1 (Int.le_of_lt (by simpa using h2))
            · obtain ⟨v, h1, h2⟩ := (cattr_one h).2.2.2.2 rfl
              refine ⟨v, h1, ?_⟩
              obtain ⟨t, -, rfl⟩ := h1
              have : v ≠ 0 := by rintro rfl; exact hq ⟨t, ho⟩
              simp only [decide_eq_true_eq]
              omega
        · refine iff_of_false (by simp) ?_
          intro h
          rcases cattr_inv h with ⟨_, _, e, _⟩ | ⟨_, _, e, _⟩ | ⟨_, _, e, _⟩ | ⟨_, _, e, _⟩ | ⟨_, _, e, _⟩ <;> cases e
      · rw [if_pos (by simpa [not_or, and_imp] using hid)]
        refine iff_of_false (by simp) ?_
        intro h
        rcases cattr_inv h with ⟨rfl, _⟩ | ⟨rfl, _⟩ | ⟨rfl, _⟩ | ⟨rfl, _⟩ | ⟨rfl, _⟩ <;> exact hid (by decide)
  rw [sized_accept, outOf_accept, firstWrong_none' ops 0 h]
  cases ops with
  | nil => simp
  | cons o r => simp

theorem exitctl_iff (ops : List AOp) : check .exitctl ops = accept ↔ Valid .exitctl ops := by
  show checkExitctl ops = accept ↔ ∃ o r, ops = o :: r ∧ 1 ≤ r.length ∧ r.length ≤ 4 ∧
      OneOf ["SOURCE", "LIBRARY", "LISTING", "PUNCH", "ADATA", "TERM", "OBJECT"] o ∧ ∀ p ∈ r, p = .empty ∨ ∃ v, Absolute p v
  have h : ∀ i o, exitctlValue i o = none ↔ (o = .empty ∨ ∃ v, Absolute o v) := by
    intro i o
    cases o with
    | simple t v => cases v <;> simp [exitctlValue, Absolute]
    | complex id ps => simp [exitctlValue, Absolute]
    | empty => simp [exitctlValue]
  unfold checkExitctl
  rw [sized_accept]
  cases ops with
  | nil => simp
  | cons o r =>
    simp only
    rw [ite_accept', outOf_accept, firstWrong_none h r 1, among_iff o exitTypes ["SOURCE", "LIBRARY", "LISTING", "PUNCH", "ADATA",
      "TERM", "OBJECT"] (by intro t; simp [exitTypes])]
    constructor
    · rintro ⟨h1, h2, h3, h4⟩
      have := h2 5 rfl
      simp only [List.length_cons] at h1 this
      exact ⟨o, r, rfl, by omega, by omega, h3, h4⟩
    · rintro ⟨_, _, e, h1, h2, h3, h4⟩
      cases e
      refine ⟨by simp only [List.length_cons]; omega, by rintro _ ⟨⟩; simp only [List.length_cons]; omega, h3, h4⟩

theorem xattrRefs_iff (i : Nat) (ps : List AOp) :
    (¬ (ps.length = 0 ∨ ps.length > 2) ∧ xattrRefs i false false 0 ps = none) ↔ References ps := by
  have hd : ∀ t, t ∈ ["DIRECT", "INDIRECT"] ↔ (t = "DIRECT" ∨ t = "INDIRECT") := by simp
  have hc : ∀ t, t ∈ ["CODE", "DATA"] ↔ (t = "DATA" ∨ t = "CODE") := by intro t; simp; tauto
  have ho : ∀ (l : List String) (t : String) (v : Option Int), OneOf l (.simple t v) ↔ t ∈ l := by
    intro l t v
    exact ⟨by rintro ⟨_, _, h, e⟩; cases e; exact h, fun h => ⟨t, v, h, rfl⟩⟩
  have hn : ∀ l id ps, ¬ OneOf l (.complex id ps) := by rintro l id ps ⟨_, _, _, e⟩; cases e
  have he : ∀ l, ¬ OneOf l .empty := by rintro l ⟨_, _, _, e⟩; cases e
  rcases ps with _ | ⟨a, _ | ⟨b, _ | ⟨c, r⟩⟩⟩
  · refine iff_of_false (by simp) ?_
    intro h; cases h
  · have hR : References [a] ↔ OneOf ["DIRECT", "INDIRECT", "CODE", "DATA"] a :=
      ⟨fun h => by cases h; assumption, .one a⟩
    rw [hR]
    cases a with
    | simple t v =>
      rw [ho]
      simp only [xattrRefs]
      by_cases h1 : t = "DIRECT" ∨ t = "INDIRECT"
      · rw [if_pos h1]
        refine iff_of_true (by simp) (by rcases h1 with rfl | rfl <;> simp)
      · rw [if_neg h1]
        by_cases h2 : t = "DATA" ∨ t = "CODE"
        · rw [if_pos h2]
          refine iff_of_true (by simp) (by rcases h2 with rfl | rfl <;> simp)
        · rw [if_neg h2]
          refine iff_of_false (by simp) (by simp; tauto)
    | complex id ps => exact iff_of_false (by simp [xattrRefs]) (hn _ _ _)
    | empty => exact iff_of_false (by simp [xattrRefs]) (he _)
  · have hR : References [a, b] ↔ ((OneOf ["DIRECT", "INDIRECT"] a ∧ OneOf ["CODE", "DATA"] b) ∨
        (OneOf ["CODE", "DATA"] a ∧ OneOf ["DIRECT", "INDIRECT"] b)) := by
      constructor
      · intro h
        cases h with
        | dc _ _ h1 h2 => exact Or.inl ⟨h1, h2⟩
        | cd _ _ h1 h2 => exact Or.inr ⟨h1, h2⟩
      · rintro (⟨h1, h2⟩ | ⟨h1, h2⟩)
        · exact .dc a b h1 h2
        · exact .cd a b h1 h2
    rw [hR]
    cases a with
    | simple t v =>
      cases b with
      | simple s w =>
        simp only [ho, hd, hc, xattrRefs]
        have hdis : ∀ t : String, (t = "DIRECT" ∨ t = "INDIRECT") → ¬ (t = "DATA" ∨ t = "CODE") := by
          rintro t (rfl | rfl) <;> simp
        by_cases h1 : t = "DIRECT" ∨ t = "INDIRECT"
        · have h1' := hdis t h1
          rw [if_pos h1]
          by_cases h2 : s = "DIRECT" ∨ s = "INDIRECT"
          · have h2' := hdis s h2
            rw [if_pos h2]
            refine iff_of_false (by simp) (by tauto)
          · rw [if_neg h2]
            by_cases h3 : s = "DATA" ∨ s = "CODE"
            · rw [if_pos h3]
              exact iff_of_true (by simp) (Or.inl ⟨h1, h3⟩)
            · rw [if_neg h3]
              exact iff_of_false (by simp) (by tauto)
        · rw [if_neg h1]
          by_cases h4 : t = "DATA" ∨ t = "CODE"
          · rw [if_pos h4]
            by_cases h2 : s = "DIRECT" ∨ s = "INDIRECT"
            · rw [if_pos h2]
              exact iff_of_true (by simp) (Or.inr ⟨h4, h2⟩)
            · rw [if_neg h2]
              refine iff_of_false ?_ (by tauto)
              by_cases h3 : s = "DATA" ∨ s = "CODE" <;> simp [h3]
          · rw [if_neg h4]
            exact iff_of_false (by simp) (by tauto)
      | complex id ps =>
        refine iff_of_false ?_ (by rintro (⟨_, h⟩ | ⟨_, h⟩) <;> exact hn _ _ _ h)
        simp only [xattrRefs]
        split <;> [simp; split <;> simp]
      | empty =>
        refine iff_of_false ?_ (by rintro (⟨_, h⟩ | ⟨_, h⟩) <;> exact he _ h)
        simp only [xattrRefs]
        split <;> [simp; split <;> simp]
    | complex id ps => exact iff_of_false (by simp [xattrRefs]) (by rintro (⟨h, _⟩ | ⟨h, _⟩) <;> exact hn _ _ _ h)
    | empty => exact iff_of_false (by simp [xattrRefs]) (by rintro (⟨h, _⟩ | ⟨h, _⟩) <;> exact he _ h)
  · refine iff_of_false (by simp) ?_
    intro h; cases h

theorem xattr_iff (ops : List AOp) : check .xattr ops = accept ↔ Valid .xattr ops := by
  show sized 1 none ops (outOf (firstWrong xattrOperand 0 ops)) = accept ↔ (ops ≠ [] ∧ ∀ o ∈ ops, XattrOption o)
  have h : ∀ i o, xattrOperand i o = none ↔ XattrOption o := by
    intro i o
    cases o with
    | simple t v =>
      refine iff_of_false (by simp [xattrOperand]) ?_
      intro h; cases h
    | empty =>
      refine iff_of_false (by simp [xattrOperand]) ?_
      intro h; cases h
    | complex id ps =>
      simp only [xattrOperand]
      by_cases h1 : id ∈ ["ATTRIBUTES", "ATTR", "LINK", "LINKAGE", "SCOPE", "PSECT"]
      · rw [if_pos (List.contains_iff_mem.2 h1)]
        rcases ps with _ | ⟨p, _ | ⟨q, r⟩⟩
        · refine iff_of_false (by simp) ?_
          intro h
          cases h with
          | ref _ _ _ h => cases h
        · simp only [xattrParam]
          by_cases h2 : id = "SCOPE"
          · subst h2
            rw [if_pos rfl, ite_none, among_iff p _ ["SECTION", "S", "MODULE", "M", "LIBRARY", "L", "IMPORT", "EXPORT", "X"]
              (by intro t; simp; tauto)]
            refine ⟨.scope p, fun h => ?_⟩
            cases h with
            | any _ _ h => simp at h
            | linkage _ _ h => simp at h
            | scope _ h => exact h
            | ref _ _ h => simp at h
          · rw [if_neg h2]
            by_cases h3 : id = "LINKAGE" ∨ id = "LINK"
            · rw [if_pos h3, ite_none, among_iff p _ ["OS", "XPLINK"] (by intro t; simp)]
              refine ⟨.linkage id p (by simpa using h3), fun h => ?_⟩
              cases h with
              | any _ _ h => rcases h3 with rfl | rfl <;> simp at h
              | linkage _ _ _ h => exact h
              | scope _ h => exact absurd rfl h2
              | ref _ _ h => rcases h3 with rfl | rfl <;> simp at h
            · rw [if_neg h3]
              refine iff_of_true rfl (.any id p ?_)
              simp at h1 ⊢
              tauto
        · refine iff_of_false (by simp) ?_
          intro h
          cases h with
          | ref _ _ hid _ =>
            simp at hid h1
            rcases hid with rfl | rfl <;> simp at h1
      · rw [if_neg (fun h => h1 (List.contains_iff_mem.1 h))]
        by_cases h2 : id = "REFERENCE" ∨ id = "REF"
        · rw [if_pos h2]
          have hr := xattrRefs_iff i ps
          have : ((if ps.length = 0 ∨ ps.length > 2 then some (⟨18, .stmt⟩ : Diag) else xattrRefs i false false 0 ps) = none) ↔
              References ps := by
            rw [← hr]
            by_cases h : ps.length = 0 ∨ ps.length > 2 <;> simp only [h, if_true, if_false, not_true, not_false_iff, true_and, false_and]
            simp
          rw [this]
          refine ⟨.ref id ps (by simpa using h2), fun h => ?_⟩
          cases h with
          | any _ _ h => rcases h2 with rfl | rfl <;> simp at h
          | linkage _ _ h => rcases h2 with rfl | rfl <;> simp at h
          | scope _ h => simp at h2
          | ref _ _ _ h => exact h
        · rw [if_neg h2]
          refine iff_of_false (by simp) ?_
          intro h
          cases h with
          | any _ _ h => simp at h h1; tauto
          | linkage _ _ h => simp at h h1; tauto
          | scope _ h => simp at h1
          | ref _ _ h => simp at h; tauto
  rw [sized_accept, outOf_accept, firstWrong_none h]
  cases ops with
  | nil => simp
  | cons o r => simp

theorem flag_iff (i j : Nat) (p : AOp) : flagParam i j p = none ↔ FlagParam p := by
  unfold FlagParam
  have hk := among_iff p flagKeywords ["ALIGN", "AL", "NOALIGN", "NOAL", "CONT", "NOCONT", "PAGE0", "NOPAGE0", "SUB", "NOSUB", "USING0",
    "US0", "NOUSING0", "NOUS0", "IMPLEN", "NOIMPLEN", "EXLITW", "NOEXLITW", "SUBSTR", "NOSUBSTR"] (by intro t; simp [flagKeywords]; tauto)
  rw [← hk]
  cases p with
  | complex id ps => simp [flagParam, AOp.among, AOp.text?, Decimal]
  | empty => simp [flagParam, AOp.among, AOp.text?, Decimal]
  | simple t v =>
    simp only [flagParam, AOp.among, AOp.text?, Option.any_some]
    by_cases h : flagKeywords.contains t = true
    · rw [if_pos h]; exact iff_of_true rfl (Or.inl h)
    · rw [if_neg h]
      cases v with
      | none =>
        refine iff_of_false (by simp) ?_
        rintro (h' | ⟨v, ⟨_, _, e⟩, _⟩)
        · exact h h'
        · cases e
      | some n =>
        simp only
        by_cases hd : allDigits t = true
        · rw [if_pos hd]
          by_cases hn : n < 0 ∨ n > 255
          · rw [if_pos hn]
            refine iff_of_false (by simp) ?_
            rintro (h' | ⟨v, ⟨_, _, e⟩, _, _⟩)
            · exact h h'
            · cases e; omega
          · rw [if_neg hn]
            exact iff_of_true rfl (Or.inr ⟨n, ⟨t, (allDigits_iff t).1 hd, rfl⟩, by omega, by omega⟩)
        · rw [if_neg hd]
          refine iff_of_false (by simp) ?_
          rintro (h' | ⟨v, ⟨_, h', e⟩, _, _⟩)
          · exact h h'
          · cases e; exact hd ((allDigits_iff t).2 h')

theorem acontrol_inv {id : String} {ps : List AOp} (h : AcontrolOption (.complex id ps)) :
    (id ∈ ["COMPAT", "CPAT"] ∧ ps ≠ [] ∧ ∀ p ∈ ps, OneOf ["CASE", "NOCASE", "LITTYPE", "LIT", "NOLITTYPE", "NOLIT", "MACROCASE", "MC",
      "NOMACROCASE", "NOMC", "SYSLIST", "SYSL", "NOSYSLIST", "NOSYSL", "TRANSDT", "TRS", "NOTRANSDT", "NOTRS"] p) ∨
    (id ∈ ["FLAG"] ∧ ps ≠ [] ∧ ∀ p ∈ ps, FlagParam p) ∨
    (id ∈ ["OPTABLE"] ∧ ps ≠ [] ∧ ∃ a r, ps = a :: r ∧
      OneOf ["DOS", "ESA", "XA", "370", "YOP", "ZOP", "ZS3", "ZS4", "ZS5", "ZS6", "ZS7", "ZS8"] a ∧
      (r = [] ∨ ∃ b, OneOf ["LIST", "NOLIST"] b ∧ r = [b])) ∨
    (id ∈ ["TYPECHECK", "TC"] ∧ ps ≠ [] ∧
      ∀ p ∈ ps, OneOf ["MAGNITUDE", "MAG", "REGISTER", "REG", "NOMAGNITUDE", "NOMAG", "NOREGISTER", "NOREG"] p) := by
  generalize ho : AOp.complex id ps = o at h
  cases h with
  | simple _ h => subst ho; obtain ⟨_, _, _, e⟩ := h; cases e
  | compat _ _ h h' h'' => injection ho with h1 h2; subst h1 h2; exact Or.inl ⟨h, h', h''⟩
  | flag _ h h' => injection ho with h1 h2; subst h1 h2; exact Or.inr (Or.inl ⟨by simp, h, h'⟩)
  | optable a r h h' => injection ho with h1 h2; subst h1 h2; exact Or.inr (Or.inr (Or.inl ⟨by simp, by simp, a, r, rfl, h, h'⟩))
  | typecheck _ _ h h' h'' => injection ho with h1 h2; subst h1 h2; exact Or.inr (Or.inr (Or.inr ⟨h, h', h''⟩))

theorem compat_iff (o : AOp) : o.among compatKeywords = true ↔ OneOf ["CASE", "NOCASE", "LITTYPE", "LIT", "NOLITTYPE", "NOLIT",
    "MACROCASE", "MC", "NOMACROCASE", "NOMC", "SYSLIST", "SYSL", "NOSYSLIST", "NOSYSL", "TRANSDT", "TRS", "NOTRANSDT", "NOTRS"] o :=
  among_iff o _ _ fun t => List.contains_iff_mem.trans (List.Perm.mem_iff (by decide +kernel))

theorem typecheck_iff (o : AOp) : o.among typecheckKeywords = true ↔ OneOf ["MAGNITUDE", "MAG", "REGISTER", "REG", "NOMAGNITUDE",
    "NOMAG", "NOREGISTER", "NOREG"] o :=
  among_iff o _ _ fun t => List.contains_iff_mem.trans (List.Perm.mem_iff (by decide +kernel))

theorem optable_iff (i : Nat) (ps : List AOp) (hne : ps ≠ []) (hq : ∀ v r, ps ≠ .simple "" v :: r) :
    optableParams i ps = none ↔ ∃ a r, ps = a :: r ∧
      OneOf ["DOS", "ESA", "XA", "370", "YOP", "ZOP", "ZS3", "ZS4", "ZS5", "ZS6", "ZS7", "ZS8"] a ∧
      (r = [] ∨ ∃ b, OneOf ["LIST", "NOLIST"] b ∧ r = [b]) := by
  have ha : ∀ a r, ps = a :: r → (a.among optableNames = true ↔
      OneOf ["DOS", "ESA", "XA", "370", "YOP", "ZOP", "ZS3", "ZS4", "ZS5", "ZS6", "ZS7", "ZS8"] a) := by
    intro a r e
    rw [among_iff a optableNames ["DOS", "ESA", "XA", "370", "YOP", "ZOP", "ZS3", "ZS4", "ZS5", "ZS6", "ZS7", "ZS8", ""]
      (by intro t; simp [optableNames])]
    constructor
    · rintro ⟨t, v, hm, rfl⟩
      refine ⟨t, v, ?_, rfl⟩
      have : t ≠ "" := by rintro rfl; exact hq v r e
      simp only [List.mem_cons, List.not_mem_nil, or_false] at hm ⊢
      tauto
    · rintro ⟨t, v, hm, rfl⟩
      refine ⟨t, v, ?_, rfl⟩
      simp only [List.mem_cons, List.not_mem_nil, or_false] at hm ⊢
      tauto
  have hb : ∀ b : AOp, b.among ["LIST", "NOLIST"] = true ↔ OneOf ["LIST", "NOLIST"] b :=
    fun b => among_iff b _ _ (by intro t; simp)
  rcases ps with _ | ⟨a, _ | ⟨b, _ | ⟨c, r⟩⟩⟩
  · exact absurd rfl hne
  · simp only [optableParams]
    rw [ite_none, ha a [] rfl]
    constructor
    · exact fun h => ⟨a, [], rfl, h, Or.inl rfl⟩
    · rintro ⟨_, _, e, h, -⟩; cases e; exact h
  · simp only [optableParams]
    have hab := ha a [b] rfl
    constructor
    · intro h
      split at h
      next h1 =>
        rw [ite_none, hb] at h
        exact ⟨a, [b], rfl, hab.1 h1, Or.inr ⟨b, h, rfl⟩⟩
      next => simp at h
    · rintro ⟨_, _, e, h, h'⟩
      cases e
      rcases h' with h' | ⟨_, h', e⟩
      · cases h'
      · cases e
        rw [if_pos (hab.2 h), if_pos ((hb b).2 h')]
  · refine iff_of_false (by simp [optableParams]) ?_
    rintro ⟨_, _, e, h, h'⟩
    cases e
    rcases h' with h' | ⟨_, _, h'⟩ <;> cases h'

theorem acontrol_iff (ops : List AOp) (hq : ¬ Quirk .acontrol ops) : check .acontrol ops = accept ↔ Valid .acontrol ops := by
  show sized 1 none ops (outOf (firstWrong acontrolOperand 0 ops)) = accept ↔ (ops ≠ [] ∧ ∀ o ∈ ops, AcontrolOption o)
  have h : ∀ i, ∀ o ∈ ops, acontrolOperand i o = none ↔ AcontrolOption o := by
    intro i o ho
    cases o with
    | simple t v =>
      have := among_iff (.simple t v) acontrolSimple ["AFPR", "NOAFPR", "RA2", "NORA2", "LIBMAC", "LMAC", "NOLIBMAC", "NOLMAC",
        "NOCOMPAT", "NOCPAT", "NOTYPECHECK", "NOTC"] (by intro t; simp [acontrolSimple]; tauto)
      simp only [acontrolOperand]
      rw [ite_none]
      simp only [AOp.among, AOp.text?, Option.any_some] at this
      rw [this]
      exact ⟨.simple _, fun h => by cases h; assumption⟩
    | empty =>
      refine iff_of_false (by simp [acontrolOperand]) ?_
      intro h
      cases h with
      | simple _ h => obtain ⟨_, _, _, e⟩ := h; cases e
    | complex id ps =>
      simp only [acontrolOperand]
      by_cases hid : id ∈ ["CPAT", "COMPAT", "FLAG", "TC", "TYPECHECK", "OPTABLE"]
      · rw [if_neg (by rw [List.contains_iff_mem.2 hid]; decide)]
        rcases hps : ps with _ | ⟨p, r⟩
        · refine iff_of_false (by simp) ?_
          intro h
          rcases acontrol_inv h with ⟨_, h, _⟩ | ⟨_, h, _⟩ | ⟨_, h, _⟩ | ⟨_, h, _⟩ <;> exact h rfl
        · rw [← hps]
          have hne : ps ≠ [] := by rw [hps]; simp
          rw [if_neg (by simp [hps])]
          simp only [acontrolParams]
          by_cases h1 : id = "COMPAT" ∨ id = "CPAT"
          · rw [if_pos h1, firstWrong_none (P := OneOf ["CASE", "NOCASE", "LITTYPE", "LIT", "NOLITTYPE", "NOLIT", "MACROCASE", "MC",
              "NOMACROCASE", "NOMC", "SYSLIST", "SYSL", "NOSYSLIST", "NOSYSL", "TRANSDT", "TRS", "NOTRANSDT", "NOTRS"])
              (fun i o => by rw [ite_none]; exact compat_iff o)]
            refine ⟨.compat id ps (by simpa using h1) hne, fun h => ?_⟩
            rcases acontrol_inv h with ⟨_, _, h⟩ | ⟨e, _⟩ | ⟨e, _⟩ | ⟨e, _⟩
            · exact h
            all_goals rcases h1 with rfl | rfl <;> exact absurd e (by decide)
          · rw [if_neg h1]
            by_cases h2 : id = "FLAG"
            · subst h2
              rw [if_pos rfl, firstWrong_none (flag_iff i)]
              refine ⟨.flag ps hne, fun h => ?_⟩
              rcases acontrol_inv h with ⟨e, _⟩ | ⟨_, _, h⟩ | ⟨e, _⟩ | ⟨e, _⟩
              · exact absurd e (by decide)
              · exact h
              · exact absurd e (by decide)
              · exact absurd e (by decide)
            · rw [if_neg h2]
              by_cases h3 : id = "OPTABLE"
              · subst h3
                rw [if_pos rfl]
                have hopt : AcontrolOption (.complex "OPTABLE" ps) ↔ ∃ a r, ps = a :: r ∧
                    OneOf ["DOS", "ESA", "XA", "370", "YOP", "ZOP", "ZS3", "ZS4", "ZS5", "ZS6", "ZS7", "ZS8"] a ∧
                    (r = [] ∨ ∃ b, OneOf ["LIST", "NOLIST"] b ∧ r = [b]) := by
                  constructor
                  · intro h
                    rcases acontrol_inv h with ⟨e, _⟩ | ⟨e, _⟩ | ⟨_, _, h⟩ | ⟨e, _⟩
                    · exact absurd e (by decide)
                    · exact absurd e (by decide)
                    · exact h
                    · exact absurd e (by decide)
                  · rintro ⟨a, r, rfl, h1, h2⟩
                    exact .optable a r h1 h2
                rw [hopt]
                exact optable_iff i ps hne fun v r e => hq ⟨v, r, e ▸ ho⟩
              · rw [if_neg h3, firstWrong_none (P := OneOf ["MAGNITUDE", "MAG", "REGISTER", "REG", "NOMAGNITUDE", "NOMAG", "NOREGISTER",
                  "NOREG"])
                  (fun i o => by rw [ite_none]; exact typecheck_iff o)]
                have hid' : id ∈ ["TYPECHECK", "TC"] := by simp at hid ⊢; tauto
                refine ⟨.typecheck id ps hid' hne, fun h => ?_⟩
                rcases acontrol_inv h with ⟨e, _⟩ | ⟨e, _⟩ | ⟨e, _⟩ | ⟨_, _, h⟩
                · exact absurd (by simpa using e) h1
                · exact absurd (by simpa using e) h2
                · exact absurd (by simpa using e) h3
                · exact h
      · rw [if_pos (by simpa using hid)]
        refine iff_of_false (by simp) ?_
        intro h
        have hsub : ∀ l : List String, id ∈ l → l ⊆ ["CPAT", "COMPAT", "FLAG", "TC", "TYPECHECK", "OPTABLE"] → False :=
          fun l h1 h2 => hid (h2 h1)
        rcases acontrol_inv h with ⟨e, _⟩ | ⟨e, _⟩ | ⟨e, _⟩ | ⟨e, _⟩ <;> exact hsub _ e (by decide)
  rw [sized_accept, outOf_accept, firstWrong_none' ops 0 h]
  cases ops with
  | nil => simp
  | cons o r => simp

end Verif.AsmCheck
