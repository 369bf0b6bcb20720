import Verif.CaEval.Group
/-!
Evaluation of resolved expressions and their meaning.
-/
namespace Verif.CaEval

open Verif.Ca (A Op)

def Sound (env : Env) (res : Kind → Option Tree) (den : Kind → Option Val) : Prop :=
  ∀ k t, k ≠ .undef → res k = some t → ok env k t → Agree k (eval env t) (den k)

def Kinded (env : Env) (res : Kind → Option Tree) : Prop :=
  ∀ k t, (k = .a ∨ k = .c) → res k = some t → ok env k t → exprKind t = k

/-- An element of a list and what it means. -/
def ElemMatch (env : Env) : Elem (Option Tree) → Elem (Option Val) → Prop
  | .sym s, .sym s' => s = s'
  | .term ch res, .term ch' den => Sound env res den ∧ Kinded env res ∧ (ch = true → ch' = false → res .c = none) ∧
      (ch' = true → ∀ t, res .a = some t → ¬ ok env .a t)
  | .opfn o _ res, .opfn o' _ den => o = o' ∧ Sound env res den ∧ Kinded env res
  | _, _ => False

theorem match_expand (env : Env) (es : List (Elem (Option Tree))) (ds : List (Elem (Option Val))) (h : List.Forall₂ (ElemMatch env) es ds) :
    List.Forall₂ (ElemMatch env) (expand (Option.map Tree.par) es) (expand id ds) := by
  induction h with
  | nil => exact .nil
  | @cons e d es ds h1 h2 ih =>
    cases e <;> cases d <;> simp only [ElemMatch] at h1
    · subst h1; exact .cons rfl ih
    · obtain ⟨rfl, hs, hk⟩ := h1
      refine .cons rfl (.cons ⟨?_, ?_, by simp, by simp⟩ ih)
      · intro k t hk' ht hok
        simp only [Option.map_eq_some_iff] at ht
        obtain ⟨t', h3, rfl⟩ := ht
        exact hs k t' hk' h3 hok
      · intro k t hk' ht hok
        simp only [Option.map_eq_some_iff] at ht
        obtain ⟨t', h3, rfl⟩ := ht
        exact hk k t' hk' h3 hok
    · exact .cons h1 ih

theorem match_toks (env : Env) (es : List (Elem (Option Tree))) (ds : List (Elem (Option Val))) (h : List.Forall₂ (ElemMatch env) es ds) :
    ∀ i, toksFrom i es = toksFrom i ds ∧ ctoksFrom i es = ctoksFrom i ds := by
  induction h with
  | nil => intro i; exact ⟨rfl, rfl⟩
  | @cons e d es ds h1 h2 ih =>
    intro i
    have := ih (i + 1)
    cases e <;> cases d <;> simp only [ElemMatch] at h1
    · subst h1
      rename_i s
      cases s with
      | named n => simp [toksFrom, ctoksFrom, this]
      | op o => cases o <;> simp [toksFrom, ctoksFrom, this]
    · simp [toksFrom, ctoksFrom, this]
    · simp [toksFrom, ctoksFrom, this]

theorem match_group (env : Env) (k : Kind) (es : List (Elem (Option Tree))) (ds : List (Elem (Option Val)))
    (h : List.Forall₂ (ElemMatch env) es ds) : group k es = group k ds := by
  cases k <;> simp only [group, (match_toks env es ds h 0).1, (match_toks env es ds h 0).2]

theorem match_get (env : Env) (es : List (Elem (Option Tree))) (ds : List (Elem (Option Val))) (h : List.Forall₂ (ElemMatch env) es ds) :
    ∀ (i : Nat) (e : Elem (Option Tree)), es[i]? = some e → ∃ d, ds[i]? = some d ∧ ElemMatch env e d := by
  induction h with
  | nil => intro i e he; simp at he
  | @cons e d es ds h1 h2 ih =>
    intro i x hx
    cases i with
    | zero => simp only [List.getElem?_cons_zero, Option.some.injEq] at hx; subst hx; exact ⟨d, rfl, h1⟩
    | succ i => simp only [List.getElem?_cons_succ] at hx; exact ih i x hx

/-- A symbol where a number or a logical value is expected. -/
theorem agree_sym (env : Env) (s : Sym) (k : Kind) (hu : k ≠ .undef) (t : Tree) (h : (if k = .c then none else some (Tree.sym s)) = some t) :
    Agree k (eval env t) ((env.sym s).bind (number k)) := by
  by_cases hc : k = .c
  · rw [if_pos hc] at h; cases h
  · rw [if_neg hc] at h
    simp only [Option.some.injEq] at h
    subst h
    refine agree_number k ?_ (env.sym s) ?_ rfl
    · cases k <;> simp_all
    · simp only [eval, fin_orDiag]

theorem fin_ret (v : SetT) : fin (.ret v false) = some v := rfl

/-- The left operand of a comparison is resolved with its kind. -/
theorem char_eq (env : Env) (es : List (Elem (Option Tree))) (ds : List (Elem (Option Val))) (h : List.Forall₂ (ElemMatch env) es ds) (l : Grp)
    (t : Tree) (hr : resolveG es .b l (if charG es l then .c else .a) = some t) (ho : ok env (if charG es l then .c else .a) t) :
    charOf ds l = charG es l ∧ exprKind t = (if charG es l then .c else .a) := by
  cases l with
  | leaf i =>
    simp only [resolveG] at hr
    cases he : es[i]? with
    | none => rw [he] at hr; cases hr
    | some e =>
      rw [he] at hr
      obtain ⟨d, hd, hm⟩ := match_get env es ds h i e he
      simp only [charG, he] at hr ho ⊢
      simp only [charOf, hd]
      cases e with
      | sym s =>
        cases d <;> simp only [ElemMatch] at hm
        simp only [Bool.false_eq_true, if_false] at hr ⊢
        simp at hr
        subst hr
        exact ⟨trivial, rfl⟩
      | opfn o b a => cases hr
      | term ch res =>
        cases d <;> simp only [ElemMatch] at hm
        rename_i ch' den
        obtain ⟨_, hk, h1, h2⟩ := hm
        simp only at hr ho ⊢
        cases ch with
        | true =>
          simp only [if_true] at hr ho ⊢
          refine ⟨?_, hk .c t (Or.inr rfl) hr ho⟩
          cases ch' with
          | true => rfl
          | false => rw [h1 rfl rfl] at hr; cases hr
        | false =>
          simp only [Bool.false_eq_true, if_false] at hr ho ⊢
          refine ⟨?_, hk .a t (Or.inl rfl) hr ho⟩
          cases ch' with
          | false => rfl
          | true => exact absurd ho (h2 rfl t hr)
  | opsym o =>
    simp [resolveG, charG] at hr ⊢
    subst hr
    exact ⟨rfl, rfl⟩
  | un o g => simp [resolveG, charG] at hr
  | bin o l r =>
    exfalso
    rw [resolveG, if_pos (by cases charG es (.bin o l r) <;> simp)] at hr
    cases hr

theorem agree_a2 {ev d} (x y : Option SetT) (f : SetT → SetT → A) (h1 : fin ev = x.bind fun x => y.bind fun y => some (SetT.ofA (f x y)))
    (h2 : d = x.bind fun x => y.map fun y => Val.a (f x y)) : Agree .a ev d := by
  refine agree_a (x.bind fun x => y.map fun y => f x y) ?_ ?_
  · rw [h1]; cases x <;> cases y <;> rfl
  · rw [h2]; cases x <;> cases y <;> rfl

theorem agree_b2 {ev d} (x y : Option SetT) (f : SetT → SetT → Bool) (h1 : fin ev = x.bind fun x => y.bind fun y => some (SetT.ofB (f x y)))
    (h2 : d = x.bind fun x => y.map fun y => Val.b (f x y)) : Agree .b ev d := by
  refine agree_b (x.bind fun x => y.map fun y => f x y) ?_ ?_
  · rw [h1]; cases x <;> cases y <;> rfl
  · rw [h2]; cases x <;> cases y <;> rfl

theorem fin_compareA (env : Env) (o : Ca.Rel) (l r : SetT) : fin (compareRel env o .a l r) = (Ca.relA o l.a r.a).map SetT.ofB := by
  simp only [compareRel]
  cases Ca.relA o l.a r.a <;> rfl

theorem logical_fin (env : Env) (t : Tree) (h : ok.logical env t) : ∀ s, fin (eval env t) = some s → s.a = 0 ∨ s.a = 1 := by
  intro s hs
  cases he : eval env t with
  | ub => rw [he] at hs; cases hs
  | ret v d =>
    rw [he] at hs
    cases d with
    | true => cases hs
    | false => simp only [fin, Option.some.injEq] at hs; subst hs; exact h v false he

theorem soundG (env : Env) (es : List (Elem (Option Tree))) (ds : List (Elem (Option Val))) (h : List.Forall₂ (ElemMatch env) es ds) (K : Kind) :
    ∀ (g : Grp), GWF K g → ∀ (k : Kind) (t : Tree), k ≠ .undef → resolveG es K g k = some t → ok env k t →
      Agree k (eval env t) (denoteG env ds K g k) := by
  intro g
  induction g with
  | leaf i =>
    intro _ k t hu hr ho
    simp only [resolveG] at hr
    cases he : es[i]? with
    | none => rw [he] at hr; cases hr
    | some e =>
      rw [he] at hr
      obtain ⟨d, hd, hm⟩ := match_get env es ds h i e he
      cases e with
      | sym s =>
        cases d <;> simp only [ElemMatch] at hm
        subst hm
        simp only [denoteG, hd]
        exact agree_sym env s k hu t hr
      | opfn o b a => cases hr
      | term ch res =>
        cases d <;> simp only [ElemMatch] at hm
        simp only [denoteG, hd]
        exact hm.1 k t hu hr ho
  | opsym o =>
    intro _ k t hu hr ho
    exact agree_sym env (.op o) k hu t hr
  | un o g ih =>
    intro hg k t hu hr ho
    simp only [resolveG] at hr
    by_cases hK : K = k
    · subst hK
      simp only [ne_eq, not_true, if_false, Option.map_eq_some_iff] at hr
      obtain ⟨t', hr, rfl⟩ := hr
      obtain ⟨ho1, ho2⟩ := ho
      simp only [denoteG, if_true]
      obtain ⟨hg1, hg2, hg3⟩ := hg
      cases K with
      | a =>
        have := hg2 (by simp)
        subst this
        have ih := ih hg3 .a t' (by simp) hr ho1
        refine agree_a ((fin (eval env t')).map fun x => ~~~ x.a) ?_ ?_
        · simp only [eval, fin_bind, unOp, fin_ret]
          cases fin (eval env t') <;> rfl
        · simp only [unVal, ih.num]
          cases fin (eval env t') <;> rfl
      | b =>
        have := hg2 (by simp)
        subst this
        have ih := ih hg3 .b t' (by simp) hr ho1
        have hb := ih.bool (logical_fin env t' (ho2 rfl))
        refine agree_b ((fin (eval env t')).map fun x => !x.b) ?_ ?_
        · simp only [eval, fin_bind, unOp, fin_ret]
          cases fin (eval env t') <;> rfl
        · simp only [unVal, hb]
          cases fin (eval env t') <;> rfl
      | c =>
        cases o with
        | base b => exact absurd rfl (hg1 rfl b)
        | BYTE =>
          have ih := ih hg3 .a t' (by simp) hr ho1
          refine agree_c ((fin (eval env t')).bind fun x => env.fCA .BYTE x.a) ?_ ?_
          · simp only [eval, fin_bind, unOp, fin_orDiag]
            cases fin (eval env t') <;> rfl
          · simp only [unVal, ih.num]
            cases fin (eval env t') <;> rfl
        | SIGNED =>
          have ih := ih hg3 .a t' (by simp) hr ho1
          refine agree_c ((fin (eval env t')).bind fun x => env.fCA .SIGNED x.a) ?_ ?_
          · simp only [eval, fin_bind, unOp, fin_orDiag]
            cases fin (eval env t') <;> rfl
          · simp only [unVal, ih.num]
            cases fin (eval env t') <;> rfl
        | DOUBLE =>
          have ih := ih hg3 .c t' (by simp) hr ho1
          refine agree_c ((fin (eval env t')).bind fun x => env.fCC .DOUBLE x.c) ?_ ?_
          · simp only [eval, fin_bind, unOp, fin_orDiag]
            cases fin (eval env t') <;> rfl
          · simp only [unVal, ih.chars]
            cases fin (eval env t') <;> rfl
        | LOWER =>
          have ih := ih hg3 .c t' (by simp) hr ho1
          refine agree_c ((fin (eval env t')).bind fun x => env.fCC .LOWER x.c) ?_ ?_
          · simp only [eval, fin_bind, unOp, fin_orDiag]
            cases fin (eval env t') <;> rfl
          · simp only [unVal, ih.chars]
            cases fin (eval env t') <;> rfl
        | UPPER =>
          have ih := ih hg3 .c t' (by simp) hr ho1
          refine agree_c ((fin (eval env t')).bind fun x => env.fCC .UPPER x.c) ?_ ?_
          · simp only [eval, fin_bind, unOp, fin_orDiag]
            cases fin (eval env t') <;> rfl
          · simp only [unVal, ih.chars]
            cases fin (eval env t') <;> rfl
      | undef => exact absurd rfl hu
    · rw [if_pos hK] at hr; cases hr
  | bin o l r ihl ihr =>
    intro hg k t hu hr ho
    simp only [resolveG] at hr
    by_cases hK : K = k
    · subst hK
      rw [if_neg (by simp)] at hr
      split at hr
      · cases hr
      · split at hr
        · rename_i l' r' hl hr'
          simp only [Option.some.injEq] at hr
          subst hr
          obtain ⟨⟨o', rfl, hn⟩, hol, hor, hlog⟩ := ho
          obtain ⟨hg1, hg2, hg3, hgl, hgr⟩ := hg
          have ihl := fun hu => ihl hgl _ l' hu hl hol
          have ihr := fun hu => ihr hgr _ r' hu hr' hor
          have hb : ∀ f, fin (eval env (.bin (.base o') K f l' r')) =
              (fin (eval env l')).bind fun x => (fin (eval env r')).bind fun y => fin (binOp env (.base o') K (exprKind l') x y) := by
            intro f; simp only [eval, fin_bind]
          simp only [denoteG, if_true]
          cases K with
          | a =>
            obtain ⟨b, hb1, hb2⟩ := hg2 rfl
            cases hb1
            rcases hb2 with hb2 | hb2
            · exact absurd hb2 hn
            · cases o' <;> simp [Ca.isBinary] at hb2
              all_goals
                simp only [relational, Option.isSome_none, Bool.false_eq_true, if_false, operandsType, ne_eq, reduceCtorEq,
                  not_false_eq_true, true_implies] at ihl ihr
                refine agree_a2 (fin (eval env l')) (fin (eval env r')) _ (hb _) ?_
                first
                  | (simp only [binVal, both, ihl.num, ihr.num]
                     cases fin (eval env l') <;> cases fin (eval env r') <;> rfl)
                  | (simp only [binVal, both, ihl.chars, ihr.chars]
                     cases fin (eval env l') <;> cases fin (eval env r') <;> rfl)
          | b =>
            obtain ⟨b, hb1, hb2⟩ := hg3 rfl
            cases hb1
            rcases hb2 with hb2 | hb2
            · exact absurd hb2 hn
            · cases hrel : relational (.base o') with
              | none =>
                rw [hrel] at ihl ihr
                have hlog' := hlog rfl hrel
                cases o' <;> simp [Ca.isBinary] at hb2 <;> simp [relational] at hrel
                all_goals
                  simp only [Option.isSome_none, Bool.false_eq_true, if_false, operandsType, ne_eq, reduceCtorEq, Ca.isBinary,
                    not_false_eq_true, true_implies, decide_true, decide_false, Bool.or_true, Bool.true_or, Bool.or_false, if_true] at ihl ihr
                  have ihl := ihl.bool (logical_fin env l' hlog'.1)
                  have ihr := ihr.bool (logical_fin env r' hlog'.2)
                  refine agree_b2 (fin (eval env l')) (fin (eval env r')) _ (hb _) ?_
                  simp only [binVal, both, ihl, ihr]
                  cases fin (eval env l') <;> cases fin (eval env r') <;> rfl
              | some rel =>
                rw [hrel] at hl hr' hol hor ihl ihr
                simp only [Option.isSome_some, if_true] at hl hr' hol hor ihl ihr
                obtain ⟨hc1, hc2⟩ := char_eq env es ds h l l' hl hol
                have hv : binVal env .b o' (charOf ds l) (denoteG env ds .b l) (denoteG env ds .b r) =
                    if charOf ds l then both Val.chars? (denoteG env ds .b l .c) (denoteG env ds .b r .c) (compareChars env rel)
                    else (Val.num? (denoteG env ds .b l .a)).bind fun x => (Val.num? (denoteG env ds .b r .a)).bind fun y => compareNum rel x y := by
                  cases o' <;> simp [relational] at hrel <;> subst hrel <;> rfl
                have hbr : ∀ x y, binOp env (.base o') .b (exprKind l') x y = compareRel env rel (exprKind l') x y := by
                  intro x y; simp only [binOp, hrel]
                simp only [hbr] at hb
                rw [hv, hc1]
                cases hch : charG es l with
                | true =>
                  rw [hch] at ihl ihr hc2
                  simp only [if_true] at ihl ihr hc2
                  have ihl := ihl (by simp)
                  have ihr := ihr (by simp)
                  refine agree_b2 (fin (eval env l')) (fin (eval env r'))
                    (fun x y => Ca.relC env.toE rel (x.c.map (·.toNat)) (y.c.map (·.toNat))) ?_ ?_
                  · rw [hb]; simp only [hc2, compareRel, fin_ret]
                  · simp only [if_true, both, ihl.chars, ihr.chars, relC_eq]
                    cases fin (eval env l') <;> cases fin (eval env r') <;> rfl
                | false =>
                  rw [hch] at ihl ihr hc2
                  simp only [Bool.false_eq_true, if_false] at ihl ihr hc2
                  have ihl := ihl (by simp)
                  have ihr := ihr (by simp)
                  refine agree_b ((fin (eval env l')).bind fun x => (fin (eval env r')).bind fun y => Ca.relA rel x.a y.a) ?_ ?_
                  · rw [hb]; simp only [hc2, fin_compareA]
                    cases fin (eval env l') <;> cases fin (eval env r') <;> rfl
                  · simp only [Bool.false_eq_true, if_false, ihl.num, ihr.num, ← relA_eq]
                    cases fin (eval env l') <;> cases fin (eval env r') <;> rfl
          | c => exact absurd rfl (hg1 rfl o')
          | undef => exact absurd rfl hu
        · cases hr
    · rw [if_pos hK] at hr; cases hr

end Verif.CaEval
