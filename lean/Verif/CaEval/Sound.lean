import Verif.CaEval.Main
/-!
The values of accepted expressions are those they mean.
-/
namespace Verif.CaEval

open Verif.Ca (A Op)

theorem resolve_absent (e : Src) (k : Kind) : resolve e k ≠ some .absent := by
  intro h
  cases e with
  | absent => simp [resolve] at h
  | num v => simp [resolve] at h
  | sym s => simp [resolve] at h
  | var n => simp [resolve] at h
  | attr c n => simp [resolve] at h
  | str n d s c =>
    simp only [resolve] at h
    split at h
    · split at h <;> simp at h
    · cases h
  | fn f p q d =>
    simp only [resolve] at h
    split at h
    · split at h
      · cases h
      · split at h
        · cases h
        · split at h <;> simp at h
    · cases h
  | arith o l r =>
    simp only [resolve] at h
    split at h
    · cases h
    · split at h <;> simp at h
  | conc l r =>
    simp only [resolve] at h
    split at h
    · cases h
    · split at h <;> simp at h
  | plus e => simp [resolve] at h
  | minus e => simp [resolve] at h
  | opfn o a => simp [resolve] at h
  | list es =>
    simp only [resolve, resolveList] at h
    split at h
    · cases h
    · split at h
      · cases h
      · split at h
        · cases h
        · simp at h

theorem resolve_kinded (env : Env) (e : Src) : Kinded env (resolve e) := by
  intro k t hk h ho
  cases e with
  | absent => simp [resolve] at h
  | num v => rcases hk with rfl | rfl <;> simp [resolve] at h; subst h; rfl
  | sym s => rcases hk with rfl | rfl <;> simp [resolve] at h; subst h; rfl
  | var n => simp [resolve] at h; subst h; rfl
  | attr c n =>
    cases c with
    | false => rcases hk with rfl | rfl <;> simp [resolve] at h; subst h; rfl
    | true => simp [resolve] at h; subst h; exact (ho rfl).symm
  | str n d s c =>
    simp only [resolve] at h
    split at h
    · by_cases hc : k = .c
      · subst hc; simp at h; subst h; rfl
      · rw [if_pos hc] at h; cases h
    · cases h
  | fn f p q d =>
    simp only [resolve] at h
    split at h
    · by_cases hc : k = fnType f
      · rw [if_neg (by simpa using hc)] at h
        split at h
        · cases h
        · by_cases hn : (if q.isAbsent = true then 1 else 2) ≠ (fnParams f).1
          · rw [if_pos hn] at h; cases h
          · rw [if_neg hn] at h; simp only [Option.some.injEq] at h; subst h; exact hc.symm
      · rw [if_pos hc] at h; cases h
    · cases h
  | arith o l r =>
    simp only [resolve] at h
    by_cases hc : k = .a
    · rw [if_neg (by simpa using hc)] at h
      split at h
      · simp at h; subst h; exact hc.symm
      · cases h
    · rw [if_pos hc] at h; cases h
  | conc l r =>
    simp only [resolve] at h
    by_cases hc : k = .c
    · rw [if_neg (by simpa using hc)] at h
      split at h
      · simp at h; subst h; exact hc.symm
      · cases h
    · rw [if_pos hc] at h; cases h
  | plus e =>
    simp only [resolve] at h
    by_cases hc : k = .a
    · rw [if_neg (by simpa using hc)] at h
      simp at h; obtain ⟨_, _, rfl⟩ := h; exact hc.symm
    · rw [if_pos hc] at h; cases h
  | minus e =>
    simp only [resolve] at h
    by_cases hc : k = .a
    · rw [if_neg (by simpa using hc)] at h
      simp at h; obtain ⟨_, _, rfl⟩ := h; exact hc.symm
    · rw [if_pos hc] at h; cases h
  | opfn o a => simp [resolve] at h
  | list es =>
    simp only [resolve, resolveList] at h
    split at h
    · cases h
    · split at h
      · cases h
      · split at h
        · cases h
        · simp at h; obtain ⟨_, _, rfl⟩ := h; rfl

/-- What is compared as a string, is one. -/
theorem char_not (e : Src) (h1 : isChar e = true) (h2 : charSrc e = false) : resolve e .c = none := by
  cases e <;> simp_all [isChar, charSrc, resolve]

theorem fn_sig (f : Fn) : (sig f = .numOfChars ∧ fnType f = .a ∧ fnParams f = (1, .c)) ∨ (sig f = .numOfTwo ∧ fnType f = .a ∧ fnParams f = (2, .c)) ∨
    (sig f = .charsOfNum ∧ fnType f = .c ∧ fnParams f = (1, .a)) ∨ (sig f = .charsOfChars ∧ fnType f = .c ∧ fnParams f = (1, .c)) := by
  cases f <;> simp [sig, fnType, fnParams]

theorem elems_cons (e : Src) (es : List Src) (h1 : ∀ s, e ≠ .sym s) (h2 : ∀ o a, e ≠ .opfn o a) :
    elems (e :: es) = .term (isChar e) (resolve e) :: elems es := by
  cases e <;> simp_all [elems]

theorem denotes_cons (env : Env) (e : Src) (es : List Src) (h1 : ∀ s, e ≠ .sym s) (h2 : ∀ o a, e ≠ .opfn o a) :
    denotes env (e :: es) = .term (charSrc e) (denote env e) :: denotes env es := by
  cases e <;> simp_all [denotes]

theorem resolve_two (i j : Nat) (ts : List Ca.Tok) : Ca.resolve .arith (.term i :: .term j :: ts) = none := by
  simp [Ca.resolve, Ca.retrieveTerm, Ca.retrieveBinary]

theorem list_one (k : Kind) (hk : k ≠ .undef) (ch : Bool) (res : Kind → Option Tree) : resolveList k [.term ch res] = (res k).map (.list k) := by
  cases k <;> simp_all [resolveList, Elem.isBad, Elem.isOpfn, expand, group, toksFrom, ctoksFrom, groupC, termC, loopC, Ca.resolve, Ca.retrieveTerm,
    Ca.resolveLoop, ofExpr, resolveG]

theorem list_op (o : Opn) (e : Src) (es : List Src) (ho : ∀ b, o ≠ .base b) (he : ∀ b, e ≠ .sym (.op (.base b))) :
    resolve (.list (.sym (.op o) :: e :: es)) .a = none := by
  simp only [resolve, resolveList]
  split
  · rfl
  · split
    · rfl
    · rename_i h
      have hg : group .a (expand (Option.map Tree.par) (elems (.sym (.op o) :: e :: es))) = none := by
        have : ∃ ts, toksFrom 0 (expand (Option.map Tree.par) (elems (.sym (.op o) :: e :: es))) = .term 0 :: .term 1 :: ts := by
          have h0 : ∀ l : List (Elem (Option Tree)), toksFrom 0 (.sym (.op o) :: l) = .term 0 :: toksFrom 1 l := by
            intro l; cases o <;> simp [toksFrom] at ho ⊢
          by_cases h1 : ∃ s, e = .sym s
          · obtain ⟨s, rfl⟩ := h1
            simp only [elems, expand, h0]
            cases s with
            | named n => exact ⟨_, rfl⟩
            | op o' => cases o' with
              | base b => exact absurd rfl (he b)
              | _ => exact ⟨_, rfl⟩
          · by_cases h2 : ∃ o a, e = .opfn o a
            · obtain ⟨o', a, rfl⟩ := h2
              exfalso
              apply h
              refine ⟨by simp, ?_⟩
              simp [elems, Elem.isOpfn]
            · simp only [elems]
              rw [elems_cons e es (fun s hs => h1 ⟨s, hs⟩) (fun o a ha => h2 ⟨o, a, ha⟩)]
              simp only [expand, h0]
              exact ⟨_, rfl⟩
        obtain ⟨ts, hts⟩ := this
        simp only [group, hts, resolve_two, Option.map_none]
      simp only [hg]

mutual
/-- A character expression is not a number. -/
theorem char_num (env : Env) : ∀ (e : Src), charSrc e = true → ∀ t, resolve e .a = some t → ¬ ok env .a t
  | .attr c n, hc, t, h, ho => by
    simp only [charSrc] at hc; subst hc
    simp [resolve] at h; subst h
    exact absurd (ho rfl) (by simp)
  | .str n d s c, _, t, h, _ => by
    simp only [resolve] at h
    split at h
    · simp at h
    · cases h
  | .conc l r, _, t, h, _ => by simp [resolve] at h
  | .fn f p q d, hc, t, h, _ => by
    simp only [charSrc] at hc
    have hf : fnType f = .c := by
      rcases fn_sig f with ⟨h1, h2, _⟩ | ⟨h1, h2, _⟩ | ⟨h1, h2, _⟩ | ⟨h1, h2, _⟩ <;> simp_all
    simp only [resolve, hf] at h
    split at h <;> simp at h
  | .list es, hc, t, h, ho => by
    simp only [charSrc] at hc
    exact charList_num env es hc t h ho
  | .absent, hc, _, _, _ => by simp [charSrc] at hc
  | .num _, hc, _, _, _ => by simp [charSrc] at hc
  | .sym _, hc, _, _, _ => by simp [charSrc] at hc
  | .var _, hc, _, _, _ => by simp [charSrc] at hc
  | .arith _ _ _, hc, _, _, _ => by simp [charSrc] at hc
  | .plus _, hc, _, _, _ => by simp [charSrc] at hc
  | .minus _, hc, _, _, _ => by simp [charSrc] at hc
  | .opfn _ _, hc, _, _, _ => by simp [charSrc] at hc
theorem charList_num (env : Env) : ∀ (es : List Src), charList es = true → ∀ t, resolve (.list es) .a = some t → ¬ ok env .a t
  | [], hc, _, _, _ => by simp [charList] at hc
  | [e], hc, t, h, ho => by
    simp only [charList] at hc
    have h1 : ∀ s, e ≠ .sym s := by intro s hs; subst hs; simp [charSrc] at hc
    have h2 : ∀ o a, e ≠ .opfn o a := by intro o a hs; subst hs; simp [charSrc] at hc
    simp only [resolve] at h
    rw [elems_cons e [] h1 h2] at h
    simp only [elems] at h
    rw [list_one .a (by simp)] at h
    simp only [Option.map_eq_some_iff] at h
    obtain ⟨t', h, rfl⟩ := h
    exact char_num env e hc t' h ho
  | e :: e' :: es, hc, t, h, ho => by
    cases e with
    | sym s =>
      cases s with
      | named n => simp [charList] at hc
      | op o =>
        by_cases hb : ∃ b, o = .base b
        · obtain ⟨b, rfl⟩ := hb; simp [charList] at hc
        · by_cases hb' : ∃ b, e' = .sym (.op (.base b))
          · obtain ⟨b, rfl⟩ := hb'
            cases o <;> simp [charList] at hc
          · rw [list_op o e' es (fun b hs => hb ⟨b, hs⟩) (fun b hs => hb' ⟨b, hs⟩)] at h
            cases h
    | _ => simp [charList] at hc
end

theorem sound_var (env : Env) (n : Nat) : Sound env (resolve (.var n)) (denote env (.var n)) := by
  intro k t hk h ho
  simp [resolve] at h; subst h
  simp only [ok] at ho
  simp only [Agree, denote, eval]
  cases hv : env.var n with
  | none => simp [fin]
  | some v =>
    rw [hv] at ho
    cases v with
    | a v =>
      simp only at ho
      cases k with
      | a => simp [variableVal, number, convertVar, fin, read, shape, SetT.ofA]
      | b => rcases ho.1 rfl with rfl | rfl <;> simp [variableVal, number, convertVar, fin, read, shape, SetT.ofA, truth]
      | c => exact absurd rfl ho.2
      | undef => exact absurd rfl hk
    | b v =>
      cases k with
      | a => cases v <;> simp [variableVal, convertVar, fin, read, shape, SetT.ofB]
      | b => cases v <;> simp [variableVal, convertVar, fin, read, shape, SetT.ofB]
      | c => exact absurd rfl ho
      | undef => exact absurd rfl hk
    | c s =>
      cases k with
      | a =>
        by_cases hs : s = []
        · simp [variableVal, convertVar, fin, read, shape, SetT.ofA, hs]
        · refine agree_a (env.selfDef s) ?_ ?_
          · simp [convertVar, hs, fin_orDiag]
          · simp [variableVal, hs]
      | b =>
        refine agree_number .b (Or.inr rfl) (env.selfDef s) ?_ ?_
        · simp [convertVar, fin_orDiag]
        · rfl
      | c => simp [variableVal, convertVar, fin, read, shape, SetT.ofC]
      | undef => exact absurd rfl hk

theorem sound_attr (env : Env) (c : Bool) (n : Nat) : Sound env (resolve (.attr c n)) (denote env (.attr c n)) := by
  intro k t hk h ho
  cases c with
  | false =>
    simp [resolve] at h
    obtain ⟨h1, rfl⟩ := h
    refine agree_number k (by cases k <;> simp_all) (env.attrA n) ?_ ?_
    · simp only [eval, fin_orDiag]
    · simp only [denote]
  | true =>
    simp [resolve] at h; subst h
    have := ho rfl
    subst this
    refine agree_c (env.attrC n) ?_ ?_
    · simp only [eval, fin_orDiag]
    · simp only [denote, if_true]

/-- A number that may be left out, as resolved. -/
def optRes (e : Src) (k : Kind) : Option Tree := if e.isAbsent then some .absent else resolve e k

theorem optRes_absent (e : Src) (k : Kind) (t : Tree) (h : optRes e k = some t) : (t = .absent ↔ e.isAbsent = true) := by
  unfold optRes at h
  cases he : e.isAbsent with
  | true => simp [he] at h; simp [h]
  | false =>
    simp [he] at h
    simp only [Bool.false_eq_true, iff_false]
    intro ht
    subst ht
    exact resolve_absent e k h

/-- The value of a number that may be left out, where it is not. -/
theorem opt_num (env : Env) (e : Src) (ih : Sound env (resolve e) (denote env e)) (t : Tree) (h : optRes e .a = some t) (ho : ok env .a t)
    (he : e.isAbsent = false) : Val.num? (denote env e .a) = (fin (eval env t)).map (·.a) := by
  simp [optRes, he] at h
  exact (ih .a t (by simp) h ho).num

/-- `n` copies of a string, or the string itself. -/
def copied (env : Env) (d : Tree) (s : Bytes) : Option Bytes :=
  if d = .absent then some s else (fin (eval env d)).bind fun x => strVal (Ca.duplicate (some x.a) s)

theorem fin_copied (env : Env) (d : Tree) (s : Bytes) :
    fin (if d = .absent then .ret (.ofC s) false else (eval env d).bind fun x => Ev.ofStr (Ca.duplicate (some x.a) s)) = (copied env d s).map .ofC := by
  unfold copied
  by_cases hd : d = .absent
  · simp [hd, fin]
  · simp only [hd, if_false, fin_bind, fin_ofStr]
    cases fin (eval env d) <;> rfl

theorem val_copied (env : Env) (dup : Src) (ih : Sound env (resolve dup) (denote env dup)) (d : Tree) (h : optRes dup .a = some d)
    (ho : ok env .a d) (s : Bytes) :
    (if dup.isAbsent then some (.c s) else (Val.num? (denote env dup .a)).bind (copies s)) = (copied env d s).map .c := by
  unfold copied
  cases hd : dup.isAbsent with
  | true => simp [(optRes_absent _ _ _ h).2 hd]
  | false =>
    have : d ≠ .absent := fun x => by rw [(optRes_absent _ _ _ h).1 x] at hd; cases hd
    simp only [this, if_false, Bool.false_eq_true, opt_num env dup ih d h ho hd]
    cases fin (eval env d) with
    | none => rfl
    | some x => simp [copies_eq]

/-- The part of a string. -/
def part (env : Env) (st ct : Tree) (s : Bytes) : Option Bytes :=
  if st = .absent then some s else (fin (eval env st)).bind fun b =>
  if ct = .absent then strVal (Ca.evalString none s (some b.a) none)
  else (fin (eval env ct)).bind fun c => strVal (Ca.evalString none s (some b.a) (some c.a))

theorem fin_str (env : Env) (n : Nat) (d st ct : Tree) : fin (eval env (.str n d st ct)) =
    ((env.chain n).bind fun s => if s.length > 4064 then none else (part env st ct s).bind (copied env d)).map .ofC := by
  have hm : Ca.MAX_STR_SIZE = 4064 := rfl
  simp only [eval]
  cases hc : env.chain n with
  | none => rfl
  | some s =>
    simp only [Option.bind_some, hm]
    by_cases hl : s.length > 4064
    · simp [hl, fin]
    · simp only [hl, if_false, part]
      have hsub : ∀ b c, fin (match Ca.evalString none s (some b) c with
          | .ok s => if d = .absent then .ret (.ofC s) false else (eval env d).bind fun x => Ev.ofStr (Ca.duplicate (some x.a) s)
          | r => Ev.ofStr r) = ((strVal (Ca.evalString none s (some b) c)).bind (copied env d)).map .ofC := by
        intro b c
        cases Ca.evalString none s (some b) c with
        | ok s => simp only [fin_copied, strVal, Option.bind_some]
        | err e => rfl
        | ub => rfl
      by_cases hs : st = .absent
      · simp only [hs, if_true, fin_copied, Option.bind_some]
      · simp only [hs, if_false, fin_bind]
        cases fin (eval env st) with
        | none => rfl
        | some b =>
          simp only [Option.bind_some]
          by_cases hct : ct = .absent
          · simp only [hct, if_true]; exact hsub _ _
          · simp only [hct, if_false, fin_bind]
            cases fin (eval env ct) with
            | none => rfl
            | some c => simp only [Option.bind_some]; exact hsub _ _

theorem val_part (env : Env) (start count : Src) (ihs : Sound env (resolve start) (denote env start))
    (ihc : Sound env (resolve count) (denote env count)) (st ct : Tree) (hs : optRes start .a = some st) (hc : optRes count .a = some ct)
    (hos : ok env .a st) (hoc : ok env .a ct) (s : Bytes) (hl : s.length ≤ 4064) :
    (if start.isAbsent then some s else (Val.num? (denote env start .a)).bind fun b =>
      if count.isAbsent then substr s b none else (Val.num? (denote env count .a)).bind fun c => substr s b (some c)) = part env st ct s := by
  unfold part
  cases h1 : start.isAbsent with
  | true => simp [(optRes_absent _ _ _ hs).2 h1]
  | false =>
    have : st ≠ .absent := fun x => by rw [(optRes_absent _ _ _ hs).1 x] at h1; cases h1
    simp only [this, if_false, Bool.false_eq_true, opt_num env start ihs st hs hos h1]
    cases fin (eval env st) with
    | none => rfl
    | some b =>
      simp only [Option.map_some, Option.bind_some]
      cases h2 : count.isAbsent with
      | true => simp [(optRes_absent _ _ _ hc).2 h2, substr_eq s b.a none hl]
      | false =>
        have : ct ≠ .absent := fun x => by rw [(optRes_absent _ _ _ hc).1 x] at h2; cases h2
        simp only [this, if_false, Bool.false_eq_true, opt_num env count ihc ct hc hoc h2]
        cases fin (eval env ct) with
        | none => rfl
        | some c => simp [substr_eq s b.a (some c.a) hl]

theorem sound_str (env : Env) (n : Nat) (dup start count : Src) (ihd : Sound env (resolve dup) (denote env dup))
    (ihs : Sound env (resolve start) (denote env start)) (ihc : Sound env (resolve count) (denote env count)) :
    Sound env (resolve (.str n dup start count)) (denote env (.str n dup start count)) := by
  intro k t hk h ho
  simp only [resolve] at h
  split at h
  · rename_i d st ct hd hs hc
    by_cases hkc : k = .c
    · subst hkc
      simp only [ne_eq, not_true, if_false, Option.some.injEq] at h
      subst h
      obtain ⟨hod, hos, hoc⟩ := ho
      refine agree_c ((env.chain n).bind fun s => if s.length > 4064 then none else (part env st ct s).bind (copied env d)) (fin_str env n d st ct) ?_
      simp only [denote, ne_eq, not_true, if_false]
      cases env.chain n with
      | none => rfl
      | some s =>
        simp only [Option.bind_some]
        by_cases hl : s.length > 4064
        · simp [hl]
        · simp only [hl, if_false]
          rw [val_part env start count ihs ihc st ct hs hc hos hoc s (by omega)]
          cases part env st ct s with
          | none => rfl
          | some s' => simp only [Option.bind_some, val_copied env dup ihd d hd hod]
    · rw [if_pos hkc] at h; cases h
  · cases h

/-- The value of a function of characters and its duplication. -/
theorem fin_dupl (env : Env) (d : Tree) (s : Option Bytes) :
    ((fin (Ev.ret (.dflt .c) s.isNone)).bind fun _ => fin (if d = .absent then .ret (.ofC (s.getD [])) false
        else (eval env d).bind fun x => Ev.ofStr (Ca.duplicate (some x.a) (s.getD [])))) = (s.bind (copied env d)).map .ofC := by
  cases s with
  | none => rfl
  | some s => simp only [Option.isNone_some, fin_ret, Option.bind_some, Option.getD_some, fin_copied]

theorem fin_fn (env : Env) (f : Fn) (p q d : Tree) : fin (eval env (.fn f p q d)) = match sig f with
    | .numOfTwo => (fin (eval env p)).bind fun x => (fin (eval env q)).map fun y => SetT.ofA (env.fACC f x.c y.c)
    | .numOfChars => (fin (eval env p)).bind fun x => (env.fAC f x.c).map SetT.ofA
    | .charsOfNum => (fin (eval env p)).bind fun x => ((env.fCA f x.a).bind (copied env d)).map SetT.ofC
    | .charsOfChars => (fin (eval env p)).bind fun x => ((env.fCC f x.c).bind (copied env d)).map SetT.ofC := by
  cases f <;> simp only [eval, sig]
  all_goals
    rw [fin_bind]
    cases fin (eval env p) with
    | none => rfl
    | some x =>
      simp only [Option.bind_some]
      first
        | (rw [fin_bind]; cases fin (eval env q) <;> rfl)
        | rw [fin_orDiag]
        | (rw [fin_bind]; exact fin_dupl env d _)

theorem sound_fn (env : Env) (f : Fn) (p q dup : Src) (ihp : Sound env (resolve p) (denote env p))
    (ihq : Sound env (resolve q) (denote env q)) (ihd : Sound env (resolve dup) (denote env dup)) :
    Sound env (resolve (.fn f p q dup)) (denote env (.fn f p q dup)) := by
  intro k t hk h ho
  simp only [resolve] at h
  split at h
  · rename_i p' q' d hp hq hd
    by_cases hkc : k = fnType f
    · rw [if_neg (by simpa using hkc)] at h
      split at h
      · cases h
      · rename_i hdup
        by_cases hn : (if q.isAbsent = true then 1 else 2) ≠ (fnParams f).1
        · rw [if_pos hn] at h; cases h
        · rw [if_neg hn] at h
          simp only [Option.some.injEq] at h
          subst h
          obtain ⟨hop, hoq, hod⟩ := ho
          rcases fn_sig f with ⟨h1, h2, h3⟩ | ⟨h1, h2, h3⟩ | ⟨h1, h2, h3⟩ | ⟨h1, h2, h3⟩
          · rw [h2] at hkc hdup; subst hkc
            rw [h3] at hn hp hq hop hoq
            have hq' : q.isAbsent = true := by cases hqa : q.isAbsent <;> simp_all
            have hd' : dup.isAbsent = true := by cases hqa : dup.isAbsent <;> simp_all
            have ihp := ihp .c p' (by simp) hp hop
            refine agree_a ((fin (eval env p')).bind fun x => env.fAC f x.c) ?_ ?_
            · rw [fin_fn, h1]; cases fin (eval env p') <;> rfl
            · simp only [denote, h1, hq', hd', ihp.chars]
              cases fin (eval env p') <;> simp
          · rw [h2] at hkc hdup; subst hkc
            rw [h3] at hn hp hq hop hoq
            have hq' : q.isAbsent = false := by cases hqa : q.isAbsent <;> simp_all
            have hd' : dup.isAbsent = true := by cases hqa : dup.isAbsent <;> simp_all
            have ihp := ihp .c p' (by simp) hp hop
            have ihq := ihq .c q' (by simp) (by simpa [hq'] using hq) hoq
            refine agree_a ((fin (eval env p')).bind fun x => (fin (eval env q')).map fun y => env.fACC f x.c y.c) ?_ ?_
            · rw [fin_fn, h1]; cases fin (eval env p') <;> cases fin (eval env q') <;> rfl
            · simp only [denote, h1, hd', ihp.chars, ihq.chars]
              cases fin (eval env p') <;> cases fin (eval env q') <;> simp
          · rw [h2] at hkc hdup; subst hkc
            rw [h3] at hn hp hq hop hoq
            have hq' : q.isAbsent = true := by cases hqa : q.isAbsent <;> simp_all
            have ihp := ihp .a p' (by simp) hp hop
            refine agree_c ((fin (eval env p')).bind fun x => (env.fCA f x.a).bind (copied env d)) ?_ ?_
            · rw [fin_fn, h1]; cases fin (eval env p') <;> rfl
            · simp only [denote, h1, hq', ihp.num, val_copied env dup ihd d hd hod]
              cases fin (eval env p') with
              | none => simp
              | some x => simp only [Option.map_some, Option.bind_some]; cases env.fCA f x.a <;> simp
          · rw [h2] at hkc hdup; subst hkc
            rw [h3] at hn hp hq hop hoq
            have hq' : q.isAbsent = true := by cases hqa : q.isAbsent <;> simp_all
            have ihp := ihp .c p' (by simp) hp hop
            refine agree_c ((fin (eval env p')).bind fun x => (env.fCC f x.c).bind (copied env d)) ?_ ?_
            · rw [fin_fn, h1]; cases fin (eval env p') <;> rfl
            · simp only [denote, h1, hq', ihp.chars, val_copied env dup ihd d hd hod]
              cases fin (eval env p') with
              | none => simp
              | some x => simp only [Option.map_some, Option.bind_some]; cases env.fCC f x.c <;> simp
    · rw [if_pos hkc] at h; cases h
  · cases h

theorem sound_list (env : Env) (es : List (Elem (Option Tree))) (ds : List (Elem (Option Val))) (h : List.Forall₂ (ElemMatch env) es ds) :
    Sound env (fun k => resolveList k es) (fun k => denoteList env k ds) := by
  intro k t hk hr ho
  simp only [resolveList] at hr
  split at hr
  · cases hr
  · split at hr
    · cases hr
    · have hm := match_expand env es ds h
      simp only [denoteList, spread_eq]
      cases hg : group k (expand (Option.map Tree.par) es) with
      | none => rw [hg] at hr; cases hr
      | some g =>
        rw [hg] at hr
        simp only [Option.map_eq_some_iff] at hr
        obtain ⟨t', hr, rfl⟩ := hr
        have hd : grouped k (expand id ds) = some g := by
          refine group_grouped k _ g ?_ ?_
          · rw [← match_group env k _ _ hm]; exact hg
          · intro hkc o a b hgb
            have hw := group_ok k _ g hg
            subst hgb
            simp only [resolveG, ne_eq, not_true, if_false] at hr
            split at hr
            · cases hr
            · split at hr
              · simp only [Option.some.injEq] at hr
                subst hr
                simp only [ok] at ho
                obtain ⟨⟨o', h1, _⟩, _⟩ := ho
                exact hw.1 hkc o' h1
              · cases hr
        rw [hd]
        exact soundG env _ _ hm k g (group_ok k _ g hg) k t' hk hr ho

mutual
theorem sound (env : Env) : ∀ (e : Src), Sound env (resolve e) (denote env e)
  | .absent => by intro k t _ h; simp [resolve] at h
  | .num v => by
    intro k t hk h _
    simp [resolve] at h
    obtain ⟨h1, rfl⟩ := h
    exact agree_number k (by cases k <;> simp_all) (some v) rfl (by simp [denote])
  | .sym s => by
    intro k t hk h _
    simp only [denote]
    simp only [resolve] at h
    exact agree_sym env s k hk t h
  | .var n => sound_var env n
  | .attr c n => sound_attr env c n
  | .str n d s c => sound_str env n d s c (sound env d) (sound env s) (sound env c)
  | .fn f p q d => sound_fn env f p q d (sound env p) (sound env q) (sound env d)
  | .arith o l r => by
    intro k t hk h ho
    simp only [resolve] at h
    by_cases hc : k = .a
    · rw [if_neg (by simpa using hc)] at h
      split at h
      · rename_i l' r' hl hr
        simp only [Option.some.injEq] at h
        subst h hc
        have ihl := sound env l .a l' hk hl ho.1
        have ihr := sound env r .a r' hk hr ho.2
        refine agree_a ((fin (eval env l')).bind fun x => (fin (eval env r')).bind fun y =>
          if (arithOp o x.a y.a).diag then none else some (arithOp o x.a y.a).value) ?_ ?_
        · simp only [eval, fin_bind]
          cases fin (eval env l') with
          | none => rfl
          | some x =>
            cases fin (eval env r') with
            | none => rfl
            | some y => simp only [Option.bind_some]; cases (arithOp o x.a y.a).diag <;> rfl
        · simp only [denote, ne_eq, not_true, if_false, ihl.num, ihr.num]
          cases fin (eval env l') with
          | none => rfl
          | some x =>
            cases fin (eval env r') with
            | none => rfl
            | some y => simp only [Option.map_some, Option.bind_some, ← arith_eq]; cases (arithOp o x.a y.a).diag <;> rfl
      · cases h
    · rw [if_pos hc] at h; cases h
  | .conc l r => by
    intro k t hk h ho
    simp only [resolve] at h
    by_cases hc : k = .c
    · rw [if_neg (by simpa using hc)] at h
      split at h
      · rename_i l' r' hl hr
        simp only [Option.some.injEq] at h
        subst h hc
        have ihl := sound env l .c l' hk hl ho.1
        have ihr := sound env r .c r' hk hr ho.2
        have hd : denote env (.conc l r) .c = (fin (eval env l')).bind fun x => (fin (eval env r')).bind fun y =>
            if x.c.length + y.c.length > 4064 then none else some (.c (x.c ++ y.c)) := by
          simp only [denote, ne_eq, not_true, if_false, ihl.chars, ihr.chars]
          cases fin (eval env l') <;> cases fin (eval env r') <;> rfl
        have he : fin (eval env (.conc l' r')) = (fin (eval env l')).bind fun x => (fin (eval env r')).bind fun y =>
            if x.c.length + y.c.length > 4064 then none else some { x with c := x.c ++ y.c } := by
          simp only [eval, fin_bind]
          cases fin (eval env l') with
          | none => rfl
          | some x =>
            cases fin (eval env r') with
            | none => rfl
            | some y =>
              have hm : Ca.MAX_STR_SIZE = 4064 := rfl
              simp only [Option.bind_some, concOp, hm]
              by_cases h : x.c.length + y.c.length > 4064 <;> simp [h, fin]
        have hsh := ihl.2
        unfold Agree
        rw [hd, he]
        cases hx : fin (eval env l') with
        | none => simp
        | some x =>
          cases fin (eval env r') with
          | none => simp
          | some y =>
            simp only [Option.bind_some]
            by_cases h : x.c.length + y.c.length > 4064
            · simp [h]
            · simp only [h, if_false, Option.bind_some, read, true_and, Option.some.injEq]
              intro s hs
              subst hs
              exact hsh x hx
      · cases h
    · rw [if_pos hc] at h; cases h
  | .plus e => by
    intro k t hk h ho
    simp only [resolve] at h
    by_cases hc : k = .a
    · rw [if_neg (by simpa using hc)] at h
      simp only [Option.map_eq_some_iff] at h
      obtain ⟨e', he, rfl⟩ := h
      subst hc
      have ih := sound env e .a e' hk he ho
      refine agree_a ((fin (eval env e')).map fun x => x.a) ?_ ?_
      · simp only [eval, fin_bind]
        cases fin (eval env e') <;> rfl
      · simp only [denote, ne_eq, not_true, if_false, ih.1]
        cases fin (eval env e') <;> rfl
    · rw [if_pos hc] at h; cases h
  | .minus e => by
    intro k t hk h ho
    simp only [resolve] at h
    by_cases hc : k = .a
    · rw [if_neg (by simpa using hc)] at h
      simp only [Option.map_eq_some_iff] at h
      obtain ⟨e', he, rfl⟩ := h
      subst hc
      have ih := sound env e .a e' hk he ho
      refine agree_a ((fin (eval env e')).bind fun x => Ca.caMinus x.a) ?_ ?_
      · simp only [eval, fin_bind]
        cases fin (eval env e') with
        | none => rfl
        | some x => simp only [Option.bind_some]; cases Ca.caMinus x.a <;> rfl
      · simp only [denote, ne_eq, not_true, if_false, ih.num]
        cases fin (eval env e') with
        | none => rfl
        | some x => simp only [Option.map_some, Option.bind_some, minus_eq]
    · rw [if_pos hc] at h; cases h
  | .opfn _ _ => by intro k t _ h; simp [resolve] at h
  | .list es => by
    intro k t hk h ho
    simp only [resolve] at h
    simp only [denote]
    exact sound_list env _ _ (sound_elems env es) k t hk h ho
theorem sound_elems (env : Env) : ∀ (es : List Src), List.Forall₂ (ElemMatch env) (elems es) (denotes env es)
  | [] => by simp only [elems, denotes]; exact .nil
  | e :: es => by
    have ih := sound_elems env es
    by_cases h1 : ∃ s, e = .sym s
    · obtain ⟨s, rfl⟩ := h1
      simp only [elems, denotes]
      exact .cons rfl ih
    · by_cases h2 : ∃ o a, e = .opfn o a
      · obtain ⟨o, a, rfl⟩ := h2
        simp only [elems, denotes]
        exact .cons ⟨rfl, sound env a, resolve_kinded env a⟩ ih
      · rw [elems_cons e es (fun s hs => h1 ⟨s, hs⟩) (fun o a ha => h2 ⟨o, a, ha⟩),
          denotes_cons env e es (fun s hs => h1 ⟨s, hs⟩) (fun o a ha => h2 ⟨o, a, ha⟩)]
        exact .cons ⟨sound env e, resolve_kinded env e, char_not e, char_num env e⟩ ih
end

end Verif.CaEval
