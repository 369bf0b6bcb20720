import Verif.CaEval.Sound
/-!
Which expressions with a meaning are accepted.
-/
namespace Verif.CaEval

open Verif.Ca (A Op)

/-- The elements of a list, with the documented notion of character expressions. -/
def marks : List Src → List (Elem Prop)
  | [] => []
  | .sym s :: es => .sym s :: marks es
  | .opfn o _ :: es => .opfn o false (fun _ => True) :: marks es
  | e :: es => .term (charSrc e) (fun _ => True) :: marks es

def Src.isOpfn : Src → Bool
  | .opfn .. => true
  | _ => false

/-- A term that the parser takes for the parameter of an operator that looks like a function. -/
def Src.isSimple : Src → Bool
  | .num _ | .sym _ | .var _ | .attr .. => true
  | _ => false

/-- The parts of a list of kind `K` are handled: the operands of comparisons that are character expressions are recognised as such, and so is
what FIND and INDEX search. `ns` are the elements with what is recognised, `ms` those with what is a character expression. -/
def handledG (ns ms : List (Elem Prop)) (K : Kind) : Grp → Kind → Prop
  | .leaf i, k => match ns[i]? with
    | some (.term _ h) => h k
    | _ => True
  | .opsym _, _ => True
  | .un o g, _ => handledG ns ms K g (operandsType o K)
  | .bin o l r, _ =>
    ((o = .base .FIND ∨ o = .base .INDEX) → charG ns l = true) ∧
    (relational o ≠ none → charOf ms l = true → charG ns l = true) ∧
    let ok := if relational o ≠ none then (if charOf ms l then .c else .a) else operandsType o K
    handledG ns ms K l ok ∧ handledG ns ms K r ok

mutual
/-- What the code accepts of the expressions that have a meaning, where one of kind `k` is expected. -/
def handled : Src → Kind → Prop
  | .str _ d s c, _ => (s.isAbsent = true → c.isAbsent = true) ∧ (d.isAbsent = true ∨ handled d .a) ∧ (s.isAbsent = true ∨ handled s .a) ∧
    (c.isAbsent = true ∨ handled c .a)
  | .fn f p q d, _ => handled p (fnParams f).2 ∧ (q.isAbsent = true ∨ handled q (fnParams f).2) ∧ (d.isAbsent = true ∨ handled d .a)
  | .arith _ l r, _ => handled l .a ∧ handled r .a
  | .conc l r, _ => handled l .c ∧ handled r .c
  | .plus e, _ => handled e .a
  | .minus e, _ => handled e .a
  | .list es, k => (k ≠ .b → ∀ e ∈ es, e.isOpfn = false) ∧ (∀ o a, Src.opfn o a ∈ es → a.isSimple = true) ∧
    ∀ g, grouped k (spread (marks es)) = some g → handledG (spread (needs es)) (spread (marks es)) k g k
  | _, _ => True
/-- The elements of a list, with what is recognised as a character expression. -/
def needs : List Src → List (Elem Prop)
  | [] => []
  | .sym s :: es => .sym s :: needs es
  | .opfn o _ :: es => .opfn o false (fun _ => True) :: needs es
  | e :: es => .term (recognised e) (handled e) :: needs es
end

/-- An element behind the separation of operators and their parameters. -/
inductive Item where
  | sym (s : Sym)
  | term (e : Src)
  | arg (e : Src)

def items : List Src → List Item
  | [] => []
  | .sym s :: es => .sym s :: items es
  | .opfn o a :: es => .sym (.op (.base o)) :: .arg a :: items es
  | e :: es => .term e :: items es

def fE : Item → Elem (Option Tree)
  | .sym s => .sym s
  | .term e => .term (isChar e) (resolve e)
  | .arg e => .term false (fun k => (resolve e k).map .par)

def fD (env : Env) : Item → Elem (Option Val)
  | .sym s => .sym s
  | .term e => .term (charSrc e) (denote env e)
  | .arg e => .term false (denote env e)

def fN : Item → Elem Prop
  | .sym s => .sym s
  | .term e => .term (recognised e) (handled e)
  | .arg _ => .term false (fun _ => True)

def fM : Item → Elem Prop
  | .sym s => .sym s
  | .term e => .term (charSrc e) (fun _ => True)
  | .arg _ => .term false (fun _ => True)

theorem items_E (es : List Src) : expand (Option.map Tree.par) (elems es) = (items es).map fE := by
  induction es with
  | nil => rfl
  | cons e es ih => cases e <;> simp [elems, items, expand, ih, fE]

theorem items_D (env : Env) (es : List Src) : expand id (denotes env es) = (items es).map (fD env) := by
  induction es with
  | nil => rfl
  | cons e es ih => cases e <;> simp [denotes, items, expand, ih, fD]

theorem items_N (es : List Src) : expand id (needs es) = (items es).map fN := by
  induction es with
  | nil => rfl
  | cons e es ih => cases e <;> simp [needs, items, expand, ih, fN]

theorem items_M (es : List Src) : expand id (marks es) = (items es).map fM := by
  induction es with
  | nil => rfl
  | cons e es ih => cases e <;> simp [marks, items, expand, ih, fM]

/-- The grouping depends on the symbols only. -/
theorem group_map {α β : Type} (f : Item → Elem α) (g : Item → Elem β) (hf : ∀ s, f (.sym s) = .sym s) (hg : ∀ s, g (.sym s) = .sym s)
    (hf' : ∀ e, (∃ ch r, f (.term e) = .term ch r) ∧ ∃ ch r, f (.arg e) = .term ch r)
    (hg' : ∀ e, (∃ ch r, g (.term e) = .term ch r) ∧ ∃ ch r, g (.arg e) = .term ch r) (k : Kind) (l : List Item) :
    group k (l.map f) = group k (l.map g) ∧ grouped k (l.map f) = grouped k (l.map g) := by
  have : ∀ i, toksFrom i (l.map f) = toksFrom i (l.map g) ∧ ctoksFrom i (l.map f) = ctoksFrom i (l.map g) := by
    induction l with
    | nil => intro i; exact ⟨rfl, rfl⟩
    | cons x l ih =>
      intro i
      have ih := ih (i + 1)
      cases x with
      | sym s =>
        simp only [List.map_cons, hf, hg]
        cases s with
        | named n => simp [toksFrom, ctoksFrom, ih]
        | op o => cases o <;> simp [toksFrom, ctoksFrom, ih]
      | term e =>
        obtain ⟨⟨_, _, h1⟩, _⟩ := hf' e
        obtain ⟨⟨_, _, h2⟩, _⟩ := hg' e
        simp [h1, h2, toksFrom, ctoksFrom, ih]
      | arg e =>
        obtain ⟨_, ⟨_, _, h1⟩⟩ := hf' e
        obtain ⟨_, ⟨_, _, h2⟩⟩ := hg' e
        simp [h1, h2, toksFrom, ctoksFrom, ih]
  have ht : ∀ {γ : Type} (es : List (Elem γ)), tokens es = toksFrom 0 es := fun es => (toks_zip es 0).symm
  cases k <;> simp only [group, grouped, chain_eq, ht, (this 0).1, (this 0).2, and_self]

theorem group_E (env : Env) (k : Kind) (l : List Item) : group k (l.map fE) = group k (l.map (fD env)) :=
  group_map _ _ (fun _ => rfl) (fun _ => rfl) (fun _ => ⟨⟨_, _, rfl⟩, ⟨_, _, rfl⟩⟩) (fun _ => ⟨⟨_, _, rfl⟩, ⟨_, _, rfl⟩⟩) k l |>.1

theorem grouped_M (env : Env) (k : Kind) (l : List Item) : grouped k (l.map fM) = grouped k (l.map (fD env)) :=
  group_map _ _ (fun _ => rfl) (fun _ => rfl) (fun _ => ⟨⟨_, _, rfl⟩, ⟨_, _, rfl⟩⟩) (fun _ => ⟨⟨_, _, rfl⟩, ⟨_, _, rfl⟩⟩) k l |>.2

theorem isChar_recognised : ∀ (e : Src), isChar e = recognised e
  | .arith _ l _ => isChar_recognised l
  | .conc l _ => isChar_recognised l
  | .attr .. | .str .. | .absent | .num _ | .sym _ | .var _ | .fn .. | .plus _ | .minus _ | .opfn .. | .list _ => rfl

theorem char_N (l : List Item) (g : Grp) : charG (l.map fN) g = charG (l.map fE) g := by
  induction g with
  | leaf i =>
    simp only [charG, List.getElem?_map]
    cases l[i]? with
    | none => rfl
    | some x =>
      cases x with
      | term e => exact (isChar_recognised e).symm
      | sym _ => rfl
      | arg _ => rfl
  | opsym o => rfl
  | un o g _ => rfl
  | bin o l r ih _ => exact ih

theorem char_M (env : Env) (l : List Item) (g : Grp) : charOf (l.map fM) g = charOf (l.map (fD env)) g := by
  cases g with
  | leaf i =>
    simp only [charOf, List.getElem?_map]
    cases l[i]? with
    | none => rfl
    | some x => cases x <;> rfl
  | _ => rfl

/-- What is recognised as a character expression and is none, has no value. -/
theorem char_arith (env : Env) : ∀ (e : Src), isChar e = true → denote env e .a = none
  | .attr c n, h => by simp only [isChar] at h; subst h; simp [denote]
  | .str n d s c, _ => by simp [denote]
  | .arith o l r, h => by simp [denote, char_arith env l h, Val.num?]
  | .conc l r, _ => by simp [denote]
  | .absent, h => by simp [isChar] at h
  | .num _, h => by simp [isChar] at h
  | .sym _, h => by simp [isChar] at h
  | .var _, h => by simp [isChar] at h
  | .fn .., h => by simp [isChar] at h
  | .plus _, h => by simp [isChar] at h
  | .minus _, h => by simp [isChar] at h
  | .opfn .., h => by simp [isChar] at h
  | .list _, h => by simp [isChar] at h

theorem num_some {d : Option Val} {x : A} (h : Val.num? d = some x) : ∃ v, d = some v := by
  cases d with
  | none => cases h
  | some v => exact ⟨v, rfl⟩

theorem chars_some {d : Option Val} {x : Bytes} (h : Val.chars? d = some x) : ∃ v, d = some v := by
  cases d with
  | none => cases h
  | some v => exact ⟨v, rfl⟩

theorem bool_some {d : Option Val} {x : Bool} (h : Val.bool? d = some x) : ∃ v, d = some v := by
  cases d with
  | none => cases h
  | some v => exact ⟨v, rfl⟩

theorem both_some {α : Type} {get : Option Val → Option α} (hget : ∀ d x, get d = some x → ∃ v, d = some v) {l r : Option Val} {f : α → α → Val}
    {v : Val} (h : both get l r f = some v) : (∃ x, l = some x) ∧ ∃ y, r = some y := by
  simp only [both, Option.bind_eq_some_iff, Option.map_eq_some_iff] at h
  obtain ⟨x, h1, y, h2, _⟩ := h
  exact ⟨hget _ _ h1, hget _ _ h2⟩

theorem unVal_some {env : Env} {k : Kind} {o : Opn} {d : Kind → Option Val} {v : Val} (h : unVal env k o d = some v) :
    ∃ x, d (operandsType o k) = some x := by
  have hn : ∀ (f : A → Option Val), (Val.num? (d .a)).bind f = some v → ∃ x, d .a = some x := by
    intro f hf
    simp only [Option.bind_eq_some_iff] at hf
    obtain ⟨x, h1, _⟩ := hf
    exact num_some h1
  have hc : ∀ (f : Bytes → Option Val), (Val.chars? (d .c)).bind f = some v → ∃ x, d .c = some x := by
    intro f hf
    simp only [Option.bind_eq_some_iff] at hf
    obtain ⟨x, h1, _⟩ := hf
    exact chars_some h1
  unfold unVal at h
  split at h
  · simp only [Option.map_eq_some_iff] at h
    obtain ⟨x, h1, _⟩ := h
    exact num_some h1
  · simp only [Option.map_eq_some_iff] at h
    obtain ⟨x, h1, _⟩ := h
    exact bool_some h1
  · exact hn _ h
  · exact hn _ h
  · exact hc _ h
  · exact hc _ h
  · exact hc _ h
  · cases h

theorem binVal_some {env : Env} {k : Kind} {o : Op} {ch : Bool} {l r : Kind → Option Val} {v : Val} (h : binVal env k o ch l r = some v) :
    (∃ x, l (if relational (.base o) ≠ none then (if ch then .c else .a) else operandsType (.base o) k) = some x) ∧
    ∃ y, r (if relational (.base o) ≠ none then (if ch then .c else .a) else operandsType (.base o) k) = some y := by
  have hr : ∀ rel, (if ch then both Val.chars? (l .c) (r .c) (compareChars env rel)
      else (Val.num? (l .a)).bind fun x => (Val.num? (r .a)).bind fun y => compareNum rel x y) = some v →
      (∃ x, l (if ch then .c else .a) = some x) ∧ ∃ y, r (if ch then .c else .a) = some y := by
    intro rel h
    cases ch with
    | true => exact both_some (fun _ _ => chars_some) h
    | false =>
      simp only [Bool.false_eq_true, if_false, Option.bind_eq_some_iff] at h
      obtain ⟨x, h1, y, h2, _⟩ := h
      exact ⟨num_some h1, num_some h2⟩
  cases k with
  | a =>
    cases o <;> simp only [binVal] at h
    all_goals first
      | exact both_some (fun _ _ => num_some) h
      | exact both_some (fun _ _ => chars_some) h
      | cases h
  | b =>
    cases o <;> simp only [binVal, relational, relOf] at h
    all_goals first
      | exact both_some (fun _ _ => bool_some) h
      | exact hr _ h
      | cases h
  | c => simp [binVal] at h
  | undef => simp [binVal] at h

def Complete (env : Env) (e : Src) : Prop := ∀ k v, handled e k → denote env e k = some v → ∃ t, resolve e k = some t

/-- A symbol with a value is not expected to be a string. -/
theorem sym_some {env : Env} {s : Sym} {k : Kind} {v : Val} (h : (env.sym s).bind (number k) = some v) : k ≠ .c := by
  intro hk
  subst hk
  cases hs : env.sym s <;> rw [hs] at h <;> cases h

theorem completeG (env : Env) (l : List Item) (ht : ∀ e, Item.term e ∈ l → Complete env e) (ha : ∀ e, Item.arg e ∈ l → Complete env e ∧ ∀ k, handled e k)
    (K : Kind) : ∀ (g : Grp) (k : Kind) (v : Val), handledG (l.map fN) (l.map fM) K g k →
      denoteG env (l.map (fD env)) K g k = some v →
      ∃ t, resolveG (l.map fE) K g k = some t := by
  intro g
  induction g with
  | leaf i =>
    intro k v hh hd
    simp only [handledG, denoteG, resolveG, List.getElem?_map] at hh hd ⊢
    cases hi : l[i]? with
    | none => simp [hi] at hd
    | some x =>
      have hm := List.mem_of_getElem? hi
      rw [hi] at hh hd
      cases x with
      | sym s =>
        simp only [Option.map_some, fD] at hd
        simp [fE, sym_some hd]
      | term e =>
        simp only [Option.map_some, fD, fN] at hh hd
        simpa [fE] using ht e hm k v hh hd
      | arg e =>
        simp only [Option.map_some, fD] at hd
        obtain ⟨t, h⟩ := (ha e hm).1 k v ((ha e hm).2 k) hd
        simp [fE, h]
  | opsym o =>
    intro k v hh hd
    simp only [denoteG] at hd
    simp [resolveG, sym_some hd]
  | un o g ih =>
    intro k v hh hd
    simp only [denoteG] at hd
    by_cases hk : K = k
    · simp only [hk, if_true] at hd
      subst hk
      obtain ⟨x, hx⟩ := unVal_some hd
      obtain ⟨t, h⟩ := ih _ x hh hx
      simp [resolveG, h]
    · simp [hk] at hd
  | bin o l' r' ihl ihr =>
    intro k v hh hd
    cases o with
    | base o =>
      simp only [denoteG] at hd
      by_cases hk : K = k
      · simp only [hk, if_true] at hd
        subst hk
        obtain ⟨⟨x, hx⟩, ⟨y, hy⟩⟩ := binVal_some hd
        obtain ⟨h1, h2, h3, h4⟩ := hh
        rw [char_N] at h1 h2
        rw [char_M env] at h2 h3 h4
        obtain ⟨tl, htl⟩ := ihl _ x h3 hx
        obtain ⟨tr, htr⟩ := ihr _ y h4 hy
        have hkind : (if (relational (.base o)).isSome then (if charG (l.map fE) l' then .c else .a) else operandsType (.base o) K) =
            (if relational (.base o) ≠ none then (if charOf (l.map (fD env)) l' then .c else .a) else operandsType (.base o) K : Kind) := by
          cases hrel : relational (.base o) with
          | none => rfl
          | some rel =>
            simp only [Option.isSome_some, if_true, ne_eq, reduceCtorEq, not_false_eq_true]
            rw [hrel] at h2 hx
            simp only [ne_eq, reduceCtorEq, not_false_eq_true, true_implies, if_true] at h2 hx
            cases hc : charOf (l.map (fD env)) l' with
            | true => rw [h2 hc]
            | false =>
              cases hg : charG (l.map fE) l' with
              | false => rfl
              | true =>
                exfalso
                rw [hc] at hx
                simp only [Bool.false_eq_true, if_false] at hx
                have hb : K = .b := by
                  cases K with
                  | b => rfl
                  | _ => cases o <;> simp [relational] at hrel <;> simp [binVal] at hd
                cases l' with
                | leaf i =>
                  simp only [charG, denoteG, List.getElem?_map] at hg hx
                  cases hi : l[i]? with
                  | none => simp [hi] at hg
                  | some z =>
                    rw [hi] at hg hx
                    cases z with
                    | term e =>
                      simp only [Option.map_some, fE, fD] at hg hx
                      rw [char_arith env e hg] at hx
                      cases hx
                    | sym s => simp [fE] at hg
                    | arg e => simp [fE] at hg
                | opsym o => simp [charG] at hg
                | un o g => simp [charG] at hg
                | bin o a b =>
                  subst hb
                  cases o <;> simp [denoteG] at hx
        refine ⟨.bin (.base o) K (if (relational (.base o)).isSome then (if charG (l.map fE) l' then .c else .a) else operandsType (.base o) K) tl tr, ?_⟩
        simp only [resolveG, ne_eq, not_true, if_false]
        rw [if_neg (by rintro ⟨ho, hc⟩; rw [h1 ho] at hc; cases hc)]
        rw [← hkind] at htl htr
        simp only [htl, htr]
      · simp [hk] at hd
    | _ => simp [denoteG] at hd

theorem mem_items (es : List Src) : (∀ e, Item.term e ∈ items es → e ∈ es) ∧ ∀ e, Item.arg e ∈ items es → ∃ o, Src.opfn o e ∈ es := by
  induction es with
  | nil => simp [items]
  | cons x es ih =>
    obtain ⟨ih1, ih2⟩ := ih
    constructor
    · intro e he
      by_cases h1 : ∃ s, x = .sym s
      · obtain ⟨s, rfl⟩ := h1; simp [items] at he; exact List.mem_cons_of_mem _ (ih1 e he)
      · by_cases h2 : ∃ o a, x = .opfn o a
        · obtain ⟨o, a, rfl⟩ := h2; simp [items] at he; exact List.mem_cons_of_mem _ (ih1 e he)
        · have : items (x :: es) = .term x :: items es := by cases x <;> simp_all [items]
          rw [this] at he
          simp at he
          rcases he with rfl | he
          · exact List.mem_cons_self
          · exact List.mem_cons_of_mem _ (ih1 e he)
    · intro e he
      have hrec : Item.arg e ∈ items es → ∃ o, Src.opfn o e ∈ x :: es := fun h => by
        obtain ⟨o, ho⟩ := ih2 e h; exact ⟨o, List.mem_cons_of_mem _ ho⟩
      cases x with
      | opfn o a =>
        simp [items] at he
        rcases he with rfl | he
        · exact ⟨o, List.mem_cons_self⟩
        · exact hrec he
      | _ => simp [items] at he; exact hrec he

theorem simple_some {env : Env} {e : Src} (hs : e.isSimple = true) : (∀ k, handled e k) ∧ Complete env e ∧ (resolve e .undef).isSome := by
  cases e <;> simp [Src.isSimple] at hs
  · refine ⟨fun _ => trivial, ?_, by simp [resolve]⟩
    intro k v _ h
    cases k <;> simp [denote, number, resolve] at h ⊢
  · refine ⟨fun _ => trivial, ?_, by simp [resolve]⟩
    intro k v _ h
    simp only [denote] at h
    simp [resolve, sym_some h]
  · exact ⟨fun _ => trivial, fun k v _ h => by simp [resolve], by simp [resolve]⟩
  · rename_i c n
    refine ⟨fun _ => trivial, ?_, by simp [resolve]⟩
    intro k v _ h
    cases c with
    | true => simp [resolve]
    | false =>
      simp only [denote] at h
      have : k ≠ .c := by
        intro hk; subst hk
        cases hs : env.attrA n <;> rw [hs] at h <;> cases h
      simp [resolve, this]

theorem complete_list (env : Env) (es : List Src) (ih : ∀ e ∈ es, Complete env e) : Complete env (.list es) := by
  intro k v hh hd
  simp only [handled] at hh
  obtain ⟨h1, h2, h3⟩ := hh
  simp only [denote, denoteList, spread_eq] at hd
  rw [spread_eq, spread_eq, items_M, items_N] at h3
  rw [items_D] at hd
  simp only [resolve, resolveList]
  have hbad : (elems es).any Elem.isBad = false := by
    clear h1 h3 hd ih
    induction es with
    | nil => rfl
    | cons e es ih' =>
      have ih' := ih' (fun o a h => h2 o a (List.mem_cons_of_mem _ h))
      cases e with
      | opfn o a =>
        have := (simple_some (env := env) (h2 o a List.mem_cons_self)).2.2
        simp only [elems, List.any_cons, ih', Elem.isBad, Bool.or_false]
        cases hr : resolve a .undef <;> simp_all
      | _ => simpa [elems, Elem.isBad] using ih'
  have hop : ¬ (k ≠ .b ∧ (elems es).any Elem.isOpfn = true) := by
    rintro ⟨hk, ho⟩
    replace h1 := h1 hk
    clear h2 h3 hd ih hbad
    induction es with
    | nil => simp [elems] at ho
    | cons e es ih' =>
      cases e with
      | opfn o a => have := h1 _ List.mem_cons_self; simp [Src.isOpfn] at this
      | _ => exact ih' (by simpa [elems, Elem.isOpfn] using ho) (fun e he => h1 e (List.mem_cons_of_mem _ he))
  rw [if_neg (by simp [hbad]), if_neg hop, items_E]
  cases hg : grouped k ((items es).map (fD env)) with
  | none => rw [hg] at hd; cases hd
  | some g =>
    rw [hg] at hd
    rw [grouped_M env] at h3
    obtain ⟨t, ht⟩ := completeG env (items es) (fun e he => ih e ((mem_items es).1 e he)) (fun e he => by
      obtain ⟨o, ho⟩ := (mem_items es).2 e he
      have := simple_some (env := env) (h2 o e ho)
      exact ⟨this.2.1, this.1⟩) k g k v (h3 g hg) hd
    rw [group_E env, grouped_group k _ g hg]
    exact ⟨.list k t, by simp [ht]⟩

/-- A number that may be left out, and has a value where it is not. -/
theorem opt_some {env : Env} {e : Src} {k : Kind} (ih : Complete env e) (hh : e.isAbsent = true ∨ handled e k)
    (hd : e.isAbsent = false → ∃ v, denote env e k = some v) : ∃ t, (if e.isAbsent then some Tree.absent else resolve e k) = some t := by
  cases he : e.isAbsent with
  | true => exact ⟨_, rfl⟩
  | false =>
    obtain ⟨v, hv⟩ := hd he
    simp only [he, Bool.false_eq_true, false_or] at hh
    simpa using ih k v hh hv

mutual
theorem complete (env : Env) : ∀ (e : Src), Complete env e
  | .absent => by intro k v _ h; simp [denote] at h
  | .num v => (simple_some rfl).2.1
  | .sym s => (simple_some rfl).2.1
  | .var n => (simple_some rfl).2.1
  | .attr c n => (simple_some rfl).2.1
  | .str n d s c => by
    intro k v hh hd
    simp only [handled] at hh
    obtain ⟨h0, h1, h2, h3⟩ := hh
    simp only [denote] at hd
    by_cases hk : k = .c
    · rw [if_neg (by simpa using hk)] at hd
      simp only [Option.bind_eq_some_iff] at hd
      obtain ⟨str, _, hd⟩ := hd
      by_cases hl : str.length > 4064
      · simp [hl] at hd
      · rw [if_neg hl] at hd
        simp only [Option.bind_eq_some_iff] at hd
        obtain ⟨s', hs', hd'⟩ := hd
        obtain ⟨td, htd⟩ := opt_some (complete env d) h1 (fun ha => by
          rw [ha] at hd'
          simp only [Bool.false_eq_true, if_false, Option.bind_eq_some_iff] at hd'
          obtain ⟨x, hx, _⟩ := hd'
          exact num_some hx)
        obtain ⟨ts, hts⟩ := opt_some (complete env s) h2 (fun ha => by
          rw [ha] at hs'
          simp only [Bool.false_eq_true, if_false, Option.bind_eq_some_iff] at hs'
          obtain ⟨x, hx, _⟩ := hs'
          exact num_some hx)
        obtain ⟨tc, htc⟩ := opt_some (complete env c) h3 (fun ha => by
          have hsa : s.isAbsent = false := by
            cases hsa : s.isAbsent with
            | false => rfl
            | true => rw [h0 hsa] at ha; cases ha
          rw [hsa, ha] at hs'
          simp only [Bool.false_eq_true, if_false, Option.bind_eq_some_iff] at hs'
          obtain ⟨_, _, x, hx, _⟩ := hs'
          exact num_some hx)
        refine ⟨.str n td ts tc, ?_⟩
        simp only [resolve, htd, hts, htc, hk, ne_eq, not_true, if_false]
    · simp [hk] at hd
  | .fn f p q d => by
    intro k v hh hd
    simp only [handled] at hh
    obtain ⟨h1, h2, h3⟩ := hh
    have key : (∃ x, denote env p (fnParams f).2 = some x) ∧ (q.isAbsent = false → ∃ x, denote env q (fnParams f).2 = some x) ∧
        (d.isAbsent = false → ∃ x, denote env d .a = some x) ∧ k = fnType f ∧ ¬ (d.isAbsent = false ∧ fnType f ≠ .c) ∧
        ¬ (if q.isAbsent = true then 1 else 2) ≠ (fnParams f).1 := by
      rcases fn_sig f with ⟨e1, e2, e3⟩ | ⟨e1, e2, e3⟩ | ⟨e1, e2, e3⟩ | ⟨e1, e2, e3⟩ <;> simp only [denote, e1] at hd <;> rw [e2, e3]
      · by_cases hc : k ≠ .a ∨ d.isAbsent = false ∨ q.isAbsent = false
        · rw [if_pos hc] at hd; cases hd
        · rw [if_neg hc] at hd
          simp only [Option.bind_eq_some_iff] at hd
          obtain ⟨x, hx, _⟩ := hd
          simp only [not_or, ne_eq, not_not, Bool.not_eq_false] at hc
          obtain ⟨c1, c2, c3⟩ := hc
          simp [c1, c2, c3, chars_some hx]
      · by_cases hc : k ≠ .a ∨ d.isAbsent = false
        · rw [if_pos hc] at hd; cases hd
        · rw [if_neg hc] at hd
          simp only [Option.bind_eq_some_iff, Option.map_eq_some_iff] at hd
          obtain ⟨x, hx, y, hy, _⟩ := hd
          simp only [not_or, ne_eq, not_not, Bool.not_eq_false] at hc
          obtain ⟨c1, c2⟩ := hc
          have hq : q.isAbsent = false := by
            cases q <;> simp [Src.isAbsent]
            simp [denote, Val.chars?] at hy
          simp [c1, c2, hq, chars_some hx, chars_some hy]
      all_goals
        by_cases hc : k ≠ .c ∨ q.isAbsent = false
        · rw [if_pos hc] at hd; cases hd
        · rw [if_neg hc] at hd
          simp only [Option.bind_eq_some_iff] at hd
          obtain ⟨s', ⟨x, hx, _⟩, hd'⟩ := hd
          simp only [not_or, ne_eq, not_not, Bool.not_eq_false] at hc
          obtain ⟨c1, c2⟩ := hc
          have hdn : d.isAbsent = false → ∃ x, denote env d .a = some x := by
            intro ha
            rw [ha] at hd'
            simp only [Bool.false_eq_true, if_false, Option.bind_eq_some_iff] at hd'
            obtain ⟨x, hx, _⟩ := hd'
            exact num_some hx
          have hpn := (by first | exact num_some hx | exact chars_some hx : ∃ x, denote env p _ = some x)
          refine ⟨hpn, by simp [c2], hdn, c1, by simp, by simp [c2]⟩
    obtain ⟨⟨x, hx⟩, k2, k3, k4, k5, k6⟩ := key
    obtain ⟨tp, htp⟩ := complete env p _ x h1 hx
    obtain ⟨tq, htq⟩ := opt_some (complete env q) h2 k2
    obtain ⟨td, htd⟩ := opt_some (complete env d) h3 k3
    refine ⟨.fn f tp tq td, ?_⟩
    simp only [resolve, htp, htq, htd]
    rw [if_neg (by simpa using k4), if_neg k5, if_neg k6]
  | .arith o l r => by
    intro k v hh hd
    simp only [handled] at hh
    simp only [denote] at hd
    by_cases hk : k = .a
    · rw [if_neg (by simpa using hk)] at hd
      simp only [Option.bind_eq_some_iff] at hd
      obtain ⟨x, hx, y, hy, _⟩ := hd
      obtain ⟨x, hx⟩ := num_some hx
      obtain ⟨y, hy⟩ := num_some hy
      obtain ⟨tl, htl⟩ := complete env l _ x hh.1 hx
      obtain ⟨tr, htr⟩ := complete env r _ y hh.2 hy
      exact ⟨.arith o tl tr, by simp [resolve, hk, htl, htr]⟩
    · simp [hk] at hd
  | .conc l r => by
    intro k v hh hd
    simp only [handled] at hh
    simp only [denote] at hd
    by_cases hk : k = .c
    · rw [if_neg (by simpa using hk)] at hd
      simp only [Option.bind_eq_some_iff] at hd
      obtain ⟨x, hx, y, hy, _⟩ := hd
      obtain ⟨x, hx⟩ := chars_some hx
      obtain ⟨y, hy⟩ := chars_some hy
      obtain ⟨tl, htl⟩ := complete env l _ x hh.1 hx
      obtain ⟨tr, htr⟩ := complete env r _ y hh.2 hy
      exact ⟨.conc tl tr, by simp [resolve, hk, htl, htr]⟩
    · simp [hk] at hd
  | .plus e => by
    intro k v hh hd
    simp only [handled] at hh
    simp only [denote] at hd
    by_cases hk : k = .a
    · rw [if_neg (by simpa using hk)] at hd
      obtain ⟨t, ht⟩ := complete env e _ v hh hd
      exact ⟨.plus t, by simp [resolve, hk, ht]⟩
    · simp [hk] at hd
  | .minus e => by
    intro k v hh hd
    simp only [handled] at hh
    simp only [denote] at hd
    by_cases hk : k = .a
    · rw [if_neg (by simpa using hk)] at hd
      simp only [Option.bind_eq_some_iff] at hd
      obtain ⟨x, hx, _⟩ := hd
      obtain ⟨x, hx⟩ := num_some hx
      obtain ⟨t, ht⟩ := complete env e _ x hh hx
      exact ⟨.minus t, by simp [resolve, hk, ht]⟩
    · simp [hk] at hd
  | .opfn o a => by intro k v _ h; simp [denote] at h
  | .list es => complete_list env es (complete_elems env es)
theorem complete_elems (env : Env) : ∀ (es : List Src), ∀ e ∈ es, Complete env e
  | [], _, h => by simp at h
  | e :: es, x, h => by
    rcases List.mem_cons.1 h with h | h
    · rw [h]; exact complete env e
    · exact complete_elems env es x h
end

end Verif.CaEval
