import Verif.Gram.Spec
import Verif.Gram.Cancel
/-! Expressions are read as they are written and grouped as in arithmetic. -/
namespace Verif.Gram

open Lexing (Pos Rng Ty)

theorem Id.spelled (i : Id) : Spelled i.name i.yield := by
  have h := Spelled.mk ⟨.ordsymbol, i.text, i.rng⟩ (i.rest.map IdCh.tok) rfl (by
    intro w hw
    obtain ⟨c, -, rfl⟩ := List.mem_map.mp hw
    cases c with | mk k _ _ => cases k <;> simp [IdCh.tok, Word.ty])
  rw [List.flatMap_map] at h
  exact h

theorem Spelled.id {n : Bytes} {ts : List Tok} (h : Spelled n ts) : ∃ i : Id, i.yield = ts ∧ i.name = n := by
  cases h with
  | mk t ws ht hw =>
    have : ∃ cs : List IdCh, cs.map IdCh.tok = ws := by
      clear ht
      induction ws with
      | nil => exact ⟨[], rfl⟩
      | cons w ws ih =>
        obtain ⟨cs, hc⟩ := ih fun x hx => hw x (List.mem_cons_of_mem _ hx)
        obtain ⟨ty, te, rn⟩ := w
        rcases hw _ (List.mem_cons_self ..) with h | h | h <;> (simp only at h; subst h)
        · exact ⟨⟨.ordsymbol, te, rn⟩ :: cs, by rw [List.map_cons, hc]; rfl⟩
        · exact ⟨⟨.identifier, te, rn⟩ :: cs, by rw [List.map_cons, hc]; rfl⟩
        · exact ⟨⟨.num, te, rn⟩ :: cs, by rw [List.map_cons, hc]; rfl⟩
    obtain ⟨cs, rfl⟩ := this
    obtain ⟨ty, te, rn⟩ := t
    simp only at ht; subst ht
    exact ⟨⟨te, rn, cs⟩, rfl, by rw [Id.name, List.flatMap_map]; rfl⟩

theorem QId.spelled (i : QId) : SymbolSpelled i.name i.yield := by
  cases i with
  | plain i => exact .plain i.spelled
  | qualified q d n => exact .qualified d q.spelled n.spelled

theorem SymbolSpelled.id {n : Bytes} {ts : List Tok} (h : SymbolSpelled n ts) : ∃ i : QId, i.yield = ts ∧ i.name = n := by
  cases h with
  | plain h => obtain ⟨i, h1, h2⟩ := h.id; exact ⟨.plain i, h1, h2⟩
  | qualified r hq hn =>
    obtain ⟨i, h1, h2⟩ := hq.id
    obtain ⟨j, h3, h4⟩ := hn.id
    exact ⟨.qualified i r j, by rw [QId.yield, h1, h3], h4⟩

theorem Quote.isq (q : Quote) : q.tok.isQuote := by
  cases q with | mk a r => cases a <;> exact ⟨by simp [Quote.tok, sym], rfl⟩

theorem Tok.isQuote.quote {t : Tok} (h : t.isQuote) : ∃ q : Quote, q.tok = t := by
  obtain ⟨ty, te, rn⟩ := t
  obtain ⟨h1, h2⟩ := h
  simp only at h1 h2
  subst h2
  rcases h1 with rfl | rfl
  · exact ⟨⟨false, rn⟩, rfl⟩
  · exact ⟨⟨true, rn⟩, rfl⟩

theorem isStrCh_iff (ty : Ty) : isStrCh ty = true ↔ ty ∈ [Ty.asterisk, .minus, .plus, .lt, .gt, .slash, .equals, .vertical, .identifier,
    .num, .ordsymbol, .dot, .comma, .lpar, .rpar, .space] := by cases ty <;> decide

theorem inside_of : ∀ cs : List StrCh, Inside (cs.flatMap (·.value)) (cs.flatMap (·.yield))
  | [] => .nil
  | .one ty h t r :: cs => .one ⟨ty, t, r⟩ ((isStrCh_iff ty).mp h) (inside_of cs)
  | .amp a b :: cs => .amp a b (inside_of cs)
  | .apo a b :: cs => .quote a.tok b.tok a.isq b.isq (inside_of cs)

theorem Inside.chs {v : Bytes} {ts : List Tok} (h : Inside v ts) : ∃ cs : List StrCh, cs.flatMap (·.yield) = ts ∧ cs.flatMap (·.value) = v := by
  induction h with
  | nil => exact ⟨[], rfl, rfl⟩
  | one t h _ ih =>
    obtain ⟨cs, h1, h2⟩ := ih
    exact ⟨.one t.ty ((isStrCh_iff t.ty).mpr h) t.text t.rng :: cs, by rw [List.flatMap_cons, h1]; rfl, by rw [List.flatMap_cons, h2]; rfl⟩
  | amp a b _ ih =>
    obtain ⟨cs, h1, h2⟩ := ih
    exact ⟨.amp a b :: cs, by rw [List.flatMap_cons, h1]; rfl, by rw [List.flatMap_cons, h2]; rfl⟩
  | quote a b ha hb _ ih =>
    obtain ⟨cs, h1, h2⟩ := ih
    obtain ⟨x, rfl⟩ := ha.quote
    obtain ⟨y, rfl⟩ := hb.quote
    exact ⟨.apo x y :: cs, by rw [List.flatMap_cons, h1]; rfl, by rw [List.flatMap_cons, h2]; rfl⟩

theorem attr_letters (t : Bytes) : isDataAttr t = true ↔ t ∈ attrLetters := by
  have e : attrLetters = [[68], [100], [79], [111], [78], [110], [83], [115], [75], [107], [73], [105], [76], [108], [84], [116]] := by
    decide +kernel
  rw [e]
  cases t with
  | nil => simp [isDataAttr]
  | cons c t =>
    cases t with
    | cons d t => simp [isDataAttr]
    | nil =>
      revert c
      exact Verif.forall_byte _ (by decide +kernel)

/-! ### from readings to meanings -/

/-- A reading is what is meant, and binds this tightly. -/
def Fits (ts : List Tok) (t : Tree) (n : Nat) : Prop := Written t ts ∧ t.Grouped ∧ n ≤ t.level

mutual
theorem Expr.fits : ∀ c : Expr, Free c.yield → Fits c.yield c.ast 0
  | .mk h t, f => by
    rw [Expr.yield, Free.append] at f
    have h1 := Product.fits h f.1
    have := ETail.fits t h.yield h.ast f.2 ⟨h1.1, h1.2.1, Nat.zero_le _⟩
    rw [Expr.yield, Expr.ast]; exact this
theorem ETail.fits : ∀ (c : ETail) (ts : List Tok) (e : Tree), Free c.yield → Fits ts e 0 → Fits (ts ++ c.yield) (c.ast ts e) 0
  | .nil, ts, e, _, he => by rw [ETail.yield, ETail.ast, List.append_nil]; exact he
  | .cons op r s rest, ts, e, f, he => by
    rw [ETail.yield, Free.cons, Free.append] at f
    have hs := Product.fits s f.2.1
    have step : Fits (ts ++ op.tok r :: s.yield) (.bin op.bin e s.ast (span (ts ++ op.tok r :: s.yield))) 0 := by
      cases op with
      | add => exact ⟨.bin .add r he.1 hs.1, ⟨he.2.1, hs.2⟩, Nat.zero_le _⟩
      | sub => exact ⟨.bin .sub r he.1 hs.1, ⟨he.2.1, hs.2⟩, Nat.zero_le _⟩
    have := ETail.fits rest _ _ f.2.2 step
    rw [ETail.yield, ETail.ast]
    rw [List.append_assoc, List.cons_append] at this
    exact this
theorem Product.fits : ∀ c : Product, Free c.yield → Fits c.yield c.ast 1
  | .mk h t, f => by
    rw [Product.yield, Free.append] at f
    have h1 := Signed.fits h f.1
    have := PTail.fits t h.yield h.ast f.2 ⟨h1.1, h1.2.1, Nat.le_trans (by decide) h1.2.2⟩
    rw [Product.yield, Product.ast]; exact this
theorem PTail.fits : ∀ (c : PTail) (ts : List Tok) (e : Tree), Free c.yield → Fits ts e 1 → Fits (ts ++ c.yield) (c.ast ts e) 1
  | .nil, ts, e, _, he => by rw [PTail.yield, PTail.ast, List.append_nil]; exact he
  | .cons op r s rest, ts, e, f, he => by
    rw [PTail.yield, Free.cons, Free.append] at f
    have hs := Signed.fits s f.2.1
    have step : Fits (ts ++ op.tok r :: s.yield) (.bin op.bin e s.ast (span (ts ++ op.tok r :: s.yield))) 1 := by
      cases op with
      | mul => exact ⟨.bin .mul r he.1 hs.1, ⟨he.2.1, hs.2.1, he.2.2, hs.2.2⟩, Nat.le_refl _⟩
      | div => exact ⟨.bin .div r he.1 hs.1, ⟨he.2.1, hs.2.1, he.2.2, hs.2.2⟩, Nat.le_refl _⟩
    have := PTail.fits rest _ _ f.2.2 step
    rw [PTail.yield, PTail.ast]
    rw [List.append_assoc, List.cons_append] at this
    exact this
theorem Signed.fits : ∀ c : Signed, Free c.yield → Fits c.yield c.ast 2
  | .term t, f => by
    have h := Term.fits t f
    exact ⟨h.1, h.2.1, Nat.le_trans (by decide) h.2.2⟩
  | .sign op r c, f => by
    rw [Signed.yield, Free.cons] at f
    have h := Signed.fits c f.2
    rw [Signed.yield, Signed.ast]
    cases op with
    | add => exact ⟨.plus r h.1, h.2, Nat.le_refl _⟩
    | sub => exact ⟨.minus r h.1, h.2, Nat.le_refl _⟩
theorem Term.fits : ∀ c : Term, Free c.yield → Fits c.yield c.ast 3
  | .par l e r, f => by
    rw [Term.yield, Free.cons, Free.append] at f
    have h := Expr.fits e f.2.1
    rw [Term.yield, Term.ast]
    exact ⟨.par l r h.1, h.2.1, Nat.le_refl _⟩
  | .loc r, f => by
    rw [Term.yield, Term.ast]
    exact ⟨.leaf (.loc r), trivial, Nat.le_refl _⟩
  | .attr t ht r q v, f => by
    rw [Term.yield, Free.cons, Free.cons] at f
    rw [Term.yield, Term.ast]
    refine ⟨.leaf ?_, trivial, Nat.le_refl _⟩
    cases v with
    | literal eq d => have := f.2.2; rw [AttrVal.yield] at this; exact absurd rfl (Free.cons.mp this).1
    | loc s => exact .attrLoc ⟨.ordsymbol, t, r⟩ q s rfl ((attr_letters t).mp ht)
    | id i => exact .attr ⟨.ordsymbol, t, r⟩ q rfl ((attr_letters t).mp ht) i.spelled
  | .id i, f => by
    rw [Term.yield, Term.ast]
    exact ⟨.leaf (.symbol i.spelled), trivial, Nat.le_refl _⟩
  | .num n, f => by
    rw [Term.yield, Term.ast]
    have h : LeafSpelled _ n.yield := .number n.yield (by simp [Num.yield]) (by
      intro t ht
      rw [Num.yield] at ht
      rcases List.mem_cons.mp ht with rfl | ht
      · rfl
      · obtain ⟨c, -, rfl⟩ := List.mem_map.mp ht; rfl)
    have e : n.yield.flatMap (·.text) = n.text ++ n.rest.flatMap (·.1) := by
      rw [Num.yield, List.flatMap_cons, List.flatMap_map]; rfl
    rw [e] at h
    exact ⟨.leaf h, trivial, Nat.le_refl _⟩
  | .selfDef t r s, f => by
    rw [Term.yield, Term.ast]
    exact ⟨.leaf (.selfDef ⟨.ordsymbol, t, r⟩ s.close.tok s.open' rfl s.close.isq (inside_of s.chs)), trivial, Nat.le_refl _⟩
  | .literal eq d, f => by rw [Term.yield] at f; exact absurd rfl (Free.cons.mp f).1
end

/-! ### from meanings to readings -/

/-- One more summand. -/
def ETail.snoc (op : AddOp) (r : Rng) (s : Product) : ETail → ETail
  | .nil => .cons op r s .nil
  | .cons o q p rest => .cons o q p (rest.snoc op r s)

theorem ETail.snoc_yield (op : AddOp) (r : Rng) (s : Product) : ∀ t : ETail, (t.snoc op r s).yield = t.yield ++ op.tok r :: s.yield
  | .nil => by simp [ETail.snoc, ETail.yield]
  | .cons o q p rest => by
    rw [ETail.snoc, ETail.yield, ETail.yield, ETail.snoc_yield op r s rest]
    simp

theorem ETail.snoc_ast (op : AddOp) (r : Rng) (s : Product) : ∀ (t : ETail) (ts : List Tok) (e : Tree),
    (t.snoc op r s).ast ts e = .bin op.bin (t.ast ts e) s.ast (span (ts ++ t.yield ++ op.tok r :: s.yield))
  | .nil, ts, e => by simp [ETail.snoc, ETail.yield, ETail.ast]
  | .cons o q p rest, ts, e => by
    rw [ETail.snoc, ETail.ast, ETail.snoc_ast op r s rest, ETail.ast, ETail.yield]
    simp

/-- One more factor. -/
def PTail.snoc (op : MulOp) (r : Rng) (s : Signed) : PTail → PTail
  | .nil => .cons op r s .nil
  | .cons o q p rest => .cons o q p (rest.snoc op r s)

theorem PTail.snoc_yield (op : MulOp) (r : Rng) (s : Signed) : ∀ t : PTail, (t.snoc op r s).yield = t.yield ++ op.tok r :: s.yield
  | .nil => by simp [PTail.snoc, PTail.yield]
  | .cons o q p rest => by
    rw [PTail.snoc, PTail.yield, PTail.yield, PTail.snoc_yield op r s rest]
    simp

theorem PTail.snoc_ast (op : MulOp) (r : Rng) (s : Signed) : ∀ (t : PTail) (ts : List Tok) (e : Tree),
    (t.snoc op r s).ast ts e = .bin op.bin (t.ast ts e) s.ast (span (ts ++ t.yield ++ op.tok r :: s.yield))
  | .nil, ts, e => by simp [PTail.snoc, PTail.yield, PTail.ast]
  | .cons o q p rest, ts, e => by
    rw [PTail.snoc, PTail.ast, PTail.snoc_ast op r s rest, PTail.ast, PTail.yield]
    simp

/-- It is read as each kind of thing that binds no more tightly. -/
def Found (ts : List Tok) (t : Tree) : Prop :=
  (∃ c : Expr, c.yield = ts ∧ c.ast = t) ∧ (1 ≤ t.level → ∃ c : Product, c.yield = ts ∧ c.ast = t) ∧
    (2 ≤ t.level → ∃ c : Signed, c.yield = ts ∧ c.ast = t)

theorem found_term {ts : List Tok} {t : Tree} (c : Term) (h1 : c.yield = ts) (h2 : c.ast = t) : Found ts t := by
  refine ⟨⟨.mk (.mk (.term c) .nil) .nil, ?_, ?_⟩, fun _ => ⟨.mk (.term c) .nil, ?_, ?_⟩, fun _ => ⟨.term c, h1, h2⟩⟩ <;>
    simp [Expr.yield, Product.yield, Signed.yield, ETail.yield, PTail.yield, Expr.ast, Product.ast, Signed.ast, ETail.ast, PTail.ast, h1, h2]

theorem found_signed {ts : List Tok} {t : Tree} (c : Signed) (h1 : c.yield = ts) (h2 : c.ast = t) : Found ts t := by
  refine ⟨⟨.mk (.mk c .nil) .nil, ?_, ?_⟩, fun _ => ⟨.mk c .nil, ?_, ?_⟩, fun _ => ⟨c, h1, h2⟩⟩ <;>
    simp [Expr.yield, Product.yield, ETail.yield, PTail.yield, Expr.ast, Product.ast, ETail.ast, PTail.ast, h1, h2]

theorem found_product {ts : List Tok} {t : Tree} (c : Product) (h1 : c.yield = ts) (h2 : c.ast = t) (hl : t.level < 2) : Found ts t := by
  refine ⟨⟨.mk c .nil, ?_, ?_⟩, fun _ => ⟨c, h1, h2⟩, fun h => absurd hl (Nat.not_lt.mpr h)⟩ <;>
    simp [Expr.yield, ETail.yield, Expr.ast, ETail.ast, h1, h2]

theorem LeafSpelled.term {k : Leaf} {ts : List Tok} (h : LeafSpelled k ts) : ∃ c : Term, c.yield = ts ∧ c.ast = .leaf k (span ts) := by
  cases h with
  | loc r => exact ⟨.loc r, by rw [Term.yield], by rw [Term.ast]⟩
  | symbol h =>
    obtain ⟨i, h1, h2⟩ := h.id
    exact ⟨.id i, by rw [Term.yield, h1], by rw [Term.ast, h1, h2]⟩
  | number ts ne h =>
    have : ∃ n : Num, n.yield = ts ∧ n.text ++ n.rest.flatMap (·.1) = ts.flatMap (·.text) := by
      cases ts with
      | nil => exact absurd rfl ne
      | cons t ts =>
        have : ∃ l : List (Bytes × Rng), l.map numTok = ts := by
          clear ne
          induction ts with
          | nil => exact ⟨[], rfl⟩
          | cons x xs ih =>
            obtain ⟨l, hl⟩ := ih fun y hy => h y (by
              rcases List.mem_cons.mp hy with rfl | hy
              · exact List.mem_cons_self ..
              · exact List.mem_cons_of_mem _ (List.mem_cons_of_mem _ hy))
            obtain ⟨ty, te, rn⟩ := x
            have := h _ (List.mem_cons_of_mem _ (List.mem_cons_self ..))
            simp only at this; subst this
            exact ⟨(te, rn) :: l, by rw [List.map_cons, hl]; rfl⟩
        obtain ⟨l, rfl⟩ := this
        obtain ⟨ty, te, rn⟩ := t
        have := h _ (List.mem_cons_self ..)
        simp only at this; subst this
        exact ⟨⟨te, rn, l⟩, rfl, by rw [List.flatMap_cons, List.flatMap_map]; rfl⟩
    obtain ⟨n, h1, h2⟩ := this
    exact ⟨.num n, by rw [Term.yield, h1], by rw [Term.ast, h2, h1]⟩
  | selfDef t close r ht hc hi =>
    obtain ⟨cs, h1, h2⟩ := hi.chs
    obtain ⟨q, rfl⟩ := hc.quote
    obtain ⟨ty, te, rn⟩ := t
    simp only at ht; subst ht h1 h2
    exact ⟨.selfDef te rn ⟨r, cs, q⟩, by rw [Term.yield]; rfl, by rw [Term.ast]; rfl⟩
  | attr t r ht hl h =>
    obtain ⟨i, h1, h2⟩ := h.id
    obtain ⟨ty, te, rn⟩ := t
    simp only at ht; subst ht h1 h2
    exact ⟨.attr te ((attr_letters te).mpr hl) rn r (.id i), by rw [Term.yield, AttrVal.yield], by rw [Term.ast, AttrVal.leaf, AttrVal.yield]⟩
  | attrLoc t r s ht hl =>
    obtain ⟨ty, te, rn⟩ := t
    simp only at ht; subst ht
    exact ⟨.attr te ((attr_letters te).mpr hl) rn r (.loc s), by rw [Term.yield, AttrVal.yield], by rw [Term.ast, AttrVal.yield]; rfl⟩

theorem Written.found {t : Tree} {ts : List Tok} (h : Written t ts) : t.Grouped → Found ts t := by
  induction h with
  | leaf h => intro _; obtain ⟨c, h1, h2⟩ := h.term; exact found_term c h1 h2
  | plus r _ ih =>
    intro g
    obtain ⟨c, h1, h2⟩ := (ih g.1).2.2 g.2
    exact found_signed (.sign .add r c) (by rw [Signed.yield, h1]; rfl) (by rw [Signed.ast, h1, h2]; rfl)
  | minus r _ ih =>
    intro g
    obtain ⟨c, h1, h2⟩ := (ih g.1).2.2 g.2
    exact found_signed (.sign .sub r c) (by rw [Signed.yield, h1]; rfl) (by rw [Signed.ast, h1, h2]; rfl)
  | par l r _ ih =>
    intro g
    obtain ⟨c, h1, h2⟩ := (ih g).1
    exact found_term (.par l c r) (by rw [Term.yield, h1]) (by rw [Term.ast, h1, h2])
  | @bin a b ts us op r _ _ iha ihb =>
    intro g
    have sum : ∀ o : AddOp, a.Grouped → b.Grouped → 1 ≤ b.level →
        ∃ c : Expr, c.yield = ts ++ o.tok r :: us ∧ c.ast = .bin o.bin a b (span (ts ++ o.tok r :: us)) := by
      intro o ga gb lb
      obtain ⟨⟨h, t⟩, h1, h2⟩ := (iha ga).1
      obtain ⟨s, h3, h4⟩ := (ihb gb).2.1 lb
      rw [Expr.yield] at h1
      rw [Expr.ast] at h2
      refine ⟨.mk h (t.snoc o r s), ?_, ?_⟩
      · rw [Expr.yield, ETail.snoc_yield, ← List.append_assoc, h1, h3]
      · rw [Expr.ast, ETail.snoc_ast, h2, h1, h3, h4]
    have prod : ∀ o : MulOp, a.Grouped → b.Grouped → 1 ≤ a.level → 2 ≤ b.level →
        ∃ c : Product, c.yield = ts ++ o.tok r :: us ∧ c.ast = .bin o.bin a b (span (ts ++ o.tok r :: us)) := by
      intro o ga gb la lb
      obtain ⟨⟨h, t⟩, h1, h2⟩ := (iha ga).2.1 la
      obtain ⟨s, h3, h4⟩ := (ihb gb).2.2 lb
      rw [Product.yield] at h1
      rw [Product.ast] at h2
      refine ⟨.mk h (t.snoc o r s), ?_, ?_⟩
      · rw [Product.yield, PTail.snoc_yield, ← List.append_assoc, h1, h3]
      · rw [Product.ast, PTail.snoc_ast, h2, h1, h3, h4]
    cases op with
    | add => exact ⟨sum .add g.1 g.2.1 g.2.2, fun h => by simp [Tree.level] at h, fun h => by simp [Tree.level] at h⟩
    | sub => exact ⟨sum .sub g.1 g.2.1 g.2.2, fun h => by simp [Tree.level] at h, fun h => by simp [Tree.level] at h⟩
    | mul => obtain ⟨c, h1, h2⟩ := prod .mul g.1 g.2.1 g.2.2.1 g.2.2.2; exact found_product c h1 h2 (by simp [Tree.level])
    | div => obtain ⟨c, h1, h2⟩ := prod .div g.1 g.2.1 g.2.2.1 g.2.2.2; exact found_product c h1 h2 (by simp [Tree.level])

theorem reads_iff (ts : List Tok) (t : Tree) (h : NoLiteral ts) : Reads ts t ↔ Meant ts t := by
  constructor
  · rintro ⟨c, rfl, rfl⟩
    have := c.fits h
    exact ⟨this.1, this.2.1⟩
  · rintro ⟨h1, h2⟩
    exact (h1.found h2).1

theorem expr_unique (a b : Expr) (h : NoLiteral a.yield) (e : a.yield = b.yield) : a = b :=
  (Expr.cancel a b [] [] h (e ▸ h) NotHead.nil NotHead.nil (by rw [e])).1

end Verif.Gram
