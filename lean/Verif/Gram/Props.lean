import Verif.Gram.Cut
import Mathlib.Data.List.Forall2
/-!
C110: operands are read as they are written.
-/
namespace Verif.Gram

open Lexing (Pos Rng Ty)

theorem operand_fits (o : MachOp) (h : NoLiteral o.yield) : OperandMeant o.yield o.operand := by
  have m : ∀ e : Expr, Free e.yield → Meant e.yield e.ast := fun e f => ⟨(e.fits f).1, (e.fits f).2.1⟩
  have f : Free o.yield := h
  cases o with
  | expr e => exact .expr (m e f)
  | base d l b r =>
    rw [MachOp.yield, Free.mid, Free.append] at f
    exact .base l r (m d f.1) (m b f.2.2.1)
  | both d l x c b r =>
    rw [MachOp.yield, Free.mid, Free.mid, Free.append] at f
    exact .both l c r (m d f.1) (m x f.2.2.1) (m b f.2.2.2.2.1)
  | noIndex d l c b r =>
    rw [MachOp.yield, Free.mid, Free.cons, Free.append] at f
    exact .noIndex l c r (m d f.1) (m b f.2.2.2.1)
  | noBase d l x c r =>
    rw [MachOp.yield, Free.mid, Free.append] at f
    exact .noBase l c r (m d f.1) (m x f.2.2.1)

theorem operand_found {ts : List Tok} {o : Operand} (h : OperandMeant ts o) : ∃ c : MachOp, c.yield = ts ∧ c.operand = o := by
  have m : ∀ {us : List Tok} {t : Tree}, Meant us t → ∃ c : Expr, c.yield = us ∧ c.ast = t := fun h => (h.1.found h.2).1
  cases h with
  | expr h => obtain ⟨c, rfl, rfl⟩ := m h; exact ⟨.expr c, rfl, rfl⟩
  | base l r hd hb =>
    obtain ⟨d, rfl, rfl⟩ := m hd; obtain ⟨b, rfl, rfl⟩ := m hb
    exact ⟨.base d l b r, rfl, rfl⟩
  | both l c r hd hx hb =>
    obtain ⟨d, rfl, rfl⟩ := m hd; obtain ⟨x, rfl, rfl⟩ := m hx; obtain ⟨b, rfl, rfl⟩ := m hb
    exact ⟨.both d l x c b r, rfl, rfl⟩
  | noIndex l c r hd hb =>
    obtain ⟨d, rfl, rfl⟩ := m hd; obtain ⟨b, rfl, rfl⟩ := m hb
    exact ⟨.noIndex d l c b r, rfl, rfl⟩
  | noBase l c r hd hx =>
    obtain ⟨d, rfl, rfl⟩ := m hd; obtain ⟨x, rfl, rfl⟩ := m hx
    exact ⟨.noBase d l x c r, rfl, rfl⟩

/-- C110: an expression without literals is read as precisely the one that is written, grouped as in arithmetic, each part with its
place in the text; there is no other reading of the text. -/
theorem C110_expression_partial (ts : List Tok) (t : Tree) (h : NoLiteral ts) :
    (Reads ts t ↔ Written t ts ∧ t.Grouped) ∧ ∀ u, Reads ts t → Reads ts u → t = u := by
  refine ⟨reads_iff ts t h, ?_⟩
  rintro u ⟨a, rfl, rfl⟩ ⟨b, hb, rfl⟩
  rw [expr_unique a b h hb.symm]

/-- C110: the same of operands of machine instructions: displacement, index and base are told apart by the commas and parentheses. -/
theorem C110_operand_partial (ts : List Tok) (o : Operand) (h : NoLiteral ts) :
    (OperandReads ts o ↔ OperandMeant ts o) ∧ ∀ p, OperandReads ts o → OperandReads ts p → o = p := by
  refine ⟨⟨?_, operand_found⟩, ?_⟩
  · rintro ⟨c, rfl, rfl⟩
    exact operand_fits c h
  · rintro p ⟨a, rfl, rfl⟩ ⟨b, hb, rfl⟩
    rw [(MachOp.cancel a b [] [] h (by rw [hb]; exact h) NotHead.nil NotHead.nil (by rw [hb])).1]

/-- The text between commas is what the operand says. -/
def Piece (ts : List Tok) (o : Operand) : Prop := (ts = [] ∧ ∃ r, o = .empty r) ∨ (ts ≠ [] ∧ OperandMeant ts o)

theorem MachOp.ne (o : MachOp) : o.yield ≠ [] := by
  intro h
  obtain ⟨t, ts, h1, -⟩ := o.first []
  rw [h] at h1; cases h1

theorem piece (o : Option MachOp) (after : List Tok) (h : Free (optYield MachOp.yield o)) : Piece (optYield MachOp.yield o) (operandOr o after) := by
  cases o with
  | none => exact .inl ⟨rfl, _, rfl⟩
  | some o => exact .inr ⟨o.ne, operand_fits o h⟩

theorem pieces : ∀ (l : List (Rng × Option MachOp)) (after : List Tok), Free (restYield MachOp.yield l) →
    List.Forall₂ Piece (l.map fun p => optYield MachOp.yield p.2) (restOperands l after)
  | [], _, _ => .nil
  | (r, o) :: l, after, f => by
    rw [restYield_cons, Free.cons, Free.append] at f
    exact .cons (piece o _ f.2.1) (pieces l after f.2.2)

/-- C110: the operands of a machine instruction are the pieces between the commas that stand outside of parentheses and strings, in
their order, an empty piece being an empty operand. -/
theorem C110_operands_partial (l : OpList MachOp) (after : List Tok) (h : NoLiteral (l.yield MachOp.yield)) :
    List.Forall₂ Piece (cut (.out 0) (l.yield MachOp.yield)) (l.operands after) := by
  rw [cut_list (fun a f => MachOp.passes a f) l h]
  have h : Free _ := h
  rw [OpList.yield, Free.append] at h
  exact .cons (piece l.first _ h.1) (pieces l.rest after h.2)

theorem rest_empty : ∀ (l : List (Rng × Option MachOp)) (after : List Tok) (i : Nat) (r : Rng), (restOperands l after)[i]? = some (.empty r) →
    ∃ a c b, l = a ++ (c, none) :: b ∧ a.length = i ∧ operandOr none (restYield MachOp.yield b ++ after) = .empty r
  | [], _, _, _, h => by simp [restOperands] at h
  | (c, o) :: l, after, 0, r, h => by
    simp only [restOperands, List.getElem?_cons_zero, Option.some.injEq] at h
    cases o with
    | none => exact ⟨[], c, l, rfl, rfl, h⟩
    | some o => cases o <;> simp [operandOr, MachOp.operand] at h
  | (c, o) :: l, after, i + 1, r, h => by
    simp only [restOperands, List.getElem?_cons_succ] at h
    obtain ⟨a, d, b, h1, h2, h3⟩ := rest_empty l after i r h
    exact ⟨(c, o) :: a, d, b, by rw [h1]; rfl, by rw [List.length_cons, h2], h3⟩

theorem restYield_append (a b : List (Rng × Option MachOp)) : restYield MachOp.yield (a ++ b) = restYield MachOp.yield a ++ restYield MachOp.yield b :=
  List.flatMap_append

/-- C110: an operand that is left out stands before the token that follows: the comma, or what comes after the operands. It is the one
with as many commas before it as there are operands before it. -/
theorem C110_empty_partial (l : OpList MachOp) (after : List Tok) (hf : NoLiteral (l.yield MachOp.yield)) (ha : after ≠ []) (i : Nat) (r : Rng)
    (h : (l.operands after)[i]? = some (.empty r)) :
    ∃ before t follow, l.yield MachOp.yield ++ after = before ++ t :: follow ∧
      cut (.out 0) before = (cut (.out 0) (l.yield MachOp.yield)).take i ++ [[]] ∧ (t.ty = .comma ∨ t :: follow = after) ∧
      r = ⟨t.rng.start, t.rng.start⟩ := by
  have hs : ∀ (b : List (Rng × Option MachOp)), operandOr none (restYield MachOp.yield b ++ after) = .empty r →
      ∃ t follow, restYield MachOp.yield b ++ after = t :: follow ∧ (t.ty = .comma ∨ t :: follow = after) ∧ r = ⟨t.rng.start, t.rng.start⟩ := by
    intro b hb
    simp only [operandOr, Operand.empty.injEq] at hb
    cases b with
    | nil =>
      cases after with
      | nil => exact absurd rfl ha
      | cons t f => exact ⟨t, f, rfl, .inr rfl, hb.symm⟩
    | cons p b =>
      rw [restYield_cons] at hb ⊢
      exact ⟨_, _, rfl, .inl rfl, hb.symm⟩
  have hcut := cut_list (fun a f => MachOp.passes a f) l hf
  have e : l.yield MachOp.yield = optYield MachOp.yield l.first ++ restYield MachOp.yield l.rest := rfl
  have hfr : Free (optYield MachOp.yield l.first ++ restYield MachOp.yield l.rest) := hf
  cases i with
  | zero =>
    simp only [OpList.operands, List.getElem?_cons_zero, Option.some.injEq] at h
    cases ho : l.first with
    | none =>
      rw [ho] at h
      obtain ⟨t, f, h1, h2, h3⟩ := hs l.rest h
      exact ⟨[], t, f, by rw [e, ho]; exact h1, rfl, h2, h3⟩
    | some o => rw [ho] at h; cases o <;> simp [operandOr, MachOp.operand] at h
  | succ i =>
    simp only [OpList.operands, List.getElem?_cons_succ] at h
    obtain ⟨a, c, b, h1, h2, h3⟩ := rest_empty l.rest after i r h
    obtain ⟨t, f, h4, h5, h6⟩ := hs b h3
    have hy : restYield MachOp.yield l.rest = restYield MachOp.yield (a ++ [(c, none)]) ++ restYield MachOp.yield b := by
      rw [← restYield_append, h1, List.append_assoc]; rfl
    refine ⟨OpList.yield MachOp.yield ⟨l.first, a ++ [(c, none)]⟩, t, f, ?_, ?_, h5, h6⟩
    · rw [e, hy, ← h4]
      show _ = (optYield MachOp.yield l.first ++ restYield MachOp.yield (a ++ [(c, none)])) ++ _
      simp only [List.append_assoc]
    · rw [hcut, cut_list (fun a f => MachOp.passes a f) ⟨l.first, a ++ [(c, none)]⟩ (by
        rw [hy, ← List.append_assoc, Free.append] at hfr
        exact hfr.1), h1]
      simp only [List.map_append, List.map_cons, List.map_nil, List.take_succ_cons]
      rw [List.take_append_of_le_length (by simp [h2]), List.take_of_length_le (by simp [h2])]
      rfl

/-- The text from its pieces. -/
theorem cut_join : ∀ (ts : List Tok) (w : Where), ∃ (x : List Tok) (xs : List (Tok × List Tok)), cut w ts = x :: xs.map (·.2) ∧
    ts = x ++ (xs.flatMap fun p => p.1 :: p.2) ∧ ∀ p ∈ xs, p.1.ty = .comma
  | [], w => ⟨[], [], rfl, rfl, fun _ h => by cases h⟩
  | t :: ts, w => by
    rw [cut]
    by_cases hc : w.top ∧ t.ty = .comma
    · obtain ⟨x, xs, h1, h2, h3⟩ := cut_join ts (.out 0)
      rw [if_pos hc, h1]
      refine ⟨[], (t, x) :: xs, rfl, by rw [h2]; rfl, ?_⟩
      intro p hp
      rcases List.mem_cons.mp hp with rfl | hp
      · exact hc.2
      · exact h3 p hp
    · obtain ⟨x, xs, h1, h2, h3⟩ := cut_join ts (w.step t.ty)
      rw [if_neg hc, h1]
      exact ⟨t :: x, xs, rfl, by rw [h2]; rfl, h3⟩

/-- C110: and any text all of whose pieces are empty or operands is a list of operands. Commas of the text are the character. -/
theorem C110_complete (ts : List Tok) (hc : ∀ t ∈ ts, t.ty = .comma → t.text = [44])
    (h : ∀ p ∈ cut (.out 0) ts, p = [] ∨ ∃ o, OperandMeant p o) : ∃ l : OpList MachOp, l.yield MachOp.yield = ts := by
  obtain ⟨x, xs, h1, h2, h3⟩ := cut_join ts (.out 0)
  rw [h1] at h
  have one : ∀ p : List Tok, (p = [] ∨ ∃ o, OperandMeant p o) → ∃ o : Option MachOp, optYield MachOp.yield o = p := by
    rintro p (rfl | ⟨o, ho⟩)
    · exact ⟨none, rfl⟩
    · obtain ⟨c, hc, -⟩ := operand_found ho
      exact ⟨some c, hc⟩
  obtain ⟨f, hf⟩ := one x (h x (List.mem_cons_self ..))
  have rest : ∀ (ys : List (Tok × List Tok)), (∀ p ∈ ys, p.1.ty = .comma ∧ p.1.text = [44]) →
      (∀ p ∈ ys, p.2 = [] ∨ ∃ o, OperandMeant p.2 o) →
      ∃ l : List (Rng × Option MachOp), restYield MachOp.yield l = ys.flatMap fun p => p.1 :: p.2 := by
    intro ys
    induction ys with
    | nil => intro _ _; exact ⟨[], rfl⟩
    | cons y ys ih =>
      intro ha hb
      obtain ⟨l, hl⟩ := ih (fun p hp => ha p (List.mem_cons_of_mem _ hp)) (fun p hp => hb p (List.mem_cons_of_mem _ hp))
      obtain ⟨o, ho⟩ := one y.2 (hb y (List.mem_cons_self ..))
      refine ⟨(y.1.rng, o) :: l, ?_⟩
      rw [restYield_cons, List.flatMap_cons, hl, ho]
      have : sym .comma ',' y.1.rng = y.1 := by
        obtain ⟨⟨ty, te, rn⟩, z⟩ := y
        obtain ⟨e1, e2⟩ := ha _ (List.mem_cons_self ..)
        simp only at e1 e2
        subst e1 e2; rfl
      rw [this]; rfl
  obtain ⟨l, hl⟩ := rest xs (fun p hp => ⟨h3 p hp, hc p.1 (by
      rw [h2]
      exact List.mem_append_right _ (List.mem_flatMap.mpr ⟨p, hp, List.mem_cons_self ..⟩)) (h3 p hp)⟩)
    (fun p hp => h p.2 (List.mem_cons_of_mem _ (List.mem_map.mpr ⟨p, hp, rfl⟩)))
  refine ⟨⟨f, l⟩, ?_⟩
  have e : OpList.yield MachOp.yield ⟨f, l⟩ = optYield MachOp.yield f ++ restYield MachOp.yield l := rfl
  rw [e, hf, hl, ← h2]

/-- C110: operands of assembler instructions, too, are the pieces between the commas outside of parentheses and strings. -/
theorem C110_assembler_partial (l : OpList AsmOp) (h : NoLiteral (l.yield AsmOp.yield)) :
    cut (.out 0) (l.yield AsmOp.yield) = optYield AsmOp.yield l.first :: l.rest.map fun p => optYield AsmOp.yield p.2 :=
  cut_list (fun a f => AsmOp.passes a f) l h

theorem remark_inj (a b : Remark) (h : a.yield = b.yield) : a = b := by
  obtain ⟨m, t, r⟩ := a
  obtain ⟨m', t', r'⟩ := b
  have h1 := List.append_inj_right' h rfl
  have h2 := List.append_inj_left' h rfl
  injection h1 with h1 _
  injection h1 with _ h3 h4
  subst h3 h4
  cases m with
  | none =>
    cases m' with
    | none => rfl
    | some m' => cases h2
  | some m =>
    cases m' with
    | none => cases h2
    | some m' =>
      obtain ⟨x, y, z⟩ := m
      obtain ⟨x', y', z'⟩ := m'
      simp only [List.cons.injEq, Tok.mk.injEq, true_and] at h2
      rw [h2.1.1, h2.1.2, h2.2]

/-- C110: a field of operands of a machine instruction, an assembler instruction or a data definition and the remark behind it have
one reading without literals. -/
theorem C110_unique_partial :
    (∀ (a b : OpList MachOp) (r s : Remark), NoLiteral (a.yield MachOp.yield) → NoLiteral (b.yield MachOp.yield) →
      a.yield MachOp.yield ++ r.yield = b.yield MachOp.yield ++ s.yield → a = b ∧ r = s) ∧
    (∀ (a b : OpList AsmOp) (r s : Remark), NoLiteral (a.yield AsmOp.yield) → NoLiteral (b.yield AsmOp.yield) →
      a.yield AsmOp.yield ++ r.yield = b.yield AsmOp.yield ++ s.yield → a = b ∧ r = s) ∧
    ∀ (a b : OpList DataDef) (r s : Remark), NoLiteral (a.yield DataDef.yield) → NoLiteral (b.yield DataDef.yield) →
      a.yield DataDef.yield ++ r.yield = b.yield DataDef.yield ++ s.yield → a = b ∧ r = s := by
  refine ⟨fun a b r s h1 h2 h => ?_, fun a b r s h1 h2 h => ?_, fun a b r s h1 h2 h => ?_⟩
  · obtain ⟨e1, e2⟩ := OpList.cancel machOp_separable a b _ _ h1 h2 r.closed s.closed h
    exact ⟨e1, remark_inj _ _ e2⟩
  · obtain ⟨e1, e2⟩ := OpList.cancel asmOp_separable a b _ _ h1 h2 r.closed s.closed h
    exact ⟨e1, remark_inj _ _ e2⟩
  · obtain ⟨e1, e2⟩ := OpList.cancel dataDef_separable a b _ _ h1 h2 r.closed s.closed h
    exact ⟨e1, remark_inj _ _ e2⟩

/-! ### where it fails -/

/-- A range for examples. -/
def at' (n : Nat) : Rng := ⟨⟨0, n⟩, ⟨0, n + 1⟩⟩

/-- A symbol of one letter. -/
def letter (c : Char) (n : Nat) : Id := ⟨[UInt8.ofNat c.toNat], at' n, []⟩

/-- A number of one digit. -/
def digit (c : Char) (n : Nat) : Num := ⟨[UInt8.ofNat c.toNat], at' n, []⟩

/-- An expression that is a symbol. -/
def symbolE (c : Char) (n : Nat) : Expr := (Term.id (.plain (letter c n))).expr

/-- An expression that is a number. -/
def numE (c : Char) (n : Nat) : Expr := (Term.num (digit c n)).expr

/-- C110 fails with literals: `=A(X)(3)` is a literal with a base register, and it is a literal whose type is followed by a modifier
and a value. -/
theorem C110_witness_literal : ∃ a b : MachOp, a.yield = b.yield ∧ a.operand ≠ b.operand := by
  refine ⟨.base (Term.literal (at' 0) (.mk .none ⟨.word .ordsymbol [65] (at' 1), []⟩ .zero
      (.nom (.exprs (at' 2) (.expr (symbolE 'X' 3)) .nil (at' 4))))).expr (at' 5) (numE '3' 6) (at' 7),
    .expr (Term.literal (at' 0) (.mk .none ⟨.word .ordsymbol [65] (at' 1), []⟩ .zero
      (.exprNom (.mk (at' 2) (symbolE 'X' 3) (at' 4)) (.exprs (at' 5) (.expr (numE '3' 6)) .nil (at' 7))))).expr, ?_, ?_⟩
  · decide +kernel
  · intro h; cases h

/-- C110 fails with literals: in `=A-X` the minus is part of the type of the literal, or subtracts the symbol from it. -/
theorem C110_witness_minus : ∃ a b : Expr, a.yield = b.yield ∧ a.ast ≠ b.ast := by
  refine ⟨(Term.literal (at' 0) (.mk .none ⟨.word .ordsymbol [65] (at' 1), [.minus (at' 2), .word .ordsymbol [88] (at' 3)]⟩ .zero .none)).expr,
    .mk (.mk (.term (.literal (at' 0) (.mk .none ⟨.word .ordsymbol [65] (at' 1), []⟩ .zero .none))) .nil)
      (.cons .sub (at' 2) (.mk (.term (.id (.plain (letter 'X' 3)))) .nil) .nil), ?_, ?_⟩
  · decide +kernel
  · intro h; cases h

/-- The qualifier of a symbol is not part of its meaning: `Q.X` and `R.X` are read alike. -/
theorem C110_witness_qualifier : ∃ (a b : Expr) (t : Tree), a.yield ≠ b.yield ∧ a.ast = t ∧ b.ast = t := by
  refine ⟨(Term.id (.qualified (letter 'Q' 0) (at' 1) (letter 'X' 2))).expr, (Term.id (.qualified (letter 'R' 0) (at' 1) (letter 'X' 2))).expr,
    .leaf (.symbol [88]) ⟨⟨0, 0⟩, ⟨0, 3⟩⟩, ?_, ?_, ?_⟩
  · decide +kernel
  · decide +kernel
  · decide +kernel

/-! ### the theorems say something -/

/-- `A-B*-C` -/
def sampleE : Expr :=
  .mk (.mk (.term (.id (.plain (letter 'A' 0)))) .nil) (.cons .sub (at' 1)
    (.mk (.term (.id (.plain (letter 'B' 2)))) (.cons .mul (at' 3) (.sign .sub (at' 4) (.term (.id (.plain (letter 'C' 5))))) .nil)) .nil)

example : sampleE.ast = .bin .sub (.leaf (.symbol [65]) (at' 0)) (.bin .mul (.leaf (.symbol [66]) (at' 2))
    (.un .sub (.leaf (.symbol [67]) (at' 5)) ⟨⟨0, 4⟩, ⟨0, 6⟩⟩) ⟨⟨0, 2⟩, ⟨0, 6⟩⟩) ⟨⟨0, 0⟩, ⟨0, 6⟩⟩ := by decide +kernel

example : NoLiteral sampleE.yield := by unfold NoLiteral; decide +kernel

/-- `A-B-C` groups from the left. -/
example : ∃ t, Reads ((symbolE 'A' 0).yield ++ sym .minus '-' (at' 1) :: ((symbolE 'B' 2).yield ++ sym .minus '-' (at' 3) :: (symbolE 'C' 4).yield)) t ∧
    t = .bin .sub (.bin .sub (.leaf (.symbol [65]) (at' 0)) (.leaf (.symbol [66]) (at' 2)) ⟨⟨0, 0⟩, ⟨0, 3⟩⟩) (.leaf (.symbol [67]) (at' 4)) ⟨⟨0, 0⟩, ⟨0, 5⟩⟩ := by
  refine ⟨_, ⟨.mk (.mk (.term (.id (.plain (letter 'A' 0)))) .nil) (.cons .sub (at' 1) (.mk (.term (.id (.plain (letter 'B' 2)))) .nil)
    (.cons .sub (at' 3) (.mk (.term (.id (.plain (letter 'C' 4)))) .nil) .nil)), ?_, rfl⟩, ?_⟩
  · decide +kernel
  · decide +kernel

/-- `1,,A(,B)` is three operands. -/
def sampleL : OpList MachOp :=
  ⟨some (.expr (numE '1' 0)), [(at' 1, none), (at' 2, some (.noIndex (symbolE 'A' 3) (at' 4) (at' 5) (symbolE 'B' 6) (at' 7)))]⟩

example : NoLiteral (sampleL.yield MachOp.yield) ∧ (cut (.out 0) (sampleL.yield MachOp.yield)).map List.length = [1, 0, 5] ∧
    sampleL.operands [⟨.eolln, [], at' 8⟩] = [.expr (.leaf (.number [49]) (at' 0)) (at' 0), .empty ⟨⟨0, 2⟩, ⟨0, 2⟩⟩,
      .address (.leaf (.symbol [65]) (at' 3)) none (some (.leaf (.symbol [66]) (at' 6))) ⟨⟨0, 3⟩, ⟨0, 8⟩⟩ .firstOmitted] := by
  refine ⟨by unfold NoLiteral; decide +kernel, by decide +kernel, by decide +kernel⟩

/-- `DATA(A,B),C','` is two operands of an assembler instruction. -/
example : (cut (.out 0) (OpList.yield AsmOp.yield ⟨some (.call (.plain (letter 'D' 0)) (at' 1) (.id (.plain (letter 'A' 2)))
      (.cons (at' 3) (.id (.plain (letter 'B' 4))) .nil) (at' 5)),
    [(at' 6, some (.expr (Term.selfDef [67] (at' 7) ⟨at' 8, [.one .comma rfl [44] (at' 9)], ⟨false, at' 10⟩⟩).expr))]⟩)).map List.length =
    [6, 4] := by decide +kernel

end Verif.Gram
