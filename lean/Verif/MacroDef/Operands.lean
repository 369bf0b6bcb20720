import Verif.MacroDef.Concat
import Verif.Context.MacroCallProps
import Verif.Context.MacroDataProps
import Mathlib.Data.List.Forall2
import Mathlib.Data.List.Induction

/-!
The operands of a macro call (processing/instruction_sets/macro_processor.cpp 201-337): C79.
-/
namespace Verif.MacroDef

open Verif.Context Verif.Context.Mac

/-! ## Model -/

/-- `string_to_macrodata` (macro_processor.cpp 97-169) as a total function: it ends after at most one iteration per byte plus one
(`C35_value`). -/
def splitText (t : Bytes) : Data := (toData t (t.length + 1)).getD .dummy

/-- What is reported, with the number of the operand: W014 (unknown keyword), E011 (keyword given twice). -/
inductive CallDiag where
  | unknown (i : Nat)
  | twice (i : Nat)
  deriving DecidableEq, Repr

/-- The local variables `args` and `keyword_params` of `get_operand_args`, and the diagnostics. -/
structure CallOut where
  args : List Arg := []
  seen : List Name := []
  diags : List CallDiag := []

/-- `is_keyword` (macro_processor.cpp 201-206). `sym` is `try_get_symbol_name`: the identifier of a text that is an ordinary symbol. -/
def keyword? (sym : Bytes → Option Name) : Chain → Option (Bytes × Name × Chain)
  | .str t :: .equ :: rest => (sym t).map fun id => (t, id, rest)
  | _ => none

/-- The value of a keyword operand (macro_processor.cpp 276-284). -/
def keywordData (env : Var → Bytes) : Chain → Data
  | [.sub l] => dataWith (evalChain env false) [.sub l]
  | rest => splitText (evalChain env false rest)

/-- `get_keyword_arg` (macro_processor.cpp 245-288). -/
def keywordOperand (env : Var → Bytes) (d : Def) (st : CallOut) (i : Nat) (t : Bytes) (id : Name) (rest : Chain) : CallOut :=
  match d.named.get id with
  | some (.key _) =>
    { args := st.args ++ [⟨some id, keywordData env rest⟩]
      seen := if id ∈ st.seen then st.seen else st.seen ++ [id]
      diags := if id ∈ st.seen then st.diags ++ [.twice i] else st.diags }
  | _ => { st with args := st.args ++ [⟨none, .single (t ++ cEqu :: showChain rest)⟩], diags := st.diags ++ [.unknown i] }

/-- The positional cases (macro_processor.cpp 231-239). -/
def positionalData (env : Var → Bytes) : Chain → Data
  | [.var v] => splitText (env v)
  | c => dataWith (evalChain env false) c

/-- One round of the loop of `get_operand_args` (macro_processor.cpp 214-240). -/
def callOperand (sym : Bytes → Option Name) (env : Var → Bytes) (d : Def) (st : CallOut) (i : Nat) : Option Chain → CallOut
  | none => { st with args := st.args ++ [⟨none, .dummy⟩] }
  | some c =>
    match keyword? sym c with
    | some (t, id, rest) => keywordOperand env d st i t id rest
    | none => { st with args := st.args ++ [⟨none, positionalData env c⟩] }

def callOperands (sym : Bytes → Option Name) (env : Var → Bytes) (d : Def) (st : CallOut) (i : Nat) : List (Option Chain) → CallOut
  | [] => st
  | op :: ops => callOperands sym env d (callOperand sym env d st i op) (i + 1) ops

/-- `get_operand_args` (macro_processor.cpp 208-243). -/
def operandArgs (sym : Bytes → Option Name) (env : Var → Bytes) (d : Def) (ops : List (Option Chain)) : CallOut :=
  callOperands sym env d {} 0 ops

/-! ## Specification -/

/-- `NAME=value` for a keyword parameter of the macro. -/
def KeywordOf (sym : Bytes → Option Name) (d : Def) (op : Option Chain) (id : Name) (value : Chain) : Prop :=
  ∃ t, op = some (.str t :: .equ :: value) ∧ sym t = some id ∧ ∃ dflt, d.named.get id = some (.key dflt)

/-- `NAME=value` for a name that is no keyword parameter. -/
def Unknown (sym : Bytes → Option Name) (d : Def) (op : Option Chain) (value : Chain) : Prop :=
  ∃ t id, op = some (.str t :: .equ :: value) ∧ sym t = some id ∧ ∀ dflt, d.named.get id ≠ some (.key dflt)

/-- The operand `op` is meant for the keyword parameter `id` (`none`: for the next position), with the value `value`. -/
def Meant (sym : Bytes → Option Name) (d : Def) (op : Option Chain) (id : Option Name) (value : Chain) : Prop :=
  match id with
  | some id => KeywordOf sym d op id value
  | none => op.getD [] = value ∧ ∀ id v, ¬ KeywordOf sym d op id v

/-- A text in which no comma is lost when it is split into sublists (C35). -/
def Kept (t : Bytes) : Prop :=
  (∀ p q, t ≠ p ++ cComma :: cClose :: q) ∧ ((∃ p x q, t = p ++ cClose :: x :: q ∧ x ≠ cComma ∧ x ≠ cClose) → ∀ p q, t ≠ p ++ cComma :: cComma :: q)

/-! ## Properties -/

/-- `was_var` behind a chain. -/
def lastVar (w : Bool) : Chain → Bool
  | [] => w
  | .var _ :: r => lastVar true r
  | .str _ :: r => lastVar false r
  | .dot :: r => lastVar false r
  | .equ :: r => lastVar false r
  | .sub _ :: r => lastVar false r

theorem evalChain_append (env : Var → Bytes) (w : Bool) (c r : Chain) :
    evalChain env w (c ++ r) = evalChain env w c ++ evalChain env (lastVar w c) r := by
  induction c generalizing w with
  | nil => simp [evalChain, lastVar]
  | cons x c ih => cases x <;> simp [evalChain, lastVar, ih]

theorem lastVar_snoc (w : Bool) (c : Chain) (x : Piece) : lastVar w (c ++ [x]) = lastVar false [x] := by
  induction c generalizing w with
  | nil => cases x <;> rfl
  | cons y c ih => cases y <;> simp [lastVar, ih]

theorem evalList_eq (env : Var → Bytes) (l : List Chain) : evalList env l = [cComma].intercalate (l.map (evalChain env false)) := by
  induction l with
  | nil => simp [evalList]
  | cons c l ih =>
    cases l with
    | nil => simp [evalList]
    | cons d l => rw [evalList, ih]; simp [List.intercalate]

/-- C79. What a concatenation stands for: the texts of its pieces one behind the other, variable symbols replaced by their values,
lists in parentheses with commas, and a full stop left out exactly if it directly follows a variable symbol. -/
theorem C79_concatenation (env : Var → Bytes) :
    evalChain env false [] = [] ∧
    (∀ c x, x ≠ .dot → evalChain env false (c ++ [x]) = evalChain env false c ++ x.eval env) ∧
    (∀ c v, evalChain env false (c ++ [.var v, .dot]) = evalChain env false c ++ env v) ∧
    (∀ c, (∀ b v, c ≠ b ++ [.var v]) → evalChain env false (c ++ [.dot]) = evalChain env false c ++ [cDot]) ∧
    (∀ t, (Piece.str t).eval env = t) ∧ (∀ v, (Piece.var v).eval env = env v) ∧ Piece.equ.eval env = [cEqu] ∧
    (∀ l, (Piece.sub l).eval env = [cOpen] ++ [cComma].intercalate (l.map (evalChain env false)) ++ [cClose]) := by
  refine ⟨by simp [evalChain], ?_, ?_, ?_, by simp [Piece.eval], by simp [Piece.eval], by simp [Piece.eval], ?_⟩
  · intro c x hx
    rw [evalChain_append]
    cases x with
    | dot => exact absurd rfl hx
    | _ => simp [evalChain, Piece.eval]
  · intro c v
    rw [evalChain_append]
    simp [evalChain]
  · intro c hc
    rw [evalChain_append]
    have : lastVar false c = false := by
      rcases List.eq_nil_or_concat c with rfl | ⟨b, x, rfl⟩
      · rfl
      · rw [List.concat_eq_append] at hc ⊢
        rw [lastVar_snoc]
        cases x with
        | var v => exact absurd rfl (hc b v)
        | _ => rfl
    rw [this]
    simp [evalChain]
  · intro l
    rw [Piece.eval, evalList_eq]
    simp

mutual
theorem dataWith_value (env : Var → Bytes) : ∀ c : Chain, (dataWith (evalChain env false) c).value = evalChain env false c
  | [] => by simp [dataWith, Data.value, evalChain]
  | [.sub l] => by simp [dataWith, Data.value, evalChain, dataList_value env l]
  | [.str t] => by simp [dataWith, Data.value]
  | [.var t] => by simp [dataWith, Data.value]
  | [.dot] => by simp [dataWith, Data.value]
  | [.equ] => by simp [dataWith, Data.value]
  | x :: y :: r => by cases x <;> simp [dataWith, Data.value]
theorem dataList_value (env : Var → Bytes) : ∀ l : List Chain, valueList (dataList (evalChain env false) l) = evalList env l
  | [] => by simp [dataList, valueList, evalList]
  | [c] => by simp [dataList, valueList, evalList, dataWith_value env c]
  | c :: d :: l => by
    have h := dataList_value env (d :: l)
    simp only [dataList] at h
    simp only [dataList, valueList, evalList, dataWith_value env c]
    rw [h]
end

mutual
theorem show_eval (env : Var → Bytes) (w : Bool) : ∀ c : Chain, hasVar c = false → (w = true → c.head? ≠ some .dot) → showChain c = evalChain env w c
  | [], _, _ => by simp [showChain, evalChain]
  | .var v :: r, h, _ => by simp [hasVar] at h
  | .str t :: r, h, _ => by simp [showChain, evalChain, show_eval env false r (by simpa [hasVar] using h) (by simp)]
  | .equ :: r, h, _ => by simp [showChain, evalChain, show_eval env false r (by simpa [hasVar] using h) (by simp)]
  | .dot :: r, h, hw => by
    have : w = false := by cases w <;> simp_all
    subst this
    simp [showChain, evalChain, show_eval env false r (by simpa [hasVar] using h) (by simp)]
  | .sub l :: r, h, _ => by
    simp only [hasVar, Bool.or_eq_false_iff] at h
    simp [showChain, evalChain, show_eval env false r h.2 (by simp), showList_eval env l h.1]
theorem showList_eval (env : Var → Bytes) : ∀ l : List Chain, hasVarList l = false → showList l = evalList env l
  | [], _ => by simp [showList, evalList]
  | [c], h => by
    simp only [hasVarList, Bool.or_eq_false_iff] at h
    simp [showList, evalList, show_eval env false c h.1 (by simp)]
  | c :: d :: l, h => by
    rw [hasVarList, Bool.or_eq_false_iff] at h
    simp [showList, evalList, show_eval env false c h.1 (by simp), showList_eval env (d :: l) h.2]
end

theorem splitText_value (t : Bytes) (h : Kept t) : (splitText t).value = t := by
  obtain ⟨d, hd, hv⟩ := C35_preserved_partial t (t.length + 1) (by omega) h.1 h.2
  unfold splitText
  rw [hd]; exact hv

theorem keywordData_value (env : Var → Bytes) (c : Chain) (h : Kept (evalChain env false c)) :
    (keywordData env c).value = evalChain env false c := by
  unfold keywordData
  split
  · exact dataWith_value env _
  · exact splitText_value _ h

theorem positionalData_value (env : Var → Bytes) (c : Chain) (h : Kept (evalChain env false c)) :
    (positionalData env c).value = evalChain env false c := by
  unfold positionalData
  split
  · next v => 
    have e : evalChain env false [.var v] = env v := by simp [evalChain]
    rw [e] at h ⊢
    exact splitText_value _ h
  · exact dataWith_value env _

theorem keyword?_some (sym : Bytes → Option Name) (c : Chain) (t : Bytes) (id : Name) (rest : Chain) :
    keyword? sym c = some (t, id, rest) ↔ c = .str t :: .equ :: rest ∧ sym t = some id := by
  unfold keyword?
  split
  · next t' rest' =>
    simp only [Option.map_eq_some_iff, Prod.mk.injEq, List.cons.injEq, Piece.str.injEq, true_and]
    constructor
    · rintro ⟨a, h, rfl, rfl, rfl⟩; exact ⟨⟨rfl, rfl⟩, h⟩
    · rintro ⟨⟨rfl, rfl⟩, h⟩; exact ⟨id, h, rfl, rfl, rfl⟩
  · next h =>
    simp only [reduceCtorEq, false_iff, not_and]
    rintro rfl
    exact absurd rfl (h t rest)

/-- What one operand adds. -/
theorem callOperand_cases (sym : Bytes → Option Name) (env : Var → Bytes) (d : Def) (st : CallOut) (i : Nat) (op : Option Chain) :
    (∃ id v, KeywordOf sym d op id v ∧ callOperand sym env d st i op =
      { args := st.args ++ [⟨some id, keywordData env v⟩], seen := if id ∈ st.seen then st.seen else st.seen ++ [id],
        diags := if id ∈ st.seen then st.diags ++ [.twice i] else st.diags }) ∨
    (∃ t v, Unknown sym d op v ∧ op = some (.str t :: .equ :: v) ∧ callOperand sym env d st i op =
      { st with args := st.args ++ [⟨none, .single (t ++ cEqu :: showChain v)⟩], diags := st.diags ++ [.unknown i] }) ∨
    ((∀ v, ¬ Unknown sym d op v) ∧ (∀ id v, ¬ KeywordOf sym d op id v) ∧ ∃ x, callOperand sym env d st i op = { st with args := st.args ++ [⟨none, x⟩] } ∧
      (Kept (evalChain env false (op.getD [])) → x.value = evalChain env false (op.getD []))) := by
  cases op with
  | none =>
    refine Or.inr (Or.inr ⟨?_, ?_, .dummy, rfl, fun _ => by simp [Data.value, evalChain]⟩)
    · rintro v ⟨t, id, h, -⟩; cases h
    · rintro id v ⟨t, h, -⟩; cases h
  | some c =>
    simp only [callOperand]
    cases hk : keyword? sym c with
    | none =>
      refine Or.inr (Or.inr ⟨?_, ?_, _, rfl, fun h => positionalData_value env c h⟩)
      · rintro v ⟨t, id, h, hs, -⟩
        rw [(keyword?_some sym c t id v).2 ⟨by simpa using h, hs⟩] at hk; cases hk
      · rintro id v ⟨t, h, hs, -⟩
        rw [(keyword?_some sym c t id v).2 ⟨by simpa using h, hs⟩] at hk; cases hk
    | some x =>
      obtain ⟨t, id, rest⟩ := x
      obtain ⟨rfl, hs⟩ := (keyword?_some sym c t id rest).1 hk
      simp only [keywordOperand]
      cases hg : d.named.get id with
      | none => exact Or.inr (Or.inl ⟨t, rest, ⟨t, id, rfl, hs, by simp [hg]⟩, rfl, rfl⟩)
      | some kd =>
        cases kd with
        | pos => exact Or.inr (Or.inl ⟨t, rest, ⟨t, id, rfl, hs, by simp [hg]⟩, rfl, rfl⟩)
        | key dflt => exact Or.inl ⟨id, rest, ⟨t, rfl, hs, dflt, hg⟩, rfl⟩

theorem callOperands_snoc (sym : Bytes → Option Name) (env : Var → Bytes) (d : Def) (st : CallOut) (i : Nat) (ops : List (Option Chain))
    (op : Option Chain) : callOperands sym env d st i (ops ++ [op]) =
      callOperand sym env d (callOperands sym env d st i ops) (i + ops.length) op := by
  induction ops generalizing st i with
  | nil => rfl
  | cons a l ih =>
    simp only [List.cons_append, callOperands, List.length_cons, ih]
    congr 1; omega

theorem operandArgs_snoc (sym : Bytes → Option Name) (env : Var → Bytes) (d : Def) (ops : List (Option Chain)) (op : Option Chain) :
    operandArgs sym env d (ops ++ [op]) = callOperand sym env d (operandArgs sym env d ops) ops.length op := by
  unfold operandArgs
  rw [callOperands_snoc, Nat.zero_add]

theorem KeywordOf.unique {sym : Bytes → Option Name} {d : Def} {op : Option Chain} {id id' : Name} {v v' : Chain}
    (h : KeywordOf sym d op id v) (h' : KeywordOf sym d op id' v') : id = id' ∧ v = v' := by
  obtain ⟨t, h1, h2, -⟩ := h
  obtain ⟨t', h1', h2', -⟩ := h'
  rw [h1] at h1'
  simp at h1'
  obtain ⟨rfl, rfl⟩ := h1'
  rw [h2] at h2'
  simp at h2'
  exact ⟨h2', rfl⟩

/-- C79, for texts in which no comma is lost (C35) and without variable symbols in the value of an unknown keyword. Every operand
of the call becomes one argument, in order: for the keyword parameter it names, or positional; and its text is the text written
with the variable symbols replaced. Missing: `C79_witness_unknown`, and the commas of C35. -/
theorem C79_operands_partial (sym : Bytes → Option Name) (env : Var → Bytes) (d : Def) (ops : List (Option Chain)) :
    List.Forall₂ (fun op a => ∃ value, Meant sym d op a.id value ∧
      (Kept (evalChain env false value) → (∀ v, Unknown sym d op v → ¬ VarIn v) → a.data.value = evalChain env false value))
      ops (operandArgs sym env d ops).args := by
  induction ops using List.reverseRecOn with
  | nil => exact .nil
  | append_singleton ops op ih =>
    rw [operandArgs_snoc]
    rcases callOperand_cases sym env d (operandArgs sym env d ops) ops.length op with ⟨id, v, hk, h⟩ | ⟨t, v, hu, rfl, h⟩ | ⟨_, hn, x, h, hx⟩
    · rw [h]
      exact List.rel_append ih (.cons ⟨v, hk, fun hc _ => keywordData_value env v hc⟩ .nil)
    · rw [h]
      refine List.rel_append ih (.cons ⟨_, ⟨rfl, ?_⟩, ?_⟩ .nil)
      · rintro id v' ⟨t', h1, h2, dflt, h3⟩
        obtain ⟨t2, id2, h4, h5, h6⟩ := hu
        rw [h1] at h4
        simp at h4
        obtain ⟨rfl, rfl⟩ := h4
        rw [h2] at h5; simp at h5; subst h5
        exact h6 dflt h3
      · intro _ hv
        simp [Data.value, evalChain, show_eval env false v ((hasVar_false_iff _).2 (hv v hu)) (by simp)]
    · rw [h]
      exact List.rel_append ih (.cons ⟨_, ⟨rfl, hn⟩, fun hc _ => hx hc⟩ .nil)

theorem getElem?_snoc {α : Type} (l : List α) (x y : α) (i : Nat) : (l ++ [x])[i]? = some y ↔ l[i]? = some y ∨ (i = l.length ∧ y = x) := by
  rw [List.getElem?_append]
  split
  · next h => 
    constructor
    · exact Or.inl
    · rintro (h' | ⟨h', -⟩)
      · exact h'
      · omega
  · next h =>
    rw [List.getElem?_eq_none (by omega : l.length ≤ i)]
    constructor
    · intro h'
      obtain ⟨h1, h2⟩ := List.getElem?_eq_some_iff.1 h'
      simp at h1 h2
      exact Or.inr ⟨by omega, h2.symm⟩
    · rintro (h' | ⟨rfl, rfl⟩)
      · cases h'
      · simp

theorem callOperand_diags (sym : Bytes → Option Name) (env : Var → Bytes) (d : Def) (st : CallOut) (n i : Nat) (op : Option Chain) :
    (CallDiag.unknown i ∈ (callOperand sym env d st n op).diags ↔ CallDiag.unknown i ∈ st.diags ∨ (i = n ∧ ∃ v, Unknown sym d op v)) ∧
    (CallDiag.twice i ∈ (callOperand sym env d st n op).diags ↔ CallDiag.twice i ∈ st.diags ∨ (i = n ∧ ∃ id v, KeywordOf sym d op id v ∧ id ∈ st.seen)) ∧
    (∀ id, id ∈ (callOperand sym env d st n op).seen ↔ id ∈ st.seen ∨ ∃ v, KeywordOf sym d op id v) := by
  have disj : ∀ {id v v'}, KeywordOf sym d op id v → Unknown sym d op v' → False := by
    rintro id v v' ⟨t', h1, h2, dflt, h3⟩ ⟨t2, id2, h4, h5, h6⟩
    rw [h1] at h4
    simp at h4
    obtain ⟨rfl, rfl⟩ := h4
    rw [h2] at h5; simp at h5; subst h5
    exact h6 dflt h3
  rcases callOperand_cases sym env d st n op with ⟨id, v, hk, h⟩ | ⟨t, v, hu, -, h⟩ | ⟨hu, hn, x, h, hx⟩
  · rw [h]
    have hid : ∀ id' v', KeywordOf sym d op id' v' → id' = id := fun id' v' h' => (h'.unique hk).1
    have hk' : ∃ v, KeywordOf sym d op id v := ⟨v, hk⟩
    have hnu : ¬ ∃ v, Unknown sym d op v := fun ⟨v', hu⟩ => disj hk hu
    by_cases hs : id ∈ st.seen
    · simp only [hs, if_true]
      refine ⟨by simp [hnu], ?_, ?_⟩
      · simp only [List.mem_append, List.mem_singleton, CallDiag.twice.injEq]
        refine or_congr_right (and_iff_left ⟨id, v, hk, hs⟩).symm
      · intro id'
        refine ⟨Or.inl, ?_⟩
        rintro (h' | ⟨v', h'⟩)
        · exact h'
        · rw [hid _ _ h']; exact hs
    · simp only [hs, if_false]
      refine ⟨by simp [hnu], ?_, ?_⟩
      · refine ⟨Or.inl, ?_⟩
        rintro (h' | ⟨_, id', v', h', h''⟩)
        · exact h'
        · rw [hid _ _ h'] at h''; exact absurd h'' hs
      · intro id'
        simp only [List.mem_append, List.mem_singleton]
        refine or_congr_right ⟨?_, ?_⟩
        · rintro rfl; exact hk'
        · rintro ⟨v', h'⟩; exact hid _ _ h'
  · rw [h]
    have hnk : ∀ id v', ¬ KeywordOf sym d op id v' := fun id v' hk => disj hk hu
    refine ⟨?_, by simp [hnk], by simp [hnk]⟩
    simp only [List.mem_append, List.mem_singleton, CallDiag.unknown.injEq]
    exact or_congr_right (and_iff_left ⟨v, hu⟩).symm
  · rw [h]
    refine ⟨by simp [hu], by simp [hn], by simp [hn]⟩

/-- C79. What is reported about the operands: a keyword the macro does not have, and a keyword that was already given. -/
theorem C79_reported (sym : Bytes → Option Name) (env : Var → Bytes) (d : Def) (ops : List (Option Chain)) (i : Nat) :
    (CallDiag.unknown i ∈ (operandArgs sym env d ops).diags ↔ ∃ op v, ops[i]? = some op ∧ Unknown sym d op v) ∧
    (CallDiag.twice i ∈ (operandArgs sym env d ops).diags ↔ ∃ op id v, ops[i]? = some op ∧ KeywordOf sym d op id v ∧
      ∃ j op' v', j < i ∧ ops[j]? = some op' ∧ KeywordOf sym d op' id v') := by
  suffices h : ((CallDiag.unknown i ∈ (operandArgs sym env d ops).diags ↔ ∃ op v, ops[i]? = some op ∧ Unknown sym d op v) ∧
      (CallDiag.twice i ∈ (operandArgs sym env d ops).diags ↔ ∃ op id v, ops[i]? = some op ∧ KeywordOf sym d op id v ∧
      ∃ j op' v', j < i ∧ ops[j]? = some op' ∧ KeywordOf sym d op' id v')) ∧
      ∀ id, id ∈ (operandArgs sym env d ops).seen ↔ ∃ op ∈ ops, ∃ v, KeywordOf sym d op id v from h.1
  induction ops using List.reverseRecOn with
  | nil => simp [operandArgs, callOperands]
  | append_singleton ops op ih =>
    obtain ⟨⟨ih1, ih2⟩, ih3⟩ := ih
    obtain ⟨c1, c2, c3⟩ := callOperand_diags sym env d (operandArgs sym env d ops) ops.length i op
    rw [operandArgs_snoc, c1, c2, ih1, ih2]
    refine ⟨⟨?_, ?_⟩, ?_⟩
    · constructor
      · rintro (⟨o, v, h1, h2⟩ | ⟨rfl, v, h⟩)
        · exact ⟨o, v, (getElem?_snoc ..).2 (Or.inl h1), h2⟩
        · exact ⟨op, v, by simp, h⟩
      · rintro ⟨o, v, h1, h2⟩
        rcases (getElem?_snoc ..).1 h1 with h1 | ⟨rfl, rfl⟩
        · exact Or.inl ⟨o, v, h1, h2⟩
        · exact Or.inr ⟨rfl, v, h2⟩
    · constructor
      · rintro (⟨o, id, v, h1, h2, j, o', v', h3, h4, h5⟩ | ⟨rfl, id, v, h1, h2⟩)
        · exact ⟨o, id, v, (getElem?_snoc ..).2 (Or.inl h1), h2, j, o', v', h3, (getElem?_snoc ..).2 (Or.inl h4), h5⟩
        · obtain ⟨o', ho, v', hv⟩ := (ih3 id).1 h2
          obtain ⟨j, hj⟩ := List.mem_iff_getElem?.1 ho
          obtain ⟨hlt, -⟩ := List.getElem?_eq_some_iff.1 hj
          exact ⟨op, id, v, by simp, h1, j, o', v', hlt, (getElem?_snoc ..).2 (Or.inl hj), hv⟩
      · rintro ⟨o, id, v, h1, h2, j, o', v', h3, h4, h5⟩
        rcases (getElem?_snoc ..).1 h1 with h1 | ⟨rfl, rfl⟩
        · have hi := (List.getElem?_eq_some_iff.1 h1).1
          rcases (getElem?_snoc ..).1 h4 with h4 | ⟨rfl, rfl⟩
          · exact Or.inl ⟨o, id, v, h1, h2, j, o', v', h3, h4, h5⟩
          · omega
        · rcases (getElem?_snoc ..).1 h4 with h4 | ⟨rfl, rfl⟩
          · exact Or.inr ⟨rfl, id, v, h2, (ih3 id).2 ⟨o', List.mem_of_getElem? h4, v', h5⟩⟩
          · omega
    · intro id
      rw [c3, ih3]
      simp only [List.mem_append, List.mem_singleton]
      constructor
      · rintro (⟨o, ho, v, h⟩ | ⟨v, h⟩)
        · exact ⟨o, Or.inl ho, v, h⟩
        · exact ⟨op, Or.inr rfl, v, h⟩
      · rintro ⟨o, ho | rfl, v, h⟩
        · exact Or.inl ⟨o, ho, v, h⟩
        · exact Or.inr ⟨v, h⟩

/-- The values of the operands of the call that are not for keyword parameters, in order. -/
inductive Positional (sym : Bytes → Option Name) (d : Def) : List (Option Chain) → List Chain → Prop
  | nil : Positional sym d [] []
  | keyword {op ops l} (id v) : KeywordOf sym d op id v → Positional sym d ops l → Positional sym d (op :: ops) l
  | pos {op ops l} : (∀ id v, ¬ KeywordOf sym d op id v) → Positional sym d ops l → Positional sym d (op :: ops) (op.getD [] :: l)

/-- C79 with C34 and C35. The text of the positional parameter at position `i` is the text of the `i`-th positional operand with
the variable symbols replaced; a keyword operand in between does not count. -/
theorem C79_parameter_partial (sym : Bytes → Option Name) (env : Var → Bytes) (label : Option Name) (params : List Param) (syslist : Name)
    (wf : WellFormed label params syslist) (ops : List (Option Chain)) (ld : Option Data) (m : Map Inst)
    (h : (Def.build label params).call ld (operandArgs sym env (Def.build label params) ops).args syslist = some m)
    (l : List Chain) (hl : Positional sym (Def.build label params) ops l)
    (hu : ∀ op ∈ ops, ∀ v, Unknown sym (Def.build label params) op v → ¬ VarIn v)
    (i : Nat) (n : Name) (c : Chain) (hi : (posParams params)[i]? = some (some n)) (hc : l[i]? = some c) (hk : Kept (evalChain env false c)) :
    ∃ data, Map.get m n = some (.param data) ∧ data.value = evalChain env false c := by
  refine ⟨_, C34_positional label params syslist wf ld _ m h i n hi, ?_⟩
  have hf := C79_operands_partial sym env (Def.build label params) ops
  generalize (operandArgs sym env (Def.build label params) ops).args = args at hf
  clear h hi
  induction hl generalizing i args with
  | nil => simp at hc
  | @keyword op ops l id v hkw _ ih =>
    cases hf with
    | @cons _ a _ args hd tl =>
      obtain ⟨value, hm, -⟩ := hd
      have hid : a.id ≠ none := by
        intro e; rw [e] at hm; exact hm.2 id v hkw
      have : posArgs (a :: args) = posArgs args := by
        unfold posArgs
        rw [List.filterMap_cons_none]
        cases hai : a.id with
        | none => exact absurd hai hid
        | some x => rfl
      rw [this]
      exact ih (fun o ho => hu o (List.mem_cons_of_mem _ ho)) i hc args tl
  | @pos op ops l hnk _ ih =>
    cases hf with
    | @cons _ a _ args hd tl =>
      obtain ⟨value, hm, hv⟩ := hd
      have hid : a.id = none := by
        cases hai : a.id with
        | none => rfl
        | some x => rw [hai] at hm; exact absurd hm (hnk x value)
      have : posArgs (a :: args) = a.data :: posArgs args := by
        unfold posArgs
        rw [List.filterMap_cons_some]
        simp [hid]
      rw [this]
      rw [hid] at hm
      cases i with
      | zero =>
        simp at hc
        subst hc
        rw [← hm.1] at hv
        exact hv hk (hu op (by simp))
      | succ i =>
        simp at hc
        simpa using ih (fun o ho => hu o (List.mem_cons_of_mem _ ho)) i hc args tl

/-- The macro `MAC &P,&K=` called with `K=&A,&A.(&A,X)`: the names are 1 and 2, `K` is byte 75; `&A` has the value `(U)`. -/
def exSym (t : Bytes) : Option Name := if t = [75] then some 2 else if t = [81] then some 7 else none
def exA : Var := ⟨5, [65], false, false, 0⟩
def exEnv (_ : Var) : Bytes := [40, 85, 41]
def exDef : Def := Def.build none [.pos (some 1), .key 2 .dummy]
def exCall : List (Option Chain) := [some [.str [75], .equ, .var exA], some [.var exA, .dot, .sub [[.var exA], [.str [88]]]]]

example : Positional exSym exDef exCall [[.var exA, .dot, .sub [[.var exA], [.str [88]]]]] ∧
    (∀ op ∈ exCall, ∀ v, Unknown exSym exDef op v → ¬ VarIn v) := by
  refine ⟨.keyword 2 [.var exA] ⟨[75], rfl, rfl, _, rfl⟩ (.pos ?_ .nil), ?_⟩
  · rintro id v ⟨t, h, -⟩; simp at h
  · intro op hop v hu
    obtain ⟨t, id, h1, h2, h3⟩ := hu
    simp [exCall] at hop
    rcases hop with rfl | rfl
    · simp at h1
      obtain ⟨rfl, rfl⟩ := h1
      have : id = 2 := by simpa [exSym] using h2.symm
      subst this
      exact absurd rfl (h3 .dummy)
    · simp at h1

example : WellFormed none [.pos (some 1), .key 2 .dummy] 99 ∧
    ∃ m, exDef.call none (operandArgs exSym exEnv exDef exCall).args 99 = some m ∧
      (Map.get m 1).map (fun x => (x.data []).value) = some [40, 85, 41, 40, 40, 85, 41, 44, 88, 41] ∧
      evalChain exEnv false [.var exA, .dot, .sub [[.var exA], [.str [88]]]] = [40, 85, 41, 40, 40, 85, 41, 44, 88, 41] :=
  ⟨⟨by decide, by decide⟩, _, rfl, by decide +kernel, by decide +kernel⟩

example : (operandArgs exSym exEnv exDef (exCall ++ [some [.str [81], .equ], some [.str [75], .equ]])).diags = [.unknown 2, .twice 3] := by
  decide +kernel

/-- C79, negation. In `Q=&A` for a macro without the keyword `Q` the variable symbol is not replaced: the operand has the text `Q=&A`,
not `Q=(U)`. -/
theorem C79_witness_unknown : let op : Chain := [.str [81], .equ, .var exA]
    (operandArgs exSym exEnv exDef [some op]).args.map (·.data.value) = [[81, 61, 38, 65]] ∧
    evalChain exEnv false op = [81, 61, 40, 85, 41] := by decide +kernel

/-- C79, negation. The operands `&A` and `&A.` have the same text `(U,V)`; the first is a list of two, the second is one text. -/
theorem C79_witness_list : let env : Var → Bytes := fun _ => [40, 85, 44, 86, 41]
    (operandArgs exSym env exDef [some [.var exA], some [.var exA, .dot]]).args.map (fun a => (a.data.value, a.data.number)) =
      [([40, 85, 44, 86, 41], 2), ([40, 85, 44, 86, 41], 1)] := by decide +kernel

end Verif.MacroDef
