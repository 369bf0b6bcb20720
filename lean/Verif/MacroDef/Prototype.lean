import Verif.MacroDef.Concat
import Verif.Context.MacroCallProps
import Mathlib.Data.List.Induction
import Mathlib.Data.List.Forall2

/-!
The prototype of a macro (processing/statement_processors/macrodef_processor.cpp 199-322): C78.
-/
namespace Verif.MacroDef

open Verif.Context Verif.Context.Mac

/-! ## Model -/

/-- What is reported, with the number of the operand. -/
inductive ProtoDiag where
  /-- E043 at the label -/
  | label
  /-- E044 -/
  | labelKind
  /-- E060: not the macro the file was loaded for -/
  | name
  /-- E043 at an operand -/
  | varsym (i : Nat)
  /-- E011 -/
  | twice (i : Nat)
  /-- E064: variable symbol in a default value -/
  | dflt (i : Nat)
  deriving DecidableEq, Repr

/-- The name field of the prototype (`label_si`): `ORD`, `SEQ`, `CONC` and `MAC` are not told apart here (macrodef_processor.cpp 213, 225). -/
inductive ProtoLabel where
  | empty
  | var (v : Var)
  | other

/-- The local variable `param_names` and the parts of `result_` and the diagnostics that the prototype fills. -/
structure Proto where
  names : List Name := []
  label : Option Name := none
  params : List Param := []
  diags : List ProtoDiag := []
  invalid : Bool := false

/-- A variable symbol that can be a parameter: neither created nor subscripted (macrodef_processor.cpp 216, 305). -/
def Var.plain (v : Var) : Bool := !v.created && !v.subscripted

/-- `process_prototype_label` (macrodef_processor.cpp 210-227). -/
def protoLabel (st : Proto) : ProtoLabel → Proto
  | .empty => st
  | .var v => if v.plain then { st with label := some v.id, names := st.names ++ [v.id] } else { st with diags := st.diags ++ [.label] }
  | .other => { st with diags := st.diags ++ [.labelKind] }

/-- `process_prototype_instruction` (macrodef_processor.cpp 229-241): `expected` is the name of the macro the file was loaded for. -/
def protoName (st : Proto) (expected : Option Name) (name : Name) : Proto :=
  if expected.any (· ≠ name) then { st with diags := st.diags ++ [.name], invalid := true } else st

/-- The positional case (macrodef_processor.cpp 258-272) with `test_varsym_validity` (300-322). -/
def protoPositional (st : Proto) (i : Nat) (v : Var) : Proto :=
  if !v.plain then { st with diags := st.diags ++ [.varsym i], params := st.params ++ [.pos none] }
  else if v.id ∈ st.names then { st with diags := st.diags ++ [.twice i], params := st.params ++ [.pos none] }
  else { st with names := st.names ++ [v.id], params := st.params ++ [.pos (some v.id)] }

/-- The default value (`create_macro_data` with a `diagnostic_adder`, macro_processor.cpp 312-327): a variable symbol in it is
reported and the value is empty. -/
def defaultData (rest : Chain) : Data := if hasVar rest then .dummy else dataWith showChain rest

/-- The keyword case (macrodef_processor.cpp 273-293). -/
def protoKeyword (st : Proto) (i : Nat) (v : Var) (rest : Chain) : Proto :=
  if !v.plain then { st with diags := st.diags ++ [.varsym i], params := st.params ++ [.pos none] }
  else if v.id ∈ st.names then { st with diags := st.diags ++ [.twice i] }
  else { st with
    names := st.names ++ [v.id]
    params := st.params ++ [.key v.id (defaultData rest)]
    diags := st.diags ++ (if hasVar rest then [.dflt i] else []) }

/-- One round of the loop of `process_prototype_operand` (macrodef_processor.cpp 246-297); `none` is the empty operand. A chain of
one piece that is no variable symbol meets none of the conditions. -/
def protoOperand (st : Proto) (i : Nat) : Option Chain → Proto
  | none => { st with params := st.params ++ [.pos none] }
  | some [] => { st with params := st.params ++ [.pos none] }
  | some [.var v] => protoPositional st i v
  | some [_] => st
  | some (.var v :: .equ :: rest) => protoKeyword st i v rest
  | some (_ :: _ :: _) => { st with diags := st.diags ++ [.varsym i] }

def protoOperands (st : Proto) (i : Nat) : List (Option Chain) → Proto
  | [] => st
  | op :: ops => protoOperands (protoOperand st i op) (i + 1) ops

/-- `process_prototype` (macrodef_processor.cpp 199-208). -/
def prototype (label : ProtoLabel) (expected : Option Name) (name : Name) (ops : List (Option Chain)) : Proto :=
  protoOperands (protoName (protoLabel {} label) expected name) 0 ops

/-! ## Specification -/

/-- What an operand of a prototype means: nothing, `&NAME`, or `&NAME=default` with a default without variable symbols. The default
is the written text, a list in parentheses being kept as list. -/
inductive Written : Option Chain → Param → Prop
  | none : Written none (.pos none)
  | empty : Written (some []) (.pos none)
  | positional (v : Var) : v.created = false → v.subscripted = false → Written (some [.var v]) (.pos (some v.id))
  | keyword (v : Var) (rest : Chain) : v.created = false → v.subscripted = false → ¬ VarIn rest →
      Written (some (.var v :: .equ :: rest)) (.key v.id (dataWith showChain rest))

/-- The name a parameter has. -/
def nameOf : Param → Option Name
  | .pos n => n
  | .key n _ => some n

/-- What the name field means. -/
inductive WrittenLabel : ProtoLabel → Option Name → Prop
  | empty : WrittenLabel .empty none
  | var (v : Var) : v.created = false → v.subscripted = false → WrittenLabel (.var v) (some v.id)

/-- An operand of one piece that is no variable symbol, such as `ABC` or `(&A,&B)`. -/
def Bare (op : Option Chain) : Prop := ∃ x, op = some [x] ∧ ∀ v, x ≠ .var v

/-! ## Properties -/

theorem protoOperands_snoc (st : Proto) (i : Nat) (ops : List (Option Chain)) (op : Option Chain) :
    protoOperands st i (ops ++ [op]) = protoOperand (protoOperands st i ops) (i + ops.length) op := by
  induction ops generalizing st i with
  | nil => rfl
  | cons a l ih =>
    simp only [List.cons_append, protoOperands, List.length_cons, ih]
    congr 1; omega

theorem prototype_snoc (label : ProtoLabel) (expected : Option Name) (name : Name) (ops : List (Option Chain)) (op : Option Chain) :
    prototype label expected name (ops ++ [op]) = protoOperand (prototype label expected name ops) ops.length op := by
  unfold prototype
  rw [protoOperands_snoc, Nat.zero_add]

theorem plain_iff (v : Var) : v.plain = true ↔ v.created = false ∧ v.subscripted = false := by
  unfold Var.plain; cases v.created <;> cases v.subscripted <;> simp

/-- All names known so far. -/
def given (label : Option Name) (params : List Param) : List Name := label.toList ++ params.filterMap nameOf

theorem declared_perm (label : Option Name) (params : List Param) : (declared label params).Perm (given label params) := by
  unfold declared given
  have h : ((posParams params).filterMap id ++ (keyParams params).map (·.1)).Perm (params.filterMap nameOf) := by
    induction params with
    | nil => exact .nil
    | cons p l ih =>
      cases p with
      | pos n =>
        cases n with
        | none => rw [List.filterMap_cons_none rfl]; simpa [posParams, keyParams] using ih
        | some n => rw [List.filterMap_cons_some (f := nameOf) (b := n) rfl]; simpa [posParams, keyParams] using ih.cons n
      | key n d =>
        rw [List.filterMap_cons_some (f := nameOf) (b := n) rfl]
        refine List.Perm.trans ?_ (ih.cons n)
        simpa [posParams, keyParams] using List.perm_middle
  cases label with
  | none => simpa using h
  | some n => simpa using h.cons n

/-- What one operand adds. -/
theorem operand_cases (st : Proto) (i : Nat) (op : Option Chain) :
    (Bare op ∧ protoOperand st i op = st) ∨
    (∃ p, Written op p ∧ (∀ n, nameOf p = some n → n ∉ st.names) ∧
      protoOperand st i op = { st with names := st.names ++ (nameOf p).toList, params := st.params ++ [p] }) ∨
    (¬ Bare op ∧ (∀ p, Written op p → ∃ n, nameOf p = some n ∧ n ∈ st.names) ∧ ∃ d ps, (d = .varsym i ∨ d = .twice i ∨ d = .dflt i) ∧
      protoOperand st i op = { st with names := st.names ++ ps.filterMap nameOf, params := st.params ++ ps, diags := st.diags ++ [d] } ∧
      ps.length ≤ 1 ∧ ∀ n ∈ ps.filterMap nameOf, n ∉ st.names) := by
  match op with
  | none => exact Or.inr (Or.inl ⟨_, .none, by simp [nameOf], by simp [protoOperand, nameOf]⟩)
  | some [] => exact Or.inr (Or.inl ⟨_, .empty, by simp [nameOf], by simp [protoOperand, nameOf]⟩)
  | some [.var v] =>
    have hnb : ¬ Bare (some [.var v]) := by rintro ⟨x, h, hx⟩; simp at h; exact hx v h.symm
    show _ ∨ (∃ p, _ ∧ _ ∧ protoPositional st i v = _) ∨ (_ ∧ _ ∧ ∃ d ps, _ ∧ protoPositional st i v = _ ∧ _)
    unfold protoPositional
    by_cases hp : v.plain = true
    · have hc := (plain_iff v).1 hp
      by_cases hn : v.id ∈ st.names
      · refine Or.inr (Or.inr ⟨hnb, ?_, .twice i, [.pos none], Or.inr (Or.inl rfl), by simp [hp, hn, nameOf], by simp, by simp [nameOf]⟩)
        rintro p hw; cases hw; exact ⟨_, rfl, hn⟩
      · exact Or.inr (Or.inl ⟨_, .positional v hc.1 hc.2, by simpa [nameOf] using hn, by simp [hp, hn, nameOf]⟩)
    · refine Or.inr (Or.inr ⟨hnb, ?_, .varsym i, [.pos none], Or.inl rfl, by simp [hp, nameOf], by simp, by simp [nameOf]⟩)
      rintro p hw; cases hw; next h1 h2 => exact absurd ((plain_iff v).2 ⟨h1, h2⟩) hp
  | some [.str t] => exact Or.inl ⟨⟨_, rfl, by simp⟩, rfl⟩
  | some [.dot] => exact Or.inl ⟨⟨_, rfl, by simp⟩, rfl⟩
  | some [.equ] => exact Or.inl ⟨⟨_, rfl, by simp⟩, rfl⟩
  | some [.sub l] => exact Or.inl ⟨⟨_, rfl, by simp⟩, rfl⟩
  | some (.var v :: .equ :: rest) =>
    have hnb : ¬ Bare (some (.var v :: .equ :: rest)) := by rintro ⟨x, h, hx⟩; simp at h
    show _ ∨ (∃ p, _ ∧ _ ∧ protoKeyword st i v rest = _) ∨ (_ ∧ _ ∧ ∃ d ps, _ ∧ protoKeyword st i v rest = _ ∧ _)
    unfold protoKeyword defaultData
    by_cases hp : v.plain = true
    · have hc := (plain_iff v).1 hp
      by_cases hn : v.id ∈ st.names
      · refine Or.inr (Or.inr ⟨hnb, ?_, .twice i, [], Or.inr (Or.inl rfl), by simp [hp, hn], by simp, by simp⟩)
        rintro p hw; cases hw; exact ⟨_, rfl, hn⟩
      · by_cases hv : hasVar rest = true
        · refine Or.inr (Or.inr ⟨hnb, ?_, .dflt i, [.key v.id .dummy], Or.inr (Or.inr rfl), by simp [hp, hn, hv, nameOf], by simp, by simpa [nameOf] using hn⟩)
          rintro p hw; cases hw; next h => exact absurd ((hasVar_iff _).1 hv) h
        · have hv' : hasVar rest = false := by simpa using hv
          exact Or.inr (Or.inl ⟨_, .keyword v rest hc.1 hc.2 ((hasVar_false_iff _).1 hv'), by simpa [nameOf] using hn, by simp [hp, hn, hv', nameOf]⟩)
    · refine Or.inr (Or.inr ⟨hnb, ?_, .varsym i, [.pos none], Or.inl rfl, by simp [hp, nameOf], by simp, by simp [nameOf]⟩)
      rintro p hw; cases hw; next h1 h2 h3 => exact absurd ((plain_iff v).2 ⟨h1, h2⟩) hp
  | some (.str _ :: _ :: _) | some (.dot :: _ :: _) | some (.equ :: _ :: _) | some (.sub _ :: _ :: _) | some (.var _ :: .str _ :: _) |
    some (.var _ :: .dot :: _) | some (.var _ :: .sub _ :: _) | some (.var _ :: .var _ :: _) =>
    refine Or.inr (Or.inr ⟨by rintro ⟨x, h, hx⟩; simp at h, ?_, .varsym i, [], Or.inl rfl, by simp [protoOperand], by simp, by simp⟩)
    rintro p hw; cases hw

theorem start_facts (label : ProtoLabel) (expected : Option Name) (name : Name) :
    let st := protoName (protoLabel {} label) expected name
    st.names = given st.label st.params ∧ st.names.Nodup ∧ st.params = [] := by
  unfold protoName
  cases label with
  | empty => simp only [protoLabel]; split <;> simp [given]
  | other => simp only [protoLabel]; split <;> simp [given]
  | var v => simp only [protoLabel]; split <;> split <;> simp [given]

theorem prototype_names (label : ProtoLabel) (expected : Option Name) (name : Name) (ops : List (Option Chain)) :
    let st := prototype label expected name ops
    st.names = given st.label st.params ∧ st.names.Nodup := by
  induction ops using List.reverseRecOn with
  | nil => exact ⟨(start_facts label expected name).1, (start_facts label expected name).2.1⟩
  | append_singleton ops op ih =>
    dsimp only at ih ⊢
    rw [prototype_snoc]
    rcases operand_cases (prototype label expected name ops) ops.length op with ⟨_, h⟩ | ⟨p, _, hf, h⟩ | ⟨_, _, d, ps, _, h, hl, hf⟩
    · rw [h]; exact ih
    · rw [h]
      refine ⟨?_, ?_⟩
      · show _ ++ _ = _
        rw [ih.1]; simp [given]; cases h : nameOf p <;> simp [h]
      · show List.Nodup (_ ++ _)
        cases hp : nameOf p with
        | none => simpa using ih.2
        | some n => rw [List.nodup_append]; exact ⟨ih.2, by simp, fun a ha b hb => by simp at hb; subst hb; exact fun e => hf b hp (e ▸ ha)⟩
    · rw [h]
      refine ⟨?_, ?_⟩
      · show _ ++ _ = _
        rw [ih.1]; simp [given]
      · show List.Nodup (_ ++ _)
        rw [List.nodup_append]
        refine ⟨ih.2, ?_, fun a ha b hb e => hf b hb (e ▸ ha)⟩
        match ps, hl with
        | [], _ => simp
        | [p], _ => cases hp : nameOf p <;> simp [hp]

/-- C78. Whatever the prototype looks like, no two parameters of the macro have the same name, and none has the name of the
name field parameter. With `syslist` not among them this is what C34 asks for. -/
theorem C78_distinct (label : ProtoLabel) (expected : Option Name) (name : Name) (ops : List (Option Chain)) :
    let st := prototype label expected name ops
    (declared st.label st.params).Nodup ∧ ∀ syslist, syslist ∉ st.names → WellFormed st.label st.params syslist := by
  have h := prototype_names label expected name ops
  dsimp only at h ⊢
  rw [h.1] at h
  have hd : (declared (prototype label expected name ops).label (prototype label expected name ops).params).Nodup :=
    (declared_perm _ _).nodup_iff.2 h.2
  refine ⟨hd, fun s hs => ⟨hd, fun hm => hs ?_⟩⟩
  rw [(prototype_names label expected name ops).1]
  exact (declared_perm _ _).mem_iff.1 hm

/-- C78, without operands of one piece that is no variable symbol. Every operand either is what it is written as, with a name not
yet used, and becomes the next parameter without a report, or it is reported. Missing: `C78_witness`. -/
theorem C78_operand_partial (label : ProtoLabel) (expected : Option Name) (name : Name) (ops : List (Option Chain)) (op : Option Chain)
    (hb : ¬ Bare op) :
    let st := prototype label expected name ops
    let st' := prototype label expected name (ops ++ [op])
    ((∃ p, Written op p ∧ ∀ n, nameOf p = some n → n ∉ declared st.label st.params) →
      ∃ p, Written op p ∧ st'.params = st.params ++ [p] ∧ st'.diags = st.diags) ∧
    ((∀ p, Written op p → ∃ n, nameOf p = some n ∧ n ∈ declared st.label st.params) →
      ∃ d, (d = .varsym ops.length ∨ d = .twice ops.length ∨ d = .dflt ops.length) ∧ st'.diags = st.diags ++ [d]) := by
  dsimp only
  have hn := prototype_names label expected name ops
  dsimp only at hn
  have hmem : ∀ n, n ∈ declared (prototype label expected name ops).label (prototype label expected name ops).params ↔
      n ∈ (prototype label expected name ops).names := fun n => by rw [hn.1]; exact (declared_perm _ _).mem_iff
  simp only [hmem]
  rw [prototype_snoc]
  rcases operand_cases (prototype label expected name ops) ops.length op with ⟨h, _⟩ | ⟨p, hw, hf, h⟩ | ⟨_, hr, d, ps, hd, h, _⟩
  · exact absurd h hb
  · rw [h]
    refine ⟨fun _ => ⟨p, hw, rfl, rfl⟩, fun hc => ?_⟩
    obtain ⟨n, h1, h2⟩ := hc p hw
    exact absurd h2 (hf n h1)
  · rw [h]
    refine ⟨?_, fun _ => ⟨d, hd, rfl⟩⟩
    rintro ⟨p, hw, hf⟩
    obtain ⟨n, h1, h2⟩ := hr p hw
    exact absurd h2 (hf n h1)

/-- C78. A prototype as it should be: every operand is one of the written forms and no name occurs twice. Then the macro has exactly
these parameters, in their positions, and nothing is reported. -/
theorem C78_parameters (label : ProtoLabel) (expected : Option Name) (name : Name) (ops : List (Option Chain)) (l : Option Name)
    (ps : List Param) (hl : WrittenLabel label l) (hops : List.Forall₂ Written ops ps) (hd : (declared l ps).Nodup)
    (he : ∀ e, expected = some e → e = name) :
    let st := prototype label expected name ops
    st.label = l ∧ st.params = ps ∧ st.diags = [] ∧ st.invalid = false := by
  have hname : expected.any (· ≠ name) = false := by
    cases expected with
    | none => rfl
    | some e => simp [he e rfl]
  have hd' : (given l ps).Nodup := (declared_perm _ _).nodup_iff.1 hd
  have hlab : (prototype label expected name []).label = l ∧ (prototype label expected name []).params = [] ∧
      (prototype label expected name []).diags = [] ∧ (prototype label expected name []).invalid = false := by
    simp only [prototype, protoOperands, protoName, hname]
    cases hl with
    | empty => exact ⟨rfl, rfl, rfl, rfl⟩
    | var v h1 h2 =>
      have := (plain_iff v).2 ⟨h1, h2⟩
      simp [protoLabel, this]
  dsimp only
  clear hd
  induction ops using List.reverseRecOn generalizing ps with
  | nil => cases hops; exact hlab
  | append_singleton ops op ih =>
    obtain ⟨ps', q, h1, h2, rfl⟩ : ∃ ps' q, List.Forall₂ Written ops ps' ∧ Written op q ∧ ps = ps' ++ [q] := by
      have hlen := hops.length_eq
      rcases List.eq_nil_or_concat ps with rfl | ⟨ps', q, rfl⟩
      · simp at hlen
      · rw [List.concat_eq_append] at hops hlen ⊢
        simp only [List.length_append, List.length_singleton, Nat.add_right_cancel_iff] at hlen
        have h3 := List.forall₂_iff_zip.1 hops
        refine ⟨ps', q, List.forall₂_iff_zip.2 ⟨hlen, fun {a b} hab => h3.2 ?_⟩, h3.2 ?_, rfl⟩
        · rw [List.zip_append hlen]; exact List.mem_append.2 (Or.inl hab)
        · rw [List.zip_append hlen]; exact List.mem_append.2 (Or.inr (by simp))
    have hg : given l (ps' ++ [q]) = given l ps' ++ (nameOf q).toList := by
      simp [given]; cases h : nameOf q <;> simp [h]
    rw [hg] at hd'
    obtain ⟨i1, i2, i3, i4⟩ := ih ps' h1 (List.nodup_append.1 hd').1
    have hnames := (prototype_names label expected name ops).1
    rw [i1, i2] at hnames
    rw [prototype_snoc]
    rcases operand_cases (prototype label expected name ops) ops.length op with ⟨⟨x, hx, hxv⟩, _⟩ | ⟨p, hw, hf, h⟩ | ⟨_, hr, _⟩
    · subst hx
      cases h2 with
      | positional v => exact absurd rfl (hxv v)
    · have hpq : p = q := by cases hw <;> cases h2 <;> rfl
      subst hpq
      rw [h]
      exact ⟨i1, by show _ ++ _ = _; rw [i2], i3, i4⟩
    · obtain ⟨n, hq, hn⟩ := hr q h2
      rw [hnames] at hn
      rw [hq] at hd'
      exact absurd rfl ((List.nodup_append.1 hd').2.2 n hn n (by simp))

/-- Prototype `&L MAC &A,,&B=(X,Y),&C`. -/
def exVar (n : Nat) : Var := ⟨n, [65], false, false, 0⟩
def exOps : List (Option Chain) := [some [.var (exVar 1)], none, some [.var (exVar 2), .equ, .sub [[.str [88]], [.str [89]]]], some [.var (exVar 3)]]

theorem exWritten : Written (some [.var (exVar 2), .equ, .sub [[.str [88]], [.str [89]]]]) (.key 2 (.comp [.single [88], .single [89]])) := by
  have h := Written.keyword (exVar 2) [.sub [[.str [88]], [.str [89]]]] rfl rfl ((hasVar_false_iff _).1 (by decide +kernel))
  have e : dataWith showChain [.sub [[.str [88]], [.str [89]]]] = .comp [.single [88], .single [89]] := by
    simp [dataWith, dataList, showChain]
  rw [e] at h
  exact h

example : WrittenLabel (.var (exVar 9)) (some 9) ∧
    List.Forall₂ Written exOps [.pos (some 1), .pos none, .key 2 (.comp [.single [88], .single [89]]), .pos (some 3)] ∧
    (declared (some 9) [.pos (some 1), .pos none, .key 2 (.comp [.single [88], .single [89]]), .pos (some 3)]).Nodup :=
  ⟨.var _ rfl rfl, .cons (.positional _ rfl rfl) (.cons .none (.cons exWritten (.cons (.positional _ rfl rfl) .nil))), by decide⟩

example : ¬ Bare (some [.var (exVar 1)]) ∧ Written (some [.var (exVar 1)]) (.pos (some 1)) ∧
    (prototype (.var (exVar 1)) none 0 [some [.var (exVar 1)]]).diags = [.twice 0] :=
  ⟨by rintro ⟨x, h, hx⟩; simp at h; exact hx _ h.symm, .positional _ rfl rfl, by decide⟩

/-- C78, negation. In the prototype `MAC ABC,&B` the first operand is neither a parameter nor reported, and the second becomes the
first positional parameter. -/
theorem C78_witness : let st := prototype .empty none 0 [some [.str [65, 66, 67]], some [.var (exVar 2)]]
    st.diags = [] ∧ posParams st.params = [some 2] := by decide

/-- C78, negation. `&SYSLIST` is taken as a parameter without a report, also in a prototype that is otherwise as it should be. -/
theorem C78_witness_syslist (syslist : Name) : let st := prototype .empty none 0 [some [.var ⟨syslist, [], false, false, 0⟩]]
    st.diags = [] ∧ ¬ WellFormed st.label st.params syslist := by
  refine ⟨rfl, fun h => h.2 ?_⟩
  show syslist ∈ [syslist]
  simp

end Verif.MacroDef
