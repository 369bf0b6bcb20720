import Verif.Context.MacroData

/-!
Concatenations: the pieces of the operands of macros (semantics/concatenation.cpp, semantics/concatenation_term.cpp).
-/
namespace Verif.MacroDef

open Verif.Context

def cDot : UInt8 := 46
def cEqu : UInt8 := 61
def cAmp : UInt8 := 38

/-- `variable_symbol` (semantics/variable_symbol.h): the identifier and the spelling of its name, whether the name is created (`&(…)`)
and whether it has subscripts. The spelling of a created name is what `to_string` gives for the inner concatenation with the
parentheses (concatenation.cpp 121-126); the expressions of the subscripts are left out, they take part in the value only. -/
structure Var where
  id : Nat
  text : Bytes
  created : Bool
  subscripted : Bool
  /-- distinguishes occurrences with different subscripts or created names -/
  occ : Nat
  deriving DecidableEq, Repr

/-- `concatenation_point` (semantics/concatenation.h 40-73): text, variable symbol, full stop, list in parentheses, equals sign. -/
inductive Piece where
  | str (t : Bytes)
  | var (v : Var)
  | dot
  | sub (l : List (List Piece))
  | equ

abbrev Chain := List Piece

mutual
/-- `evaluate` of one piece (concatenation_term.cpp 27, 34-39, 59, 66, 73-85). `env` gives the text of the value of a variable symbol
(`var_sym_conc::evaluate`, 41-54). -/
def Piece.eval (env : Var → Bytes) : Piece → Bytes
  | .str t => t
  | .var v => env v
  | .dot => [cDot]
  | .sub l => cOpen :: (evalList env l ++ [cClose])
  | .equ => [cEqu]
/-- The loop of `concatenation_point::evaluate` (concatenation.cpp 55-82), `wasVar` is its local variable `was_var`. -/
def evalChain (env : Var → Bytes) (wasVar : Bool) : List Piece → Bytes
  | [] => []
  | .dot :: r => (if wasVar then [] else [cDot]) ++ evalChain env false r
  | .var v :: r => env v ++ evalChain env true r
  | .str t :: r => t ++ evalChain env false r
  | .equ :: r => cEqu :: evalChain env false r
  | .sub l :: r => (cOpen :: (evalList env l ++ [cClose])) ++ evalChain env false r
/-- The loop of `sublist_conc::evaluate` (concatenation_term.cpp 77-82). -/
def evalList (env : Var → Bytes) : List (List Piece) → Bytes
  | [] => []
  | [c] => evalChain env false c
  | c :: d :: l => evalChain env false c ++ cComma :: evalList env (d :: l)
end

/-- The name as `to_string` writes it (concatenation.cpp 119-129). Subscripts are not written. -/
def Var.show (v : Var) : Bytes := cAmp :: v.text

mutual
/-- `concatenation_point::to_string` (concatenation.cpp 99-147). -/
def showChain : List Piece → Bytes
  | [] => []
  | .dot :: r => cDot :: showChain r
  | .var v :: r => v.show ++ showChain r
  | .str t :: r => t ++ showChain r
  | .equ :: r => cEqu :: showChain r
  | .sub l :: r => (cOpen :: (showList l ++ [cClose])) ++ showChain r
/-- The loop over the list in it (concatenation.cpp 132-137). -/
def showList : List (List Piece) → Bytes
  | [] => []
  | [c] => showChain c
  | c :: d :: l => showChain c ++ cComma :: showList (d :: l)
end

mutual
/-- `contains_var_sym` (concatenation.cpp 149-171), as a truth value. -/
def hasVar : List Piece → Bool
  | [] => false
  | .var _ :: _ => true
  | .sub l :: r => hasVarList l || hasVar r
  | .str _ :: r => hasVar r
  | .dot :: r => hasVar r
  | .equ :: r => hasVar r
def hasVarList : List (List Piece) → Bool
  | [] => false
  | c :: l => hasVar c || hasVarList l
end

/-- A variable symbol occurs in the pieces, at the top or in a list. -/
inductive VarIn : List Piece → Prop
  | here (v : Var) (c : List Piece) : .var v ∈ c → VarIn c
  | inside (l : List (List Piece)) (c d : List Piece) : .sub l ∈ c → d ∈ l → VarIn d → VarIn c

theorem VarIn.tail {x : Piece} {r : List Piece} (h : VarIn r) : VarIn (x :: r) := by
  cases h with
  | here v _ hm => exact .here v _ (List.mem_cons_of_mem _ hm)
  | inside l _ d hm hd hv => exact .inside l _ d (List.mem_cons_of_mem _ hm) hd hv

mutual
theorem varIn_of_hasVar : ∀ c, hasVar c = true → VarIn c
  | [], h => by simp [hasVar] at h
  | .var v :: r, _ => .here v _ (by simp)
  | .str t :: r, h => (varIn_of_hasVar r (by simpa [hasVar] using h)).tail
  | .dot :: r, h => (varIn_of_hasVar r (by simpa [hasVar] using h)).tail
  | .equ :: r, h => (varIn_of_hasVar r (by simpa [hasVar] using h)).tail
  | .sub l :: r, h => by
    rw [hasVar, Bool.or_eq_true] at h
    rcases h with h | h
    · obtain ⟨d, hd, hv⟩ := varIn_of_hasVarList l h
      exact .inside l _ d (by simp) hd hv
    · exact (varIn_of_hasVar r h).tail
theorem varIn_of_hasVarList : ∀ l, hasVarList l = true → ∃ d ∈ l, VarIn d
  | [], h => by simp [hasVarList] at h
  | c :: l, h => by
    rw [hasVarList, Bool.or_eq_true] at h
    rcases h with h | h
    · exact ⟨c, by simp, varIn_of_hasVar c h⟩
    · obtain ⟨d, hd, hv⟩ := varIn_of_hasVarList l h
      exact ⟨d, by simp [hd], hv⟩
end

theorem hasVarList_of_mem {d : List Piece} (h : hasVar d = true) : ∀ {l}, d ∈ l → hasVarList l = true
  | c :: l, hm => by
    rw [hasVarList, Bool.or_eq_true]
    rcases List.mem_cons.1 hm with rfl | hm
    · exact Or.inl h
    · exact Or.inr (hasVarList_of_mem h hm)

theorem hasVar_of_var {v : Var} : ∀ {c}, .var v ∈ c → hasVar c = true
  | x :: r, hm => by
    rcases List.mem_cons.1 hm with rfl | hm
    · simp [hasVar]
    · have := hasVar_of_var hm
      cases x <;> simp [hasVar, this]

theorem hasVar_of_sub {l : List (List Piece)} (h : hasVarList l = true) : ∀ {c}, .sub l ∈ c → hasVar c = true
  | x :: r, hm => by
    rcases List.mem_cons.1 hm with rfl | hm
    · simp [hasVar, h]
    · have := hasVar_of_sub h hm
      cases x <;> simp [hasVar, this]

theorem hasVar_iff (c : List Piece) : hasVar c = true ↔ VarIn c := by
  refine ⟨varIn_of_hasVar c, fun h => ?_⟩
  induction h with
  | here v c hm => exact hasVar_of_var hm
  | inside l c d hm hd _ ih => exact hasVar_of_sub (hasVarList_of_mem ih hd) hm

theorem hasVar_false_iff (c : List Piece) : hasVar c = false ↔ ¬ VarIn c := by
  rw [← hasVar_iff, Bool.not_eq_true]

mutual
/-- `create_macro_data_inner` (macro_processor.cpp 290-311): nothing, a list, or one text. -/
def dataWith (f : List Piece → Bytes) : List Piece → Data
  | [] => .dummy
  | [.sub l] => .comp (dataList f l)
  | c => .single (f c)
def dataList (f : List Piece → Bytes) : List (List Piece) → List Data
  | [] => []
  | c :: l => dataWith f c :: dataList f l
end

end Verif.MacroDef
