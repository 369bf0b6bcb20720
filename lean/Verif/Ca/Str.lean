import Verif.Ca.Func
/-!
Character terms: substring and duplication (expressions/conditional_assembly/terms/ca_string.cpp) and concatenation
(semantics/concatenation.cpp, concatenation_term.cpp).
-/
namespace Verif.Ca

/-- The diagnostics of a character term. -/
inductive StrDiag where
  | CE008 | CE009 | CE010 | CE011
  deriving DecidableEq, Repr

/-- The value of a character term, an error with an empty value, or undefined behaviour. -/
inductive StrRes where
  | ok (s : Bytes)
  | err (d : StrDiag)
  | ub
  deriving DecidableEq, Repr

/-- `ca_string::duplicate` (ca_string.cpp 107-138). `size * dupl` is computed in `size_t`; strings have at most a few thousand bytes and the
factor is below 2^31, so it does not wrap. -/
def duplicate (dupl : Option A) (value : Bytes) : StrRes :=
  match dupl with
  | none => .ok value
  | some n =>
    if n.toInt < 0 then .err .CE010
    else if value.length * n.toInt.toNat > MAX_STR_SIZE then .err .CE011
    else if n.toInt = 0 ∨ value = [] then .ok []
    else .ok ((List.range' 1 (n.toInt.toNat - 1)).foldl (fun acc _ => acc ++ value) value)

/-- The number of characters requested (ca_string.cpp 81-82): without a count, all from the start on. -/
def subCount (str : Bytes) (b : A) : Option A → Int
  | some c => c.toInt
  | none => (str.length : Int) - b.toInt + 1

/-- `ca_string::evaluate` (ca_string.cpp 68-105) after the concatenation of the value; `start` and `count` are the values of the substring
expressions. The computation of the missing count may overflow (undefined behaviour). -/
def evalString (dupl : Option A) (str : Bytes) (start : Option A) (count : Option A) : StrRes :=
  if str.length > MAX_STR_SIZE then .err .CE011
  else match start with
    | none => duplicate dupl str
    | some b =>
      let c := subCount str b count
      if c > 2147483647 then .ub
      else if b.toInt < 0 ∨ c < 0 ∨ (b.toInt = 0 ∧ c > 0) then .err .CE008
      else if b.toInt > str.length then .err .CE009
      else duplicate dupl (if c ≠ 0 then (str.drop (b.toInt.toNat - 1)).take c.toNat else [])

/-- An element of a concatenation chain (concatenation.h 35-75). The value of a variable symbol is already evaluated. -/
inductive Conc where
  | str (s : Bytes)
  | dot
  | equ
  | var (v : Bytes)
  | sub (l : List (List Conc))

mutual
/-- `concatenation_point::evaluate` (concatenation.cpp 56-87); the flag is `was_var`. -/
def concEval : Bool → List Conc → Bytes
  | _, [] => []
  | wasVar, .dot :: t => (if wasVar then [] else [46]) ++ concEval false t
  | _, .equ :: t => 61 :: concEval false t
  | _, .str s :: t => s ++ concEval false t
  | _, .sub l :: t => 40 :: (subEval l ++ 41 :: concEval false t)
  | _, .var v :: t => v ++ concEval true t
/-- The loop of `sublist_conc::evaluate` (concatenation_term.cpp 77-82). -/
def subEval : List (List Conc) → Bytes
  | [] => []
  | [c] => concEval false c
  | c :: d :: t => concEval false c ++ 44 :: subEval (d :: t)
end

/-- `concatenation_point::evaluate(chain)` (concatenation.cpp 51-54). -/
def evaluateChain (c : List Conc) : Bytes := concEval false c

/-- `var_sym_conc::evaluate` for a SETA symbol (concatenation_term.cpp 45-46); `none`: `std::abs` of the smallest number, undefined. -/
def varA (v : A) : Option Bytes := if v.toInt = -2147483648 then none else some ((decDigits v.toInt.natAbs).map digitChar)

end Verif.Ca
