import Verif.Help.Model

/-!
What the help for instructions should say, in the notation of manuals: operands separated by commas, those that may be left out in
brackets, `A,B[,C[,D]]`.
-/
namespace Verif.Help
open Verif.Mach

/-- A list of operands of which the last `opt` may be left out. `gap` is written before the first bracket; `first` says that nothing
is written before. -/
def listed (gap : Text) (opt : Nat) : Bool → List Text → Text
  | _, [] => []
  | first, o :: os =>
    let item : Text := (if first then [] else t!",") ++ o
    if os.length < opt then
      (if os.length + 1 = opt then gap else []) ++ t!"[" ++ item ++ listed gap opt false os ++ t!"]"
    else item ++ listed gap opt false os

/-- The operands of an instruction that a mnemonic leaves to the user: those at places for which it has no value. -/
def freeOps (fixed : List (Nat × Nat)) : Nat → List Fmt → List Fmt
  | _, [] => []
  | i, f :: fs => if fixed.any (·.1 == i) then freeOps fixed (i + 1) fs else f :: freeOps fixed (i + 1) fs

/-- The operands of the instruction a mnemonic stands for: the value of the mnemonic where it has one. -/
def substituted (fixed : List (Nat × Nat)) : Nat → List Fmt → List Text
  | _, [] => []
  | i, f :: fs => ((fixed.find? (·.1 == i)).map (fun e => numText e.2)).getD f.text :: substituted fixed (i + 1) fs

/-- How the operands are written: a displacement `D` with its registers in parentheses (index `X`, vector `V`, register `R` or length
`L`; base `B`), a register `R`, a vector register `V`, a mask `M`, an immediate operand `I`, a relative address `RI`; displacements,
lengths, immediate operands and addresses with the number of bits and `S` (signed) or `U` (unsigned). -/
def written : List (Fmt × Text) := [
  (db_12_4_U, t!"D12U(B)"), (db_20_4_S, t!"D20S(B)"), (drb_12_4x4_U, t!"D12U(R,B)"), (dxb_12_4x4_U, t!"D12U(X,B)"), (dxb_20_4x4_S, t!"D20S(X,B)"), (dvb_12_4x4_U, t!"D12U(V,B)"),
  (db_12_8x4L_U, t!"D12U(L8U,B)"), (db_12_4x4L_U, t!"D12U(L4U,B)"), (reg_4_U, t!"R"), (vec_reg_4_U, t!"V"), (mask_4_U, t!"M"),
  (imm_4_U, t!"I4U"), (imm_8_S, t!"I8S"), (imm_8_U, t!"I8U"), (imm_12_S, t!"I12S"), (imm_16_S, t!"I16S"), (imm_16_U, t!"I16U"), (imm_32_S, t!"I32S"),
  (reg_imm_12_S, t!"RI12S"), (reg_imm_16_S, t!"RI16S"), (reg_imm_24_S, t!"RI24S"), (reg_imm_32_S, t!"RI32S")]

/-- The names of the formats of instructions. -/
def formatNames : List (MF × Text) := [
  (.E, t!"E"), (.I, t!"I"), (.IE, t!"IE"), (.MII, t!"MII"), (.RI_a, t!"RI-a"), (.RI_b, t!"RI-b"), (.RI_c, t!"RI-c"), (.RIE_a, t!"RIE-a"),
  (.RIE_b, t!"RIE-b"), (.RIE_c, t!"RIE-c"), (.RIE_d, t!"RIE-d"), (.RIE_e, t!"RIE-e"), (.RIE_f, t!"RIE-f"), (.RIE_g, t!"RIE-g"),
  (.RIL_a, t!"RIL-a"), (.RIL_b, t!"RIL-b"), (.RIL_c, t!"RIL-c"), (.RIS, t!"RIS"), (.RR, t!"RR"), (.RRD, t!"RRD"), (.RRE, t!"RRE"),
  (.RRF_a, t!"RRF-a"), (.RRF_b, t!"RRF-b"), (.RRF_c, t!"RRF-c"), (.RRF_d, t!"RRF-d"), (.RRF_e, t!"RRF-e"), (.RRS, t!"RRS"),
  (.RS_a, t!"RS-a"), (.RS_b, t!"RS-b"), (.RSI, t!"RSI"), (.RSL_a, t!"RSL-a"), (.RSL_b, t!"RSL-b"), (.RSY_a, t!"RSY-a"),
  (.RSY_b, t!"RSY-b"), (.RX_a, t!"RX-a"), (.RX_b, t!"RX-b"), (.RXE, t!"RXE"), (.RXF, t!"RXF"), (.RXY_a, t!"RXY-a"), (.RXY_b, t!"RXY-b"),
  (.S, t!"S"), (.SI, t!"SI"), (.SIL, t!"SIL"), (.SIY, t!"SIY"), (.SMI, t!"SMI"), (.SS_a, t!"SS-a"), (.SS_b, t!"SS-b"), (.SS_c, t!"SS-c"),
  (.SS_d, t!"SS-d"), (.SS_e, t!"SS-e"), (.SS_f, t!"SS-f"), (.SSE, t!"SSE"), (.SSF, t!"SSF"), (.VRI_a, t!"VRI-a"), (.VRI_b, t!"VRI-b"),
  (.VRI_c, t!"VRI-c"), (.VRI_d, t!"VRI-d"), (.VRI_e, t!"VRI-e"), (.VRI_f, t!"VRI-f"), (.VRI_g, t!"VRI-g"), (.VRI_h, t!"VRI-h"),
  (.VRI_i, t!"VRI-i"), (.VRR_a, t!"VRR-a"), (.VRR_b, t!"VRR-b"), (.VRR_c, t!"VRR-c"), (.VRR_d, t!"VRR-d"), (.VRR_e, t!"VRR-e"),
  (.VRR_f, t!"VRR-f"), (.VRR_g, t!"VRR-g"), (.VRR_h, t!"VRR-h"), (.VRR_i, t!"VRR-i"), (.VRS_a, t!"VRS-a"), (.VRS_b, t!"VRS-b"),
  (.VRS_c, t!"VRS-c"), (.VRS_d, t!"VRS-d"), (.VSI, t!"VSI"), (.VRV, t!"VRV"), (.VRX, t!"VRX")]

/-- Nothing to show is shown as a blank. -/
def orBlank (t : Text) : Text := if t = [] then t!" " else t

end Verif.Help
