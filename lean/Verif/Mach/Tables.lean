import Verif.Mach.Model

/-!
The tables of machine instructions and extended mnemonics, in the order of the calls in
parser_library/src/context/instruction.cpp (238-1790 and 1797-2752). Generated from the text of these calls; the page numbers
are left out. A later entry of a name already in the table has no effect (`std::map::insert`), as in `Tables.instr`.
-/
namespace Verif.Mach

set_option maxRecDepth 100000

/-- `instruction::get_machine_instructions` (instruction.cpp:242-1787). -/
def instrs : List Instr := [
  ⟨n!"AR", .RR, [reg_4_U, reg_4_U], 0⟩,
  ⟨n!"ADDFRR", .RRE, [reg_4_U, reg_4_U], 0⟩,
  ⟨n!"AGR", .RRE, [reg_4_U, reg_4_U], 0⟩,
  ⟨n!"AGFR", .RRE, [reg_4_U, reg_4_U], 0⟩,
  ⟨n!"ARK", .RRF_a, [reg_4_U, reg_4_U, reg_4_U], 0⟩,
  ⟨n!"AGRK", .RRF_a, [reg_4_U, reg_4_U, reg_4_U], 0⟩,
  ⟨n!"A", .RX_a, [reg_4_U, dxb_12_4x4_U], 0⟩,
  ⟨n!"AY", .RXY_a, [reg_4_U, dxb_20_4x4_S], 0⟩,
  ⟨n!"AG", .RXY_a, [reg_4_U, dxb_20_4x4_S], 0⟩,
  ⟨n!"AGF", .RXY_a, [reg_4_U, dxb_20_4x4_S], 0⟩,
  ⟨n!"AFI", .RIL_a, [reg_4_U, imm_32_S], 0⟩,
  ⟨n!"AGFI", .RIL_a, [reg_4_U, imm_32_S], 0⟩,
  ⟨n!"AHIK", .RIE_d, [reg_4_U, reg_4_U, imm_16_S], 0⟩,
  ⟨n!"AGHIK", .RIE_d, [reg_4_U, reg_4_U, imm_16_S], 0⟩,
  ⟨n!"ASI", .SIY, [db_20_4_S, imm_8_S], 0⟩,
  ⟨n!"AGSI", .SIY, [db_20_4_S, imm_8_S], 0⟩,
  ⟨n!"AH", .RX_a, [reg_4_U, dxb_12_4x4_U], 0⟩,
  ⟨n!"AHY", .RXY_a, [reg_4_U, dxb_20_4x4_S], 0⟩,
  ⟨n!"AGH", .RXY_a, [reg_4_U, dxb_20_4x4_S], 0⟩,
  ⟨n!"AHI", .RI_a, [reg_4_U, imm_16_S], 0⟩,
  ⟨n!"AGHI", .RI_a, [reg_4_U, imm_16_S], 0⟩,
  ⟨n!"AHHHR", .RRF_a, [reg_4_U, reg_4_U, reg_4_U], 0⟩,
  ⟨n!"AHHLR", .RRF_a, [reg_4_U, reg_4_U, reg_4_U], 0⟩,
  ⟨n!"AIH", .RIL_a, [reg_4_U, imm_32_S], 0⟩,
  ⟨n!"ALR", .RR, [reg_4_U, reg_4_U], 0⟩,
  ⟨n!"ALGR", .RRE, [reg_4_U, reg_4_U], 0⟩,
  ⟨n!"ALGFR", .RRE, [reg_4_U, reg_4_U], 0⟩,
  ⟨n!"ALRK", .RRF_a, [reg_4_U, reg_4_U, reg_4_U], 0⟩,
  ⟨n!"ALGRK", .RRF_a, [reg_4_U, reg_4_U, reg_4_U], 0⟩,
  ⟨n!"AL", .RX_a, [reg_4_U, dxb_12_4x4_U], 0⟩,
  ⟨n!"ALY", .RXY_a, [reg_4_U, dxb_20_4x4_S], 0⟩,
  ⟨n!"ALG", .RXY_a, [reg_4_U, dxb_20_4x4_S], 0⟩,
  ⟨n!"ALGF", .RXY_a, [reg_4_U, dxb_20_4x4_S], 0⟩,
  ⟨n!"ALFI", .RIL_a, [reg_4_U, imm_32_S], 0⟩,
  ⟨n!"ALGFI", .RIL_a, [reg_4_U, imm_32_S], 0⟩,
  ⟨n!"ALHHHR", .RRF_a, [reg_4_U, reg_4_U, reg_4_U], 0⟩,
  ⟨n!"ALHHLR", .RRF_a, [reg_4_U, reg_4_U, reg_4_U], 0⟩,
  ⟨n!"ALCR", .RRE, [reg_4_U, reg_4_U], 0⟩,
  ⟨n!"ALCGR", .RRE, [reg_4_U, reg_4_U], 0⟩,
  ⟨n!"ALC", .RXY_a, [reg_4_U, dxb_20_4x4_S], 0⟩,
  ⟨n!"ALCG", .RXY_a, [reg_4_U, dxb_20_4x4_S], 0⟩,
  ⟨n!"ALSI", .SIY, [db_20_4_S, imm_8_S], 0⟩,
  ⟨n!"ALGSI", .SIY, [db_20_4_S, imm_8_S], 0⟩,
  ⟨n!"ALHSIK", .RIE_d, [reg_4_U, reg_4_U, imm_16_S], 0⟩,
  ⟨n!"ALGHSIK", .RIE_d, [reg_4_U, reg_4_U, imm_16_S], 0⟩,
  ⟨n!"ALSIH", .RIL_a, [reg_4_U, imm_32_S], 0⟩,
  ⟨n!"ALSIHN", .RIL_a, [reg_4_U, imm_32_S], 0⟩,
  ⟨n!"NR", .RR, [reg_4_U, reg_4_U], 0⟩,
  ⟨n!"NGR", .RRE, [reg_4_U, reg_4_U], 0⟩,
  ⟨n!"NRK", .RRF_a, [reg_4_U, reg_4_U, reg_4_U], 0⟩,
  ⟨n!"NGRK", .RRF_a, [reg_4_U, reg_4_U, reg_4_U], 0⟩,
  ⟨n!"N", .RX_a, [reg_4_U, dxb_12_4x4_U], 0⟩,
  ⟨n!"NY", .RXY_a, [reg_4_U, dxb_20_4x4_S], 0⟩,
  ⟨n!"NG", .RXY_a, [reg_4_U, dxb_20_4x4_S], 0⟩,
  ⟨n!"NI", .SI, [db_12_4_U, imm_8_U], 0⟩,
  ⟨n!"NIY", .SIY, [db_20_4_S, imm_8_U], 0⟩,
  ⟨n!"NC", .SS_a, [db_12_8x4L_U, db_12_4_U], 0⟩,
  ⟨n!"NIHF", .RIL_a, [reg_4_U, imm_32_S], 0⟩,
  ⟨n!"NIHH", .RI_a, [reg_4_U, imm_16_U], 0⟩,
  ⟨n!"NIHL", .RI_a, [reg_4_U, imm_16_U], 0⟩,
  ⟨n!"NILF", .RIL_a, [reg_4_U, imm_32_S], 0⟩,
  ⟨n!"NILH", .RI_a, [reg_4_U, imm_16_U], 0⟩,
  ⟨n!"NILL", .RI_a, [reg_4_U, imm_16_U], 0⟩,
  ⟨n!"BALR", .RR, [reg_4_U, reg_4_U], 0⟩,
  ⟨n!"BAL", .RX_a, [reg_4_U, dxb_12_4x4_U], 0⟩,
  ⟨n!"BASR", .RR, [reg_4_U, reg_4_U], 0⟩,
  ⟨n!"BAS", .RX_a, [reg_4_U, dxb_12_4x4_U], 0⟩,
  ⟨n!"BASSM", .RX_a, [reg_4_U, reg_4_U], 0⟩,
  ⟨n!"BSM", .RR, [reg_4_U, reg_4_U], 0⟩,
  ⟨n!"BIC", .RXY_b, [mask_4_U, dxb_20_4x4_S], 0⟩,
  ⟨n!"BCR", .RR, [mask_4_U, reg_4_U], 0⟩,
  ⟨n!"BC", .RX_b, [mask_4_U, dxb_12_4x4_U], 0⟩,
  ⟨n!"BCTR", .RR, [reg_4_U, reg_4_U], 0⟩,
  ⟨n!"BCTGR", .RRE, [reg_4_U, reg_4_U], 0⟩,
  ⟨n!"BCT", .RX_a, [reg_4_U, dxb_12_4x4_U], 0⟩,
  ⟨n!"BCTG", .RXY_a, [reg_4_U, dxb_20_4x4_S], 0⟩,
  ⟨n!"BXH", .RS_a, [reg_4_U, reg_4_U, db_12_4_U], 0⟩,
  ⟨n!"BXHG", .RSY_a, [reg_4_U, reg_4_U, db_20_4_S], 0⟩,
  ⟨n!"BXLE", .RS_a, [reg_4_U, reg_4_U, db_12_4_U], 0⟩,
  ⟨n!"BXLEG", .RSY_a, [reg_4_U, reg_4_U, db_20_4_S], 0⟩,
  ⟨n!"BPP", .SMI, [mask_4_U, reg_imm_16_S, db_12_4_U], 0⟩,
  ⟨n!"BPRP", .MII, [mask_4_U, reg_imm_12_S, reg_imm_24_S], 0⟩,
  ⟨n!"BRAS", .RI_b, [reg_4_U, reg_imm_16_S], 0⟩,
  ⟨n!"BRASL", .RIL_b, [reg_4_U, reg_imm_32_S], 0⟩,
  ⟨n!"BRC", .RI_c, [mask_4_U, reg_imm_16_S], 0⟩,
  ⟨n!"BRCL", .RIL_c, [mask_4_U, reg_imm_32_S], 0⟩,
  ⟨n!"BRCT", .RI_b, [reg_4_U, reg_imm_16_S], 0⟩,
  ⟨n!"BRCTG", .RI_b, [reg_4_U, reg_imm_16_S], 0⟩,
  ⟨n!"BRCTH", .RIL_b, [reg_4_U, reg_imm_32_S], 0⟩,
  ⟨n!"BRXH", .RSI, [reg_4_U, reg_4_U, reg_imm_16_S], 0⟩,
  ⟨n!"BRXHG", .RIE_e, [reg_4_U, reg_4_U, reg_imm_16_S], 0⟩,
  ⟨n!"BRXLE", .RSI, [reg_4_U, reg_4_U, reg_imm_16_S], 0⟩,
  ⟨n!"BRXLG", .RIE_e, [reg_4_U, reg_4_U, reg_imm_16_S], 0⟩,
  ⟨n!"CKSM", .RRE, [reg_4_U, reg_4_U], 0⟩,
  ⟨n!"KM", .RRE, [reg_4_U, reg_4_U], 0⟩,
  ⟨n!"KMC", .RRE, [reg_4_U, reg_4_U], 0⟩,
  ⟨n!"KMA", .RRF_b, [reg_4_U, reg_4_U, reg_4_U], 0⟩,
  ⟨n!"KMF", .RRE, [reg_4_U, reg_4_U], 0⟩,
  ⟨n!"KMCTR", .RRF_b, [reg_4_U, reg_4_U, reg_4_U], 0⟩,
  ⟨n!"KMO", .RRE, [reg_4_U, reg_4_U], 0⟩,
  ⟨n!"CR", .RR, [reg_4_U, reg_4_U], 0⟩,
  ⟨n!"CGR", .RRE, [reg_4_U, reg_4_U], 0⟩,
  ⟨n!"CGFR", .RRE, [reg_4_U, reg_4_U], 0⟩,
  ⟨n!"C", .RX_a, [reg_4_U, dxb_12_4x4_U], 0⟩,
  ⟨n!"CY", .RXY_a, [reg_4_U, dxb_20_4x4_S], 0⟩,
  ⟨n!"CG", .RXY_a, [reg_4_U, dxb_20_4x4_S], 0⟩,
  ⟨n!"CGF", .RXY_a, [reg_4_U, dxb_20_4x4_S], 0⟩,
  ⟨n!"CFI", .RIL_a, [reg_4_U, imm_32_S], 0⟩,
  ⟨n!"CGFI", .RIL_a, [reg_4_U, imm_32_S], 0⟩,
  ⟨n!"CRL", .RIL_b, [reg_4_U, reg_imm_32_S], 0⟩,
  ⟨n!"CGRL", .RIL_b, [reg_4_U, reg_imm_32_S], 0⟩,
  ⟨n!"CGFRL", .RIL_b, [reg_4_U, reg_imm_32_S], 0⟩,
  ⟨n!"CRB", .RRS, [reg_4_U, reg_4_U, mask_4_U, db_12_4_U], 0⟩,
  ⟨n!"CGRB", .RRS, [reg_4_U, reg_4_U, mask_4_U, db_12_4_U], 0⟩,
  ⟨n!"CRJ", .RIE_b, [reg_4_U, reg_4_U, mask_4_U, reg_imm_16_S], 0⟩,
  ⟨n!"CGRJ", .RIE_b, [reg_4_U, reg_4_U, mask_4_U, reg_imm_16_S], 0⟩,
  ⟨n!"CIB", .RIS, [reg_4_U, imm_8_S, mask_4_U, db_12_4_U], 0⟩,
  ⟨n!"CGIB", .RIS, [reg_4_U, imm_8_S, mask_4_U, db_12_4_U], 0⟩,
  ⟨n!"CIJ", .RIE_c, [reg_4_U, imm_8_S, mask_4_U, reg_imm_16_S], 0⟩,
  ⟨n!"CGIJ", .RIE_c, [reg_4_U, imm_8_S, mask_4_U, reg_imm_16_S], 0⟩,
  ⟨n!"CFC", .S, [db_12_4_U], 0⟩,
  ⟨n!"CS", .RS_a, [reg_4_U, reg_4_U, db_12_4_U], 0⟩,
  ⟨n!"CSY", .RSY_a, [reg_4_U, reg_4_U, db_20_4_S], 0⟩,
  ⟨n!"CSG", .RSY_a, [reg_4_U, reg_4_U, db_20_4_S], 0⟩,
  ⟨n!"CDS", .RS_a, [reg_4_U, reg_4_U, db_12_4_U], 0⟩,
  ⟨n!"CDSY", .RSY_a, [reg_4_U, reg_4_U, db_20_4_S], 0⟩,
  ⟨n!"CDSG", .RSY_a, [reg_4_U, reg_4_U, db_20_4_S], 0⟩,
  ⟨n!"CSST", .SSF, [db_12_4_U, db_12_4_U, reg_4_U], 0⟩,
  ⟨n!"CRT", .RRF_c, [reg_4_U, reg_4_U, mask_4_U], 0⟩,
  ⟨n!"CGRT", .RRF_c, [reg_4_U, reg_4_U, mask_4_U], 0⟩,
  ⟨n!"CIT", .RIE_a, [reg_4_U, imm_16_S, mask_4_U], 0⟩,
  ⟨n!"CGIT", .RIE_a, [reg_4_U, imm_16_S, mask_4_U], 0⟩,
  ⟨n!"CH", .RX_a, [reg_4_U, dxb_12_4x4_U], 0⟩,
  ⟨n!"CHY", .RXY_a, [reg_4_U, dxb_20_4x4_S], 0⟩,
  ⟨n!"CGH", .RXY_a, [reg_4_U, dxb_20_4x4_S], 0⟩,
  ⟨n!"CHI", .RI_a, [reg_4_U, imm_16_S], 0⟩,
  ⟨n!"CGHI", .RI_a, [reg_4_U, imm_16_S], 0⟩,
  ⟨n!"CHHSI", .SIL, [db_12_4_U, imm_16_S], 0⟩,
  ⟨n!"CHSI", .SIL, [db_12_4_U, imm_16_S], 0⟩,
  ⟨n!"CGHSI", .SIL, [db_12_4_U, imm_16_S], 0⟩,
  ⟨n!"CHRL", .RIL_b, [reg_4_U, reg_imm_32_S], 0⟩,
  ⟨n!"CGHRL", .RIL_b, [reg_4_U, reg_imm_32_S], 0⟩,
  ⟨n!"CHHR", .RRE, [reg_4_U, reg_4_U], 0⟩,
  ⟨n!"CHLR", .RRE, [reg_4_U, reg_4_U], 0⟩,
  ⟨n!"CHF", .RXY_a, [reg_4_U, dxb_20_4x4_S], 0⟩,
  ⟨n!"CIH", .RIL_a, [reg_4_U, imm_32_S], 0⟩,
  ⟨n!"CLR", .RR, [reg_4_U, reg_4_U], 0⟩,
  ⟨n!"CLGR", .RRE, [reg_4_U, reg_4_U], 0⟩,
  ⟨n!"CLGFR", .RRE, [reg_4_U, reg_4_U], 0⟩,
  ⟨n!"CL", .RX_a, [reg_4_U, dxb_12_4x4_U], 0⟩,
  ⟨n!"CLY", .RXY_a, [reg_4_U, dxb_20_4x4_S], 0⟩,
  ⟨n!"CLG", .RXY_a, [reg_4_U, dxb_20_4x4_S], 0⟩,
  ⟨n!"CLGF", .RXY_a, [reg_4_U, dxb_20_4x4_S], 0⟩,
  ⟨n!"CLC", .SS_a, [db_12_8x4L_U, db_12_4_U], 0⟩,
  ⟨n!"CLFI", .RIL_a, [reg_4_U, imm_32_S], 0⟩,
  ⟨n!"CLGFI", .RIL_a, [reg_4_U, imm_32_S], 0⟩,
  ⟨n!"CLI", .SI, [db_12_4_U, imm_8_U], 0⟩,
  ⟨n!"CLIY", .SIY, [db_12_4_U, imm_8_U], 0⟩,
  ⟨n!"CLFHSI", .SIL, [db_12_4_U, imm_16_U], 0⟩,
  ⟨n!"CLGHSI", .SIL, [db_12_4_U, imm_16_U], 0⟩,
  ⟨n!"CLHHSI", .SIL, [db_12_4_U, imm_16_U], 0⟩,
  ⟨n!"CLRL", .RIL_b, [reg_4_U, reg_imm_32_S], 0⟩,
  ⟨n!"CLGRL", .RIL_b, [reg_4_U, reg_imm_32_S], 0⟩,
  ⟨n!"CLGFRL", .RIL_b, [reg_4_U, reg_imm_32_S], 0⟩,
  ⟨n!"CLHRL", .RIL_b, [reg_4_U, reg_imm_32_S], 0⟩,
  ⟨n!"CLGHRL", .RIL_b, [reg_4_U, reg_imm_32_S], 0⟩,
  ⟨n!"CLRB", .RRS, [reg_4_U, reg_4_U, mask_4_U, db_12_4_U], 0⟩,
  ⟨n!"CLGRB", .RRS, [reg_4_U, reg_4_U, mask_4_U, db_12_4_U], 0⟩,
  ⟨n!"CLRJ", .RIE_b, [reg_4_U, reg_4_U, mask_4_U, reg_imm_16_S], 0⟩,
  ⟨n!"CLGRJ", .RIE_b, [reg_4_U, reg_4_U, mask_4_U, reg_imm_16_S], 0⟩,
  ⟨n!"CLIB", .RIS, [reg_4_U, imm_8_S, mask_4_U, db_12_4_U], 0⟩,
  ⟨n!"CLGIB", .RIS, [reg_4_U, imm_8_S, mask_4_U, db_12_4_U], 0⟩,
  ⟨n!"CLIJ", .RIE_c, [reg_4_U, imm_8_S, mask_4_U, reg_imm_16_S], 0⟩,
  ⟨n!"CLGIJ", .RIE_c, [reg_4_U, imm_8_S, mask_4_U, reg_imm_16_S], 0⟩,
  ⟨n!"CLRT", .RRF_c, [reg_4_U, reg_4_U, mask_4_U], 0⟩,
  ⟨n!"CLGRT", .RRF_c, [reg_4_U, reg_4_U, mask_4_U], 0⟩,
  ⟨n!"CLT", .RSY_b, [reg_4_U, mask_4_U, dxb_20_4x4_S], 0⟩,
  ⟨n!"CLGT", .RSY_b, [reg_4_U, mask_4_U, dxb_20_4x4_S], 0⟩,
  ⟨n!"CLFIT", .RIE_a, [reg_4_U, imm_16_S, mask_4_U], 0⟩,
  ⟨n!"CLGIT", .RIE_a, [reg_4_U, imm_16_S, mask_4_U], 0⟩,
  ⟨n!"CLM", .RS_b, [reg_4_U, mask_4_U, db_12_4_U], 0⟩,
  ⟨n!"CLMY", .RSY_b, [reg_4_U, mask_4_U, db_20_4_S], 0⟩,
  ⟨n!"CLMH", .RSY_b, [reg_4_U, mask_4_U, db_20_4_S], 0⟩,
  ⟨n!"CLHHR", .RRE, [reg_4_U, reg_4_U], 0⟩,
  ⟨n!"CLHLR", .RRE, [reg_4_U, reg_4_U], 0⟩,
  ⟨n!"CLHF", .RXY_a, [reg_4_U, dxb_20_4x4_S], 0⟩,
  ⟨n!"CLCL", .RR, [reg_4_U, reg_4_U], 0⟩,
  ⟨n!"CLIH", .RIL_a, [reg_4_U, imm_32_S], 0⟩,
  ⟨n!"CLCLE", .RS_a, [reg_4_U, reg_4_U, db_12_4_U], 0⟩,
  ⟨n!"CLCLU", .RSY_a, [reg_4_U, reg_4_U, db_20_4_S], 0⟩,
  ⟨n!"CLST", .RRE, [reg_4_U, reg_4_U], 0⟩,
  ⟨n!"CUSE", .RRE, [reg_4_U, reg_4_U], 0⟩,
  ⟨n!"CMPSC", .RRE, [reg_4_U, reg_4_U], 0⟩,
  ⟨n!"KIMD", .RRE, [reg_4_U, reg_4_U], 0⟩,
  ⟨n!"KLMD", .RRE, [reg_4_U, reg_4_U], 0⟩,
  ⟨n!"KMAC", .RRE, [reg_4_U, reg_4_U], 0⟩,
  ⟨n!"CVB", .RX_a, [reg_4_U, dxb_12_4x4_U], 0⟩,
  ⟨n!"CVBY", .RXY_a, [reg_4_U, dxb_20_4x4_S], 0⟩,
  ⟨n!"CVBG", .RXY_a, [reg_4_U, dxb_20_4x4_S], 0⟩,
  ⟨n!"CVD", .RX_a, [reg_4_U, dxb_12_4x4_U], 0⟩,
  ⟨n!"CVDY", .RXY_a, [reg_4_U, dxb_20_4x4_S], 0⟩,
  ⟨n!"CVDG", .RXY_a, [reg_4_U, dxb_20_4x4_S], 0⟩,
  ⟨n!"CU24", .RRF_c, [reg_4_U, reg_4_U, mask_4_U], 1⟩,
  ⟨n!"CUUTF", .RRF_c, [reg_4_U, reg_4_U, mask_4_U], 0⟩,
  ⟨n!"CU21", .RRF_c, [reg_4_U, reg_4_U, mask_4_U], 0⟩,
  ⟨n!"CU42", .RRE, [reg_4_U, reg_4_U], 0⟩,
  ⟨n!"CU41", .RRE, [reg_4_U, reg_4_U], 0⟩,
  ⟨n!"CUTFU", .RRF_c, [reg_4_U, reg_4_U, mask_4_U], 1⟩,
  ⟨n!"CU12", .RRF_c, [reg_4_U, reg_4_U, mask_4_U], 1⟩,
  ⟨n!"CU14", .RRF_c, [reg_4_U, reg_4_U, mask_4_U], 1⟩,
  ⟨n!"CPYA", .RRE, [reg_4_U, reg_4_U], 0⟩,
  ⟨n!"DR", .RR, [reg_4_U, reg_4_U], 0⟩,
  ⟨n!"D", .RX_a, [reg_4_U, dxb_12_4x4_U], 0⟩,
  ⟨n!"DLR", .RRE, [reg_4_U, reg_4_U], 0⟩,
  ⟨n!"DLGR", .RRE, [reg_4_U, reg_4_U], 0⟩,
  ⟨n!"DL", .RXY_a, [reg_4_U, dxb_20_4x4_S], 0⟩,
  ⟨n!"DLG", .RXY_a, [reg_4_U, dxb_20_4x4_S], 0⟩,
  ⟨n!"DSGR", .RRE, [reg_4_U, reg_4_U], 0⟩,
  ⟨n!"DSGFR", .RRE, [reg_4_U, reg_4_U], 0⟩,
  ⟨n!"DSG", .RXY_a, [reg_4_U, dxb_20_4x4_S], 0⟩,
  ⟨n!"DSGF", .RXY_a, [reg_4_U, dxb_20_4x4_S], 0⟩,
  ⟨n!"HIO", .S, [db_12_4_U], 0⟩,
  ⟨n!"HDV", .S, [db_12_4_U], 0⟩,
  ⟨n!"SIO", .S, [db_12_4_U], 0⟩,
  ⟨n!"SIOF", .S, [db_12_4_U], 0⟩,
  ⟨n!"STIDC", .S, [db_12_4_U], 0⟩,
  ⟨n!"CLRCH", .S, [db_12_4_U], 0⟩,
  ⟨n!"CLRIO", .S, [db_12_4_U], 0⟩,
  ⟨n!"TCH", .S, [db_12_4_U], 0⟩,
  ⟨n!"TIO", .S, [db_12_4_U], 0⟩,
  ⟨n!"RRB", .S, [db_12_4_U], 0⟩,
  ⟨n!"CONCS", .S, [db_12_4_U], 0⟩,
  ⟨n!"DISCS", .S, [db_12_4_U], 0⟩,
  ⟨n!"XR", .RR, [reg_4_U, reg_4_U], 0⟩,
  ⟨n!"XGR", .RRE, [reg_4_U, reg_4_U], 0⟩,
  ⟨n!"XRK", .RRF_a, [reg_4_U, reg_4_U, reg_4_U], 0⟩,
  ⟨n!"XGRK", .RRF_a, [reg_4_U, reg_4_U, reg_4_U], 0⟩,
  ⟨n!"X", .RX_a, [reg_4_U, dxb_12_4x4_U], 0⟩,
  ⟨n!"XY", .RXY_a, [reg_4_U, dxb_20_4x4_S], 0⟩,
  ⟨n!"XG", .RXY_a, [reg_4_U, dxb_20_4x4_S], 0⟩,
  ⟨n!"XI", .SI, [db_12_4_U, imm_8_S], 0⟩,
  ⟨n!"XIY", .SIY, [db_20_4_S, imm_8_S], 0⟩,
  ⟨n!"XC", .SS_a, [db_12_8x4L_U, db_20_4_S], 0⟩,
  ⟨n!"EX", .RX_a, [reg_4_U, dxb_12_4x4_U], 0⟩,
  ⟨n!"XIHF", .RIL_a, [reg_4_U, imm_32_S], 0⟩,
  ⟨n!"XILF", .RIL_a, [reg_4_U, imm_32_S], 0⟩,
  ⟨n!"EXRL", .RIL_b, [reg_4_U, imm_32_S], 0⟩,
  ⟨n!"EAR", .RRE, [reg_4_U, reg_4_U], 0⟩,
  ⟨n!"ECAG", .RSY_a, [reg_4_U, reg_4_U, db_20_4_S], 0⟩,
  ⟨n!"ECTG", .SSF, [db_12_4_U, db_12_4_U, reg_4_U], 0⟩,
  ⟨n!"EPSW", .RRE, [reg_4_U, reg_4_U], 0⟩,
  ⟨n!"ETND", .RRE, [reg_4_U], 0⟩,
  ⟨n!"FLOGR", .RRE, [reg_4_U, reg_4_U], 0⟩,
  ⟨n!"IC", .RX_a, [reg_4_U, dxb_12_4x4_U], 0⟩,
  ⟨n!"ICY", .RXY_a, [reg_4_U, dxb_20_4x4_S], 0⟩,
  ⟨n!"ICM", .RS_b, [reg_4_U, mask_4_U, db_12_4_U], 0⟩,
  ⟨n!"ICMY", .RSY_b, [reg_4_U, mask_4_U, db_20_4_S], 0⟩,
  ⟨n!"ICMH", .RSY_b, [reg_4_U, mask_4_U, db_20_4_S], 0⟩,
  ⟨n!"IIHF", .RIL_a, [reg_4_U, imm_32_S], 0⟩,
  ⟨n!"IIHH", .RI_a, [reg_4_U, imm_16_U], 0⟩,
  ⟨n!"IIHL", .RI_a, [reg_4_U, imm_16_U], 0⟩,
  ⟨n!"IILF", .RIL_a, [reg_4_U, imm_32_S], 0⟩,
  ⟨n!"IILH", .RI_a, [reg_4_U, imm_16_U], 0⟩,
  ⟨n!"IILL", .RI_a, [reg_4_U, imm_16_U], 0⟩,
  ⟨n!"IPM", .RRE, [reg_4_U], 0⟩,
  ⟨n!"LR", .RR, [reg_4_U, reg_4_U], 0⟩,
  ⟨n!"LGR", .RRE, [reg_4_U, reg_4_U], 0⟩,
  ⟨n!"LGFR", .RRE, [reg_4_U, reg_4_U], 0⟩,
  ⟨n!"L", .RX_a, [reg_4_U, dxb_12_4x4_U], 0⟩,
  ⟨n!"LY", .RXY_a, [reg_4_U, dxb_20_4x4_S], 0⟩,
  ⟨n!"LG", .RXY_a, [reg_4_U, dxb_20_4x4_S], 0⟩,
  ⟨n!"LGF", .RXY_a, [reg_4_U, dxb_20_4x4_S], 0⟩,
  ⟨n!"LGFI", .RIL_a, [reg_4_U, imm_32_S], 0⟩,
  ⟨n!"LRL", .RIL_b, [reg_4_U, reg_imm_32_S], 0⟩,
  ⟨n!"LGRL", .RIL_b, [reg_4_U, reg_imm_32_S], 0⟩,
  ⟨n!"LGFRL", .RIL_b, [reg_4_U, reg_imm_32_S], 0⟩,
  ⟨n!"LAM", .RS_a, [reg_4_U, reg_4_U, db_12_4_U], 0⟩,
  ⟨n!"LAMY", .RSY_a, [reg_4_U, reg_4_U, db_20_4_S], 0⟩,
  ⟨n!"LA", .RX_a, [reg_4_U, dxb_12_4x4_U], 0⟩,
  ⟨n!"LAY", .RXY_a, [reg_4_U, dxb_20_4x4_S], 0⟩,
  ⟨n!"LAE", .RX_a, [reg_4_U, dxb_12_4x4_U], 0⟩,
  ⟨n!"LAEY", .RXY_a, [reg_4_U, dxb_20_4x4_S], 0⟩,
  ⟨n!"LARL", .RIL_b, [reg_4_U, reg_imm_32_S], 0⟩,
  ⟨n!"LAA", .RSY_a, [reg_4_U, reg_4_U, db_20_4_S], 0⟩,
  ⟨n!"LAAG", .RSY_a, [reg_4_U, reg_4_U, db_20_4_S], 0⟩,
  ⟨n!"LAAL", .RSY_a, [reg_4_U, reg_4_U, db_20_4_S], 0⟩,
  ⟨n!"LAALG", .RSY_a, [reg_4_U, reg_4_U, db_20_4_S], 0⟩,
  ⟨n!"LAN", .RSY_a, [reg_4_U, reg_4_U, db_20_4_S], 0⟩,
  ⟨n!"LANG", .RSY_a, [reg_4_U, reg_4_U, db_20_4_S], 0⟩,
  ⟨n!"LAX", .RSY_a, [reg_4_U, reg_4_U, db_20_4_S], 0⟩,
  ⟨n!"LAXG", .RSY_a, [reg_4_U, reg_4_U, db_20_4_S], 0⟩,
  ⟨n!"LAO", .RSY_a, [reg_4_U, reg_4_U, db_20_4_S], 0⟩,
  ⟨n!"LAOG", .RSY_a, [reg_4_U, reg_4_U, db_20_4_S], 0⟩,
  ⟨n!"LTR", .RR, [reg_4_U, reg_4_U], 0⟩,
  ⟨n!"LTGR", .RRE, [reg_4_U, reg_4_U], 0⟩,
  ⟨n!"LTGFR", .RRE, [reg_4_U, reg_4_U], 0⟩,
  ⟨n!"LT", .RXY_a, [reg_4_U, dxb_20_4x4_S], 0⟩,
  ⟨n!"LTG", .RXY_a, [reg_4_U, dxb_20_4x4_S], 0⟩,
  ⟨n!"LTGF", .RXY_a, [reg_4_U, dxb_20_4x4_S], 0⟩,
  ⟨n!"LAT", .RXY_a, [reg_4_U, dxb_20_4x4_S], 0⟩,
  ⟨n!"LGAT", .RXY_a, [reg_4_U, dxb_20_4x4_S], 0⟩,
  ⟨n!"LZRF", .RXY_a, [reg_4_U, dxb_20_4x4_S], 0⟩,
  ⟨n!"LZRG", .RXY_a, [reg_4_U, dxb_20_4x4_S], 0⟩,
  ⟨n!"LBR", .RRE, [reg_4_U, reg_4_U], 0⟩,
  ⟨n!"LGBR", .RRE, [reg_4_U, reg_4_U], 0⟩,
  ⟨n!"LB", .RXY_a, [reg_4_U, dxb_20_4x4_S], 0⟩,
  ⟨n!"LGB", .RXY_a, [reg_4_U, dxb_20_4x4_S], 0⟩,
  ⟨n!"LBH", .RXY_a, [reg_4_U, dxb_20_4x4_S], 0⟩,
  ⟨n!"LCR", .RR, [reg_4_U, reg_4_U], 0⟩,
  ⟨n!"LCGR", .RRE, [reg_4_U, reg_4_U], 0⟩,
  ⟨n!"LCGFR", .RRE, [reg_4_U, reg_4_U], 0⟩,
  ⟨n!"LCBB", .RXE, [reg_4_U, dxb_12_4x4_U, mask_4_U], 0⟩,
  ⟨n!"LGG", .RXY_a, [reg_4_U, dxb_20_4x4_S], 0⟩,
  ⟨n!"LLGFSG", .RXY_a, [reg_4_U, dxb_20_4x4_S], 0⟩,
  ⟨n!"LGSC", .RXY_a, [reg_4_U, dxb_20_4x4_S], 0⟩,
  ⟨n!"LHR", .RRE, [reg_4_U, reg_4_U], 0⟩,
  ⟨n!"LGHR", .RRE, [reg_4_U, reg_4_U], 0⟩,
  ⟨n!"LH", .RX_a, [reg_4_U, dxb_12_4x4_U], 0⟩,
  ⟨n!"LHY", .RXY_a, [reg_4_U, dxb_20_4x4_S], 0⟩,
  ⟨n!"LGH", .RXY_a, [reg_4_U, dxb_20_4x4_S], 0⟩,
  ⟨n!"LHI", .RI_a, [reg_4_U, imm_16_S], 0⟩,
  ⟨n!"LGHI", .RI_a, [reg_4_U, imm_16_S], 0⟩,
  ⟨n!"LHRL", .RIL_b, [reg_4_U, imm_32_S], 0⟩,
  ⟨n!"LGHRL", .RIL_b, [reg_4_U, imm_32_S], 0⟩,
  ⟨n!"LHH", .RXY_a, [reg_4_U, dxb_20_4x4_S], 0⟩,
  ⟨n!"LOCHI", .RIE_g, [reg_4_U, imm_16_S, mask_4_U], 0⟩,
  ⟨n!"LOCGHI", .RIE_g, [reg_4_U, imm_16_S, mask_4_U], 0⟩,
  ⟨n!"LOCHHI", .RIE_g, [reg_4_U, imm_16_S, mask_4_U], 0⟩,
  ⟨n!"LFH", .RXY_a, [reg_4_U, dxb_20_4x4_S], 0⟩,
  ⟨n!"LFHAT", .RXY_a, [reg_4_U, dxb_20_4x4_S], 0⟩,
  ⟨n!"LLGFR", .RRE, [reg_4_U, reg_4_U], 0⟩,
  ⟨n!"LLGF", .RXY_a, [reg_4_U, dxb_20_4x4_S], 0⟩,
  ⟨n!"LLGFRL", .RIL_b, [reg_4_U, reg_imm_32_S], 0⟩,
  ⟨n!"LLGFAT", .RXY_a, [reg_4_U, dxb_20_4x4_S], 0⟩,
  ⟨n!"LLCR", .RRE, [reg_4_U, reg_4_U], 0⟩,
  ⟨n!"LLGCR", .RRE, [reg_4_U, reg_4_U], 0⟩,
  ⟨n!"LLC", .RXY_a, [reg_4_U, dxb_20_4x4_S], 0⟩,
  ⟨n!"LLGC", .RXY_a, [reg_4_U, dxb_20_4x4_S], 0⟩,
  ⟨n!"LLZRGF", .RXY_a, [reg_4_U, dxb_20_4x4_S], 0⟩,
  ⟨n!"LLCH", .RXY_a, [reg_4_U, dxb_20_4x4_S], 0⟩,
  ⟨n!"LLHR", .RRE, [reg_4_U, reg_4_U], 0⟩,
  ⟨n!"LLGHR", .RRE, [reg_4_U, reg_4_U], 0⟩,
  ⟨n!"LLH", .RXY_a, [reg_4_U, dxb_20_4x4_S], 0⟩,
  ⟨n!"LLGH", .RXY_a, [reg_4_U, dxb_20_4x4_S], 0⟩,
  ⟨n!"LLHRL", .RIL_b, [reg_4_U, reg_imm_32_S], 0⟩,
  ⟨n!"LLGHRL", .RIL_b, [reg_4_U, reg_imm_32_S], 0⟩,
  ⟨n!"LLHH", .RXY_a, [reg_4_U, dxb_20_4x4_S], 0⟩,
  ⟨n!"LLIHF", .RIL_a, [reg_4_U, imm_32_S], 0⟩,
  ⟨n!"LLIHH", .RI_a, [reg_4_U, imm_16_S], 0⟩,
  ⟨n!"LLIHL", .RI_a, [reg_4_U, imm_16_S], 0⟩,
  ⟨n!"LLILF", .RIL_a, [reg_4_U, imm_32_S], 0⟩,
  ⟨n!"LLILH", .RI_a, [reg_4_U, imm_16_S], 0⟩,
  ⟨n!"LLILL", .RI_a, [reg_4_U, imm_16_S], 0⟩,
  ⟨n!"LLGTR", .RRE, [reg_4_U, reg_4_U], 0⟩,
  ⟨n!"LLGT", .RXY_a, [reg_4_U, dxb_20_4x4_S], 0⟩,
  ⟨n!"LLGTAT", .RXY_a, [reg_4_U, dxb_20_4x4_S], 0⟩,
  ⟨n!"LM", .RS_a, [reg_4_U, reg_4_U, db_12_4_U], 0⟩,
  ⟨n!"LMY", .RSY_a, [reg_4_U, reg_4_U, db_20_4_S], 0⟩,
  ⟨n!"LMG", .RSY_a, [reg_4_U, reg_4_U, db_20_4_S], 0⟩,
  ⟨n!"LMD", .SS_e, [reg_4_U, reg_4_U, db_12_4_U, db_12_4_U], 0⟩,
  ⟨n!"LMH", .RSY_a, [reg_4_U, reg_4_U, db_20_4_S], 0⟩,
  ⟨n!"LNR", .RR, [reg_4_U, reg_4_U], 0⟩,
  ⟨n!"LNGR", .RRE, [reg_4_U, reg_4_U], 0⟩,
  ⟨n!"LNGFR", .RRE, [reg_4_U, reg_4_U], 0⟩,
  ⟨n!"LOCFHR", .RRF_c, [reg_4_U, reg_4_U, mask_4_U], 0⟩,
  ⟨n!"LOCFH", .RSY_b, [reg_4_U, db_20_4_S, mask_4_U], 0⟩,
  ⟨n!"LOCR", .RRF_c, [reg_4_U, reg_4_U, mask_4_U], 0⟩,
  ⟨n!"LOCGR", .RRF_c, [reg_4_U, reg_4_U, mask_4_U], 0⟩,
  ⟨n!"LOC", .RSY_b, [reg_4_U, db_20_4_S, mask_4_U], 0⟩,
  ⟨n!"LOCG", .RSY_b, [reg_4_U, db_20_4_S, mask_4_U], 0⟩,
  ⟨n!"LPD", .SSF, [reg_4_U, db_12_4_U, db_12_4_U], 0⟩,
  ⟨n!"LPDG", .SSF, [reg_4_U, db_12_4_U, db_12_4_U], 0⟩,
  ⟨n!"LPQ", .RXY_a, [reg_4_U, dxb_20_4x4_S], 0⟩,
  ⟨n!"LPR", .RR, [reg_4_U, reg_4_U], 0⟩,
  ⟨n!"LPGR", .RRE, [reg_4_U, reg_4_U], 0⟩,
  ⟨n!"LPGFR", .RRE, [reg_4_U, reg_4_U], 0⟩,
  ⟨n!"LRVR", .RRE, [reg_4_U, reg_4_U], 0⟩,
  ⟨n!"LRVGR", .RRE, [reg_4_U, reg_4_U], 0⟩,
  ⟨n!"LRVH", .RXY_a, [reg_4_U, dxb_20_4x4_S], 0⟩,
  ⟨n!"LRV", .RXY_a, [reg_4_U, dxb_20_4x4_S], 0⟩,
  ⟨n!"LRVG", .RXY_a, [reg_4_U, dxb_20_4x4_S], 0⟩,
  ⟨n!"MC", .SI, [db_12_4_U, imm_8_S], 0⟩,
  ⟨n!"MVC", .SS_a, [db_12_8x4L_U, db_12_4_U], 0⟩,
  ⟨n!"MVCRL", .SSE, [db_12_4_U, db_12_4_U], 0⟩,
  ⟨n!"MVHHI", .SIL, [db_12_4_U, imm_16_S], 0⟩,
  ⟨n!"MVHI", .SIL, [db_12_4_U, imm_16_S], 0⟩,
  ⟨n!"MVGHI", .SIL, [db_12_4_U, imm_16_S], 0⟩,
  ⟨n!"MVI", .SI, [db_12_4_U, imm_8_U], 0⟩,
  ⟨n!"MVIY", .SIY, [db_12_4_U, imm_8_U], 0⟩,
  ⟨n!"MVCIN", .SS_a, [db_12_8x4L_U, db_12_4_U], 0⟩,
  ⟨n!"MVCL", .RR, [reg_4_U, reg_4_U], 0⟩,
  ⟨n!"MVCLE", .RS_a, [reg_4_U, reg_4_U, db_12_4_U], 0⟩,
  ⟨n!"MVCLU", .RSY_a, [reg_4_U, reg_4_U, db_20_4_S], 0⟩,
  ⟨n!"MVN", .SS_a, [db_12_8x4L_U, db_12_4_U], 0⟩,
  ⟨n!"MVST", .RRE, [reg_4_U, reg_4_U], 0⟩,
  ⟨n!"MVO", .SS_b, [db_12_4x4L_U, db_12_4x4L_U], 0⟩,
  ⟨n!"MVZ", .SS_a, [db_12_8x4L_U, db_12_4_U], 0⟩,
  ⟨n!"MR", .RR, [reg_4_U, reg_4_U], 0⟩,
  ⟨n!"MGRK", .RRF_a, [reg_4_U, reg_4_U, reg_4_U], 0⟩,
  ⟨n!"M", .RX_a, [reg_4_U, dxb_12_4x4_U], 0⟩,
  ⟨n!"MFY", .RXY_a, [reg_4_U, dxb_20_4x4_S], 0⟩,
  ⟨n!"MG", .RXY_a, [reg_4_U, dxb_20_4x4_S], 0⟩,
  ⟨n!"MH", .RX_a, [reg_4_U, dxb_12_4x4_U], 0⟩,
  ⟨n!"MHY", .RXY_a, [reg_4_U, dxb_20_4x4_S], 0⟩,
  ⟨n!"MGH", .RXY_a, [reg_4_U, dxb_20_4x4_S], 0⟩,
  ⟨n!"MHI", .RI_a, [reg_4_U, imm_16_S], 0⟩,
  ⟨n!"MGHI", .RI_a, [reg_4_U, imm_16_S], 0⟩,
  ⟨n!"MLR", .RRE, [reg_4_U, reg_4_U], 0⟩,
  ⟨n!"MLGR", .RRE, [reg_4_U, reg_4_U], 0⟩,
  ⟨n!"ML", .RXY_a, [reg_4_U, dxb_20_4x4_S], 0⟩,
  ⟨n!"MLG", .RXY_a, [reg_4_U, dxb_20_4x4_S], 0⟩,
  ⟨n!"MSR", .RRE, [reg_4_U, reg_4_U], 0⟩,
  ⟨n!"MSRKC", .RRF_a, [reg_4_U, reg_4_U, reg_4_U], 0⟩,
  ⟨n!"MSGR", .RRE, [reg_4_U, reg_4_U], 0⟩,
  ⟨n!"MSGRKC", .RRF_a, [reg_4_U, reg_4_U, reg_4_U], 0⟩,
  ⟨n!"MSGFR", .RRE, [reg_4_U, reg_4_U], 0⟩,
  ⟨n!"MS", .RX_a, [reg_4_U, dxb_12_4x4_U], 0⟩,
  ⟨n!"MSC", .RXY_a, [reg_4_U, dxb_20_4x4_S], 0⟩,
  ⟨n!"MSY", .RXY_a, [reg_4_U, dxb_20_4x4_S], 0⟩,
  ⟨n!"MSG", .RXY_a, [reg_4_U, dxb_20_4x4_S], 0⟩,
  ⟨n!"MSGC", .RXY_a, [reg_4_U, dxb_20_4x4_S], 0⟩,
  ⟨n!"MSGF", .RXY_a, [reg_4_U, dxb_20_4x4_S], 0⟩,
  ⟨n!"MSFI", .RIL_a, [reg_4_U, imm_32_S], 0⟩,
  ⟨n!"MSGFI", .RIL_a, [reg_4_U, imm_32_S], 0⟩,
  ⟨n!"NIAI", .IE, [imm_4_U, imm_4_U], 0⟩,
  ⟨n!"NTSTG", .RXY_a, [reg_4_U, dxb_20_4x4_S], 0⟩,
  ⟨n!"NCGRK", .RRF_a, [reg_4_U, reg_4_U, reg_4_U], 0⟩,
  ⟨n!"NCRK", .RRF_a, [reg_4_U, reg_4_U, reg_4_U], 0⟩,
  ⟨n!"NNRK", .RRF_a, [reg_4_U, reg_4_U, reg_4_U], 0⟩,
  ⟨n!"NNGRK", .RRF_a, [reg_4_U, reg_4_U, reg_4_U], 0⟩,
  ⟨n!"NOGRK", .RRF_a, [reg_4_U, reg_4_U, reg_4_U], 0⟩,
  ⟨n!"NORK", .RRF_a, [reg_4_U, reg_4_U, reg_4_U], 0⟩,
  ⟨n!"NXRK", .RRF_a, [reg_4_U, reg_4_U, reg_4_U], 0⟩,
  ⟨n!"NXGRK", .RRF_a, [reg_4_U, reg_4_U, reg_4_U], 0⟩,
  ⟨n!"OR", .RR, [reg_4_U, reg_4_U], 0⟩,
  ⟨n!"OGR", .RRE, [reg_4_U, reg_4_U], 0⟩,
  ⟨n!"ORK", .RRF_a, [reg_4_U, reg_4_U, reg_4_U], 0⟩,
  ⟨n!"OCGRK", .RRF_a, [reg_4_U, reg_4_U, reg_4_U], 0⟩,
  ⟨n!"OCRK", .RRF_a, [reg_4_U, reg_4_U, reg_4_U], 0⟩,
  ⟨n!"OGRK", .RRF_a, [reg_4_U, reg_4_U, reg_4_U], 0⟩,
  ⟨n!"O", .RX_a, [reg_4_U, dxb_12_4x4_U], 0⟩,
  ⟨n!"OY", .RXY_a, [reg_4_U, dxb_20_4x4_S], 0⟩,
  ⟨n!"OG", .RXY_a, [reg_4_U, dxb_20_4x4_S], 0⟩,
  ⟨n!"OI", .SI, [db_12_4_U, imm_8_U], 0⟩,
  ⟨n!"OIY", .SIY, [db_20_4_S, imm_8_U], 0⟩,
  ⟨n!"OC", .SS_a, [db_12_8x4L_U, db_12_4_U], 0⟩,
  ⟨n!"OIHF", .RIL_a, [reg_4_U, imm_32_S], 0⟩,
  ⟨n!"OIHH", .RI_a, [reg_4_U, imm_16_S], 0⟩,
  ⟨n!"OIHL", .RI_a, [reg_4_U, imm_16_S], 0⟩,
  ⟨n!"OILF", .RIL_a, [reg_4_U, imm_32_S], 0⟩,
  ⟨n!"OILH", .RI_a, [reg_4_U, imm_16_S], 0⟩,
  ⟨n!"OILL", .RI_a, [reg_4_U, imm_16_S], 0⟩,
  ⟨n!"PACK", .SS_b, [db_12_4x4L_U, db_12_4x4L_U], 0⟩,
  ⟨n!"PKA", .SS_f, [db_12_4_U, db_12_8x4L_U], 0⟩,
  ⟨n!"PKU", .SS_f, [db_12_4_U, db_12_8x4L_U], 0⟩,
  ⟨n!"PCC", .RRE, [], 0⟩,
  ⟨n!"PLO", .SS_e, [reg_4_U, db_12_4_U, reg_4_U, db_12_4_U], 0⟩,
  ⟨n!"PPA", .RRF_c, [reg_4_U, reg_4_U, mask_4_U], 0⟩,
  ⟨n!"PRNO", .RRE, [reg_4_U, reg_4_U], 0⟩,
  ⟨n!"PPNO", .RRE, [reg_4_U, reg_4_U], 0⟩,
  ⟨n!"POPCNT", .RRF_c, [reg_4_U, reg_4_U, mask_4_U], 1⟩,
  ⟨n!"PFD", .RXY_b, [mask_4_U, dxb_20_4x4_S], 0⟩,
  ⟨n!"PFDRL", .RIL_c, [mask_4_U, reg_imm_32_S], 0⟩,
  ⟨n!"RLL", .RSY_a, [reg_4_U, reg_4_U, db_20_4_S], 0⟩,
  ⟨n!"RLLG", .RSY_a, [reg_4_U, reg_4_U, db_20_4_S], 0⟩,
  ⟨n!"RNSBG", .RIE_f, [reg_4_U, reg_4_U, imm_8_S, imm_8_S, imm_8_S], 1⟩,
  ⟨n!"RXSBG", .RIE_f, [reg_4_U, reg_4_U, imm_8_S, imm_8_S, imm_8_S], 1⟩,
  ⟨n!"ROSBG", .RIE_f, [reg_4_U, reg_4_U, imm_8_S, imm_8_S, imm_8_S], 1⟩,
  ⟨n!"RISBG", .RIE_f, [reg_4_U, reg_4_U, imm_8_S, imm_8_S, imm_8_S], 1⟩,
  ⟨n!"RISBGN", .RIE_f, [reg_4_U, reg_4_U, imm_8_S, imm_8_S, imm_8_S], 1⟩,
  ⟨n!"RISBHG", .RIE_f, [reg_4_U, reg_4_U, imm_8_S, imm_8_S, imm_8_S], 1⟩,
  ⟨n!"RISBLG", .RIE_f, [reg_4_U, reg_4_U, imm_8_S, imm_8_S, imm_8_S], 1⟩,
  ⟨n!"RNSBGT", .RIE_f, [reg_4_U, reg_4_U, imm_8_S, imm_8_S, imm_8_S], 1⟩,
  ⟨n!"RXSBGT", .RIE_f, [reg_4_U, reg_4_U, imm_8_S, imm_8_S, imm_8_S], 1⟩,
  ⟨n!"ROSBGT", .RIE_f, [reg_4_U, reg_4_U, imm_8_S, imm_8_S, imm_8_S], 1⟩,
  ⟨n!"RISBGZ", .RIE_f, [reg_4_U, reg_4_U, imm_8_S, imm_8_S, imm_8_S], 1⟩,
  ⟨n!"RISBGNZ", .RIE_f, [reg_4_U, reg_4_U, imm_8_S, imm_8_S, imm_8_S], 1⟩,
  ⟨n!"RISBHGZ", .RIE_f, [reg_4_U, reg_4_U, imm_8_S, imm_8_S, imm_8_S], 1⟩,
  ⟨n!"RISBLGZ", .RIE_f, [reg_4_U, reg_4_U, imm_8_S, imm_8_S, imm_8_S], 1⟩,
  ⟨n!"SRST", .RRE, [reg_4_U, reg_4_U], 0⟩,
  ⟨n!"SRSTU", .RRE, [reg_4_U, reg_4_U], 0⟩,
  ⟨n!"SAR", .RRE, [reg_4_U, reg_4_U], 0⟩,
  ⟨n!"SAM24", .E, [], 0⟩,
  ⟨n!"SAM31", .E, [], 0⟩,
  ⟨n!"SAM64", .E, [], 0⟩,
  ⟨n!"SPM", .RR, [reg_4_U], 0⟩,
  ⟨n!"SLDA", .RS_a, [reg_4_U, db_12_4_U], 0⟩,
  ⟨n!"SLA", .RS_a, [reg_4_U, db_12_4_U], 0⟩,
  ⟨n!"SLAK", .RSY_a, [reg_4_U, reg_4_U, db_20_4_S], 0⟩,
  ⟨n!"SLAG", .RSY_a, [reg_4_U, reg_4_U, db_20_4_S], 0⟩,
  ⟨n!"SLDL", .RS_a, [reg_4_U, db_12_4_U], 0⟩,
  ⟨n!"SLL", .RS_a, [reg_4_U, db_12_4_U], 0⟩,
  ⟨n!"SLLK", .RSY_a, [reg_4_U, reg_4_U, db_20_4_S], 0⟩,
  ⟨n!"SLLG", .RSY_a, [reg_4_U, reg_4_U, db_20_4_S], 0⟩,
  ⟨n!"SRDA", .RS_a, [reg_4_U, db_12_4_U], 0⟩,
  ⟨n!"SRDL", .RS_a, [reg_4_U, db_12_4_U], 0⟩,
  ⟨n!"SRA", .RS_a, [reg_4_U, db_12_4_U], 0⟩,
  ⟨n!"SRAK", .RSY_a, [reg_4_U, reg_4_U, db_20_4_S], 0⟩,
  ⟨n!"SRAG", .RSY_a, [reg_4_U, reg_4_U, db_20_4_S], 0⟩,
  ⟨n!"SRL", .RS_a, [reg_4_U, db_12_4_U], 0⟩,
  ⟨n!"SRLK", .RSY_a, [reg_4_U, reg_4_U, db_20_4_S], 0⟩,
  ⟨n!"SRLG", .RSY_a, [reg_4_U, reg_4_U, db_20_4_S], 0⟩,
  ⟨n!"ST", .RX_a, [reg_4_U, dxb_12_4x4_U], 0⟩,
  ⟨n!"STY", .RXY_a, [reg_4_U, dxb_20_4x4_S], 0⟩,
  ⟨n!"STG", .RXY_a, [reg_4_U, dxb_20_4x4_S], 0⟩,
  ⟨n!"STRL", .RIL_b, [reg_4_U, reg_imm_32_S], 0⟩,
  ⟨n!"STGRL", .RIL_b, [reg_4_U, reg_imm_32_S], 0⟩,
  ⟨n!"STAM", .RS_a, [reg_4_U, reg_4_U, db_12_4_U], 0⟩,
  ⟨n!"STAMY", .RSY_a, [reg_4_U, reg_4_U, db_20_4_S], 0⟩,
  ⟨n!"STC", .RX_a, [reg_4_U, dxb_12_4x4_U], 0⟩,
  ⟨n!"STCY", .RXY_a, [reg_4_U, dxb_20_4x4_S], 0⟩,
  ⟨n!"STCH", .RXY_a, [reg_4_U, dxb_20_4x4_S], 0⟩,
  ⟨n!"STCM", .RS_b, [reg_4_U, mask_4_U, db_12_4_U], 0⟩,
  ⟨n!"STCMY", .RSY_b, [reg_4_U, mask_4_U, db_20_4_S], 0⟩,
  ⟨n!"STCMH", .RSY_b, [reg_4_U, mask_4_U, db_20_4_S], 0⟩,
  ⟨n!"STCK", .S, [db_12_4_U], 0⟩,
  ⟨n!"STCKF", .S, [db_12_4_U], 0⟩,
  ⟨n!"STCKE", .S, [db_12_4_U], 0⟩,
  ⟨n!"STFLE", .S, [db_20_4_S], 0⟩,
  ⟨n!"STGSC", .RXY_a, [reg_4_U, dxb_20_4x4_S], 0⟩,
  ⟨n!"STH", .RX_a, [reg_4_U, dxb_12_4x4_U], 0⟩,
  ⟨n!"STHY", .RXY_a, [reg_4_U, dxb_20_4x4_S], 0⟩,
  ⟨n!"STHRL", .RIL_b, [reg_4_U, reg_imm_32_S], 0⟩,
  ⟨n!"STHH", .RXY_a, [reg_4_U, dxb_20_4x4_S], 0⟩,
  ⟨n!"STFH", .RXY_a, [reg_4_U, dxb_20_4x4_S], 0⟩,
  ⟨n!"STM", .RS_a, [reg_4_U, reg_4_U, db_12_4_U], 0⟩,
  ⟨n!"STMY", .RSY_a, [reg_4_U, reg_4_U, db_20_4_S], 0⟩,
  ⟨n!"STMG", .RSY_a, [reg_4_U, reg_4_U, db_20_4_S], 0⟩,
  ⟨n!"STMH", .RSY_a, [reg_4_U, reg_4_U, db_20_4_S], 0⟩,
  ⟨n!"STOC", .RSY_b, [reg_4_U, db_20_4_S, mask_4_U], 0⟩,
  ⟨n!"STOCG", .RSY_b, [reg_4_U, db_20_4_S, mask_4_U], 0⟩,
  ⟨n!"STOCFH", .RSY_b, [reg_4_U, db_20_4_S, mask_4_U], 0⟩,
  ⟨n!"STPQ", .RXY_a, [reg_4_U, dxb_20_4x4_S], 0⟩,
  ⟨n!"STRVH", .RXY_a, [reg_4_U, dxb_20_4x4_S], 0⟩,
  ⟨n!"STRV", .RXY_a, [reg_4_U, dxb_20_4x4_S], 0⟩,
  ⟨n!"STRVG", .RXY_a, [reg_4_U, dxb_20_4x4_S], 0⟩,
  ⟨n!"SR", .RR, [reg_4_U, reg_4_U], 0⟩,
  ⟨n!"SGR", .RRE, [reg_4_U, reg_4_U], 0⟩,
  ⟨n!"SGFR", .RRE, [reg_4_U, reg_4_U], 0⟩,
  ⟨n!"SRK", .RRF_a, [reg_4_U, reg_4_U, reg_4_U], 0⟩,
  ⟨n!"SGRK", .RRF_a, [reg_4_U, reg_4_U, reg_4_U], 0⟩,
  ⟨n!"S", .RX_a, [reg_4_U, dxb_12_4x4_U], 0⟩,
  ⟨n!"SY", .RXY_a, [reg_4_U, dxb_20_4x4_S], 0⟩,
  ⟨n!"SG", .RXY_a, [reg_4_U, dxb_20_4x4_S], 0⟩,
  ⟨n!"SGF", .RXY_a, [reg_4_U, dxb_20_4x4_S], 0⟩,
  ⟨n!"SH", .RX_a, [reg_4_U, dxb_12_4x4_U], 0⟩,
  ⟨n!"SHY", .RXY_a, [reg_4_U, dxb_20_4x4_S], 0⟩,
  ⟨n!"SGH", .RXY_a, [reg_4_U, dxb_20_4x4_S], 0⟩,
  ⟨n!"SHHHR", .RRF_a, [reg_4_U, reg_4_U, reg_4_U], 0⟩,
  ⟨n!"SHHLR", .RRF_a, [reg_4_U, reg_4_U, reg_4_U], 0⟩,
  ⟨n!"SLR", .RR, [reg_4_U, reg_4_U], 0⟩,
  ⟨n!"SLGR", .RRE, [reg_4_U, reg_4_U], 0⟩,
  ⟨n!"SLGFR", .RRE, [reg_4_U, reg_4_U], 0⟩,
  ⟨n!"SLRK", .RRF_a, [reg_4_U, reg_4_U, reg_4_U], 0⟩,
  ⟨n!"SLGRK", .RRF_a, [reg_4_U, reg_4_U, reg_4_U], 0⟩,
  ⟨n!"SL", .RX_a, [reg_4_U, dxb_12_4x4_U], 0⟩,
  ⟨n!"SLY", .RXY_a, [reg_4_U, dxb_20_4x4_S], 0⟩,
  ⟨n!"SLG", .RXY_a, [reg_4_U, dxb_20_4x4_S], 0⟩,
  ⟨n!"SLGF", .RXY_a, [reg_4_U, dxb_20_4x4_S], 0⟩,
  ⟨n!"SLFI", .RIL_a, [reg_4_U, imm_32_S], 0⟩,
  ⟨n!"SLGFI", .RIL_a, [reg_4_U, imm_32_S], 0⟩,
  ⟨n!"SLHHHR", .RRF_a, [reg_4_U, reg_4_U, reg_4_U], 0⟩,
  ⟨n!"SLHHLR", .RRF_a, [reg_4_U, reg_4_U, reg_4_U], 0⟩,
  ⟨n!"SLBR", .RRE, [reg_4_U, reg_4_U], 0⟩,
  ⟨n!"SLBGR", .RRE, [reg_4_U, reg_4_U], 0⟩,
  ⟨n!"SLB", .RXY_a, [reg_4_U, dxb_20_4x4_S], 0⟩,
  ⟨n!"SLBG", .RXY_a, [reg_4_U, dxb_20_4x4_S], 0⟩,
  ⟨n!"SVC", .I, [imm_8_U], 0⟩,
  ⟨n!"TS", .SI, [db_12_4_U], 0⟩,
  ⟨n!"TAM", .E, [], 0⟩,
  ⟨n!"TM", .SI, [db_12_4_U, imm_8_U], 0⟩,
  ⟨n!"TMY", .SIY, [db_20_4_S, imm_8_U], 0⟩,
  ⟨n!"TMHH", .RI_a, [reg_4_U, imm_16_U], 0⟩,
  ⟨n!"TMHL", .RI_a, [reg_4_U, imm_16_U], 0⟩,
  ⟨n!"TMH", .RI_a, [reg_4_U, imm_16_U], 0⟩,
  ⟨n!"TMLH", .RI_a, [reg_4_U, imm_16_U], 0⟩,
  ⟨n!"TML", .RI_a, [reg_4_U, imm_16_U], 0⟩,
  ⟨n!"TMLL", .RI_a, [reg_4_U, imm_16_U], 0⟩,
  ⟨n!"TABORT", .S, [db_12_4_U], 0⟩,
  ⟨n!"TBEGIN", .SIL, [db_12_4_U, imm_16_S], 0⟩,
  ⟨n!"TBEGINC", .SIL, [db_12_4_U, imm_16_S], 0⟩,
  ⟨n!"TEND", .S, [], 0⟩,
  ⟨n!"TR", .SS_a, [db_12_8x4L_U, db_12_4_U], 0⟩,
  ⟨n!"TRT", .SS_a, [db_12_8x4L_U, db_12_4_U], 0⟩,
  ⟨n!"TRTE", .RRF_c, [reg_4_U, reg_4_U, mask_4_U], 1⟩,
  ⟨n!"TRTRE", .RRF_c, [reg_4_U, reg_4_U, mask_4_U], 1⟩,
  ⟨n!"TRTR", .SS_a, [db_12_8x4L_U, db_12_4_U], 0⟩,
  ⟨n!"TRE", .RRE, [reg_4_U, reg_4_U], 0⟩,
  ⟨n!"TROO", .RRF_c, [reg_4_U, reg_4_U, mask_4_U], 1⟩,
  ⟨n!"TROT", .RRF_c, [reg_4_U, reg_4_U, mask_4_U], 1⟩,
  ⟨n!"TRTO", .RRF_c, [reg_4_U, reg_4_U, mask_4_U], 1⟩,
  ⟨n!"TRTT", .RRF_c, [reg_4_U, reg_4_U, mask_4_U], 1⟩,
  ⟨n!"UNPK", .SS_b, [db_12_4x4L_U, db_12_4x4L_U], 0⟩,
  ⟨n!"UNPKA", .SS_a, [db_12_8x4L_U, db_12_4_U], 0⟩,
  ⟨n!"UNPKU", .SS_a, [db_12_8x4L_U, db_12_4_U], 0⟩,
  ⟨n!"UPT", .E, [], 0⟩,
  ⟨n!"AP", .SS_b, [db_12_4x4L_U, db_12_4x4L_U], 0⟩,
  ⟨n!"CP", .SS_b, [db_12_4x4L_U, db_12_4x4L_U], 0⟩,
  ⟨n!"DP", .SS_b, [db_12_4x4L_U, db_12_4x4L_U], 0⟩,
  ⟨n!"DFLTCC", .RRF_a, [reg_4_U, reg_4_U, reg_4_U], 0⟩,
  ⟨n!"ED", .SS_a, [db_12_8x4L_U, db_12_4_U], 0⟩,
  ⟨n!"EDMK", .SS_a, [db_12_8x4L_U, db_12_4_U], 0⟩,
  ⟨n!"SRP", .SS_c, [db_12_4x4L_U, db_12_4_U, imm_4_U], 0⟩,
  ⟨n!"MP", .SS_b, [db_12_4x4L_U, db_12_4x4L_U], 0⟩,
  ⟨n!"SP", .SS_b, [db_12_4x4L_U, db_12_4x4L_U], 0⟩,
  ⟨n!"TP", .RSL_a, [db_12_4x4L_U], 0⟩,
  ⟨n!"ZAP", .SS_b, [db_12_4x4L_U, db_12_4x4L_U], 0⟩,
  ⟨n!"THDR", .RRE, [reg_4_U, reg_4_U], 0⟩,
  ⟨n!"THDER", .RRE, [reg_4_U, reg_4_U], 0⟩,
  ⟨n!"TBEDR", .RRF_e, [reg_4_U, mask_4_U, reg_4_U], 0⟩,
  ⟨n!"TBDR", .RRF_e, [reg_4_U, mask_4_U, reg_4_U], 0⟩,
  ⟨n!"CPSDR", .RRF_b, [reg_4_U, reg_4_U, reg_4_U], 0⟩,
  ⟨n!"EFPC", .RRE, [reg_4_U], 0⟩,
  ⟨n!"LER", .RR, [reg_4_U, reg_4_U], 0⟩,
  ⟨n!"LDR", .RR, [reg_4_U, reg_4_U], 0⟩,
  ⟨n!"LXR", .RRE, [reg_4_U, reg_4_U], 0⟩,
  ⟨n!"LE", .RX_a, [reg_4_U, dxb_12_4x4_U], 0⟩,
  ⟨n!"LD", .RX_a, [reg_4_U, dxb_12_4x4_U], 0⟩,
  ⟨n!"LEY", .RXY_a, [reg_4_U, dxb_20_4x4_S], 0⟩,
  ⟨n!"LDY", .RXY_a, [reg_4_U, dxb_20_4x4_S], 0⟩,
  ⟨n!"LCDFR", .RRE, [reg_4_U, reg_4_U], 0⟩,
  ⟨n!"LFPC", .S, [db_12_4_U], 0⟩,
  ⟨n!"LFAS", .S, [db_12_4_U], 0⟩,
  ⟨n!"LDGR", .RRE, [reg_4_U, reg_4_U], 0⟩,
  ⟨n!"LGDR", .RRE, [reg_4_U, reg_4_U], 0⟩,
  ⟨n!"LNDFR", .RRE, [reg_4_U, reg_4_U], 0⟩,
  ⟨n!"LPDFR", .RRE, [reg_4_U, reg_4_U], 0⟩,
  ⟨n!"LZER", .RRE, [reg_4_U], 0⟩,
  ⟨n!"LZXR", .RRE, [reg_4_U], 0⟩,
  ⟨n!"LZDR", .RRE, [reg_4_U], 0⟩,
  ⟨n!"PFPO", .E, [], 0⟩,
  ⟨n!"SRNM", .S, [db_12_4_U], 0⟩,
  ⟨n!"SRNMB", .S, [db_12_4_U], 0⟩,
  ⟨n!"SRNMT", .S, [db_12_4_U], 0⟩,
  ⟨n!"SFPC", .RRE, [reg_4_U], 0⟩,
  ⟨n!"SFASR", .RRE, [reg_4_U], 0⟩,
  ⟨n!"STE", .RX_a, [reg_4_U, dxb_12_4x4_U], 0⟩,
  ⟨n!"STD", .RX_a, [reg_4_U, dxb_12_4x4_U], 0⟩,
  ⟨n!"STDY", .RXY_a, [reg_4_U, dxb_20_4x4_S], 0⟩,
  ⟨n!"STEY", .RXY_a, [reg_4_U, dxb_20_4x4_S], 0⟩,
  ⟨n!"STFPC", .S, [db_12_4_U], 0⟩,
  ⟨n!"BSA", .RRE, [reg_4_U, reg_4_U], 0⟩,
  ⟨n!"BAKR", .RRE, [reg_4_U, reg_4_U], 0⟩,
  ⟨n!"BSG", .RRE, [reg_4_U, reg_4_U], 0⟩,
  ⟨n!"CRDTE", .RRF_b, [reg_4_U, reg_4_U, reg_4_U, mask_4_U], 1⟩,
  ⟨n!"CSP", .RRE, [reg_4_U, reg_4_U], 0⟩,
  ⟨n!"CSPG", .RRE, [reg_4_U, reg_4_U], 0⟩,
  ⟨n!"ESEA", .RRE, [reg_4_U], 0⟩,
  ⟨n!"EPAR", .RRE, [reg_4_U], 0⟩,
  ⟨n!"EPAIR", .RRE, [reg_4_U], 0⟩,
  ⟨n!"ESAR", .RRE, [reg_4_U], 0⟩,
  ⟨n!"ESAIR", .RRE, [reg_4_U], 0⟩,
  ⟨n!"EREG", .RRE, [reg_4_U, reg_4_U], 0⟩,
  ⟨n!"EREGG", .RRE, [reg_4_U, reg_4_U], 0⟩,
  ⟨n!"ESTA", .RRE, [reg_4_U, reg_4_U], 0⟩,
  ⟨n!"IAC", .RRE, [reg_4_U], 0⟩,
  ⟨n!"IPK", .S, [], 0⟩,
  ⟨n!"IRBM", .RRE, [reg_4_U, reg_4_U], 0⟩,
  ⟨n!"ISK", .RR, [reg_4_U, reg_4_U], 0⟩,
  ⟨n!"ISKE", .RRE, [reg_4_U, reg_4_U], 0⟩,
  ⟨n!"IVSK", .RRE, [reg_4_U, reg_4_U], 0⟩,
  ⟨n!"IDTE", .RRF_b, [reg_4_U, reg_4_U, reg_4_U, mask_4_U], 1⟩,
  ⟨n!"IPTE", .RRF_a, [reg_4_U, reg_4_U, reg_4_U, mask_4_U], 2⟩,
  ⟨n!"LASP", .SSE, [db_12_4_U, db_12_4_U], 0⟩,
  ⟨n!"LCTL", .RS_a, [reg_4_U, reg_4_U, db_12_4_U], 0⟩,
  ⟨n!"LCTLG", .RSY_a, [reg_4_U, reg_4_U, db_20_4_S], 0⟩,
  ⟨n!"LPTEA", .RRF_b, [reg_4_U, reg_4_U, reg_4_U, mask_4_U], 0⟩,
  ⟨n!"LPSW", .SI, [db_12_4_U], 0⟩,
  ⟨n!"LPSWE", .S, [db_12_4_U], 0⟩,
  ⟨n!"LRA", .RX_a, [reg_4_U, dxb_12_4x4_U], 0⟩,
  ⟨n!"LRAY", .RXY_a, [reg_4_U, dxb_20_4x4_S], 0⟩,
  ⟨n!"LRAG", .RXY_a, [reg_4_U, dxb_20_4x4_S], 0⟩,
  ⟨n!"LURA", .RRE, [reg_4_U, reg_4_U], 0⟩,
  ⟨n!"LURAG", .RRE, [reg_4_U, reg_4_U], 0⟩,
  ⟨n!"MSTA", .RRE, [reg_4_U], 0⟩,
  ⟨n!"MVPG", .RRE, [reg_4_U, reg_4_U], 0⟩,
  ⟨n!"MVCP", .SS_d, [drb_12_4x4_U, db_12_4_U, reg_4_U], 0⟩,
  ⟨n!"MVCS", .SS_d, [drb_12_4x4_U, db_12_4_U, reg_4_U], 0⟩,
  ⟨n!"MVCDK", .SSE, [db_12_4_U, db_12_4_U], 0⟩,
  ⟨n!"MVCK", .SS_d, [drb_12_4x4_U, db_12_4_U, reg_4_U], 0⟩,
  ⟨n!"MVCOS", .SSF, [db_12_4_U, db_12_4_U, reg_4_U], 0⟩,
  ⟨n!"MVCSK", .SSE, [db_12_4_U, db_12_4_U], 0⟩,
  ⟨n!"PGIN", .RRE, [reg_4_U, reg_4_U], 0⟩,
  ⟨n!"PGOUT", .RRE, [reg_4_U, reg_4_U], 0⟩,
  ⟨n!"PCKMO", .RRE, [], 0⟩,
  ⟨n!"PFMF", .RRE, [reg_4_U, reg_4_U], 0⟩,
  ⟨n!"PTFF", .E, [], 0⟩,
  ⟨n!"PTF", .RRE, [reg_4_U], 0⟩,
  ⟨n!"PC", .S, [db_12_4_U], 0⟩,
  ⟨n!"PR", .E, [], 0⟩,
  ⟨n!"PTI", .RRE, [reg_4_U, reg_4_U], 0⟩,
  ⟨n!"PT", .RRE, [reg_4_U, reg_4_U], 0⟩,
  ⟨n!"PALB", .RRE, [], 0⟩,
  ⟨n!"PTLB", .S, [], 0⟩,
  ⟨n!"RRBE", .RRE, [reg_4_U, reg_4_U], 0⟩,
  ⟨n!"RRBM", .RRE, [reg_4_U, reg_4_U], 0⟩,
  ⟨n!"RP", .S, [db_12_4_U], 0⟩,
  ⟨n!"SAC", .S, [db_12_4_U], 0⟩,
  ⟨n!"SACF", .S, [db_12_4_U], 0⟩,
  ⟨n!"SCK", .S, [db_12_4_U], 0⟩,
  ⟨n!"SCKC", .S, [db_12_4_U], 0⟩,
  ⟨n!"SCKPF", .E, [], 0⟩,
  ⟨n!"SPX", .S, [db_12_4_U], 0⟩,
  ⟨n!"SPT", .S, [db_12_4_U], 0⟩,
  ⟨n!"SPKA", .S, [db_12_4_U], 0⟩,
  ⟨n!"SSAR", .RRE, [reg_4_U], 0⟩,
  ⟨n!"SSAIR", .RRE, [reg_4_U], 0⟩,
  ⟨n!"SSK", .RR, [reg_4_U, reg_4_U], 0⟩,
  ⟨n!"SSKE", .RRF_c, [reg_4_U, reg_4_U, mask_4_U], 1⟩,
  ⟨n!"SSM", .SI, [db_12_4_U], 0⟩,
  ⟨n!"SIGP", .RS_a, [reg_4_U, reg_4_U, db_12_4_U], 0⟩,
  ⟨n!"STCKC", .S, [db_12_4_U], 0⟩,
  ⟨n!"STCTL", .RS_a, [reg_4_U, reg_4_U, db_12_4_U], 0⟩,
  ⟨n!"STCTG", .RSY_a, [reg_4_U, reg_4_U, db_20_4_S], 0⟩,
  ⟨n!"STAP", .S, [db_12_4_U], 0⟩,
  ⟨n!"STIDP", .S, [db_12_4_U], 0⟩,
  ⟨n!"STPT", .S, [db_12_4_U], 0⟩,
  ⟨n!"STFL", .S, [db_12_4_U], 0⟩,
  ⟨n!"STPX", .S, [db_12_4_U], 0⟩,
  ⟨n!"STRAG", .SSE, [db_12_4_U, db_12_4_U], 0⟩,
  ⟨n!"STSI", .S, [db_12_4_U], 0⟩,
  ⟨n!"STOSM", .SI, [db_12_4_U, imm_8_S], 0⟩,
  ⟨n!"STNSM", .SI, [db_12_4_U, imm_8_S], 0⟩,
  ⟨n!"STURA", .RRE, [reg_4_U, reg_4_U], 0⟩,
  ⟨n!"STURG", .RRE, [reg_4_U, reg_4_U], 0⟩,
  ⟨n!"TAR", .RRE, [reg_4_U, reg_4_U], 0⟩,
  ⟨n!"TB", .RRE, [reg_4_U, reg_4_U], 0⟩,
  ⟨n!"TPEI", .RRE, [reg_4_U, reg_4_U], 0⟩,
  ⟨n!"TPROT", .SSE, [db_12_4_U, db_12_4_U], 0⟩,
  ⟨n!"TRACE", .RS_a, [reg_4_U, reg_4_U, db_12_4_U], 0⟩,
  ⟨n!"TRACG", .RSY_a, [reg_4_U, reg_4_U, db_20_4_S], 0⟩,
  ⟨n!"TRAP2", .E, [], 0⟩,
  ⟨n!"TRAP4", .S, [db_12_4_U], 0⟩,
  ⟨n!"XSCH", .S, [], 0⟩,
  ⟨n!"CSCH", .S, [], 0⟩,
  ⟨n!"HSCH", .S, [], 0⟩,
  ⟨n!"MSCH", .S, [db_12_4_U], 0⟩,
  ⟨n!"RCHP", .S, [], 0⟩,
  ⟨n!"RSCH", .S, [], 0⟩,
  ⟨n!"SAL", .S, [], 0⟩,
  ⟨n!"SCHM", .S, [], 0⟩,
  ⟨n!"SSCH", .S, [db_12_4_U], 0⟩,
  ⟨n!"STCPS", .S, [db_12_4_U], 0⟩,
  ⟨n!"STCRW", .S, [db_12_4_U], 0⟩,
  ⟨n!"STSCH", .S, [db_12_4_U], 0⟩,
  ⟨n!"TPI", .S, [db_12_4_U], 0⟩,
  ⟨n!"TSCH", .S, [db_12_4_U], 0⟩,
  ⟨n!"AER", .RR, [reg_4_U, reg_4_U], 0⟩,
  ⟨n!"ADR", .RR, [reg_4_U, reg_4_U], 0⟩,
  ⟨n!"AXR", .RR, [reg_4_U, reg_4_U], 0⟩,
  ⟨n!"AE", .RX_a, [reg_4_U, dxb_12_4x4_U], 0⟩,
  ⟨n!"AD", .RX_a, [reg_4_U, dxb_12_4x4_U], 0⟩,
  ⟨n!"AWR", .RR, [reg_4_U, reg_4_U], 0⟩,
  ⟨n!"AUR", .RR, [reg_4_U, reg_4_U], 0⟩,
  ⟨n!"AU", .RX_a, [reg_4_U, dxb_12_4x4_U], 0⟩,
  ⟨n!"AW", .RX_a, [reg_4_U, dxb_12_4x4_U], 0⟩,
  ⟨n!"CER", .RR, [reg_4_U, reg_4_U], 0⟩,
  ⟨n!"CDR", .RR, [reg_4_U, reg_4_U], 0⟩,
  ⟨n!"CXR", .RRE, [reg_4_U, reg_4_U], 0⟩,
  ⟨n!"CE", .RX_a, [reg_4_U, dxb_12_4x4_U], 0⟩,
  ⟨n!"CD", .RX_a, [reg_4_U, dxb_12_4x4_U], 0⟩,
  ⟨n!"CEFR", .RRE, [reg_4_U, reg_4_U], 0⟩,
  ⟨n!"CDFR", .RRE, [reg_4_U, reg_4_U], 0⟩,
  ⟨n!"CXFR", .RRE, [reg_4_U, reg_4_U], 0⟩,
  ⟨n!"CEGR", .RRE, [reg_4_U, reg_4_U], 0⟩,
  ⟨n!"CDGR", .RRE, [reg_4_U, reg_4_U], 0⟩,
  ⟨n!"CXGR", .RRE, [reg_4_U, reg_4_U], 0⟩,
  ⟨n!"CFER", .RRF_e, [reg_4_U, mask_4_U, reg_4_U], 0⟩,
  ⟨n!"CFDR", .RRF_e, [reg_4_U, mask_4_U, reg_4_U], 0⟩,
  ⟨n!"CFXR", .RRF_e, [reg_4_U, mask_4_U, reg_4_U], 0⟩,
  ⟨n!"CGER", .RRF_e, [reg_4_U, mask_4_U, reg_4_U], 0⟩,
  ⟨n!"CGDR", .RRF_e, [reg_4_U, mask_4_U, reg_4_U], 0⟩,
  ⟨n!"CGXR", .RRF_e, [reg_4_U, mask_4_U, reg_4_U], 0⟩,
  ⟨n!"DDR", .RR, [reg_4_U, reg_4_U], 0⟩,
  ⟨n!"DER", .RR, [reg_4_U, reg_4_U], 0⟩,
  ⟨n!"DXR", .RRE, [reg_4_U, reg_4_U], 0⟩,
  ⟨n!"DD", .RX_a, [reg_4_U, dxb_12_4x4_U], 0⟩,
  ⟨n!"DE", .RX_a, [reg_4_U, dxb_12_4x4_U], 0⟩,
  ⟨n!"HDR", .RR, [reg_4_U, reg_4_U], 0⟩,
  ⟨n!"HER", .RR, [reg_4_U, reg_4_U], 0⟩,
  ⟨n!"LTER", .RR, [reg_4_U, reg_4_U], 0⟩,
  ⟨n!"LTDR", .RR, [reg_4_U, reg_4_U], 0⟩,
  ⟨n!"LTXR", .RRE, [reg_4_U, reg_4_U], 0⟩,
  ⟨n!"LCER", .RR, [reg_4_U, reg_4_U], 0⟩,
  ⟨n!"LCDR", .RR, [reg_4_U, reg_4_U], 0⟩,
  ⟨n!"LCXR", .RRE, [reg_4_U, reg_4_U], 0⟩,
  ⟨n!"FIER", .RRE, [reg_4_U, reg_4_U], 0⟩,
  ⟨n!"FIDR", .RRE, [reg_4_U, reg_4_U], 0⟩,
  ⟨n!"FIXR", .RRE, [reg_4_U, reg_4_U], 0⟩,
  ⟨n!"LDER", .RRE, [reg_4_U, reg_4_U], 0⟩,
  ⟨n!"LXDR", .RRE, [reg_4_U, reg_4_U], 0⟩,
  ⟨n!"LXER", .RRE, [reg_4_U, reg_4_U], 0⟩,
  ⟨n!"LDE", .RXE, [reg_4_U, dxb_12_4x4_U], 0⟩,
  ⟨n!"LXD", .RXE, [reg_4_U, dxb_12_4x4_U], 0⟩,
  ⟨n!"LXE", .RXE, [reg_4_U, dxb_12_4x4_U], 0⟩,
  ⟨n!"LNDR", .RR, [reg_4_U, reg_4_U], 0⟩,
  ⟨n!"LNER", .RR, [reg_4_U, reg_4_U], 0⟩,
  ⟨n!"LPDR", .RR, [reg_4_U, reg_4_U], 0⟩,
  ⟨n!"LPER", .RR, [reg_4_U, reg_4_U], 0⟩,
  ⟨n!"LNXR", .RRE, [reg_4_U, reg_4_U], 0⟩,
  ⟨n!"LPXR", .RRE, [reg_4_U, reg_4_U], 0⟩,
  ⟨n!"LEDR", .RR, [reg_4_U, reg_4_U], 0⟩,
  ⟨n!"LDXR", .RR, [reg_4_U, reg_4_U], 0⟩,
  ⟨n!"LRER", .RR, [reg_4_U, reg_4_U], 0⟩,
  ⟨n!"LRDR", .RR, [reg_4_U, reg_4_U], 0⟩,
  ⟨n!"LEXR", .RRE, [reg_4_U, reg_4_U], 0⟩,
  ⟨n!"MEER", .RRE, [reg_4_U, reg_4_U], 0⟩,
  ⟨n!"MDR", .RR, [reg_4_U, reg_4_U], 0⟩,
  ⟨n!"MXR", .RR, [reg_4_U, reg_4_U], 0⟩,
  ⟨n!"MDER", .RR, [reg_4_U, reg_4_U], 0⟩,
  ⟨n!"MER", .RR, [reg_4_U, reg_4_U], 0⟩,
  ⟨n!"MXDR", .RR, [reg_4_U, reg_4_U], 0⟩,
  ⟨n!"MEE", .RXE, [reg_4_U, dxb_12_4x4_U], 0⟩,
  ⟨n!"MD", .RX_a, [reg_4_U, dxb_12_4x4_U], 0⟩,
  ⟨n!"MDE", .RX_a, [reg_4_U, dxb_12_4x4_U], 0⟩,
  ⟨n!"MXD", .RX_a, [reg_4_U, dxb_12_4x4_U], 0⟩,
  ⟨n!"ME", .RX_a, [reg_4_U, dxb_12_4x4_U], 0⟩,
  ⟨n!"MAER", .RRD, [reg_4_U, reg_4_U, reg_4_U], 0⟩,
  ⟨n!"MADR", .RRD, [reg_4_U, reg_4_U, reg_4_U], 0⟩,
  ⟨n!"MAD", .RXF, [reg_4_U, reg_4_U, dxb_12_4x4_U], 0⟩,
  ⟨n!"MAE", .RXF, [reg_4_U, reg_4_U, dxb_12_4x4_U], 0⟩,
  ⟨n!"MSER", .RRD, [reg_4_U, reg_4_U, reg_4_U], 0⟩,
  ⟨n!"MSDR", .RRD, [reg_4_U, reg_4_U, reg_4_U], 0⟩,
  ⟨n!"MSE", .RXF, [reg_4_U, reg_4_U, dxb_12_4x4_U], 0⟩,
  ⟨n!"MSD", .RXF, [reg_4_U, reg_4_U, dxb_12_4x4_U], 0⟩,
  ⟨n!"MAYR", .RRD, [reg_4_U, reg_4_U, reg_4_U], 0⟩,
  ⟨n!"MAYHR", .RRD, [reg_4_U, reg_4_U, reg_4_U], 0⟩,
  ⟨n!"MAYLR", .RRD, [reg_4_U, reg_4_U, reg_4_U], 0⟩,
  ⟨n!"MAY", .RXF, [reg_4_U, reg_4_U, dxb_12_4x4_U], 0⟩,
  ⟨n!"MAYH", .RXF, [reg_4_U, reg_4_U, dxb_12_4x4_U], 0⟩,
  ⟨n!"MAYL", .RXF, [reg_4_U, reg_4_U, dxb_12_4x4_U], 0⟩,
  ⟨n!"MYR", .RRD, [reg_4_U, reg_4_U, reg_4_U], 0⟩,
  ⟨n!"MYHR", .RRD, [reg_4_U, reg_4_U, reg_4_U], 0⟩,
  ⟨n!"MYLR", .RRD, [reg_4_U, reg_4_U, reg_4_U], 0⟩,
  ⟨n!"MY", .RXF, [reg_4_U, reg_4_U, dxb_12_4x4_U], 0⟩,
  ⟨n!"MYH", .RXF, [reg_4_U, reg_4_U, dxb_12_4x4_U], 0⟩,
  ⟨n!"MYL", .RXF, [reg_4_U, reg_4_U, dxb_12_4x4_U], 0⟩,
  ⟨n!"SQER", .RRE, [reg_4_U, reg_4_U], 0⟩,
  ⟨n!"SQDR", .RRE, [reg_4_U, reg_4_U], 0⟩,
  ⟨n!"SQXR", .RRE, [reg_4_U, reg_4_U], 0⟩,
  ⟨n!"SQE", .RXE, [reg_4_U, dxb_12_4x4_U], 0⟩,
  ⟨n!"SQD", .RXE, [reg_4_U, dxb_12_4x4_U], 0⟩,
  ⟨n!"SER", .RR, [reg_4_U, reg_4_U], 0⟩,
  ⟨n!"SDR", .RR, [reg_4_U, reg_4_U], 0⟩,
  ⟨n!"SXR", .RR, [reg_4_U, reg_4_U], 0⟩,
  ⟨n!"SE", .RX_a, [reg_4_U, dxb_12_4x4_U], 0⟩,
  ⟨n!"SD", .RX_a, [reg_4_U, dxb_12_4x4_U], 0⟩,
  ⟨n!"SUR", .RR, [reg_4_U, reg_4_U], 0⟩,
  ⟨n!"SWR", .RR, [reg_4_U, reg_4_U], 0⟩,
  ⟨n!"SU", .RX_a, [reg_4_U, dxb_12_4x4_U], 0⟩,
  ⟨n!"SW", .RX_a, [reg_4_U, dxb_12_4x4_U], 0⟩,
  ⟨n!"AEBR", .RRE, [reg_4_U, reg_4_U], 0⟩,
  ⟨n!"ADBR", .RRE, [reg_4_U, reg_4_U], 0⟩,
  ⟨n!"AXBR", .RRE, [reg_4_U, reg_4_U], 0⟩,
  ⟨n!"AEB", .RXE, [reg_4_U, dxb_12_4x4_U], 0⟩,
  ⟨n!"ADB", .RXE, [reg_4_U, dxb_12_4x4_U], 0⟩,
  ⟨n!"CEBR", .RRE, [reg_4_U, reg_4_U], 0⟩,
  ⟨n!"CDBR", .RRE, [reg_4_U, reg_4_U], 0⟩,
  ⟨n!"CXBR", .RRE, [reg_4_U, reg_4_U], 0⟩,
  ⟨n!"CDB", .RXE, [reg_4_U, dxb_12_4x4_U], 0⟩,
  ⟨n!"CEB", .RXE, [reg_4_U, dxb_12_4x4_U], 0⟩,
  ⟨n!"KEBR", .RRE, [reg_4_U, reg_4_U], 0⟩,
  ⟨n!"KDBR", .RRE, [reg_4_U, reg_4_U], 0⟩,
  ⟨n!"KDSA", .RRE, [reg_4_U, reg_4_U], 0⟩,
  ⟨n!"KXBR", .RRE, [reg_4_U, reg_4_U], 0⟩,
  ⟨n!"KDB", .RXE, [reg_4_U, dxb_12_4x4_U], 0⟩,
  ⟨n!"KEB", .RXE, [reg_4_U, dxb_12_4x4_U], 0⟩,
  ⟨n!"CEFBR", .RRE, [reg_4_U, reg_4_U], 0⟩,
  ⟨n!"CDFBR", .RRE, [reg_4_U, reg_4_U], 0⟩,
  ⟨n!"CXFBR", .RRE, [reg_4_U, reg_4_U], 0⟩,
  ⟨n!"CEGBR", .RRE, [reg_4_U, reg_4_U], 0⟩,
  ⟨n!"CDGBR", .RRE, [reg_4_U, reg_4_U], 0⟩,
  ⟨n!"CXGBR", .RRE, [reg_4_U, reg_4_U], 0⟩,
  ⟨n!"CEFBRA", .RRF_e, [reg_4_U, mask_4_U, reg_4_U, mask_4_U], 0⟩,
  ⟨n!"CDFBRA", .RRF_e, [reg_4_U, mask_4_U, reg_4_U, mask_4_U], 0⟩,
  ⟨n!"CXFBRA", .RRF_e, [reg_4_U, mask_4_U, reg_4_U, mask_4_U], 0⟩,
  ⟨n!"CEGBRA", .RRF_e, [reg_4_U, mask_4_U, reg_4_U, mask_4_U], 0⟩,
  ⟨n!"CDGBRA", .RRF_e, [reg_4_U, mask_4_U, reg_4_U, mask_4_U], 0⟩,
  ⟨n!"CXGBRA", .RRF_e, [reg_4_U, mask_4_U, reg_4_U, mask_4_U], 0⟩,
  ⟨n!"CELFBR", .RRF_e, [reg_4_U, mask_4_U, reg_4_U, mask_4_U], 0⟩,
  ⟨n!"CDLFBR", .RRF_e, [reg_4_U, mask_4_U, reg_4_U, mask_4_U], 0⟩,
  ⟨n!"CXLFBR", .RRF_e, [reg_4_U, mask_4_U, reg_4_U, mask_4_U], 0⟩,
  ⟨n!"CELGBR", .RRF_e, [reg_4_U, mask_4_U, reg_4_U, mask_4_U], 0⟩,
  ⟨n!"CDLGBR", .RRF_e, [reg_4_U, mask_4_U, reg_4_U, mask_4_U], 0⟩,
  ⟨n!"CXLGBR", .RRF_e, [reg_4_U, mask_4_U, reg_4_U, mask_4_U], 0⟩,
  ⟨n!"CFEBR", .RRF_e, [reg_4_U, mask_4_U, reg_4_U], 0⟩,
  ⟨n!"CFDBR", .RRF_e, [reg_4_U, mask_4_U, reg_4_U], 0⟩,
  ⟨n!"CFXBR", .RRF_e, [reg_4_U, mask_4_U, reg_4_U], 0⟩,
  ⟨n!"CGEBR", .RRF_e, [reg_4_U, mask_4_U, reg_4_U], 0⟩,
  ⟨n!"CGDBR", .RRF_e, [reg_4_U, mask_4_U, reg_4_U], 0⟩,
  ⟨n!"CGXBR", .RRF_e, [reg_4_U, mask_4_U, reg_4_U], 0⟩,
  ⟨n!"CFEBRA", .RRF_e, [reg_4_U, mask_4_U, reg_4_U, mask_4_U], 0⟩,
  ⟨n!"CFDBRA", .RRF_e, [reg_4_U, mask_4_U, reg_4_U, mask_4_U], 0⟩,
  ⟨n!"CFXBRA", .RRF_e, [reg_4_U, mask_4_U, reg_4_U, mask_4_U], 0⟩,
  ⟨n!"CGEBRA", .RRF_e, [reg_4_U, mask_4_U, reg_4_U, mask_4_U], 0⟩,
  ⟨n!"CGDBRA", .RRF_e, [reg_4_U, mask_4_U, reg_4_U, mask_4_U], 0⟩,
  ⟨n!"CGXBRA", .RRF_e, [reg_4_U, mask_4_U, reg_4_U, mask_4_U], 0⟩,
  ⟨n!"CLFEBR", .RRF_e, [reg_4_U, mask_4_U, reg_4_U, mask_4_U], 0⟩,
  ⟨n!"CLFDBR", .RRF_e, [reg_4_U, mask_4_U, reg_4_U, mask_4_U], 0⟩,
  ⟨n!"CLFXBR", .RRF_e, [reg_4_U, mask_4_U, reg_4_U, mask_4_U], 0⟩,
  ⟨n!"CLGEBR", .RRF_e, [reg_4_U, mask_4_U, reg_4_U, mask_4_U], 0⟩,
  ⟨n!"CLGDBR", .RRF_e, [reg_4_U, mask_4_U, reg_4_U, mask_4_U], 0⟩,
  ⟨n!"CLGXBR", .RRF_e, [reg_4_U, mask_4_U, reg_4_U, mask_4_U], 0⟩,
  ⟨n!"DEBR", .RRE, [reg_4_U, reg_4_U], 0⟩,
  ⟨n!"DDBR", .RRE, [reg_4_U, reg_4_U], 0⟩,
  ⟨n!"DXBR", .RRE, [reg_4_U, reg_4_U], 0⟩,
  ⟨n!"DEB", .RXE, [reg_4_U, dxb_12_4x4_U], 0⟩,
  ⟨n!"DDB", .RXE, [reg_4_U, dxb_12_4x4_U], 0⟩,
  ⟨n!"DIEBR", .RRF_b, [reg_4_U, reg_4_U, reg_4_U, mask_4_U], 0⟩,
  ⟨n!"DIDBR", .RRF_b, [reg_4_U, reg_4_U, reg_4_U, mask_4_U], 0⟩,
  ⟨n!"LTEBR", .RRE, [reg_4_U, reg_4_U], 0⟩,
  ⟨n!"LTDBR", .RRE, [reg_4_U, reg_4_U], 0⟩,
  ⟨n!"LTXBR", .RRE, [reg_4_U, reg_4_U], 0⟩,
  ⟨n!"LCEBR", .RRE, [reg_4_U, reg_4_U], 0⟩,
  ⟨n!"LCDBR", .RRE, [reg_4_U, reg_4_U], 0⟩,
  ⟨n!"LCXBR", .RRE, [reg_4_U, reg_4_U], 0⟩,
  ⟨n!"ECCTR", .RRE, [reg_4_U, reg_4_U], 0⟩,
  ⟨n!"EPCTR", .RRE, [reg_4_U, reg_4_U], 0⟩,
  ⟨n!"ECPGA", .RRE, [reg_4_U, reg_4_U], 0⟩,
  ⟨n!"FIEBR", .RRF_e, [reg_4_U, mask_4_U, reg_4_U], 0⟩,
  ⟨n!"FIDBR", .RRF_e, [reg_4_U, mask_4_U, reg_4_U], 0⟩,
  ⟨n!"FIXBR", .RRF_e, [reg_4_U, mask_4_U, reg_4_U], 0⟩,
  ⟨n!"FIEBRA", .RRF_e, [reg_4_U, mask_4_U, reg_4_U, mask_4_U], 0⟩,
  ⟨n!"FIDBRA", .RRF_e, [reg_4_U, mask_4_U, reg_4_U, mask_4_U], 0⟩,
  ⟨n!"FIXBRA", .RRF_e, [reg_4_U, mask_4_U, reg_4_U, mask_4_U], 0⟩,
  ⟨n!"LSCTL", .S, [db_12_4_U], 0⟩,
  ⟨n!"LDEBR", .RRE, [reg_4_U, reg_4_U], 0⟩,
  ⟨n!"LXDBR", .RRE, [reg_4_U, reg_4_U], 0⟩,
  ⟨n!"LPCTL", .S, [db_12_4_U], 0⟩,
  ⟨n!"LCCTL", .S, [db_12_4_U], 0⟩,
  ⟨n!"LXEBR", .RRE, [reg_4_U, reg_4_U], 0⟩,
  ⟨n!"LDEB", .RRE, [reg_4_U, reg_4_U], 0⟩,
  ⟨n!"LXDB", .RRE, [reg_4_U, reg_4_U], 0⟩,
  ⟨n!"LXEB", .RRE, [reg_4_U, reg_4_U], 0⟩,
  ⟨n!"LNEBR", .RRE, [reg_4_U, reg_4_U], 0⟩,
  ⟨n!"LNDBR", .RRE, [reg_4_U, reg_4_U], 0⟩,
  ⟨n!"LNXBR", .RRE, [reg_4_U, reg_4_U], 0⟩,
  ⟨n!"LPEBR", .RRE, [reg_4_U, reg_4_U], 0⟩,
  ⟨n!"LPDBR", .RRE, [reg_4_U, reg_4_U], 0⟩,
  ⟨n!"LPXBR", .RRE, [reg_4_U, reg_4_U], 0⟩,
  ⟨n!"LEDBR", .RRE, [reg_4_U, reg_4_U], 0⟩,
  ⟨n!"LDXBR", .RRE, [reg_4_U, reg_4_U], 0⟩,
  ⟨n!"LEXBR", .RRE, [reg_4_U, reg_4_U], 0⟩,
  ⟨n!"LEDBRA", .RRF_e, [reg_4_U, mask_4_U, reg_4_U, mask_4_U], 0⟩,
  ⟨n!"LDXBRA", .RRF_e, [reg_4_U, mask_4_U, reg_4_U, mask_4_U], 0⟩,
  ⟨n!"LEXBRA", .RRF_e, [reg_4_U, mask_4_U, reg_4_U, mask_4_U], 0⟩,
  ⟨n!"LPP", .S, [db_12_4_U], 0⟩,
  ⟨n!"MEEBR", .RRE, [reg_4_U, reg_4_U], 0⟩,
  ⟨n!"MDBR", .RRE, [reg_4_U, reg_4_U], 0⟩,
  ⟨n!"MXBR", .RRE, [reg_4_U, reg_4_U], 0⟩,
  ⟨n!"MDEBR", .RRE, [reg_4_U, reg_4_U], 0⟩,
  ⟨n!"MXDBR", .RRE, [reg_4_U, reg_4_U], 0⟩,
  ⟨n!"MEEB", .RXE, [reg_4_U, dxb_12_4x4_U], 0⟩,
  ⟨n!"MDB", .RXE, [reg_4_U, dxb_12_4x4_U], 0⟩,
  ⟨n!"MDEB", .RXE, [reg_4_U, dxb_12_4x4_U], 0⟩,
  ⟨n!"MXDB", .RXE, [reg_4_U, dxb_12_4x4_U], 0⟩,
  ⟨n!"MADBR", .RRD, [reg_4_U, reg_4_U, reg_4_U], 0⟩,
  ⟨n!"MAEBR", .RRD, [reg_4_U, reg_4_U, reg_4_U], 0⟩,
  ⟨n!"MAEB", .RXF, [reg_4_U, reg_4_U, dxb_12_4x4_U], 0⟩,
  ⟨n!"MADB", .RXF, [reg_4_U, reg_4_U, dxb_12_4x4_U], 0⟩,
  ⟨n!"MSEBR", .RRD, [reg_4_U, reg_4_U, reg_4_U], 0⟩,
  ⟨n!"MSDBR", .RRD, [reg_4_U, reg_4_U, reg_4_U], 0⟩,
  ⟨n!"MSEB", .RXF, [reg_4_U, reg_4_U, dxb_12_4x4_U], 0⟩,
  ⟨n!"MSDB", .RXF, [reg_4_U, reg_4_U, dxb_12_4x4_U], 0⟩,
  ⟨n!"QCTRI", .S, [db_12_4_U], 0⟩,
  ⟨n!"QSI", .S, [db_12_4_U], 0⟩,
  ⟨n!"SCCTR", .RRE, [reg_4_U, reg_4_U], 0⟩,
  ⟨n!"SPCTR", .RRE, [reg_4_U, reg_4_U], 0⟩,
  ⟨n!"SQEBR", .RRE, [reg_4_U, reg_4_U], 0⟩,
  ⟨n!"SQDBR", .RRE, [reg_4_U, reg_4_U], 0⟩,
  ⟨n!"SQXBR", .RRE, [reg_4_U, reg_4_U], 0⟩,
  ⟨n!"SQEB", .RXE, [reg_4_U, dxb_12_4x4_U], 0⟩,
  ⟨n!"SQDB", .RXE, [reg_4_U, dxb_12_4x4_U], 0⟩,
  ⟨n!"SEBR", .RRE, [reg_4_U, reg_4_U], 0⟩,
  ⟨n!"SDBR", .RRE, [reg_4_U, reg_4_U], 0⟩,
  ⟨n!"SXBR", .RRE, [reg_4_U, reg_4_U], 0⟩,
  ⟨n!"SEB", .RXE, [reg_4_U, dxb_12_4x4_U], 0⟩,
  ⟨n!"SDB", .RXE, [reg_4_U, dxb_12_4x4_U], 0⟩,
  ⟨n!"SORTL", .RRE, [reg_4_U, reg_4_U], 0⟩,
  ⟨n!"TCEB", .RXE, [reg_4_U, dxb_12_4x4_U], 0⟩,
  ⟨n!"TCDB", .RXE, [reg_4_U, dxb_12_4x4_U], 0⟩,
  ⟨n!"TCXB", .RXE, [reg_4_U, dxb_12_4x4_U], 0⟩,
  ⟨n!"ADTR", .RRF_a, [reg_4_U, reg_4_U, reg_4_U], 0⟩,
  ⟨n!"AXTR", .RRF_a, [reg_4_U, reg_4_U, reg_4_U], 0⟩,
  ⟨n!"ADTRA", .RRF_a, [reg_4_U, reg_4_U, reg_4_U, mask_4_U], 0⟩,
  ⟨n!"AXTRA", .RRF_a, [reg_4_U, reg_4_U, reg_4_U, mask_4_U], 0⟩,
  ⟨n!"CDTR", .RRE, [reg_4_U, reg_4_U], 0⟩,
  ⟨n!"CXTR", .RRE, [reg_4_U, reg_4_U], 0⟩,
  ⟨n!"KDTR", .RRE, [reg_4_U, reg_4_U], 0⟩,
  ⟨n!"KXTR", .RRE, [reg_4_U, reg_4_U], 0⟩,
  ⟨n!"CEDTR", .RRE, [reg_4_U, reg_4_U], 0⟩,
  ⟨n!"CEXTR", .RRE, [reg_4_U, reg_4_U], 0⟩,
  ⟨n!"CDGTR", .RRE, [reg_4_U, reg_4_U], 0⟩,
  ⟨n!"CXGTR", .RRE, [reg_4_U, reg_4_U], 0⟩,
  ⟨n!"CDGTRA", .RRF_e, [reg_4_U, mask_4_U, reg_4_U, mask_4_U], 0⟩,
  ⟨n!"CXGTRA", .RRF_e, [reg_4_U, mask_4_U, reg_4_U, mask_4_U], 0⟩,
  ⟨n!"CDFTR", .RRF_e, [reg_4_U, mask_4_U, reg_4_U, mask_4_U], 0⟩,
  ⟨n!"CXFTR", .RRF_e, [reg_4_U, mask_4_U, reg_4_U, mask_4_U], 0⟩,
  ⟨n!"CDLGTR", .RRF_e, [reg_4_U, mask_4_U, reg_4_U, mask_4_U], 0⟩,
  ⟨n!"CXLGTR", .RRF_e, [reg_4_U, mask_4_U, reg_4_U, mask_4_U], 0⟩,
  ⟨n!"CDLFTR", .RRF_e, [reg_4_U, mask_4_U, reg_4_U, mask_4_U], 0⟩,
  ⟨n!"CXLFTR", .RRF_e, [reg_4_U, mask_4_U, reg_4_U, mask_4_U], 0⟩,
  ⟨n!"CDPT", .RSL_b, [reg_4_U, db_12_8x4L_U, mask_4_U], 0⟩,
  ⟨n!"CXPT", .RSL_b, [reg_4_U, db_12_8x4L_U, mask_4_U], 0⟩,
  ⟨n!"CDSTR", .RRE, [reg_4_U, reg_4_U], 0⟩,
  ⟨n!"CXSTR", .RRE, [reg_4_U, reg_4_U], 0⟩,
  ⟨n!"CDUTR", .RRE, [reg_4_U, reg_4_U], 0⟩,
  ⟨n!"CXUTR", .RRE, [reg_4_U, reg_4_U], 0⟩,
  ⟨n!"CDZT", .RSL_b, [reg_4_U, db_12_8x4L_U, mask_4_U], 0⟩,
  ⟨n!"CXZT", .RSL_b, [reg_4_U, db_12_8x4L_U, mask_4_U], 0⟩,
  ⟨n!"CGDTR", .RRF_e, [reg_4_U, mask_4_U, reg_4_U], 0⟩,
  ⟨n!"CGXTR", .RRF_e, [reg_4_U, mask_4_U, reg_4_U], 0⟩,
  ⟨n!"CGDTRA", .RRF_e, [reg_4_U, mask_4_U, reg_4_U, mask_4_U], 0⟩,
  ⟨n!"CGXTRA", .RRF_e, [reg_4_U, mask_4_U, reg_4_U, mask_4_U], 0⟩,
  ⟨n!"CFDTR", .RRF_e, [reg_4_U, mask_4_U, reg_4_U, mask_4_U], 0⟩,
  ⟨n!"CFXTR", .RRF_e, [reg_4_U, mask_4_U, reg_4_U, mask_4_U], 0⟩,
  ⟨n!"CLGDTR", .RRF_e, [reg_4_U, mask_4_U, reg_4_U, mask_4_U], 0⟩,
  ⟨n!"CLGXTR", .RRF_e, [reg_4_U, mask_4_U, reg_4_U, mask_4_U], 0⟩,
  ⟨n!"CLFDTR", .RRF_e, [reg_4_U, mask_4_U, reg_4_U, mask_4_U], 0⟩,
  ⟨n!"CLFXTR", .RRF_e, [reg_4_U, mask_4_U, reg_4_U, mask_4_U], 0⟩,
  ⟨n!"CPDT", .RSL_b, [reg_4_U, db_12_8x4L_U, mask_4_U], 0⟩,
  ⟨n!"CPXT", .RSL_b, [reg_4_U, db_12_8x4L_U, mask_4_U], 0⟩,
  ⟨n!"CSDTR", .RRF_d, [reg_4_U, reg_4_U, mask_4_U], 0⟩,
  ⟨n!"CSXTR", .RRF_d, [reg_4_U, reg_4_U, mask_4_U], 0⟩,
  ⟨n!"CUDTR", .RRE, [reg_4_U, reg_4_U], 0⟩,
  ⟨n!"CUXTR", .RRE, [reg_4_U, reg_4_U], 0⟩,
  ⟨n!"CZDT", .RSL_b, [reg_4_U, db_12_8x4L_U, mask_4_U], 0⟩,
  ⟨n!"CZXT", .RSL_b, [reg_4_U, db_12_8x4L_U, mask_4_U], 0⟩,
  ⟨n!"DDTR", .RRF_a, [reg_4_U, reg_4_U, reg_4_U], 0⟩,
  ⟨n!"DXTR", .RRF_a, [reg_4_U, reg_4_U, reg_4_U], 0⟩,
  ⟨n!"DDTRA", .RRF_a, [reg_4_U, reg_4_U, reg_4_U, mask_4_U], 0⟩,
  ⟨n!"DXTRA", .RRF_a, [reg_4_U, reg_4_U, reg_4_U, mask_4_U], 0⟩,
  ⟨n!"EEXTR", .RRE, [reg_4_U, reg_4_U], 0⟩,
  ⟨n!"EEDTR", .RRE, [reg_4_U, reg_4_U], 0⟩,
  ⟨n!"ESDTR", .RRE, [reg_4_U, reg_4_U], 0⟩,
  ⟨n!"ESXTR", .RRE, [reg_4_U, reg_4_U], 0⟩,
  ⟨n!"IEDTR", .RRF_b, [reg_4_U, reg_4_U, reg_4_U], 0⟩,
  ⟨n!"IEXTR", .RRF_b, [reg_4_U, reg_4_U, reg_4_U], 0⟩,
  ⟨n!"LTDTR", .RRE, [reg_4_U, reg_4_U], 0⟩,
  ⟨n!"LTXTR", .RRE, [reg_4_U, reg_4_U], 0⟩,
  ⟨n!"FIDTR", .RRF_e, [reg_4_U, mask_4_U, reg_4_U, mask_4_U], 0⟩,
  ⟨n!"FIXTR", .RRF_e, [reg_4_U, mask_4_U, reg_4_U, mask_4_U], 0⟩,
  ⟨n!"LDETR", .RRF_d, [reg_4_U, reg_4_U, mask_4_U], 0⟩,
  ⟨n!"LXDTR", .RRF_d, [reg_4_U, reg_4_U, mask_4_U], 0⟩,
  ⟨n!"LEDTR", .RRF_e, [reg_4_U, mask_4_U, reg_4_U, mask_4_U], 0⟩,
  ⟨n!"LDXTR", .RRF_e, [reg_4_U, mask_4_U, reg_4_U, mask_4_U], 0⟩,
  ⟨n!"MDTR", .RRF_a, [reg_4_U, reg_4_U, reg_4_U], 0⟩,
  ⟨n!"MXTR", .RRF_a, [reg_4_U, reg_4_U, reg_4_U], 0⟩,
  ⟨n!"MDTRA", .RRF_a, [reg_4_U, reg_4_U, reg_4_U, mask_4_U], 0⟩,
  ⟨n!"MXTRA", .RRF_a, [reg_4_U, reg_4_U, reg_4_U, mask_4_U], 0⟩,
  ⟨n!"QADTR", .RRF_b, [reg_4_U, reg_4_U, reg_4_U, mask_4_U], 0⟩,
  ⟨n!"QAXTR", .RRF_b, [reg_4_U, reg_4_U, reg_4_U, mask_4_U], 0⟩,
  ⟨n!"RRDTR", .RRF_b, [reg_4_U, reg_4_U, reg_4_U, mask_4_U], 0⟩,
  ⟨n!"RRXTR", .RRF_b, [reg_4_U, reg_4_U, reg_4_U, mask_4_U], 0⟩,
  ⟨n!"SELFHR", .RRF_a, [reg_4_U, reg_4_U, reg_4_U, mask_4_U], 0⟩,
  ⟨n!"SELGR", .RRF_a, [reg_4_U, reg_4_U, reg_4_U, mask_4_U], 0⟩,
  ⟨n!"SELR", .RRF_a, [reg_4_U, reg_4_U, reg_4_U, mask_4_U], 0⟩,
  ⟨n!"SLDT", .RXF, [reg_4_U, reg_4_U, dxb_12_4x4_U], 0⟩,
  ⟨n!"SLXT", .RXF, [reg_4_U, reg_4_U, dxb_12_4x4_U], 0⟩,
  ⟨n!"SRDT", .RXF, [reg_4_U, reg_4_U, dxb_12_4x4_U], 0⟩,
  ⟨n!"SRXT", .RXF, [reg_4_U, reg_4_U, dxb_12_4x4_U], 0⟩,
  ⟨n!"SDTR", .RRF_a, [reg_4_U, reg_4_U, reg_4_U], 0⟩,
  ⟨n!"SXTR", .RRF_a, [reg_4_U, reg_4_U, reg_4_U], 0⟩,
  ⟨n!"SDTRA", .RRF_a, [reg_4_U, reg_4_U, reg_4_U, mask_4_U], 0⟩,
  ⟨n!"SXTRA", .RRF_a, [reg_4_U, reg_4_U, reg_4_U, mask_4_U], 0⟩,
  ⟨n!"TDCET", .RXE, [reg_4_U, dxb_12_4x4_U], 0⟩,
  ⟨n!"TDCDT", .RXE, [reg_4_U, dxb_12_4x4_U], 0⟩,
  ⟨n!"TDCXT", .RXE, [reg_4_U, dxb_12_4x4_U], 0⟩,
  ⟨n!"TDGET", .RXE, [reg_4_U, dxb_12_4x4_U], 0⟩,
  ⟨n!"TDGDT", .RXE, [reg_4_U, dxb_12_4x4_U], 0⟩,
  ⟨n!"TDGXT", .RXE, [reg_4_U, dxb_12_4x4_U], 0⟩,
  ⟨n!"VBPERM", .VRR_c, [vec_reg_4_U, vec_reg_4_U, vec_reg_4_U], 0⟩,
  ⟨n!"VGEF", .VRV, [vec_reg_4_U, dvb_12_4x4_U, mask_4_U], 0⟩,
  ⟨n!"VCFPS", .VRR_a, [vec_reg_4_U, vec_reg_4_U, mask_4_U, mask_4_U, mask_4_U], 0⟩,
  ⟨n!"VCLFP", .VRR_a, [vec_reg_4_U, vec_reg_4_U, mask_4_U, mask_4_U, mask_4_U], 0⟩,
  ⟨n!"VGEG", .VRV, [vec_reg_4_U, dvb_12_4x4_U, mask_4_U], 0⟩,
  ⟨n!"VGBM", .VRI_a, [vec_reg_4_U, imm_16_U], 0⟩,
  ⟨n!"VGM", .VRI_b, [vec_reg_4_U, imm_8_U, imm_8_U, mask_4_U], 0⟩,
  ⟨n!"VL", .VRX, [vec_reg_4_U, dxb_12_4x4_U, mask_4_U], 1⟩,
  ⟨n!"VSTEBRF", .VRX, [vec_reg_4_U, dxb_12_4x4_U, mask_4_U], 0⟩,
  ⟨n!"VSTEBRG", .VRX, [vec_reg_4_U, dxb_12_4x4_U, mask_4_U], 0⟩,
  ⟨n!"VLLEBRZ", .VRX, [vec_reg_4_U, dxb_12_4x4_U, mask_4_U], 0⟩,
  ⟨n!"VLREP", .VRX, [vec_reg_4_U, dxb_12_4x4_U, mask_4_U], 0⟩,
  ⟨n!"VLR", .VRR_a, [vec_reg_4_U, vec_reg_4_U], 0⟩,
  ⟨n!"VLEB", .VRX, [vec_reg_4_U, dxb_12_4x4_U, mask_4_U], 0⟩,
  ⟨n!"VLEBRH", .VRX, [vec_reg_4_U, dxb_12_4x4_U, mask_4_U], 0⟩,
  ⟨n!"VLEBRG", .VRX, [vec_reg_4_U, dxb_12_4x4_U, mask_4_U], 0⟩,
  ⟨n!"VLBRREP", .VRX, [vec_reg_4_U, dxb_12_4x4_U, mask_4_U], 0⟩,
  ⟨n!"VLER", .VRX, [vec_reg_4_U, dxb_12_4x4_U, mask_4_U], 0⟩,
  ⟨n!"VLBR", .VRX, [vec_reg_4_U, dxb_12_4x4_U, mask_4_U], 0⟩,
  ⟨n!"VLEH", .VRX, [vec_reg_4_U, dxb_12_4x4_U, mask_4_U], 0⟩,
  ⟨n!"VLEIH", .VRI_a, [vec_reg_4_U, imm_16_S, mask_4_U], 0⟩,
  ⟨n!"VLEF", .VRX, [vec_reg_4_U, dxb_12_4x4_U, mask_4_U], 0⟩,
  ⟨n!"VLEIF", .VRI_a, [vec_reg_4_U, imm_16_S, mask_4_U], 0⟩,
  ⟨n!"VLEG", .VRX, [vec_reg_4_U, dxb_12_4x4_U, mask_4_U], 0⟩,
  ⟨n!"VLEIG", .VRI_a, [vec_reg_4_U, imm_16_S, mask_4_U], 0⟩,
  ⟨n!"VLEIB", .VRI_a, [vec_reg_4_U, imm_16_S, mask_4_U], 0⟩,
  ⟨n!"VLGV", .VRS_c, [reg_4_U, vec_reg_4_U, db_12_4_U, mask_4_U], 0⟩,
  ⟨n!"VLLEZ", .VRX, [vec_reg_4_U, dxb_12_4x4_U, mask_4_U], 0⟩,
  ⟨n!"VLM", .VRS_a, [vec_reg_4_U, vec_reg_4_U, db_12_4_U, mask_4_U], 1⟩,
  ⟨n!"VLRLR", .VRS_d, [vec_reg_4_U, reg_4_U, db_12_4_U], 0⟩,
  ⟨n!"VLRL", .VSI, [vec_reg_4_U, db_12_4_U, imm_8_U], 0⟩,
  ⟨n!"VLBB", .VRX, [vec_reg_4_U, dxb_12_4x4_U, mask_4_U], 0⟩,
  ⟨n!"VLVG", .VRS_b, [vec_reg_4_U, reg_4_U, db_12_4_U, mask_4_U], 0⟩,
  ⟨n!"VLVGP", .VRR_f, [vec_reg_4_U, reg_4_U, reg_4_U], 0⟩,
  ⟨n!"VLL", .VRS_b, [vec_reg_4_U, reg_4_U, db_12_4_U], 0⟩,
  ⟨n!"VMRH", .VRR_c, [vec_reg_4_U, vec_reg_4_U, vec_reg_4_U, mask_4_U], 0⟩,
  ⟨n!"VMRL", .VRR_c, [vec_reg_4_U, vec_reg_4_U, vec_reg_4_U, mask_4_U], 0⟩,
  ⟨n!"VPK", .VRR_c, [vec_reg_4_U, vec_reg_4_U, vec_reg_4_U, mask_4_U], 0⟩,
  ⟨n!"VPKS", .VRR_b, [vec_reg_4_U, vec_reg_4_U, vec_reg_4_U, mask_4_U, mask_4_U], 0⟩,
  ⟨n!"VPKLS", .VRR_b, [vec_reg_4_U, vec_reg_4_U, vec_reg_4_U, mask_4_U, mask_4_U], 0⟩,
  ⟨n!"VPERM", .VRR_e, [vec_reg_4_U, vec_reg_4_U, vec_reg_4_U, vec_reg_4_U], 0⟩,
  ⟨n!"VPDI", .VRR_c, [vec_reg_4_U, vec_reg_4_U, vec_reg_4_U, mask_4_U], 0⟩,
  ⟨n!"VREP", .VRI_c, [vec_reg_4_U, vec_reg_4_U, imm_16_U, mask_4_U], 0⟩,
  ⟨n!"VREPI", .VRI_a, [vec_reg_4_U, imm_16_S, mask_4_U], 0⟩,
  ⟨n!"VSCEF", .VRV, [vec_reg_4_U, dvb_12_4x4_U, mask_4_U], 0⟩,
  ⟨n!"VSCEG", .VRV, [vec_reg_4_U, dvb_12_4x4_U, mask_4_U], 0⟩,
  ⟨n!"VSEL", .VRR_e, [vec_reg_4_U, vec_reg_4_U, vec_reg_4_U, vec_reg_4_U], 0⟩,
  ⟨n!"VSEG", .VRR_a, [vec_reg_4_U, vec_reg_4_U, mask_4_U], 0⟩,
  ⟨n!"VSTBR", .VRX, [vec_reg_4_U, dxb_12_4x4_U, mask_4_U], 0⟩,
  ⟨n!"VST", .VRX, [vec_reg_4_U, dxb_12_4x4_U, mask_4_U], 1⟩,
  ⟨n!"VSTEB", .VRX, [vec_reg_4_U, dxb_12_4x4_U, mask_4_U], 0⟩,
  ⟨n!"VSTEBRH", .VRX, [vec_reg_4_U, dxb_12_4x4_U, mask_4_U], 0⟩,
  ⟨n!"VSTEH", .VRX, [vec_reg_4_U, dxb_12_4x4_U, mask_4_U], 0⟩,
  ⟨n!"VSTEF", .VRX, [vec_reg_4_U, dxb_12_4x4_U, mask_4_U], 0⟩,
  ⟨n!"VSTEG", .VRX, [vec_reg_4_U, dxb_12_4x4_U, mask_4_U], 0⟩,
  ⟨n!"VSTER", .VRX, [vec_reg_4_U, dxb_12_4x4_U, mask_4_U], 0⟩,
  ⟨n!"VSTM", .VRS_a, [vec_reg_4_U, vec_reg_4_U, db_12_4_U, mask_4_U], 1⟩,
  ⟨n!"VSTRLR", .VRS_d, [vec_reg_4_U, reg_4_U, db_12_4_U], 0⟩,
  ⟨n!"VSTRL", .VSI, [vec_reg_4_U, db_12_4_U, imm_8_U], 0⟩,
  ⟨n!"VSTL", .VRS_b, [vec_reg_4_U, reg_4_U, db_12_4_U], 0⟩,
  ⟨n!"VUPH", .VRR_a, [vec_reg_4_U, vec_reg_4_U, mask_4_U], 0⟩,
  ⟨n!"VUPL", .VRR_a, [vec_reg_4_U, vec_reg_4_U, mask_4_U], 0⟩,
  ⟨n!"VUPLH", .VRR_a, [vec_reg_4_U, vec_reg_4_U, mask_4_U], 0⟩,
  ⟨n!"VUPLL", .VRR_a, [vec_reg_4_U, vec_reg_4_U, mask_4_U], 0⟩,
  ⟨n!"VA", .VRR_c, [vec_reg_4_U, vec_reg_4_U, vec_reg_4_U, mask_4_U], 0⟩,
  ⟨n!"VACC", .VRR_c, [vec_reg_4_U, vec_reg_4_U, vec_reg_4_U, mask_4_U], 0⟩,
  ⟨n!"VAC", .VRR_d, [vec_reg_4_U, vec_reg_4_U, vec_reg_4_U, vec_reg_4_U, mask_4_U], 0⟩,
  ⟨n!"VACCC", .VRR_d, [vec_reg_4_U, vec_reg_4_U, vec_reg_4_U, vec_reg_4_U, mask_4_U], 0⟩,
  ⟨n!"VN", .VRR_c, [vec_reg_4_U, vec_reg_4_U, vec_reg_4_U], 0⟩,
  ⟨n!"VNC", .VRR_c, [vec_reg_4_U, vec_reg_4_U, vec_reg_4_U], 0⟩,
  ⟨n!"VAVG", .VRR_c, [vec_reg_4_U, vec_reg_4_U, vec_reg_4_U, mask_4_U], 0⟩,
  ⟨n!"VAVGL", .VRR_c, [vec_reg_4_U, vec_reg_4_U, vec_reg_4_U, mask_4_U], 0⟩,
  ⟨n!"VCKSM", .VRR_c, [vec_reg_4_U, vec_reg_4_U, vec_reg_4_U], 0⟩,
  ⟨n!"VEC", .VRR_a, [vec_reg_4_U, vec_reg_4_U, mask_4_U], 0⟩,
  ⟨n!"VECL", .VRR_a, [vec_reg_4_U, vec_reg_4_U, mask_4_U], 0⟩,
  ⟨n!"VCEQ", .VRR_b, [vec_reg_4_U, vec_reg_4_U, vec_reg_4_U, mask_4_U, mask_4_U], 0⟩,
  ⟨n!"VCH", .VRR_b, [vec_reg_4_U, vec_reg_4_U, vec_reg_4_U, mask_4_U, mask_4_U], 0⟩,
  ⟨n!"VCHL", .VRR_b, [vec_reg_4_U, vec_reg_4_U, vec_reg_4_U, mask_4_U, mask_4_U], 0⟩,
  ⟨n!"VCLZ", .VRR_a, [vec_reg_4_U, vec_reg_4_U, mask_4_U], 0⟩,
  ⟨n!"VCTZ", .VRR_a, [vec_reg_4_U, vec_reg_4_U, mask_4_U], 0⟩,
  ⟨n!"VGFM", .VRR_c, [vec_reg_4_U, vec_reg_4_U, vec_reg_4_U, mask_4_U], 0⟩,
  ⟨n!"VX", .VRR_c, [vec_reg_4_U, vec_reg_4_U, vec_reg_4_U], 0⟩,
  ⟨n!"VLC", .VRR_a, [vec_reg_4_U, vec_reg_4_U, mask_4_U], 0⟩,
  ⟨n!"VGFMA", .VRR_d, [vec_reg_4_U, vec_reg_4_U, vec_reg_4_U, vec_reg_4_U, mask_4_U], 0⟩,
  ⟨n!"VLP", .VRR_a, [vec_reg_4_U, vec_reg_4_U, mask_4_U], 0⟩,
  ⟨n!"VMX", .VRR_c, [vec_reg_4_U, vec_reg_4_U, vec_reg_4_U, mask_4_U], 0⟩,
  ⟨n!"VMXL", .VRR_c, [vec_reg_4_U, vec_reg_4_U, vec_reg_4_U, mask_4_U], 0⟩,
  ⟨n!"VMN", .VRR_c, [vec_reg_4_U, vec_reg_4_U, vec_reg_4_U, mask_4_U], 0⟩,
  ⟨n!"VMNL", .VRR_c, [vec_reg_4_U, vec_reg_4_U, vec_reg_4_U, mask_4_U], 0⟩,
  ⟨n!"VMAL", .VRR_d, [vec_reg_4_U, vec_reg_4_U, vec_reg_4_U, vec_reg_4_U, mask_4_U], 0⟩,
  ⟨n!"VMAH", .VRR_d, [vec_reg_4_U, vec_reg_4_U, vec_reg_4_U, vec_reg_4_U, mask_4_U], 0⟩,
  ⟨n!"VMALH", .VRR_d, [vec_reg_4_U, vec_reg_4_U, vec_reg_4_U, vec_reg_4_U, mask_4_U], 0⟩,
  ⟨n!"VMAE", .VRR_d, [vec_reg_4_U, vec_reg_4_U, vec_reg_4_U, vec_reg_4_U, mask_4_U], 0⟩,
  ⟨n!"VMALE", .VRR_d, [vec_reg_4_U, vec_reg_4_U, vec_reg_4_U, vec_reg_4_U, mask_4_U], 0⟩,
  ⟨n!"VMAO", .VRR_d, [vec_reg_4_U, vec_reg_4_U, vec_reg_4_U, vec_reg_4_U, mask_4_U], 0⟩,
  ⟨n!"VMALO", .VRR_d, [vec_reg_4_U, vec_reg_4_U, vec_reg_4_U, vec_reg_4_U, mask_4_U], 0⟩,
  ⟨n!"VMH", .VRR_c, [vec_reg_4_U, vec_reg_4_U, vec_reg_4_U, mask_4_U], 0⟩,
  ⟨n!"VMLH", .VRR_c, [vec_reg_4_U, vec_reg_4_U, vec_reg_4_U, mask_4_U], 0⟩,
  ⟨n!"VML", .VRR_c, [vec_reg_4_U, vec_reg_4_U, vec_reg_4_U, mask_4_U], 0⟩,
  ⟨n!"VME", .VRR_c, [vec_reg_4_U, vec_reg_4_U, vec_reg_4_U, mask_4_U], 0⟩,
  ⟨n!"VMLE", .VRR_c, [vec_reg_4_U, vec_reg_4_U, vec_reg_4_U, mask_4_U], 0⟩,
  ⟨n!"VMO", .VRR_c, [vec_reg_4_U, vec_reg_4_U, vec_reg_4_U, mask_4_U], 0⟩,
  ⟨n!"VMLO", .VRR_c, [vec_reg_4_U, vec_reg_4_U, vec_reg_4_U, mask_4_U], 0⟩,
  ⟨n!"VMSL", .VRR_d, [vec_reg_4_U, vec_reg_4_U, vec_reg_4_U, vec_reg_4_U, mask_4_U, mask_4_U], 0⟩,
  ⟨n!"VNN", .VRR_c, [vec_reg_4_U, vec_reg_4_U, vec_reg_4_U], 0⟩,
  ⟨n!"VNO", .VRR_c, [vec_reg_4_U, vec_reg_4_U, vec_reg_4_U], 0⟩,
  ⟨n!"VNX", .VRR_c, [vec_reg_4_U, vec_reg_4_U, vec_reg_4_U], 0⟩,
  ⟨n!"VO", .VRR_c, [vec_reg_4_U, vec_reg_4_U, vec_reg_4_U], 0⟩,
  ⟨n!"VOC", .VRR_c, [vec_reg_4_U, vec_reg_4_U, vec_reg_4_U], 0⟩,
  ⟨n!"VPOPCT", .VRR_a, [vec_reg_4_U, vec_reg_4_U, mask_4_U], 0⟩,
  ⟨n!"VERLLV", .VRR_c, [vec_reg_4_U, vec_reg_4_U, vec_reg_4_U, mask_4_U], 0⟩,
  ⟨n!"VERLL", .VRS_a, [vec_reg_4_U, vec_reg_4_U, db_12_4_U, mask_4_U], 0⟩,
  ⟨n!"VERIM", .VRI_d, [vec_reg_4_U, vec_reg_4_U, vec_reg_4_U, imm_8_U, mask_4_U], 0⟩,
  ⟨n!"VESLV", .VRR_c, [vec_reg_4_U, vec_reg_4_U, vec_reg_4_U, mask_4_U], 0⟩,
  ⟨n!"VESL", .VRS_a, [vec_reg_4_U, vec_reg_4_U, db_12_4_U, mask_4_U], 0⟩,
  ⟨n!"VESRAV", .VRR_c, [vec_reg_4_U, vec_reg_4_U, vec_reg_4_U, mask_4_U], 0⟩,
  ⟨n!"VESRA", .VRS_a, [vec_reg_4_U, vec_reg_4_U, db_12_4_U, mask_4_U], 0⟩,
  ⟨n!"VESRLV", .VRR_c, [vec_reg_4_U, vec_reg_4_U, vec_reg_4_U, mask_4_U], 0⟩,
  ⟨n!"VESRL", .VRS_a, [vec_reg_4_U, vec_reg_4_U, db_12_4_U, mask_4_U], 0⟩,
  ⟨n!"VSLD", .VRI_d, [vec_reg_4_U, vec_reg_4_U, vec_reg_4_U, imm_8_U], 0⟩,
  ⟨n!"VSRD", .VRI_d, [vec_reg_4_U, vec_reg_4_U, vec_reg_4_U, imm_8_U], 0⟩,
  ⟨n!"VSLDB", .VRI_d, [vec_reg_4_U, vec_reg_4_U, vec_reg_4_U, imm_8_U], 0⟩,
  ⟨n!"VSL", .VRR_c, [vec_reg_4_U, vec_reg_4_U, vec_reg_4_U], 0⟩,
  ⟨n!"VSLB", .VRR_c, [vec_reg_4_U, vec_reg_4_U, vec_reg_4_U], 0⟩,
  ⟨n!"VSRA", .VRR_c, [vec_reg_4_U, vec_reg_4_U, vec_reg_4_U], 0⟩,
  ⟨n!"VSRAB", .VRR_c, [vec_reg_4_U, vec_reg_4_U, vec_reg_4_U], 0⟩,
  ⟨n!"VSRL", .VRR_c, [vec_reg_4_U, vec_reg_4_U, vec_reg_4_U], 0⟩,
  ⟨n!"VSRLB", .VRR_c, [vec_reg_4_U, vec_reg_4_U, vec_reg_4_U], 0⟩,
  ⟨n!"VS", .VRR_c, [vec_reg_4_U, vec_reg_4_U, vec_reg_4_U, mask_4_U], 0⟩,
  ⟨n!"VSCBI", .VRR_c, [vec_reg_4_U, vec_reg_4_U, vec_reg_4_U, mask_4_U], 0⟩,
  ⟨n!"VCSFP", .VRR_a, [vec_reg_4_U, vec_reg_4_U, mask_4_U, mask_4_U, mask_4_U], 0⟩,
  ⟨n!"VSBI", .VRR_d, [vec_reg_4_U, vec_reg_4_U, vec_reg_4_U, vec_reg_4_U, mask_4_U], 0⟩,
  ⟨n!"VSBCBI", .VRR_d, [vec_reg_4_U, vec_reg_4_U, vec_reg_4_U, vec_reg_4_U, mask_4_U], 0⟩,
  ⟨n!"VSUMG", .VRR_c, [vec_reg_4_U, vec_reg_4_U, vec_reg_4_U, mask_4_U], 0⟩,
  ⟨n!"VSUMQ", .VRR_c, [vec_reg_4_U, vec_reg_4_U, vec_reg_4_U, mask_4_U], 0⟩,
  ⟨n!"VSUM", .VRR_c, [vec_reg_4_U, vec_reg_4_U, vec_reg_4_U, mask_4_U], 0⟩,
  ⟨n!"VTM", .VRR_a, [vec_reg_4_U, vec_reg_4_U], 0⟩,
  ⟨n!"VFAE", .VRR_b, [vec_reg_4_U, vec_reg_4_U, vec_reg_4_U, mask_4_U, mask_4_U], 1⟩,
  ⟨n!"VFEE", .VRR_b, [vec_reg_4_U, vec_reg_4_U, vec_reg_4_U, mask_4_U, mask_4_U], 1⟩,
  ⟨n!"VFENE", .VRR_b, [vec_reg_4_U, vec_reg_4_U, vec_reg_4_U, mask_4_U, mask_4_U], 1⟩,
  ⟨n!"VISTR", .VRR_a, [vec_reg_4_U, vec_reg_4_U, mask_4_U, mask_4_U], 1⟩,
  ⟨n!"VSTRC", .VRR_d, [vec_reg_4_U, vec_reg_4_U, vec_reg_4_U, vec_reg_4_U, mask_4_U, mask_4_U], 1⟩,
  ⟨n!"VSTRS", .VRR_d, [vec_reg_4_U, vec_reg_4_U, vec_reg_4_U, vec_reg_4_U, mask_4_U, mask_4_U], 1⟩,
  ⟨n!"VFA", .VRR_c, [vec_reg_4_U, vec_reg_4_U, vec_reg_4_U, mask_4_U, mask_4_U], 0⟩,
  ⟨n!"WFC", .VRR_a, [vec_reg_4_U, vec_reg_4_U, mask_4_U, mask_4_U], 0⟩,
  ⟨n!"WFK", .VRR_a, [vec_reg_4_U, vec_reg_4_U, mask_4_U, mask_4_U], 0⟩,
  ⟨n!"VFCE", .VRR_c, [vec_reg_4_U, vec_reg_4_U, vec_reg_4_U, mask_4_U, mask_4_U, mask_4_U], 0⟩,
  ⟨n!"VFCH", .VRR_c, [vec_reg_4_U, vec_reg_4_U, vec_reg_4_U, mask_4_U, mask_4_U, mask_4_U], 0⟩,
  ⟨n!"VFCHE", .VRR_c, [vec_reg_4_U, vec_reg_4_U, vec_reg_4_U, mask_4_U, mask_4_U, mask_4_U], 0⟩,
  ⟨n!"VCFPS", .VRR_a, [vec_reg_4_U, vec_reg_4_U, mask_4_U, mask_4_U, mask_4_U], 0⟩,
  ⟨n!"VCFPL", .VRR_a, [vec_reg_4_U, vec_reg_4_U, mask_4_U, mask_4_U, mask_4_U], 0⟩,
  ⟨n!"VCLGD", .VRR_a, [vec_reg_4_U, vec_reg_4_U, mask_4_U, mask_4_U, mask_4_U], 0⟩,
  ⟨n!"VFD", .VRR_c, [vec_reg_4_U, vec_reg_4_U, vec_reg_4_U, mask_4_U, mask_4_U], 0⟩,
  ⟨n!"VFI", .VRR_a, [vec_reg_4_U, vec_reg_4_U, mask_4_U, mask_4_U, mask_4_U], 0⟩,
  ⟨n!"VFLL", .VRR_a, [vec_reg_4_U, vec_reg_4_U, mask_4_U, mask_4_U], 0⟩,
  ⟨n!"VFLR", .VRR_a, [vec_reg_4_U, vec_reg_4_U, mask_4_U, mask_4_U, mask_4_U], 0⟩,
  ⟨n!"VFMAX", .VRR_c, [vec_reg_4_U, vec_reg_4_U, vec_reg_4_U, mask_4_U, mask_4_U, mask_4_U], 0⟩,
  ⟨n!"VFMIN", .VRR_c, [vec_reg_4_U, vec_reg_4_U, vec_reg_4_U, mask_4_U, mask_4_U, mask_4_U], 0⟩,
  ⟨n!"VFM", .VRR_c, [vec_reg_4_U, vec_reg_4_U, vec_reg_4_U, mask_4_U, mask_4_U], 0⟩,
  ⟨n!"VFMA", .VRR_e, [vec_reg_4_U, vec_reg_4_U, vec_reg_4_U, vec_reg_4_U, mask_4_U, mask_4_U], 0⟩,
  ⟨n!"VFMS", .VRR_e, [vec_reg_4_U, vec_reg_4_U, vec_reg_4_U, vec_reg_4_U, mask_4_U, mask_4_U], 0⟩,
  ⟨n!"VFNMA", .VRR_e, [vec_reg_4_U, vec_reg_4_U, vec_reg_4_U, vec_reg_4_U, mask_4_U, mask_4_U], 0⟩,
  ⟨n!"VFNMS", .VRR_e, [vec_reg_4_U, vec_reg_4_U, vec_reg_4_U, vec_reg_4_U, mask_4_U, mask_4_U], 0⟩,
  ⟨n!"VFPSO", .VRR_a, [vec_reg_4_U, vec_reg_4_U, mask_4_U, mask_4_U, mask_4_U], 0⟩,
  ⟨n!"VFSQ", .VRR_a, [vec_reg_4_U, vec_reg_4_U, mask_4_U, mask_4_U], 0⟩,
  ⟨n!"VFS", .VRR_c, [vec_reg_4_U, vec_reg_4_U, vec_reg_4_U, mask_4_U, mask_4_U], 0⟩,
  ⟨n!"VFTCI", .VRI_e, [vec_reg_4_U, vec_reg_4_U, imm_12_S, mask_4_U, mask_4_U], 0⟩,
  ⟨n!"VAP", .VRI_f, [vec_reg_4_U, vec_reg_4_U, vec_reg_4_U, imm_8_U, mask_4_U], 0⟩,
  ⟨n!"VCP", .VRR_h, [vec_reg_4_U, vec_reg_4_U, mask_4_U], 0⟩,
  ⟨n!"VCVB", .VRR_i, [reg_4_U, vec_reg_4_U, mask_4_U], 0⟩,
  ⟨n!"VCVBG", .VRR_i, [reg_4_U, vec_reg_4_U, mask_4_U], 0⟩,
  ⟨n!"VCVD", .VRI_i, [vec_reg_4_U, reg_4_U, imm_8_S, mask_4_U], 0⟩,
  ⟨n!"VCVDG", .VRI_i, [vec_reg_4_U, reg_4_U, imm_8_S, mask_4_U], 0⟩,
  ⟨n!"VDP", .VRI_f, [vec_reg_4_U, vec_reg_4_U, vec_reg_4_U, imm_8_U, mask_4_U], 0⟩,
  ⟨n!"VMP", .VRI_f, [vec_reg_4_U, vec_reg_4_U, vec_reg_4_U, imm_8_U, mask_4_U], 0⟩,
  ⟨n!"VMSP", .VRI_f, [vec_reg_4_U, vec_reg_4_U, vec_reg_4_U, imm_8_U, mask_4_U], 0⟩,
  ⟨n!"VRP", .VRI_f, [vec_reg_4_U, vec_reg_4_U, vec_reg_4_U, imm_8_U, mask_4_U], 0⟩,
  ⟨n!"VSDP", .VRI_f, [vec_reg_4_U, vec_reg_4_U, vec_reg_4_U, imm_8_U, mask_4_U], 0⟩,
  ⟨n!"VSP", .VRI_f, [vec_reg_4_U, vec_reg_4_U, vec_reg_4_U, imm_8_U, mask_4_U], 0⟩,
  ⟨n!"VLIP", .VRI_h, [vec_reg_4_U, imm_16_S, imm_4_U], 0⟩,
  ⟨n!"VPKZ", .VSI, [vec_reg_4_U, db_12_4_U, imm_8_U], 0⟩,
  ⟨n!"VPSOP", .VRI_g, [vec_reg_4_U, vec_reg_4_U, imm_8_U, imm_8_U, mask_4_U], 0⟩,
  ⟨n!"VSRP", .VRI_g, [vec_reg_4_U, vec_reg_4_U, imm_8_U, imm_8_S, mask_4_U], 0⟩,
  ⟨n!"SIE", .S, [db_12_4_U], 0⟩,
  ⟨n!"VAD", .RI_a, [reg_4_U, imm_16_U], 0⟩,
  ⟨n!"VSD", .RI_a, [reg_4_U, imm_16_U], 0⟩,
  ⟨n!"VADS", .RI_a, [reg_4_U, imm_16_U], 0⟩,
  ⟨n!"VSDS", .RI_a, [reg_4_U, imm_16_U], 0⟩,
  ⟨n!"VMDS", .RI_a, [reg_4_U, imm_16_U], 0⟩,
  ⟨n!"VDDS", .RI_a, [reg_4_U, imm_16_U], 0⟩,
  ⟨n!"VMADS", .RI_a, [reg_4_U, imm_16_U], 0⟩,
  ⟨n!"VMSDS", .RI_a, [reg_4_U, imm_16_U], 0⟩,
  ⟨n!"VCDS", .RI_a, [reg_4_U, imm_16_U], 0⟩,
  ⟨n!"VAS", .RI_a, [reg_4_U, imm_16_U], 0⟩,
  ⟨n!"VSS", .RI_a, [reg_4_U, imm_16_U], 0⟩,
  ⟨n!"VMS", .RI_a, [reg_4_U, imm_16_U], 0⟩,
  ⟨n!"VNS", .RI_a, [reg_4_U, imm_16_U], 0⟩,
  ⟨n!"VOS", .RI_a, [reg_4_U, imm_16_U], 0⟩,
  ⟨n!"VXS", .RI_a, [reg_4_U, imm_16_U], 0⟩,
  ⟨n!"VCS", .RI_a, [reg_4_U, imm_16_U], 0⟩,
  ⟨n!"VMD", .RI_a, [reg_4_U, imm_16_U], 0⟩,
  ⟨n!"VMSD", .RI_a, [reg_4_U, imm_16_U], 0⟩,
  ⟨n!"VMSE", .RI_a, [reg_4_U, imm_16_U], 0⟩,
  ⟨n!"VMSES", .RI_a, [reg_4_U, imm_16_U], 0⟩,
  ⟨n!"VLINT", .RI_a, [reg_4_U, imm_16_U], 0⟩,
  ⟨n!"VDD", .RI_a, [reg_4_U, imm_16_U], 0⟩,
  ⟨n!"VDDS", .RI_a, [reg_4_U, imm_16_U], 0⟩,
  ⟨n!"VDE", .RI_a, [reg_4_U, imm_16_U], 0⟩,
  ⟨n!"VDES", .RI_a, [reg_4_U, imm_16_U], 0⟩,
  ⟨n!"VMXAD", .RRE, [reg_4_U, reg_4_U], 0⟩,
  ⟨n!"VMXAE", .RRE, [reg_4_U, reg_4_U], 0⟩,
  ⟨n!"VMXSE", .RRE, [reg_4_U, reg_4_U], 0⟩,
  ⟨n!"VNVM", .RRE, [reg_4_U, reg_4_U], 0⟩,
  ⟨n!"VOVM", .RRE, [reg_4_U, reg_4_U], 0⟩,
  ⟨n!"VLCVM", .RRE, [reg_4_U, reg_4_U], 0⟩,
  ⟨n!"VLELE", .RRE, [reg_4_U, reg_4_U], 0⟩,
  ⟨n!"VLELD", .RRE, [reg_4_U, reg_4_U], 0⟩,
  ⟨n!"VLI", .RRE, [reg_4_U, reg_4_U], 0⟩,
  ⟨n!"VLID", .RRE, [reg_4_U, reg_4_U], 0⟩,
  ⟨n!"VLBIX", .RRE, [reg_4_U, reg_4_U], 0⟩,
  ⟨n!"VLVCU", .RRE, [reg_4_U, reg_4_U], 0⟩,
  ⟨n!"VLVCA", .RRE, [reg_4_U, reg_4_U], 0⟩,
  ⟨n!"VLVM", .RRE, [reg_4_U, reg_4_U], 0⟩,
  ⟨n!"VMNSD", .RRE, [reg_4_U, reg_4_U], 0⟩,
  ⟨n!"VMNSE", .RRE, [reg_4_U, reg_4_U], 0⟩,
  ⟨n!"VMRRS", .RRE, [reg_4_U, reg_4_U], 0⟩,
  ⟨n!"VMRSV", .RRE, [reg_4_U, reg_4_U], 0⟩,
  ⟨n!"VACRS", .RRE, [reg_4_U, reg_4_U], 0⟩,
  ⟨n!"VACSV", .RRE, [reg_4_U, reg_4_U], 0⟩,
  ⟨n!"VSTVM", .RRE, [reg_4_U, reg_4_U], 0⟩,
  ⟨n!"VSTVP", .RRE, [reg_4_U, reg_4_U], 0⟩,
  ⟨n!"VSVMM", .RRE, [reg_4_U, reg_4_U], 0⟩,
  ⟨n!"VTVM", .RRE, [reg_4_U, reg_4_U], 0⟩,
  ⟨n!"VXELE", .RRE, [reg_4_U, reg_4_U], 0⟩,
  ⟨n!"VXELD", .RRE, [reg_4_U, reg_4_U], 0⟩,
  ⟨n!"VXVC", .RRE, [reg_4_U, reg_4_U], 0⟩,
  ⟨n!"VXVM", .RRE, [reg_4_U, reg_4_U], 0⟩,
  ⟨n!"VXVMM", .RRE, [reg_4_U, reg_4_U], 0⟩,
  ⟨n!"VSTI", .RRE, [reg_4_U, reg_4_U], 0⟩,
  ⟨n!"VSTID", .RRE, [reg_4_U, reg_4_U], 0⟩,
  ⟨n!"VRCL", .RRE, [reg_4_U, reg_4_U], 0⟩,
  ⟨n!"VRRS", .RRE, [reg_4_U, reg_4_U], 0⟩,
  ⟨n!"VRSV", .RRE, [reg_4_U, reg_4_U], 0⟩,
  ⟨n!"VRSVC", .RRE, [reg_4_U, reg_4_U], 0⟩,
  ⟨n!"VSLL", .RRE, [reg_4_U, reg_4_U], 0⟩,
  ⟨n!"VSPSD", .RRE, [reg_4_U, reg_4_U], 0⟩,
  ⟨n!"VZPSD", .RRE, [reg_4_U, reg_4_U], 0⟩,
  ⟨n!"VSRRS", .RRE, [reg_4_U, reg_4_U], 0⟩,
  ⟨n!"VSRSV", .RRE, [reg_4_U, reg_4_U], 0⟩,
  ⟨n!"VOVM", .RRE, [reg_4_U, reg_4_U], 0⟩,
  ⟨n!"VCVM", .RRE, [reg_4_U, reg_4_U], 0⟩,
  ⟨n!"VCZVM", .RRE, [reg_4_U, reg_4_U], 0⟩,
  ⟨n!"VCOVM", .RRE, [reg_4_U, reg_4_U], 0⟩,
  ⟨n!"VTP", .VRR_g, [vec_reg_4_U], 0⟩,
  ⟨n!"VUPKZ", .VSI, [vec_reg_4_U, db_12_4_U, imm_8_U], 0⟩,
  ⟨n!"VSTK", .RI_a, [reg_4_U, imm_16_U], 0⟩,
  ⟨n!"VSE", .RI_a, [reg_4_U, imm_16_U], 0⟩,
  ⟨n!"VSES", .RI_a, [reg_4_U, imm_16_U], 0⟩,
  ⟨n!"VSD", .RI_a, [reg_4_U, imm_16_U], 0⟩,
  ⟨n!"VSDS", .RI_a, [reg_4_U, imm_16_U], 0⟩,
  ⟨n!"VSTD", .RI_a, [reg_4_U, imm_16_U], 0⟩,
  ⟨n!"VSTKD", .RI_a, [reg_4_U, imm_16_U], 0⟩,
  ⟨n!"VSTMD", .RI_a, [reg_4_U, imm_16_U], 0⟩,
  ⟨n!"VSTH", .RI_a, [reg_4_U, imm_16_U], 0⟩,
  ⟨n!"VLD", .RI_a, [reg_4_U, imm_16_U], 0⟩,
  ⟨n!"VLH", .RI_a, [reg_4_U, imm_16_U], 0⟩,
  ⟨n!"VLMD", .RI_a, [reg_4_U, imm_16_U], 0⟩,
  ⟨n!"VLY", .RI_a, [reg_4_U, imm_16_U], 0⟩,
  ⟨n!"VLYD", .RI_a, [reg_4_U, imm_16_U], 0⟩,
  ⟨n!"VM", .RI_a, [reg_4_U, imm_16_U], 0⟩,
  ⟨n!"VMAD", .RI_a, [reg_4_U, imm_16_U], 0⟩,
  ⟨n!"VMAES", .RI_a, [reg_4_U, imm_16_U], 0⟩,
  ⟨n!"VMCD", .RI_a, [reg_4_U, imm_16_U], 0⟩,
  ⟨n!"VMCE", .RI_a, [reg_4_U, imm_16_U], 0⟩,
  ⟨n!"VMD", .RI_a, [reg_4_U, imm_16_U], 0⟩,
  ⟨n!"VMES", .RI_a, [reg_4_U, imm_16_U], 0⟩,
  ⟨n!"VACD", .RI_a, [reg_4_U, imm_16_U], 0⟩,
  ⟨n!"VACE", .RI_a, [reg_4_U, imm_16_U], 0⟩,
  ⟨n!"VAE", .RI_a, [reg_4_U, imm_16_U], 0⟩,
  ⟨n!"VAES", .RI_a, [reg_4_U, imm_16_U], 0⟩,
  ⟨n!"VC", .RI_a, [reg_4_U, imm_16_U], 0⟩,
  ⟨n!"VCD", .RI_a, [reg_4_U, imm_16_U], 0⟩,
  ⟨n!"VCE", .RI_a, [reg_4_U, imm_16_U], 0⟩,
  ⟨n!"VCES", .RI_a, [reg_4_U, imm_16_U], 0⟩]


/-- `instruction::get_mnemonic_codes` (instruction.cpp:1801-2754). -/
def mnems : List Mnem := [
  ⟨n!"B", n!"BC", [(0, 15)]⟩,
  ⟨n!"BR", n!"BCR", [(0, 15)]⟩,
  ⟨n!"J", n!"BRC", [(0, 15)]⟩,
  ⟨n!"NOP", n!"BC", [(0, 0)]⟩,
  ⟨n!"NOPR", n!"BCR", [(0, 0)]⟩,
  ⟨n!"JNOP", n!"BRC", [(0, 0)]⟩,
  ⟨n!"BH", n!"BC", [(0, 2)]⟩,
  ⟨n!"BHR", n!"BCR", [(0, 2)]⟩,
  ⟨n!"JH", n!"BRC", [(0, 2)]⟩,
  ⟨n!"BL", n!"BC", [(0, 4)]⟩,
  ⟨n!"BLR", n!"BCR", [(0, 4)]⟩,
  ⟨n!"JL", n!"BRC", [(0, 4)]⟩,
  ⟨n!"BE", n!"BC", [(0, 8)]⟩,
  ⟨n!"BER", n!"BCR", [(0, 8)]⟩,
  ⟨n!"JE", n!"BRC", [(0, 8)]⟩,
  ⟨n!"BNH", n!"BC", [(0, 13)]⟩,
  ⟨n!"BNHR", n!"BCR", [(0, 13)]⟩,
  ⟨n!"JNH", n!"BRC", [(0, 13)]⟩,
  ⟨n!"BNL", n!"BC", [(0, 11)]⟩,
  ⟨n!"BNLR", n!"BCR", [(0, 11)]⟩,
  ⟨n!"JNL", n!"BRC", [(0, 11)]⟩,
  ⟨n!"BNE", n!"BC", [(0, 7)]⟩,
  ⟨n!"BNER", n!"BCR", [(0, 7)]⟩,
  ⟨n!"JNE", n!"BRC", [(0, 7)]⟩,
  ⟨n!"BP", n!"BC", [(0, 2)]⟩,
  ⟨n!"BPR", n!"BCR", [(0, 2)]⟩,
  ⟨n!"JP", n!"BRC", [(0, 2)]⟩,
  ⟨n!"JM", n!"BRC", [(0, 4)]⟩,
  ⟨n!"JZ", n!"BRC", [(0, 8)]⟩,
  ⟨n!"JO", n!"BRC", [(0, 1)]⟩,
  ⟨n!"BNP", n!"BC", [(0, 13)]⟩,
  ⟨n!"BNPR", n!"BCR", [(0, 13)]⟩,
  ⟨n!"JNP", n!"BRC", [(0, 13)]⟩,
  ⟨n!"BNM", n!"BC", [(0, 11)]⟩,
  ⟨n!"JNM", n!"BRC", [(0, 11)]⟩,
  ⟨n!"BNZ", n!"BC", [(0, 7)]⟩,
  ⟨n!"JNZ", n!"BRC", [(0, 7)]⟩,
  ⟨n!"BNO", n!"BC", [(0, 14)]⟩,
  ⟨n!"JNO", n!"BRC", [(0, 14)]⟩,
  ⟨n!"XHLR", n!"RXSBG", [(2, 0), (3, 31), (4, 32)]⟩,
  ⟨n!"XHHR", n!"RXSBG", [(2, 0), (3, 31)]⟩,
  ⟨n!"XLHR", n!"RXSBG", [(2, 32), (3, 63), (4, 32)]⟩,
  ⟨n!"OHLR", n!"ROSBG", [(2, 0), (3, 31), (4, 32)]⟩,
  ⟨n!"OHHR", n!"ROSBG", [(2, 0), (3, 31)]⟩,
  ⟨n!"OLHR", n!"ROSBG", [(2, 32), (3, 63), (4, 32)]⟩,
  ⟨n!"NHLR", n!"RNSBG", [(2, 0), (3, 31), (4, 32)]⟩,
  ⟨n!"NHHR", n!"RNSBG", [(2, 0), (3, 31)]⟩,
  ⟨n!"NLHR", n!"RNSBG", [(2, 32), (3, 63), (4, 32)]⟩,
  ⟨n!"BO", n!"BC", [(0, 1)]⟩,
  ⟨n!"BOR", n!"BCR", [(0, 1)]⟩,
  ⟨n!"BM", n!"BC", [(0, 4)]⟩,
  ⟨n!"BMR", n!"BCR", [(0, 4)]⟩,
  ⟨n!"BZ", n!"BC", [(0, 8)]⟩,
  ⟨n!"BZR", n!"BCR", [(0, 8)]⟩,
  ⟨n!"BNOR", n!"BCR", [(0, 14)]⟩,
  ⟨n!"BNMR", n!"BCR", [(0, 11)]⟩,
  ⟨n!"BNZR", n!"BCR", [(0, 7)]⟩,
  ⟨n!"BRUL", n!"BRCL", [(0, 15)]⟩,
  ⟨n!"BRHL", n!"BRCL", [(0, 2)]⟩,
  ⟨n!"BRLL", n!"BRCL", [(0, 4)]⟩,
  ⟨n!"BREL", n!"BRCL", [(0, 8)]⟩,
  ⟨n!"BRNHL", n!"BRCL", [(0, 13)]⟩,
  ⟨n!"BRNLL", n!"BRCL", [(0, 11)]⟩,
  ⟨n!"BRNEL", n!"BRCL", [(0, 7)]⟩,
  ⟨n!"BRPL", n!"BRCL", [(0, 2)]⟩,
  ⟨n!"BRML", n!"BRCL", [(0, 4)]⟩,
  ⟨n!"BRZL", n!"BRCL", [(0, 8)]⟩,
  ⟨n!"BROL", n!"BRCL", [(0, 1)]⟩,
  ⟨n!"BRNPL", n!"BRCL", [(0, 13)]⟩,
  ⟨n!"BRNML", n!"BRCL", [(0, 11)]⟩,
  ⟨n!"BRNZL", n!"BRCL", [(0, 7)]⟩,
  ⟨n!"BRNOL", n!"BRCL", [(0, 14)]⟩,
  ⟨n!"BRO", n!"BRC", [(0, 1)]⟩,
  ⟨n!"BRP", n!"BRC", [(0, 2)]⟩,
  ⟨n!"BRH", n!"BRC", [(0, 2)]⟩,
  ⟨n!"BRL", n!"BRC", [(0, 4)]⟩,
  ⟨n!"BRM", n!"BRC", [(0, 4)]⟩,
  ⟨n!"BRNE", n!"BRC", [(0, 7)]⟩,
  ⟨n!"BRNZ", n!"BRC", [(0, 7)]⟩,
  ⟨n!"BRE", n!"BRC", [(0, 8)]⟩,
  ⟨n!"BRZ", n!"BRC", [(0, 8)]⟩,
  ⟨n!"BRNL", n!"BRC", [(0, 11)]⟩,
  ⟨n!"BRNM", n!"BRC", [(0, 11)]⟩,
  ⟨n!"BRNH", n!"BRC", [(0, 13)]⟩,
  ⟨n!"BRNP", n!"BRC", [(0, 13)]⟩,
  ⟨n!"BRNO", n!"BRC", [(0, 14)]⟩,
  ⟨n!"BRU", n!"BRC", [(0, 15)]⟩,
  ⟨n!"JLU", n!"BRCL", [(0, 15)]⟩,
  ⟨n!"JLNOP", n!"BRCL", [(0, 0)]⟩,
  ⟨n!"JLH", n!"BRCL", [(0, 2)]⟩,
  ⟨n!"JLL", n!"BRCL", [(0, 4)]⟩,
  ⟨n!"JLE", n!"BRCL", [(0, 8)]⟩,
  ⟨n!"JLNH", n!"BRCL", [(0, 13)]⟩,
  ⟨n!"JLNL", n!"BRCL", [(0, 11)]⟩,
  ⟨n!"JLNE", n!"BRCL", [(0, 7)]⟩,
  ⟨n!"JLP", n!"BRCL", [(0, 2)]⟩,
  ⟨n!"JLM", n!"BRCL", [(0, 4)]⟩,
  ⟨n!"JLZ", n!"BRCL", [(0, 8)]⟩,
  ⟨n!"JLO", n!"BRCL", [(0, 1)]⟩,
  ⟨n!"JLNP", n!"BRCL", [(0, 13)]⟩,
  ⟨n!"JLNM", n!"BRCL", [(0, 11)]⟩,
  ⟨n!"JLNZ", n!"BRCL", [(0, 7)]⟩,
  ⟨n!"JLNO", n!"BRCL", [(0, 14)]⟩,
  ⟨n!"JAS", n!"BRAS", []⟩,
  ⟨n!"JASL", n!"BRASL", []⟩,
  ⟨n!"JC", n!"BRC", []⟩,
  ⟨n!"JCT", n!"BRCT", []⟩,
  ⟨n!"JCTG", n!"BRCTG", []⟩,
  ⟨n!"JXH", n!"BRXH", []⟩,
  ⟨n!"JXHG", n!"BRXHG", []⟩,
  ⟨n!"JXLE", n!"BRXLE", []⟩,
  ⟨n!"JXLEG", n!"BRXLG", []⟩,
  ⟨n!"VCDG", n!"VCFPS", []⟩,
  ⟨n!"VCGD", n!"VCSFP", []⟩,
  ⟨n!"BIO", n!"BIC", [(0, 1)]⟩,
  ⟨n!"BIP", n!"BIC", [(0, 2)]⟩,
  ⟨n!"BIH", n!"BIC", [(0, 2)]⟩,
  ⟨n!"BIM", n!"BIC", [(0, 4)]⟩,
  ⟨n!"BIL", n!"BIC", [(0, 4)]⟩,
  ⟨n!"BINZ", n!"BIC", [(0, 7)]⟩,
  ⟨n!"BINE", n!"BIC", [(0, 7)]⟩,
  ⟨n!"BIZ", n!"BIC", [(0, 8)]⟩,
  ⟨n!"BIE", n!"BIC", [(0, 8)]⟩,
  ⟨n!"BINM", n!"BIC", [(0, 11)]⟩,
  ⟨n!"BINL", n!"BIC", [(0, 11)]⟩,
  ⟨n!"BINP", n!"BIC", [(0, 13)]⟩,
  ⟨n!"BINH", n!"BIC", [(0, 13)]⟩,
  ⟨n!"BINO", n!"BIC", [(0, 14)]⟩,
  ⟨n!"BI", n!"BIC", [(0, 15)]⟩,
  ⟨n!"VSTBRH", n!"VSTBR", [(2, 1)]⟩,
  ⟨n!"VSTBRF", n!"VSTBR", [(2, 2)]⟩,
  ⟨n!"VSTBRG", n!"VSTBR", [(2, 3)]⟩,
  ⟨n!"VSTBRQ", n!"VSTBR", [(2, 4)]⟩,
  ⟨n!"VSTERH", n!"VSTER", [(2, 1)]⟩,
  ⟨n!"VSTERF", n!"VSTER", [(2, 2)]⟩,
  ⟨n!"VSTERG", n!"VSTER", [(2, 3)]⟩,
  ⟨n!"STERV", n!"VSTEBRF", [(2, 0)]⟩,
  ⟨n!"STDRV", n!"VSTEBRG", [(2, 0)]⟩,
  ⟨n!"SELFHRE", n!"SELFHR", [(3, 8)]⟩,
  ⟨n!"SELFHRH", n!"SELFHR", [(3, 2)]⟩,
  ⟨n!"SELFHRL", n!"SELFHR", [(3, 4)]⟩,
  ⟨n!"SELFHRNE", n!"SELFHR", [(3, 7)]⟩,
  ⟨n!"SELFHRNH", n!"SELFHR", [(3, 13)]⟩,
  ⟨n!"SELFHRNL", n!"SELFHR", [(3, 11)]⟩,
  ⟨n!"SELFHRNO", n!"SELFHR", [(3, 14)]⟩,
  ⟨n!"SELFHRO", n!"SELFHR", [(3, 1)]⟩,
  ⟨n!"LHHR", n!"RISBHGZ", [(2, 0), (3, 31)]⟩,
  ⟨n!"LHLR", n!"RISBHGZ", [(2, 0), (3, 31), (4, 32)]⟩,
  ⟨n!"LLHHHR", n!"RISBHGZ", [(2, 16), (3, 31)]⟩,
  ⟨n!"LLHHLR", n!"RISBHGZ", [(2, 16), (3, 31), (4, 32)]⟩,
  ⟨n!"LLCHHR", n!"RISBHGZ", [(2, 24), (3, 31)]⟩,
  ⟨n!"LLCHLR", n!"RISBHGZ", [(2, 24), (3, 31), (4, 32)]⟩,
  ⟨n!"LLHFR", n!"RISBLGZ", [(2, 0), (3, 31), (4, 32)]⟩,
  ⟨n!"LLHLHR", n!"RISBLGZ", [(2, 16), (3, 31), (4, 32)]⟩,
  ⟨n!"LLCLHR", n!"RISBLGZ", [(2, 24), (3, 31), (4, 32)]⟩,
  ⟨n!"LOCO", n!"LOC", [(2, 1)]⟩,
  ⟨n!"LOCNO", n!"LOC", [(2, 14)]⟩,
  ⟨n!"LOCGO", n!"LOCG", [(2, 1)]⟩,
  ⟨n!"LOCGNO", n!"LOCG", [(2, 14)]⟩,
  ⟨n!"LOCGHIH", n!"LOCGHI", [(2, 2)]⟩,
  ⟨n!"LOCGHIL", n!"LOCGHI", [(2, 4)]⟩,
  ⟨n!"LOCGHIE", n!"LOCGHI", [(2, 8)]⟩,
  ⟨n!"LOCGHINE", n!"LOCGHI", [(2, 7)]⟩,
  ⟨n!"LOCGHINL", n!"LOCGHI", [(2, 11)]⟩,
  ⟨n!"LOCGHINH", n!"LOCGHI", [(2, 13)]⟩,
  ⟨n!"LOCGHINO", n!"LOCGHI", [(2, 14)]⟩,
  ⟨n!"LOCGHIO", n!"LOCGHI", [(2, 1)]⟩,
  ⟨n!"LOCGRO", n!"LOCGR", [(2, 1)]⟩,
  ⟨n!"LOCGRNO", n!"LOCGR", [(2, 14)]⟩,
  ⟨n!"LOCHHIE", n!"LOCHHI", [(2, 8)]⟩,
  ⟨n!"LOCHHIH", n!"LOCHHI", [(2, 2)]⟩,
  ⟨n!"LOCHHIL", n!"LOCHHI", [(2, 4)]⟩,
  ⟨n!"LOCHHINE", n!"LOCHHI", [(2, 7)]⟩,
  ⟨n!"LOCHHINH", n!"LOCHHI", [(2, 13)]⟩,
  ⟨n!"LOCHHINL", n!"LOCHHI", [(2, 11)]⟩,
  ⟨n!"LOCHHINO", n!"LOCHHI", [(2, 14)]⟩,
  ⟨n!"LOCHHIO", n!"LOCHHI", [(2, 1)]⟩,
  ⟨n!"LOCHIE", n!"LOCHI", [(2, 8)]⟩,
  ⟨n!"LOCHIH", n!"LOCHI", [(2, 2)]⟩,
  ⟨n!"LOCHIL", n!"LOCHI", [(2, 4)]⟩,
  ⟨n!"LOCHINE", n!"LOCHI", [(2, 7)]⟩,
  ⟨n!"LOCHINH", n!"LOCHI", [(2, 13)]⟩,
  ⟨n!"LOCHINL", n!"LOCHI", [(2, 11)]⟩,
  ⟨n!"LOCHINO", n!"LOCHI", [(2, 14)]⟩,
  ⟨n!"LOCHIO", n!"LOCHI", [(2, 1)]⟩,
  ⟨n!"LOCRNO", n!"LOCR", [(2, 14)]⟩,
  ⟨n!"LOCRO", n!"LOCR", [(2, 1)]⟩,
  ⟨n!"LOCFHE", n!"LOCFH", [(2, 8)]⟩,
  ⟨n!"LOCFHH", n!"LOCFH", [(2, 2)]⟩,
  ⟨n!"LOCFHL", n!"LOCFH", [(2, 4)]⟩,
  ⟨n!"LOCFHNE", n!"LOCFH", [(2, 7)]⟩,
  ⟨n!"LOCFHNH", n!"LOCFH", [(2, 13)]⟩,
  ⟨n!"LOCFHNL", n!"LOCFH", [(2, 11)]⟩,
  ⟨n!"LOCFHNO", n!"LOCFH", [(2, 14)]⟩,
  ⟨n!"LOCFHO", n!"LOCFH", [(2, 1)]⟩,
  ⟨n!"LOCFHRH", n!"LOCFHR", [(2, 2)]⟩,
  ⟨n!"LOCFHRL", n!"LOCFHR", [(2, 4)]⟩,
  ⟨n!"LOCFHRE", n!"LOCFHR", [(2, 8)]⟩,
  ⟨n!"LOCFHRNE", n!"LOCFHR", [(2, 7)]⟩,
  ⟨n!"LOCFHRNH", n!"LOCFHR", [(2, 13)]⟩,
  ⟨n!"LOCFHRNL", n!"LOCFHR", [(2, 11)]⟩,
  ⟨n!"LOCFHRNO", n!"LOCFHR", [(2, 14)]⟩,
  ⟨n!"LOCFHRO", n!"LOCFHR", [(2, 1)]⟩,
  ⟨n!"STOCFHE", n!"STOCFH", [(2, 8)]⟩,
  ⟨n!"STOCFHH", n!"STOCFH", [(2, 2)]⟩,
  ⟨n!"STOCFHL", n!"STOCFH", [(2, 4)]⟩,
  ⟨n!"STOCFHNE", n!"STOCFH", [(2, 7)]⟩,
  ⟨n!"STOCFHNH", n!"STOCFH", [(2, 13)]⟩,
  ⟨n!"STOCFHNL", n!"STOCFH", [(2, 11)]⟩,
  ⟨n!"STOCFHNO", n!"STOCFH", [(2, 14)]⟩,
  ⟨n!"STOCFHO", n!"STOCFH", [(2, 1)]⟩,
  ⟨n!"STOCGNO", n!"STOCG", [(2, 14)]⟩,
  ⟨n!"STOCGO", n!"STOCG", [(2, 1)]⟩,
  ⟨n!"STOCNO", n!"STOC", [(2, 14)]⟩,
  ⟨n!"STOCO", n!"STOC", [(2, 1)]⟩,
  ⟨n!"SELGRE", n!"SELGR", [(3, 8)]⟩,
  ⟨n!"SELGRH", n!"SELGR", [(3, 2)]⟩,
  ⟨n!"SELGRL", n!"SELGR", [(3, 4)]⟩,
  ⟨n!"SELGRNE", n!"SELGR", [(3, 7)]⟩,
  ⟨n!"SELGRNH", n!"SELGR", [(3, 13)]⟩,
  ⟨n!"SELGRNL", n!"SELGR", [(3, 11)]⟩,
  ⟨n!"SELGRNO", n!"SELGR", [(3, 14)]⟩,
  ⟨n!"SELGRO", n!"SELGR", [(3, 1)]⟩,
  ⟨n!"SELRE", n!"SELR", [(3, 8)]⟩,
  ⟨n!"SELRH", n!"SELR", [(3, 2)]⟩,
  ⟨n!"SELRL", n!"SELR", [(3, 4)]⟩,
  ⟨n!"SELRNE", n!"SELR", [(3, 7)]⟩,
  ⟨n!"SELRNH", n!"SELR", [(3, 13)]⟩,
  ⟨n!"SELRNL", n!"SELR", [(3, 11)]⟩,
  ⟨n!"SELRNO", n!"SELR", [(3, 14)]⟩,
  ⟨n!"SELRO", n!"SELR", [(3, 1)]⟩,
  ⟨n!"VZERO", n!"VGBM", [(0, 1)]⟩,
  ⟨n!"VONE", n!"VGBM", [(1, 65535)]⟩,
  ⟨n!"VGMB", n!"VGM", [(3, 0)]⟩,
  ⟨n!"VGMH", n!"VGM", [(3, 1)]⟩,
  ⟨n!"VGMF", n!"VGM", [(3, 2)]⟩,
  ⟨n!"VGMG", n!"VGM", [(3, 3)]⟩,
  ⟨n!"VLREPB", n!"VLREP", [(2, 0)]⟩,
  ⟨n!"VLREPH", n!"VLREP", [(2, 1)]⟩,
  ⟨n!"VLREPF", n!"VLREP", [(2, 2)]⟩,
  ⟨n!"VLREPG", n!"VLREP", [(2, 3)]⟩,
  ⟨n!"VLGVB", n!"VLGV", [(3, 0)]⟩,
  ⟨n!"VLGVH", n!"VLGV", [(3, 1)]⟩,
  ⟨n!"VLGVF", n!"VLGV", [(3, 2)]⟩,
  ⟨n!"VLGVG", n!"VLGV", [(3, 3)]⟩,
  ⟨n!"VLLEZB", n!"VLLEZ", [(2, 0)]⟩,
  ⟨n!"VLLEZH", n!"VLLEZ", [(2, 1)]⟩,
  ⟨n!"VLLEZF", n!"VLLEZ", [(2, 2)]⟩,
  ⟨n!"VLLEZG", n!"VLLEZ", [(2, 3)]⟩,
  ⟨n!"VLLEZLF", n!"VLLEZ", [(2, 6)]⟩,
  ⟨n!"VLLEBRZE", n!"VLLEBRZ", [(2, 6)]⟩,
  ⟨n!"VLLEBRZG", n!"VLLEBRZ", [(2, 3)]⟩,
  ⟨n!"VLLEBRZF", n!"VLLEBRZ", [(2, 2)]⟩,
  ⟨n!"VLLEBRZH", n!"VLLEBRZ", [(2, 1)]⟩,
  ⟨n!"VLVGB", n!"VLVG", [(3, 0)]⟩,
  ⟨n!"VLVGH", n!"VLVG", [(3, 1)]⟩,
  ⟨n!"VLVGF", n!"VLVG", [(3, 2)]⟩,
  ⟨n!"VLVGG", n!"VLVG", [(3, 3)]⟩,
  ⟨n!"VMRHB", n!"VMRH", [(3, 0)]⟩,
  ⟨n!"VMRHH", n!"VMRH", [(3, 1)]⟩,
  ⟨n!"VMRHF", n!"VMRH", [(3, 2)]⟩,
  ⟨n!"VMRHG", n!"VMRH", [(3, 3)]⟩,
  ⟨n!"VMRLB", n!"VMRL", [(3, 0)]⟩,
  ⟨n!"VMRLH", n!"VMRL", [(3, 1)]⟩,
  ⟨n!"VMRLF", n!"VMRL", [(3, 2)]⟩,
  ⟨n!"VMRLG", n!"VMRL", [(3, 3)]⟩,
  ⟨n!"VPKSH", n!"VPKS", [(3, 1), (4, 0)]⟩,
  ⟨n!"VPKSF", n!"VPKS", [(3, 2), (4, 0)]⟩,
  ⟨n!"VPKSG", n!"VPKS", [(3, 3), (4, 0)]⟩,
  ⟨n!"VPKSHS", n!"VPKS", [(3, 1), (4, 1)]⟩,
  ⟨n!"VPKSFS", n!"VPKS", [(3, 2), (4, 1)]⟩,
  ⟨n!"VPKSGS", n!"VPKS", [(3, 3), (4, 1)]⟩,
  ⟨n!"VPKLSH", n!"VPKLS", [(3, 1), (4, 0)]⟩,
  ⟨n!"VPKLSF", n!"VPKLS", [(3, 2), (4, 0)]⟩,
  ⟨n!"VPKLSG", n!"VPKLS", [(3, 3), (4, 0)]⟩,
  ⟨n!"VPKLSHS", n!"VPKLS", [(3, 1), (4, 1)]⟩,
  ⟨n!"VPKLSFS", n!"VPKLS", [(3, 2), (4, 1)]⟩,
  ⟨n!"VPKLSGS", n!"VPKLS", [(3, 3), (4, 1)]⟩,
  ⟨n!"VREPB", n!"VREP", [(3, 0)]⟩,
  ⟨n!"VREPH", n!"VREP", [(3, 1)]⟩,
  ⟨n!"VREPF", n!"VREP", [(3, 2)]⟩,
  ⟨n!"VREPG", n!"VREP", [(3, 3)]⟩,
  ⟨n!"VREPIB", n!"VREPI", [(2, 0)]⟩,
  ⟨n!"VREPIH", n!"VREPI", [(2, 1)]⟩,
  ⟨n!"VREPIF", n!"VREPI", [(2, 2)]⟩,
  ⟨n!"VREPIG", n!"VREPI", [(2, 3)]⟩,
  ⟨n!"VSEGB", n!"VSEG", [(2, 0)]⟩,
  ⟨n!"VSEGH", n!"VSEG", [(2, 1)]⟩,
  ⟨n!"VSEGF", n!"VSEG", [(2, 2)]⟩,
  ⟨n!"VUPHB", n!"VUPH", [(2, 0)]⟩,
  ⟨n!"VUPHH", n!"VUPH", [(2, 1)]⟩,
  ⟨n!"VUPHF", n!"VUPH", [(2, 2)]⟩,
  ⟨n!"VUPLHB", n!"VUPLH", [(2, 0)]⟩,
  ⟨n!"VUPLHG", n!"VUPLH", [(2, 1)]⟩,
  ⟨n!"VUPLHF", n!"VUPLH", [(2, 2)]⟩,
  ⟨n!"VUPLB", n!"VUPL", [(2, 0)]⟩,
  ⟨n!"VUPLHW", n!"VUPL", [(2, 1)]⟩,
  ⟨n!"VUPLF", n!"VUPL", [(2, 2)]⟩,
  ⟨n!"VUPLLB", n!"VUPLL", [(2, 0)]⟩,
  ⟨n!"VUPLLH", n!"VUPLL", [(2, 1)]⟩,
  ⟨n!"VUPLLF", n!"VUPLL", [(2, 2)]⟩,
  ⟨n!"VAB", n!"VA", [(3, 0)]⟩,
  ⟨n!"VAH", n!"VA", [(3, 1)]⟩,
  ⟨n!"VAF", n!"VA", [(3, 2)]⟩,
  ⟨n!"VAG", n!"VA", [(3, 3)]⟩,
  ⟨n!"VAQ", n!"VA", [(3, 4)]⟩,
  ⟨n!"VACCB", n!"VACC", [(3, 0)]⟩,
  ⟨n!"VACCH", n!"VACC", [(3, 1)]⟩,
  ⟨n!"VACCF", n!"VACC", [(3, 2)]⟩,
  ⟨n!"VACCG", n!"VACC", [(3, 3)]⟩,
  ⟨n!"VACCQ", n!"VACC", [(3, 4)]⟩,
  ⟨n!"VACQ", n!"VAC", [(3, 4)]⟩,
  ⟨n!"VACCCQ", n!"VACCC", [(3, 4)]⟩,
  ⟨n!"VAVGB", n!"VAVG", [(3, 0)]⟩,
  ⟨n!"VAVGH", n!"VAVG", [(3, 1)]⟩,
  ⟨n!"VAVGF", n!"VAVG", [(3, 2)]⟩,
  ⟨n!"VAVGG", n!"VAVG", [(3, 3)]⟩,
  ⟨n!"VAVGLB", n!"VAVGL", [(3, 0)]⟩,
  ⟨n!"VAVGLH", n!"VAVGL", [(3, 1)]⟩,
  ⟨n!"VAVGLF", n!"VAVGL", [(3, 2)]⟩,
  ⟨n!"VAVGLG", n!"VAVGL", [(3, 3)]⟩,
  ⟨n!"VECB", n!"VEC", [(2, 0)]⟩,
  ⟨n!"VECH", n!"VEC", [(2, 1)]⟩,
  ⟨n!"VECF", n!"VEC", [(2, 2)]⟩,
  ⟨n!"VECG", n!"VEC", [(2, 3)]⟩,
  ⟨n!"VECLB", n!"VECL", [(2, 0)]⟩,
  ⟨n!"VECLH", n!"VECL", [(2, 1)]⟩,
  ⟨n!"VECLF", n!"VECL", [(2, 2)]⟩,
  ⟨n!"VECLG", n!"VECL", [(2, 3)]⟩,
  ⟨n!"VCEQB", n!"VCEQ", [(3, 0), (4, 0)]⟩,
  ⟨n!"VCEQH", n!"VCEQ", [(3, 1), (4, 0)]⟩,
  ⟨n!"VCEQF", n!"VCEQ", [(3, 2), (4, 0)]⟩,
  ⟨n!"VCEQG", n!"VCEQ", [(3, 3), (4, 0)]⟩,
  ⟨n!"VCEQBS", n!"VCEQ", [(3, 0), (4, 1)]⟩,
  ⟨n!"VCEQHS", n!"VCEQ", [(3, 1), (4, 1)]⟩,
  ⟨n!"VCEQFS", n!"VCEQ", [(3, 2), (4, 1)]⟩,
  ⟨n!"VCEQGS", n!"VCEQ", [(3, 3), (4, 1)]⟩,
  ⟨n!"VCHB", n!"VCH", [(3, 0), (4, 0)]⟩,
  ⟨n!"VCHH", n!"VCH", [(3, 1), (4, 0)]⟩,
  ⟨n!"VCHF", n!"VCH", [(3, 2), (4, 0)]⟩,
  ⟨n!"VCHG", n!"VCH", [(3, 3), (4, 0)]⟩,
  ⟨n!"VCHBS", n!"VCH", [(3, 0), (4, 1)]⟩,
  ⟨n!"VCHHS", n!"VCH", [(3, 1), (4, 1)]⟩,
  ⟨n!"VCHFS", n!"VCH", [(3, 2), (4, 1)]⟩,
  ⟨n!"VCHGS", n!"VCH", [(3, 3), (4, 1)]⟩,
  ⟨n!"VCHLB", n!"VCHL", [(3, 0), (4, 0)]⟩,
  ⟨n!"VCHLH", n!"VCHL", [(3, 1), (4, 0)]⟩,
  ⟨n!"VCHLF", n!"VCHL", [(3, 2), (4, 0)]⟩,
  ⟨n!"VCHLG", n!"VCHL", [(3, 3), (4, 0)]⟩,
  ⟨n!"VCHLBS", n!"VCHL", [(3, 0), (4, 1)]⟩,
  ⟨n!"VCHLHS", n!"VCHL", [(3, 1), (4, 1)]⟩,
  ⟨n!"VCHLFS", n!"VCHL", [(3, 2), (4, 1)]⟩,
  ⟨n!"VCHLGS", n!"VCHL", [(3, 3), (4, 1)]⟩,
  ⟨n!"VCLZB", n!"VCLZ", [(2, 0)]⟩,
  ⟨n!"VCLZH", n!"VCLZ", [(2, 1)]⟩,
  ⟨n!"VCLZF", n!"VCLZ", [(2, 2)]⟩,
  ⟨n!"VCLZG", n!"VCLZ", [(2, 3)]⟩,
  ⟨n!"VGFMB", n!"VGFM", [(3, 0)]⟩,
  ⟨n!"VGFMH", n!"VGFM", [(3, 1)]⟩,
  ⟨n!"VGFMF", n!"VGFM", [(3, 2)]⟩,
  ⟨n!"VGFMG", n!"VGFM", [(3, 3)]⟩,
  ⟨n!"VGFMAB", n!"VGFMA", [(4, 0)]⟩,
  ⟨n!"VGFMAH", n!"VGFMA", [(4, 1)]⟩,
  ⟨n!"VGFMAF", n!"VGFMA", [(4, 2)]⟩,
  ⟨n!"VGFMAG", n!"VGFMA", [(4, 3)]⟩,
  ⟨n!"VLCB", n!"VLC", [(2, 0)]⟩,
  ⟨n!"VLCH", n!"VLC", [(2, 1)]⟩,
  ⟨n!"VLCF", n!"VLC", [(2, 2)]⟩,
  ⟨n!"VLCG", n!"VLC", [(2, 3)]⟩,
  ⟨n!"VLPB", n!"VLP", [(2, 0)]⟩,
  ⟨n!"VLPH", n!"VLP", [(2, 1)]⟩,
  ⟨n!"VLPF", n!"VLP", [(2, 2)]⟩,
  ⟨n!"VLPG", n!"VLP", [(2, 3)]⟩,
  ⟨n!"VMXB", n!"VMX", [(3, 0)]⟩,
  ⟨n!"VMXH", n!"VMX", [(3, 1)]⟩,
  ⟨n!"VMXF", n!"VMX", [(3, 2)]⟩,
  ⟨n!"VMXG", n!"VMX", [(3, 3)]⟩,
  ⟨n!"VMXLB", n!"VMXL", [(3, 0)]⟩,
  ⟨n!"VMXLH", n!"VMXL", [(3, 1)]⟩,
  ⟨n!"VMXLF", n!"VMXL", [(3, 2)]⟩,
  ⟨n!"VMXLG", n!"VMXL", [(3, 3)]⟩,
  ⟨n!"VMNB", n!"VMN", [(3, 0)]⟩,
  ⟨n!"VMNH", n!"VMN", [(3, 1)]⟩,
  ⟨n!"VMNF", n!"VMN", [(3, 2)]⟩,
  ⟨n!"VMNG", n!"VMN", [(3, 3)]⟩,
  ⟨n!"VMNLB", n!"VMNL", [(3, 0)]⟩,
  ⟨n!"VMNLH", n!"VMNL", [(3, 1)]⟩,
  ⟨n!"VMNLF", n!"VMNL", [(3, 2)]⟩,
  ⟨n!"VMNLG", n!"VMNL", [(3, 3)]⟩,
  ⟨n!"VMALB", n!"VMAL", [(4, 0)]⟩,
  ⟨n!"VMALHW", n!"VMAL", [(4, 1)]⟩,
  ⟨n!"VMALF", n!"VMAL", [(4, 2)]⟩,
  ⟨n!"VMAHB", n!"VMAH", [(4, 0)]⟩,
  ⟨n!"VMAHH", n!"VMAH", [(4, 1)]⟩,
  ⟨n!"VMAHF", n!"VMAH", [(4, 2)]⟩,
  ⟨n!"VMALHB", n!"VMALH", [(4, 0)]⟩,
  ⟨n!"VMALHH", n!"VMALH", [(4, 1)]⟩,
  ⟨n!"VMALHF", n!"VMALH", [(4, 2)]⟩,
  ⟨n!"VMAEB", n!"VMAE", [(4, 0)]⟩,
  ⟨n!"VMAEH", n!"VMAE", [(4, 1)]⟩,
  ⟨n!"VMAEF", n!"VMAE", [(4, 2)]⟩,
  ⟨n!"VMALEB", n!"VMALE", [(4, 0)]⟩,
  ⟨n!"VMALEH", n!"VMALE", [(4, 1)]⟩,
  ⟨n!"VMALEF", n!"VMALE", [(4, 2)]⟩,
  ⟨n!"VMAOB", n!"VMAO", [(4, 0)]⟩,
  ⟨n!"VMAOH", n!"VMAO", [(4, 1)]⟩,
  ⟨n!"VMAOF", n!"VMAO", [(4, 2)]⟩,
  ⟨n!"VMALOB", n!"VMALO", [(4, 0)]⟩,
  ⟨n!"VMALOH", n!"VMALO", [(4, 1)]⟩,
  ⟨n!"VMALOF", n!"VMALO", [(4, 2)]⟩,
  ⟨n!"VMHB", n!"VMH", [(3, 0)]⟩,
  ⟨n!"VMHH", n!"VMH", [(3, 1)]⟩,
  ⟨n!"VMHF", n!"VMH", [(3, 2)]⟩,
  ⟨n!"VMLHB", n!"VMLH", [(3, 0)]⟩,
  ⟨n!"VMLHH", n!"VMLH", [(3, 1)]⟩,
  ⟨n!"VMLHF", n!"VMLH", [(3, 2)]⟩,
  ⟨n!"VMLB", n!"VML", [(3, 0)]⟩,
  ⟨n!"VMLHW", n!"VML", [(3, 1)]⟩,
  ⟨n!"VMLF", n!"VML", [(3, 2)]⟩,
  ⟨n!"VMEB", n!"VME", [(3, 0)]⟩,
  ⟨n!"VMEH", n!"VME", [(3, 1)]⟩,
  ⟨n!"VMEF", n!"VME", [(3, 2)]⟩,
  ⟨n!"VMLEB", n!"VMLE", [(3, 0)]⟩,
  ⟨n!"VMLEH", n!"VMLE", [(3, 1)]⟩,
  ⟨n!"VMLEF", n!"VMLE", [(3, 2)]⟩,
  ⟨n!"VMSLG", n!"VMSL", [(4, 3)]⟩,
  ⟨n!"VMOB", n!"VMO", [(3, 0)]⟩,
  ⟨n!"VMOH", n!"VMO", [(3, 1)]⟩,
  ⟨n!"VMOF", n!"VMO", [(3, 2)]⟩,
  ⟨n!"VMLOB", n!"VMLO", [(3, 0)]⟩,
  ⟨n!"VMLOH", n!"VMLO", [(3, 1)]⟩,
  ⟨n!"VMLOF", n!"VMLO", [(3, 2)]⟩,
  ⟨n!"VPOPCTB", n!"VPOPCT", [(2, 0)]⟩,
  ⟨n!"VPOPCTH", n!"VPOPCT", [(2, 1)]⟩,
  ⟨n!"VPOPCTF", n!"VPOPCT", [(2, 2)]⟩,
  ⟨n!"VPOPCTG", n!"VPOPCT", [(2, 3)]⟩,
  ⟨n!"VERLLVB", n!"VERLLV", [(3, 0)]⟩,
  ⟨n!"VERLLVH", n!"VERLLV", [(3, 1)]⟩,
  ⟨n!"VERLLVF", n!"VERLLV", [(3, 2)]⟩,
  ⟨n!"VERLLVG", n!"VERLLV", [(3, 3)]⟩,
  ⟨n!"VERLLB", n!"VERLL", [(3, 0)]⟩,
  ⟨n!"VERLLH", n!"VERLL", [(3, 1)]⟩,
  ⟨n!"VERLLF", n!"VERLL", [(3, 2)]⟩,
  ⟨n!"VERLLG", n!"VERLL", [(3, 3)]⟩,
  ⟨n!"VERIMB", n!"VERIM", [(4, 0)]⟩,
  ⟨n!"VERIMH", n!"VERIM", [(4, 1)]⟩,
  ⟨n!"VERIMF", n!"VERIM", [(4, 2)]⟩,
  ⟨n!"VERIMG", n!"VERIM", [(4, 3)]⟩,
  ⟨n!"VESLVB", n!"VESLV", [(3, 0)]⟩,
  ⟨n!"VESLVH", n!"VESLV", [(3, 1)]⟩,
  ⟨n!"VESLVF", n!"VESLV", [(3, 2)]⟩,
  ⟨n!"VESLVG", n!"VESLV", [(3, 3)]⟩,
  ⟨n!"VESLB", n!"VESL", [(3, 0)]⟩,
  ⟨n!"VESLH", n!"VESL", [(3, 1)]⟩,
  ⟨n!"VESLF", n!"VESL", [(3, 2)]⟩,
  ⟨n!"VESLG", n!"VESL", [(3, 3)]⟩,
  ⟨n!"VESRAVB", n!"VESRAV", [(3, 0)]⟩,
  ⟨n!"VESRAVH", n!"VESRAV", [(3, 1)]⟩,
  ⟨n!"VESRAVF", n!"VESRAV", [(3, 2)]⟩,
  ⟨n!"VESRAVG", n!"VESRAV", [(3, 3)]⟩,
  ⟨n!"VESRAB", n!"VESRA", [(3, 0)]⟩,
  ⟨n!"VESRAH", n!"VESRA", [(3, 1)]⟩,
  ⟨n!"VESRAF", n!"VESRA", [(3, 2)]⟩,
  ⟨n!"VESRAG", n!"VESRA", [(3, 3)]⟩,
  ⟨n!"VESRLVB", n!"VESRLV", [(3, 0)]⟩,
  ⟨n!"VESRLVH", n!"VESRLV", [(3, 1)]⟩,
  ⟨n!"VESRLVF", n!"VESRLV", [(3, 2)]⟩,
  ⟨n!"VESRLVG", n!"VESRLV", [(3, 3)]⟩,
  ⟨n!"VESRLB", n!"VESRL", [(3, 0)]⟩,
  ⟨n!"VESRLH", n!"VESRL", [(3, 1)]⟩,
  ⟨n!"VESRLF", n!"VESRL", [(3, 2)]⟩,
  ⟨n!"VESRLG", n!"VESRL", [(3, 3)]⟩,
  ⟨n!"VCEFB", n!"VCFPS", [(2, 0)]⟩,
  ⟨n!"VSB", n!"VS", [(3, 0)]⟩,
  ⟨n!"VSH", n!"VS", [(3, 1)]⟩,
  ⟨n!"VSF", n!"VS", [(3, 2)]⟩,
  ⟨n!"VSG", n!"VS", [(3, 3)]⟩,
  ⟨n!"VSQ", n!"VS", [(3, 4)]⟩,
  ⟨n!"VLERH", n!"VLER", [(2, 1)]⟩,
  ⟨n!"VLERF", n!"VLER", [(2, 2)]⟩,
  ⟨n!"VLERG", n!"VLER", [(2, 3)]⟩,
  ⟨n!"VSCBIB", n!"VSCBI", [(3, 0)]⟩,
  ⟨n!"VCFEB", n!"VCSFP", [(2, 2)]⟩,
  ⟨n!"VSCBIH", n!"VSCBI", [(3, 1)]⟩,
  ⟨n!"VSCBIF", n!"VSCBI", [(3, 2)]⟩,
  ⟨n!"VSCBIG", n!"VSCBI", [(3, 3)]⟩,
  ⟨n!"VSCBIQ", n!"VSCBI", [(3, 4)]⟩,
  ⟨n!"VSBIQ", n!"VSBI", [(4, 4)]⟩,
  ⟨n!"VSBCBIQ", n!"VSBCBI", [(4, 4)]⟩,
  ⟨n!"VSUMQF", n!"VSUMQ", [(3, 2)]⟩,
  ⟨n!"VSUMQG", n!"VSUMQ", [(3, 3)]⟩,
  ⟨n!"VSUMGH", n!"VSUMG", [(3, 1)]⟩,
  ⟨n!"VSUMGF", n!"VSUMG", [(3, 2)]⟩,
  ⟨n!"VSUMB", n!"VSUM", [(3, 0)]⟩,
  ⟨n!"VSUMH", n!"VSUM", [(3, 1)]⟩,
  ⟨n!"VFAEB", n!"VFAE", [(3, 0)]⟩,
  ⟨n!"VFAEH", n!"VFAE", [(3, 1)]⟩,
  ⟨n!"VFAEF", n!"VFAE", [(3, 2)]⟩,
  ⟨n!"VFEEB", n!"VFEE", [(3, 0)]⟩,
  ⟨n!"VFEEH", n!"VFEE", [(3, 1)]⟩,
  ⟨n!"VFEEF", n!"VFEE", [(3, 2)]⟩,
  ⟨n!"VLBRH", n!"VLBR", [(2, 1)]⟩,
  ⟨n!"VLBRF", n!"VLBR", [(2, 2)]⟩,
  ⟨n!"VLBRG", n!"VLBR", [(2, 3)]⟩,
  ⟨n!"VLBRQ", n!"VLBR", [(2, 4)]⟩,
  ⟨n!"VFEEBS", n!"VFEE", [(3, 0), (4, 1)]⟩,
  ⟨n!"VFEEGS", n!"VFEE", [(3, 1), (4, 1)]⟩,
  ⟨n!"VFEEFS", n!"VFEE", [(3, 2), (4, 1)]⟩,
  ⟨n!"VFEEZB", n!"VFEE", [(3, 0), (4, 2)]⟩,
  ⟨n!"VFEEZH", n!"VFEE", [(3, 1), (4, 2)]⟩,
  ⟨n!"VFEEZF", n!"VFEE", [(3, 2), (4, 2)]⟩,
  ⟨n!"VFEEZBS", n!"VFEE", [(3, 0), (4, 3)]⟩,
  ⟨n!"VFEEZHS", n!"VFEE", [(3, 1), (4, 3)]⟩,
  ⟨n!"VFEEZFS", n!"VFEE", [(3, 2), (4, 3)]⟩,
  ⟨n!"VFENEB", n!"VFENE", [(3, 0)]⟩,
  ⟨n!"VFENEH", n!"VFENE", [(3, 1)]⟩,
  ⟨n!"VFENEF", n!"VFENE", [(3, 2)]⟩,
  ⟨n!"VFENEBS", n!"VFENE", [(3, 0), (4, 1)]⟩,
  ⟨n!"VFENEHS", n!"VFENE", [(3, 1), (4, 1)]⟩,
  ⟨n!"VFENEFS", n!"VFENE", [(3, 2), (4, 1)]⟩,
  ⟨n!"VFENEZB", n!"VFENE", [(3, 0), (4, 2)]⟩,
  ⟨n!"VFENEZH", n!"VFENE", [(3, 1), (4, 2)]⟩,
  ⟨n!"VFENEZF", n!"VFENE", [(3, 2), (4, 2)]⟩,
  ⟨n!"VFENEZBS", n!"VFENE", [(3, 0), (4, 3)]⟩,
  ⟨n!"VFENEZHS", n!"VFENE", [(3, 1), (4, 3)]⟩,
  ⟨n!"VFENEZFS", n!"VFENE", [(3, 2), (4, 3)]⟩,
  ⟨n!"VISTRB", n!"VISTR", [(3, 0)]⟩,
  ⟨n!"VISTRH", n!"VISTR", [(3, 1)]⟩,
  ⟨n!"VISTRF", n!"VISTR", [(3, 2)]⟩,
  ⟨n!"VISTRBS", n!"VISTR", [(3, 0), (4, 1)]⟩,
  ⟨n!"VISTRHS", n!"VISTR", [(3, 1), (4, 1)]⟩,
  ⟨n!"VISTRFS", n!"VISTR", [(3, 2), (4, 1)]⟩,
  ⟨n!"VSTRCB", n!"VSTRC", [(4, 0)]⟩,
  ⟨n!"VSTRCH", n!"VSTRC", [(4, 1)]⟩,
  ⟨n!"VSTRCF", n!"VSTRC", [(4, 2)]⟩,
  ⟨n!"VLBRREPH", n!"VLBRREP", [(2, 1)]⟩,
  ⟨n!"VLBRREPF", n!"VLBRREP", [(2, 2)]⟩,
  ⟨n!"VLBRREPG", n!"VLBRREP", [(2, 3)]⟩,
  ⟨n!"VFASB", n!"VFA", [(3, 2), (4, 0)]⟩,
  ⟨n!"VFADB", n!"VFA", [(3, 3), (4, 0)]⟩,
  ⟨n!"WCDGB", n!"VCFPS", [(2, 2)]⟩,
  ⟨n!"WFASB", n!"VFA", [(3, 2), (4, 8)]⟩,
  ⟨n!"WFADB", n!"VFA", [(3, 3), (4, 8)]⟩,
  ⟨n!"WFAXB", n!"VFA", [(3, 4), (4, 8)]⟩,
  ⟨n!"WFCSB", n!"WFC", [(3, 2), (4, 0)]⟩,
  ⟨n!"WFCDB", n!"WFC", [(3, 3), (4, 0)]⟩,
  ⟨n!"WFCXB", n!"WFC", [(3, 4), (4, 0)]⟩,
  ⟨n!"WFKSB", n!"WFK", [(3, 2), (4, 0)]⟩,
  ⟨n!"WFKDB", n!"WFK", [(3, 3), (4, 0)]⟩,
  ⟨n!"WFKXB", n!"WFK", [(3, 4), (4, 0)]⟩,
  ⟨n!"VFCESB", n!"VFCE", [(3, 2), (4, 0), (5, 0)]⟩,
  ⟨n!"VFCESBS", n!"VFCE", [(3, 2), (4, 0), (5, 1)]⟩,
  ⟨n!"VFCEDB", n!"VFCE", [(3, 3), (4, 0), (5, 0)]⟩,
  ⟨n!"VFCEDBS", n!"VFCE", [(3, 3), (4, 0), (5, 1)]⟩,
  ⟨n!"WFCESB", n!"VFCE", [(3, 2), (4, 8), (5, 0)]⟩,
  ⟨n!"WFCESBS", n!"VFCE", [(3, 2), (4, 8), (5, 1)]⟩,
  ⟨n!"WFCEDB", n!"VFCE", [(3, 3), (4, 8), (5, 0)]⟩,
  ⟨n!"WFCEDBS", n!"VFCE", [(3, 3), (4, 8), (5, 1)]⟩,
  ⟨n!"WFCEXB", n!"VFCE", [(3, 4), (4, 8), (5, 0)]⟩,
  ⟨n!"WFCEXBS", n!"VFCE", [(3, 4), (4, 8), (5, 1)]⟩,
  ⟨n!"VFKESB", n!"VFCE", [(3, 2), (4, 4), (5, 0)]⟩,
  ⟨n!"VFKESBS", n!"VFCE", [(3, 2), (4, 4), (5, 1)]⟩,
  ⟨n!"VFKEDB", n!"VFCE", [(3, 3), (4, 4), (5, 0)]⟩,
  ⟨n!"VFKEDBS", n!"VFCE", [(3, 3), (4, 4), (5, 1)]⟩,
  ⟨n!"WFKESB", n!"VFCE", [(3, 2), (4, 12), (5, 0)]⟩,
  ⟨n!"WFKESBS", n!"VFCE", [(3, 2), (4, 12), (5, 1)]⟩,
  ⟨n!"WFKEDB", n!"VFCE", [(3, 3), (4, 12), (5, 0)]⟩,
  ⟨n!"WFKEDBS", n!"VFCE", [(3, 3), (4, 12), (5, 1)]⟩,
  ⟨n!"WFKEXB", n!"VFCE", [(3, 4), (4, 12), (5, 0)]⟩,
  ⟨n!"WFKEXBS", n!"VFCE", [(3, 4), (4, 12), (5, 1)]⟩,
  ⟨n!"VSTRSB", n!"VSTRS", [(4, 0)]⟩,
  ⟨n!"VSTRSH", n!"VSTRS", [(4, 1)]⟩,
  ⟨n!"VSTRSF", n!"VSTRS", [(4, 2)]⟩,
  ⟨n!"VSTRSZB", n!"VSTRS", [(4, 0), (5, 2)]⟩,
  ⟨n!"VFCHSB", n!"VFCH", [(3, 2), (4, 0), (5, 0)]⟩,
  ⟨n!"VFCHSBS", n!"VFCH", [(3, 2), (4, 0), (5, 1)]⟩,
  ⟨n!"VFCHDB", n!"VFCH", [(3, 3), (4, 0), (5, 0)]⟩,
  ⟨n!"VFCHDBS", n!"VFCH", [(3, 3), (4, 0), (5, 1)]⟩,
  ⟨n!"WFCHSB", n!"VFCH", [(3, 2), (4, 8), (5, 0)]⟩,
  ⟨n!"WFCHSBS", n!"VFCH", [(3, 2), (4, 8), (5, 1)]⟩,
  ⟨n!"WFCHDB", n!"VFCH", [(3, 3), (4, 8), (5, 0)]⟩,
  ⟨n!"WFCHDBS", n!"VFCH", [(3, 3), (4, 8), (5, 1)]⟩,
  ⟨n!"WFCHXB", n!"VFCH", [(3, 4), (4, 8), (5, 0)]⟩,
  ⟨n!"WFCHXBS", n!"VFCH", [(3, 4), (4, 8), (5, 1)]⟩,
  ⟨n!"VFKHSB", n!"VFCH", [(3, 2), (4, 4), (5, 0)]⟩,
  ⟨n!"VFKHSBS", n!"VFCH", [(3, 2), (4, 4), (5, 1)]⟩,
  ⟨n!"VFKHDB", n!"VFCH", [(3, 3), (4, 4), (5, 0)]⟩,
  ⟨n!"VFKHDBS", n!"VFCH", [(3, 3), (4, 4), (5, 1)]⟩,
  ⟨n!"WFKHSB", n!"VFCH", [(3, 2), (4, 12), (5, 0)]⟩,
  ⟨n!"WFKHSBS", n!"VFCH", [(3, 2), (4, 12), (5, 1)]⟩,
  ⟨n!"WFKHDB", n!"VFCH", [(3, 3), (4, 12), (5, 0)]⟩,
  ⟨n!"WFKHDBS", n!"VFCH", [(3, 3), (4, 12), (5, 1)]⟩,
  ⟨n!"WFKHXB", n!"VFCH", [(3, 4), (4, 12), (5, 0)]⟩,
  ⟨n!"WFKHXBS", n!"VFCH", [(3, 4), (4, 12), (5, 1)]⟩,
  ⟨n!"VFCHESB", n!"VFCHE", [(3, 2), (4, 0), (5, 0)]⟩,
  ⟨n!"VFCHESBS", n!"VFCHE", [(3, 2), (4, 0), (5, 1)]⟩,
  ⟨n!"VFCHEDB", n!"VFCHE", [(3, 3), (4, 0), (5, 0)]⟩,
  ⟨n!"VFCHEDBS", n!"VFCHE", [(3, 3), (4, 0), (5, 1)]⟩,
  ⟨n!"WFCHESB", n!"VFCHE", [(3, 2), (4, 8), (5, 0)]⟩,
  ⟨n!"WFCHESBS", n!"VFCHE", [(3, 2), (4, 8), (5, 1)]⟩,
  ⟨n!"WFCHEDB", n!"VFCHE", [(3, 3), (4, 8), (5, 0)]⟩,
  ⟨n!"WFCHEDBS", n!"VFCHE", [(3, 3), (4, 8), (5, 1)]⟩,
  ⟨n!"WFCHEXB", n!"VFCHE", [(3, 4), (4, 8), (5, 0)]⟩,
  ⟨n!"WFCHEXBS", n!"VFCHE", [(3, 4), (4, 8), (5, 1)]⟩,
  ⟨n!"VFKHESB", n!"VFCHE", [(3, 2), (4, 4), (5, 0)]⟩,
  ⟨n!"VFKHESBS", n!"VFCHE", [(3, 2), (4, 4), (5, 1)]⟩,
  ⟨n!"VFKHEDB", n!"VFCHE", [(3, 3), (4, 4), (5, 0)]⟩,
  ⟨n!"VFKHEDBS", n!"VFCHE", [(3, 3), (4, 4), (5, 1)]⟩,
  ⟨n!"WFKHESB", n!"VFCHE", [(3, 2), (4, 12), (5, 0)]⟩,
  ⟨n!"WFKHESBS", n!"VFCHE", [(3, 2), (4, 12), (5, 1)]⟩,
  ⟨n!"WFKHEDB", n!"VFCHE", [(3, 3), (4, 12), (5, 0)]⟩,
  ⟨n!"WFKHEDBS", n!"VFCHE", [(3, 3), (4, 12), (5, 1)]⟩,
  ⟨n!"WFKHEXB", n!"VFCHE", [(3, 4), (4, 12), (5, 0)]⟩,
  ⟨n!"WFKHEXBS", n!"VFCHE", [(3, 4), (4, 12), (5, 1)]⟩,
  ⟨n!"VCDGB", n!"VCFPS", [(2, 3)]⟩,
  ⟨n!"VCDLG", n!"VCFPL", []⟩,
  ⟨n!"VCDLGB", n!"VCFPL", [(2, 3)]⟩,
  ⟨n!"VCGDB", n!"VCSFP", [(2, 3)]⟩,
  ⟨n!"VCLGDB", n!"VCLGD", [(2, 3)]⟩,
  ⟨n!"VCLFEB", n!"VCLFP", [(2, 0)]⟩,
  ⟨n!"VFDSB", n!"VFD", [(3, 2), (4, 0)]⟩,
  ⟨n!"WFDSB", n!"VFD", [(3, 2), (4, 8)]⟩,
  ⟨n!"VFDDB", n!"VFD", [(3, 3), (4, 0)]⟩,
  ⟨n!"WFDDB", n!"VFD", [(3, 3), (4, 8)]⟩,
  ⟨n!"WFDXB", n!"VFD", [(3, 4), (4, 8)]⟩,
  ⟨n!"VFISB", n!"VFI", [(2, 2)]⟩,
  ⟨n!"VFIDB", n!"VFI", [(2, 3)]⟩,
  ⟨n!"VLDE", n!"VFLL", []⟩,
  ⟨n!"VLDEB", n!"VFLL", [(2, 2), (3, 0)]⟩,
  ⟨n!"WLDEB", n!"VFLL", [(2, 2), (3, 8)]⟩,
  ⟨n!"VFLLS", n!"VFLL", [(2, 2), (3, 0)]⟩,
  ⟨n!"WFLLS", n!"VFLL", [(2, 2), (3, 8)]⟩,
  ⟨n!"WFLLD", n!"VFLL", [(2, 3), (3, 8)]⟩,
  ⟨n!"VLED", n!"VFLR", []⟩,
  ⟨n!"VLEDB", n!"VFLR", [(2, 3)]⟩,
  ⟨n!"VFLRD", n!"VFLR", [(2, 3)]⟩,
  ⟨n!"VFMAXSB", n!"VFMAX", [(3, 2), (4, 0)]⟩,
  ⟨n!"VFMAXDB", n!"VFMAX", [(3, 3), (4, 0)]⟩,
  ⟨n!"WFMAXSB", n!"VFMAX", [(3, 2), (4, 8)]⟩,
  ⟨n!"WFMAXDB", n!"VFMAX", [(3, 3), (4, 8)]⟩,
  ⟨n!"WFMAXXB", n!"VFMAX", [(3, 4), (4, 8)]⟩,
  ⟨n!"VFMINSB", n!"VFMIN", [(3, 2), (4, 0)]⟩,
  ⟨n!"VFMINDB", n!"VFMIN", [(3, 3), (4, 0)]⟩,
  ⟨n!"WFMINSB", n!"VFMIN", [(3, 2), (4, 8)]⟩,
  ⟨n!"WFMINDB", n!"VFMIN", [(3, 3), (4, 8)]⟩,
  ⟨n!"WFMINXB", n!"VFMIN", [(3, 4), (4, 8)]⟩,
  ⟨n!"VFMSB", n!"VFM", [(3, 2), (4, 0)]⟩,
  ⟨n!"VFMDB", n!"VFM", [(3, 3), (4, 0)]⟩,
  ⟨n!"WFMSB", n!"VFM", [(3, 2), (4, 8)]⟩,
  ⟨n!"WFMDB", n!"VFM", [(3, 3), (4, 8)]⟩,
  ⟨n!"WFMXB", n!"VFM", [(3, 4), (4, 8)]⟩,
  ⟨n!"VFMASB", n!"VFMA", [(4, 0), (5, 2)]⟩,
  ⟨n!"VFMADB", n!"VFMA", [(4, 0), (5, 3)]⟩,
  ⟨n!"WFMASB", n!"VFMA", [(4, 8), (5, 2)]⟩,
  ⟨n!"WFMADB", n!"VFMA", [(4, 8), (5, 3)]⟩,
  ⟨n!"WFMAXB", n!"VFMA", [(4, 8), (5, 4)]⟩,
  ⟨n!"VFMSSB", n!"VFMS", [(4, 0), (5, 2)]⟩,
  ⟨n!"VFMSDB", n!"VFMS", [(4, 0), (5, 3)]⟩,
  ⟨n!"WFMSSB", n!"VFMS", [(4, 8), (5, 2)]⟩,
  ⟨n!"WFMSDB", n!"VFMS", [(4, 8), (5, 3)]⟩,
  ⟨n!"WFMSXB", n!"VFMS", [(4, 8), (5, 4)]⟩,
  ⟨n!"VFNMASB", n!"VFNMA", [(4, 0), (5, 2)]⟩,
  ⟨n!"VFNMADB", n!"VFNMA", [(4, 0), (5, 3)]⟩,
  ⟨n!"WFNMASB", n!"VFNMA", [(4, 8), (5, 2)]⟩,
  ⟨n!"WFNMADB", n!"VFNMA", [(4, 8), (5, 3)]⟩,
  ⟨n!"WFNMAXB", n!"VFNMA", [(4, 8), (5, 4)]⟩,
  ⟨n!"VFNMSSB", n!"VFNMS", [(4, 0), (5, 2)]⟩,
  ⟨n!"VFNMSDB", n!"VFNMS", [(4, 0), (5, 3)]⟩,
  ⟨n!"WFNMSSB", n!"VFNMS", [(4, 8), (5, 2)]⟩,
  ⟨n!"WFNMSDB", n!"VFNMS", [(4, 8), (5, 3)]⟩,
  ⟨n!"WFNMSXB", n!"VFNMS", [(4, 8), (5, 4)]⟩,
  ⟨n!"VFPSOSB", n!"VFPSO", [(2, 2), (3, 0)]⟩,
  ⟨n!"WFPSOSB", n!"VFPSO", [(2, 2), (3, 8)]⟩,
  ⟨n!"VFLCSB", n!"VFPSO", [(2, 2), (3, 0), (4, 0)]⟩,
  ⟨n!"VCELFB", n!"VCFPL", [(2, 0)]⟩,
  ⟨n!"VLLEBRZH", n!"VLLEBRZ", [(2, 1)]⟩,
  ⟨n!"VLLEBRZF", n!"VLLEBRZ", [(2, 2)]⟩,
  ⟨n!"VLLEBRZG", n!"VLLEBRZ", [(2, 3)]⟩,
  ⟨n!"VLLEBRZE", n!"VLLEBRZ", [(2, 6)]⟩,
  ⟨n!"LDRV", n!"VLLEBRZ", [(2, 3)]⟩,
  ⟨n!"LERV", n!"VLLEBRZ", [(2, 6)]⟩,
  ⟨n!"VPKF", n!"VPK", [(3, 2)]⟩,
  ⟨n!"VPKG", n!"VPK", [(3, 3)]⟩,
  ⟨n!"VPKH", n!"VPK", [(3, 1)]⟩,
  ⟨n!"WFLCSB", n!"VFPSO", [(2, 2), (3, 8), (4, 0)]⟩,
  ⟨n!"VFLNSB", n!"VFPSO", [(2, 2), (3, 0), (4, 1)]⟩,
  ⟨n!"WFLNSB", n!"VFPSO", [(2, 2), (3, 8), (4, 1)]⟩,
  ⟨n!"VFLPSB", n!"VFPSO", [(2, 2), (3, 0), (4, 2)]⟩,
  ⟨n!"WFLPSB", n!"VFPSO", [(2, 2), (3, 8), (4, 2)]⟩,
  ⟨n!"VFPSODB", n!"VFPSO", [(2, 3), (3, 0)]⟩,
  ⟨n!"WFPSODB", n!"VFPSO", [(2, 3), (3, 8)]⟩,
  ⟨n!"VFLCDB", n!"VFPSO", [(2, 3), (3, 0), (4, 0)]⟩,
  ⟨n!"WFLCDB", n!"VFPSO", [(2, 3), (3, 8), (4, 0)]⟩,
  ⟨n!"VFLNDB", n!"VFPSO", [(2, 3), (3, 0), (4, 1)]⟩,
  ⟨n!"WFLNDB", n!"VFPSO", [(2, 3), (3, 8), (4, 1)]⟩,
  ⟨n!"VFLPDB", n!"VFPSO", [(2, 3), (3, 0), (4, 2)]⟩,
  ⟨n!"WFLPDB", n!"VFPSO", [(2, 3), (3, 8), (4, 2)]⟩,
  ⟨n!"WFPSOXB", n!"VFPSO", [(2, 4), (3, 8)]⟩,
  ⟨n!"WFLCXB", n!"VFPSO", [(2, 4), (3, 8), (4, 0)]⟩,
  ⟨n!"WFLNXB", n!"VFPSO", [(2, 4), (3, 8), (4, 1)]⟩,
  ⟨n!"WFLPXB", n!"VFPSO", [(2, 4), (3, 8), (4, 2)]⟩,
  ⟨n!"VFSQSB", n!"VFSQ", [(2, 2), (3, 0)]⟩,
  ⟨n!"VFSQDB", n!"VFSQ", [(2, 3), (3, 0)]⟩,
  ⟨n!"WFSQSB", n!"VFSQ", [(2, 2), (3, 8)]⟩,
  ⟨n!"WFSQDB", n!"VFSQ", [(2, 3), (3, 8)]⟩,
  ⟨n!"WFSQXB", n!"VFSQ", [(2, 4), (3, 8)]⟩,
  ⟨n!"VFSSB", n!"VFS", [(2, 2), (3, 0)]⟩,
  ⟨n!"VFSDB", n!"VFS", [(2, 3), (3, 0)]⟩,
  ⟨n!"WFSSB", n!"VFS", [(2, 2), (3, 8)]⟩,
  ⟨n!"WFSDB", n!"VFS", [(2, 3), (3, 8)]⟩,
  ⟨n!"WFSXB", n!"VFS", [(2, 4), (3, 8)]⟩,
  ⟨n!"VFTCISB", n!"VFTCI", [(3, 2), (4, 0)]⟩,
  ⟨n!"VFTCIDB", n!"VFTCI", [(3, 3), (4, 0)]⟩,
  ⟨n!"WFTCISB", n!"VFTCI", [(3, 2), (4, 8)]⟩,
  ⟨n!"WFTCIDB", n!"VFTCI", [(3, 3), (4, 8)]⟩,
  ⟨n!"WFTCIXB", n!"VFTCI", [(3, 4), (4, 8)]⟩,
  ⟨n!"XHHR", n!"RXSBG", [(2, 0), (3, 31)]⟩,
  ⟨n!"XLHR", n!"RXSBG", [(2, 32), (3, 63), (4, 32)]⟩,
  ⟨n!"VFAEBS", n!"VFAE", [(3, 0)]⟩,
  ⟨n!"VFAEHS", n!"VFAE", [(3, 1)]⟩,
  ⟨n!"VFAEFS", n!"VFAE", [(3, 2)]⟩,
  ⟨n!"VFAEZB", n!"VFAE", [(3, 0)]⟩,
  ⟨n!"VFAEZH", n!"VFAE", [(3, 1)]⟩,
  ⟨n!"VFAEZF", n!"VFAE", [(3, 2)]⟩,
  ⟨n!"VFAEZBS", n!"VFAE", [(3, 0)]⟩,
  ⟨n!"VFAEZHS", n!"VFAE", [(3, 1)]⟩,
  ⟨n!"VFAEZFS", n!"VFAE", [(3, 2)]⟩,
  ⟨n!"VSTRCBS", n!"VSTRC", [(4, 0)]⟩,
  ⟨n!"VSTRCHS", n!"VSTRC", [(4, 1)]⟩,
  ⟨n!"VSTRCFS", n!"VSTRC", [(4, 2)]⟩,
  ⟨n!"VSTRCZB", n!"VSTRC", [(4, 0)]⟩,
  ⟨n!"VSTRCZH", n!"VSTRC", [(4, 1)]⟩,
  ⟨n!"VSTRCZF", n!"VSTRC", [(4, 2)]⟩,
  ⟨n!"VSTRCZBS", n!"VSTRC", [(4, 0)]⟩,
  ⟨n!"VSTRCZHS", n!"VSTRC", [(4, 1)]⟩,
  ⟨n!"VSTRCZFS", n!"VSTRC", [(4, 2)]⟩,
  ⟨n!"WFISB", n!"VFI", [(2, 2)]⟩,
  ⟨n!"WFIDB", n!"VFI", [(2, 3)]⟩,
  ⟨n!"WFIXB", n!"VFI", [(2, 4)]⟩,
  ⟨n!"WCDLGB", n!"VCFPL", [(2, 3)]⟩,
  ⟨n!"WCGDB", n!"VCSFP", [(2, 3)]⟩,
  ⟨n!"WCELFB", n!"VCFPL", [(2, 2)]⟩,
  ⟨n!"WCLFEB", n!"VCLFP", [(2, 2)]⟩,
  ⟨n!"WCEFB", n!"VCFPS", [(2, 2)]⟩,
  ⟨n!"WCDGB", n!"VCFPS", [(2, 3)]⟩,
  ⟨n!"WCFEB", n!"VCSFP", [(2, 2)]⟩,
  ⟨n!"WCLGDB", n!"VCLGD", [(2, 3)]⟩,
  ⟨n!"WLEDB", n!"VFLR", [(2, 3)]⟩,
  ⟨n!"WFLRD", n!"VFLR", [(2, 3)]⟩,
  ⟨n!"WFLRX", n!"VFLR", [(2, 4)]⟩,
  ⟨n!"CIJE", n!"CIJ", [(2, 8)]⟩,
  ⟨n!"CIJH", n!"CIJ", [(2, 2)]⟩,
  ⟨n!"CIJL", n!"CIJ", [(2, 4)]⟩,
  ⟨n!"CIJNE", n!"CIJ", [(2, 6)]⟩,
  ⟨n!"CIJNH", n!"CIJ", [(2, 12)]⟩,
  ⟨n!"CIJNL", n!"CIJ", [(2, 10)]⟩,
  ⟨n!"CGIBE", n!"CGIB", [(2, 8)]⟩,
  ⟨n!"CGIBH", n!"CGIB", [(2, 2)]⟩,
  ⟨n!"CGIBL", n!"CGIB", [(2, 4)]⟩,
  ⟨n!"CGIBNE", n!"CGIB", [(2, 6)]⟩,
  ⟨n!"CGIBNH", n!"CGIB", [(2, 12)]⟩,
  ⟨n!"CGIBNL", n!"CGIB", [(2, 10)]⟩,
  ⟨n!"CGIJE", n!"CGIJ", [(2, 8)]⟩,
  ⟨n!"CGIJH", n!"CGIJ", [(2, 2)]⟩,
  ⟨n!"CGIJL", n!"CGIJ", [(2, 4)]⟩,
  ⟨n!"CGIJNE", n!"CGIJ", [(2, 6)]⟩,
  ⟨n!"CGIJNH", n!"CGIJ", [(2, 12)]⟩,
  ⟨n!"CGIJNL", n!"CGIJ", [(2, 10)]⟩,
  ⟨n!"CGITE", n!"CGIT", [(2, 8)]⟩,
  ⟨n!"CGITH", n!"CGIT", [(2, 2)]⟩,
  ⟨n!"CGITL", n!"CGIT", [(2, 4)]⟩,
  ⟨n!"CGITNE", n!"CGIT", [(2, 6)]⟩,
  ⟨n!"CGITNH", n!"CGIT", [(2, 12)]⟩,
  ⟨n!"CGITNL", n!"CGIT", [(2, 10)]⟩,
  ⟨n!"CGRBE", n!"CGRB", [(2, 8)]⟩,
  ⟨n!"CGRBH", n!"CGRB", [(2, 2)]⟩,
  ⟨n!"CGRBL", n!"CGRB", [(2, 4)]⟩,
  ⟨n!"CGRBNE", n!"CGRB", [(2, 6)]⟩,
  ⟨n!"CGRBNH", n!"CGRB", [(2, 12)]⟩,
  ⟨n!"CGRBNL", n!"CGRB", [(2, 10)]⟩,
  ⟨n!"CGRJE", n!"CGRJ", [(2, 8)]⟩,
  ⟨n!"CGRJH", n!"CGRJ", [(2, 2)]⟩,
  ⟨n!"CGRJL", n!"CGRJ", [(2, 4)]⟩,
  ⟨n!"CGRJNE", n!"CGRJ", [(2, 6)]⟩,
  ⟨n!"CGRJNH", n!"CGRJ", [(2, 12)]⟩,
  ⟨n!"CGRJNL", n!"CGRJ", [(2, 10)]⟩,
  ⟨n!"CGRTE", n!"CGRT", [(2, 8)]⟩,
  ⟨n!"CGRTH", n!"CGRT", [(2, 2)]⟩,
  ⟨n!"CGRTL", n!"CGRT", [(2, 4)]⟩,
  ⟨n!"CGRTNE", n!"CGRT", [(2, 6)]⟩,
  ⟨n!"CGRTNH", n!"CGRT", [(2, 12)]⟩,
  ⟨n!"CGRTNL", n!"CGRT", [(2, 10)]⟩,
  ⟨n!"CIBE", n!"CIB", [(2, 8)]⟩,
  ⟨n!"CIBH", n!"CIB", [(2, 2)]⟩,
  ⟨n!"CIBL", n!"CIB", [(2, 4)]⟩,
  ⟨n!"CIBNE", n!"CIB", [(2, 6)]⟩,
  ⟨n!"CIBNH", n!"CIB", [(2, 12)]⟩,
  ⟨n!"CIBNL", n!"CIB", [(2, 10)]⟩,
  ⟨n!"CITE", n!"CIT", [(2, 8)]⟩,
  ⟨n!"CITH", n!"CIT", [(2, 2)]⟩,
  ⟨n!"CITL", n!"CIT", [(2, 4)]⟩,
  ⟨n!"CITNE", n!"CIT", [(2, 6)]⟩,
  ⟨n!"CITNH", n!"CIT", [(2, 12)]⟩,
  ⟨n!"CITNL", n!"CIT", [(2, 10)]⟩,
  ⟨n!"CLFITE", n!"CLFIT", [(2, 8)]⟩,
  ⟨n!"CLFITH", n!"CLFIT", [(2, 2)]⟩,
  ⟨n!"CLFITL", n!"CLFIT", [(2, 4)]⟩,
  ⟨n!"CLFITNE", n!"CLFIT", [(2, 6)]⟩,
  ⟨n!"CLFITNH", n!"CLFIT", [(2, 12)]⟩,
  ⟨n!"CLFITNL", n!"CLFIT", [(2, 10)]⟩,
  ⟨n!"CLGIBE", n!"CLGIB", [(2, 8)]⟩,
  ⟨n!"CLGIBH", n!"CLGIB", [(2, 2)]⟩,
  ⟨n!"CLGIBL", n!"CLGIB", [(2, 4)]⟩,
  ⟨n!"CLGIBNE", n!"CLGIB", [(2, 6)]⟩,
  ⟨n!"CLGIBNH", n!"CLGIB", [(2, 12)]⟩,
  ⟨n!"CLGIBNL", n!"CLGIB", [(2, 10)]⟩,
  ⟨n!"CLGIJE", n!"CLGIJ", [(2, 8)]⟩,
  ⟨n!"CLGIJH", n!"CLGIJ", [(2, 2)]⟩,
  ⟨n!"CLGIJL", n!"CLGIJ", [(2, 4)]⟩,
  ⟨n!"CLGIJNE", n!"CLGIJ", [(2, 6)]⟩,
  ⟨n!"CLGIJNH", n!"CLGIJ", [(2, 12)]⟩,
  ⟨n!"CLGIJNL", n!"CLGIJ", [(2, 10)]⟩,
  ⟨n!"CLGITE", n!"CLGIT", [(2, 8)]⟩,
  ⟨n!"CLGITH", n!"CLGIT", [(2, 2)]⟩,
  ⟨n!"CLGITL", n!"CLGIT", [(2, 4)]⟩,
  ⟨n!"CLGITNE", n!"CLGIT", [(2, 6)]⟩,
  ⟨n!"CLGITNH", n!"CLGIT", [(2, 12)]⟩,
  ⟨n!"CLGITNL", n!"CLGIT", [(2, 10)]⟩,
  ⟨n!"CLGRBE", n!"CLGRB", [(2, 8)]⟩,
  ⟨n!"CLGRBH", n!"CLGRB", [(2, 2)]⟩,
  ⟨n!"CLGRBL", n!"CLGRB", [(2, 4)]⟩,
  ⟨n!"CLGRBNE", n!"CLGRB", [(2, 6)]⟩,
  ⟨n!"CLGRBNH", n!"CLGRB", [(2, 12)]⟩,
  ⟨n!"CLGRBNL", n!"CLGRB", [(2, 10)]⟩,
  ⟨n!"CLGRJE", n!"CLGRJ", [(2, 8)]⟩,
  ⟨n!"CLGRJH", n!"CLGRJ", [(2, 2)]⟩,
  ⟨n!"CLGRJL", n!"CLGRJ", [(2, 4)]⟩,
  ⟨n!"CLGRJNE", n!"CLGRJ", [(2, 6)]⟩,
  ⟨n!"CLGRJNH", n!"CLGRJ", [(2, 12)]⟩,
  ⟨n!"CLGRJNL", n!"CLGRJ", [(2, 10)]⟩,
  ⟨n!"CLGRTE", n!"CLGRT", [(2, 8)]⟩,
  ⟨n!"CLGRTH", n!"CLGRT", [(2, 2)]⟩,
  ⟨n!"CLGRTL", n!"CLGRT", [(2, 4)]⟩,
  ⟨n!"CLGRTNE", n!"CLGRT", [(2, 6)]⟩,
  ⟨n!"CLGRTNH", n!"CLGRT", [(2, 12)]⟩,
  ⟨n!"CLGRTNL", n!"CLGRT", [(2, 10)]⟩,
  ⟨n!"CLGTE", n!"CLGT", [(1, 8)]⟩,
  ⟨n!"CLGTH", n!"CLGT", [(1, 2)]⟩,
  ⟨n!"CLGTL", n!"CLGT", [(1, 4)]⟩,
  ⟨n!"CLGTNE", n!"CLGT", [(1, 6)]⟩,
  ⟨n!"CLGTNH", n!"CLGT", [(1, 12)]⟩,
  ⟨n!"CLGTNL", n!"CLGT", [(1, 10)]⟩,
  ⟨n!"CLIBE", n!"CLIB", [(2, 8)]⟩,
  ⟨n!"CLIBH", n!"CLIB", [(2, 2)]⟩,
  ⟨n!"CLIBL", n!"CLIB", [(2, 4)]⟩,
  ⟨n!"CLIBNE", n!"CLIB", [(2, 6)]⟩,
  ⟨n!"CLIBNH", n!"CLIB", [(2, 12)]⟩,
  ⟨n!"CLIBNL", n!"CLIB", [(2, 10)]⟩,
  ⟨n!"CLIJE", n!"CLIJ", [(2, 8)]⟩,
  ⟨n!"CLIJH", n!"CLIJ", [(2, 2)]⟩,
  ⟨n!"CLIJL", n!"CLIJ", [(2, 4)]⟩,
  ⟨n!"CLIJNE", n!"CLIJ", [(2, 6)]⟩,
  ⟨n!"CLIJNH", n!"CLIJ", [(2, 12)]⟩,
  ⟨n!"CLIJNL", n!"CLIJ", [(2, 10)]⟩,
  ⟨n!"CLRBE", n!"CLRB", [(2, 8)]⟩,
  ⟨n!"CLRBH", n!"CLRB", [(2, 2)]⟩,
  ⟨n!"CLRBL", n!"CLRB", [(2, 4)]⟩,
  ⟨n!"CLRBNE", n!"CLRB", [(2, 6)]⟩,
  ⟨n!"CLRBNH", n!"CLRB", [(2, 12)]⟩,
  ⟨n!"CLRBNL", n!"CLRB", [(2, 10)]⟩,
  ⟨n!"CLRJE", n!"CLRJ", [(2, 8)]⟩,
  ⟨n!"CLRJH", n!"CLRJ", [(2, 2)]⟩,
  ⟨n!"CLRJL", n!"CLRJ", [(2, 4)]⟩,
  ⟨n!"CLRJNE", n!"CLRJ", [(2, 6)]⟩,
  ⟨n!"CLRJNH", n!"CLRJ", [(2, 12)]⟩,
  ⟨n!"CLRJNL", n!"CLRJ", [(2, 10)]⟩,
  ⟨n!"CLRTE", n!"CLRT", [(2, 8)]⟩,
  ⟨n!"CLRTH", n!"CLRT", [(2, 2)]⟩,
  ⟨n!"CLRTL", n!"CLRT", [(2, 4)]⟩,
  ⟨n!"CLRTNE", n!"CLRT", [(2, 6)]⟩,
  ⟨n!"CLRTNH", n!"CLRT", [(2, 12)]⟩,
  ⟨n!"CLRTNL", n!"CLRT", [(2, 10)]⟩,
  ⟨n!"CLTE", n!"CLT", [(1, 8)]⟩,
  ⟨n!"CLTH", n!"CLT", [(1, 2)]⟩,
  ⟨n!"CLTL", n!"CLT", [(1, 4)]⟩,
  ⟨n!"CLTNE", n!"CLT", [(1, 6)]⟩,
  ⟨n!"CLTNH", n!"CLT", [(1, 12)]⟩,
  ⟨n!"CLTNL", n!"CLT", [(1, 10)]⟩,
  ⟨n!"CRBE", n!"CRB", [(2, 8)]⟩,
  ⟨n!"CRBH", n!"CRB", [(2, 2)]⟩,
  ⟨n!"CRBL", n!"CRB", [(2, 4)]⟩,
  ⟨n!"CRBNE", n!"CRB", [(2, 6)]⟩,
  ⟨n!"CRBNH", n!"CRB", [(2, 12)]⟩,
  ⟨n!"CRBNL", n!"CRB", [(2, 10)]⟩,
  ⟨n!"CRJE", n!"CRJ", [(2, 8)]⟩,
  ⟨n!"CRJH", n!"CRJ", [(2, 2)]⟩,
  ⟨n!"CRJL", n!"CRJ", [(2, 4)]⟩,
  ⟨n!"CRJNE", n!"CRJ", [(2, 6)]⟩,
  ⟨n!"CRJNH", n!"CRJ", [(2, 12)]⟩,
  ⟨n!"CRJNL", n!"CRJ", [(2, 10)]⟩,
  ⟨n!"CRTE", n!"CRT", [(2, 8)]⟩,
  ⟨n!"CRTH", n!"CRT", [(2, 2)]⟩,
  ⟨n!"CRTL", n!"CRT", [(2, 4)]⟩,
  ⟨n!"CRTNE", n!"CRT", [(2, 6)]⟩,
  ⟨n!"CRTNH", n!"CRT", [(2, 12)]⟩,
  ⟨n!"CRTNL", n!"CRT", [(2, 10)]⟩,
  ⟨n!"NOTR", n!"NORK", [(2, 0)]⟩,
  ⟨n!"NOTGR", n!"NOGRK", [(2, 0)]⟩,
  ⟨n!"LOCGE", n!"LOCG", [(2, 8)]⟩,
  ⟨n!"LOCGH", n!"LOCG", [(2, 2)]⟩,
  ⟨n!"LOCGL", n!"LOCG", [(2, 4)]⟩,
  ⟨n!"LOCGNE", n!"LOCG", [(2, 6)]⟩,
  ⟨n!"LOCGNH", n!"LOCG", [(2, 12)]⟩,
  ⟨n!"LOCGNL", n!"LOCG", [(2, 10)]⟩,
  ⟨n!"LOCRE", n!"LOCR", [(2, 8)]⟩,
  ⟨n!"LOCRH", n!"LOCR", [(2, 2)]⟩,
  ⟨n!"LOCRL", n!"LOCR", [(2, 4)]⟩,
  ⟨n!"LOCRNE", n!"LOCR", [(2, 6)]⟩,
  ⟨n!"LOCRNH", n!"LOCR", [(2, 12)]⟩,
  ⟨n!"LOCRNL", n!"LOCR", [(2, 10)]⟩,
  ⟨n!"LOCGRE", n!"LOCGR", [(2, 8)]⟩,
  ⟨n!"LOCGRH", n!"LOCGR", [(2, 2)]⟩,
  ⟨n!"LOCGRL", n!"LOCGR", [(2, 4)]⟩,
  ⟨n!"LOCGRNE", n!"LOCGR", [(2, 6)]⟩,
  ⟨n!"LOCGRNH", n!"LOCGR", [(2, 12)]⟩,
  ⟨n!"LOCGRNL", n!"LOCGR", [(2, 10)]⟩,
  ⟨n!"LOCE", n!"LOC", [(2, 8)]⟩,
  ⟨n!"LOCH", n!"LOC", [(2, 2)]⟩,
  ⟨n!"LOCL", n!"LOC", [(2, 4)]⟩,
  ⟨n!"LOCNE", n!"LOC", [(2, 6)]⟩,
  ⟨n!"LOCNH", n!"LOC", [(2, 12)]⟩,
  ⟨n!"LOCNL", n!"LOC", [(2, 10)]⟩,
  ⟨n!"STOCGE", n!"STOCG", [(2, 8)]⟩,
  ⟨n!"STOCGH", n!"STOCG", [(2, 2)]⟩,
  ⟨n!"STOCGL", n!"STOCG", [(2, 4)]⟩,
  ⟨n!"STOCGNE", n!"STOCG", [(2, 6)]⟩,
  ⟨n!"STOCGNH", n!"STOCG", [(2, 12)]⟩,
  ⟨n!"STOCGNL", n!"STOCG", [(2, 10)]⟩,
  ⟨n!"STOCE", n!"STOC", [(2, 8)]⟩,
  ⟨n!"STOCH", n!"STOC", [(2, 2)]⟩,
  ⟨n!"STOCL", n!"STOC", [(2, 4)]⟩,
  ⟨n!"STOCNE", n!"STOC", [(2, 6)]⟩,
  ⟨n!"STOCNH", n!"STOC", [(2, 12)]⟩,
  ⟨n!"STOCNL", n!"STOC", [(2, 10)]⟩,
  ⟨n!"VNOT", n!"VNO", [(2, 0)]⟩]


/-- Both tables. -/
def tables : Tables := ⟨instrs, mnems⟩

end Verif.Mach
