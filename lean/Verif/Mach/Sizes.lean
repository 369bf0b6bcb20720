import Verif.Mach.Fields
import Verif.Mach.Storage

/-!
# C95: the sizes of instructions

The operands alone do not say how long an instruction is: `LR` and `LGR` both have two registers. The lists below are
taken from the Principles of Operation, not from the code.
-/

namespace Verif.Mach

/-- The instructions of two bytes, operation codes `00` to `3F` and `01xx` (Principles of Operation, appendix B). -/
def twoBytes : List OpName := [
  n!"SPM", n!"BALR", n!"BCTR", n!"BCR", n!"SVC", n!"BSM", n!"BASSM", n!"BASR", n!"MVCL", n!"CLCL", n!"LPR", n!"LNR", n!"LTR", n!"LCR",
  n!"NR", n!"CLR", n!"OR", n!"XR", n!"LR", n!"CR", n!"AR", n!"SR", n!"MR", n!"DR", n!"ALR", n!"SLR", n!"LPDR", n!"LNDR", n!"LTDR",
  n!"LCDR", n!"HDR", n!"LRDR", n!"LDXR", n!"MXR", n!"MXDR", n!"LDR", n!"CDR", n!"ADR", n!"SDR", n!"MDR", n!"DDR", n!"AWR", n!"SWR",
  n!"LPER", n!"LNER", n!"LTER", n!"LCER", n!"HER", n!"LRER", n!"LEDR", n!"AXR", n!"SXR", n!"LER", n!"CER", n!"AER", n!"SER", n!"MDER",
  n!"MER", n!"DER", n!"AUR", n!"SUR", n!"PR", n!"UPT", n!"PTFF", n!"SCKPF", n!"TRAP2", n!"PFPO", n!"SAM24", n!"SAM31", n!"SAM64",
  n!"TAM", n!"ISK", n!"SSK"]

/-- The instructions of six bytes among those whose operands are also those of a format of four bytes: a register and an
address with an index (`RXE`, operation codes `ED04` to `ED37` and `ED50` to `ED59`), two registers and a branch target
(`RIE`, `EC44` and `EC45`), and the two whose entries name a displacement of 12 bits for one of 20 (`EB52`, `EB55`). -/
def sixBytes : List OpName := [
  n!"LDEB", n!"LXDB", n!"LXEB", n!"MXDB", n!"KEB", n!"CEB", n!"AEB", n!"SEB", n!"MDEB", n!"DEB", n!"TCEB", n!"TCDB", n!"TCXB",
  n!"SQEB", n!"SQDB", n!"MEEB", n!"KDB", n!"CDB", n!"ADB", n!"SDB", n!"MDB", n!"DDB", n!"LDE", n!"LXD", n!"LXE", n!"SQE", n!"SQD",
  n!"MEE", n!"TDCET", n!"TDGET", n!"TDCDT", n!"TDGDT", n!"TDCXT", n!"TDGXT", n!"BRXHG", n!"BRXLG",
  n!"CLIY", n!"MVIY"]

/-- All formats. -/
def MF.all : List MF := [.E, .I, .RR,
  .IE, .RRD, .RRE, .RRF_a, .RRF_b, .RRF_c, .RRF_d, .RRF_e, .RI_a, .RI_b, .RI_c, .RS_a, .RS_b, .RSI, .RX_a, .RX_b, .S, .SI,
  .MII, .RIE_a, .RIE_b, .RIE_c, .RIE_d, .RIE_e, .RIE_f, .RIE_g, .RIL_a, .RIL_b, .RIL_c, .RIS, .RRS, .RSL_a, .RSL_b, .RSY_a,
  .RSY_b, .RXE, .RXF, .RXY_a, .RXY_b, .SIL, .SIY, .SMI, .SS_a, .SS_b, .SS_c, .SS_d, .SS_e, .SS_f, .SSE, .SSF,
  .VRI_a, .VRI_b, .VRI_c, .VRI_d, .VRI_e, .VRI_f, .VRR_a, .VRR_b, .VRR_c, .VRR_d, .VRR_e, .VRR_f, .VRS_a, .VRS_b, .VRS_c,
  .VRV, .VRX, .VRI_g, .VRI_h, .VRI_i, .VRR_g, .VRR_h, .VRR_i, .VRS_d, .VSI]

theorem MF.mem_all (f : MF) : f ∈ MF.all := by cases f <;> decide +kernel

/-- Only formats of six bytes have these operands. -/
def LongOnly (fs : List Field) : Prop := ∀ f : MF, fs ∈ f.operands → f.bytes = 6

instance (fs : List Field) : Decidable (LongOnly fs) :=
  decidable_of_iff (∀ f ∈ MF.all, fs ∈ f.operands → f.bytes = 6) ⟨fun h f => h f f.mem_all, fun h f _ => h f⟩

/-- The size of the instruction with the name and the operands. -/
def sizeOf (n : OpName) (fs : List Field) : Nat :=
  if n ∈ twoBytes then 2 else if n ∈ sixBytes ∨ LongOnly fs then 6 else 4

/-- The entries whose operands are not those of the instruction, so that they do not say its size: `BASSM` and `STFLE` of
`misfits`, and three that are entered with two registers instead of a register and an address. -/
def unsized : List OpName := [n!"BASSM", n!"STFLE", n!"LDEB", n!"LXDB", n!"LXEB"]

theorem filterMap_of_map {fs : List Field} : ∀ {l : List Fmt}, l.map Fmt.field = fs.map some → l.filterMap Fmt.field = fs := by
  intro l h
  have : (l.map Fmt.field).filterMap id = (fs.map some).filterMap id := by rw [h]
  simpa [List.filterMap_map] using this

theorem all_sized : instrs.all (fun ins => unsized.contains ins.name ||
    decide (ins.fmt.bits = 8 * sizeOf ins.name (ins.ops.filterMap Fmt.field))) = true := by decide +kernel

/-- C95, the size: the storage given to an instruction is its size in the architecture. Missing for the full property:
the entries of `C95_witness_size` and `C95_witness_registers`, and `STFLE`, whose operands are wrong. -/
theorem C95_size_partial (n : OpName) (ins : Instr) (h : tables.instr n = some ins) (hn : n ∉ unsized) (fs : List Field)
    (hf : ins.ops.map Fmt.field = fs.map some) : ins.fmt.bits = 8 * sizeOf n fs := by
  obtain ⟨hm, rfl⟩ := mem_of_instr h
  have := List.all_eq_true.1 all_sized ins hm
  simp only [Bool.or_eq_true, List.contains_iff_mem, decide_eq_true_eq] at this
  rw [← filterMap_of_map hf]
  exact this.resolve_left hn

/-- C95. The two-byte instructions are those of the architecture, whatever the operands of their entries. Missing for the
full property: `BASSM`. -/
theorem C95_two_bytes_partial (n : OpName) (ins : Instr) (h : tables.instr n = some ins) (hn : n ≠ n!"BASSM") : ins.fmt.bits = 16 ↔ n ∈ twoBytes := by
  obtain ⟨hm, rfl⟩ := mem_of_instr h
  have : instrs.all (fun ins => ins.name == n!"BASSM" || decide (ins.fmt.bits = 16) == twoBytes.contains ins.name) = true := by decide +kernel
  have := List.all_eq_true.1 this ins hm
  simp only [Bool.or_eq_true, beq_iff_eq] at this
  have := this.resolve_left hn
  rw [← decide_eq_true_iff (p := ins.fmt.bits = 16), this, List.contains_iff_mem]

/-- C95 does not hold for `LDEB`, `LXDB` and `LXEB`, which load from storage and have six bytes: the entries ask for two
registers and give four bytes. `LDEB 0,4(1,13)` is refused, `LDEB 0,1` accepted; `SQEB`, a neighbour, is entered correctly. -/
theorem C95_witness_registers :
    (∀ n ∈ [n!"LDEB", n!"LXDB", n!"LXEB"], n ∈ sixBytes ∧
      (tables.instr n).map (fun ins => (ins.fmt, ins.fmt.bits, ins.ops.map Fmt.field)) = some (.RRE, 32, [some .r, some .r])) ∧
    ¬ tables.Accepts n!"LDEB" [some (.plain (.abs 0)), some (.both (.abs 4) (.abs 1) (.abs 13))] ∧
    tables.Accepts n!"LDEB" [some (.plain (.abs 0)), some (.plain (.abs 1))] ∧
    tables.Accepts n!"SQEB" [some (.plain (.abs 0)), some (.both (.abs 4) (.abs 1) (.abs 13))] := by decide +kernel

example : (tables.instr n!"LR").map (fun ins => (ins.ops.map Fmt.field, ins.fmt.bits)) = some ([some .r, some .r], 16) ∧
    (tables.instr n!"LGR").map (fun ins => (ins.ops.map Fmt.field, ins.fmt.bits)) = some ([some .r, some .r], 32) ∧
    sizeOf n!"LR" [.r, .r] = 2 ∧ sizeOf n!"LGR" [.r, .r] = 4 ∧ sizeOf n!"AEB" [.r, .dx 12] = 6 ∧ sizeOf n!"A" [.r, .dx 12] = 4 ∧
    sizeOf n!"MVC" [.dl 8, .d 12] = 6 := by decide +kernel

end Verif.Mach
