import Verif.Mach.Statement

/-!
C95 and C97: the operands of the table against the fields of the formats.
-/
namespace Verif.Mach

/-! ## Specification: the formats of the z/Architecture Principles of Operation, chapter 5 -/

/-- What an operand stands for in the machine format. -/
inductive Field where
  /-- general, access, control or floating-point register -/
  | r
  /-- vector register -/
  | v
  | m
  /-- immediate of so many bits -/
  | i (bits : Nat)
  /-- relative address in halfwords, of so many bits -/
  | ri (bits : Nat)
  /-- `D(B)`, displacement of so many bits -/
  | d (bits : Nat)
  /-- `D(X,B)` -/
  | dx (bits : Nat)
  /-- `D(V,B)` -/
  | dv
  /-- `D(R,B)` -/
  | dr
  /-- `D(L,B)`, length of so many bits -/
  | dl (bits : Nat)
deriving DecidableEq, Repr

/-- The bits the operand takes in the instruction. -/
def Field.bits : Field → Nat
  | .r | .v | .m => 4
  | .i k | .ri k => k
  | .d k => k + 4
  | .dx k => k + 8
  | .dv | .dr => 20
  | .dl k => k + 16

/-- What an operand format of the table stands for. -/
def Fmt.field (f : Fmt) : Option Field :=
  if f = reg_4_U then some .r
  else if f = vec_reg_4_U then some .v
  else if f = mask_4_U then some .m
  else if f.first = pEmpty ∧ f.second = pEmpty ∧ f.id.ty = .imm then some (.i f.id.size)
  else if f.first = pEmpty ∧ f.second = pEmpty ∧ f.id.ty = .regImm ∧ f.id.signed = true then some (.ri f.id.size)
  else if f = db_12_4_U then some (.d 12)
  else if f = db_20_4_S then some (.d 20)
  else if f = dxb_12_4x4_U then some (.dx 12)
  else if f = dxb_20_4x4_S then some (.dx 20)
  else if f = dvb_12_4x4_U then some .dv
  else if f = drb_12_4x4_U then some .dr
  else if f = db_12_4x4L_U then some (.dl 4)
  else if f = db_12_8x4L_U then some (.dl 8)
  else none

/-- The operands assembler statements of a format may have, in the order they are written. Register fields an instruction
does not use are not written; masks at the end may be missing. -/
def MF.operands : MF → List (List Field)
  | .E => [[]]
  | .I => [[.i 8]]
  | .RR => [[.r, .r], [.m, .r], [.r]]
  | .IE => [[.i 4, .i 4]]
  | .RRD => [[.r, .r, .r]]
  | .RRE => [[], [.r], [.r, .r]]
  | .RRF_a | .RRF_b => [[.r, .r, .r], [.r, .r, .r, .m]]
  | .RRF_c | .RRF_d => [[.r, .r, .m]]
  | .RRF_e => [[.r, .m, .r], [.r, .m, .r, .m]]
  | .RI_a => [[.r, .i 16]]
  | .RI_b => [[.r, .ri 16]]
  | .RI_c => [[.m, .ri 16]]
  | .RS_a => [[.r, .r, .d 12], [.r, .d 12]]
  | .RS_b => [[.r, .m, .d 12]]
  | .RSI => [[.r, .r, .ri 16]]
  | .RX_a => [[.r, .dx 12]]
  | .RX_b => [[.m, .dx 12]]
  | .S => [[], [.d 12]]
  | .SI => [[.d 12, .i 8], [.d 12]]
  | .MII => [[.m, .ri 12, .ri 24]]
  | .RIE_a => [[.r, .i 16, .m]]
  | .RIE_b => [[.r, .r, .m, .ri 16]]
  | .RIE_c => [[.r, .i 8, .m, .ri 16]]
  | .RIE_d => [[.r, .r, .i 16]]
  | .RIE_e => [[.r, .r, .ri 16]]
  | .RIE_f => [[.r, .r, .i 8, .i 8, .i 8]]
  | .RIE_g => [[.r, .i 16, .m]]
  | .RIL_a => [[.r, .i 32]]
  | .RIL_b => [[.r, .ri 32]]
  | .RIL_c => [[.m, .ri 32]]
  | .RIS => [[.r, .i 8, .m, .d 12]]
  | .RRS => [[.r, .r, .m, .d 12]]
  | .RSL_a => [[.dl 4]]
  | .RSL_b => [[.r, .dl 8, .m]]
  | .RSY_a => [[.r, .r, .d 20]]
  | .RSY_b => [[.r, .m, .d 20], [.r, .d 20, .m]]
  | .RXE => [[.r, .dx 12], [.r, .dx 12, .m]]
  | .RXF => [[.r, .r, .dx 12]]
  | .RXY_a => [[.r, .dx 20]]
  | .RXY_b => [[.m, .dx 20]]
  | .SIL => [[.d 12, .i 16]]
  | .SIY => [[.d 20, .i 8]]
  | .SMI => [[.m, .ri 16, .d 12]]
  | .SS_a => [[.dl 8, .d 12]]
  | .SS_b => [[.dl 4, .dl 4]]
  | .SS_c => [[.dl 4, .d 12, .i 4]]
  | .SS_d => [[.dr, .d 12, .r]]
  | .SS_e => [[.r, .r, .d 12, .d 12], [.r, .d 12, .r, .d 12]]
  | .SS_f => [[.d 12, .dl 8]]
  | .SSE => [[.d 12, .d 12]]
  | .SSF => [[.d 12, .d 12, .r], [.r, .d 12, .d 12]]
  | .VRI_a => [[.v, .i 16, .m], [.v, .i 16]]
  | .VRI_b => [[.v, .i 8, .i 8, .m]]
  | .VRI_c => [[.v, .v, .i 16, .m]]
  | .VRI_d => [[.v, .v, .v, .i 8], [.v, .v, .v, .i 8, .m]]
  | .VRI_e => [[.v, .v, .i 12, .m, .m]]
  | .VRI_f => [[.v, .v, .v, .i 8, .m]]
  | .VRI_g => [[.v, .v, .i 8, .i 8, .m]]
  | .VRI_h => [[.v, .i 16, .i 4]]
  | .VRI_i => [[.v, .r, .i 8, .m]]
  | .VRR_a => [[.v, .v], [.v, .v, .m], [.v, .v, .m, .m], [.v, .v, .m, .m, .m]]
  | .VRR_b => [[.v, .v, .v, .m, .m]]
  | .VRR_c => [[.v, .v, .v], [.v, .v, .v, .m], [.v, .v, .v, .m, .m], [.v, .v, .v, .m, .m, .m]]
  | .VRR_d => [[.v, .v, .v, .v, .m], [.v, .v, .v, .v, .m, .m]]
  | .VRR_e => [[.v, .v, .v, .v], [.v, .v, .v, .v, .m, .m]]
  | .VRR_f => [[.v, .r, .r]]
  | .VRR_g => [[.v]]
  | .VRR_h => [[.v, .v, .m]]
  | .VRR_i => [[.r, .v, .m]]
  | .VRS_a => [[.v, .v, .d 12, .m]]
  | .VRS_b => [[.v, .r, .d 12], [.v, .r, .d 12, .m]]
  | .VRS_c => [[.r, .v, .d 12, .m]]
  | .VRS_d => [[.v, .r, .d 12]]
  | .VRV => [[.v, .dv, .m]]
  | .VRX => [[.v, .dx 12, .m]]
  | .VSI => [[.v, .d 12, .i 8]]

/-- The entry asks for operands of its format. -/
def Instr.Fits (ins : Instr) : Prop := ∃ s ∈ ins.fmt.operands, ins.ops.map Fmt.field = s.map some

instance (ins : Instr) : Decidable ins.Fits := inferInstanceAs (Decidable (∃ s ∈ ins.fmt.operands, _))

/-- The entries with other operands. -/
def misfits : List OpName := [n!"BASSM", n!"CLIY", n!"MVIY", n!"STFLE", n!"XC", n!"CLT", n!"CLGT", n!"EXRL", n!"LHRL", n!"LGHRL"]

/-! ## C95 -/

theorem all_fit : instrs.all (fun ins => misfits.contains ins.name || decide ins.Fits) = true := by decide +kernel

theorem mem_of_instr {n : OpName} {ins : Instr} (h : tables.instr n = some ins) : ins ∈ instrs ∧ ins.name = n :=
  ⟨List.mem_of_find?_eq_some h, by simpa using List.find?_some h⟩

/-- C95, the operands: for all instructions but ten, those the table asks for are fields of the format. Missing for the full
property: the ten (`C95_witness_fields`). -/
theorem C95_fields_partial (n : OpName) (ins : Instr) (h : tables.instr n = some ins) (hn : n ∉ misfits) : ins.Fits := by
  obtain ⟨hm, rfl⟩ := mem_of_instr h
  have := List.all_eq_true.1 all_fit ins hm
  simp only [Bool.or_eq_true, List.contains_iff_mem, decide_eq_true_eq] at this
  exact this.resolve_left hn

/-- C95 does not hold for the ten. -/
theorem C95_witness_fields : ∀ n ∈ misfits, ∃ ins, tables.instr n = some ins ∧ ¬ ins.Fits := by
  have h : ∀ n ∈ misfits, (match tables.instr n with | none => false | some ins => decide (¬ ins.Fits)) = true := by decide +kernel
  intro n hn
  have := h n hn
  cases hi : tables.instr n with
  | none => simp [hi] at this
  | some ins => exact ⟨ins, rfl, by simpa [hi] using this⟩

/-- C95 does not hold for `BASSM`: its two registers are the operands of the two-byte format `RR`, it is given four bytes. -/
theorem C95_witness_size : (tables.instr n!"BASSM").map (fun ins => (ins.fmt, ins.fmt.bits, ins.ops.map Fmt.field)) =
    some (.RX_a, 32, [some .r, some .r]) ∧ [Field.r, .r] ∈ MF.RR.operands ∧ MF.RR.bits = 16 := by decide +kernel

/-- C95: a displacement of 20 bits is accepted where the instruction has 12, and refused where it has 20; an address is
refused where a relative operand is meant. -/
theorem C95_witness_operands :
    tables.Accepts n!"XC" [some (.paren (.abs 0) (.abs 1)), some (.plain (.abs 5000))] ∧
    ¬ tables.Accepts n!"MVC" [some (.paren (.abs 0) (.abs 1)), some (.plain (.abs 5000))] ∧
    ¬ tables.Accepts n!"MVIY" [some (.plain (.abs 5000)), some (.plain (.abs 1))] ∧
    tables.Accepts n!"NIY" [some (.plain (.abs 5000)), some (.plain (.abs 1))] ∧
    ¬ tables.Accepts n!"LHRL" [some (.plain (.abs 1)), some (.plain .reloc)] ∧
    tables.Accepts n!"LRL" [some (.plain (.abs 1)), some (.plain .reloc)] := by decide +kernel

theorem all_room : instrs.all (fun ins => misfits.contains ins.name || decide (8 + ((ins.ops.filterMap Fmt.field).map Field.bits).sum ≤ ins.fmt.bits) &&
    ins.ops.all fun f => f.field.isSome) = true := by decide +kernel

/-- C95. The operands and an operation code of eight bits fit into the size given to the instruction. Missing for the full
property: the ten. -/
theorem C95_room_partial (n : OpName) (ins : Instr) (h : tables.instr n = some ins) (hn : n ∉ misfits) :
    ∃ fs : List Field, ins.ops.map Fmt.field = fs.map some ∧ 8 + (fs.map Field.bits).sum ≤ ins.fmt.bits := by
  obtain ⟨hm, rfl⟩ := mem_of_instr h
  have := List.all_eq_true.1 all_room ins hm
  simp only [Bool.and_eq_true, Bool.or_eq_true, List.contains_iff_mem, decide_eq_true_eq, List.all_eq_true] at this
  replace this := this.resolve_left hn
  refine ⟨ins.ops.filterMap Fmt.field, ?_, this.1⟩
  obtain ⟨-, h2⟩ := this
  generalize ins.ops = l at h2
  induction l with
  | nil => rfl
  | cons f r ih =>
    obtain ⟨y, hy⟩ := Option.isSome_iff_exists.1 (h2 f List.mem_cons_self)
    rw [List.filterMap_cons_some hy, List.map_cons, List.map_cons, hy, ih fun g hg => h2 g (List.mem_cons_of_mem _ hg)]

example : (tables.instr n!"MVC").map (fun ins => (ins.fmt, ins.ops.map Fmt.field)) = some (.SS_a, [some (.dl 8), some (.d 12)]) ∧ n!"MVC" ∉ misfits := by decide +kernel

/-! ## C97 -/

/-- The instructions of the table with an immediate operand that is a bit pattern or an unsigned number, its place, and its
number of bits (Principles of Operation, chapters 7, 10, 21). -/
def logical : List (OpName × Nat × Nat) := [
  (n!"SVC", 0, 8),
  (n!"NI", 1, 8), (n!"OI", 1, 8), (n!"XI", 1, 8), (n!"CLI", 1, 8), (n!"MVI", 1, 8), (n!"TM", 1, 8), (n!"MC", 1, 8), (n!"STNSM", 1, 8), (n!"STOSM", 1, 8),
  (n!"NIY", 1, 8), (n!"OIY", 1, 8), (n!"XIY", 1, 8), (n!"CLIY", 1, 8), (n!"MVIY", 1, 8), (n!"TMY", 1, 8),
  (n!"NIHH", 1, 16), (n!"NIHL", 1, 16), (n!"NILH", 1, 16), (n!"NILL", 1, 16),
  (n!"OIHH", 1, 16), (n!"OIHL", 1, 16), (n!"OILH", 1, 16), (n!"OILL", 1, 16),
  (n!"IIHH", 1, 16), (n!"IIHL", 1, 16), (n!"IILH", 1, 16), (n!"IILL", 1, 16),
  (n!"LLIHH", 1, 16), (n!"LLIHL", 1, 16), (n!"LLILH", 1, 16), (n!"LLILL", 1, 16),
  (n!"TMHH", 1, 16), (n!"TMHL", 1, 16), (n!"TMLH", 1, 16), (n!"TMLL", 1, 16),
  (n!"CLFHSI", 1, 16), (n!"CLGHSI", 1, 16), (n!"CLHHSI", 1, 16),
  (n!"CLFIT", 1, 16), (n!"CLGIT", 1, 16),
  (n!"CLIJ", 1, 8), (n!"CLGIJ", 1, 8), (n!"CLIB", 1, 8), (n!"CLGIB", 1, 8),
  (n!"RNSBG", 3, 8), (n!"RXSBG", 3, 8), (n!"ROSBG", 3, 8), (n!"RISBG", 3, 8), (n!"RISBGN", 3, 8), (n!"RISBHG", 3, 8), (n!"RISBLG", 3, 8),
  (n!"RNSBG", 2, 8), (n!"RXSBG", 2, 8), (n!"ROSBG", 2, 8),
  (n!"VGBM", 1, 16), (n!"VGM", 1, 8), (n!"VGM", 2, 8), (n!"VREP", 2, 16), (n!"VFTCI", 2, 12)]

/-- The entries that take the operand as a signed number. -/
def signedEntries : List OpName := [n!"XI", n!"MC", n!"STNSM", n!"STOSM", n!"XIY", n!"OIHH", n!"OIHL", n!"OILH", n!"OILL", n!"LLIHH", n!"LLIHL", n!"LLILH",
  n!"LLILL", n!"CLFIT", n!"CLGIT", n!"CLIJ", n!"CLGIJ", n!"CLIB", n!"CLGIB", n!"RNSBG", n!"RXSBG", n!"ROSBG", n!"RISBG", n!"RISBGN", n!"RISBHG", n!"RISBLG", n!"VFTCI"]

/-- The format of the operand at the place. -/
def operandAt (n : OpName) (place : Nat) : Option Fmt := (tables.instr n).bind (·.ops[place]?)

theorem logical_formats : logical.all (fun x => match operandAt x.1 x.2.1 with
    | none => false
    | some f => decide (f = ⟨⟨signedEntries.contains x.1, x.2.2, .imm⟩, pEmpty, pEmpty⟩)) = true := by decide +kernel

theorem logical_format {n : OpName} {i bits : Nat} (h : (n, i, bits) ∈ logical) :
    operandAt n i = some ⟨⟨signedEntries.contains n, bits, .imm⟩, pEmpty, pEmpty⟩ := by
  have := List.all_eq_true.1 logical_formats _ h
  simp only at this
  cases ho : operandAt n i with
  | none => simp [ho] at this
  | some f => simpa [ho] using this

theorem instr_of_logical {n : OpName} {i bits : Nat} (h : (n, i, bits) ∈ logical) :
    ∃ ins, tables.instr n = some ins ∧ ins.ops[i]? = some ⟨⟨signedEntries.contains n, bits, .imm⟩, pEmpty, pEmpty⟩ := by
  have := logical_format h
  unfold operandAt at this
  exact Option.bind_eq_some_iff.1 this

/-- C97. Where the entry does not take the operand as a signed number, every bit pattern can be written: the immediate
operand of an accepted statement may be replaced by any other. Missing for the full property: the instructions of
`C97_refused`. -/
theorem C97_patterns_partial (n : OpName) (i bits : Nat) (h : (n, i, bits) ∈ logical) (hn : n ∉ signedEntries) (ws : List (Option Written))
    (hd : AllDefined ws) (ha : tables.Accepts n ws) (hi : i < ws.length) (v : Int) (h0 : 0 ≤ v) (h1 : v < 2 ^ bits) :
    tables.Accepts n (ws.set i (some (.plain (.abs v)))) := by
  obtain ⟨ins, hins, hf⟩ := instr_of_logical h
  have hc : signedEntries.contains n = false := by simpa using hn
  rw [hc] at hf
  rw [C92_statement n ins hins ws hd] at ha
  rw [C92_statement n ins hins]
  · refine ⟨by simpa using ha.1, fun j w f hw hj => ?_⟩
    by_cases hij : i = j
    · subst hij
      rw [List.getElem?_set_self hi] at hw
      obtain rfl := Option.some.inj hw
      refine ⟨_, rfl, ?_⟩
      rw [hf] at hj
      obtain rfl := Option.some.inj hj
      show Param.Holds _ v
      simp [Param.Holds, h0, h1]
    · rw [List.getElem?_set_ne hij] at hw
      exact ha.2 j w f hw hj
  · intro w hw
    rcases List.mem_or_eq_of_mem_set hw with hw | hw
    · exact hd w hw
    · obtain rfl := Option.some.inj hw
      simp [Written.Defined]

/-- C97 does not hold: these instructions refuse every pattern with the first bit set, whatever else is written. -/
theorem C97_refused (n : OpName) (i bits : Nat) (h : (n, i, bits) ∈ logical) (hn : n ∈ signedEntries) (ws : List (Option Written))
    (hd : AllDefined ws) (v : Int) (hw : ws[i]? = some (some (.plain (.abs v)))) (h0 : 2 ^ (bits - 1) ≤ v) : ¬ tables.Accepts n ws := by
  obtain ⟨ins, hins, hf⟩ := instr_of_logical h
  have hc : signedEntries.contains n = true := by simpa using hn
  rw [hc] at hf
  rw [C92_statement n ins hins ws hd]
  rintro ⟨-, ha⟩
  obtain ⟨x, hx, hacc⟩ := ha i _ _ hw hf
  obtain rfl := Option.some.inj hx
  have : Param.Holds ⟨true, bits, .imm⟩ v := hacc
  simp only [Param.Holds, if_true] at this
  omega

/-- `XI FLAG,X'80'`, `OILL 1,X'8000'` and `RISBG 1,2,0,128+63,0` are refused; `OI FLAG,X'80'` and `NILL 1,X'8000'` are accepted. -/
theorem C97_witness : ¬ tables.Accepts n!"XI" [some (.plain .reloc), some (.plain (.abs 128))] ∧
    ¬ tables.Accepts n!"OILL" [some (.plain (.abs 1)), some (.plain (.abs 32768))] ∧
    ¬ tables.Accepts n!"RISBG" [some (.plain (.abs 1)), some (.plain (.abs 2)), some (.plain (.abs 0)), some (.plain (.abs 191)), some (.plain (.abs 0))] ∧
    tables.Accepts n!"OI" [some (.plain .reloc), some (.plain (.abs 128))] ∧
    tables.Accepts n!"NILL" [some (.plain (.abs 1)), some (.plain (.abs 32768))] ∧
    tables.Accepts n!"RISBG" [some (.plain (.abs 1)), some (.plain (.abs 2)), some (.plain (.abs 0)), some (.plain (.abs 63)), some (.plain (.abs 0))] := by
  decide +kernel

example : (n!"OI", 1, 8) ∈ logical ∧ n!"OI" ∉ signedEntries ∧ (n!"XI", 1, 8) ∈ logical ∧ n!"XI" ∈ signedEntries := by decide +kernel

end Verif.Mach
