import Verif.SysVar.Inv
/-! C141: system variables say when the program is assembled and how a macro was reached. -/
namespace Verif.SysVar
open Verif.Context

/-- C141 (partial: as long as the program does not assign to system variables, see the witness; years of four digits): the date and the
time the variables show are those at which the analysis was started, in the forms YYYYMMDD, MM/DD/YY and HH:MM; they are the same in every
macro and at every moment of the analysis, as are &SYSPARM, which is the configured text, and &SYSOPT_RENT. -/
theorem C141_when_partial (t : Tm) (parm : Bytes) (ht : Spec.Valid t) (evs : List Ev) (hp : ∀ e ∈ evs, Spec.Proper e) :
    ask (run (start t parm) evs) SYSDATC [] = some (.c (Spec.datc t)) ∧
    ask (run (start t parm) evs) SYSDATE [] = some (.c (Spec.date t)) ∧
    ask (run (start t parm) evs) SYSTIME [] = some (.c (Spec.time t)) ∧
    ask (run (start t parm) evs) SYSPARM [] = some (.c parm) ∧
    ask (run (start t parm) evs) SYSOPT_RENT [] = some (.b false) := by
  obtain ⟨hg, hk⟩ := start_facts t parm
  have key : ∀ p ∈ globalVars t parm, ask (run (start t parm) evs) p.1 [] = some (made p).get := by
    intro p hpm
    have hn : p.1 ∈ globalNames := by rw [← globalVars_names t parm]; exact List.mem_map_of_mem (f := (·.1)) hpm
    obtain ⟨a, h1, h2, h3⟩ := known_run evs _ _ hg hp hn (hk p hpm)
    exact ask_scalar (h3 _ (by simp)) h2 (by unfold made; exact (assign_shape _ _ _).1)
  rw [← datc_eq t ht, ← date_eq t ht, ← time_eq t ht]
  exact ⟨key (SYSDATC, .C, some (.c (datc t))) (by simp [globalVars]), key (SYSDATE, .C, some (.c (date t))) (by simp [globalVars]),
    key (SYSTIME, .C, some (.c (time t))) (by simp [globalVars]), key (SYSPARM, .C, some (.c parm)) (by simp [globalVars]),
    key (SYSOPT_RENT, .B, none) (by simp [globalVars])⟩

/-- C141 (partial: as long as the program does not assign to system variables): in a macro, whatever happened since it was called, other
calls included, the variables show the section, its type and the location counter that were current at the call, and how many calls are
not finished. -/
theorem C141_where_partial (t : Tm) (parm : Bytes) (evs : List Ev) (hp : ∀ e ∈ evs, Spec.Proper e) (c : Spec.Call) (cs : List Spec.Call)
    (hc : Spec.calls [] evs = c :: cs) :
    ask (run (start t parm) evs) SYSECT [] = some (.c ((c.here.map (·.1)).getD [])) ∧
    ask (run (start t parm) evs) SYSSTYP [] = some (.c ((c.here.map fun h => Sect.kindName h.2.1).getD [])) ∧
    ask (run (start t parm) evs) SYSLOC [] = some (.c ((c.here.map (·.2.2)).getD [])) ∧
    (cs.length + 1 < 2 ^ 31 → ask (run (start t parm) evs) SYSNEST [] = some (.a ((c :: cs).length : Nat))) := by
  have hg := good_run evs _ _ (start_facts t parm).1 hp
  rw [hc] at hg
  have hf := hg.fit.1
  have key : ∀ p ∈ localVars c.here (cs.length + 1), ask (run (start t parm) evs) p.1 [] = some p.2 := by
    intro p hpm
    obtain ⟨a, x, h1, h2, _, h4, h5⟩ := hf p hpm
    rw [ask_scalar h1 h2 h4, h5]
  refine ⟨key (SYSECT, _) (by simp [localVars]), key (SYSSTYP, _) (by simp [localVars]), key (SYSLOC, _) (by simp [localVars]), ?_⟩
  intro hl
  have := key (SYSNEST, .a (toA (cs.length + 1))) (by simp [localVars])
  rw [this]
  congr 2
  unfold toA
  rw [BitVec.toInt_eq_toNat_of_lt]
  · simp; omega
  · simp; omega

theorem framed_level : ∀ {fs : List Frame} {cs : List Spec.Call}, Framed fs cs → ∀ i,
    (((fs.map fun f => Data.single f.mac) ++ [Data.single sOpenCode])[i]?.getD .dummy).value = Spec.level cs i
  | [], [], _, 0 => rfl
  | [], [], _, i + 1 => by simp [Spec.level, Data.value]
  | [], _ :: _, h, _ => h.elim
  | _ :: _, [], h, _ => h.elim
  | f :: fs, c :: cs, h, 0 => by simp [Spec.level, Data.value, h.1]
  | f :: fs, c :: cs, h, i + 1 => by
    have := framed_level h.2.2 i
    simp only [List.map_cons, List.cons_append, List.getElem?_cons_succ]
    rw [this]
    simp [Spec.level]

theorem find_sysmac {s : State} {c : Spec.Call} {cs : List Spec.Call} (h : Good s (c :: cs)) :
    ∃ f fs, Framed (f :: fs) (c :: cs) ∧ find s SYSMAC = some (.param (.sys (.comp ((f :: fs).map (fun f => Data.single f.mac) ++ [.single sOpenCode])))) := by
  have hf := h.framed
  cases hfr : s.frames with
  | nil => rw [hfr] at hf; exact hf.elim
  | cons f fs =>
    rw [hfr] at hf
    refine ⟨f, fs, hf, ?_⟩
    unfold find
    rw [h.fit.2.1, hfr]
    simp only [if_pos, List.head?_cons, Option.map_some]
    rw [hf.2.1]
    rfl

theorem toSize_nat (i : Nat) (h : i < 2 ^ 31) : Attr.toSize (i : Int) = i := by unfold Attr.toSize; omega

theorem testRead_one (d : Data) (i : Int) (h : i ≠ 0) (r : Option Attr.Diag) (hr : (if i < 1 then some Attr.Diag.E012 else none) = r) :
    Attr.testRead (.param (.sys d)) [i] = r := by
  subst hr
  unfold Attr.testRead
  split
  · next s' e => cases e
  · next p' sub' e1 =>
    injection e1 with e1
    subst e1
    split
    · next e => injection e with e _; exact absurd e h
    · by_cases hi : i < 1 <;> simp [hi]

/-- C141 (partial: without subscript and for K' without subscript see the witnesses): in a macro, &SYSMAC(i) is the name of the macro `i`
levels out from the one being processed, behind the outermost one OPEN CODE, and nothing after that; negative subscripts are refused; K'
tells the length of the name and N'&SYSMAC the number of calls that are not finished. -/
theorem C141_nest_partial (t : Tm) (parm : Bytes) (evs : List Ev) (hp : ∀ e ∈ evs, Spec.Proper e) (c : Spec.Call) (cs : List Spec.Call)
    (hc : Spec.calls [] evs = c :: cs) :
    (∀ i : Nat, i < 2 ^ 31 → ask (run (start t parm) evs) SYSMAC [(i : Int)] = some (.c (Spec.level (c :: cs) i))) ∧
    (∀ i : Nat, i < 2 ^ 31 → (Spec.level (c :: cs) i).length < 2 ^ 31 →
      count (run (start t parm) evs) SYSMAC [(i : Int)] = some ((Spec.level (c :: cs) i).length : Nat)) ∧
    (∀ i : Int, i < 0 → ask (run (start t parm) evs) SYSMAC [i] = none ∧ count (run (start t parm) evs) SYSMAC [i] = none) ∧
    (cs.length + 2 < 2 ^ 31 → number (run (start t parm) evs) SYSMAC = some ((c :: cs).length : Nat)) := by
  have hg := good_run evs _ _ (start_facts t parm).1 hp
  rw [hc] at hg
  obtain ⟨f, fs, hf, hfind⟩ := find_sysmac hg
  have htest : ∀ (d : Data) (i : Nat), Attr.testRead (.param (.sys d)) [(i : Int)] = none := by
    intro d i
    cases i with
    | zero => rfl
    | succ i =>
      have h1 : ((i + 1 : Nat) : Int) ≠ 0 := by omega
      have h2 : ¬ (((i + 1 : Nat) : Int) < 1) := by omega
      exact testRead_one d _ h1 none (by rw [if_neg h2])
  refine ⟨?_, ?_, ?_, ?_⟩
  · intro i hi
    unfold ask
    rw [hfind]
    simp only [Option.bind_some, htest, Option.isSome_none, Bool.false_eq_true, if_false, Attr.readVar, List.map_cons, List.map_nil,
      Mac.Inst.data, toSize_nat i hi, List.foldl_nil, Data.ith]
    rw [← framed_level hf i]
    rfl
  · intro i hi hl
    unfold count
    rw [hfind]
    simp only [Option.bind_some, htest, Option.isSome_none, Bool.false_eq_true, if_false, Attr.Var.count, List.map_cons, List.map_nil,
      Mac.Inst.data, toSize_nat i hi, List.foldl_nil, Data.ith]
    have := framed_level hf i
    simp only [List.map_cons] at this
    rw [this]
    unfold toA
    rw [BitVec.toInt_eq_toNat_of_lt]
    · simp; omega
    · simp; omega
  · intro i hi
    have ht : ∀ d : Data, Attr.testRead (.param (.sys d)) [i] = some .E012 := by
      intro d
      exact testRead_one d i (by omega) _ (by rw [if_pos (by omega)])
    unfold ask count
    rw [hfind]
    simp [ht]
  · intro hl
    have hlen := framed_length hf
    simp at hlen
    unfold number
    rw [hfind]
    simp only [Option.map_some, Attr.Var.number, Data.number, toA]
    rw [BitVec.toInt_eq_toNat_of_lt]
    · simp; omega
    · simp; omega

/-- C141: in open code there are no such variables: asking for them is refused, whatever macros have been called before. -/
theorem C141_open_code (t : Tm) (parm : Bytes) (evs : List Ev) (hp : ∀ e ∈ evs, Spec.Proper e) (hc : Spec.calls [] evs = []) (sub : List Int) :
    ∀ n ∈ [SYSECT, SYSSTYP, SYSLOC, SYSNEST, SYSMAC, SYSNDX], ask (run (start t parm) evs) n sub = none := by
  have hg := good_run evs _ _ (start_facts t parm).1 hp
  rw [hc] at hg
  intro n hn
  have k : ∀ n ∈ [SYSECT, SYSSTYP, SYSLOC, SYSNEST, SYSMAC, SYSNDX], n ∈ Spec.names ∧ n ∉ globalNames := by decide +kernel
  have hv := hg.fit.2 n (k n hn).1 (k n hn).2
  have hf : (run (start t parm) evs).frames = [] := by
    have := hg.framed
    cases hfr : (run (start t parm) evs).frames with
    | nil => rfl
    | cons f fs => rw [hfr] at this; exact this.elim
  unfold ask find
  rw [hv, hf]
  simp

/-! ### What is not as described -/

/-- Twenty past eight in the evening of 5 March 2021. -/
def sampleTm : Tm := { year := 2021, mon := 2, mday := 5, hour := 20, min := 8 }
/-- A calls B; at the call of B, section S is current. -/
def sampleEvs : List Ev := [.set .A [86] none [.a 1], .call [65] (fun _ => false) none, .lcl .C [88] true,
  .call [66] (fun n => n = [80]) (some ([83], .executable, [76])), .call [67] (fun _ => false) none, .ret]

/-- Violation: the value of &SYSMAC without subscript is the list of all names, not the name of the macro being processed. -/
theorem C141_whole_witness : let s := run (start sampleTm []) sampleEvs
    ask s SYSMAC [] = some (.c "(B,A,OPEN CODE)".toUTF8.toList) ∧ ask s SYSMAC [0] = some (.c [66]) := by decide +kernel

/-- Violation: K'&SYSMAC is the length of the name of the calling macro, neither that of the value nor that of the macro's own name. -/
theorem C141_count_witness : let s := run (start sampleTm []) [.call [65, 65] (fun _ => false) none, .call [66] (fun _ => false) none]
    count s SYSMAC [] = some 2 ∧ count s SYSMAC [0] = some 1 ∧ ask s SYSMAC [] = some (.c "(B,AA,OPEN CODE)".toUTF8.toList) := by decide +kernel

/-- Violation: a macro can assign to &SYSDATE, and all others see it. -/
theorem C141_assigned_witness : let s := run (start sampleTm []) [.call [65] (fun _ => false) none, .set .C SYSDATE none [.c [88]], .ret]
    ask s SYSDATE [] = some (.c [88]) := by decide +kernel

/-- Violation: open code can declare a variable with the name of one that exists only in macros. -/
theorem C141_declared_witness : let s := run (start sampleTm []) [.lcl .A SYSNEST true]
    ask s SYSNEST [] = some (.a 0) := by decide +kernel

example : Spec.Valid sampleTm ∧ (∀ e ∈ sampleEvs, Spec.Proper e) ∧ Spec.datc sampleTm = "20210305".toUTF8.toList ∧
    Spec.date sampleTm = "03/05/21".toUTF8.toList ∧ Spec.time sampleTm = "20:08".toUTF8.toList := by
  refine ⟨by unfold Spec.Valid sampleTm; decide, ?_, by decide +kernel, by decide +kernel, by decide +kernel⟩
  intro e he
  simp only [sampleEvs, List.mem_cons, List.not_mem_nil, or_false] at he
  rcases he with rfl | rfl | rfl | rfl | rfl | rfl <;> simp only [Spec.Proper] <;> decide +kernel

example : (Spec.calls [] sampleEvs).map (·.mac) = [[66], [65]] ∧
    let s := run (start sampleTm [80]) sampleEvs
    (ask s SYSDATC [], ask s SYSPARM [], ask s SYSNEST [], ask s SYSECT [], ask s SYSSTYP []) =
      (some (.c "20210305".toUTF8.toList), some (.c [80]), some (.a 2), some (.c [83]), some (.c "CSECT".toUTF8.toList)) ∧
    ((List.range 5).map fun (i : Nat) => ask s SYSMAC [(i : Int)]) =
      [some (.c [66]), some (.c [65]), some (.c "OPEN CODE".toUTF8.toList), some (.c []), some (.c [])] ∧ number s SYSMAC = some 2 := by decide +kernel

example : Spec.calls [] (sampleEvs ++ [.ret, .ret]) = [] ∧
    ask (run (start sampleTm []) (sampleEvs ++ [.ret, .ret])) SYSNEST [] = none := ⟨rfl, by decide +kernel⟩

end Verif.SysVar
