import Verif.Mention.Props
/-! C109: what is found in open code and in macro definitions. -/
namespace Verif.Mention

open Lexing (Pos Rng)

mutual
theorem Var.noCopy : ∀ v : Var, v.coll .copyOp = []
  | .basic _ _ _ => rfl
  | .created _ _ _ => rfl
theorem Chain.noCopy : ∀ c : Chain, c.coll .copyOp = []
  | .nil => rfl
  | .str _ _ rest => by rw [Chain.coll, rest.noCopy]; rfl
  | .var _ rest => by rw [Chain.coll, rest.noCopy]; rfl
  | .dot rest => by rw [Chain.coll, rest.noCopy]
  | .sub l rest => by rw [Chain.coll, rest.noCopy, l.noCopy]; rfl
theorem Chains.noCopy : ∀ c : Chains, c.coll .copyOp = []
  | .nil => rfl
  | .cons c rest => by rw [Chains.coll, rest.noCopy, c.noCopy]; rfl
theorem Expr.noCopy : ∀ e : Expr, e.coll .copyOp = []
  | .const => rfl
  | .list es => es.noCopy
  | .func ps d => by rw [Expr.coll, ps.noCopy, d.noCopy]; rfl
  | .string _ d _ _ => d.noCopy
  | .sym _ _ => rfl
  | .attrOrd _ _ => rfl
  | .attrVar v => v.noCopy
  | .var v => v.noCopy
  | .un e => e.noCopy
  | .bin l r => by rw [Expr.coll, l.noCopy, r.noCopy]; rfl
theorem Exprs.noCopy : ∀ e : Exprs, e.coll .copyOp = []
  | .nil => rfl
  | .cons e rest => by rw [Exprs.coll, e.noCopy, rest.noCopy]; rfl
theorem OptExpr.noCopy : ∀ e : OptExpr, e.coll .copyOp = []
  | .none => rfl
  | .some e => e.noCopy
end

theorem Mach.noCopy : ∀ e : Mach, e.coll .copyOp = []
  | .sym _ _ => rfl
  | .attr _ _ => rfl
  | .un e => e.noCopy
  | .bin l r => by rw [coll, l.noCopy, r.noCopy]; rfl
  | .const => rfl
  | .selfDef => rfl
  | .loc => rfl
  | .dflt => rfl

theorem optMach_noCopy (e : Option Mach) : optMach .copyOp e = [] := by
  cases e with
  | none => rfl
  | some e => exact e.noCopy

theorem Operand.noCopy (p : Operand) : p.coll .copyOp = [] := by
  cases p with
  | model c => exact c.noCopy
  | macChain c => exact c.noCopy
  | caVar v => exact v.noCopy
  | caExpr e => exact e.noCopy
  | caBranch e n r => rw [coll, e.noCopy]; rfl
  | data d p l s e n =>
    simp only [coll, optMach_noCopy, List.nil_append, List.flatMap_eq_nil_iff]
    intro x _; cases x <;> simp [Nominal.coll, Mach.noCopy]
  | _ => simp [coll, optMach_noCopy, record]

theorem Stmt.noCopy (C : Codes) (s : Stmt) : s.coll C .copyOp = [] := by
  have h1 : s.label.coll .copyOp = [] := by
    cases h : s.label <;> simp [Label.coll, Chain.noCopy, Var.noCopy, record]
  have h2 : s.instr.coll C .copyOp = [] := by
    cases h : s.instr <;> simp [Instr.coll, Chain.noCopy]
  have h3 : s.field.coll .copyOp = [] := by
    cases h : s.field <;> simp [Field.coll, Operand.noCopy, Var.noCopy]
  rw [Stmt.coll, h1, h2, h3]; rfl

/-- What is collected as of a kind is of the kind. -/
theorem Stmt.kinds (C : Codes) (k : Kind) (s : Stmt) (o : Occ) (h : o ∈ s.coll C k) : o.kind = k := by
  have h1 := (C109_collected_partial C k s).mem_iff (a := o)
  have h2 := h1.mp (List.mem_append_left _ h)
  simpa using (List.mem_filter.mp h2).2

theorem count_only (k : Kind) (l : List Occ) (o : Occ) : (only k l).count o = if o.kind = k then l.count o else 0 := by
  unfold only
  split
  · next h => exact List.count_filter (by simpa using h)
  · next h => exact List.count_eq_zero.mpr fun hm => h (by simpa using (List.mem_filter.mp hm).2)

/-- All four kinds together. -/
theorem four (C : Codes) (s : Stmt) :
    ((s.coll C .ord ++ s.coll C .instr ++ s.coll C .var ++ s.coll C .seq) ++ s.buried).Perm (s.all C ++ s.glued) := by
  refine List.perm_iff_count.mpr fun o => ?_
  have h1 := s.found C .ord o
  have h2 := s.found C .instr o
  have h3 := s.found C .var o
  have h4 := s.found C .seq o
  have h5 := s.found C .copyOp o
  rw [s.noCopy] at h5
  simp only [List.count_append, count_only, List.count_nil] at h1 h2 h3 h4 h5 ⊢
  cases hk : o.kind <;> simp only [hk, reduceCtorEq, if_true, if_false] at h1 h2 h3 h4 h5 <;> omega

/-- While open code is processed the mentions recorded for a statement other than COPY are all those written in it but those in
subscripts of variable symbols and in character strings, and parts of names made with variable symbols. -/
theorem C109_open_partial (C : Codes) (s : Stmt) (prov : Prov) (hp : prov ≠ .macr) (hc : s.member = none) :
    (s.ordinary C prov ++ s.buried).Perm (s.all C ++ s.glued) := by
  rw [Stmt.ordinary, if_neg hp, Stmt.withCopy, hc]
  exact four C s

/-- If there are no subscripts, character strings and names made with variable symbols, exactly the mentions of a statement are
recorded. -/
theorem C109_plain (C : Codes) (s : Stmt) (prov : Prov) (hp : prov ≠ .macr) (hc : s.member = none) (hb : s.buried = [])
    (hg : s.glued = []) : (s.ordinary C prov).Perm (s.all C) := by
  have := C109_open_partial C s prov hp hc
  rwa [hb, hg, List.append_nil, List.append_nil] at this

theorem addCopy_eq (n : Bytes) (r : Rng) : ∀ os : List Occ, (⟨.ord, n, r, none⟩ : Occ) ∈ os →
    ∃ a b, os = a ++ ⟨.ord, n, r, none⟩ :: b ∧ addCopy n r os = a ++ ⟨.copyOp, n, r, none⟩ :: b
  | o :: os, h => by
    by_cases ho : o = ⟨.ord, n, r, none⟩
    · exact ⟨[], os, by rw [ho]; rfl, by rw [addCopy, if_pos ho, ho]; rfl⟩
    · have := (List.mem_cons.mp h).resolve_left (fun e => ho e.symm)
      obtain ⟨a, b, h1, h2⟩ := addCopy_eq n r os this
      exact ⟨o :: a, b, by rw [h1]; rfl, by rw [addCopy, if_neg ho, h2]; rfl⟩

theorem addCopy_none (n : Bytes) (r : Rng) : ∀ os : List Occ, (⟨.ord, n, r, none⟩ : Occ) ∉ os →
    addCopy n r os = os ++ [⟨.copyOp, n, r, none⟩]
  | [], _ => rfl
  | o :: os, h => by
    have ho : o ≠ ⟨.ord, n, r, none⟩ := fun e => h (by rw [e]; exact List.mem_cons_self ..)
    rw [addCopy, if_neg ho, addCopy_none n r os (fun hm => h (List.mem_cons_of_mem _ hm))]; rfl

/-- The statement is COPY with one operand, a symbol. -/
def IsCopyOf (s : Stmt) (n : Bytes) (r : Rng) : Prop :=
  s.opcode = "COPY".toUTF8.toList ∧ ∃ e : Mach, s.field = .operands [.asmExpr (some e)] ∧ e = .sym n r

theorem member_iff (s : Stmt) (n : Bytes) (r : Rng) : s.member = some (n, r) ↔ IsCopyOf s n r := by
  constructor
  · intro h
    unfold Stmt.member at h
    split at h
    · next ho =>
      split at h
      · next n' r' hf =>
        injection h with h; injection h with h1 h2; subst h1 h2
        exact ⟨ho, _, hf, rfl⟩
      · cases h
    · cases h
  · rintro ⟨ho, e, hf, rfl⟩
    have ho : s.opcode = COPY := ho
    rw [Stmt.member, if_pos ho, hf]

/-- In a COPY statement the operand is recorded as the name of a member instead of an ordinary symbol; all else is as in other
statements. -/
theorem C109_copy (C : Codes) (s : Stmt) (prov : Prov) (hp : prov ≠ .macr) (n : Bytes) (r : Rng) (hc : IsCopyOf s n r) :
    ∃ rest, (s.ordinary C prov).Perm (⟨.copyOp, n, r, none⟩ :: rest) ∧
      (⟨.ord, n, r, none⟩ :: rest ++ s.buried).Perm (s.all C ++ s.glued) := by
  have hf := four C s
  have hm : (⟨.ord, n, r, none⟩ : Occ) ∈ s.coll C .ord ++ s.coll C .instr ++ s.coll C .var ++ s.coll C .seq := by
    obtain ⟨-, e, he, rfl⟩ := hc
    have : (⟨.ord, n, r, none⟩ : Occ) ∈ s.coll C .ord := by
      refine List.mem_append_right _ ?_
      rw [he]; exact List.mem_singleton.mpr rfl
    simp [this]
  obtain ⟨a, b, h1, h2⟩ := addCopy_eq n r _ hm
  refine ⟨a ++ b, ?_, ?_⟩
  · rw [Stmt.ordinary, if_neg hp, Stmt.withCopy, (member_iff s n r).mpr hc]
    show (addCopy n r _).Perm _
    rw [h2]; exact List.perm_middle
  · rw [h1] at hf
    exact (List.Perm.append_right _ (List.perm_middle (a := (⟨.ord, n, r, none⟩ : Occ))).symm).trans hf

/-- The lines are processed as open code or, called by it, as code of macros. -/
def process (C : Codes) (st : State) (ls : List Line) : State :=
  ls.foldl (fun st l => st.analyze C l.stmt l.prov .ordinary l.file) st

/-- What is recorded for the lines: it goes to the file of the line, in order. -/
theorem C109_files (C : Codes) (ls : List Line) : ∀ (st : State), st.inMacro = false → ∀ g,
    (process C st ls).openOccs g = st.openOccs g ++ (ls.filter fun l => l.file = g).flatMap fun l => l.stmt.ordinary C l.prov := by
  induction ls with
  | nil => intro st _ g; simp [process]
  | cons l ls ih =>
    intro st hm g
    have hs : ∃ vd, st.analyze C l.stmt l.prov .ordinary l.file =
        { st with openOccs := st.openOccs.add l.file (l.stmt.ordinary C l.prov), varDefs := vd } := by
      unfold State.analyze State.assign
      dsimp only
      split
      · exact ⟨_, by rw [if_neg (by simp [hm])]⟩
      · exact ⟨l.stmt.varDefs l.file st.varDefs, by simp [hm]⟩
    obtain ⟨vd, hs⟩ := hs
    show (process C (st.analyze C l.stmt l.prov .ordinary l.file) ls).openOccs g = _
    rw [hs, ih { st with openOccs := st.openOccs.add l.file (l.stmt.ordinary C l.prov), varDefs := vd } hm g]
    show FileOccs.add st.openOccs l.file (l.stmt.ordinary C l.prov) g ++ _ = _
    unfold FileOccs.add
    by_cases hg : l.file = g
    · rw [if_pos hg.symm, List.filter_cons_of_pos (by simpa using hg), List.flatMap_cons, List.append_assoc]
    · rw [if_neg (fun e => hg e.symm), List.filter_cons_of_neg (by simpa using hg)]

/-- Variable symbols, sequence symbols and members are only found where they are written: calls of macros do not add any. -/
theorem C109_calls (C : Codes) (ls : List Line) (st : State) (hm : st.inMacro = false) (g : String) (k : Kind)
    (hk : k ≠ .ord ∧ k ≠ .instr) :
    only k ((process C st ls).openOccs g) = only k ((process C st (ls.filter fun l => l.prov ≠ .macr)).openOccs g) := by
  rw [C109_files C _ st hm, C109_files C _ st hm, only_append, only_append, only_flatMap, only_flatMap]
  congr 1
  induction ls with
  | nil => rfl
  | cons l ls ih =>
    by_cases hp : l.prov = .macr
    · rw [List.filter_cons_of_neg (p := fun l : Line => decide (l.prov ≠ .macr)) (by simp [hp]), ← ih]
      by_cases hg : l.file = g
      · rw [List.filter_cons_of_pos (by simpa using hg), List.flatMap_cons]
        have : only k (l.stmt.ordinary C l.prov) = [] := by
          rw [Stmt.ordinary, if_pos hp]
          refine List.filter_eq_nil_iff.mpr fun o ho hko => ?_
          have hko : o.kind = k := by simpa using hko
          rcases List.mem_append.mp ho with h | h
          · exact hk.1 (hko ▸ Stmt.kinds C _ _ o h)
          · exact hk.2 (hko ▸ Stmt.kinds C _ _ o h)
        rw [this]; rfl
      · rw [List.filter_cons_of_neg (by simpa using hg)]
    · rw [List.filter_cons_of_pos (p := fun l : Line => decide (l.prov ≠ .macr)) (by simp [hp])]
      by_cases hg : l.file = g
      · rw [List.filter_cons_of_pos (by simpa using hg), List.filter_cons_of_pos (by simpa using hg), List.flatMap_cons,
          List.flatMap_cons, ih]
      · rw [List.filter_cons_of_neg (by simpa using hg), List.filter_cons_of_neg (by simpa using hg), ih]

/-- While a macro is defined the mentions of variable and sequence symbols recorded for a statement other than COPY are those written in
it but those in subscripts of variable symbols and in character strings. -/
theorem C109_inMacro_partial (C : Codes) (s : Stmt) (hc : s.member = none) :
    (s.inMacro C ++ (only .var s.buried ++ only .seq s.buried)).Perm (only .var (s.all C ++ s.glued) ++ only .seq (s.all C ++ s.glued)) := by
  rw [Stmt.inMacro, Stmt.withCopy, hc]
  show ((s.coll C .var ++ s.coll C .seq) ++ _).Perm _
  refine List.perm_iff_count.mpr fun o => ?_
  have h3 := s.found C .var o
  have h4 := s.found C .seq o
  simp only [List.count_append] at h3 h4 ⊢
  omega

/-- The member a COPY statement names is also recorded while a macro is defined. -/
theorem C109_copyInMacro (C : Codes) (s : Stmt) (n : Bytes) (r : Rng) (hc : IsCopyOf s n r) :
    s.inMacro C = s.coll C .var ++ s.coll C .seq ++ [⟨.copyOp, n, r, none⟩] := by
  rw [Stmt.inMacro, Stmt.withCopy, (member_iff s n r).mpr hc]
  refine addCopy_none n r _ fun h => ?_
  rcases List.mem_append.mp h with h | h
  · exact absurd (Stmt.kinds C _ _ _ h) (by simp)
  · exact absurd (Stmt.kinds C _ _ _ h) (by simp)

/-- The statements, each with its file, are read as a macro definition. -/
def define (C : Codes) (st : State) (ls : List (Stmt × String)) : State :=
  ls.foldl (fun st l => st.analyze C l.1 .opencode .macr l.2) st

theorem nesting_depth (before : Nat) (ss : List Stmt) (s : Stmt) (n : Nat) (hn : (n : Int) = depth before ss)
    (h0 : 0 ≤ depth before (ss ++ [s])) : (s.nesting n : Int) = depth before (ss ++ [s]) := by
  have hne : MACRO ≠ MEND := by decide +kernel
  unfold depth at hn h0 ⊢
  rw [List.countP_append, List.countP_append] at h0 ⊢
  have hM : [s].countP Stmt.isMacro = if s.resolved = true ∧ s.opcode = MACRO then 1 else 0 := by
    rw [List.countP_singleton, show s.isMacro = (s.resolved && s.opcode == MACRO) from rfl]; simp
  have hE : [s].countP Stmt.isMend = if s.resolved = true ∧ s.opcode = MEND then 1 else 0 := by
    rw [List.countP_singleton, show s.isMend = (s.resolved && s.opcode == MEND) from rfl]; simp
  rw [hM, hE] at h0 ⊢
  unfold Stmt.nesting
  by_cases hr : s.resolved = true
  · by_cases h1 : s.opcode = MACRO
    · simp only [hr, h1, hne, and_self, and_false, if_true, if_false] at h0 ⊢
      omega
    · by_cases h2 : s.opcode = MEND
      · simp only [hr, h2, hne.symm, and_self, and_false, if_true, if_false] at h0 ⊢
        rw [if_neg (by omega)]; omega
      · simp only [hr, h1, h2, and_false, if_true, if_false] at h0 ⊢
        omega
  · simp only [hr, false_and, if_false, Bool.false_eq_true] at h0 ⊢
    omega

/-- What is recorded while a macro is defined: what the statements mention that are at depth 1 at most when they have been read, in the
file of the statement. Nothing is added to open code. -/
theorem define_eq (C : Codes) (st : State) (before : Nat) (hb : st.nest = before) (hm : st.inMacro = true) (ls : List (Stmt × String)) :
    (∀ i ≤ ls.length, 0 ≤ depth before ((ls.take i).map (·.1))) →
    (∀ g, (define C st ls).macroOccs g = st.macroOccs g ++ (List.range ls.length).flatMap fun i =>
      (ls[i]?).elim [] fun l =>
        if l.2 = g ∧ depth before ((ls.take (i + 1)).map (·.1)) ≤ 1 then l.1.inMacro C else []) ∧
    (define C st ls).openOccs = st.openOccs ∧ (define C st ls).varDefs = st.varDefs ∧ (define C st ls).inMacro = true ∧
    ((define C st ls).nest : Int) = depth before (ls.map (·.1)) := by
  induction ls using List.reverseRecOn with
  | nil => intro _; refine ⟨fun g => ?_, rfl, rfl, hm, ?_⟩ <;> simp [define, depth, hb]
  | append_singleton ls l ih =>
    intro h
    have h' : ∀ i ≤ ls.length, 0 ≤ depth before ((ls.take i).map (·.1)) := fun i hi => by
      have := h i (by rw [List.length_append]; omega)
      rwa [List.take_append_of_le_length hi] at this
    obtain ⟨h1, h2, h3, h4, h5⟩ := ih h'
    have hd : define C st (ls ++ [l]) = (define C st ls).analyze C l.1 .opencode .macr l.2 := by
      unfold define; rw [List.foldl_append]; rfl
    have hl := h (ls ++ [l]).length (Nat.le_refl _)
    rw [List.take_length, List.map_append] at hl
    have hn := nesting_depth before (ls.map (·.1)) l.1 _ h5 hl
    have ha : (define C st ls).analyze C l.1 .opencode .macr l.2 =
        { define C st ls with
            nest := l.1.nesting (define C st ls).nest,
            macroOccs := (define C st ls).macroOccs.add l.2 (if l.1.nesting (define C st ls).nest > 1 then [] else l.1.inMacro C) } := by
      unfold State.analyze State.assign
      simp only [h4, if_true]
      split <;> rfl
    rw [hd, ha]
    refine ⟨fun g => ?_, h2, h3, h4, by rw [List.map_append]; exact hn⟩
    show FileOccs.add _ _ _ g = _
    rw [List.length_append, List.length_singleton, List.range_succ, List.flatMap_append, ← List.append_assoc, List.flatMap_singleton]
    have e1 : (List.range ls.length).flatMap (fun i => ((ls ++ [l])[i]?).elim [] fun l' =>
          if l'.2 = g ∧ depth before (((ls ++ [l]).take (i + 1)).map (·.1)) ≤ 1 then l'.1.inMacro C else []) =
        (List.range ls.length).flatMap fun i => (ls[i]?).elim [] fun l =>
          if l.2 = g ∧ depth before ((ls.take (i + 1)).map (·.1)) ≤ 1 then l.1.inMacro C else [] := by
      refine congrArg List.flatten (List.map_congr_left fun i hi => ?_)
      have hi := List.mem_range.mp hi
      rw [List.getElem?_append_left hi, List.take_append_of_le_length (by omega)]
    rw [e1, ← h1 g, List.getElem?_append_right (Nat.le_refl _), Nat.sub_self, List.take_of_length_le (by simp)]
    simp only [List.getElem?_cons_zero, Option.elim_some, List.map_append]
    show (if g = l.2 then _ else _) = _
    have hn' : depth before (ls.map (·.1) ++ [l.1]) ≤ 1 ↔ ¬ l.1.nesting (define C st ls).nest > 1 := by rw [← hn]; omega
    by_cases hg : l.2 = g
    · rw [if_pos hg.symm]
      congr 1
      by_cases hx : l.1.nesting (define C st ls).nest > 1
      · rw [if_pos hx, if_neg (fun e => hn'.mp e.2 hx)]
      · rw [if_neg hx, if_pos ⟨hg, hn'.mpr hx⟩]
    · rw [if_neg (fun e => hg e.symm), if_neg (fun e => hg e.1), List.append_nil]

/-- A macro definition, in open code (read from the statement behind MACRO on) or in a file of its own (read from MACRO on): what is
recorded for it in each file, in order, is what the statements mention that are not inside inner definitions, and its name. Open code
gets nothing of it, and the next definition starts anew. -/
theorem C109_definition (C : Codes) (st : State) (hst : st.macroOccs = fun _ => []) (isExternal : Bool) (ls : List (Stmt × String))
    (h : ∀ i ≤ ls.length, 0 ≤ depth (if isExternal then 0 else 1) ((ls.take i).map (·.1)))
    (name : Bytes) (id : Nat) (file : String) (r : Rng) :
    (∀ g, ((define C (st.started isExternal) ls).finished name id file r).1 g = ((List.range ls.length).flatMap fun i =>
      (ls[i]?).elim [] fun l =>
        if l.2 = g ∧ depth (if isExternal then 0 else 1) ((ls.take (i + 1)).map (·.1)) ≤ 1 then l.1.inMacro C else []) ++
      if g = file then [⟨.instr, name, r, some id⟩] else []) ∧
    ((define C (st.started isExternal) ls).finished name id file r).2.openOccs = st.openOccs ∧
    ((define C (st.started isExternal) ls).finished name id file r).2.varDefs = st.varDefs ∧
    ((define C (st.started isExternal) ls).finished name id file r).2.macroOccs = (fun _ => []) ∧
    ((define C (st.started isExternal) ls).finished name id file r).2.inMacro = false := by
  obtain ⟨h1, h2, h3, -, -⟩ := define_eq C (st.started isExternal) (if isExternal then 0 else 1) rfl rfl ls h
  refine ⟨fun g => ?_, h2, h3, rfl, rfl⟩
  show FileOccs.add _ _ _ g = _
  unfold FileOccs.add
  rw [h1 g]
  show (if g = file then (st.macroOccs g ++ _) ++ _ else st.macroOccs g ++ _) = _
  rw [hst]
  split <;> simp

/-! ### declarations of variable symbols -/

theorem addVarDef_find (file : String) (ty : SetTy) (glob : Bool) (defs : List VarDef) (v : Var) (n : Bytes) :
    (addVarDef file ty glob defs v).find? (·.name = n) =
      (defs ++ (match v with | .basic m _ r => [⟨m, ty, glob, file, r.start⟩] | .created _ _ _ => [])).find? (·.name = n) := by
  cases v with
  | created _ _ _ => simp [addVarDef]
  | basic m s r =>
    simp only [addVarDef]
    split
    · next h =>
      obtain ⟨d, hd, he⟩ := List.any_eq_true.mp h
      have he : d.name = m := by simpa using he
      rw [List.find?_append]
      by_cases hn : m = n
      · have : (defs.find? (·.name = n)).isSome := List.find?_isSome.mpr ⟨d, hd, by simp [he, hn]⟩
        obtain ⟨x, hx⟩ := Option.isSome_iff_exists.mp this
        rw [hx]; rfl
      · simp [List.find?_cons, hn]
    · rfl

theorem addVarDef_nodup (file : String) (ty : SetTy) (glob : Bool) (defs : List VarDef) (v : Var) (h : (defs.map (·.name)).Nodup) :
    ((addVarDef file ty glob defs v).map (·.name)).Nodup := by
  cases v with
  | created _ _ _ => exact h
  | basic m s r =>
    simp only [addVarDef]
    split
    · exact h
    · next hn =>
      rw [List.map_append]
      refine List.nodup_append.mpr ⟨h, by simp, ?_⟩
      intro a ha b hb e
      obtain ⟨d, hd, rfl⟩ := List.mem_map.mp ha
      simp only [List.map_cons, List.map_nil, List.mem_singleton] at hb
      exact hn (List.any_eq_true.mpr ⟨d, hd, by simp [e, hb]⟩)

theorem addVarDefs_find (file : String) (ty : SetTy) (glob : Bool) (n : Bytes) (vs : List Var) : ∀ (defs : List VarDef),
    (vs.foldl (addVarDef file ty glob) defs).find? (·.name = n) = (defs ++ vs.flatMap (declOf file ty glob)).find? (·.name = n) := by
  induction vs with
  | nil => intro defs; simp
  | cons v vs ih =>
    intro defs
    rw [List.foldl_cons, ih, List.find?_append, addVarDef_find, List.flatMap_cons, ← List.append_assoc, List.find?_append (xs := _ ++ _)]
    rfl

theorem addVarDefs_nodup (file : String) (ty : SetTy) (glob : Bool) (vs : List Var) : ∀ (defs : List VarDef),
    (defs.map (·.name)).Nodup → ((vs.foldl (addVarDef file ty glob) defs).map (·.name)).Nodup := by
  induction vs with
  | nil => intro defs h; exact h
  | cons v vs ih => intro defs h; exact ih _ (addVarDef_nodup file ty glob defs v h)

/-- The type, globality and variable symbols of a declaration. -/
theorem varDefs_shape (file : String) (s : Stmt) :
    (s.declares file = [] ∧ ∀ defs, s.varDefs file defs = defs) ∨
    ∃ (ty : SetTy) (g : Bool) (vs : List Var), s.declares file = vs.flatMap (declOf file ty g) ∧ ∀ defs, s.varDefs file defs = vs.foldl (addVarDef file ty g) defs := by
  obtain ⟨lab, ins, fld, opc⟩ := s
  unfold Stmt.declares Stmt.varDefs
  dsimp only
  cases fld with
  | deferred vs =>
    refine Or.inl ⟨?_, fun _ => rfl⟩
    cases lab <;> simp
  | operands l =>
    dsimp only
    unfold setInstr lclInstr
    simp only [beq_iff_eq]
    have hset : ∀ ty : SetTy, ∃ vs : List Var,
        (match lab, Field.operands l with | .var v, .operands _ => [v] | _, _ => []).flatMap (declOf file ty false) =
          vs.flatMap (declOf file ty false) ∧
        ∀ defs, (match lab with | .var v => addVarDef file ty false defs v | _ => defs) = vs.foldl (addVarDef file ty false) defs := by
      intro ty
      cases lab with
      | var v => exact ⟨[v], rfl, fun _ => rfl⟩
      | _ => exact ⟨[], rfl, fun _ => rfl⟩
    split
    · right; obtain ⟨vs, h1, h2⟩ := hset .A; exact ⟨.A, false, vs, h1, h2⟩
    split
    · right; obtain ⟨vs, h1, h2⟩ := hset .B; exact ⟨.B, false, vs, h1, h2⟩
    split
    · right; obtain ⟨vs, h1, h2⟩ := hset .C; exact ⟨.C, false, vs, h1, h2⟩
    iterate 6 (split; · exact Or.inr ⟨_, _, _, rfl, fun _ => rfl⟩)
    exact Or.inl ⟨rfl, fun _ => rfl⟩

theorem varDefs_find (file : String) (s : Stmt) (defs : List VarDef) (n : Bytes) :
    (s.varDefs file defs).find? (·.name = n) = (defs ++ s.declares file).find? (·.name = n) := by
  rcases varDefs_shape file s with ⟨h1, h2⟩ | ⟨ty, g, vs, h1, h2⟩
  · rw [h1, h2, List.append_nil]
  · rw [h1, h2, addVarDefs_find]

theorem varDefs_nodup (file : String) (s : Stmt) (defs : List VarDef) (h : (defs.map (·.name)).Nodup) :
    ((s.varDefs file defs).map (·.name)).Nodup := by
  rcases varDefs_shape file s with ⟨-, h2⟩ | ⟨ty, g, vs, -, h2⟩
  · rw [h2]; exact h
  · rw [h2]; exact addVarDefs_nodup file ty g vs defs h

theorem analyze_varDefs (C : Codes) (st : State) (l : Line) :
    (st.analyze C l.stmt l.prov .ordinary l.file).varDefs =
      if l.prov = .macr then st.varDefs else l.stmt.varDefs l.file st.varDefs := by
  unfold State.analyze State.assign
  dsimp only
  split <;> split <;> rfl

/-- A variable symbol of open code has one definition: the first SETx, LCLx or GBLx statement of open code or of a member it copies that
declares it, in the order of processing. -/
theorem C109_declared (C : Codes) (ls : List Line) : ∀ (st : State), (st.varDefs.map (·.name)).Nodup →
    ((process C st ls).varDefs.map (·.name)).Nodup ∧
    ∀ n, (process C st ls).varDefs.find? (·.name = n) =
      (st.varDefs ++ (ls.filter fun l => l.prov ≠ .macr).flatMap fun l => l.stmt.declares l.file).find? (·.name = n) := by
  induction ls with
  | nil => intro st h; exact ⟨h, fun n => by simp [process]⟩
  | cons l ls ih =>
    intro st h
    have hs := analyze_varDefs C st l
    have hn : ((st.analyze C l.stmt l.prov .ordinary l.file).varDefs.map (·.name)).Nodup := by
      rw [hs]; split
      · exact h
      · exact varDefs_nodup _ _ _ h
    obtain ⟨h1, h2⟩ := ih _ hn
    refine ⟨h1, fun n => ?_⟩
    refine (h2 n).trans ?_
    rw [hs]
    by_cases hp : l.prov = .macr
    · rw [if_pos hp, List.filter_cons_of_neg (by simp [hp])]
    · rw [if_neg hp, List.filter_cons_of_pos (by simp [hp]), List.flatMap_cons, List.find?_append, varDefs_find, ← List.append_assoc,
        List.find?_append (xs := _ ++ _)]

end Verif.Mention
