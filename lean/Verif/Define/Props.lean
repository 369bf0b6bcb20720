import Verif.Define.Spec
import Verif.MacroDef.BodyProps

/-!
C117: go to definition and the text over symbols.
-/
namespace Verif.Define

open MacroDef

/-! ## The steps -/

theorem path_last {s : St} {p : List Loc} (h : s.path = some p) :
    (s.stack = [] → p.getLast? = some ⟨s.file, s.outer⟩) ∧
    (∀ f fs, s.stack = f :: fs → ∃ l, f.loc = some l ∧ p.getLast? = some l) := by
  unfold St.path at h
  constructor
  · intro he
    rw [he] at h
    simp at h
    simp [← h]
  · intro f fs he
    rw [he, List.reverse_cons, List.mapM_append] at h
    cases h1 : fs.reverse.mapM Frame.loc with
    | none => simp [h1] at h
    | some q =>
      cases h2 : f.loc with
      | none => simp [h1, h2] at h
      | some l =>
        refine ⟨l, rfl, ?_⟩
        simp [h1, h2] at h
        rw [← h, ← List.cons_append, List.getLast?_append]
        rfl

theorem addNest_some {s s' : St} (h : s.addNest = some s') : ∃ p l, s.path = some p ∧ p.getLast? = some l ∧ s' = s.nestAt p := by
  cases hp : s.path with
  | none => simp [St.addNest, hp] at h
  | some p =>
    cases hl : p.getLast? with
    | none => simp [St.addNest, hp, hl] at h
    | some l =>
      rw [addNest_eq hp hl] at h
      exact ⟨p, l, rfl, hl, (Option.some.inj h).symm⟩

/-- `process` with the state behind the sequence symbol named. -/
theorem process_shape (lib : Lib) (s : St) (t : Stmt) (q : St) (hq : q = (s.ready t).sequenceSymbol t) : s.process lib t =
    match t.op with
    | .copy m => (St.addNest { q with defn := q.defn ++ [t.asAnop] }).bind fun s' => some { s'.enterCopy lib t m with line := (s'.enterCopy lib t m).line + 1 }
    | .mbegin => St.addNest { q with nest := q.nest + 1, line := q.line + 1, defn := q.defn ++ [t] }
    | .mend => if q.nest = 0 then none
      else St.addNest { q with nest := q.nest - 1, finished := decide (q.nest - 1 = 0), line := q.line + 1, defn := q.defn ++ [t] }
    | _ => St.addNest { q with line := q.line + 1, defn := q.defn ++ [t] } := by
  subst hq; rfl

theorem process_path {lib : Lib} {s s' : St} {t : Stmt} (h : s.process lib t = some s') : ∃ p l, (s.ready t).path = some p ∧ p.getLast? = some l := by
  obtain ⟨⟨h1, h2, h3⟩, h4, h5, h6, -⟩ := seqSym_same (s.ready t) t
  rw [process_shape lib s t _ rfl] at h
  generalize (s.ready t).sequenceSymbol t = q at *
  have key : ∀ (a b : St), a.addNest = some b → a.stack = q.stack → a.outer = q.outer → a.file = q.file →
      ∃ p l, (s.ready t).path = some p ∧ p.getLast? = some l := by
    intro a b hb' ha hb hc
    obtain ⟨p, l, hp, hl, -⟩ := addNest_some hb'
    refine ⟨p, l, ?_, hl⟩
    rw [← hp]; unfold St.path; rw [ha, hb, hc, h1, h3, h6]
  cases hc : t.op with
  | copy m =>
    rw [hc] at h
    simp only at h
    obtain ⟨b, hb, -⟩ := Option.bind_eq_some_iff.1 h
    exact key _ _ hb rfl rfl rfl
  | mbegin => rw [hc] at h; simp only at h; exact key _ _ h rfl rfl rfl
  | mend =>
    rw [hc] at h
    simp only at h
    by_cases hz : q.nest = 0
    · rw [if_pos hz] at h; exact absurd h (by simp)
    · rw [if_neg hz] at h; exact key _ _ h rfl rfl rfl
  | anop => rw [hc] at h; simp only at h; exact key _ _ h rfl rfl rfl
  | other x => rw [hc] at h; simp only at h; exact key _ _ h rfl rfl rfl

/-- A statement is processed like one with its place. -/
theorem process_emit {lib : Lib} {s s' : St} {t : Stmt} (h : s.process lib t = some s') :
    ∃ p l r x, (s.ready t).path = some p ∧ p.getLast? = some l ∧ s' = ((s.ready t).emit ⟨t, p, r⟩).on x := by
  obtain ⟨p, l, hp, hl⟩ := process_path h
  have hon : ∀ a : St, a = a.on a.stack := fun a => rfl
  by_cases hop : ∃ m, t.op = .copy m
  · obtain ⟨m, hm⟩ := hop
    rw [process_copy lib s t p l hp hl m hm] at h
    have h := Option.some.inj h
    cases m with
    | none => exact ⟨p, l, _, _, hp, hl, h.symm.trans (hon _)⟩
    | some n =>
      simp only at h
      cases hf : lib.find n with
      | none => rw [hf] at h; exact ⟨p, l, _, _, hp, hl, h.symm.trans (hon _)⟩
      | some m =>
        rw [hf] at h
        simp only at h
        by_cases hc : s.opened.contains n = true
        · rw [if_pos hc] at h; exact ⟨p, l, _, _, hp, hl, h.symm.trans (hon _)⟩
        · rw [if_neg hc] at h; exact ⟨p, l, _, _, hp, hl, h.symm⟩
  · have hm : t.op = .mend → s.nest ≠ 0 := by
      intro ho hz
      have hn : ((s.ready t).sequenceSymbol t).nest = 0 := by
        rw [(seqSym_same (s.ready t) t).2.1]; unfold St.ready; split <;> exact hz
      rw [process_shape lib s t _ rfl, ho] at h
      simp only [hn, if_true] at h
      exact absurd h (by simp)
    rw [process_plain lib s t p l hp hl (fun m hm => hop ⟨m, hm⟩) hm none] at h
    exact ⟨p, l, _, _, hp, hl, (Option.some.inj h).symm.trans (hon _)⟩

/-- What a statement does to the parts the symbols depend on. -/
theorem process_facts {lib : Lib} {s s' : St} {t : Stmt} (h : s.process lib t = some s') :
    s'.defn = s.defn ++ [t.executed] ∧ s'.nest = nestAfter s.nest t ∧ s'.line = s.line + 1 ∧
    s'.labels = (s.sequenceSymbol t).labels ∧ s'.file = s.file ∧
    ∃ p l, s'.nests = s.nests ++ [p] ∧ p.getLast? = some l ∧
      (s.stack = [] → l = ⟨s.file, t.line⟩) ∧ (∀ f fs, s.stack = f :: fs → f.loc = some l) := by
  obtain ⟨p, l, r, x, hp, hl, rfl⟩ := process_emit h
  obtain ⟨hd, hn, hli, -⟩ := emit_facts (s.ready t) ⟨t, p, r⟩
  obtain ⟨⟨hfi, -, -⟩, hne, -⟩ := emit_same (s.ready t) ⟨t, p, r⟩
  have hla := emit_labels (s.ready t) ⟨t, p, r⟩
  obtain ⟨q1, q2⟩ := path_last hp
  have e : (s.ready t).defn = s.defn ∧ (s.ready t).nests = s.nests ∧ (s.ready t).line = s.line ∧ (s.ready t).nest = s.nest ∧
      (s.ready t).file = s.file ∧ (s.ready t).stack = s.stack ∧ (s.ready t).labels = s.labels ∧ (s.stack = [] → (s.ready t).outer = t.line) := by
    unfold St.ready
    cases hs : s.stack <;> simp [hs]
  obtain ⟨e1, e2, e3, e4, e5, e6, e7, e8⟩ := e
  refine ⟨hd.trans (by rw [e1]), hne.trans (by rw [e4]), hli.trans (by rw [e3]), hla.trans ?_, hfi.trans e5, p, l, hn.trans (by rw [e2]), hl, ?_, ?_⟩
  · rw [seqSym_labels, seqSym_labels, e7, e4, e3]
  · intro hs
    have := q1 (e6.trans hs)
    rw [hl, e5, e8 hs] at this
    exact Option.some.inj this
  · intro f fs hs
    obtain ⟨l', h1, h2⟩ := q2 f fs (e6.trans hs)
    rw [h1, ← h2, hl]

/-! ## The invariant -/

/-- The declarations of a statement. -/
def plainDecls (decls : Decls) (t : Stmt) : List Decl :=
  match t.op with
  | .other k => (decls k).filter (!·.created)
  | _ => []

/-- The record of a declaration. -/
def Decl.toVar (d : Decl) (i : Nat) : VarDef := ⟨d.name, some d.type, d.global, i, d.line, d.column⟩

/-- All declarations of a list of statements. -/
def collect (decls : Decls) (ts : List Stmt) : List VarDef :=
  (List.range ts.length).flatMap fun i =>
    if (ts.take i).foldl nestAfter 1 ≤ 1 then ((ts[i]?).toList.flatMap (plainDecls decls)).map (·.toVar i) else []

theorem collect_append (decls : Decls) (ts : List Stmt) (t : Stmt) : collect decls (ts ++ [t]) =
    collect decls ts ++ (if ts.foldl nestAfter 1 ≤ 1 then (plainDecls decls t).map (·.toVar ts.length) else []) := by
  unfold collect
  rw [List.length_append, List.length_singleton, List.range_succ, List.flatMap_append]
  congr 1
  · rw [List.flatMap_def, List.flatMap_def]
    refine congrArg _ (List.map_congr_left fun i hi => ?_)
    rw [List.mem_range] at hi
    rw [List.take_append_of_le_length (by omega), List.getElem?_append_left hi]
  · simp

theorem addSet_find (nest line : Nat) (d : Decl) (n : Name) (vars : List VarDef) :
    (addSet nest line vars d).find? (·.name == n) =
      (vars ++ (if nest ≤ 1 ∧ d.created = false then [d.toVar line] else [])).find? (·.name == n) := by
  unfold addSet
  by_cases h1 : nest > 1
  · simp [h1, show ¬ nest ≤ 1 by omega]
  by_cases h2 : d.created = true
  · simp [h1, h2]
  by_cases h3 : vars.any (·.name == d.name) = true
  · rw [if_neg h1, if_neg h2, if_pos h3, if_pos ⟨by omega, by simpa using h2⟩, List.find?_append]
    cases hf : vars.find? (·.name == n) with
    | some v => rfl
    | none =>
      rw [List.find?_eq_none] at hf
      obtain ⟨v, hv, he⟩ := List.any_eq_true.1 h3
      have := hf v hv
      have hne : d.name ≠ n := by
        intro e
        rw [e] at he
        exact this he
      simp [Decl.toVar, hne]
  · rw [if_neg h1, if_neg h2, if_neg h3, if_pos ⟨by omega, by simpa using h2⟩]
    rfl

theorem foldl_addSet_find (nest line : Nat) (n : Name) (ds : List Decl) : ∀ vars : List VarDef,
    (ds.foldl (addSet nest line) vars).find? (·.name == n) =
      (vars ++ (if nest ≤ 1 then (ds.filter (!·.created)).map (·.toVar line) else [])).find? (·.name == n) := by
  induction ds with
  | nil => intro vars; simp
  | cons d ds ih =>
    intro vars
    rw [List.foldl_cons, ih, List.find?_append, addSet_find, List.find?_append, List.find?_append]
    by_cases h1 : nest ≤ 1
    · by_cases h2 : d.created = true
      · simp [h1, h2]
      · simp [h1, h2, List.find?_cons]
        cases hf : vars.find? (·.name == n) with
        | some v => simp
        | none => by_cases hn : (Decl.toVar d line).name == n <;> simp [hn]
    · simp [h1]

theorem addSets_find (decls : Decls) (nest line : Nat) (t : Stmt) (n : Name) (vars : List VarDef) :
    (addSets decls nest line vars t).find? (·.name == n) =
      (vars ++ (if nest ≤ 1 then (plainDecls decls t).map (·.toVar line) else [])).find? (·.name == n) := by
  unfold addSets plainDecls
  cases t.op with
  | other k => exact foldl_addSet_find nest line n (decls k) vars
  | _ => simp

/-- The invariant of the collection. -/
structure Inv (decls : Decls) (params : List VarDef) (v : VRun) (n : Name) : Prop where
  line : v.run.st.line = v.run.st.defn.length
  nests : v.run.st.nests.length = v.run.st.defn.length
  nest : v.run.st.nest = v.run.st.defn.foldl nestAfter 1
  vars : v.vars.find? (·.name == n) = (params ++ collect decls v.run.st.defn).find? (·.name == n)
  seqs : v.seqs.map some = v.run.st.labels.map (fun l => ((v.run.st.nests[l.2]?).bind (·.getLast?)).map fun p => (l.1, (⟨p.file, p.line, 0⟩ : Place)))
  labels : ∀ l ∈ v.run.st.labels, l.2 < v.run.st.nests.length

/-- A step either leaves a member, or processes the current statement. -/
theorem step_cases {lib : Lib} {r r' : Run} (h : r.step lib = .more r') :
    (current r = none ∧ ∃ x, r'.st = r.st.on x) ∨
    (∃ file t p, current r = some (file, t) ∧ r'.st.defn = r.st.defn ++ [t.executed] ∧ r'.st.nest = nestAfter r.st.nest t ∧
      r'.st.line = r.st.line + 1 ∧ r'.st.labels = (r.st.sequenceSymbol t).labels ∧ r'.st.nests = r.st.nests ++ [p] ∧
      p.getLast? = some ⟨file, t.line⟩) := by
  unfold Run.step at h
  unfold current
  by_cases hf : r.st.finished = true
  · rw [if_pos hf] at h; exact absurd h (by simp)
  rw [if_neg hf] at h ⊢
  cases hs : r.st.stack with
  | nil =>
    rw [hs] at h
    simp only at h ⊢
    cases hr : r.rest with
    | nil => rw [hr] at h; exact absurd h (by simp)
    | cons t ts =>
      rw [hr] at h
      simp only at h
      cases hp : r.st.process lib t with
      | none => rw [hp] at h; exact absurd h (by simp)
      | some s' =>
        rw [hp] at h
        obtain ⟨a1, a2, a3, a4, a5, p, l, a6, a7, a8, -⟩ := process_facts hp
        have := Next.more.inj h
        subst this
        exact .inr ⟨r.st.file, t, p, rfl, a1, a2, a3, a4, a6, by rw [a7, a8 hs]⟩
  | cons f fs =>
    rw [hs] at h
    simp only at h ⊢
    cases hr : f.stmts[f.next]? with
    | none =>
      rw [hr] at h
      have := Next.more.inj h
      subst this
      exact .inl ⟨rfl, fs, rfl⟩
    | some t =>
      rw [hr] at h
      simp only at h
      cases hp : St.process lib { r.st with stack := { f with next := f.next + 1 } :: fs } t with
      | none => rw [hp] at h; exact absurd h (by simp)
      | some s' =>
        rw [hp] at h
        obtain ⟨a1, a2, a3, a4, a5, p, l, a6, a7, -, a8⟩ := process_facts hp
        have := Next.more.inj h
        subst this
        have hl := a8 _ _ rfl
        rw [Frame.loc] at hl
        simp only [hr, Option.map_some, Option.some.injEq] at hl
        refine .inr ⟨f.file, t, p, rfl, a1, a2, a3, ?_, a6, by rw [a7, hl]⟩
        rw [a4, seqSym_labels, seqSym_labels]

theorem nestAfter_executed (c : Nat) (t : Stmt) : nestAfter c t.executed = nestAfter c t := by
  unfold nestAfter Stmt.executed
  cases h : t.op <;> simp [h]

theorem plainDecls_executed (decls : Decls) (t : Stmt) : plainDecls decls t.executed = plainDecls decls t := by
  unfold plainDecls Stmt.executed
  cases h : t.op <;> simp [h]

theorem inv_step {lib : Lib} {decls : Decls} {params : List VarDef} {v v' : VRun} {n : Name} (hi : Inv decls params v n)
    (h : v.step lib decls = .more v') : Inv decls params v' n := by
  unfold VRun.step at h
  cases hr : v.run.step lib with
  | fault => rw [hr] at h; exact absurd h (by simp)
  | done r => rw [hr] at h; exact absurd h (by simp)
  | more r =>
    rw [hr] at h
    simp only at h
    rcases step_cases hr with ⟨hc, x, hx⟩ | ⟨file, t, p, hc, b1, b2, b3, b4, b5, b6⟩
    · rw [hc] at h
      have := VNext.more.inj h
      subst this
      have e : r.st.defn = v.run.st.defn ∧ r.st.line = v.run.st.line ∧ r.st.nests = v.run.st.nests ∧ r.st.nest = v.run.st.nest ∧ r.st.labels = v.run.st.labels := by
        rw [hx]; exact ⟨rfl, rfl, rfl, rfl, rfl⟩
      obtain ⟨e1, e2, e3, e4, e5⟩ := e
      constructor <;> simp only [e1, e2, e3, e4, e5]
      · exact hi.line
      · exact hi.nests
      · exact hi.nest
      · exact hi.vars
      · exact hi.seqs
      · exact hi.labels
    · rw [hc] at h
      have := VNext.more.inj h
      subst this
      have hold : v.run.st.labels.map (fun l => (((v.run.st.nests ++ [p])[l.2]?).bind (·.getLast?)).map fun p => (l.1, (⟨p.file, p.line, 0⟩ : Place))) =
          v.run.st.labels.map (fun l => ((v.run.st.nests[l.2]?).bind (·.getLast?)).map fun p => (l.1, (⟨p.file, p.line, 0⟩ : Place))) := by
        refine List.map_congr_left fun l hl => ?_
        rw [List.getElem?_append_left (hi.labels l hl)]
      have hlen : v.run.st.line = v.run.st.nests.length := by rw [hi.line, hi.nests]
      have hany : ∀ m, v.seqs.any (·.1 == m) = v.run.st.labels.any (·.1 == m) := by
        intro m
        have h1 : (v.seqs.map some).any (fun o => o.elim false (·.1 == m)) = v.seqs.any (·.1 == m) := by rw [List.any_map]; rfl
        rw [← h1, hi.seqs, List.any_map, Bool.eq_iff_iff, List.any_eq_true, List.any_eq_true]
        refine exists_congr fun l => and_congr_right fun hl => ?_
        have hmem : ((v.run.st.nests[l.2]?).bind (·.getLast?)).map (fun p => (l.1, (⟨p.file, p.line, 0⟩ : Place))) ∈ v.seqs.map some := by
          rw [hi.seqs]
          exact List.mem_map.2 ⟨l, hl, rfl⟩
        obtain ⟨x, -, hx⟩ := List.mem_map.1 hmem
        cases hb : (v.run.st.nests[l.2]?).bind (·.getLast?) with
        | none => rw [hb] at hx; simp at hx
        | some q =>
          show (Option.elim (Option.map _ ((v.run.st.nests[l.2]?).bind (·.getLast?))) false _ = true) ↔ _
          rw [hb]
          simp
      refine ⟨?_, ?_, ?_, ?_, ?_, ?_⟩
      · simp only [b1, b3, hi.line]; simp
      · simp only [b1, b5]; simp [hi.nests]
      · simp only [b1, b2, hi.nest]; simp [nestAfter_executed]
      · simp only [b1]
        rw [addSets_find, collect_append, List.find?_append, hi.vars, ← List.append_assoc, ← List.find?_append, plainDecls_executed, ← hi.nest, ← hi.line]
      · simp only [b4, b5]
        rw [seqSym_labels, List.map_append, hold, ← hi.seqs]
        unfold addSeq
        cases ht : t.label with
        | none => simp
        | some m =>
          simp only
          rw [hany m]
          by_cases h1 : v.run.st.nest = 1
          · by_cases h2 : v.run.st.labels.any (·.1 == m) = true
            · simp [h1, h2]
            · simp [h1, h2, hlen, b6]
          · simp [h1]
      · simp only [b4, b5]
        rw [seqSym_labels]
        intro l hl
        rw [List.length_append, List.length_singleton]
        rcases List.mem_append.1 hl with hl | hl
        · have := hi.labels l hl; omega
        · cases ht : t.label with
          | none => rw [ht] at hl; simp at hl
          | some m =>
            rw [ht] at hl
            simp only at hl
            split at hl
            · simp at hl; subst hl; simp; omega
            · simp at hl

theorem step_done_st {lib : Lib} {r r' : Run} (h : r.step lib = .done r') : r'.st = { r.st with diags := r'.st.diags } := by
  unfold Run.step at h
  by_cases hf : r.st.finished = true
  · rw [if_pos hf] at h
    have := Next.done.inj h
    rw [← this]
  rw [if_neg hf] at h
  cases hs : r.st.stack with
  | nil =>
    rw [hs] at h
    simp only at h
    cases hr : r.rest with
    | nil =>
      rw [hr] at h
      have := Next.done.inj h
      rw [← this]
    | cons t ts =>
      rw [hr] at h
      simp only at h
      cases hp : r.st.process lib t <;> rw [hp] at h <;> exact absurd h (by simp)
  | cons f fs =>
    rw [hs] at h
    simp only at h
    cases hr : f.stmts[f.next]? with
    | none => rw [hr] at h; exact absurd h (by simp)
    | some t =>
      rw [hr] at h
      simp only at h
      cases hp : St.process lib { r.st with stack := { f with next := f.next + 1 } :: fs } t <;> rw [hp] at h <;> exact absurd h (by simp)

theorem go_run {lib : Lib} {decls : Decls} {params : List VarDef} {n : Name} (k : Nat) : ∀ (v : VRun) (r : Run), v.run.run lib k = some (.done r) →
    ∃ v', v.go lib decls k = some (.done v') ∧ v'.run = r ∧ (Inv decls params v n → Inv decls params v' n) := by
  induction k with
  | zero => intro v r h; exact absurd h (by simp [Run.run])
  | succ k ih =>
    intro v r h
    rw [Run.run] at h
    rw [VRun.go]
    cases hr : v.run.step lib with
    | fault => rw [hr] at h; exact absurd h (by simp)
    | done r' =>
      rw [hr] at h
      have : r' = r := by simpa using h
      subst this
      refine ⟨{ v with run := r' }, ?_, rfl, ?_⟩
      · simp only [VRun.step, hr]
      · intro hi
        have hst := step_done_st hr
        have e : r'.st.defn = v.run.st.defn ∧ r'.st.line = v.run.st.line ∧ r'.st.nests = v.run.st.nests ∧ r'.st.nest = v.run.st.nest ∧ r'.st.labels = v.run.st.labels := by
          rw [hst]; exact ⟨rfl, rfl, rfl, rfl, rfl⟩
        obtain ⟨e1, e2, e3, e4, e5⟩ := e
        constructor <;> simp only [e1, e2, e3, e4, e5]
        · exact hi.line
        · exact hi.nests
        · exact hi.nest
        · exact hi.vars
        · exact hi.seqs
        · exact hi.labels
    | more r' =>
      rw [hr] at h
      simp only at h
      have : ∃ v1, v.step lib decls = .more v1 ∧ v1.run = r' := by
        unfold VRun.step
        rw [hr]
        cases hc : current v.run with
        | none => exact ⟨_, rfl, rfl⟩
        | some c => obtain ⟨f, t⟩ := c; exact ⟨_, rfl, rfl⟩
      obtain ⟨v1, hv1, rfl⟩ := this
      obtain ⟨v', g1, g2, g3⟩ := ih v1 r h
      refine ⟨v', ?_, g2, fun hi => g3 (inv_step hi hv1)⟩
      rw [hv1]
      exact g1

theorem dep_fold (ps : List Placed) : ∀ (c e : Nat), dep (ps.map (·.stmt)) c = some e → (ps.map (·.stmt.executed)).foldl nestAfter c = e := by
  induction ps with
  | nil => intro c e h; simpa [dep] using h
  | cons p ps ih =>
    intro c e h
    rw [List.map_cons, List.foldl_cons, nestAfter_executed]
    apply ih
    rw [List.map_cons, dep] at h
    unfold nestAfter
    cases ho : p.stmt.op with
    | mend =>
      rw [ho] at h
      by_cases hc : c = 0
      · simp [hc] at h
      · simpa [hc] using h
    | _ => rw [ho] at h; exact h

theorem body_declarations (decls : Decls) (ps : List Placed) (e : Nat) (h : dep (ps.map (·.stmt)) 1 = some e) :
    collect decls (ps.map (·.stmt.executed)) = (declarations decls ps).map fun d => d.2.toVar d.1 := by
  unfold collect declarations
  rw [List.length_map, List.map_flatMap, List.flatMap_def, List.flatMap_def]
  refine congrArg _ (List.map_congr_left fun i hi => ?_)
  rw [List.mem_range] at hi
  have hd : ((ps.map (·.stmt.executed)).take i).foldl nestAfter 1 = depthAt ps i := by
    rw [← List.map_take]
    exact dep_fold _ _ _ (dep_depthAt h i (by omega))
  rw [hd, declared, List.getElem?_map]
  by_cases h1 : depthAt ps i ≤ 1
  · rw [if_pos h1, if_pos h1]
    cases hp : ps[i]? with
    | none => rfl
    | some p =>
      simp only [Option.map_some, Option.toList_some, List.flatMap_cons, List.flatMap_nil, List.append_nil, plainDecls_executed]
      unfold plainDecls
      cases p.stmt.op <;> simp
  · rw [if_neg h1, if_neg h1]; rfl

theorem go_more {lib : Lib} {decls : Decls} (k : Nat) : ∀ (v : VRun) (x : VNext), v.go lib decls k = some x → ∀ m, v.go lib decls (k + m) = some x := by
  induction k with
  | zero => intro v x h; exact absurd h (by simp [VRun.go])
  | succ k ih =>
    intro v x h m
    rw [show k + 1 + m = (k + m) + 1 by omega, VRun.go]
    rw [VRun.go] at h
    cases hs : v.step lib decls with
    | more v' =>
      rw [hs] at h
      exact ih v' x h m
    | done v' => rw [hs] at h; exact h
    | fault => rw [hs] at h; exact h

/-- The result of a definition. -/
theorem go_body (lib : Lib) (decls : Decls) (file : File) (above : List Name) (params : List Param) (ts : List Stmt) :
    ∃ k v, (∀ m, (startV file above params ts).go lib decls (k + m) = some (.done v)) ∧
      v.run.st.nests = (bodyOf lib file above ts).map (·.path) ∧
      (∀ n, v.vars.find? (·.name == n) = (((params.map fun p => (⟨p.name, none, false, 0, p.line, p.column⟩ : VarDef)) ++
        (declarations decls (bodyOf lib file above ts)).map fun d => d.2.toVar d.1)).find? (·.name == n)) ∧
      v.seqs.map some = v.run.st.labels.map (fun l => ((v.run.st.nests[l.2]?).bind (·.getLast?)).map fun p => (l.1, (⟨p.file, p.line, 0⟩ : Place))) ∧
      LabelsOf v.run.st.labels (bodyOf lib file above ts) := by
  obtain ⟨k, hk⟩ := run_final lib file above ts
  obtain ⟨f1, f2, f3, -⟩ := final_facts lib file above ts
  obtain ⟨e, he, -⟩ := body_dep lib file above ts
  have hinit : ∀ n, Inv decls (params.map fun p => (⟨p.name, none, false, 0, p.line, p.column⟩ : VarDef)) (startV file above params ts) n := by
    intro n
    refine ⟨rfl, rfl, rfl, ?_, rfl, ?_⟩
    · simp [startV, start, collect]
    · intro l hl; simp [startV, start] at hl
  have hgo := fun m n => go_run (decls := decls) (params := params.map fun p => (⟨p.name, none, false, 0, p.line, p.column⟩ : VarDef)) (n := n) (k + m)
    (startV file above params ts) _ (hk m)
  obtain ⟨v, hv, hvr, -⟩ := hgo 0 0
  have hall : ∀ m, (startV file above params ts).go lib decls (k + m) = some (.done v) := by
    intro m
    exact go_more _ _ _ hv m
  have hst : v.run.st.defn = (final lib file above ts).defn ∧ v.run.st.nests = (final lib file above ts).nests ∧ v.run.st.labels = (final lib file above ts).labels := by
    rw [hvr]
    cases (split 0 ts).2 <;> exact ⟨rfl, rfl, rfl⟩
  obtain ⟨s1, s2, s3⟩ := hst
  have hinv : ∀ n, Inv decls (params.map fun p => (⟨p.name, none, false, 0, p.line, p.column⟩ : VarDef)) v n := by
    intro n
    obtain ⟨v', hv', -, hi⟩ := hgo 0 n
    rw [hv] at hv'
    have : v = v' := by simpa using hv'
    subst this
    exact hi (hinit n)
  refine ⟨k, v, hall, s2.trans f2, ?_, (hinv 0).seqs, by rw [s3]; exact f3⟩
  intro n
  rw [(hinv n).vars, s1, f1, body_declarations decls _ e he]

/-! ## Where statements are -/

theorem expand_last (lib : Lib) (d : Nat) : ∀ (ts : List Stmt) (opened : List Name) (path : List Loc) (file : File) (p : Placed),
    p ∈ expand lib d opened path file ts → ∃ f, p.path.getLast? = some ⟨f, p.stmt.line⟩ := by
  induction d with
  | zero => intro ts opened path file p h; simp [expand] at h
  | succ d ih =>
    intro ts opened path file p h
    rw [expand_eq, List.mem_flatMap] at h
    obtain ⟨t, -, h⟩ := h
    have one : ∀ r, p ∈ [(⟨t, path ++ [⟨file, t.line⟩], r⟩ : Placed)] → ∃ f, p.path.getLast? = some ⟨f, p.stmt.line⟩ := by
      intro r hp
      rw [List.mem_singleton] at hp
      subst hp
      exact ⟨file, by simp⟩
    unfold expandOne at h
    cases ho : t.op with
    | copy m =>
      rw [ho] at h
      cases m with
      | none => exact one _ h
      | some n =>
        simp only at h
        cases hf : lib.find n with
        | none => rw [hf] at h; exact one _ h
        | some m =>
          rw [hf] at h
          simp only at h
          by_cases hn : n ∈ opened
          · rw [if_pos hn] at h; exact one _ h
          · rw [if_neg hn] at h
            rcases List.mem_cons.1 h with h | h
            · exact one none (by simpa using h)
            · exact ih _ _ _ _ _ h
    | mbegin => rw [ho] at h; exact one _ h
    | mend => rw [ho] at h; exact one _ h
    | anop => rw [ho] at h; exact one _ h
    | other x => rw [ho] at h; exact one _ h

theorem body_last {lib : Lib} {file : File} {above : List Name} {ts : List Stmt} {i : Nat} {p : Placed} (h : (bodyOf lib file above ts)[i]? = some p) :
    ∃ f, fileAt (bodyOf lib file above ts) i = some f ∧ p.path.getLast? = some ⟨f, p.stmt.line⟩ := by
  obtain ⟨f, hf⟩ := expand_last lib _ _ _ _ _ p (List.mem_of_getElem? h)
  exact ⟨f, by simp [fileAt, h, hf], hf⟩

theorem body_first (lib : Lib) (file : File) (above : List Name) (ts : List Stmt) (hne : ts ≠ []) :
    ∃ p l, (bodyOf lib file above ts)[0]? = some p ∧ p.path = [⟨file, l⟩] := by
  cases ts with
  | nil => exact absurd rfl hne
  | cons t ts =>
    have hs : ∃ r, (split 0 (t :: ts)).1 = t :: r := by
      unfold split
      cases t.op <;> simp
    obtain ⟨r, hr⟩ := hs
    unfold bodyOf
    rw [hr, expand_eq, List.flatMap_cons]
    have : ∃ x xs, expandOne lib lib.length above [] file t = (⟨t, [⟨file, t.line⟩], x⟩ : Placed) :: xs := by
      unfold expandOne
      cases t.op with
      | copy m =>
        cases m with
        | none => exact ⟨_, _, rfl⟩
        | some n =>
          simp only
          cases lib.find n with
          | none => exact ⟨_, _, rfl⟩
          | some m =>
            simp only
            by_cases hn : n ∈ above
            · rw [if_pos hn]; exact ⟨_, _, rfl⟩
            · rw [if_neg hn]; exact ⟨_, _, rfl⟩
      | mbegin => exact ⟨_, _, rfl⟩
      | mend => exact ⟨_, _, rfl⟩
      | anop => exact ⟨_, _, rfl⟩
      | other x => exact ⟨_, _, rfl⟩
    obtain ⟨x, xs, hx⟩ := this
    rw [hx]
    exact ⟨_, _, rfl, rfl⟩

theorem find_params (params : List Param) (n : Name) :
    (params.map fun p => (⟨p.name, none, false, 0, p.line, p.column⟩ : VarDef)).find? (·.name == n) =
      (params.find? (·.name == n)).map fun p => ⟨p.name, none, false, 0, p.line, p.column⟩ := by
  rw [List.find?_map]; rfl

theorem find_decls (ds : List (Nat × Decl)) (n : Name) : (ds.map fun d => d.2.toVar d.1).find? (·.name == n) =
    (ds.find? (·.2.name == n)).map fun d => d.2.toVar d.1 := by
  rw [List.find?_map]; rfl

/-! ## C117 -/

/-- C117. Go to definition on a variable symbol of a macro: a parameter is found in the prototype; any other symbol is found where the first `SETx`, `LCLx` or `GBLx`
statement of the macro that is not in an inner definition names it, in the file that statement is written in, however deep it was copied; a symbol without such a
statement is not found. The text over the symbol tells the kind of the same declaration. -/
theorem C117_variable (lib : Lib) (decls : Decls) (file : File) (above : List Name) (params : List Param) (ts : List Stmt) (hne : ts ≠ []) :
    ∃ k v, (∀ m, (startV file above params ts).go lib decls (k + m) = some (.done v)) ∧ ∀ n,
      (∀ p, params.find? (·.name == n) = some p →
        findVar v.vars v.run.st.nests n = .found ⟨file, p.line, p.column⟩ ∧ (v.vars.find? (·.name == n)).map (·.type) = some none) ∧
      (∀ i d, params.find? (·.name == n) = none → (declarations decls (bodyOf lib file above ts)).find? (·.2.name == n) = some (i, d) →
        ∃ f, fileAt (bodyOf lib file above ts) i = some f ∧ findVar v.vars v.run.st.nests n = .found ⟨f, d.line, d.column⟩ ∧
          (v.vars.find? (·.name == n)).map (·.type) = some (some d.type)) ∧
      (params.find? (·.name == n) = none → (declarations decls (bodyOf lib file above ts)).find? (·.2.name == n) = none →
        findVar v.vars v.run.st.nests n = .nothing ∧ v.vars.find? (·.name == n) = none) := by
  obtain ⟨k, v, hv, hn, hf, -⟩ := go_body lib decls file above params ts
  refine ⟨k, v, hv, fun n => ?_⟩
  have hfn := hf n
  rw [List.find?_append, find_params, find_decls] at hfn
  obtain ⟨p0, l0, hp0, hl0⟩ := body_first lib file above ts hne
  refine ⟨fun p hp => ?_, fun i d hp hd => ?_, fun hp hd => ?_⟩
  · rw [hp] at hfn
    have hfn : v.vars.find? (·.name == n) = some ⟨p.name, none, false, 0, p.line, p.column⟩ := hfn
    refine ⟨?_, by rw [hfn]; rfl⟩
    unfold findVar
    rw [hfn]
    simp [varPlace, hn, hp0, hl0]
  · rw [hp, hd] at hfn
    have hfn : v.vars.find? (·.name == n) = some (d.toVar i) := hfn
    have hi : i < (bodyOf lib file above ts).length := by
      have := List.mem_of_find?_eq_some hd
      unfold declarations at this
      rw [List.mem_flatMap] at this
      obtain ⟨j, hj, hm⟩ := this
      rw [List.mem_map] at hm
      obtain ⟨d', -, he⟩ := hm
      rw [List.mem_range] at hj
      have : j = i := congrArg Prod.fst he
      omega
    obtain ⟨f, hf1, hf2⟩ := body_last (List.getElem?_eq_getElem hi)
    refine ⟨f, hf1, ?_, by rw [hfn]; rfl⟩
    unfold findVar
    rw [hfn]
    simp only [varPlace, hn, Decl.toVar, List.getElem?_map, List.getElem?_eq_getElem hi, Option.map_some, Option.bind_some, hf2]
  · rw [hp, hd] at hfn
    have hfn : v.vars.find? (·.name == n) = none := hfn
    refine ⟨?_, hfn⟩
    unfold findVar
    rw [hfn]

/-- C117. Go to definition on a sequence symbol of a macro: the first statement with the symbol in its name field that is not in an inner definition, in the file it
is written in; without one nothing is found. -/
theorem C117_sequence (lib : Lib) (decls : Decls) (file : File) (above : List Name) (params : List Param) (ts : List Stmt) :
    ∃ k v, (∀ m, (startV file above params ts).go lib decls (k + m) = some (.done v)) ∧ ∀ n,
      (∀ i p, declares (bodyOf lib file above ts) i = some n → (∀ j, j < i → declares (bodyOf lib file above ts) j ≠ some n) →
        (bodyOf lib file above ts)[i]? = some p → ∃ f, fileAt (bodyOf lib file above ts) i = some f ∧
          v.seqs.find? (·.1 == n) = some (n, ⟨f, p.stmt.line, 0⟩)) ∧
      ((∀ i, declares (bodyOf lib file above ts) i ≠ some n) → v.seqs.find? (·.1 == n) = none) := by
  obtain ⟨k, v, hv, hn, -, hs, hl⟩ := go_body lib decls file above params ts
  refine ⟨k, v, hv, fun n => ⟨fun i p hi hj hp => ?_, fun hno => ?_⟩⟩
  · obtain ⟨f, hf1, hf2⟩ := body_last hp
    refine ⟨f, hf1, ?_⟩
    have hmem : (n, i) ∈ v.run.st.labels := (hl n i).2 ⟨hi, hj⟩
    have hin : some (n, (⟨f, p.stmt.line, 0⟩ : Place)) ∈ v.seqs.map some := by
      rw [hs, List.mem_map]
      refine ⟨(n, i), hmem, ?_⟩
      simp [hn, hp, hf2]
    have hin : (n, (⟨f, p.stmt.line, 0⟩ : Place)) ∈ v.seqs := by simpa using hin
    cases hfi : v.seqs.find? (·.1 == n) with
    | none =>
      rw [List.find?_eq_none] at hfi
      exact absurd (hfi _ hin) (by simp)
    | some x =>
      have hx1 : x.1 = n := by simpa using List.find?_some hfi
      have hx2 : some x ∈ v.seqs.map some := List.mem_map.2 ⟨x, List.mem_of_find?_eq_some hfi, rfl⟩
      rw [hs, List.mem_map] at hx2
      obtain ⟨⟨n', i'⟩, hm', hx'⟩ := hx2
      have hnn : n' = n := by
        cases hb : (v.run.st.nests[i']?).bind (·.getLast?) with
        | none => simp [hb] at hx'
        | some q =>
          rw [← hx1]
          simp only [hb, Option.map_some, Option.some.injEq] at hx'
          rw [← hx']
      subst hnn
      obtain ⟨d1, d2⟩ := (hl n' i').1 hm'
      have hii : i' = i := by
        rcases Nat.lt_trichotomy i' i with h | h | h
        · exact absurd d1 (hj _ h)
        · exact h
        · exact absurd hi (d2 _ h)
      subst hii
      simp [hn, hp, hf2] at hx'
      rw [← hx']
  · rw [List.find?_eq_none]
    intro x hx he
    have hx1 : x.1 = n := by simpa using he
    have hx2 : some x ∈ v.seqs.map some := List.mem_map.2 ⟨x, hx, rfl⟩
    rw [hs, List.mem_map] at hx2
    obtain ⟨⟨n', i'⟩, hm', hx'⟩ := hx2
    have hnn : n' = n := by
      cases hb : (v.run.st.nests[i']?).bind (·.getLast?) with
      | none => simp [hb] at hx'
      | some q =>
        rw [← hx1]
        simp only [hb, Option.map_some, Option.some.injEq] at hx'
        rw [← hx']
    subst hnn
    exact hno i' ((hl n' i').1 hm').1

end Verif.Define
