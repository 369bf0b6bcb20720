import Verif.MacroDef.Refine
import Mathlib.Data.List.Induction

/-!
What the fold over the body leaves: the statements, their places, the labels and the diagnostics.
-/
namespace Verif.MacroDef

/-! ## Depths -/

theorem dep_append (a b : List Stmt) (c : Nat) : dep (a ++ b) c = (dep a c).bind (dep b) := by
  induction a generalizing c with
  | nil => rfl
  | cons t ts ih =>
    cases h : t.op with
    | mend => by_cases hc : c = 0 <;> simp [dep, h, hc, ih]
    | _ => simp [dep, h, ih]

theorem dep_add (ts : List Stmt) (c d k : Nat) (h : dep ts c = some d) : dep ts (c + k) = some (d + k) := by
  rw [dep_iff] at *
  exact ⟨fun x hx => by have := h.1 x hx; omega, by omega⟩

theorem dep_take {ts : List Stmt} {c d : Nat} (h : dep ts c = some d) (k : Nat) (hk : k ≤ ts.length) :
    dep (ts.take k) c = some (c + begins (ts.take k) - ends (ts.take k)) := by
  rw [dep_iff] at *
  have := h.1 k hk
  refine ⟨fun x hx => ?_, by omega⟩
  have hx' : x ≤ k := by simp at hx; omega
  have := h.1 x (by omega)
  rwa [List.take_take, Nat.min_eq_left hx']

theorem dep_depthAt {ps : List Placed} {d : Nat} (h : dep (ps.map (·.stmt)) 1 = some d) (k : Nat) (hk : k ≤ ps.length) :
    dep ((ps.take k).map (·.stmt)) 1 = some (depthAt ps k) := by
  have := dep_take h k (by simpa using hk)
  rw [← List.map_take] at this
  exact this

theorem dep_expand (lib : Lib) (d : Nat) : ∀ (ts : List Stmt) (opened : List Name) (path : List Loc) (file : File) (c e : Nat), dep ts c = some e →
    (d = 0 → c = e) → dep ((expand lib d opened path file ts).map (·.stmt)) c = some e := by
  induction d with
  | zero => intro ts opened path file c e _ h; rw [h rfl]; rfl
  | succ d ih =>
    intro ts opened path file
    have one : ∀ (t : Stmt) (c : Nat), dep ((expandOne lib d opened path file t).map (·.stmt)) c = dep [t] c := by
      intro t c
      unfold expandOne
      cases h : t.op with
      | copy m =>
        cases m with
        | none => simp [dep]
        | some n =>
          simp only
          cases hf : lib.find n with
          | none => simp [dep]
          | some m =>
            simp only
            by_cases ho : n ∈ opened
            · simp [ho, dep]
            · simp only [ho, if_false, List.map_cons, dep, h]
              rw [← memberOf_eq]
              have := dep_add _ _ _ c (ih (memberOf m.stmts) (n :: opened) (path ++ [⟨file, t.line⟩]) m.file 0 0 (dep_member _) (fun _ => rfl))
              simpa using this
      | _ => simp
    induction ts with
    | nil => intro c e h _; exact h
    | cons t ts iht =>
      intro c e h _
      have hexp : expand lib (d + 1) opened path file (t :: ts) = expandOne lib d opened path file t ++ expand lib (d + 1) opened path file ts := rfl
      rw [hexp, List.map_append, dep_append, one]
      rw [show t :: ts = [t] ++ ts from rfl, dep_append] at h
      obtain ⟨x, hx, hx'⟩ := Option.bind_eq_some_iff.1 h
      rw [hx]
      exact iht _ _ hx' (by simp)

theorem split_dep (c : Nat) (ts : List Stmt) : ∃ e, dep (split c ts).1 (c + 1) = some e ∧ (e = 0 ↔ (split c ts).2.isSome = true) := by
  induction ts generalizing c with
  | nil => exact ⟨c + 1, rfl, by simp [split]⟩
  | cons t ts ih =>
    cases h : t.op with
    | mbegin => simpa [split, h, dep] using ih (c + 1)
    | mend =>
      by_cases hc : c = 0
      · exact ⟨0, by simp [split, h, hc, dep], by simp [split, h, hc]⟩
      · have := ih (c - 1)
        rw [show c - 1 + 1 = c by omega] at this
        simpa [split, h, hc, dep] using this
    | _ => simpa [split, h, dep] using ih c

theorem body_dep (lib : Lib) (file : File) (above : List Name) (ts : List Stmt) :
    ∃ e, dep ((bodyOf lib file above ts).map (·.stmt)) 1 = some e ∧ (e = 0 ↔ (split 0 ts).2.isSome = true) := by
  obtain ⟨e, h, h'⟩ := split_dep 0 ts
  exact ⟨e, dep_expand lib _ _ _ _ _ _ _ h (by simp), h'⟩

/-! ## One statement -/

theorem emit_facts (s : St) (p : Placed) : (s.emit p).defn = s.defn ++ [p.stmt.executed] ∧ (s.emit p).nests = s.nests ++ [p.path] ∧
    (s.emit p).line = s.line + 1 ∧ (s.emit p).lastInner = decide (nestAfter s.nest p.stmt > 1) := by
  obtain ⟨-, h4, h5, h6, h7, h8, h9, h10, h11⟩ := seqSym_same { s with outer := (p.path.head?.map (·.line)).getD s.outer } p.stmt
  unfold St.emit nestAfter Stmt.executed
  cases h : p.stmt.op <;> simp only [St.nestAt, Stmt.asAnop] <;> exact ⟨by simp [h8], by simp [h9], by simp [h7], by simp [h4]⟩

/-- The number written into the slices. -/
def sliceLine (k : Nat) (t : Stmt) : Nat :=
  match t.op with
  | .copy _ => k
  | _ => k + 1

/-- The file of a statement. -/
def Placed.file (p : Placed) : File := (p.path.getLast?.map (·.file)).getD 0

theorem emit_scopes (s : St) (p : Placed) : (s.emit p).scopes = s.scopes.set p.file
    (slicesWith (s.scopes.get p.file) (sliceLine s.line p.stmt) (decide (nestAfter s.nest p.stmt > 1)) s.lastInner) := by
  obtain ⟨-, h4, h5, h6, h7, h8, h9, h10, h11⟩ := seqSym_same { s with outer := (p.path.head?.map (·.line)).getD s.outer } p.stmt
  unfold St.emit nestAfter sliceLine Placed.file
  cases h : p.stmt.op <;> simp only [St.nestAt, h4, h7, h10, h11]

theorem seqSym_labels (s : St) (t : Stmt) : (s.sequenceSymbol t).labels =
    s.labels ++ (match t.label with
      | none => []
      | some n => if s.nest = 1 ∧ s.labels.any (·.1 == n) = false then [(n, s.line)] else []) := by
  unfold St.sequenceSymbol
  cases t.label with
  | none => simp
  | some n =>
    by_cases h1 : s.nest = 1
    · by_cases h2 : s.labels.any (·.1 == n) = true <;> simp [h1, h2]
    · simp [h1]

theorem seqSym_diags (s : St) (t : Stmt) : (s.sequenceSymbol t).diags =
    s.diags ++ (match t.label with
      | none => []
      | some n => if s.nest = 1 ∧ s.labels.any (·.1 == n) = true then [.E044 t.line] else []) := by
  unfold St.sequenceSymbol
  cases t.label with
  | none => simp
  | some n =>
    by_cases h1 : s.nest = 1
    · by_cases h2 : s.labels.any (·.1 == n) = true <;> simp [h1, h2]
    · simp [h1]

theorem emit_labels (s : St) (p : Placed) : (s.emit p).labels = (s.sequenceSymbol p.stmt).labels := by
  have : (s.emit p).labels = (St.sequenceSymbol { s with outer := (p.path.head?.map (·.line)).getD s.outer } p.stmt).labels := by
    unfold St.emit
    cases h : p.stmt.op <;> rfl
  rw [this, seqSym_labels, seqSym_labels]

theorem emit_diags (s : St) (p : Placed) (h : (∀ m, p.stmt.op ≠ .copy m) → p.report = none) :
    (s.emit p).diags = (s.sequenceSymbol p.stmt).diags ++ p.report.toList := by
  have h' : (St.sequenceSymbol { s with outer := (p.path.head?.map (·.line)).getD s.outer } p.stmt).diags = (s.sequenceSymbol p.stmt).diags := by
    rw [seqSym_diags, seqSym_diags]
  unfold St.emit
  cases hc : p.stmt.op with
  | copy m => simp only [St.nestAt]; rw [h']
  | _ => rw [h (by simp [hc])]; simp only [St.nestAt]; rw [h']; simp

/-- Only `COPY` statements are reported in an expansion. -/
theorem expand_report (lib : Lib) (d : Nat) : ∀ (ts : List Stmt) (opened : List Name) (path : List Loc) (file : File),
    ∀ p ∈ expand lib d opened path file ts, (∀ m, p.stmt.op ≠ .copy m) → p.report = none := by
  induction d with
  | zero => intro ts opened path file p hp; cases hp
  | succ d ih =>
    intro ts opened path file p hp hop
    rw [expand_eq, List.mem_flatMap] at hp
    obtain ⟨t, -, hp⟩ := hp
    unfold expandOne at hp
    cases h : t.op with
    | copy m =>
      rw [h] at hp
      cases m with
      | none => simp only [List.mem_singleton] at hp; subst hp; exact absurd h (hop _)
      | some n =>
        simp only at hp
        cases hf : lib.find n with
        | none => rw [hf] at hp; simp only [List.mem_singleton] at hp; subst hp; exact absurd h (hop _)
        | some m =>
          rw [hf] at hp
          by_cases ho : n ∈ opened
          · simp only [ho, if_true, List.mem_singleton] at hp; subst hp; exact absurd h (hop _)
          · simp only [ho, if_false, List.mem_cons] at hp
            rcases hp with rfl | hp
            · exact absurd h (hop _)
            · exact ih _ _ _ _ p hp hop
    | _ => rw [h] at hp; simp only [List.mem_singleton] at hp; subst hp; rfl

/-! ## The fold -/

theorem fold_nest (ps : List Placed) : ∀ (s : St) (d : Nat), dep (ps.map (·.stmt)) s.nest = some d → (ps.foldl St.emit s).nest = d := by
  induction ps with
  | nil => intro s d h; simpa [dep] using h
  | cons p ps ih =>
    intro s d h
    rw [List.foldl_cons]
    apply ih
    rw [(emit_same s p).2.1]
    unfold nestAfter
    rw [List.map_cons] at h
    cases hc : p.stmt.op with
    | mend =>
      simp only [dep, hc] at h
      by_cases h0 : s.nest = 0
      · simp [h0] at h
      · rw [if_neg h0] at h; exact h
    | _ => simpa [dep, hc] using h

theorem fold_plain (ps : List Placed) (s : St) : (ps.foldl St.emit s).defn = s.defn ++ ps.map (·.stmt.executed) ∧
    (ps.foldl St.emit s).nests = s.nests ++ ps.map (·.path) ∧ (ps.foldl St.emit s).line = s.line + ps.length := by
  induction ps generalizing s with
  | nil => simp
  | cons p ps ih =>
    obtain ⟨h1, h2, h3, -⟩ := emit_facts s p
    obtain ⟨i1, i2, i3⟩ := ih (s.emit p)
    rw [List.foldl_cons]
    refine ⟨by rw [i1, h1]; simp, by rw [i2, h2]; simp, by rw [i3, h3]; simp; omega⟩

theorem depthAt_append (ps : List Placed) (p : List Placed) (i : Nat) (h : i ≤ ps.length) : depthAt (ps ++ p) i = depthAt ps i := by
  unfold depthAt; rw [List.take_append_of_le_length h]

theorem declares_append (ps : List Placed) (p : List Placed) (i : Nat) (h : i < ps.length) : declares (ps ++ p) i = declares ps i := by
  unfold declares
  rw [depthAt_append _ _ _ (by omega), List.getElem?_append_left h]

theorem declares_lt {ps : List Placed} {i : Nat} {n : Name} (h : declares ps i = some n) : i < ps.length := by
  unfold declares at h
  by_cases hd : depthAt ps i = 1
  · rw [if_pos hd] at h
    obtain ⟨p, hp, -⟩ := Option.bind_eq_some_iff.1 h
    exact (List.getElem?_eq_some_iff.1 hp).1
  · rw [if_neg hd] at h; cases h

theorem repeats_append (ps : List Placed) (p : List Placed) (i : Nat) (h : i < ps.length) : repeats (ps ++ p) i = repeats ps i := by
  unfold repeats
  rw [declares_append _ _ _ h, Bool.eq_iff_iff]
  simp only [Bool.and_eq_true, List.any_eq_true, List.mem_range]
  refine and_congr_right fun _ => ⟨fun ⟨j, hj, hj'⟩ => ⟨j, hj, ?_⟩, fun ⟨j, hj, hj'⟩ => ⟨j, hj, ?_⟩⟩
  · rwa [declares_append _ _ _ (by omega)] at hj'
  · rwa [declares_append _ _ _ (by omega)]

theorem reports_append (ps : List Placed) (p : Placed) : reports (ps ++ [p]) = reports ps ++ reportsAt (ps ++ [p]) ps.length := by
  unfold reports
  rw [List.length_append, List.length_singleton, List.range_succ, List.flatMap_append]
  have : (List.range ps.length).flatMap (reportsAt (ps ++ [p])) = (List.range ps.length).flatMap (reportsAt ps) := by
    rw [List.flatMap_def, List.flatMap_def]
    congr 1
    refine List.map_congr_left fun i hi => ?_
    have hi := List.mem_range.1 hi
    unfold reportsAt
    rw [repeats_append _ _ _ hi, List.getElem?_append_left hi]
  rw [this]
  simp

/-- The labels after the statements `ps`. -/
def LabelsOf (labels : List (Name × Nat)) (ps : List Placed) : Prop :=
  ∀ n i, (n, i) ∈ labels ↔ declares ps i = some n ∧ ∀ j, j < i → declares ps j ≠ some n

theorem declares_last (ps : List Placed) (p : Placed) : declares (ps ++ [p]) ps.length = if depthAt ps ps.length = 1 then p.stmt.label else none := by
  unfold declares
  rw [depthAt_append _ _ _ (Nat.le_refl _)]
  simp

theorem any_labels {labels : List (Name × Nat)} {ps : List Placed} (h : LabelsOf labels ps) (n : Name) :
    labels.any (·.1 == n) = true ↔ ∃ i, declares ps i = some n := by
  rw [List.any_eq_true]
  constructor
  · rintro ⟨⟨m, i⟩, hm, he⟩
    have : m = n := by simpa using he
    subst this
    exact ⟨i, ((h m i).1 hm).1⟩
  · rintro ⟨i, hi⟩
    have : ∀ k i, i ≤ k → declares ps i = some n → ∃ l, l ∈ labels ∧ (l.1 == n) = true := by
      intro k
      induction k with
      | zero =>
        intro i hik hi
        have : i = 0 := by omega
        subst this
        exact ⟨(n, 0), (h n 0).2 ⟨hi, fun j hj => by omega⟩, by simp⟩
      | succ k ih =>
        intro i hik hi
        by_cases hj : ∃ j, j < i ∧ declares ps j = some n
        · obtain ⟨j, hj, hj'⟩ := hj
          exact ih j (by omega) hj'
        · exact ⟨(n, i), (h n i).2 ⟨hi, fun j hj' hc => hj ⟨j, hj', hc⟩⟩, by simp⟩
    exact this i i (Nat.le_refl _) hi

theorem fold_labels (ps : List Placed) (s0 : St) (hn : s0.nest = 1) (hl : s0.line = 0) (hs : s0.labels = []) (hd : s0.diags = []) (e : Nat)
    (hdep : dep (ps.map (·.stmt)) 1 = some e) (hrep : ∀ p ∈ ps, (∀ m, p.stmt.op ≠ .copy m) → p.report = none) :
    LabelsOf (ps.foldl St.emit s0).labels ps ∧ (ps.foldl St.emit s0).diags = reports ps := by
  induction ps using List.reverseRecOn generalizing e with
  | nil =>
    refine ⟨fun n i => ?_, hd⟩
    simp [hs, declares]
  | append_singleton ps p ih =>
    have hpre := dep_depthAt hdep ps.length (by simp)
    rw [List.take_left, depthAt_append _ _ _ (Nat.le_refl _)] at hpre
    obtain ⟨ih1, ih2⟩ := ih _ hpre (fun q hq => hrep q (by simp [hq]))
    have hnest : (ps.foldl St.emit s0).nest = depthAt ps ps.length := fold_nest ps s0 _ (by rw [hn]; exact hpre)
    have hline : (ps.foldl St.emit s0).line = ps.length := by rw [(fold_plain ps s0).2.2, hl]; omega
    rw [List.foldl_append, List.foldl_cons, List.foldl_nil]
    have hlast := declares_last ps p
    constructor
    · intro n i
      rw [emit_labels, seqSym_labels, List.mem_append, ih1 n i, hline, hnest]
      have hold : (declares ps i = some n ∧ ∀ j, j < i → declares ps j ≠ some n) ↔
          i < ps.length ∧ declares (ps ++ [p]) i = some n ∧ ∀ j, j < i → declares (ps ++ [p]) j ≠ some n := by
        constructor
        · rintro ⟨h1, h2⟩
          have hi := declares_lt h1
          exact ⟨hi, by rwa [declares_append _ _ _ hi], fun j hj => by rw [declares_append _ _ _ (by omega)]; exact h2 j hj⟩
        · rintro ⟨hi, h1, h2⟩
          refine ⟨by rwa [declares_append _ _ _ hi] at h1, fun j hj => ?_⟩
          have := h2 j hj
          rwa [declares_append _ _ _ (by omega)] at this
      have hany : ∀ m, (ps.foldl St.emit s0).labels.any (·.1 == m) = false ↔ ∀ j, j < ps.length → declares (ps ++ [p]) j ≠ some m := by
        intro m
        rw [← Bool.not_eq_true, any_labels ih1 m]
        constructor
        · intro h j hj hc
          rw [declares_append _ _ _ hj] at hc
          exact h ⟨j, hc⟩
        · rintro h ⟨j, hj⟩
          have := h j (declares_lt hj)
          rw [declares_append _ _ _ (declares_lt hj)] at this
          exact this hj
      have hnew : (n, i) ∈ (match p.stmt.label with
          | none => []
          | some m => if depthAt ps ps.length = 1 ∧ (ps.foldl St.emit s0).labels.any (·.1 == m) = false then [(m, ps.length)] else [] : List (Name × Nat)) ↔
          i = ps.length ∧ declares (ps ++ [p]) i = some n ∧ ∀ j, j < i → declares (ps ++ [p]) j ≠ some n := by
        cases hlab : p.stmt.label with
        | none =>
          simp only [List.not_mem_nil, false_iff]
          rintro ⟨rfl, h, -⟩
          rw [hlast, hlab] at h
          simp at h
        | some m =>
          simp only
          by_cases hdp : depthAt ps ps.length = 1
          · rw [hlab, if_pos hdp] at hlast
            by_cases ha : (ps.foldl St.emit s0).labels.any (·.1 == m) = false
            · rw [if_pos ⟨hdp, ha⟩]
              simp only [List.mem_singleton, Prod.mk.injEq]
              constructor
              · rintro ⟨rfl, rfl⟩
                exact ⟨rfl, hlast, fun j hj => (hany _).1 ha j hj⟩
              · rintro ⟨rfl, h, -⟩
                rw [hlast] at h
                exact ⟨by simpa using h.symm, rfl⟩
            · rw [if_neg (fun h => ha h.2)]
              simp only [List.not_mem_nil, false_iff]
              rintro ⟨rfl, h, h'⟩
              rw [hlast] at h
              have : m = n := by simpa using h
              subst this
              exact ha ((hany _).2 h')
          · rw [if_neg (fun h => hdp h.1)]
            simp only [List.not_mem_nil, false_iff]
            rintro ⟨rfl, h, -⟩
            rw [hlast, if_neg hdp] at h
            cases h
      rw [hold, hnew]
      constructor
      · rintro (⟨-, h⟩ | ⟨-, h⟩) <;> exact h
      · intro h
        have := declares_lt h.1
        simp only [List.length_append, List.length_singleton] at this
        by_cases hi : i < ps.length
        · exact Or.inl ⟨hi, h⟩
        · exact Or.inr ⟨by omega, h⟩
    · rw [emit_diags _ _ (hrep p (by simp)), seqSym_diags, ih2, hnest, reports_append, List.append_assoc]
      congr 1
      unfold reportsAt
      have hget : (ps ++ [p])[ps.length]? = some p := by simp
      rw [hget]
      simp only [Option.bind_some]
      congr 1
      have hrepeat : repeats (ps ++ [p]) ps.length = true ↔ ∃ n, p.stmt.label = some n ∧ depthAt ps ps.length = 1 ∧
          (ps.foldl St.emit s0).labels.any (·.1 == n) = true := by
        unfold repeats
        rw [hlast]
        simp only [Bool.and_eq_true, List.any_eq_true, List.mem_range]
        by_cases hdp : depthAt ps ps.length = 1
        · rw [if_pos hdp]
          cases hlab : p.stmt.label with
          | none => simp
          | some m =>
            simp only [Option.isSome_some, true_and, beq_iff_eq, Option.some.injEq, exists_eq_left', hdp]
            have ha := any_labels ih1 m
            rw [List.any_eq_true] at ha
            simp only [beq_iff_eq] at ha
            rw [ha]
            constructor
            · rintro ⟨j, hj, h⟩
              rw [declares_append _ _ _ hj] at h
              exact ⟨j, h⟩
            · rintro ⟨j, hj⟩
              have := declares_lt hj
              exact ⟨j, this, by rwa [declares_append _ _ _ this]⟩
        · rw [if_neg hdp]; simp [hdp]
      by_cases hr : repeats (ps ++ [p]) ps.length = true
      · obtain ⟨n, h1, h2, h3⟩ := hrepeat.1 hr
        rw [if_pos hr, h1]
        simp [h2, h3]
      · rw [if_neg hr]
        cases hlab : p.stmt.label with
        | none => rfl
        | some n =>
          simp only
          rw [if_neg (fun h => hr (hrepeat.2 ⟨n, hlab, h.1, h.2⟩))]

end Verif.MacroDef
