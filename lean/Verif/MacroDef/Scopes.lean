import Verif.MacroDef.BodyProps

/-!
The slices of a definition: their bounds (C59) and the lines they cover (C53).
-/
namespace Verif.MacroDef

/-! ## The map of slices -/

theorem get_set_same (s : Scopes) (f : File) (v : List MSlice) : Scopes.get (Scopes.set s f v) f = v := by
  induction s with
  | nil => simp [Scopes.set, Scopes.get]
  | cons e es ih =>
    unfold Scopes.set
    by_cases h : e.1 = f
    · simp [h, Scopes.get]
    · have h' : (e.1 == f) = false := by simpa using h
      rw [h']
      simp only [Bool.false_eq_true, if_false]
      unfold Scopes.get at ih ⊢
      rw [List.find?_cons, h']
      exact ih

theorem get_set_other (s : Scopes) (f g : File) (v : List MSlice) (h : f ≠ g) : Scopes.get (Scopes.set s f v) g = Scopes.get s g := by
  induction s with
  | nil => simp [Scopes.set, Scopes.get, h]
  | cons e es ih =>
    unfold Scopes.set
    by_cases he : e.1 = f
    · have h1 : (e.1 == f) = true := by simpa using he
      have h2 : (e.1 == g) = false := by simpa [he] using h
      have h3 : (f == g) = false := by simpa using h
      simp only [h1, if_true, Scopes.get, List.find?_cons, h2, h3]
    · have h' : (e.1 == f) = false := by simpa using he
      rw [h']
      simp only [Bool.false_eq_true, if_false]
      unfold Scopes.get at ih ⊢
      rw [List.find?_cons, List.find?_cons]
      cases hg : e.1 == g
      · exact ih
      · rfl

theorem mem_set {s : Scopes} {f : File} {v : List MSlice} {e : File × List MSlice} (h : e ∈ Scopes.set s f v) : e ∈ s ∨ e = (f, v) := by
  induction s with
  | nil => simp [Scopes.set] at h; exact Or.inr h
  | cons x xs ih =>
    unfold Scopes.set at h
    by_cases hx : (x.1 == f) = true
    · simp only [hx, if_true, List.mem_cons] at h
      rcases h with h | h
      · exact Or.inr h
      · exact Or.inl (by simp [h])
    · simp only [hx, Bool.false_eq_true, if_false, List.mem_cons] at h
      rcases h with h | h
      · exact Or.inl (by simp [h])
      · rcases ih h with h | h
        · exact Or.inl (by simp [h])
        · exact Or.inr h

theorem set_mem (s : Scopes) (f : File) (v : List MSlice) : (f, v) ∈ Scopes.set s f v := by
  induction s with
  | nil => simp [Scopes.set]
  | cons x xs ih =>
    unfold Scopes.set
    by_cases hx : (x.1 == f) = true
    · simp [hx]
    · simp [hx, ih]

theorem get_mem {s : Scopes} {f : File} {sl : MSlice} (h : sl ∈ s.get f) : ∃ e ∈ s, sl ∈ e.2 := by
  unfold Scopes.get at h
  cases hf : List.find? (fun e => e.1 == f) s with
  | none => rw [hf] at h; simp at h
  | some e => rw [hf] at h; exact ⟨e, List.mem_of_find?_eq_some hf, by simpa using h⟩

theorem mapM_none {α β : Type} (f : α → Option β) (l : List α) : l.mapM f = none ↔ ∃ x ∈ l, f x = none := by
  induction l with
  | nil => simp
  | cons x l ih =>
    rw [List.mapM_cons]
    cases hx : f x with
    | none => simp [hx]
    | some y =>
      cases hl : l.mapM f with
      | none =>
        obtain ⟨z, hz, hz'⟩ := ih.1 hl
        simp only [Option.bind_eq_bind, Option.bind_some, Option.bind_none, true_iff]
        exact ⟨z, by simp [hz], hz'⟩
      | some ys =>
        have : ¬ ∃ x ∈ l, f x = none := by rw [← ih, hl]; simp
        simp only [Option.bind_eq_bind, Option.bind_some, Option.pure_def, reduceCtorEq, false_iff, List.mem_cons]
        rintro ⟨z, rfl | hz, hz'⟩
        · rw [hx] at hz'; cases hz'
        · exact this ⟨z, hz, hz'⟩

theorem mapM_get {α β : Type} (f : α → Option β) (l : List α) (r : List β) (h : l.mapM f = some r) : ∀ y, y ∈ r ↔ ∃ x ∈ l, f x = some y := by
  induction l generalizing r with
  | nil => simp at h; subst h; simp
  | cons x l ih =>
    rw [List.mapM_cons] at h
    simp only [Option.bind_eq_bind, Option.pure_def, Option.bind_eq_some_iff, Option.some.injEq] at h
    obtain ⟨y, hy, ys, hys, rfl⟩ := h
    intro z
    have := ih ys hys z
    simp only [List.mem_cons, this]
    constructor
    · rintro (rfl | ⟨w, hw, hw'⟩)
      · exact ⟨x, Or.inl rfl, hy⟩
      · exact ⟨w, Or.inr hw, hw'⟩
    · rintro ⟨w, rfl | hw, hw'⟩
      · rw [hy] at hw'; exact Or.inl (by simpa using hw'.symm)
      · exact Or.inr ⟨w, hw, hw'⟩

/-! ## Bounds -/

theorem slicesWith_ne (old : List MSlice) (l : Nat) (a b : Bool) : slicesWith old l a b ≠ [] := by
  unfold slicesWith
  cases h : old.reverse with
  | nil => simp only; split <;> simp
  | cons x xs =>
    have : old ≠ [] := by intro h'; simp [h'] at h
    simp only
    split
    · simp
    · split
      · simp
      · exact this

theorem slicesWith_mem {old : List MSlice} {l : Nat} {a b : Bool} {sl : MSlice} (h : sl ∈ slicesWith old l a b) :
    sl ∈ old ∨ (sl.stop = l ∧ ((∃ o ∈ old, o.first = sl.first) ∨ sl.first = 0 ∨ (sl.first = l ∧ (old = [] ∨ (b = true ∧ a = false))))) := by
  unfold slicesWith at h
  cases ho : old.reverse with
  | nil =>
    have hnil : old = [] := by simpa using ho
    rw [ho] at h
    simp only at h
    by_cases h1 : l = 1
    · simp only [h1, if_true, List.mem_singleton] at h
      subst h
      exact Or.inr ⟨h1.symm, Or.inr (Or.inl rfl)⟩
    · simp only [h1, if_false, List.mem_singleton] at h
      subst h
      exact Or.inr ⟨rfl, Or.inr (Or.inr ⟨rfl, Or.inl hnil⟩)⟩
  | cons x xs =>
    have hold : old = xs.reverse ++ [x] := by
      have := congrArg List.reverse ho; simpa using this
    rw [ho] at h
    simp only at h
    by_cases h1 : (b && !a) = true
    · simp only [h1, if_true, List.mem_append, List.mem_singleton] at h
      rcases h with h | h
      · exact Or.inl h
      · subst h
        refine Or.inr ⟨rfl, Or.inr (Or.inr ⟨rfl, Or.inr ?_⟩)⟩
        simpa using h1
    · simp only [h1, Bool.false_eq_true, if_false] at h
      by_cases h2 : (!a || !b && a) = true
      · simp only [h2, if_true, List.reverse_cons, List.mem_append, List.mem_singleton] at h
        rcases h with h | h
        · exact Or.inl (by rw [hold]; simp [List.mem_reverse.1 h])
        · subst h
          exact Or.inr ⟨rfl, Or.inl ⟨x, by rw [hold]; simp, rfl⟩⟩
      · simp only [h2, Bool.false_eq_true, if_false] at h
        exact Or.inl h

theorem sliceLine_le (k : Nat) (t : Stmt) : k ≤ sliceLine k t ∧ sliceLine k t ≤ k + 1 := by
  unfold sliceLine; cases t.op <;> simp

/-- All slices lie in front of the statements still to come, and a file has slices if it has statements. -/
theorem fold_bound (ps : List Placed) (file : File) (above : List Name) :
    (∀ e ∈ (ps.foldl St.emit { file := file, above := above }).scopes, ∀ sl ∈ e.2, sl.first ≤ ps.length ∧ sl.stop ≤ ps.length) ∧
    (∀ f, (ps.foldl St.emit { file := file, above := above }).scopes.get f = [] ↔ ∀ q ∈ ps, q.file ≠ f) := by
  induction ps using List.reverseRecOn with
  | nil =>
    refine ⟨fun e he => ?_, fun f => by simp [Scopes.get]⟩
    cases he
  | append_singleton ps p ih =>
    have hline : (ps.foldl St.emit { file := file, above := above }).line = ps.length := by
      rw [(fold_plain ps _).2.2]; simp
    rw [List.foldl_append, List.foldl_cons, List.foldl_nil, emit_scopes, hline]
    constructor
    · intro e he sl hsl
      have hle := sliceLine_le ps.length p.stmt
      rw [List.length_append, List.length_singleton]
      rcases mem_set he with he | rfl
      · have := ih.1 e he sl hsl; omega
      · rcases slicesWith_mem hsl with h | ⟨h1, ⟨o, ho, h2⟩ | h2 | ⟨h2, -⟩⟩
        · obtain ⟨e, he, h⟩ := get_mem h
          have := ih.1 e he sl h; omega
        · obtain ⟨e, he, h⟩ := get_mem ho
          have := ih.1 e he o h; omega
        · omega
        · omega
    · intro f
      by_cases hf : p.file = f
      · subst hf
        rw [get_set_same]
        have := slicesWith_ne (Scopes.get (ps.foldl St.emit { file := file, above := above }).scopes p.file) (sliceLine ps.length p.stmt)
          (decide (nestAfter (ps.foldl St.emit { file := file, above := above }).nest p.stmt > 1))
          (ps.foldl St.emit { file := file, above := above }).lastInner
        simp only [this, false_iff]
        intro h
        exact h p (by simp) rfl
      · rw [get_set_other _ _ _ _ hf, ih.2 f]
        constructor
        · intro h q hq
          rcases List.mem_append.1 hq with hq | hq
          · exact h q hq
          · rw [List.mem_singleton.1 hq]; exact hf
        · intro h q hq
          exact h q (by simp [hq])

theorem fold_lastInner (ps : List Placed) (s : St) (h : s.lastInner = decide (s.nest > 1)) :
    (ps.foldl St.emit s).lastInner = decide ((ps.foldl St.emit s).nest > 1) := by
  induction ps generalizing s with
  | nil => exact h
  | cons p ps ih =>
    rw [List.foldl_cons]
    apply ih
    rw [(emit_facts s p).2.2.2, (emit_same s p).2.1]

theorem transform_some (ps : List Placed) (hne : ∀ p ∈ ps, p.path ≠ []) (name : Nat) (sl : MSlice) (h1 : sl.first < ps.length) (h2 : sl.stop ≤ ps.length) :
    ∃ x, transformSlice (ps.map (·.path)) name sl = some x := by
  have get : ∀ i, i < ps.length → ∃ l, (((ps.map (·.path))[i]?).bind fun n => n.getLast?.map (·.line)) = some l := by
    intro i hi
    have hp := hne ps[i] (List.getElem_mem hi)
    refine ⟨((ps[i]).path.getLast hp).line, ?_⟩
    simp [hi, List.getLast?_eq_some_getLast hp]
  have hb : ∃ b, (if sl.first = 0 then some name else ((ps.map (·.path))[sl.first]?).bind fun n => n.getLast?.map (·.line)) = some b := by
    by_cases h : sl.first = 0
    · exact ⟨name, by rw [if_pos h]⟩
    · rw [if_neg h]; exact get _ h1
  have he : ∃ e, (if sl.stop = (ps.map (·.path)).length then (ps.map (·.path)).getLast?.bind fun n => n.getLast?.map (·.line + 1)
      else ((ps.map (·.path))[sl.stop]?).bind fun n => n.getLast?.map (·.line)) = some e := by
    by_cases h : sl.stop = (ps.map (·.path)).length
    · rw [if_pos h]
      obtain ⟨l, hl⟩ := get (ps.length - 1) (by omega)
      obtain ⟨n, hn, hn'⟩ := Option.bind_eq_some_iff.1 hl
      obtain ⟨x, hx, hx'⟩ := Option.map_eq_some_iff.1 hn'
      refine ⟨x.line + 1, ?_⟩
      rw [List.getLast?_eq_getElem?, List.length_map, hn]
      simp [hx]
    · rw [if_neg h]
      rw [List.length_map] at h
      exact get _ (by omega)
  obtain ⟨b, hb⟩ := hb
  obtain ⟨e, he⟩ := he
  refine ⟨⟨b, e⟩, ?_⟩
  unfold transformSlice beginLine endLine
  rw [hb, he]
  rfl

theorem transform_none (ps : List Placed) (name : Nat) (sl : MSlice) (h1 : ps.length ≤ sl.first) (h0 : sl.first ≠ 0) :
    transformSlice (ps.map (·.path)) name sl = none := by
  unfold transformSlice beginLine
  rw [if_neg h0]
  simp [h1]

theorem expand_path (lib : Lib) (d : Nat) : ∀ (ts : List Stmt) (opened : List Name) (path : List Loc) (file : File),
    ∀ p ∈ expand lib d opened path file ts, p.path ≠ [] ∧ (p.file = file ∨ ∃ m ∈ lib, p.file = m.2.file) := by
  induction d with
  | zero => intro ts opened path file p hp; cases hp
  | succ d ih =>
    intro ts opened path file p hp
    rw [expand_eq, List.mem_flatMap] at hp
    obtain ⟨t, -, hp⟩ := hp
    have own : ∀ r : Option Diag, p = ⟨t, path ++ [⟨file, t.line⟩], r⟩ → p.path ≠ [] ∧ (p.file = file ∨ ∃ m ∈ lib, p.file = m.2.file) := by
      rintro r rfl
      exact ⟨by simp, Or.inl (by simp [Placed.file])⟩
    unfold expandOne at hp
    cases h : t.op with
    | copy m =>
      rw [h] at hp
      cases m with
      | none => exact own _ (List.mem_singleton.1 hp)
      | some n =>
        simp only at hp
        cases hf : lib.find n with
        | none => rw [hf] at hp; exact own _ (List.mem_singleton.1 hp)
        | some m =>
          rw [hf] at hp
          by_cases ho : n ∈ opened
          · simp only [ho, if_true] at hp; exact own _ (List.mem_singleton.1 hp)
          · simp only [ho, if_false, List.mem_cons] at hp
            rcases hp with hp | hp
            · exact own _ hp
            · obtain ⟨h1, h2⟩ := ih _ _ _ _ p hp
              refine ⟨h1, Or.inr ?_⟩
              rcases h2 with h2 | h2
              · unfold Lib.find at hf
                obtain ⟨x, hx, rfl⟩ := Option.map_eq_some_iff.1 hf
                exact ⟨x, List.mem_of_find?_eq_some hx, h2⟩
              · exact h2
    | _ => rw [h] at hp; exact own _ (List.mem_singleton.1 hp)

/-! ## C59 -/

theorem fileSlices_none (s : St) (name : Nat) : s.fileSlices name = none ↔ ∃ e ∈ s.scopes, ∃ sl ∈ e.2, transformSlice s.nests name sl = none := by
  unfold St.fileSlices
  rw [mapM_none]
  simp only [Option.map_eq_none_iff, mapM_none]

theorem outside_iff (qs : List Placed) (p : Placed) (file : File) (above : List Name) (name : Nat) (d : Nat) (hne : ∀ q ∈ qs ++ [p], q.path ≠ [])
    (hdep : dep ((qs ++ [p]).map (·.stmt)) 1 = some d) :
    ((qs ++ [p]).foldl St.emit { file := file, above := above }).fileSlices name = none ↔
      qs ≠ [] ∧ (∀ m, p.stmt.op ≠ .copy m) ∧ ((∀ q ∈ qs, q.file ≠ p.file) ∨ (1 < depthAt (qs ++ [p]) qs.length ∧ depthAt (qs ++ [p]) (qs.length + 1) ≤ 1)) := by
  obtain ⟨hb1, hb2⟩ := fold_bound qs file above
  have hline : (qs.foldl St.emit { file := file, above := above }).line = qs.length := by
    rw [(fold_plain qs _).2.2]; simp
  have hnests : ((qs ++ [p]).foldl St.emit { file := file, above := above }).nests = (qs ++ [p]).map (·.path) := by
    rw [(fold_plain (qs ++ [p]) _).2.1]; rfl
  have hpre := dep_depthAt hdep qs.length (by simp)
  rw [List.take_left] at hpre
  have hnest : (qs.foldl St.emit { file := file, above := above }).nest = depthAt (qs ++ [p]) qs.length := fold_nest qs _ _ hpre
  have hall := dep_depthAt hdep (qs.length + 1) (by simp)
  rw [show qs.length + 1 = (qs ++ [p]).length by simp, List.take_length] at hall
  have hnest' : nestAfter (qs.foldl St.emit { file := file, above := above }).nest p.stmt = depthAt (qs ++ [p]) (qs.length + 1) := by
    have := fold_nest (qs ++ [p]) { file := file, above := above } _ hall
    rw [List.foldl_append, List.foldl_cons, List.foldl_nil, (emit_same _ p).2.1] at this
    rw [this]; simp
  have hlast := fold_lastInner qs { file := file, above := above } rfl
  rw [fileSlices_none, hnests]
  have hsc : ((qs ++ [p]).foldl St.emit { file := file, above := above }).scopes = Scopes.set (qs.foldl St.emit { file := file, above := above }).scopes p.file
      (slicesWith (Scopes.get (qs.foldl St.emit { file := file, above := above }).scopes p.file) (sliceLine qs.length p.stmt)
        (decide (depthAt (qs ++ [p]) (qs.length + 1) > 1)) (decide (depthAt (qs ++ [p]) qs.length > 1))) := by
    rw [List.foldl_append, List.foldl_cons, List.foldl_nil, emit_scopes, hline, hnest', hlast, hnest]
  rw [hsc]
  have hlen : (qs ++ [p]).length = qs.length + 1 := by simp
  have hsl := sliceLine_le qs.length p.stmt
  constructor
  · rintro ⟨e, he, sl, hsl', htr⟩
    have bad : ¬ (sl.first < (qs ++ [p]).length ∧ sl.stop ≤ (qs ++ [p]).length) := by
      rintro ⟨h1, h2⟩
      obtain ⟨x, hx⟩ := transform_some _ hne name sl h1 h2
      rw [hx] at htr; cases htr
    rw [hlen] at bad
    rcases mem_set he with he | rfl
    · have := hb1 e he sl hsl'
      exact absurd ⟨by omega, by omega⟩ bad
    · rcases slicesWith_mem hsl' with h | ⟨h1, ⟨o, ho, h2⟩ | h2 | ⟨h2, h3⟩⟩
      · obtain ⟨e, he, h⟩ := get_mem h
        have := hb1 e he sl h
        exact absurd ⟨by omega, by omega⟩ bad
      · obtain ⟨e, he, h⟩ := get_mem ho
        have := hb1 e he o h
        exact absurd ⟨by omega, by omega⟩ bad
      · exact absurd ⟨by omega, by omega⟩ bad
      · have hL : sliceLine qs.length p.stmt = qs.length + 1 := by omega
        refine ⟨?_, ?_, ?_⟩
        · rintro rfl
          have : slicesWith (Scopes.get (([] : List Placed).foldl St.emit { file := file, above := above }).scopes p.file) (sliceLine ([] : List Placed).length p.stmt)
              (decide (depthAt ([] ++ [p]) (([] : List Placed).length + 1) > 1)) (decide (depthAt ([] ++ [p]) ([] : List Placed).length > 1)) =
              [⟨0, 1, decide (depthAt ([] ++ [p]) (([] : List Placed).length + 1) > 1)⟩] := by
            rw [hL]; rfl
          rw [this] at hsl'
          have := List.mem_singleton.1 hsl'
          subst this
          rw [hL] at h2
          simp at h2
        · intro m hm
          unfold sliceLine at hL
          rw [hm] at hL
          simp at hL
        · rcases h3 with h3 | ⟨h3, h4⟩
          · exact Or.inl ((hb2 p.file).1 h3)
          · exact Or.inr ⟨by simpa using h3, by simpa using h4⟩
  · rintro ⟨h1, h2, h3⟩
    have hL : sliceLine qs.length p.stmt = qs.length + 1 := by
      unfold sliceLine
      cases h : p.stmt.op with
      | copy m => exact absurd h (h2 m)
      | _ => rfl
    have hpos : 0 < qs.length := List.length_pos_iff.2 h1
    rw [hL]
    refine ⟨_, set_mem _ _ _, ⟨qs.length + 1, qs.length + 1, decide (depthAt (qs ++ [p]) (qs.length + 1) > 1)⟩, ?_,
      transform_none _ _ _ (by simp) (by simp)⟩
    unfold slicesWith
    cases ho : (Scopes.get (qs.foldl St.emit { file := file, above := above }).scopes p.file).reverse with
    | nil => simp only; rw [if_neg (by omega)]; simp
    | cons x xs =>
      rcases h3 with h3 | ⟨h3, h4⟩
      · have := (hb2 p.file).2 h3
        rw [this] at ho
        simp at ho
      · have : (decide (depthAt (qs ++ [p]) qs.length > 1) && !decide (depthAt (qs ++ [p]) (qs.length + 1) > 1)) = true := by
          simp; omega
        simp only [this, if_true]
        simp

/-- C59. Exactly which definitions make the conversion read outside of the list: those with at least two statements whose last one
is not a `COPY` and either is the first of its file or ends an inner definition. -/
theorem C59_outside_iff (lib : Lib) (file : File) (above : List Name) (ts : List Stmt) (name : Nat) :
    ∃ k r, (∀ m, (start file above ts).run lib (k + m) = some (.done r)) ∧
      (r.st.fileSlices name = none ↔ ∃ qs p, bodyOf lib file above ts = qs ++ [p] ∧ qs ≠ [] ∧ (∀ m, p.stmt.op ≠ .copy m) ∧
        ((∀ q ∈ qs, q.file ≠ p.file) ∨ (1 < depthAt (qs ++ [p]) qs.length ∧ depthAt (qs ++ [p]) (qs.length + 1) ≤ 1))) := by
  obtain ⟨k, hk⟩ := run_final lib file above ts
  obtain ⟨d, hd, -⟩ := body_dep lib file above ts
  have hne : ∀ q ∈ bodyOf lib file above ts, q.path ≠ [] := fun q hq => (expand_path lib _ _ _ _ _ q hq).1
  have key : (final lib file above ts).fileSlices name = none ↔ ∃ qs p, bodyOf lib file above ts = qs ++ [p] ∧ qs ≠ [] ∧ (∀ m, p.stmt.op ≠ .copy m) ∧
        ((∀ q ∈ qs, q.file ≠ p.file) ∨ (1 < depthAt (qs ++ [p]) qs.length ∧ depthAt (qs ++ [p]) (qs.length + 1) ≤ 1)) := by
    unfold final
    rcases List.eq_nil_or_concat (bodyOf lib file above ts) with h | ⟨qs, p, h⟩
    · rw [h]
      simp only [List.foldl_nil]
      constructor
      · intro h; exact absurd h (by simp [St.fileSlices])
      · rintro ⟨qs, p, h, -⟩; simp at h
    · rw [List.concat_eq_append] at h
      rw [h] at hd hne ⊢
      rw [outside_iff qs p file above name d hne hd]
      constructor
      · intro h; exact ⟨qs, p, rfl, h⟩
      · rintro ⟨qs', p', h', h⟩
        obtain ⟨rfl, h''⟩ := List.append_inj' h' rfl
        obtain ⟨rfl, -⟩ := List.cons.inj h''
        exact h
  cases hsp : (split 0 ts).2 with
  | some rest => rw [hsp] at hk; exact ⟨k, _, hk, key⟩
  | none => rw [hsp] at hk; exact ⟨k, _, hk, key⟩

theorem expandOne_head (lib : Lib) (d : Nat) (opened : List Name) (path : List Loc) (file : File) (t : Stmt) :
    ∃ r qs, expandOne lib d opened path file t = ⟨t, path ++ [⟨file, t.line⟩], r⟩ :: qs := by
  unfold expandOne
  cases t.op with
  | copy m =>
    cases m with
    | none => exact ⟨_, _, rfl⟩
    | some n =>
      simp only
      cases lib.find n with
      | none => exact ⟨_, _, rfl⟩
      | some m => simp only; split <;> exact ⟨_, _, rfl⟩
  | _ => exact ⟨_, _, rfl⟩

theorem expand_snoc (lib : Lib) (d : Nat) (opened : List Name) (path : List Loc) (file : File) (b : List Stmt) (e : Stmt) (he : e.op = .mend) :
    expand lib (d + 1) opened path file (b ++ [e]) = expand lib (d + 1) opened path file b ++ [⟨e, path ++ [⟨file, e.line⟩], none⟩] := by
  simp only [expand_eq, List.flatMap_append]
  congr 1
  simp [expandOne, he]

/-- C59. A definition with its `MEND` never reads outside. -/
theorem C59_finished_partial (lib : Lib) (file : File) (above : List Name) (b rest : List Stmt) (e : Stmt) (hb : Balanced b) (he : e.op = .mend) (name : Nat) :
    ∃ k r, (∀ m, (start file above (b ++ e :: rest)).run lib (k + m) = some (.done r)) ∧ ∃ fs, r.st.fileSlices name = some fs := by
  obtain ⟨k, r, hk, h⟩ := C59_outside_iff lib file above (b ++ e :: rest) name
  refine ⟨k, r, hk, ?_⟩
  cases hf : r.st.fileSlices name with
  | some fs => exact ⟨fs, rfl⟩
  | none =>
    obtain ⟨qs, p, hqs, h1, h2, h3⟩ := h.1 hf
    have hsp : split 0 (b ++ e :: rest) = (b ++ [e], some rest) :=
      (split_some 0 _ _ _).2 ⟨by simp, b, e, rfl, he, (balanced_iff b).1 hb⟩
    unfold bodyOf at hqs
    rw [hsp, expand_snoc _ _ _ _ _ _ _ he] at hqs
    obtain ⟨rfl, hp⟩ := List.append_inj' hqs rfl
    obtain ⟨rfl, -⟩ := List.cons.inj hp
    rcases h3 with h3 | ⟨h3, -⟩
    · cases b with
      | nil => exact absurd rfl h1
      | cons t b =>
        obtain ⟨r', qs', hh⟩ := expandOne_head lib lib.length above [] file t
        have : expand lib (lib.length + 1) above [] file (t :: b) = expandOne lib lib.length above [] file t ++ expand lib (lib.length + 1) above [] file b := rfl
        exact absurd rfl (h3 ⟨t, [⟨file, t.line⟩], r'⟩ (by rw [this, hh]; simp))
    · have hdep := dep_expand lib (lib.length + 1) b above [] file 1 1 (dep_add _ _ _ 1 ((balanced_iff b).1 hb)) (by simp)
      rw [dep_iff] at hdep
      have := hdep.2
      unfold depthAt at h3
      rw [List.take_left] at h3
      omega

/-- C59, negation. Two files cut off in a definition: behind an inner definition, and behind the first statement of a member. -/
theorem C59_witness :
    (∃ s, (start 0 [] [⟨2, none, .mbegin⟩, ⟨3, none, .other 0⟩, ⟨4, none, .mend⟩]).run [] 10 = some (.done ⟨s, []⟩) ∧ s.fileSlices 1 = none) ∧
    (∃ s, (start 0 [] [⟨2, none, .copy (some 1)⟩]).run [(1, ⟨5, [⟨0, none, .other 0⟩]⟩)] 10 = some (.done ⟨s, []⟩) ∧ s.fileSlices 1 = none) :=
  ⟨⟨_, rfl, by decide +kernel⟩, ⟨_, rfl, by decide +kernel⟩⟩

example : ∃ s, (start 0 [] (exBody ++ [⟨6, some 9, .mend⟩, ⟨7, none, .mbegin⟩])).run exLib 30 = some (.done ⟨s, [⟨7, none, .mbegin⟩]⟩) ∧
    s.fileSlices 1 = some [(0, [⟨1, 7⟩]), (40, [⟨1, 1⟩, ⟨3, 3⟩]), (10, [⟨1, 1⟩]), (20, [⟨0, 5⟩])] := ⟨_, rfl, by decide +kernel⟩

end Verif.MacroDef
