import Verif.MacroDef.Scopes

/-!
The lines of the file a macro is defined in that belong to the macro (C53).
-/
namespace Verif.MacroDef

/-! ## The slices of the own file -/

/-- The slices of the own file with the depth and the number of statements. -/
structure Own where
  slices : List MSlice
  nest : Nat
  k : Nat

/-- A statement of the own file and the number of statements copied behind it. -/
def Own.step (o : Own) (x : Stmt × Nat) : Own :=
  ⟨slicesWith o.slices (sliceLine o.k x.1) (decide (nestAfter o.nest x.1 > 1)) (decide (o.nest > 1)), nestAfter o.nest x.1, o.k + 1 + x.2⟩

theorem fold_foreign (qs : List Placed) (s : St) (f : File) (h : ∀ q ∈ qs, q.file ≠ f) : (qs.foldl St.emit s).scopes.get f = s.scopes.get f := by
  induction qs generalizing s with
  | nil => rfl
  | cons q qs ih =>
    rw [List.foldl_cons, ih _ (fun x hx => h x (by simp [hx])), emit_scopes, get_set_other _ _ _ _ (h q (by simp))]

theorem dep_zero {ts : List Stmt} (h : dep ts 0 = some 0) (c : Nat) : dep ts c = some c := by
  simpa using dep_add ts 0 0 c h

/-- What stands in the place of one statement of the own file. -/
structure Chunk (f : File) (t : Stmt) (ps : List Placed) : Prop where
  ex : ∃ r qs, ps = ⟨t, [⟨f, t.line⟩], r⟩ :: qs ∧ (∀ q ∈ qs, q.file ≠ f) ∧ dep (qs.map (·.stmt)) 0 = some 0 ∧ (qs ≠ [] → ∃ m, t.op = .copy m)

theorem expandOne_chunk (lib : Lib) (d : Nat) (opened : List Name) (f : File) (hl : ∀ m ∈ lib, m.2.file ≠ f) (t : Stmt) : Chunk f t (expandOne lib d opened [] f t) := by
  constructor
  unfold expandOne
  cases h : t.op with
  | copy m =>
    cases m with
    | none => exact ⟨_, [], rfl, by simp, rfl, by simp⟩
    | some n =>
      simp only
      cases hf : lib.find n with
      | none => exact ⟨_, [], rfl, by simp, rfl, by simp⟩
      | some m =>
        simp only
        by_cases ho : n ∈ opened
        · rw [if_pos ho]; exact ⟨_, [], rfl, by simp, rfl, by simp⟩
        · rw [if_neg ho, ← memberOf_eq]
          have hm : m.file ≠ f := by
            unfold Lib.find at hf
            obtain ⟨x, hx, rfl⟩ := Option.map_eq_some_iff.1 hf
            exact hl x (List.mem_of_find?_eq_some hx)
          refine ⟨_, _, rfl, fun q hq => ?_, dep_expand _ _ _ _ _ _ _ _ (dep_member _) (fun _ => rfl), fun _ => ⟨_, rfl⟩⟩
          rcases (expand_path lib _ _ _ _ _ q hq).2 with h | ⟨x, hx, h⟩
          · rw [h]; exact hm
          · rw [h]; exact hl x hx
  | _ => exact ⟨_, [], rfl, by simp, rfl, by simp⟩

theorem chunk_step (f : File) (t : Stmt) (ps : List Placed) (h : Chunk f t ps) (s : St) (hs : s.lastInner = decide (s.nest > 1)) (o : Own)
    (h1 : o.slices = s.scopes.get f) (h2 : o.nest = s.nest) (h3 : o.k = s.line) :
    (ps.foldl St.emit s).scopes.get f = (o.step (t, ps.length - 1)).slices ∧ (ps.foldl St.emit s).nest = (o.step (t, ps.length - 1)).nest ∧
    (ps.foldl St.emit s).line = (o.step (t, ps.length - 1)).k := by
  obtain ⟨r, qs, rfl, hq, hd, -⟩ := h.ex
  rw [List.foldl_cons, fold_foreign _ _ _ hq]
  refine ⟨?_, ?_, ?_⟩
  · rw [emit_scopes]
    have : Placed.file ⟨t, [⟨f, t.line⟩], r⟩ = f := by simp [Placed.file]
    rw [this, get_set_same]
    unfold Own.step
    simp only
    rw [h1, h2, h3, hs]
  · rw [fold_nest qs _ _ (dep_zero hd _), (emit_same _ _).2.1]
    unfold Own.step
    simp only
    rw [h2]
  · rw [(fold_plain qs _).2.2, (emit_facts _ _).2.2.1]
    unfold Own.step
    simp only
    rw [h3]
    simp

theorem own_fold (f : File) (g : Stmt → List Placed) (hg : ∀ t, Chunk f t (g t)) (bs : List Stmt) : ∀ (s : St) (o : Own),
    s.lastInner = decide (s.nest > 1) → o.slices = s.scopes.get f → o.nest = s.nest → o.k = s.line →
    ((bs.flatMap g).foldl St.emit s).scopes.get f = ((bs.map fun t => (t, (g t).length - 1)).foldl Own.step o).slices := by
  induction bs with
  | nil => intro s o _ h _ _; exact h.symm
  | cons t bs ih =>
    intro s o h0 h1 h2 h3
    rw [List.flatMap_cons, List.foldl_append, List.map_cons, List.foldl_cons]
    obtain ⟨a, b, c⟩ := chunk_step f t _ (hg t) s h0 o h1 h2 h3
    exact ih _ _ (fold_lastInner _ _ h0) a.symm b.symm c.symm

/-! ## Positions -/

/-- The number of statements of the body in front of the `j`-th own one. -/
def pos (xs : List (Stmt × Nat)) (j : Nat) : Nat := ((xs.take j).map fun x => 1 + x.2).sum

/-- The number of open definitions in front of the `j`-th own statement. -/
def depth (xs : List (Stmt × Nat)) (j : Nat) : Nat := 1 + begins ((xs.take j).map (·.1)) - ends ((xs.take j).map (·.1))

theorem pos_append (xs ys : List (Stmt × Nat)) (j : Nat) (h : j ≤ xs.length) : pos (xs ++ ys) j = pos xs j := by
  unfold pos; rw [List.take_append_of_le_length h]

theorem depth_append (xs ys : List (Stmt × Nat)) (j : Nat) (h : j ≤ xs.length) : depth (xs ++ ys) j = depth xs j := by
  unfold depth; rw [List.take_append_of_le_length h]

theorem pos_succ (xs : List (Stmt × Nat)) (j : Nat) (h : j < xs.length) : pos xs (j + 1) = pos xs j + (1 + (xs[j]).2) := by
  unfold pos
  rw [List.take_succ_eq_append_getElem h, List.map_append, List.sum_append]
  simp only [List.map_cons, List.map_nil, List.sum_cons, List.sum_nil]
  omega

theorem pos_mono (xs : List (Stmt × Nat)) (i j : Nat) (h : i ≤ j) (hj : j ≤ xs.length) : pos xs i + (j - i) ≤ pos xs j := by
  induction j with
  | zero => have : i = 0 := by omega
            subst this; simp
  | succ j ih =>
    rw [pos_succ xs j hj]
    by_cases hij : i = j + 1
    · subst hij; rw [pos_succ xs j hj]; omega
    · have := ih (by omega) (by omega); omega

theorem pos_le_iff (xs : List (Stmt × Nat)) (i j : Nat) (hi : i ≤ xs.length) (hj : j ≤ xs.length) : pos xs i ≤ pos xs j ↔ i ≤ j := by
  constructor
  · intro h
    rcases Nat.lt_or_ge j i with h' | h'
    · have := pos_mono xs j i (by omega) hi; omega
    · exact h'
  · intro h; have := pos_mono xs i j h hj; omega

theorem pos_zero (xs : List (Stmt × Nat)) : pos xs 0 = 0 := by simp [pos]

/-! ## The invariant -/

/-- A number of statements at which an own one begins. -/
def IsPos (xs : List (Stmt × Nat)) (x : Nat) : Prop := ∃ j, j ≤ xs.length ∧ x = pos xs j

/-- The slices cover the statements outside of inner definitions; the last slice is open as long as no inner definition is. -/
structure Inv (xs : List (Stmt × Nat)) (o : Own) : Prop where
  k : o.k = pos xs xs.length
  nest : o.nest = depth xs xs.length
  none : xs = [] → o.slices = []
  some : xs ≠ [] → ∃ closed l, o.slices = closed ++ [l] ∧
    (∀ j, j < xs.length → (depth xs j ≤ 1 ↔ (∃ s ∈ closed, s.first ≤ pos xs j ∧ pos xs j < s.stop) ∨
      (l.first ≤ pos xs j ∧ (1 < depth xs xs.length → pos xs j < l.stop)))) ∧
    (∀ s ∈ closed, IsPos xs s.first ∧ IsPos xs s.stop) ∧ IsPos xs l.first ∧ (1 < depth xs xs.length → IsPos xs l.stop) ∧
    (∃ s ∈ closed ++ [l], s.first = 0)

theorem IsPos.append {xs : List (Stmt × Nat)} {x : Nat} (h : IsPos xs x) (ys : List (Stmt × Nat)) : IsPos (xs ++ ys) x := by
  obtain ⟨j, hj, rfl⟩ := h
  exact ⟨j, by simp; omega, (pos_append xs ys j hj).symm⟩

theorem IsPos.le {xs : List (Stmt × Nat)} {x : Nat} (h : IsPos xs x) : x ≤ pos xs xs.length := by
  obtain ⟨j, hj, rfl⟩ := h
  exact (pos_le_iff xs _ _ hj (Nat.le_refl _)).2 hj

theorem slices_first (L : Nat) (a b : Bool) (hL : L ≤ 1) : slicesWith [] L a b = [⟨0, L, a⟩] := by
  unfold slicesWith
  simp only [List.reverse_nil]
  by_cases h : L = 1
  · rw [if_pos h]
  · rw [if_neg h]
    have : L = 0 := by omega
    subst this; rfl

theorem slices_last (closed : List MSlice) (l : MSlice) (L : Nat) (a b : Bool) : slicesWith (closed ++ [l]) L a b =
    if (b && !a) = true then (closed ++ [l]) ++ [⟨L, L, a⟩]
    else if (!a || !b && a) = true then closed ++ [⟨l.first, L, l.inner⟩] else closed ++ [l] := by
  unfold slicesWith
  simp

theorem inv_step (xs : List (Stmt × Nat)) (o : Own) (x : Stmt × Nat) (h : Inv xs o) (d : Nat) (hd : dep ((xs ++ [x]).map (·.1)) 1 = some d)
    (hx : x.2 ≠ 0 → ∃ m, x.1.op = .copy m) : Inv (xs ++ [x]) (o.step x) := by
  have hlen : (xs ++ [x]).length = xs.length + 1 := by simp
  have hpos : pos (xs ++ [x]) (xs.length + 1) = pos xs xs.length + (1 + x.2) := by
    rw [pos_succ _ _ (by simp), pos_append _ _ _ (Nat.le_refl _)]
    simp
  have hposn : pos (xs ++ [x]) xs.length = pos xs xs.length := pos_append _ _ _ (Nat.le_refl _)
  have hdn : depth (xs ++ [x]) xs.length = depth xs xs.length := depth_append _ _ _ (Nat.le_refl _)
  have hnest : (o.step x).nest = depth (xs ++ [x]) (xs ++ [x]).length := by
    rw [dep_iff] at hd
    have hp := hd.1 xs.length (by simp)
    rw [← List.map_take, List.take_left] at hp
    have h2 := hd.2
    unfold Own.step depth
    simp only
    rw [h.nest]
    unfold depth
    rw [List.take_length, List.take_length, List.map_append]
    rw [List.map_append] at h2
    have hbe : begins (xs.map (·.1) ++ [x.1]) = begins (xs.map (·.1)) + (if x.1.op = .mbegin then 1 else 0) ∧
        ends (xs.map (·.1) ++ [x.1]) = ends (xs.map (·.1)) + (if x.1.op = .mend then 1 else 0) := by
      simp [begins, ends, List.countP_append, List.countP_cons]
    simp only [List.map_cons, List.map_nil] at h2 ⊢
    rw [hbe.1, hbe.2] at h2 ⊢
    unfold nestAfter
    cases hc : x.1.op with
    | mbegin => simp only [hc, if_true, reduceCtorEq, if_false] at h2 ⊢; omega
    | mend => simp only [hc, if_true, reduceCtorEq, if_false] at h2 ⊢; omega
    | _ => simp only [reduceCtorEq, if_false]; omega
  have hk : (o.step x).k = pos (xs ++ [x]) (xs ++ [x]).length := by
    rw [hlen, hpos]; unfold Own.step; simp only; rw [h.k]; omega
  refine ⟨hk, hnest, by simp, fun _ => ?_⟩
  -- a statement that changes the depth copies nothing
  have hL : sliceLine o.k x.1 = pos (xs ++ [x]) (xs.length + 1) ∨ (depth (xs ++ [x]) (xs.length + 1) = depth xs xs.length ∧ sliceLine o.k x.1 = pos xs xs.length) := by
    by_cases hc : ∃ m, x.1.op = .copy m
    · right
      obtain ⟨m, hm⟩ := hc
      refine ⟨?_, by unfold sliceLine; rw [hm]; exact h.k⟩
      rw [← hlen, ← hnest, ← h.nest]
      unfold Own.step nestAfter
      simp [hm]
    · left
      have h0 : x.2 = 0 := by
        by_cases h0 : x.2 = 0
        · exact h0
        · exact absurd (hx h0) hc
      rw [hpos, h0, h.k]
      unfold sliceLine
      cases hc' : x.1.op with
      | copy m => exact absurd ⟨m, hc'⟩ hc
      | _ => rfl
  have hstep : (o.step x).slices = slicesWith o.slices (sliceLine o.k x.1) (decide (depth (xs ++ [x]) (xs.length + 1) > 1)) (decide (depth xs xs.length > 1)) := by
    rw [← hlen, ← hnest, ← h.nest]; rfl
  have hold : ∀ j, j < xs.length → depth (xs ++ [x]) j = depth xs j ∧ pos (xs ++ [x]) j = pos xs j ∧ pos xs j < pos xs xs.length := by
    intro j hj
    refine ⟨depth_append _ _ _ (by omega), pos_append _ _ _ (by omega), ?_⟩
    have := pos_mono xs j xs.length (by omega) (Nat.le_refl _); omega
  have hcases : ∀ j, j < xs.length + 1 → j < xs.length ∨ j = xs.length := by intro j hj; omega
  rw [hlen, hstep]
  by_cases hne : xs = []
  · subst hne
    rw [h.none rfl]
    have hl1 : sliceLine o.k x.1 ≤ 1 := by
      have := (sliceLine_le o.k x.1).2
      have h0 : o.k = 0 := h.k.trans (pos_zero _)
      omega
    rw [slices_first _ _ _ hl1]
    refine ⟨[], _, rfl, ?_, by simp, ⟨0, by simp, (pos_zero _).symm⟩, ?_, ⟨_, List.mem_append.2 (Or.inr (List.mem_singleton.2 rfl)), rfl⟩⟩
    · intro j hj
      have : j = 0 := by simpa using hj
      subst this
      have hd0 : depth ([] ++ [x]) 0 ≤ 1 := by simp [depth, begins, ends]
      simp only [hd0, true_iff]
      refine Or.inr ⟨Nat.zero_le _, fun hgt => ?_⟩
      rcases hL with hL | ⟨hL, -⟩
      · rw [hL, hpos, pos_zero]; omega
      · rw [hL] at hgt; simp [depth, begins, ends] at hgt
    · intro hgt
      rcases hL with hL | ⟨hL, -⟩
      · exact ⟨1, by simp, hL⟩
      · rw [hL] at hgt; simp [depth, begins, ends] at hgt
  · obtain ⟨closed, l, hs, hcov, hcl, hlf, hls, hz⟩ := h.some hne
    rw [hs, slices_last]
    by_cases ha : 1 < depth (xs ++ [x]) (xs.length + 1)
    · by_cases hb : 1 < depth xs xs.length
      · -- inside of an inner definition
        simp only [ha, hb, decide_true, Bool.not_true, Bool.and_false, Bool.false_eq_true, if_false, Bool.false_and, Bool.or_false]
        refine ⟨closed, l, rfl, ?_, fun s hs => ⟨(hcl s hs).1.append _, (hcl s hs).2.append _⟩, hlf.append _, fun _ => (hls hb).append _, hz⟩
        intro j hj
        rcases hcases j hj with hj | rfl
        · obtain ⟨e1, e2, e3⟩ := hold j hj
          rw [e1, e2, hcov j hj]
          simp [hb]
        · rw [hdn, hposn]
          constructor
          · intro h'; omega
          · rintro (⟨s, hs, h1, h2⟩ | ⟨h1, h2⟩)
            · have := (hcl s hs).2.le; omega
            · have := (hls hb).le; have := h2 trivial; omega
      · -- an inner definition begins
        have hLe : sliceLine o.k x.1 = pos (xs ++ [x]) (xs.length + 1) := by
          rcases hL with hL | ⟨hL, -⟩
          · exact hL
          · omega
        simp only [ha, hb, decide_true, decide_false, Bool.not_true, Bool.and_false, Bool.false_eq_true, if_false, Bool.not_false, Bool.and_true, Bool.or_true, if_true]
        refine ⟨closed, _, rfl, ?_, fun s hs => ⟨(hcl s hs).1.append _, (hcl s hs).2.append _⟩, hlf.append _, fun _ => ⟨xs.length + 1, by simp, hLe⟩, ?_⟩
        · intro j hj
          rcases hcases j hj with hj | rfl
          · obtain ⟨e1, e2, e3⟩ := hold j hj
            rw [e1, e2, hcov j hj]
            have : pos xs j < sliceLine o.k x.1 := by rw [hLe, hpos]; omega
            simp [hb, this]
          · rw [hdn, hposn]
            constructor
            · intro _
              exact Or.inr ⟨hlf.le, fun _ => by show pos xs xs.length < sliceLine o.k x.1; rw [hLe, hpos]; omega⟩
            · intro _; omega
        · obtain ⟨s, hs, hs0⟩ := hz
          rcases List.mem_append.1 hs with hs | hs
          · exact ⟨s, by simp [hs], hs0⟩
          · rw [List.mem_singleton.1 hs] at hs0; exact ⟨_, List.mem_append.2 (Or.inr (List.mem_singleton.2 rfl)), hs0⟩
    · by_cases hb : 1 < depth xs xs.length
      · -- an inner definition ends
        have hLe : sliceLine o.k x.1 = pos (xs ++ [x]) (xs.length + 1) := by
          rcases hL with hL | ⟨hL, -⟩
          · exact hL
          · omega
        simp only [ha, hb, decide_true, decide_false, Bool.not_false, Bool.and_true, if_true]
        refine ⟨closed ++ [l], _, rfl, ?_, ?_, ⟨xs.length + 1, by simp, hLe⟩, fun h' => h'.elim, ?_⟩
        · intro j hj
          rcases hcases j hj with hj | rfl
          · obtain ⟨e1, e2, e3⟩ := hold j hj
            rw [e1, e2, hcov j hj]
            have : ¬ sliceLine o.k x.1 ≤ pos xs j := by rw [hLe, hpos]; omega
            simp only [hb, true_imp_iff, this, false_and, or_false, List.mem_append, List.mem_singleton]
            constructor
            · rintro (⟨s, hs, h'⟩ | h')
              · exact ⟨s, Or.inl hs, h'⟩
              · exact ⟨l, Or.inr rfl, h'⟩
            · rintro ⟨s, hs | rfl, h'⟩
              · exact Or.inl ⟨s, hs, h'⟩
              · exact Or.inr h'
          · rw [hdn, hposn]
            constructor
            · intro h'; omega
            · rintro (⟨s, hs, h1, h2⟩ | ⟨h1, -⟩)
              · have : s.stop ≤ pos xs xs.length := by
                  rcases List.mem_append.1 hs with hs | hs
                  · exact (hcl s hs).2.le
                  · rw [List.mem_singleton.1 hs]; exact (hls hb).le
                omega
              · have h1 : sliceLine o.k x.1 ≤ pos xs xs.length := h1
                rw [hLe, hpos] at h1; omega
        · intro s hs
          rcases List.mem_append.1 hs with hs | hs
          · exact ⟨(hcl s hs).1.append _, (hcl s hs).2.append _⟩
          · rw [List.mem_singleton.1 hs]; exact ⟨hlf.append _, (hls hb).append _⟩
        · obtain ⟨s, hs, hs0⟩ := hz
          exact ⟨s, by simp only [List.mem_append] at hs ⊢; exact Or.inl hs, hs0⟩
      · -- outside of inner definitions
        simp only [ha, hb, decide_false, Bool.not_false, Bool.false_and, Bool.false_eq_true, if_false, Bool.true_or, if_true]
        refine ⟨closed, _, rfl, ?_, fun s hs => ⟨(hcl s hs).1.append _, (hcl s hs).2.append _⟩, hlf.append _, fun h' => h'.elim, ?_⟩
        · intro j hj
          rcases hcases j hj with hj | rfl
          · obtain ⟨e1, e2, e3⟩ := hold j hj
            rw [e1, e2, hcov j hj]
            simp [hb]
          · rw [hdn, hposn]
            constructor
            · intro _
              exact Or.inr ⟨hlf.le, fun h' => h'.elim⟩
            · intro _; omega
        · obtain ⟨s, hs, hs0⟩ := hz
          rcases List.mem_append.1 hs with hs | hs
          · exact ⟨s, by simp [hs], hs0⟩
          · rw [List.mem_singleton.1 hs] at hs0; exact ⟨_, List.mem_append.2 (Or.inr (List.mem_singleton.2 rfl)), hs0⟩

theorem inv_fold (xs : List (Stmt × Nat)) (d : Nat) (hd : dep (xs.map (·.1)) 1 = some d) (hx : ∀ x ∈ xs, x.2 ≠ 0 → ∃ m, x.1.op = .copy m) :
    Inv xs (xs.foldl Own.step ⟨[], 1, 0⟩) := by
  induction xs using List.reverseRecOn generalizing d with
  | nil => exact ⟨by simp [pos], by simp [depth, begins, ends], fun _ => rfl, fun h => absurd rfl h⟩
  | append_singleton xs x ih =>
    rw [List.foldl_append, List.foldl_cons, List.foldl_nil]
    have hd' : ∃ d', dep (xs.map (·.1)) 1 = some d' := by
      rw [List.map_append, dep_append] at hd
      obtain ⟨d', h, -⟩ := Option.bind_eq_some_iff.1 hd
      exact ⟨d', h⟩
    obtain ⟨d', hd'⟩ := hd'
    exact inv_step xs _ x (ih d' hd' (fun y hy => hx y (by simp [hy]))) d hd (hx x (by simp))

/-- Behind the `MEND` of the macro the slices cover exactly the statements outside of inner definitions. -/
theorem covered (xs : List (Stmt × Nat)) (e : Stmt) (he : e.op = .mend) (hd : dep (xs.map (·.1)) 1 = some 1) (hx : ∀ x ∈ xs, x.2 ≠ 0 → ∃ m, x.1.op = .copy m)
    (S : List MSlice) (hS : S = ((xs ++ [(e, 0)]).foldl Own.step ⟨[], 1, 0⟩).slices) :
    (∀ j, j < (xs ++ [(e, 0)]).length → (depth (xs ++ [(e, 0)]) j ≤ 1 ↔ ∃ s ∈ S, s.first ≤ pos (xs ++ [(e, 0)]) j ∧ pos (xs ++ [(e, 0)]) j < s.stop)) ∧
    (∀ s ∈ S, IsPos (xs ++ [(e, 0)]) s.first ∧ IsPos (xs ++ [(e, 0)]) s.stop) ∧ ∃ s ∈ S, s.first = 0 := by
  have h := inv_fold xs 1 hd hx
  have hlen : (xs ++ [(e, 0)]).length = xs.length + 1 := by simp
  have hdep : depth xs xs.length = 1 := by
    rw [dep_iff] at hd
    have := hd.2
    unfold depth
    rw [List.take_length]
    omega
  have hpos : pos (xs ++ [(e, 0)]) (xs.length + 1) = pos xs xs.length + 1 := by
    rw [pos_succ _ _ (by simp), pos_append _ _ _ (Nat.le_refl _)]
    simp
  have hposn : pos (xs ++ [(e, 0)]) xs.length = pos xs xs.length := pos_append _ _ _ (Nat.le_refl _)
  have hdn : depth (xs ++ [(e, 0)]) xs.length = 1 := by rw [depth_append _ _ _ (Nat.le_refl _), hdep]
  rw [List.foldl_append, List.foldl_cons, List.foldl_nil] at hS
  have hS' : S = slicesWith (xs.foldl Own.step ⟨[], 1, 0⟩).slices (pos xs xs.length + 1) false false := by
    rw [hS]
    unfold Own.step
    simp only
    have e1 : nestAfter (xs.foldl Own.step ⟨[], 1, 0⟩).nest e = 0 := by rw [h.nest, hdep]; unfold nestAfter; rw [he]
    have e2 : sliceLine (xs.foldl Own.step ⟨[], 1, 0⟩).k e = pos xs xs.length + 1 := by rw [h.k]; unfold sliceLine; rw [he]
    have e3 : (xs.foldl Own.step ⟨[], 1, 0⟩).nest = 1 := by rw [h.nest, hdep]
    have e1' : nestAfter 1 e = 0 := by rw [← e3]; exact e1
    unfold Own.step at e2 e3
    rw [e2, e3, e1']
    rfl
  clear hS
  by_cases hne : xs = []
  · subst hne
    rw [h.none rfl, slices_first _ _ _ (by simp [pos])] at hS'
    subst hS'
    refine ⟨fun j hj => ?_, fun s hs => ?_, ⟨_, List.mem_singleton.2 rfl, rfl⟩⟩
    · have : j = 0 := by simpa using hj
      subst this
      simp [depth, begins, ends, pos]
    · rw [List.mem_singleton.1 hs]
      exact ⟨⟨0, by simp, (pos_zero _).symm⟩, ⟨1, by simp, by simp [pos]⟩⟩
  · obtain ⟨closed, l, hs, hcov, hcl, hlf, -, hz⟩ := h.some hne
    rw [hs, slices_last] at hS'
    simp only [Bool.not_false, Bool.false_and, Bool.false_eq_true, if_false, Bool.true_or, if_true] at hS'
    subst hS'
    refine ⟨fun j hj => ?_, fun s hs => ?_, ?_⟩
    · rw [hlen] at hj
      by_cases hj' : j < xs.length
      · have hlt : pos xs j < pos xs xs.length := by
          have := pos_mono xs j xs.length (by omega) (Nat.le_refl _); omega
        rw [depth_append _ _ _ (by omega), pos_append _ _ _ (by omega), hcov j hj', hdep]
        simp only [List.mem_append, List.mem_singleton]
        constructor
        · rintro (⟨s, hs, h'⟩ | ⟨h', -⟩)
          · exact ⟨s, Or.inl hs, h'⟩
          · exact ⟨_, Or.inr rfl, h', by simp only; omega⟩
        · rintro ⟨s, hs | rfl, h'⟩
          · exact Or.inl ⟨s, hs, h'⟩
          · exact Or.inr ⟨h'.1, by omega⟩
      · have : j = xs.length := by omega
        subst this
        rw [hdn, hposn]
        simp only [Nat.le_refl, true_iff]
        exact ⟨_, List.mem_append.2 (Or.inr (List.mem_singleton.2 rfl)), hlf.le, by simp only; omega⟩
    · rcases List.mem_append.1 hs with hs | hs
      · exact ⟨(hcl s hs).1.append _, (hcl s hs).2.append _⟩
      · rw [List.mem_singleton.1 hs]
        exact ⟨hlf.append _, ⟨xs.length + 1, by simp, hpos.symm⟩⟩
    · obtain ⟨s, hs, hs0⟩ := hz
      rcases List.mem_append.1 hs with hs | hs
      · exact ⟨s, by simp [hs], hs0⟩
      · rw [List.mem_singleton.1 hs] at hs0; exact ⟨_, List.mem_append.2 (Or.inr (List.mem_singleton.2 rfl)), hs0⟩

end Verif.MacroDef
