import Verif.MacroDef.Lines

/-!
The lines of a macro (C53).
-/
namespace Verif.MacroDef

/-- The statements of a file that begin on the line or in front of it. -/
def upTo (bs : List Stmt) (line : Nat) : List Stmt := bs.filter (·.line ≤ line)

/-- The line is outside of the definitions inside of the statements: as many of them end as begin in front of the statement that
the line belongs to. -/
def Outermost (bs : List Stmt) (line : Nat) : Prop := begins (upTo bs line).dropLast = ends (upTo bs line).dropLast

instance (bs : List Stmt) (line : Nat) : Decidable (Outermost bs line) := inferInstanceAs (Decidable (_ = _))

/-- The statements with the numbers of statements copied behind them. -/
def items (g : Stmt → List Placed) (bs : List Stmt) : List (Stmt × Nat) := bs.map fun t => (t, (g t).length - 1)

theorem flatMap_length (f : File) (g : Stmt → List Placed) (hg : ∀ t, Chunk f t (g t)) (bs : List Stmt) :
    (bs.flatMap g).length = pos (items g bs) bs.length := by
  unfold pos items
  rw [List.take_of_length_le (by simp)]
  induction bs with
  | nil => rfl
  | cons t bs ih =>
    rw [List.flatMap_cons, List.length_append, ih, List.map_cons, List.map_cons, List.sum_cons]
    obtain ⟨r, qs, h, -⟩ := (hg t).ex
    rw [h]
    simp only [List.length_cons]
    omega

theorem items_take (g : Stmt → List Placed) (bs : List Stmt) (j : Nat) : (items g bs).take j = items g (bs.take j) := by
  unfold items; rw [List.map_take]

theorem nests_pos (f : File) (g : Stmt → List Placed) (hg : ∀ t, Chunk f t (g t)) (bs : List Stmt) (a : Nat) (ha : a < bs.length) :
    ((bs.flatMap g).map (·.path))[pos (items g bs) a]? = some [⟨f, (bs[a]).line⟩] := by
  have hsplit : bs = bs.take a ++ bs[a] :: bs.drop (a + 1) := by simp
  have hp : pos (items g bs) a = ((bs.take a).flatMap g).length := by
    rw [flatMap_length f g hg]
    unfold pos
    rw [items_take]
    rw [List.take_of_length_le (l := items g (bs.take a))]
    unfold items
    simp
  obtain ⟨r, qs, h, -⟩ := (hg bs[a]).ex
  rw [hp]
  have : bs.flatMap g = (bs.take a).flatMap g ++ (g bs[a] ++ (bs.drop (a + 1)).flatMap g) := by
    conv => lhs; rw [hsplit]
    rw [List.flatMap_append, List.flatMap_cons]
  rw [this, h]
  simp

theorem items_fst (g : Stmt → List Placed) (bs : List Stmt) : (items g bs).map (·.1) = bs := by
  unfold items
  induction bs with
  | nil => rfl
  | cons t bs ih => rw [List.map_cons, List.map_cons, ih]

theorem depth_items (g : Stmt → List Placed) (bs : List Stmt) (j : Nat) : depth (items g bs) j = 1 + begins (bs.take j) - ends (bs.take j) := by
  unfold depth
  rw [items_take]
  rw [items_fst]

/-- The line of a position in the list. -/
theorem upTo_take (bs : List Stmt) (hinc : bs.Pairwise fun a b => a.line < b.line) (l : Nat) :
    upTo bs l = bs.take (upTo bs l).length ∧ ∀ i (h : i < bs.length), (bs[i]).line ≤ l ↔ i < (upTo bs l).length := by
  induction bs with
  | nil => exact ⟨rfl, fun i h => absurd h (by simp)⟩
  | cons t bs ih =>
    obtain ⟨h1, h2⟩ := List.pairwise_cons.1 hinc
    obtain ⟨i1, i2⟩ := ih h2
    unfold upTo at *
    by_cases ht : t.line ≤ l
    · rw [List.filter_cons_of_pos (by simpa using ht)]
      refine ⟨?_, fun i h => ?_⟩
      · rw [List.length_cons, List.take_succ_cons, ← i1]
      · cases i with
        | zero => simp [ht]
        | succ i => simpa using i2 i (by simpa using h)
    · rw [List.filter_cons_of_neg (by simpa using ht)]
      have hnil : bs.filter (fun x => decide (x.line ≤ l)) = [] := by
        rw [List.filter_eq_nil_iff]
        intro x hx
        have := h1 x hx
        simp; omega
      rw [hnil]
      refine ⟨rfl, fun i h => ?_⟩
      cases i with
      | zero => simp; omega
      | succ i =>
        have := h1 _ (List.getElem_mem (by simpa using h : i < bs.length))
        simp; omega

theorem find_mapM {β : Type} (f : File) (g : File × List MSlice → Option (File × β)) (hg : ∀ e y, g e = some y → y.1 = e.1) (s : Scopes) (r : List (File × β))
    (h : s.mapM g = some r) (S : List MSlice) (hS : s.get f = S) (hne : S ≠ []) : ∃ y, r.find? (·.1 == f) = some y ∧ g (f, S) = some y := by
  induction s generalizing r with
  | nil => simp [Scopes.get] at hS; exact absurd hS hne
  | cons e s ih =>
    rw [List.mapM_cons] at h
    simp only [Option.bind_eq_bind, Option.pure_def, Option.bind_eq_some_iff, Option.some.injEq] at h
    obtain ⟨y, hy, ys, hys, rfl⟩ := h
    by_cases he : e.1 = f
    · refine ⟨y, by simp [List.find?_cons, hg e y hy, he], ?_⟩
      have : Scopes.get (e :: s) f = e.2 := by simp [Scopes.get, he]
      rw [this] at hS
      rw [← hS, ← he]; exact hy
    · have h' : (e.1 == f) = false := by simpa using he
      have : Scopes.get (e :: s) f = Scopes.get s f := by simp [Scopes.get, he]
      rw [this] at hS
      obtain ⟨z, hz, hz'⟩ := ih ys hys hS
      exact ⟨z, by rw [List.find?_cons, hg e y hy, h']; exact hz, hz'⟩

/-- C53, for the file the macro is defined in. The lines shown as part of the macro are those from its name to its `MEND` that are
not inside of an inner definition, whatever is copied in between. Missing: the lines of the copied members (`C53_witness`) and
definitions without `MEND`. -/
theorem C53_own_file_partial (lib : Lib) (file : File) (above : List Name) (b rest : List Stmt) (e : Stmt) (name : Nat)
    (hb : Balanced b) (he : e.op = .mend) (hinc : (b ++ [e]).Pairwise fun s t => s.line < t.line) (hname : ∀ t ∈ b ++ [e], name < t.line)
    (hfiles : ∀ m ∈ lib, m.2.file ≠ file) :
    ∃ k r fs slices, (∀ m, (start file above (b ++ e :: rest)).run lib (k + m) = some (.done r)) ∧ r.st.fileSlices name = some fs ∧
      fs.find? (·.1 == file) = some (file, slices) ∧
      ∀ line, (∃ x ∈ slices, x.first ≤ line ∧ line < x.stop) ↔ name ≤ line ∧ line ≤ e.line ∧ Outermost (b ++ [e]) line := by
  have hsp : split 0 (b ++ e :: rest) = (b ++ [e], some rest) :=
    (split_some 0 _ _ _).2 ⟨by simp, b, e, rfl, he, (balanced_iff b).1 hb⟩
  obtain ⟨k, hk⟩ := run_final lib file above (b ++ e :: rest)
  rw [hsp] at hk
  obtain ⟨k', r', hk', fs, hfs⟩ := C59_finished_partial lib file above b rest e hb he name
  have hr : r' = ⟨final lib file above (b ++ e :: rest), rest⟩ := by
    have h1 := hk k'
    have h2 := hk' k
    rw [Nat.add_comm] at h2
    rw [h1] at h2
    simpa using h2.symm
  subst hr
  simp only at hfs
  -- the statements of the own file
  let g := expandOne lib lib.length above [] file
  have hg : ∀ t, Chunk file t (g t) := expandOne_chunk lib lib.length above file hfiles
  have hbody : bodyOf lib file above (b ++ e :: rest) = (b ++ [e]).flatMap g := by
    unfold bodyOf; rw [hsp, expand_eq]
  have hit : items g (b ++ [e]) = items g b ++ [(e, 0)] := by
    unfold items
    rw [List.map_append]
    simp [g, expandOne, he]
  have hget : (final lib file above (b ++ e :: rest)).scopes.get file = ((items g b ++ [(e, 0)]).foldl Own.step ⟨[], 1, 0⟩).slices := by
    unfold final
    rw [hbody, ← hit]
    exact own_fold file g hg (b ++ [e]) { file := file, above := above } ⟨[], 1, 0⟩ rfl rfl rfl rfl
  have hdep : dep ((items g b).map (·.1)) 1 = some 1 := by
    rw [items_fst]
    exact dep_add _ _ _ 1 ((balanced_iff b).1 hb)
  have hx : ∀ x ∈ items g b, x.2 ≠ 0 → ∃ m, x.1.op = .copy m := by
    intro x hx hx0
    unfold items at hx
    obtain ⟨t, -, rfl⟩ := List.mem_map.1 hx
    obtain ⟨r, qs, h1, -, -, h2⟩ := (hg t).ex
    apply h2
    rintro rfl
    rw [h1] at hx0
    simp at hx0
  obtain ⟨hcov, hpos, hzero⟩ := covered (items g b) e he hdep hx _ rfl
  rw [← hget] at hcov hpos hzero
  rw [← hit] at hcov hpos
  have hne : (final lib file above (b ++ e :: rest)).scopes.get file ≠ [] := by
    obtain ⟨s, hs, -⟩ := hzero
    intro h; rw [h] at hs; cases hs
  have hlen : (items g (b ++ [e])).length = (b ++ [e]).length := by simp [items]
  -- the slices in lines
  have hfind : ∃ slices, fs.find? (·.1 == file) = some (file, slices) ∧
      ((final lib file above (b ++ e :: rest)).scopes.get file).mapM (transformSlice (final lib file above (b ++ e :: rest)).nests name) = some slices := by
    unfold St.fileSlices at hfs
    obtain ⟨y, hy, hy'⟩ := find_mapM file _ (by
      intro e y h
      obtain ⟨l, -, rfl⟩ := Option.map_eq_some_iff.1 h
      rfl) _ fs hfs _ rfl hne
    obtain ⟨l, hl, rfl⟩ := Option.map_eq_some_iff.1 hy'
    exact ⟨l, hy, hl⟩
  obtain ⟨slices, hfind, hmap⟩ := hfind
  refine ⟨k, _, fs, slices, hk, hfs, hfind, fun line => ?_⟩
  rw [show (final lib file above (b ++ e :: rest)).nests = ((b ++ [e]).flatMap g).map (·.path) from by rw [(final_facts lib file above _).2.1, hbody]] at hmap
  generalize hS : (final lib file above (b ++ e :: rest)).scopes.get file = S at *
  have hmem := mapM_get _ _ _ hmap
  have hsize : (((b ++ [e]).flatMap g).map (·.path)).length = pos (items g (b ++ [e])) (b ++ [e]).length := by
    rw [List.length_map, flatMap_length file g hg]
  obtain ⟨hup1, hup2⟩ := upTo_take (b ++ [e]) hinc line
  have hN : (b ++ [e]).length = b.length + 1 := by simp
  have hbl : ∀ i (h : i < (b ++ [e]).length), (b ++ [e])[i].line ≤ e.line := by
    intro i h
    by_cases hi : i < b.length
    · rw [List.getElem_append_left hi]
      have := List.pairwise_append.1 hinc
      exact Nat.le_of_lt (this.2.2 _ (List.getElem_mem hi) e (by simp))
    · have : i = b.length := by omega
      subst this
      simp
  -- first lines
  have hbegin : ∀ a, a ≤ (b ++ [e]).length → ∀ s : MSlice, s.first = pos (items g (b ++ [e])) a → ∀ l, beginLine (((b ++ [e]).flatMap g).map (·.path)) name s = some l →
      a < (b ++ [e]).length ∧ (l ≤ line ↔ name ≤ line ∧ (a = 0 ∨ a < (upTo (b ++ [e]) line).length)) := by
    intro a ha s hs l hl
    unfold beginLine at hl
    rw [hs] at hl
    by_cases h0 : a = 0
    · subst h0
      rw [if_pos (pos_zero _)] at hl
      obtain rfl := Option.some.inj hl
      exact ⟨by simp, by simp⟩
    · have hp : pos (items g (b ++ [e])) a ≠ 0 := by
        have := pos_mono (items g (b ++ [e])) 0 a (by omega) (by omega); omega
      rw [if_neg hp] at hl
      have hlt : a < (b ++ [e]).length := by
        by_cases hlt : a < (b ++ [e]).length
        · exact hlt
        · have : a = (b ++ [e]).length := by omega
          rw [this, List.getElem?_eq_none (by rw [hsize]; exact Nat.le_refl _)] at hl
          cases hl
      refine ⟨hlt, ?_⟩
      rw [nests_pos file g hg _ a hlt] at hl
      simp only [Option.bind_some, List.getLast?_singleton, Option.map_some, Option.some.injEq] at hl
      rw [← hl, hup2 a hlt]
      have hnm := hname _ (List.getElem_mem hlt)
      simp only [h0, false_or]
      constructor
      · intro h
        have := (hup2 a hlt).2 h
        exact ⟨by omega, h⟩
      · exact And.right
  -- last lines
  have hend : ∀ c, c ≤ (b ++ [e]).length → ∀ s : MSlice, s.stop = pos (items g (b ++ [e])) c → ∀ l, endLine (((b ++ [e]).flatMap g).map (·.path)) s = some l →
      (line < l ↔ if c = (b ++ [e]).length then line ≤ e.line else (upTo (b ++ [e]) line).length ≤ c) := by
    intro c hc s hs l hl
    unfold endLine at hl
    rw [hs, hsize] at hl
    by_cases hcn : c = (b ++ [e]).length
    · rw [if_pos (by rw [hcn])] at hl
      rw [if_pos hcn]
      have hlast : (((b ++ [e]).flatMap g).map (·.path)).getLast? = some [⟨file, e.line⟩] := by
        rw [List.flatMap_append, List.map_append]
        simp [g, expandOne, he]
      rw [hlast] at hl
      simp only [Option.bind_some, List.getLast?_singleton, Option.map_some, Option.some.injEq] at hl
      omega
    · have hclt : c < (b ++ [e]).length := by omega
      have hp : pos (items g (b ++ [e])) c ≠ pos (items g (b ++ [e])) (b ++ [e]).length := by
        have := pos_mono (items g (b ++ [e])) c (b ++ [e]).length (by omega) (by omega); omega
      rw [if_neg hp, nests_pos file g hg _ c hclt] at hl
      rw [if_neg hcn]
      simp only [Option.bind_some, List.getLast?_singleton, Option.map_some, Option.some.injEq] at hl
      have := hup2 c hclt
      omega
  have hslice : ∀ s ∈ S, ∀ x, transformSlice (((b ++ [e]).flatMap g).map (·.path)) name s = some x →
      ∃ a c, s.first = pos (items g (b ++ [e])) a ∧ s.stop = pos (items g (b ++ [e])) c ∧ a < (b ++ [e]).length ∧ c ≤ (b ++ [e]).length ∧
        (x.first ≤ line ↔ name ≤ line ∧ (a = 0 ∨ a < (upTo (b ++ [e]) line).length)) ∧
        (line < x.stop ↔ if c = (b ++ [e]).length then line ≤ e.line else (upTo (b ++ [e]) line).length ≤ c) := by
    intro s hs x hx
    obtain ⟨⟨a, ha, ha'⟩, ⟨c, hc, hc'⟩⟩ := hpos s hs
    rw [hlen] at ha hc
    unfold transformSlice at hx
    obtain ⟨l, hl, hx⟩ := Option.bind_eq_some_iff.1 hx
    obtain ⟨l', hl', rfl⟩ := Option.map_eq_some_iff.1 hx
    obtain ⟨h1, h2⟩ := hbegin a ha s ha' l hl
    exact ⟨a, c, ha', hc', h1, hc, h2, hend c hc s hc' l' hl'⟩
  -- the number of statements up to the line
  generalize hu : (upTo (b ++ [e]) line).length = u at *
  have hule : u ≤ (b ++ [e]).length := by rw [← hu]; exact List.length_filter_le _ _
  have hdl : (upTo (b ++ [e]) line).dropLast = (b ++ [e]).take (u - 1) := by
    rw [List.dropLast_eq_take, hu, hup1, List.take_take, Nat.min_eq_left (by omega)]
  unfold Outermost
  rw [hdl]
  have hbal : ends ((b ++ [e]).take (u - 1)) ≤ begins ((b ++ [e]).take (u - 1)) := by
    rw [List.take_append_of_le_length (by omega)]
    exact hb.1 _ (by omega)
  constructor
  · rintro ⟨x, hx, hx1, hx2⟩
    obtain ⟨s, hs, hsx⟩ := (hmem x).1 hx
    obtain ⟨a, c, e1, e2, e3, e4, e5, e6⟩ := hslice s hs x hsx
    obtain ⟨h1, h2⟩ := e5.1 hx1
    have h3 := e6.1 hx2
    have hle : line ≤ e.line := by
      by_cases hc : c = (b ++ [e]).length
      · rw [if_pos hc] at h3; exact h3
      · rw [if_neg hc] at h3
        have hn : ¬ b.length < u := by omega
        have := hup2 b.length (by omega)
        simp only [List.getElem_concat_length] at this
        omega
    refine ⟨h1, hle, ?_⟩
    by_cases hu0 : u = 0
    · rw [hu0]; simp [begins, ends]
    · have hd := (hcov (u - 1) (by rw [hlen]; omega)).2 ⟨s, hs, ?_, ?_⟩
      · rw [depth_items] at hd; omega
      · rw [e1, pos_le_iff _ _ _ (by omega) (by omega)]; omega
      · rw [e2]
        have : ¬ pos (items g (b ++ [e])) c ≤ pos (items g (b ++ [e])) (u - 1) := by
          rw [pos_le_iff _ _ _ (by omega) (by omega)]
          by_cases hc : c = (b ++ [e]).length
          · omega
          · rw [if_neg hc] at h3; omega
        omega
  · rintro ⟨h1, h2, h3⟩
    have tr : ∀ s ∈ S, ∃ x ∈ slices, transformSlice (((b ++ [e]).flatMap g).map (·.path)) name s = some x := by
      intro s hs
      cases hx : transformSlice (((b ++ [e]).flatMap g).map (·.path)) name s with
      | none =>
        have := (mapM_none (transformSlice (((b ++ [e]).flatMap g).map (·.path)) name) S).2 ⟨s, hs, hx⟩
        rw [hmap] at this; cases this
      | some x => exact ⟨x, (hmem x).2 ⟨s, hs, hx⟩, rfl⟩
    by_cases hu0 : u = 0
    · obtain ⟨s, hs, hs0⟩ := hzero
      obtain ⟨x, hx, hsx⟩ := tr s hs
      obtain ⟨a, c, e1, e2, e3, e4, e5, e6⟩ := hslice s hs x hsx
      have ha : a = 0 := by
        rw [hs0] at e1
        have := pos_mono (items g (b ++ [e])) 0 a (by omega) (by omega); omega
      refine ⟨x, hx, e5.2 ⟨h1, Or.inl ha⟩, e6.2 ?_⟩
      by_cases hc : c = (b ++ [e]).length
      · rw [if_pos hc]; exact h2
      · rw [if_neg hc]; omega
    · obtain ⟨s, hs, hs1, hs2⟩ := (hcov (u - 1) (by rw [hlen]; omega)).1 (by rw [depth_items]; omega)
      obtain ⟨x, hx, hsx⟩ := tr s hs
      obtain ⟨a, c, e1, e2, e3, e4, e5, e6⟩ := hslice s hs x hsx
      rw [e1, pos_le_iff _ _ _ (by omega) (by omega)] at hs1
      refine ⟨x, hx, e5.2 ⟨h1, Or.inr (by omega)⟩, e6.2 ?_⟩
      by_cases hc : c = (b ++ [e]).length
      · rw [if_pos hc]; exact h2
      · rw [if_neg hc]
        have : ¬ pos (items g (b ++ [e])) c ≤ pos (items g (b ++ [e])) (u - 1) := by omega
        rw [pos_le_iff _ _ _ (by omega) (by omega)] at this
        omega

/-- A macro with an inner definition between its statements; the name is on line 1. -/
def exInner : List Stmt := [⟨2, none, .other 0⟩, ⟨4, none, .copy (some 4)⟩, ⟨5, none, .mbegin⟩, ⟨6, none, .other 1⟩, ⟨8, none, .mend⟩, ⟨9, none, .other 2⟩]

example : Balanced exInner ∧ ((exInner ++ [(⟨11, none, .mend⟩ : Stmt)]).Pairwise fun s t => s.line < t.line) ∧ (∀ t ∈ exInner ++ [(⟨11, none, .mend⟩ : Stmt)], 1 < t.line) ∧
    (∀ m ∈ exLib, m.2.file ≠ 0) ∧
    (List.range 14).filter (fun l => decide (1 ≤ l ∧ l ≤ 11 ∧ Outermost (exInner ++ [⟨11, none, .mend⟩]) l)) = [1, 2, 3, 4, 5, 9, 10, 11] := by decide +kernel

/-- C53, negation. A member of four lines copied into a macro on line 3: only the lines from the second one on are shown as part
of the macro, and only as far as the line number of the statement behind the `COPY`. -/
theorem C53_witness : ∃ s, (start 0 [] [⟨2, none, .other 0⟩, ⟨3, none, .copy (some 1)⟩, ⟨4, none, .mend⟩]).run
      [(1, ⟨7, [⟨0, none, .other 1⟩, ⟨1, none, .other 2⟩, ⟨6, none, .other 3⟩, ⟨8, none, .other 4⟩]⟩)] 20 = some (.done ⟨s, []⟩) ∧
    s.fileSlices 1 = some [(0, [⟨1, 5⟩]), (7, [⟨1, 4⟩])] := ⟨_, rfl, by decide +kernel⟩

end Verif.MacroDef
