import Verif.MacroDef.Facts

/-!
Properties of the bodies of macros (C98) and of their sequence symbols (C99).
-/
namespace Verif.MacroDef

/-! ## The specification -/

/-- A definition ends with the first `MEND` that has only complete definitions in front of it. -/
theorem split_some (c : Nat) (ts b rest : List Stmt) : split c ts = (b, some rest) ↔
    ts = b ++ rest ∧ ∃ b0 e, b = b0 ++ [e] ∧ e.op = .mend ∧ dep b0 c = some 0 := by
  induction ts generalizing c b with
  | nil =>
    simp only [split, Prod.mk.injEq, reduceCtorEq, and_false, false_iff]
    rintro ⟨h, b0, e, rfl, -⟩
    simp at h
  | cons t ts ih =>
    have step : ∀ c', (∀ b0 : List Stmt, dep (t :: b0) c = some 0 ↔ dep b0 c' = some 0) → split c (t :: ts) = (t :: (split c' ts).1, (split c' ts).2) →
        ¬ (t.op = .mend ∧ c = 0) →
        (split c (t :: ts) = (b, some rest) ↔ t :: ts = b ++ rest ∧ ∃ b0 e, b = b0 ++ [e] ∧ e.op = .mend ∧ dep b0 c = some 0) := by
      intro c' hdep hsp hne
      rw [hsp]
      constructor
      · intro h
        obtain ⟨h1, h2⟩ := Prod.mk.inj h
        obtain ⟨h3, b0, e, h4, h5, h6⟩ := (ih c' (split c' ts).1).1 (by rw [← h2])
        refine ⟨by rw [← h1, List.cons_append, ← h3], t :: b0, e, by rw [← h1, h4]; rfl, h5, (hdep b0).2 h6⟩
      · rintro ⟨h, b0, e, rfl, h5, h6⟩
        cases b0 with
        | nil =>
          obtain ⟨rfl, -⟩ := List.cons.inj h
          exact absurd ⟨h5, by simpa [dep] using h6⟩ hne
        | cons t' b0 =>
          obtain ⟨rfl, h'⟩ := List.cons.inj h
          rw [(ih c' (b0 ++ [e])).2 ⟨h', b0, e, rfl, h5, (hdep b0).1 h6⟩]
          rfl
    cases h : t.op with
    | mbegin => exact step (c + 1) (fun b0 => by simp [dep, h]) (by simp [split, h]) (by simp [h])
    | mend =>
      by_cases hc : c = 0
      · subst hc
        have hsp : split 0 (t :: ts) = ([t], some ts) := by simp [split, h]
        rw [hsp]
        constructor
        · intro h'
          obtain ⟨rfl, h2⟩ := Prod.mk.inj h'
          obtain rfl := Option.some.inj h2
          exact ⟨rfl, [], t, rfl, h, rfl⟩
        · rintro ⟨h1, b0, e, rfl, h5, h6⟩
          cases b0 with
          | nil =>
            obtain ⟨rfl, h2⟩ := List.cons.inj h1
            rw [h2]; rfl
          | cons t' b0 =>
            obtain ⟨rfl, -⟩ := List.cons.inj h1
            simp [dep, h] at h6
      · exact step (c - 1) (fun b0 => by simp [dep, h, hc]) (by simp [split, h, hc]) (by simp [hc])
    | anop => exact step c (fun b0 => by simp [dep, h]) (by simp [split, h]) (by simp [h])
    | copy m => exact step c (fun b0 => by simp [dep, h]) (by simp [split, h]) (by simp [h])
    | other x => exact step c (fun b0 => by simp [dep, h]) (by simp [split, h]) (by simp [h])

theorem split_none (c : Nat) (ts : List Stmt) (h : (split c ts).2 = none) : (split c ts).1 = ts := by
  induction ts generalizing c with
  | nil => rfl
  | cons t ts ih =>
    cases hc : t.op with
    | mbegin => simp only [split, hc] at h ⊢; rw [ih _ h]
    | mend =>
      by_cases h0 : c = 0
      · simp [split, hc, h0] at h
      · simp only [split, hc, h0, if_false] at h ⊢; rw [ih _ h]
    | anop => simp only [split, hc] at h ⊢; rw [ih _ h]
    | copy m => simp only [split, hc] at h ⊢; rw [ih _ h]
    | other x => simp only [split, hc] at h ⊢; rw [ih _ h]

theorem expand_more (lib : Lib) (d : Nat) : ∀ (ts : List Stmt) (opened : List Name) (path : List Loc) (file : File), free lib opened < d →
    expand lib (d + 1) opened path file ts = expand lib d opened path file ts := by
  induction d with
  | zero => intro _ _ _ _ h; omega
  | succ d ih =>
    intro ts opened path file h
    rw [expand_eq, expand_eq]
    congr 1
    funext t
    unfold expandOne
    cases t.op with
    | copy m =>
      cases m with
      | none => rfl
      | some n =>
        simp only
        cases hf : lib.find n with
        | none => rfl
        | some m =>
          simp only
          by_cases ho : n ∈ opened
          · simp [ho]
          · simp only [ho, if_false]
            congr 1
            exact ih _ _ _ _ (by have := free_lt hf (opened := opened) (by simpa using ho); omega)
    | _ => rfl

/-- C98. The depth of the specified body is no restriction: members that copy each other stop by themselves. -/
theorem C98_depth (lib : Lib) (opened : List Name) (path : List Loc) (file : File) (ts : List Stmt) (k : Nat) :
    expand lib (lib.length + 1 + k) opened path file ts = expand lib (lib.length + 1) opened path file ts := by
  induction k with
  | zero => rfl
  | succ k ih =>
    rw [← ih, ← Nat.add_assoc]
    exact expand_more lib _ _ _ _ _ (by have := free_le lib opened; omega)

theorem final_facts (lib : Lib) (file : File) (above : List Name) (ts : List Stmt) :
    (final lib file above ts).defn = (bodyOf lib file above ts).map (·.stmt.executed) ∧
    (final lib file above ts).nests = (bodyOf lib file above ts).map (·.path) ∧
    LabelsOf (final lib file above ts).labels (bodyOf lib file above ts) ∧
    (final lib file above ts).diags = reports (bodyOf lib file above ts) := by
  obtain ⟨h1, h2, -⟩ := fold_plain (bodyOf lib file above ts) { file := file, above := above }
  obtain ⟨e, he, -⟩ := body_dep lib file above ts
  obtain ⟨h3, h4⟩ := fold_labels (bodyOf lib file above ts) { file := file, above := above } rfl rfl rfl rfl e he
    (expand_report lib _ _ _ _ _)
  exact ⟨h1.trans (by simp), h2.trans (by simp), h3, h4⟩

/-! ## C98 -/

/-- C98. A definition whose `MEND` is there: it consists of the statements to that `MEND` with the members copied into them, each
with its places, nothing behind the `MEND` is touched, and exactly the specified reports are made. -/
theorem C98_definition (lib : Lib) (file : File) (above : List Name) (b rest : List Stmt) (e : Stmt) (hb : Balanced b) (he : e.op = .mend) :
    ∃ k r, (∀ m, (start file above (b ++ e :: rest)).run lib (k + m) = some (.done r)) ∧ r.rest = rest ∧
      r.st.defn = (expand lib (lib.length + 1) above [] file (b ++ [e])).map (·.stmt.executed) ∧
      r.st.nests = (expand lib (lib.length + 1) above [] file (b ++ [e])).map (·.path) ∧
      r.st.diags = reports (expand lib (lib.length + 1) above [] file (b ++ [e])) := by
  have hsp : split 0 (b ++ e :: rest) = (b ++ [e], some rest) :=
    (split_some 0 _ _ _).2 ⟨by simp, b, e, rfl, he, (balanced_iff b).1 hb⟩
  obtain ⟨k, hk⟩ := run_final lib file above (b ++ e :: rest)
  obtain ⟨h1, h2, -, h4⟩ := final_facts lib file above (b ++ e :: rest)
  rw [hsp] at hk
  unfold bodyOf at h1 h2 h4
  rw [hsp] at h1 h2 h4
  exact ⟨k, _, hk, rfl, h1, h2, h4⟩

/-- C98. A definition without its `MEND` takes all statements, and this is reported in the end. -/
theorem C98_unfinished (lib : Lib) (file : File) (above : List Name) (ts : List Stmt)
    (h : ¬ ∃ b e rest, ts = b ++ e :: rest ∧ Balanced b ∧ e.op = .mend) :
    ∃ k r, (∀ m, (start file above ts).run lib (k + m) = some (.done r)) ∧ r.rest = [] ∧
      r.st.defn = (expand lib (lib.length + 1) above [] file ts).map (·.stmt.executed) ∧
      r.st.nests = (expand lib (lib.length + 1) above [] file ts).map (·.path) ∧
      r.st.diags = reports (expand lib (lib.length + 1) above [] file ts) ++ [.E046] := by
  have hsp : (split 0 ts).2 = none := by
    cases hs : (split 0 ts).2 with
    | none => rfl
    | some rest =>
      obtain ⟨h1, b0, e, h2, h3, h4⟩ := (split_some 0 ts (split 0 ts).1 rest).1 (by rw [← hs])
      exact absurd ⟨b0, e, rest, by rw [h1, h2]; simp, (balanced_iff b0).2 h4, h3⟩ h
  obtain ⟨k, hk⟩ := run_final lib file above ts
  obtain ⟨h1, h2, -, h4⟩ := final_facts lib file above ts
  rw [hsp] at hk
  unfold bodyOf at h1 h2 h4
  rw [split_none 0 ts hsp] at h1 h2 h4
  exact ⟨k, _, hk, rfl, h1, h2, by rw [← h4]⟩

/-- C98. What a `COPY` statement becomes: itself without effect, followed by the statements of the member. -/
theorem C98_copy (lib : Lib) (d : Nat) (above : List Name) (path : List Loc) (file : File) (t : Stmt) (n : Name) (m : Member) (before behind : List Stmt)
    (ht : t.op = .copy (some n)) (hm : lib.find n = some m) (ho : n ∉ above) (hb : Balanced m.stmts) :
    expand lib (d + 1) above path file (before ++ t :: behind) =
      expand lib (d + 1) above path file before ++
      ⟨t, path ++ [⟨file, t.line⟩], none⟩ :: expand lib d (n :: above) (path ++ [⟨file, t.line⟩]) m.file m.stmts ++
      expand lib (d + 1) above path file behind := by
  simp only [expand_eq, List.flatMap_append, List.flatMap_cons]
  have : expandOne lib d above path file t = ⟨t, path ++ [⟨file, t.line⟩], none⟩ :: expand lib d (n :: above) (path ++ [⟨file, t.line⟩]) m.file m.stmts := by
    unfold expandOne
    rw [ht]
    simp only [hm, ho, if_false, hb, if_true]
  rw [this]
  simp

/-- A member that copies itself through another one, a member with an unclosed definition and one with a complete definition. -/
def exLib : Lib :=
  [(1, ⟨10, [⟨0, some 7, .other 1⟩, ⟨1, none, .copy (some 2)⟩]⟩), (2, ⟨20, [⟨0, none, .copy (some 1)⟩, ⟨1, some 7, .other 2⟩]⟩),
   (3, ⟨30, [⟨0, none, .mend⟩]⟩), (4, ⟨40, [⟨0, none, .mbegin⟩, ⟨1, some 7, .other 3⟩, ⟨2, none, .mend⟩]⟩)]

/-- The body of a macro that copies all of them. -/
def exBody : List Stmt := [⟨2, none, .copy (some 4)⟩, ⟨3, none, .copy (some 3)⟩, ⟨4, some 8, .copy (some 1)⟩, ⟨5, none, .copy (some 9)⟩]

example : Balanced exBody ∧ (bodyOf exLib 0 [] (exBody ++ [⟨6, some 9, .mend⟩, ⟨7, none, .mbegin⟩])).map (fun p => (p.stmt.line, p.path.map (·.file))) =
    [(2, [0]), (0, [0, 40]), (1, [0, 40]), (2, [0, 40]), (3, [0]), (4, [0]), (0, [0, 10]), (1, [0, 10]), (0, [0, 10, 20]), (1, [0, 10, 20]),
     (5, [0]), (6, [0])] ∧
    reports (bodyOf exLib 0 [] (exBody ++ [⟨6, some 9, .mend⟩, ⟨7, none, .mbegin⟩])) = [.E062 0, .E044 1, .E058 5] := by decide +kernel

example : ¬ ∃ b e rest, [(⟨1, none, .mbegin⟩ : Stmt), ⟨2, none, .mend⟩] = b ++ e :: rest ∧ Balanced b ∧ e.op = .mend := by
  rintro ⟨b, e, rest, h, hb, he⟩
  rcases b with _ | ⟨x, _ | ⟨y, b⟩⟩
  · obtain ⟨rfl, -⟩ := List.cons.inj h; simp at he
  · obtain ⟨rfl, -⟩ := List.cons.inj h; exact absurd hb (by decide)
  · simp at h

/-! ## C99 -/

/-- C99. A branch goes to the first statement with the symbol outside of inner definitions. -/
theorem C99_branch (lib : Lib) (file : File) (above : List Name) (ts : List Stmt) (n : Name) (i : Nat) (p : Placed)
    (hp : (bodyOf lib file above ts)[i]? = some p) (hi : declares (bodyOf lib file above ts) i = some n)
    (hfirst : ∀ j, j < i → declares (bodyOf lib file above ts) j ≠ some n) :
    ∃ k r, (∀ m, (start file above ts).run lib (k + m) = some (.done r)) ∧ r.st.jump n = some (some p.stmt.executed) := by
  obtain ⟨k, hk⟩ := run_final lib file above ts
  obtain ⟨h1, -, h3, -⟩ := final_facts lib file above ts
  have hjump : ∀ s : St, s.defn = (final lib file above ts).defn → s.labels = (final lib file above ts).labels → s.jump n = some (some p.stmt.executed) := by
    intro s hd hl
    unfold St.jump
    rw [hd, hl, h1]
    cases hf : (final lib file above ts).labels.find? (·.1 == n) with
    | none =>
      have := (List.find?_eq_none.1 hf) (n, i) ((h3 n i).2 ⟨hi, hfirst⟩)
      simp at this
    | some l =>
      have hl1 : l.1 = n := by simpa using List.find?_some hf
      have hl2 := List.mem_of_find?_eq_some hf
      obtain ⟨m, j⟩ := l
      simp only at hl1
      subst hl1
      obtain ⟨hj1, hj2⟩ := (h3 m j).1 hl2
      have : j = i := by
        rcases Nat.lt_trichotomy i j with h | h | h
        · exact absurd hi (hj2 i h)
        · exact h.symm
        · exact absurd hj1 (hfirst j h)
      subst this
      have hlt := (List.getElem?_eq_some_iff.1 hp).1
      simp only [Option.map_some]
      rw [if_neg (by simp; omega), show ((j : Int) - 1 + 1).toNat = j by omega, List.getElem?_map, hp]
      rfl
  cases hsp : (split 0 ts).2 with
  | some rest => rw [hsp] at hk; exact ⟨k, _, hk, hjump _ rfl rfl⟩
  | none => rw [hsp] at hk; exact ⟨k, _, hk, hjump _ rfl rfl⟩

/-- C99. A branch to a symbol that no statement of the macro outside of inner definitions has is refused. -/
theorem C99_missing (lib : Lib) (file : File) (above : List Name) (ts : List Stmt) (n : Name)
    (h : ∀ i, declares (bodyOf lib file above ts) i ≠ some n) :
    ∃ k r, (∀ m, (start file above ts).run lib (k + m) = some (.done r)) ∧ r.st.jump n = none := by
  obtain ⟨k, hk⟩ := run_final lib file above ts
  obtain ⟨-, -, h3, -⟩ := final_facts lib file above ts
  have hjump : ∀ s : St, s.labels = (final lib file above ts).labels → s.jump n = none := by
    intro s hl
    unfold St.jump
    rw [hl, Option.map_eq_none_iff, List.find?_eq_none]
    rintro ⟨m, i⟩ hm he
    have : m = n := by simpa using he
    subst this
    exact h i ((h3 m i).1 hm).1
  cases hsp : (split 0 ts).2 with
  | some rest => rw [hsp] at hk; exact ⟨k, _, hk, hjump _ rfl⟩
  | none => rw [hsp] at hk; exact ⟨k, _, hk, hjump _ rfl⟩

/-- C99. Duplicates: a symbol is reported exactly for the statements of the macro behind the first one that has it. -/
theorem C99_duplicates (lib : Lib) (file : File) (above : List Name) (ts : List Stmt) :
    ∃ k r, (∀ m, (start file above ts).run lib (k + m) = some (.done r)) ∧
      r.st.diags.filter (fun d => match d with | .E044 _ => true | _ => false) =
        ((List.range (bodyOf lib file above ts).length).filter (repeats (bodyOf lib file above ts))).flatMap
          (fun i => ((bodyOf lib file above ts)[i]?).toList.map fun p => Diag.E044 p.stmt.line) := by
  obtain ⟨k, hk⟩ := run_final lib file above ts
  obtain ⟨-, -, -, h4⟩ := final_facts lib file above ts
  have hrep : ∀ (p : Placed), p ∈ bodyOf lib file above ts → ∀ l, p.report ≠ some (.E044 l) := by
    have : ∀ (d : Nat) (ts : List Stmt) (opened : List Name) (path : List Loc) (file : File),
        ∀ p ∈ expand lib d opened path file ts, ∀ l, p.report ≠ some (.E044 l) := by
      intro d
      induction d with
      | zero => intro ts opened path file p hp; cases hp
      | succ d ih =>
        intro ts opened path file p hp l
        rw [expand_eq, List.mem_flatMap] at hp
        obtain ⟨t, -, hp⟩ := hp
        unfold expandOne at hp
        cases h : t.op with
        | copy m =>
          rw [h] at hp
          cases m with
          | none => simp only [List.mem_singleton] at hp; subst hp; simp
          | some n =>
            simp only at hp
            cases hf : lib.find n with
            | none => rw [hf] at hp; simp only [List.mem_singleton] at hp; subst hp; simp
            | some m =>
              rw [hf] at hp
              by_cases ho : n ∈ opened
              · simp only [ho, if_true, List.mem_singleton] at hp; subst hp; simp
              · simp only [ho, if_false, List.mem_cons] at hp
                rcases hp with rfl | hp
                · simp
                · exact ih _ _ _ _ p hp l
        | _ => rw [h] at hp; simp only [List.mem_singleton] at hp; subst hp; simp
    exact fun p hp => this _ _ _ _ _ p hp
  generalize hps : bodyOf lib file above ts = ps at *
  have key : (reports ps).filter (fun d => match d with | .E044 _ => true | _ => false) =
      ((List.range ps.length).filter (repeats ps)).flatMap (fun i => (ps[i]?).toList.map fun p => Diag.E044 p.stmt.line) := by
    unfold reports
    generalize List.range ps.length = xs
    induction xs with
    | nil => rfl
    | cons x xs ih =>
      rw [List.flatMap_cons, List.filter_append, ih, List.filter_cons]
      have hx : (reportsAt ps x).filter (fun d => match d with | .E044 _ => true | _ => false) =
          if repeats ps x then (ps[x]?).toList.map (fun p => Diag.E044 p.stmt.line) else [] := by
        unfold reportsAt
        cases hg : ps[x]? with
        | none => simp
        | some p =>
          have := hrep p (List.mem_of_getElem? hg)
          have h2 : (p.report.toList).filter (fun d => match d with | .E044 _ => true | _ => false) = [] := by
            cases hr : p.report with
            | none => rfl
            | some d =>
              cases d with
              | E044 l => exact absurd hr (this l)
              | _ => rfl
          simp only [Option.toList_some, Option.bind_some, List.filter_append, h2]
          by_cases hrx : repeats ps x = true <;> simp [hrx]
      rw [hx]
      by_cases hrx : repeats ps x = true <;> simp [hrx]
  cases hsp : (split 0 ts).2 with
  | some rest =>
    rw [hsp] at hk
    refine ⟨k, _, hk, ?_⟩
    simp only
    rw [h4]; exact key
  | none =>
    rw [hsp] at hk
    refine ⟨k, _, hk, ?_⟩
    simp only
    rw [h4, List.filter_append, key]
    simp

example : (List.range 13).map (declares (bodyOf exLib 0 [] (exBody ++ [⟨6, some 9, .mend⟩]))) =
    [none, none, none, none, none, some 8, some 7, none, none, some 7, none, some 9, none] := by decide +kernel

end Verif.MacroDef
