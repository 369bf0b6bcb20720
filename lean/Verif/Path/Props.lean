import Verif.Path.Spec
/-!
C135: the place named by a path is not changed by what is done to the path, and a place has one name.
-/
namespace Verif.Path

/-- What can stand between slashes. -/
def Good (n : Text) : Prop := n ≠ [] ∧ 47 ∉ n

/-! ### Taking apart and putting together -/

theorem split_ne (t : Text) : split t ≠ [] := by
  cases t with
  | nil => simp [split]
  | cons c r =>
    unfold split
    split
    · simp
    · split <;> simp

theorem split_append (a b : Text) : split (a ++ 47 :: b) = split a ++ split b := by
  induction a with
  | nil => simp [split]
  | cons c r ih =>
    by_cases h : c = 47
    · simp [split, h, ih]
    · simp only [List.cons_append, split, h, if_false, ih]
      cases hr : split r with
      | nil => exact absurd hr (split_ne r)
      | cons s l => rfl

theorem split_single {s : Text} (h : 47 ∉ s) : split s = [s] := by
  induction s with
  | nil => rfl
  | cons c r ih =>
    simp only [List.mem_cons, not_or] at h
    have h1 : ¬ c = 47 := fun e => h.1 e.symm
    simp [split, h1, ih h.2]

theorem split_mem {t : Text} : ∀ s ∈ split t, 47 ∉ s := by
  induction t with
  | nil => simp [split]
  | cons c r ih =>
    unfold split
    split
    · intro s hs
      rcases List.mem_cons.1 hs with rfl | hs
      · simp
      · exact ih s hs
    · rename_i hc
      split
      · rename_i x l he
        intro s hs
        rcases List.mem_cons.1 hs with rfl | hs
        · simp only [List.mem_cons, not_or]
          exact ⟨fun e => hc e.symm, ih x (by simp [he])⟩
        · exact ih s (by simp [he, hs])
      · intro s hs
        simp only [List.mem_singleton] at hs
        subst hs
        simpa using fun e => hc e.symm

theorem names_good {t : Text} : ∀ n ∈ names t, Good n := by
  intro n hn
  simp only [names, List.mem_filter, decide_eq_true_eq, ne_eq] at hn
  exact ⟨by simpa using hn.2, split_mem n hn.1⟩

theorem names_append (a b : Text) : names (a ++ 47 :: b) = names a ++ names b := by
  simp [names, split_append]

theorem names_nil : names [] = [] := rfl

theorem names_snoc (a : Text) : names (a ++ [47]) = names a := by
  rw [names_append, names_nil, List.append_nil]

theorem names_cons (b : Text) : names (47 :: b) = names b := by
  have := names_append [] b
  simpa [names_nil] using this

theorem names_single {s : Text} (h : Good s) : names s = [s] := by
  simp [names, split_single h.2, h.1]

theorem names_glue {l : List Text} (h : ∀ n ∈ l, Good n) : names (glue l) = l := by
  induction l with
  | nil => rfl
  | cons s l ih =>
    cases l with
    | nil => exact names_single (h s (by simp))
    | cons x l =>
      rw [glue, names_append, names_single (h s (by simp)), ih (fun n hn => h n (by simp [hn]))]
      · rfl
      · simp

theorem glue_inj {a b : List Text} (ha : ∀ n ∈ a, Good n) (hb : ∀ n ∈ b, Good n) (h : glue a = glue b) : a = b := by
  rw [← names_glue ha, ← names_glue hb, h]

theorem glue_ne {x : Text} {l : List Text} (h : Good x) : glue (x :: l) ≠ [] := by
  cases l with
  | nil => exact h.1
  | cons y l => simp [glue]

theorem good_head {x : Text} (h : Good x) : x.head? ≠ some 47 := by
  intro he
  exact h.2 (List.mem_of_mem_head? he)

theorem good_last {x : Text} (h : Good x) : x.getLast? ≠ some 47 := by
  intro he
  exact h.2 (List.mem_of_getLast? he)

theorem glue_head {l : List Text} (h : ∀ n ∈ l, Good n) : rooted (glue l) = false := by
  cases l with
  | nil => rfl
  | cons x l =>
    have hx := h x (by simp)
    have : (glue (x :: l)).head? = x.head? := by
      cases l with
      | nil => rfl
      | cons y l =>
        cases x with
        | nil => exact absurd rfl hx.1
        | cons c r => simp [glue]
    simp [rooted, this, good_head hx]

theorem glue_last {l : List Text} (h : ∀ n ∈ l, Good n) : (glue l).getLast? ≠ some 47 := by
  induction l with
  | nil => simp [glue]
  | cons x l ih =>
    cases l with
    | nil => exact good_last (h x (by simp))
    | cons y l =>
      have h1 := ih (fun n hn => h n (by simp [hn]))
      have h2 : glue (y :: l) ≠ [] := glue_ne (h y (by simp))
      have h3 : glue (x :: y :: l) = (x ++ [47]) ++ glue (y :: l) := by rw [glue] <;> simp
      rw [h3, List.getLast?_append]
      cases hl : (glue (y :: l)).getLast? with
      | none => exact absurd (List.getLast?_eq_none_iff.1 hl) h2
      | some c => rw [hl] at h1; simpa using h1

/-! ### Walking -/

theorem walk_append (d : Place) (a b : List Text) : walk d (a ++ b) = walk (walk d a) b := by
  induction a generalizing d with
  | nil => rfl
  | cons n a ih => simp only [List.cons_append, walk, ih]

theorem walk_plain (d : Place) {a : List Text} (h1 : dot ∉ a) (h2 : dotdot ∉ a) : walk d a = d ++ a := by
  induction a generalizing d with
  | nil => simp [walk]
  | cons n a ih =>
    simp only [List.mem_cons, not_or] at h1 h2
    rw [walk, if_neg (fun e => h1.1 e.symm), if_neg (fun e => h2.1 e.symm), ih _ h1.2 h2.2]
    simp

theorem walk_up (d e : Place) : walk (d ++ e) (List.replicate e.length dotdot) = d := by
  have h : ∀ k (e : Place), e.length = k → walk (d ++ e) (List.replicate k dotdot) = d := by
    intro k
    induction k with
    | zero => intro e he; rw [List.length_eq_zero_iff.1 he]; simp [walk]
    | succ k ih =>
      intro e he
      have hne : e ≠ [] := by intro h; subst h; simp at he
      rw [List.replicate_succ, walk, if_neg (by decide), if_pos rfl, List.dropLast_append_of_ne_nil hne]
      exact ih _ (by simp [he])
  exact h _ e rfl

/-! ### The normal form -/

/-- What `lexically_normal` keeps, the last name first. -/
def Valid (root : Bool) : List Text → Prop
  | [] => True
  | x :: r => (Plain x ∧ Valid root r) ∨ (x = dotdot ∧ root = false ∧ ∀ y ∈ r, y = dotdot)

theorem valid_dotdots {r : List Text} (h : ∀ y ∈ r, y = dotdot) : Valid false r := by
  cases r with
  | nil => trivial
  | cons y r => exact .inr ⟨h y (by simp), rfl, fun z hz => h z (by simp [hz])⟩

theorem valid_tail {root : Bool} {x : Text} {r : List Text} (h : Valid root (x :: r)) : Valid root r := by
  rcases h with h | ⟨_, rfl, h⟩
  · exact h.2
  · exact valid_dotdots h

theorem valid_good {root : Bool} {st : List Text} (h : Valid root st) : ∀ x ∈ st, Good x ∧ x ≠ dot ∧ (root = true → x ≠ dotdot) := by
  induction st with
  | nil => simp
  | cons y r ih =>
    intro x hx
    rcases List.mem_cons.1 hx with rfl | hx
    · rcases h with ⟨h, _⟩ | ⟨rfl, hr, _⟩
      · exact ⟨⟨h.1, h.2.2.2⟩, h.2.1, fun _ => h.2.2.1⟩
      · exact ⟨⟨by decide, by decide⟩, by decide, by simp [hr]⟩
    · exact ih (valid_tail h) x hx

theorem valid_head {root : Bool} {x : Text} {r : List Text} (h : Valid root (x :: r)) (hx : x ≠ dotdot) : Plain x := by
  rcases h with h | h
  · exact h.1
  · exact absurd h.1 hx

theorem step_valid {root : Bool} {st : List Text × Bool} {n : Text} (h : Valid root st.1) (hn : Good n) : Valid root (step root st n).1 := by
  unfold step
  split
  · exact h
  · rename_i h1
    split
    · cases hs : st.1 with
      | nil =>
        simp only
        cases root
        · exact .inr ⟨rfl, rfl, by simp⟩
        · trivial
      | cons x r =>
        rw [hs] at h
        simp only
        split
        · rename_i hx
          rcases h with h | ⟨_, hr, h⟩
          · exact absurd hx h.1.2.2.1
          · exact .inr ⟨rfl, hr, by simpa [hx] using h⟩
        · exact valid_tail h
    · rename_i h2
      exact .inl ⟨⟨hn.1, h1, h2, hn.2⟩, h⟩

theorem step_walk {root : Bool} {st : List Text × Bool} {n : Text} {d : Place} (h : Valid root st.1) (hd : root = true → d = []) :
    walk d (step root st n).1.reverse = walk d (st.1.reverse ++ [n]) := by
  rw [walk_append]
  unfold step
  split
  · rename_i h1
    simp [walk, h1]
  · rename_i h1
    split
    · rename_i h2
      subst h2
      cases hs : st.1 with
      | nil =>
        cases root
        · simp [walk]
        · simp [walk, h1, hd rfl]
      | cons x r =>
        rw [hs] at h
        simp only
        split
        · rw [List.reverse_cons, walk_append]
        · rename_i hx
          have hp := valid_head h hx
          simp [walk_append, walk, h1, hp.2.1, hx]
    · rename_i h2
      simp [walk_append]

theorem fold_valid {root : Bool} {l : List Text} (hl : ∀ n ∈ l, Good n) {d : Place} (hd : root = true → d = []) :
    ∀ st : List Text × Bool, Valid root st.1 → Valid root (l.foldl (step root) st).1 ∧
      walk d (l.foldl (step root) st).1.reverse = walk d (st.1.reverse ++ l) := by
  induction l with
  | nil => intro st h; exact ⟨h, by simp⟩
  | cons n l ih =>
    intro st h
    have h1 := step_valid (n := n) h (hl n (by simp))
    obtain ⟨i1, i2⟩ := ih (fun m hm => hl m (by simp [hm])) (step root st n) h1
    refine ⟨i1, ?_⟩
    rw [List.foldl_cons, i2, walk_append, step_walk h hd, ← walk_append, List.append_assoc, List.singleton_append]

theorem fold_keeps {root : Bool} {st : List Text} (h : Valid root st) : st.reverse.foldl (step root) ([], false) = (st, false) := by
  induction st with
  | nil => rfl
  | cons x r ih =>
    rw [List.reverse_cons, List.foldl_append, ih (valid_tail h)]
    simp only [List.foldl_cons, List.foldl_nil]
    rcases h with ⟨h, _⟩ | ⟨rfl, hr, h⟩
    · simp [step, h.2.1, h.2.2.1]
    · subst hr
      cases r with
      | nil => simp [step, dot, dotdot]
      | cons y r =>
        have := h y (by simp)
        simp [step, this, dot, dotdot]

/-- What `lexically_normal` has kept at its end. -/
def kept (t : Text) : List Text × Bool := (names t).foldl (step (rooted t)) ([], false)

theorem kept_valid (t : Text) : Valid (rooted t) (kept t).1 := (fold_valid (d := []) names_good (fun _ => rfl) ([], false) trivial).1

theorem kept_walk (t : Text) {d : Place} (hd : rooted t = true → d = []) : walk d (kept t).1.reverse = walk d (names t) := by
  exact (fold_valid (d := d) (l := names t) names_good hd ([], false) trivial).2

theorem normal_def (t : Text) (ht : t ≠ []) : normal t = match kept t with
  | ([], _) => if rooted t then [47] else dot
  | (x :: r, b) => (if rooted t then [47] else []) ++ glue (x :: r).reverse ++ (if (b || slashed t) && x ≠ dotdot then [47] else []) := by
  rw [normal, if_neg ht]
  rfl

theorem reverse_good {t : Text} {x : Text} {r : List Text} {b : Bool} (h : kept t = (x :: r, b)) : ∀ n ∈ (x :: r).reverse, Good n := by
  intro n hn
  have := kept_valid t
  rw [h] at this
  exact (valid_good this n (List.mem_reverse.1 hn)).1

theorem good_dot : Good dot := ⟨by decide, by decide⟩

theorem glue_rev_ne {t : Text} {x : Text} {r : List Text} {b : Bool} (h : kept t = (x :: r, b)) : glue (x :: r).reverse ≠ [] := by
  have hg := reverse_good h
  cases hr : (x :: r).reverse with
  | nil => simp at hr
  | cons y l => rw [hr] at hg; exact glue_ne (hg y (by simp))

theorem normal_rooted (t : Text) : rooted (normal t) = rooted t := by
  by_cases ht : t = []
  · subst ht; rfl
  rw [normal_def t ht]
  cases hk : kept t with
  | mk st b =>
    cases st with
    | nil =>
      simp only
      cases rooted t <;> rfl
    | cons x r =>
      simp only
      cases rooted t with
      | true => rfl
      | false =>
        have h1 := glue_head (reverse_good hk)
        have h2 := glue_rev_ne hk
        cases hg : glue (x :: r).reverse with
        | nil => exact absurd hg h2
        | cons c l =>
          rw [hg] at h1
          simpa [rooted] using h1

theorem names_tail (s : Text) (b : Bool) : names (s ++ if b then [47] else []) = names s := by
  cases b
  · simp
  · exact names_snoc s

theorem names_front (s : Text) (b : Bool) : names ((if b then [47] else []) ++ s) = names s := by
  cases b
  · rfl
  · exact names_cons s

theorem normal_names (t : Text) (ht : t ≠ []) : names (normal t) = if (kept t).1 = [] then (if rooted t then [] else [dot]) else (kept t).1.reverse := by
  rw [normal_def t ht]
  cases hk : kept t with
  | mk st b =>
    cases st with
    | nil =>
      simp only
      cases rooted t <;> rfl
    | cons x r =>
      simp only
      rw [names_tail, names_front, names_glue (reverse_good hk)]
      simp

theorem normal_ne (t : Text) (ht : t ≠ []) : normal t ≠ [] := by
  rw [normal_def t ht]
  cases hk : kept t with
  | mk st b =>
    cases st with
    | nil =>
      simp only
      cases rooted t <;> decide
    | cons x r =>
      have := glue_rev_ne hk
      simp only
      intro h
      exact this (List.append_eq_nil_iff.1 (List.append_eq_nil_iff.1 h).1).2

/-- C135: the normal form of a path names the same place. -/
theorem C135_place (t : Text) (cwd : Place) : place cwd (normal t) = place cwd t := by
  by_cases ht : t = []
  · subst ht; rfl
  unfold place
  rw [normal_rooted, normal_names t ht]
  have hk := kept_walk t (d := if rooted t then [] else cwd) (fun h => by simp [h])
  rw [← hk]
  by_cases h : (kept t).1 = []
  · rw [if_pos h, h]
    cases hr : rooted t <;> simp [walk]
  · rw [if_neg h]

theorem last_mid (a : Text) {g : Text} (hg : g ≠ []) (h : g.getLast? ≠ some 47) : (a ++ g).getLast? ≠ some 47 := by
  rw [List.getLast?_append]
  cases hl : g.getLast? with
  | none => exact absurd (List.getLast?_eq_none_iff.1 hl) hg
  | some c => rw [hl] at h; simpa using h

/-- C135: the normal form of a normal form is itself. -/
theorem C135_idempotent (t : Text) : normal (normal t) = normal t := by
  by_cases ht : t = []
  · subst ht; rfl
  have hn := normal_names t ht
  have hr := normal_rooted t
  have hv := kept_valid t
  cases hk : kept t with
  | mk st b =>
    rw [hk] at hv
    cases st with
    | nil =>
      rw [normal_def t ht, hk]
      simp only
      cases rooted t <;> decide
    | cons x r =>
      rw [hk] at hn
      simp only [reduceCtorEq, if_false] at hn
      have hkk : kept (normal t) = (x :: r, false) := by
        unfold kept
        rw [hn, hr]
        exact fold_keeps hv
      have hs : (slashed (normal t) && decide (x ≠ dotdot)) = ((b || slashed t) && decide (x ≠ dotdot)) := by
        unfold slashed
        rw [hn, normal_def t ht, hk]
        have hne : (x :: r).reverse ≠ [] := by simp
        change (decide (_ = _) && decide _ && _) = ((b || slashed t) && decide (x ≠ dotdot))
        simp only [ne_eq, hne, not_false_eq_true, decide_true, Bool.and_true]
        by_cases hc : ((b || slashed t) && decide (x ≠ dotdot)) = true
        · have hc' := hc
          simp only [Bool.and_eq_true] at hc'
          have hx : x ≠ dotdot := by simpa using hc'.2
          simp [hx, hc'.1]
        · have h1 := glue_last (reverse_good hk)
          have h2 := glue_rev_ne hk
          have h3 := last_mid (if rooted t = true then [47] else []) h2 h1
          have hc2 : ((b || slashed t) && decide ¬ (x = dotdot)) = false := by simpa using hc
          simp only [hc2, Bool.false_eq_true, if_false, List.append_nil]
          simp only [h3, decide_false, Bool.false_and]
      rw [normal_def _ (normal_ne t ht), hkk, hr]
      simp only [Bool.false_or]
      rw [hs, normal_def t ht, hk]

/-! ### Places have one name -/

theorem kept_place {t : Text} (h : rooted t = true) : (kept t).1.reverse = place [] t := by
  have h1 := kept_walk t (d := []) (fun _ => rfl)
  have hv := kept_valid t
  rw [h] at hv
  unfold place
  rw [if_pos h, ← h1, walk_plain]
  · simp
  · intro hm; exact (valid_good hv _ (List.mem_reverse.1 hm)).2.1 rfl
  · intro hm; exact (valid_good hv _ (List.mem_reverse.1 hm)).2.2 rfl rfl

theorem place_good {t : Text} (h : rooted t = true) : ∀ n ∈ place [] t, Good n := by
  intro n hn
  rw [← kept_place h] at hn
  exact (valid_good (kept_valid t) _ (List.mem_reverse.1 hn)).1

/-- The normal form of an absolute path. -/
theorem normal_abs {t : Text} (h : rooted t = true) : ∃ b, (slashed t = true → b = true) ∧
    normal t = 47 :: glue (place [] t) ++ (if b && place [] t ≠ [] then [47] else []) := by
  have ht : t ≠ [] := by intro e; subst e; cases h
  have hp := kept_place h
  have hv := kept_valid t
  rw [normal_def t ht]
  cases hk : kept t with
  | mk st b =>
    rw [hk] at hp hv
    cases st with
    | nil =>
      refine ⟨true, fun _ => rfl, ?_⟩
      simp only [List.reverse_nil] at hp
      simp [h, ← hp, glue]
    | cons x r =>
      refine ⟨b || slashed t, fun hs => by simp [hs], ?_⟩
      have hx : x ≠ dotdot := (valid_good hv x (by simp)).2.2 h
      have hne : place [] t ≠ [] := by rw [← hp]; simp
      simp only
      rw [hp]
      simp [h, hx, hne]

theorem bare_abs {t : Text} (h : rooted t = true) : bare (normal t) = 47 :: glue (place [] t) := by
  obtain ⟨b, _, hb⟩ := normal_abs h
  rw [hb]
  have hg := place_good h
  by_cases hne : place [] t = []
  · rw [hne]; simp [glue, bare]
  · have h1 := glue_last hg
    have h2 : glue (place [] t) ≠ [] := by
      cases hp : place [] t with
      | nil => exact absurd hp hne
      | cons x l => rw [hp] at hg; exact glue_ne (hg x (by simp))
    cases b with
    | true =>
      have h3 : 47 :: glue (place [] t) ++ [47] ≠ [47] := by simp [h2]
      have h4 : (47 :: glue (place [] t) ++ [47]).getLast? = some 47 := by rw [List.getLast?_append]; rfl
      simp only [Bool.true_and, ne_eq, hne, not_false_eq_true, decide_true, if_true, bare]
      rw [if_pos ⟨h3, h4⟩, List.dropLast_concat]
    | false =>
      have h4 : ([47] ++ glue (place [] t)).getLast? ≠ some 47 := last_mid _ h2 h1
      simp only [Bool.false_and, Bool.false_eq_true, if_false, List.append_nil, bare]
      rw [if_neg (fun hh => h4 hh.2)]

/-- C135: two absolute paths have, but for a slash at the end, the same normal form exactly when they name the same place. -/
theorem C135_same (s t : Text) (hs : rooted s = true) (ht : rooted t = true) : bare (normal s) = bare (normal t) ↔ place [] s = place [] t := by
  rw [bare_abs hs, bare_abs ht]
  constructor
  · intro h
    exact glue_inj (place_good hs) (place_good ht) (List.cons.inj h).2
  · intro h; rw [h]

/-! ### Joining -/

theorem join_names (l r : Text) : names (join l r) = if rooted r then names r else names l ++ names r := by
  unfold join
  split
  · rfl
  · split
    · rename_i h
      rcases h with rfl | h
      · simp [names_nil]
      · obtain ⟨l', rfl⟩ : ∃ l', l = l' ++ [47] := by
          obtain ⟨ys, hy⟩ := List.getLast?_eq_some_iff.1 h
          exact ⟨ys, hy⟩
        rw [List.append_assoc, List.singleton_append, names_append, names_snoc]
    · rw [names_append]

theorem join_rooted (l r : Text) : rooted (join l r) = (rooted r || rooted l) := by
  unfold join
  split
  · rename_i h; simp [h]
  · rename_i h
    simp only [Bool.not_eq_true] at h
    split
    · rename_i h2
      cases l with
      | nil => simp [h]; rfl
      | cons c l => rw [h]; rfl
    · cases l with
      | nil => rename_i h2; exact absurd (Or.inl rfl) h2
      | cons c l => rw [h]; rfl

/-- Joined paths are read one in the place of the other. -/
theorem place_join (cwd : Place) (l r : Text) : place cwd (join l r) = place (place cwd l) r := by
  unfold place
  rw [join_names, join_rooted]
  cases hr : rooted r with
  | true => simp
  | false => simp [walk_append]

/-! ### Libraries -/

/-- The path of a library with a slash at its end. -/
def dirText (p : Text) : Text := if p.isEmpty then [] else join p []

theorem lib_eq (ws p : Text) : Config.libPath posix ws p = normal (if rooted (dirText p) then dirText p else join ws (dirText p)) := rfl

theorem dir_place (c : Place) (p : Text) : place c (dirText p) = place c p := by
  unfold dirText
  split
  · rename_i h; rw [List.isEmpty_iff.1 h]
  · rw [place_join]; rfl

theorem place_rooted {t : Text} (h : rooted t = true) (c d : Place) : place c t = place d t := by
  unfold place
  rw [if_pos h, if_pos h]

/-- C135: the path of a library is that of the configuration read in the workspace. -/
theorem C135_library (cwd : Place) (ws p : Text) : place cwd (Config.libPath posix ws p) = place (place cwd ws) p := by
  rw [lib_eq, C135_place]
  split
  · rename_i h
    rw [← dir_place (place cwd ws)]
    exact place_rooted h _ _
  · rw [place_join, dir_place]

theorem join_slash (l : Text) : (join l []).getLast? = some 47 ∨ l = [] := by
  unfold join
  rw [if_neg (by decide)]
  split
  · rename_i h
    rcases h with h | h
    · exact .inr h
    · simp [h]
  · simp

theorem lib_text (ws p : Text) (hw : rooted ws = true) : ∃ t, Config.libPath posix ws p = normal t ∧ rooted t = true ∧ t.getLast? = some 47 := by
  have hws : ws ≠ [] := by intro e; subst e; cases hw
  have hd : (dirText p).getLast? = some 47 ∨ dirText p = [] := by
    unfold dirText
    split
    · exact .inr rfl
    · rename_i h
      exact .inl ((join_slash p).resolve_right fun e => h (by rw [e]; rfl))
  refine ⟨_, lib_eq ws p, ?_, ?_⟩
  · split
    · rename_i h; exact h
    · rw [join_rooted, hw]; simp
  · split
    · rename_i h
      exact hd.resolve_right fun e => by rw [e] at h; cases h
    · rename_i h
      rcases hd with hd | hd
      · unfold join
        rw [if_neg h]
        split
        · rw [List.getLast?_append, hd]; rfl
        · have : ws ++ 47 :: dirText p = (ws ++ [47]) ++ dirText p := by simp
          rw [this, List.getLast?_append, hd]; rfl
      · rw [hd]
        exact (join_slash ws).resolve_right hws

/-- C135: libraries in the same directory have the same path, however it is written. -/
theorem C135_library_same (ws p q : Text) (hw : rooted ws = true) :
    Config.libPath posix ws p = Config.libPath posix ws q ↔ place (place [] ws) p = place (place [] ws) q := by
  have form : ∀ p, Config.libPath posix ws p = 47 :: glue (place (place [] ws) p) ++ (if place (place [] ws) p ≠ [] then [47] else []) := by
    intro p
    obtain ⟨t, h1, h2, h3⟩ := lib_text ws p hw
    obtain ⟨b, h4, h5⟩ := normal_abs h2
    have h6 : place [] t = place (place [] ws) p := by rw [← C135_library [] ws p, h1, C135_place]
    rw [h1, h5, h6]
    by_cases hne : place (place [] ws) p = []
    · simp [hne]
    · have hs : slashed t = true := by
        have : names t ≠ [] := by
          intro e
          apply hne
          rw [← h6]
          simp [place, e, walk, h2]
        simp [slashed, h3, this]
      simp [h4 hs, hne]
  constructor
  · intro h
    rw [← C135_library [] ws p, ← C135_library [] ws q, h]
  · intro h
    rw [form, form, h]

end Verif.Path
