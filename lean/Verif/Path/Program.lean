import Verif.Path.Props
/-!
C135: programs are found under the names the configuration gives them; Windows.
-/
namespace Verif.Path

/-! ### Relative paths -/

theorem mismatch_eq (a b : List Text) : ∃ c, a = c ++ (mismatch a b).1 ∧ b = c ++ (mismatch a b).2 := by
  induction a generalizing b with
  | nil => exact ⟨[], by cases b <;> rfl, by cases b <;> rfl⟩
  | cons x a ih =>
    cases b with
    | nil => exact ⟨[], rfl, rfl⟩
    | cons y b =>
      simp only [mismatch]
      split
      · rename_i h
        obtain ⟨c, h1, h2⟩ := ih b
        exact ⟨x :: c, by rw [List.cons_append, ← h1], by rw [List.cons_append, ← h2, h]⟩
      · exact ⟨[], rfl, rfl⟩

/-- Elements of a path behind the root: names, and at the end perhaps nothing. -/
def tailOf (t : Text) : List Text := names t ++ (if slashed t then [[]] else [])

theorem elems_eq (t : Text) : elems t = (if rooted t then [[47]] else []) ++ tailOf t := by
  unfold elems tailOf
  rw [List.append_assoc]

theorem filter_good {l : List Text} (h : ∀ n ∈ l, Good n) : l.filter (· ≠ []) = l := by
  rw [List.filter_eq_self]
  intro n hn
  simpa using (h n hn).1

theorem tail_filter (t : Text) : (tailOf t).filter (· ≠ []) = names t := by
  unfold tailOf
  rw [List.filter_append, filter_good names_good]
  split <;> simp

theorem tail_elem {t : Text} : ∀ e ∈ tailOf t, e = [] ∨ Good e := by
  intro e he
  unfold tailOf at he
  rcases List.mem_append.1 he with he | he
  · exact .inr (names_good e he)
  · split at he
    · simp only [List.mem_singleton] at he; exact .inl he
    · cases he

theorem last_empty {l z : List Text} (hg : ∀ n ∈ l, Good n) (hz : z.length ≤ 1) {c r : List Text} (h : l ++ z = c ++ [] :: r) : r = [] := by
  induction c generalizing l with
  | nil =>
    cases l with
    | nil =>
      simp only [List.nil_append] at h
      subst h
      simpa using hz
    | cons x l =>
      simp only [List.cons_append, List.nil_append, List.cons.injEq] at h
      exact absurd h.1 (hg x (by simp)).1
  | cons y c ih =>
    cases l with
    | nil =>
      simp only [List.nil_append] at h
      subst h
      simp at hz
    | cons x l =>
      simp only [List.cons_append, List.cons.injEq] at h
      exact ih (fun n hn => hg n (by simp [hn])) h.2

theorem tail_last {t : Text} {c r : List Text} (h : tailOf t = c ++ [] :: r) : r = [] := by
  refine last_empty names_good ?_ h
  split <;> simp

theorem fold_join (es : List Text) (he : ∀ e ∈ es, e = [] ∨ Good e) : ∀ acc, rooted acc = false →
    names (es.foldl join acc) = names acc ++ es.filter (· ≠ []) ∧ rooted (es.foldl join acc) = false := by
  induction es with
  | nil => intro acc h; exact ⟨by simp, h⟩
  | cons e es ih =>
    intro acc h
    have h1 : rooted e = false := by
      rcases he e (by simp) with rfl | h
      · rfl
      · simp [rooted, good_head h]
    have h2 : names e = [e].filter (· ≠ []) := by
      rcases he e (by simp) with rfl | h
      · rfl
      · rw [names_single h]; simp [h.1]
    obtain ⟨i1, i2⟩ := ih (fun x hx => he x (by simp [hx])) (join acc e) (by rw [join_rooted, h1, h]; rfl)
    refine ⟨?_, i2⟩
    rw [List.foldl_cons, i1, join_names, h1, h2]
    simp only [Bool.false_eq_true, if_false, List.append_assoc, ← List.filter_append]
    rfl

theorem mismatch_cons (x : Text) (a b : List Text) : mismatch (x :: a) (x :: b) = mismatch a b := by
  simp [mismatch]

theorem mismatch_elems {p q : Text} (h : rooted p = rooted q) : mismatch (elems p) (elems q) = mismatch (tailOf p) (tailOf q) := by
  rw [elems_eq, elems_eq, h]
  cases rooted q with
  | true => exact mismatch_cons _ _ _
  | false => rfl

theorem filter_count {l : List Text} (h1 : dot ∉ l) (h2 : dotdot ∉ l) : l.filter (fun e => e ≠ dot ∧ e ≠ dotdot ∧ e ≠ []) = l.filter (· ≠ []) := by
  apply List.filter_congr
  intro e he
  have a : e ≠ dot := fun h => h1 (h ▸ he)
  have b : e ≠ dotdot := fun h => h2 (h ▸ he)
  simp [a, b]

theorem filter_none {l : List Text} (h2 : dotdot ∉ l) : l.filter (· = dotdot) = [] := by
  rw [List.filter_eq_nil_iff]
  intro e he h
  exact h2 (by simpa using (of_decide_eq_true h) ▸ he)

/-- C135: from a directory given without `.` and `..`, the path relative to it leads to the same place. -/
theorem C135_relative (p q : Text) (hp : rooted p = true) (hq : rooted q = true) (hc : Clean q) : place (place [] q) (relative p q) = place [] p := by
  unfold relative
  rw [if_neg (by simp [hp, hq]), mismatch_elems (hp.trans hq.symm)]
  obtain ⟨c, h1, h2⟩ := mismatch_eq (tailOf p) (tailOf q)
  generalize mismatch (tailOf p) (tailOf q) = m at h1 h2 ⊢
  have f1 : names p = c.filter (· ≠ []) ++ m.1.filter (· ≠ []) := by rw [← tail_filter, h1, List.filter_append]
  have f2 : names q = c.filter (· ≠ []) ++ m.2.filter (· ≠ []) := by rw [← tail_filter, h2, List.filter_append]
  have m1 : ∀ e ∈ m.1, e = [] ∨ Good e := fun e he => tail_elem e (by rw [h1]; simp [he])
  have m2 : ∀ e ∈ m.2, e = [] ∨ Good e := fun e he => tail_elem e (by rw [h2]; simp [he])
  have d1 : dot ∉ m.2 := by
    intro h
    apply hc.1
    rw [f2]
    refine List.mem_append_right _ (List.mem_filter.2 ⟨h, by decide⟩)
  have d2 : dotdot ∉ m.2 := by
    intro h
    apply hc.2
    rw [f2]
    refine List.mem_append_right _ (List.mem_filter.2 ⟨h, by decide⟩)
  have c1 : dot ∉ c.filter (· ≠ []) := fun h => hc.1 (by rw [f2]; exact List.mem_append_left _ h)
  have c2 : dotdot ∉ c.filter (· ≠ []) := fun h => hc.2 (by rw [f2]; exact List.mem_append_left _ h)
  have pq : place [] q = c.filter (· ≠ []) ++ m.2.filter (· ≠ []) := by
    unfold place
    rw [if_pos hq, walk_plain _ hc.1 hc.2, List.nil_append, f2]
  have pp : place [] p = walk (c.filter (· ≠ [])) (m.1.filter (· ≠ [])) := by
    unfold place
    rw [if_pos hp, f1, walk_append, walk_plain _ c1 c2, List.nil_append]
  have pd : place (place [] q) dot = place [] q := by
    unfold place
    rfl
  simp only
  rw [filter_count d1 d2, filter_none d2]
  split
  · rename_i h
    rw [pd, pq, pp, h.1, h.2]
    simp [walk]
  · rw [if_neg (by simp)]
    split
    · rename_i h
      obtain ⟨h3, h4⟩ := h
      have h5 : m.2.filter (· ≠ []) = [] := by
        apply List.length_eq_zero_iff.1
        have : ((m.2.filter (· ≠ [])).length : Int) - (([] : List Text).length : Int) = 0 := h3
        simpa using this
      have h6 : m.1.filter (· ≠ []) = [] := by
        rcases h4 with h4 | h4
        · rw [h4]; rfl
        · cases hm : m.1 with
          | nil => rfl
          | cons x r =>
            rw [hm] at h4 h1
            simp only [List.head?_cons, Option.some.injEq] at h4
            subst h4
            rw [tail_last h1]
            rfl
      rw [pd, pq, pp, h5, h6]
      simp [walk]
    · have hn : ((((m.2.filter (· ≠ [])).length : Int) - (([] : List Text).length : Int))).toNat = (m.2.filter (· ≠ [])).length := by simp
      rw [hn]
      obtain ⟨j1, j2⟩ := fold_join (List.replicate (m.2.filter (· ≠ [])).length dotdot ++ m.1) (by
        intro e he
        rcases List.mem_append.1 he with he | he
        · rw [List.eq_of_mem_replicate he]; exact .inr ⟨by decide, by decide⟩
        · exact m1 e he) [] rfl
      unfold place at *
      rw [j1, j2]
      simp only [Bool.false_eq_true, if_false, names_nil, List.nil_append, List.filter_append]
      have hrep : (List.replicate (m.2.filter (· ≠ [])).length dotdot).filter (· ≠ []) = List.replicate (m.2.filter (· ≠ [])).length dotdot := by
        rw [List.filter_eq_self]
        intro e he
        rw [List.eq_of_mem_replicate he]; decide
      rw [hrep, walk_append, pq, walk_up, pp]

/-! ### Programs -/

theorem plain_good {n : Text} (h : Plain n) : Good n := ⟨h.1, h.2.2.2⟩

theorem plain_valid {root : Bool} {l : List Text} (h : ∀ n ∈ l, Plain n) : Valid root l := by
  induction l with
  | nil => trivial
  | cons x l ih => exact .inl ⟨h x (by simp), ih fun n hn => h n (by simp [hn])⟩

/-- Names put together are in normal form. -/
theorem normal_glue {l : List Text} (h : ∀ n ∈ l, Plain n) (hl : l ≠ []) : normal (glue l) = glue l := by
  have hg : ∀ n ∈ l, Good n := fun n hn => plain_good (h n hn)
  have hne : glue l ≠ [] := by
    cases l with
    | nil => exact absurd rfl hl
    | cons x l => exact glue_ne (hg x (by simp))
  have hk : kept (glue l) = (l.reverse, false) := by
    unfold kept
    rw [names_glue hg, glue_head hg]
    have := fold_keeps (root := false) (st := l.reverse) (plain_valid fun n hn => h n (List.mem_reverse.1 hn))
    rwa [List.reverse_reverse] at this
  rw [normal_def _ hne, hk]
  have hs : slashed (glue l) = false := by simp [slashed, glue_last hg]
  cases hr : l.reverse with
  | nil => simp at hr; exact absurd hr hl
  | cons x r =>
    have : (x :: r).reverse = l := by rw [← hr, List.reverse_reverse]
    simp only
    rw [this, glue_head hg, hs]
    simp

theorem glue_cons (x : Text) {l : List Text} (h : l ≠ []) : glue (x :: l) = x ++ 47 :: glue l := by
  cases l with
  | nil => exact absurd rfl h
  | cons y l => rw [glue]; simp

theorem fold_glue {l : List Text} (h : ∀ n ∈ l, Good n) : ∀ acc, Good acc → l.foldl join acc = glue (acc :: l) := by
  suffices hh : ∀ pre : List Text, (∀ n ∈ pre, Good n) → pre ≠ [] → l.foldl join (glue pre) = glue (pre ++ l) by
    intro acc ha
    exact hh [acc] (by simpa using ha) (by simp)
  induction l with
  | nil => intro pre _ _; simp
  | cons x l ih =>
    intro pre hp hne
    have hx := h x (by simp)
    have hj : join (glue pre) x = glue (pre ++ [x]) := by
      have h1 : glue pre ≠ [] := by
        cases pre with
        | nil => exact absurd rfl hne
        | cons y pre => exact glue_ne (hp y (by simp))
      have h2 := glue_last hp
      unfold join
      rw [if_neg (by simp [rooted, good_head hx]), if_neg (by simp [h1, h2])]
      clear ih h1 h2
      induction pre with
      | nil => exact absurd rfl hne
      | cons y pre ihp =>
        cases pre with
        | nil => simp [glue]
        | cons z pre =>
          have := ihp (fun n hn => hp n (by simp [hn])) (by simp)
          simp only [List.cons_append] at this ⊢
          rw [glue_cons y (by simp), glue_cons y (by simp), ← this]
          simp
    rw [List.foldl_cons, hj, ih (fun n hn => h n (by simp [hn])) (pre ++ [x]) (by
      intro n hn
      rcases List.mem_append.1 hn with hn | hn
      · exact hp n hn
      · rw [List.mem_singleton.1 hn]; exact hx) (by simp)]
    simp

theorem mismatch_prefix (a r z : List Text) (hr : r ≠ []) (hz : ∀ x ∈ r.head?, ∀ y ∈ z.head?, x ≠ y) : mismatch (a ++ r) (a ++ z) = (r, z) := by
  induction a with
  | nil =>
    cases r with
    | nil => exact absurd rfl hr
    | cons x r =>
      cases z with
      | nil => rfl
      | cons y z => simp [mismatch, hz x rfl y rfl]
  | cons x a ih => simp [mismatch, ih]

/-- The relative path of what is in a directory. -/
theorem relative_inside {p q : Text} {ns : List Text} (hr : rooted p = rooted q) (hn : names p = names q ++ ns) (hs : slashed p = false) (hns : ns ≠ []) :
    relative p q = glue ns := by
  have hg : ∀ n ∈ ns, Good n := fun n h => names_good (t := p) n (by rw [hn]; simp [h])
  have hm : mismatch (elems p) (elems q) = (ns, if slashed q then [[]] else []) := by
    rw [mismatch_elems hr]
    unfold tailOf
    rw [hn, hs]
    simp only [Bool.false_eq_true, if_false, List.append_nil]
    refine mismatch_prefix _ _ _ hns ?_
    intro x hx y hy e
    split at hy
    · simp only [List.head?_cons, Option.mem_some_iff] at hy
      subst hy
      exact (hg x (List.mem_of_mem_head? hx)).1 e
    · cases hy
  unfold relative
  rw [if_neg (by simp [hr]), hm]
  simp only
  rw [if_neg (by simp [hns])]
  have hc : ((if slashed q then [([] : Text)] else []).filter fun e => e ≠ dot ∧ e ≠ dotdot ∧ e ≠ []) = [] := by
    split <;> simp
  have hd : ((if slashed q then [([] : Text)] else []).filter (· = dotdot)) = [] := by
    split <;> simp [dotdot]
  rw [hc, hd]
  cases ns with
  | nil => exact absurd rfl hns
  | cons x l =>
    have hx := hg x (by simp)
    rw [if_neg (by simp), if_neg (by simp [hx.1])]
    simp only [List.length_nil, Int.ofNat_zero, Int.sub_self, Int.toNat_zero, List.replicate_zero, List.nil_append, List.foldl_cons]
    have hj : join [] x = x := by simp [join]
    rw [hj]
    exact fold_glue (fun n h => hg n (by simp [h])) x hx

/-- C135: a program below the folder of the workspace is looked for under its path from there, and under no other name made of plain names. -/
theorem C135_program (ws file : Text) (hw : rooted ws = true) (hf : rooted file = true) (cw : Clean ws) (cf : Clean file) (hs : slashed file = false)
    (ns : List Text) (hns : ns ≠ []) (hp : ∀ n ∈ ns, Plain n) : key ws file = glue ns ↔ place [] file = place [] ws ++ ns := by
  have pw : place [] ws = names ws := by unfold place; rw [if_pos hw, walk_plain _ cw.1 cw.2, List.nil_append]
  have pf : place [] file = names file := by unfold place; rw [if_pos hf, walk_plain _ cf.1 cf.2, List.nil_append]
  constructor
  · intro h
    have h1 := C135_relative file ws hf hw cw
    rw [← C135_place (relative file ws)] at h1
    change place (place [] ws) (key ws file) = _ at h1
    rw [← h1, h]
    unfold place
    rw [glue_head fun n hn => plain_good (hp n hn), names_glue fun n hn => plain_good (hp n hn)]
    simp only [Bool.false_eq_true, if_false]
    exact walk_plain _ (fun h => (hp _ h).2.1 rfl) (fun h => (hp _ h).2.2.1 rfl)
  · intro h
    rw [pw, pf] at h
    unfold key
    rw [relative_inside (hf.trans hw.symm) h hs hns, normal_glue hp hns]

/-- C135 (negation): a name in `pgm_conf.json` that is not written in normal form is the name of no program. -/
theorem C135_entry_negation (e : Text) (he : normal e ≠ e) : ∀ ws file, key ws file ≠ e := by
  intro ws file h
  apply he
  rw [← h]
  exact C135_idempotent _

end Verif.Path
