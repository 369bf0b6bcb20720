import Verif.Path.Program
/-!
C135: Windows, and examples.
-/
namespace Verif.Path

theorem fold_inside {x : Text} {l : List Text} (hg : ∀ n ∈ l, Good n) : ∀ (st : List Text) (b : Bool), Valid true st → Inside st.length l →
    l.foldl (step false) (st ++ [x], b) = ((l.foldl (step true) (st, b)).1 ++ [x], (l.foldl (step true) (st, b)).2) := by
  induction l with
  | nil => intros; rfl
  | cons n l ih =>
    intro st b hv hi
    have hg' : ∀ m ∈ l, Good m := fun m hm => hg m (by simp [hm])
    simp only [List.foldl_cons]
    unfold Inside at hi
    by_cases h1 : n = dot
    · rw [if_pos h1] at hi
      simp only [step, h1, if_true]
      exact ih hg' st true hv hi
    · rw [if_neg h1] at hi
      by_cases h2 : n = dotdot
      · rw [if_pos h2] at hi
        subst h2
        cases st with
        | nil => exact absurd hi.1 (by simp)
        | cons y r =>
          have hy : y ≠ dotdot := (valid_good hv y (by simp)).2.2 rfl
          simp only [step, h1, if_false, if_true, List.cons_append, hy]
          exact ih hg' r true (valid_tail hv) (by simpa using hi.2)
      · rw [if_neg h2] at hi
        simp only [step, h1, h2, if_false]
        have hn := hg n (by simp)
        exact ih hg' (n :: st) false (.inl ⟨⟨hn.1, h1, h2, hn.2⟩, hv⟩) (by simpa using hi)

theorem fold_flag {l : List Text} (hl : l ≠ []) {st : List Text × Bool} (h : (l.foldl (step true) st).1 = []) : (l.foldl (step true) st).2 = true := by
  obtain ⟨l', n, rfl⟩ : ∃ l' n, l = l' ++ [n] := ⟨l.dropLast, l.getLast hl, (List.dropLast_concat_getLast hl).symm⟩
  rw [List.foldl_append, List.foldl_cons, List.foldl_nil] at h ⊢
  revert h
  generalize l'.foldl (step true) st = s
  unfold step
  split
  · intro _; rfl
  · split
    · split
      · intro _; rfl
      · split
        · intro h; simp at h
        · intro _; rfl
    · intro h; simp at h

theorem names_none {t : Text} (h : names t = []) : t = [] ∨ t.getLast? = some 47 := by
  induction t with
  | nil => exact .inl rfl
  | cons c r ih =>
    refine .inr ?_
    by_cases hc : c = 47
    · subst hc
      rw [names_cons] at h
      rcases ih h with rfl | h2
      · rfl
      · cases r with
        | nil => rfl
        | cons d r => rw [List.getLast?_cons_cons]; exact h2
    · exfalso
      unfold names split at h
      rw [if_neg hc] at h
      cases hr : split r with
      | nil => exact split_ne r hr
      | cons s l => rw [hr] at h; simp at h

theorem walk_inside (d : Place) {l : List Text} : ∀ e : Place, Inside e.length l → walk (d ++ e) l = d ++ walk e l := by
  induction l with
  | nil => intros; rfl
  | cons n l ih =>
    intro e h
    unfold Inside at h
    simp only [walk]
    split at h
    · rename_i h1; rw [if_pos h1, if_pos h1]; exact ih e h
    · rename_i h1
      rw [if_neg h1, if_neg h1]
      split at h
      · rename_i h2
        rw [if_pos h2, if_pos h2]
        have hne : e ≠ [] := by intro he; subst he; exact absurd h.1 (by simp)
        rw [List.dropLast_append_of_ne_nil hne]
        exact ih _ (by simpa using h.2)
      · rename_i h2
        rw [if_neg h2, if_neg h2, List.append_assoc]
        exact ih _ (by simpa using h)

theorem toWin_append (a b : Text) : toWin (a ++ b) = toWin a ++ toWin b := List.map_append

theorem alpha_letter {c : UInt8} (h : Letter c) : alpha c = true := by
  unfold alpha
  rcases h with ⟨h1, h2⟩ | ⟨h1, h2⟩ <;> simp [h1, h2]

theorem drive_form {c : UInt8} {t rest : Text} (hc : alpha c = true) (h : Drive c t rest) (hi : Inside 0 (wNames rest)) :
    ∃ b : Bool, (slashed (toLin t) = true → b = true) ∧
      wNormal t = c :: 58 :: 92 :: wGlue (walk [] (wNames rest)) ++ (if b && walk [] (wNames rest) ≠ [] then [92] else []) := by
  obtain ⟨s, hs, rfl⟩ := h
  have c1 : c ≠ 47 := by intro e; subst e; exact absurd hc (by decide)
  have c2 : c ≠ 92 := by intro e; subst e; exact absurd hc (by decide)
  have hl : toLin (c :: 58 :: s :: rest) = [c, 58] ++ 47 :: toLin rest := by
    rcases hs with rfl | rfl <;> simp [toLin, c2]
  have hg : Good [c, 58] := ⟨by simp, by simp [c1.symm]⟩
  have hr : rooted ([c, 58] ++ 47 :: toLin rest) = false := by simp [rooted, c1]
  have hn : names ([c, 58] ++ 47 :: toLin rest) = [c, 58] :: wNames rest := by rw [names_append, names_single hg]; rfl
  have hx : ([c, 58] : Text) ≠ dotdot := by simp [dotdot]
  obtain ⟨f1, f2⟩ := fold_valid (d := []) (l := wNames rest) (root := true) names_good (fun _ => rfl) ([], false) trivial
  have hk : kept ([c, 58] ++ 47 :: toLin rest) = (((wNames rest).foldl (step true) ([], false)).1 ++ [[c, 58]], ((wNames rest).foldl (step true) ([], false)).2) := by
    unfold kept
    rw [hn, hr, List.foldl_cons]
    have h1 : step false ([], false) [c, 58] = ([] ++ [[c, 58]], false) := by simp [step, dot, dotdot]
    rw [h1]
    exact fold_inside names_good [] false trivial hi
  have hw : ((wNames rest).foldl (step true) ([], false)).1.reverse = walk [] (wNames rest) := by
    have := f2
    rw [walk_plain] at this
    · simpa using this
    · intro hm; exact (valid_good f1 _ (List.mem_reverse.1 hm)).2.1 rfl
    · intro hm; exact (valid_good f1 _ (List.mem_reverse.1 hm)).2.2 rfl rfl
  have hne : [c, 58] ++ 47 :: toLin rest ≠ [] := by simp
  unfold wNormal
  rw [hl, if_neg (by simp [c1]), List.nil_append, normal_def _ hne, hk, hr]
  cases hS : ((wNames rest).foldl (step true) ([], false)).1 with
  | nil =>
    rw [hS] at hw
    rw [← hw]
    refine ⟨true, fun _ => rfl, ?_⟩
    have hflag : (((wNames rest).foldl (step true) ([], false)).2 || slashed ([c, 58] ++ 47 :: toLin rest)) = true := by
      by_cases hnn : wNames rest = []
      · have : ([c, 58] ++ 47 :: toLin rest).getLast? = some 47 := by
          rcases names_none (t := toLin rest) hnn with h | h
          · rw [h]; rfl
          · rw [List.getLast?_append, List.getLast?_cons, h]; rfl
        simp only [slashed, this, hn, Bool.or_eq_true]
        right
        simp
      · rw [fold_flag hnn hS]; rfl
    simp only [List.nil_append, hflag]
    simp [glue, wGlue, toWin, c1, hx]
  | cons y r =>
    rw [hS] at hw f1
    have hy : y ≠ dotdot := (valid_good f1 y (by simp)).2.2 rfl
    have hrev : (y :: r ++ [[c, 58]]).reverse = [c, 58] :: walk [] (wNames rest) := by rw [List.reverse_append, hw]; rfl
    have hnw : walk [] (wNames rest) ≠ [] := by rw [← hw]; simp
    have hgl : toWin (glue ([c, 58] :: walk [] (wNames rest))) = c :: 58 :: 92 :: wGlue (walk [] (wNames rest)) := by
      rw [glue_cons _ hnw, toWin_append]
      simp [toWin, wGlue, c1]
    simp only [List.cons_append] at hrev ⊢
    rw [hrev]
    simp only [Bool.false_eq_true, if_false, List.nil_append, toWin_append, hgl]
    refine ⟨((wNames rest).foldl (step true) ([], false)).2 || slashed ([c, 58] ++ 47 :: toLin rest), fun h => by rw [show slashed ([c, 58] ++ 47 :: toLin rest) = true from h, Bool.or_true], ?_⟩
    simp only [List.cons_append, List.cons.injEq, true_and]
    congr 1
    simp only [hy, hnw, ne_eq, not_false_eq_true, decide_true, Bool.and_true]
    change toWin (if ((((wNames rest).foldl (step true) ([], false)).2 || slashed ([c, 58] ++ 47 :: toLin rest)) = true) then [47] else []) = if ((((wNames rest).foldl (step true) ([], false)).2 || slashed ([c, 58] ++ 47 :: toLin rest)) = true) then [92] else []
    cases ((wNames rest).foldl (step true) ([], false)).2 || slashed ([c, 58] ++ 47 :: toLin rest) <;> rfl

/-- C135 (partial): on Windows the normal form of a path that begins with a drive and does not go above its root is the drive followed by the
names on the way to the place, all with backslashes. Missing: paths that go above the root, see the witness. -/
theorem C135_drive_partial (c : UInt8) (t rest : Text) (hc : Letter c) (h : Drive c t rest) (hi : Inside 0 (wNames rest)) :
    wNormal t = c :: 58 :: 92 :: wGlue (walk [] (wNames rest)) ∨ wNormal t = c :: 58 :: 92 :: wGlue (walk [] (wNames rest)) ++ [92] := by
  obtain ⟨b, _, hb⟩ := drive_form (alpha_letter hc) h hi
  rw [hb]
  split
  · exact .inr rfl
  · left; simp

/-- C135 (partial): the same for paths that begin with two backslashes, a server and a share. Missing: paths that go above the share. -/
theorem C135_remote_partial (t rest srv share : Text) (l : List Text) (h : Remote t rest) (hn : wNames rest = srv :: share :: l) (h1 : Plain srv) (h2 : Plain share)
    (hi : Inside 0 l) :
    wNormal t = 92 :: 92 :: wGlue (srv :: share :: walk [] l) ∨ wNormal t = 92 :: 92 :: wGlue (srv :: share :: walk [] l) ++ [92] := by
  obtain ⟨s, u, hs, hu, rfl⟩ := h
  have hl : toLin (s :: u :: rest) = 47 :: 47 :: toLin rest := by
    rcases hs with rfl | rfl <;> rcases hu with rfl | rfl <;> simp [toLin]
  have hr : rooted (47 :: 47 :: toLin rest) = true := rfl
  have hp : place [] (47 :: 47 :: toLin rest) = srv :: share :: walk [] l := by
    unfold place
    rw [if_pos hr, names_cons, names_cons]
    change walk [] (wNames rest) = _
    rw [hn]
    simp only [walk, h1.2.1, h1.2.2.1, h2.2.1, h2.2.2.1, if_false]
    exact walk_inside [srv, share] [] hi
  obtain ⟨b, _, hb⟩ := normal_abs hr
  unfold wNormal
  rw [hl, show List.take 2 (47 :: 47 :: toLin rest) = [47, 47] from rfl, if_pos rfl, hb, hp]
  cases b
  · left; simp [toWin, wGlue]
  · right; simp [toWin, wGlue]

theorem toLin_toWin (t : Text) : toLin (toWin t) = toLin t := by
  induction t with
  | nil => rfl
  | cons c r ih =>
    simp only [toWin, toLin, List.map_cons, List.cons.injEq, List.map_map] at ih ⊢
    refine ⟨?_, ih⟩
    by_cases h : c = 47
    · simp [h]
    · by_cases h2 : c = 92 <;> simp [h, h2]

theorem toLin_self {t : Text} (h : 92 ∉ t) : toLin t = t := by
  unfold toLin
  rw [List.map_congr_left (g := id)]
  · simp
  · intro c hc
    have : c ≠ 92 := fun e => h (e ▸ hc)
    simp [this]

theorem split_sub {t : Text} : ∀ s ∈ split t, ∀ c ∈ s, c ∈ t := by
  induction t with
  | nil => simp [split]
  | cons x r ih =>
    unfold split
    split
    · intro s hs c hc
      rcases List.mem_cons.1 hs with rfl | hs
      · cases hc
      · exact List.mem_cons_of_mem _ (ih s hs c hc)
    · split
      · rename_i y l he
        intro s hs c hc
        rcases List.mem_cons.1 hs with rfl | hs
        · rcases List.mem_cons.1 hc with rfl | hc
          · simp
          · exact List.mem_cons_of_mem _ (ih y (by simp [he]) c hc)
        · exact List.mem_cons_of_mem _ (ih s (by simp [he, hs]) c hc)
      · intro s hs c hc
        simp only [List.mem_singleton] at hs
        subst hs
        simp only [List.mem_singleton] at hc
        simp [hc]

theorem glue_none {l : List Text} (h : ∀ n ∈ l, 92 ∉ n) : 92 ∉ glue l := by
  induction l with
  | nil => simp [glue]
  | cons x l ih =>
    by_cases hl : l = []
    · subst hl; simpa [glue] using h x (by simp)
    · rw [glue_cons x hl]
      have := ih fun n hn => h n (by simp [hn])
      simp [this, h x (by simp)]

/-- C135: on Windows a program below the folder of the workspace is looked for under the name that an entry of the configuration with the names
on the way to it gets, with whichever slashes the paths are written. -/
theorem C135_windows_program (ws file : Text) (ns : List Text) (hr : rooted (toLin file) = rooted (toLin ws)) (hs : slashed (toLin file) = false)
    (hn : wNames file = wNames ws ++ ns) (hns : ns ≠ []) (hp : ∀ n ∈ ns, Plain n) : wKey ws file = wEntry (glue ns) := by
  have h92 : ∀ n ∈ ns, 92 ∉ n := by
    intro n hm hc
    have h1 : n ∈ names (toLin file) := by
      change n ∈ wNames file
      rw [hn]; simp [hm]
    have h2 : 92 ∈ toLin file := split_sub n (List.mem_filter.1 h1).1 92 hc
    unfold toLin at h2
    obtain ⟨x, _, hx⟩ := List.mem_map.1 h2
    split at hx
    · cases hx
    · rename_i h; exact h hx
  unfold wKey wRelative wEntry wNormal
  rw [relative_inside hr hn hs hns, toLin_toWin, toLin_self (glue_none h92), normal_glue hp hns]
  have hh := glue_head fun n hm => plain_good (hp n hm)
  rw [if_neg]
  · rfl
  · intro he
    cases hg : glue ns with
    | nil => rw [hg] at he; cases he
    | cons c r =>
      rw [hg] at he hh
      simp only [List.take_succ_cons, List.cons.injEq] at he
      simp [rooted, he.1] at hh

theorem toLin_none (t : Text) : 92 ∉ toLin t := by
  unfold toLin
  intro h
  obtain ⟨x, _, hx⟩ := List.mem_map.1 h
  split at hx
  · cases hx
  · rename_i h; exact h hx

theorem join_none {l r : Text} (hl : 92 ∉ l) (hr : 92 ∉ r) : 92 ∉ join l r := by
  unfold join
  split
  · exact hr
  · split <;> simp [hl, hr]

theorem toLin_inv {t : Text} (h : 92 ∉ t) : toLin (toWin t) = t := by rw [toLin_toWin, toLin_self h]

theorem toWin_abs {t : Text} (h : 92 ∉ t) (hr : rooted t = false) : wAbsolute (toWin t) = wAbsolute t := by
  match t with
  | [] => rfl
  | [c] => rfl
  | c :: d :: r =>
    have hc : c ≠ 47 := by simpa [rooted] using hr
    have hc2 : c ≠ 92 := fun e => h (by simp [e])
    simp only [toWin, List.map_cons, wAbsolute, hc, hc2, if_false]
    by_cases hd : d = 47 <;> simp [hd]

def wDirText (p : Text) : Text := if p.isEmpty then [] else wJoin p []

theorem wlib_eq (ws p : Text) : Config.libPath windows ws p = wNormal (if wAbsolute (wDirText p) then wDirText p else wJoin ws (wDirText p)) := rfl

/-- C135 (partial): on Windows the path of a library that is given relative to the folder of the workspace and does not leave its drive. -/
theorem C135_windows_library_partial (c : UInt8) (ws rest p : Text) (hl : Letter c) (h : Drive c ws rest) (hp : wAbsolute p = false)
    (hr : rooted (toLin p) = false) (hi : Inside 0 (wNames rest ++ wNames p)) :
    Config.libPath windows ws p = c :: 58 :: 92 :: wGlue (walk (walk [] (wNames rest)) (wNames p)) ++
      (if walk (walk [] (wNames rest)) (wNames p) ≠ [] then [92] else []) := by
  have hc := alpha_letter hl
  have c2 : c ≠ 92 := by intro e; subst e; exact absurd hc (by decide)
  have hq : wDirText p = toWin (dirText (toLin p)) := by
    cases p with
    | nil => rfl
    | cons x r => simp [wDirText, wJoin, show wAbsolute [] = false from rfl, dirText, toLin]
  have hrd : rooted (dirText (toLin p)) = false := by
    unfold dirText
    split
    · rfl
    · rw [join_rooted, hr]; rfl
  have h92 : 92 ∉ dirText (toLin p) := by
    unfold dirText
    split
    · simp
    · exact join_none (toLin_none p) (by simp)
  have hab : wAbsolute (toWin (dirText (toLin p))) = false := by
    rw [toWin_abs h92 hrd]
    match p, hp, hr with
    | [], _, _ => rfl
    | [x], _, hr =>
      have hx : (if x = 92 then 47 else x : UInt8) ≠ 47 := by simpa [rooted, toLin] using hr
      simp [dirText, toLin, join, rooted, hx, wAbsolute]
    | x :: y :: r, hp, hr =>
      have hx : (if x = 92 then 47 else x : UInt8) ≠ 47 := by simpa [rooted, toLin] using hr
      have hx2 : x ≠ 92 := fun e => hx (by simp [e])
      have : ∃ z, dirText (toLin (x :: y :: r)) = x :: (if y = 92 then 47 else y) :: z := by
        unfold dirText join
        rw [if_neg (by simp [toLin]), if_neg (by simp [rooted])]
        split
        · exact ⟨toLin r, by simp [toLin, hx2]⟩
        · exact ⟨toLin r ++ [47], by simp [toLin, hx2]⟩
      obtain ⟨z, hz⟩ := this
      rw [hz]
      simp only [wAbsolute, hx2, decide_false, Bool.and_false, Bool.false_and, Bool.or_false] at hp ⊢
      by_cases hy : y = 92
      · simp [hy]
      · simpa [hy] using hp
  have e1 : Config.libPath windows ws p = wNormal (toWin (join (toLin ws) (dirText (toLin p)))) := by
    rw [wlib_eq, hq, hab, if_neg (by simp), wJoin, hab, if_neg (by simp), toLin_inv h92]
  have h92j : 92 ∉ join (toLin ws) (dirText (toLin p)) := join_none (toLin_none ws) h92
  obtain ⟨s, hs, rfl⟩ := h
  have hl : toLin (c :: 58 :: s :: rest) = c :: 58 :: 47 :: toLin rest := by
    rcases hs with rfl | rfl <;> simp [toLin, c2]
  have c1 : c ≠ 47 := by intro e; subst e; exact absurd hc (by decide)
  have hg : Good [c, 58] := ⟨by simp, by simp [c1.symm]⟩
  have key : ∃ X, join (toLin (c :: 58 :: s :: rest)) (dirText (toLin p)) = c :: 58 :: 47 :: X := by
    rw [hl]
    unfold join
    rw [hrd]
    simp only [Bool.false_eq_true, if_false]
    split
    · exact ⟨_, rfl⟩
    · exact ⟨_, rfl⟩
  obtain ⟨X, hX⟩ := key
  have hX92 : 92 ∉ X := by intro hm; apply h92j; rw [hX]; simp [hm]
  have hnX : names X = wNames rest ++ wNames p := by
    have h1 := join_names (toLin (c :: 58 :: s :: rest)) (dirText (toLin p))
    rw [hX, hl, hrd] at h1
    have h2 : ∀ r, names (c :: 58 :: 47 :: r) = [c, 58] :: names r := by
      intro r
      have := names_append [c, 58] r
      rw [names_single hg] at this
      exact this
    have h3 : names (dirText (toLin p)) = names (toLin p) := by
      unfold dirText
      split
      · rename_i h; rw [List.isEmpty_iff.1 h]
      · rw [join_names]; simp [rooted, names, split]
    rw [h2, h2, h3] at h1
    simpa [wNames] using h1
  have hD : Drive c (toWin (c :: 58 :: 47 :: X)) (toWin X) := ⟨92, .inl rfl, by simp [toWin, c1]⟩
  have hwn : wNames (toWin X) = wNames rest ++ wNames p := by unfold wNames; rw [toLin_inv hX92, hnX]; rfl
  obtain ⟨b, hb1, hb2⟩ := drive_form hc hD (by rw [hwn]; exact hi)
  rw [e1, hX, hb2, hwn, walk_append]
  have hbt : b = true := by
    apply hb1
    rw [toLin_inv (by rw [hX] at h92j; exact h92j), ← hX]
    have hne : names (join (toLin (c :: 58 :: s :: rest)) (dirText (toLin p))) ≠ [] := by
      rw [hX]
      have := names_append [c, 58] X
      rw [names_single hg] at this
      change names ([c, 58] ++ 47 :: X) ≠ []
      rw [this]; simp
    have hlast : (join (toLin (c :: 58 :: s :: rest)) (dirText (toLin p))).getLast? = some 47 := by
      have hd : (dirText (toLin p)).getLast? = some 47 ∨ dirText (toLin p) = [] := by
        unfold dirText
        split
        · exact .inr rfl
        · rename_i h
          exact .inl ((join_slash (toLin p)).resolve_right fun e => h (by rw [e]; rfl))
      rcases hd with hd | hd
      · unfold join
        rw [hrd]
        simp only [Bool.false_eq_true, if_false]
        split
        · rw [List.getLast?_append, hd]; rfl
        · rw [List.getLast?_append, List.getLast?_cons, hd]; rfl
      · rw [hd]
        exact (join_slash _).resolve_right (by rw [hl]; simp)
    simp [slashed, hlast, hne]
  rw [hbt]
  simp

/-- C135 (partial): on Windows a library that is given with its drive is there, whatever the folder of the workspace. -/
theorem C135_windows_absolute_partial (c : UInt8) (ws p rest : Text) (hl : Letter c) (h : Drive c p rest) (hi : Inside 0 (wNames rest)) :
    Config.libPath windows ws p = c :: 58 :: 92 :: wGlue (walk [] (wNames rest)) ++ (if walk [] (wNames rest) ≠ [] then [92] else []) := by
  have hc := alpha_letter hl
  have c2 : c ≠ 92 := by intro e; subst e; exact absurd hc (by decide)
  have c1 : c ≠ 47 := by intro e; subst e; exact absurd hc (by decide)
  have hg : Good [c, 58] := ⟨by simp, by simp [c1.symm]⟩
  obtain ⟨s, hs, rfl⟩ := h
  have hlin : toLin (c :: 58 :: s :: rest) = c :: 58 :: 47 :: toLin rest := by
    rcases hs with rfl | rfl <;> simp [toLin, c2]
  have hq : wDirText (c :: 58 :: s :: rest) = toWin (join (c :: 58 :: 47 :: toLin rest) []) := by
    simp only [wDirText, List.isEmpty_cons, Bool.false_eq_true, if_false, wJoin, show wAbsolute [] = false from rfl, hlin]
    rfl
  have h2 : ∀ r, names (c :: 58 :: 47 :: r) = [c, 58] :: names r := by
    intro r
    have := names_append [c, 58] r
    rw [names_single hg] at this
    exact this
  have key : ∃ X, join (c :: 58 :: 47 :: toLin rest) [] = c :: 58 :: 47 :: X := by
    unfold join
    rw [if_neg (by decide)]
    split
    · exact ⟨toLin rest, by simp⟩
    · exact ⟨toLin rest ++ [47], by simp⟩
  obtain ⟨X, hX⟩ := key
  have h92 : 92 ∉ join (c :: 58 :: 47 :: toLin rest) [] := join_none (by rw [← hlin]; exact toLin_none _) (by simp)
  have hX92 : 92 ∉ X := by intro hm; apply h92; rw [hX]; simp [hm]
  have hnX : names X = wNames rest := by
    have h1 := join_names (c :: 58 :: 47 :: toLin rest) []
    rw [hX, h2, h2] at h1
    simpa [wNames, rooted, names_nil] using h1
  have hD : Drive c (toWin (c :: 58 :: 47 :: X)) (toWin X) := ⟨92, .inl rfl, by simp [toWin, c1]⟩
  have hwn : wNames (toWin X) = wNames rest := by
    have : wNames (toWin X) = names X := by unfold wNames; rw [toLin_inv hX92]
    rw [this, hnX]
  obtain ⟨b, hb1, hb2⟩ := drive_form hc hD (by rw [hwn]; exact hi)
  have hab : wAbsolute (toWin (c :: 58 :: 47 :: X)) = true := by simp [toWin, wAbsolute, c1, hc]
  rw [wlib_eq, hq, hX, hab, if_pos rfl, hb2, hwn]
  have hbt : b = true := by
    apply hb1
    rw [toLin_inv (by rw [hX] at h92; exact h92)]
    have hlast := (join_slash (c :: 58 :: 47 :: toLin rest)).resolve_right (by simp)
    rw [hX] at hlast
    simp [slashed, hlast, h2]
  rw [hbt]
  simp

/-! ### Other uses -/

theorem plain_rel {n : Text} (h : Plain n) : rooted n = false := by
  have := h.2.2.2
  cases n with
  | nil => rfl
  | cons c r => simp [rooted]; intro e; exact this (by simp [e])

theorem join_last {dir n : Text} (h : Plain n) : (join dir n).getLast? ≠ some 47 := by
  have hx : n.getLast? ≠ some 47 := fun e => h.2.2.2 (List.mem_of_getLast? e)
  cases hg : n.getLast? with
  | none => exact absurd (List.getLast?_eq_none_iff.1 hg) h.1
  | some z =>
    rw [hg] at hx
    unfold join
    rw [plain_rel h]
    simp only [Bool.false_eq_true, if_false]
    split
    · rw [List.getLast?_append, hg]; exact hx
    · rw [List.getLast?_append, List.getLast?_cons, hg]; exact hx

/-- C135: the configuration file of the workspace is recognised (workspace.cpp 155) exactly by the paths, without dots, to its place. -/
theorem C135_config (ws file folder name : Text) (hw : rooted ws = true) (hf : rooted file = true) (cw : Clean ws) (cf : Clean file)
    (hs : slashed file = false) (h1 : Plain folder) (h2 : Plain name) :
    equal file (join (join ws folder) name) = true ↔ place [] file = place [] ws ++ [folder, name] := by
  have r1 := plain_rel h1
  have r2 := plain_rel h2
  have hn : names (join (join ws folder) name) = names ws ++ [folder, name] := by
    rw [join_names, join_names, r1, r2, names_single (plain_good h1), names_single (plain_good h2)]
    simp
  have hr : rooted (join (join ws folder) name) = true := by rw [join_rooted, join_rooted, r1, r2, hw]; simp
  have hl : (join (join ws folder) name).getLast? ≠ some 47 := join_last h2
  have hs2 : slashed (join (join ws folder) name) = false := by simp [slashed, hl]
  have pw : place [] ws = names ws := by unfold place; rw [if_pos hw, walk_plain _ cw.1 cw.2, List.nil_append]
  have pf : place [] file = names file := by unfold place; rw [if_pos hf, walk_plain _ cf.1 cf.2, List.nil_append]
  unfold equal elems
  rw [hn, hr, hf, hs, hs2, pw, pf]
  simp

/-- C135: the member of a library that a directory lists has the name of the file. -/
theorem C135_member (dir n : Text) (h : Plain n) : filename (join dir n) = n := by
  have r2 := plain_rel h
  have hl := join_last (dir := dir) h
  unfold filename
  rw [if_neg hl, join_names, r2, names_single (plain_good h)]
  simp

/-! ### Witnesses and examples -/

example : equal [47, 119, 47, 47, 46, 104, 47, 112] (join (join [47, 119] [46, 104]) [112]) = true := by decide
/-- `D:\l` in `c:\a` -/
example : Config.libPath windows [99, 58, 92, 97] [68, 58, 92, 108] = [68, 58, 92, 108, 92] := by decide
example : filename (join [47, 119, 47] [80]) = [80] := by decide
/-- `../l` in `c:\a\b` -/
example : Config.libPath windows [99, 58, 92, 97, 92, 98] [46, 46, 47, 108] = [99, 58, 92, 97, 92, 108, 92] ∧
    wAbsolute [46, 46, 47, 108] = false ∧ rooted (toLin [46, 46, 47, 108]) = false ∧ Inside 0 (wNames [97, 92, 98] ++ wNames [46, 46, 47, 108]) := by
  refine ⟨by decide, by decide, by decide, ?_⟩
  rw [show wNames [97, 92, 98] ++ wNames [46, 46, 47, 108] = [[97], [98], dotdot, [108]] by decide]
  simp [Inside, dot, dotdot]

/-- C135 (witness): going above the root of a drive loses the drive: `C:\..\x` becomes `x`, which is no absolute path. -/
theorem C135_drive_witness : Drive 67 [67, 58, 92, 46, 46, 92, 120] [46, 46, 92, 120] ∧ wNormal [67, 58, 92, 46, 46, 92, 120] = [120] ∧
    wAbsolute (wNormal [67, 58, 92, 46, 46, 92, 120]) = false := ⟨⟨92, .inl rfl, rfl⟩, by decide, by decide⟩

/-- C135 (witness): so does a library that is configured above the root of the drive of the workspace. -/
theorem C135_library_witness : Config.libPath windows [67, 58, 92, 119] [46, 46, 47, 46, 46, 47, 108] = [108, 92] := by decide

/-- C135 (witness): a program that is entered as `./P` is not found, although `./P` is its path from the folder of the workspace. -/
theorem C135_entry_witness : ∃ ws file e : Text, place (place [] ws) e = place [] file ∧ rooted ws = true ∧ Clean ws ∧ rooted file = true ∧ Clean file ∧
    key ws file ≠ e := by
  refine ⟨[47, 119], [47, 119, 47, 80], [46, 47, 80], ?_⟩
  unfold Clean
  decide

/-- `/w//./a/../b/` and `/w/b` -/
example : normal [47, 119, 47, 47, 46, 47, 97, 47, 46, 46, 47, 98, 47] = [47, 119, 47, 98, 47] ∧
    place [] [47, 119, 47, 47, 46, 47, 97, 47, 46, 46, 47, 98, 47] = [[119], [98]] := by decide

/-- `../a/..` -/
example : normal [46, 46, 47, 97, 47, 46, 46] = dotdot := by decide

/-- `/w/s/P` in `/w/` -/
example : key [47, 119, 47] [47, 119, 47, 115, 47, 80] = [115, 47, 80] ∧ rooted [47, 119, 47] = true ∧ Clean [47, 119, 47] ∧
    Clean [47, 119, 47, 115, 47, 80] ∧ slashed [47, 119, 47, 115, 47, 80] = false := by
  unfold Clean
  decide

/-- `/x/P` in `/w` -/
example : relative [47, 120, 47, 80] [47, 119] = [46, 46, 47, 120, 47, 80] := by decide

/-- The library `l/../m` in `/w` -/
example : Config.libPath posix [47, 119] [108, 47, 46, 46, 47, 109] = [47, 119, 47, 109, 47] := by decide

/-- `c:/w\s/P` in `c:\w` -/
example : wKey [99, 58, 92, 119] [99, 58, 47, 119, 92, 115, 47, 80] = [115, 92, 80] ∧
    wNames [99, 58, 47, 119, 92, 115, 47, 80] = wNames [99, 58, 92, 119] ++ [[115], [80]] := by decide

/-- `c:\a\..\b` -/
example : Letter 99 ∧ Drive 99 [99, 58, 92, 97, 92, 46, 46, 92, 98] [97, 92, 46, 46, 92, 98] ∧ Inside 0 (wNames [97, 92, 46, 46, 92, 98]) ∧
    wNormal [99, 58, 92, 97, 92, 46, 46, 92, 98] = [99, 58, 92, 98] := by
  refine ⟨.inr (by decide), ⟨92, .inl rfl, rfl⟩, ?_, by decide⟩
  rw [show wNames [97, 92, 46, 46, 92, 98] = [[97], dotdot, [98]] by decide]
  simp [Inside, dot, dotdot]

/-- `\\s\h\a\..` -/
example : Remote [92, 92, 115, 92, 104, 92, 97, 92, 46, 46] [115, 92, 104, 92, 97, 92, 46, 46] ∧
    wNames [115, 92, 104, 92, 97, 92, 46, 46] = [115] :: [104] :: [[97], dotdot] ∧
    wNormal [92, 92, 115, 92, 104, 92, 97, 92, 46, 46] = [92, 92, 115, 92, 104, 92] := ⟨⟨92, 92, .inl rfl, .inl rfl, rfl⟩, by decide, by decide⟩

end Verif.Path
