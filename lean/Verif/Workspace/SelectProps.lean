import Verif.Workspace.Select
/-! C22, C25, C26: choice of processor group, of workspace, of settings. -/
namespace Verif.Workspace

/-- Position of the first group with a given name. -/
def groupIndex (g : Bytes) : List Bytes → Option Nat
  | [] => none
  | x :: xs => if x = g then some 0 else (groupIndex g xs).map (· + 1)

/-- Specification of C22, in terms of the two configuration files only. -/
def specSelect (rx : Bytes → Bytes → Bool) (groups : List Bytes) (pgms : List Pgm) (file : Bytes) : Group :=
  let valid := pgms.filter fun p => p.pgroup ∈ groups
  let choose (p : Pgm) : Group := match groupIndex p.pgroup groups with | some i => .group i | none => .outOfRange
  match valid.find? fun p => !isWildcard p.program && p.program = file with
  | some p => choose p
  | none =>
    match valid.find? fun p => isWildcard p.program && rx p.program file with
    | some p => choose p
    | none => .implicit

theorem lookup_emplace {α} (m : List (Bytes × α)) (k k' : Bytes) (v : α) :
    lookup (emplace m k v) k' = match lookup m k' with | some x => some x | none => if k = k' then some v else none := by
  unfold emplace
  cases hk : lookup m k with
  | some x =>
    simp only
    cases hk' : lookup m k' with
    | some y => rfl
    | none =>
      by_cases e : k = k'
      · subst e; rw [hk] at hk'; simp at hk'
      · simp [e]
  | none =>
    simp only [lookup] at *
    rw [List.find?_append]
    cases h : m.find? (·.1 = k') with
    | some x => simp
    | none => by_cases e : k = k' <;> simp [List.find?_cons, e]

theorem addGroups_lookup (gs : List Bytes) : ∀ (c : Conf) (i : Nat) (g : Bytes),
    lookup (c.addGroups i gs).procGrps g =
      match lookup c.procGrps g with | some x => some x | none => (groupIndex g gs).map (· + i) := by
  induction gs with
  | nil => intro c i g; simp only [Conf.addGroups, groupIndex]; cases lookup c.procGrps g <;> rfl
  | cons a gs ih =>
    intro c i g
    simp only [Conf.addGroups, ih, lookup_emplace, groupIndex]
    cases h : lookup c.procGrps g with
    | some x => rfl
    | none =>
      by_cases e : a = g
      · simp [e]
      · simp only [e, if_false, Option.map_map]
        cases groupIndex g gs with
        | none => rfl
        | some j => simp; omega

theorem addGroups_other (gs : List Bytes) : ∀ (c : Conf) (i : Nat),
    (c.addGroups i gs).exact = c.exact ∧ (c.addGroups i gs).regex = c.regex := by
  induction gs with
  | nil => intro c i; exact ⟨rfl, rfl⟩
  | cons a gs ih => intro c i; exact ih _ _

theorem groupIndex_isSome (g : Bytes) (gs : List Bytes) : (groupIndex g gs).isSome = true ↔ g ∈ gs := by
  induction gs with
  | nil => simp [groupIndex]
  | cons a gs ih =>
    simp only [groupIndex]
    by_cases e : a = g
    · simp [e]
    · have e' : ¬ g = a := fun h => e h.symm
      simp [e, e', ih]

theorem addPgms (ps : List Pgm) : ∀ (c : Conf),
    let c' := ps.foldl Conf.addPgm c
    let valid := ps.filter fun p => (lookup c.procGrps p.pgroup).isSome
    c'.procGrps = c.procGrps ∧
    c'.regex = c.regex ++ valid.filter (fun p => isWildcard p.program) ∧
    ∀ f, lookup c'.exact f = match lookup c.exact f with
      | some x => some x
      | none => valid.find? fun p => !isWildcard p.program && p.program = f := by
  induction ps with
  | nil => intro c; refine ⟨rfl, by simp, ?_⟩; intro f; simp; cases lookup c.exact f <;> rfl
  | cons p ps ih =>
    intro c
    have ih' := ih (c.addPgm p)
    simp only [List.foldl_cons]
    have hg : (c.addPgm p).procGrps = c.procGrps := by
      unfold Conf.addPgm; split
      · rfl
      · split <;> rfl
    simp only [hg] at ih'
    obtain ⟨i1, i2, i3⟩ := ih'
    refine ⟨i1, ?_, ?_⟩
    · rw [i2]
      unfold Conf.addPgm
      cases hl : lookup c.procGrps p.pgroup with
      | none => simp [List.filter_cons, hl]
      | some x =>
        cases hw : isWildcard p.program <;> simp [List.filter_cons, hl, hw]
    · intro f
      rw [i3 f]
      unfold Conf.addPgm
      cases hl : lookup c.procGrps p.pgroup with
      | none => simp [List.filter_cons, hl]
      | some x =>
        cases hw : isWildcard p.program with
        | true => simp [List.filter_cons, hl, List.find?_cons, hw]
        | false =>
          simp only [Bool.not_false, if_true, lookup_emplace, List.filter_cons, hl, Option.isSome_some, List.find?_cons, hw,
            Bool.true_and]
          cases lookup c.exact f with
          | some y => rfl
          | none => by_cases e : p.program = f <;> simp [e]

/-- C22: after both configuration files were loaded, whatever was configured before, the processor group of a program is
that of the first exact entry for it, else of the first matching wildcard entry, else the implicit one; entries naming an
unknown group do not count; the selection never fails. -/
theorem C22_selection (c : Conf) (rx : Bytes → Bytes → Bool) (groups : List Bytes) (pgms : List Pgm) (file : Bytes) :
    (c.load (some groups) (some pgms)).select rx file = specSelect rx groups pgms file ∧
    specSelect rx groups pgms file ≠ .outOfRange := by
  have hl : ∀ g, lookup (({ procGrps := [], exact := [], regex := [] } : Conf).addGroups 0 groups).procGrps g =
      groupIndex g groups := by
    intro g; rw [addGroups_lookup]; simp [lookup]
  have ho := addGroups_other groups { procGrps := [], exact := [], regex := [] } 0
  have hp := addPgms pgms (({ procGrps := [], exact := [], regex := [] } : Conf).addGroups 0 groups)
  simp only [hl] at hp
  obtain ⟨p1, p2, p3⟩ := hp
  have hvalid : (pgms.filter fun p => (groupIndex p.pgroup groups).isSome) = pgms.filter fun p => p.pgroup ∈ groups := by
    apply List.filter_congr
    intro p _
    rw [Bool.eq_iff_iff, groupIndex_isSome]; simp
  rw [hvalid] at p2 p3
  constructor
  · unfold Conf.select Conf.load specSelect
    simp only [p1, p2, p3, hl, ho.1, ho.2]
    simp only [lookup, List.find?_nil, Option.map_none, List.nil_append]
    cases h1 : (pgms.filter fun p => p.pgroup ∈ groups).find? fun p => !isWildcard p.program && decide (p.program = file) with
    | some p => rfl
    | none =>
      simp only
      rw [List.find?_filter]
      have : (fun a => decide (isWildcard a.program = true ∧ rx a.program file = true)) =
          fun p : Pgm => isWildcard p.program && rx p.program file := by
        funext p; rw [Bool.decide_and]; simp
      rw [this]
      rfl
  · have hne : ∀ p, p ∈ (pgms.filter fun p => p.pgroup ∈ groups) →
        (match groupIndex p.pgroup groups with | some i => Group.group i | none => .outOfRange) ≠ .outOfRange := by
      intro p hp
      rw [List.mem_filter] at hp
      have := (groupIndex_isSome p.pgroup groups).mpr (by simpa using hp.2)
      cases h : groupIndex p.pgroup groups with
      | none => rw [h] at this; simp at this
      | some i => simp
    unfold specSelect
    simp only
    split
    · next p h => exact hne p (List.mem_of_find?_eq_some h)
    · split
      · next p h => exact hne p (List.mem_of_find?_eq_some h)
      · simp

/-- Violation: when proc_grps.json is reloaded and pgm_conf.json is then unreadable, the old program entries stay while the
groups are gone, and selecting the group of the program throws. -/
theorem C22_witness_bad_reload (rx : Bytes → Bytes → Bool) :
    (((({} : Conf).load (some [[71]]) (some [⟨[112], [71]⟩])).load (some [[71]]) none).select rx [112]) = .outOfRange := by
  rfl

/-- Non-vacuity: the exact entry wins over an earlier wildcard entry; an entry of an unknown group is skipped. -/
example : (({} : Conf).load (some [[71], [72]]) (some [⟨[42], [71]⟩, ⟨[112], [88]⟩, ⟨[112], [72]⟩])).select (fun _ _ => true) [112]
    = .group 1 := by decide
example : (({} : Conf).load (some [[71], [72]]) (some [⟨[42], [71]⟩, ⟨[112], [72]⟩])).select (fun _ _ => true) [113]
    = .group 0 := by decide

/-! C25 -/

theorem prefixMatch_le (a b : Bytes) : prefixMatch a b ≤ b.length := by
  fun_induction prefixMatch a b <;> simp_all

theorem prefixMatch_full (a b : Bytes) : prefixMatch a b = b.length ↔ b <+: a := by
  fun_induction prefixMatch a b with
  | case1 as c bs ih => simp [ih, List.cons_prefix_cons]
  | case2 a as c bs h =>
    simp only [List.length_cons, List.cons_prefix_cons]
    constructor
    · intro h'; omega
    · intro h'; exact absurd h'.1.symm h
  | case3 a b h =>
    cases b with
    | nil => simp
    | cons c bs =>
      cases a with
      | nil => simp
      | cons d as => exact absurd rfl (h d as c bs rfl)

theorem wsPathMatch_spec (doc : Bytes) (ws : List (Bytes × Bytes)) (hw : ∀ w ∈ ws, w.1 = w.2) :
    ∀ (max : Nat) (best : Option (Bytes × Bytes)),
    (∀ w, best = some w → w.2 <+: doc ∧ w.2.length = max) → (best = none → max = 0) →
    (∀ w, wsPathMatch doc ws max best = some w → (w ∈ ws ∨ best = some w) ∧ w.2 <+: doc ∧ w.2 ≠ [] ∨ best = some w) ∧
    (∀ w, wsPathMatch doc ws max best = some w → max ≤ w.2.length ∧ w.2 <+: doc ∧
      ∀ v ∈ ws, v.2 <+: doc → v.2.length ≤ w.2.length) ∧
    (wsPathMatch doc ws max best = none → best = none ∧ ∀ v ∈ ws, v.2 <+: doc → v.2 = []) := by
  induction ws with
  | nil =>
    intro max best h1 h2
    simp only [wsPathMatch]
    refine ⟨fun w h => Or.inr h, fun w h => ⟨by rw [(h1 w h).2]; exact Nat.le_refl _, (h1 w h).1, by simp⟩, fun h => ⟨h, by simp⟩⟩
  | cons a ws ih =>
    intro max best h1 h2
    have hwa := hw a (by simp)
    simp only [wsPathMatch]
    split
    · next hc =>
      have hfull : prefixMatch doc a.2 = a.2.length := by
        have := prefixMatch_le doc a.2; rw [hwa] at hc; omega
      have hpre := (prefixMatch_full doc a.2).mp hfull
      rw [hfull] at hc ⊢
      obtain ⟨i1, i2, i3⟩ := ih (fun w h => hw w (by simp [h])) a.2.length (some a)
        (by intro w h; simp at h; subst h; exact ⟨hpre, rfl⟩) (by simp)
      refine ⟨?_, ?_, ?_⟩
      · intro w h
        rcases i1 w h with ⟨hm | hm, hp, hne⟩ | hm
        · exact Or.inl ⟨Or.inl (by simp [hm]), hp, hne⟩
        · simp at hm; subst hm; exact Or.inl ⟨Or.inl (by simp), hp, hne⟩
        · simp at hm; subst hm
          exact Or.inl ⟨Or.inl (by simp), hpre, by intro e; rw [e] at hc; simp at hc⟩
      · intro w h
        obtain ⟨j1, j2, j3⟩ := i2 w h
        refine ⟨by omega, j2, ?_⟩
        intro v hv hvp
        rw [List.mem_cons] at hv
        rcases hv with rfl | hv
        · exact j1
        · exact j3 v hv hvp
      · intro h; have := (i3 h).1; simp at this
    · next hc =>
      obtain ⟨i1, i2, i3⟩ := ih (fun w h => hw w (by simp [h])) max best h1 h2
      have key : a.2 <+: doc → a.2.length ≤ max := by
        intro hp
        have := (prefixMatch_full doc a.2).mpr hp
        rw [this, hwa] at hc; omega
      refine ⟨?_, ?_, ?_⟩
      · intro w h
        rcases i1 w h with ⟨hm | hm, hp, hne⟩ | hm
        · exact Or.inl ⟨Or.inl (by simp [hm]), hp, hne⟩
        · exact Or.inr hm
        · exact Or.inr hm
      · intro w h
        obtain ⟨j1, j2, j3⟩ := i2 w h
        refine ⟨j1, j2, ?_⟩
        intro v hv hvp
        rw [List.mem_cons] at hv
        rcases hv with rfl | hv
        · have := key hvp; omega
        · exact j3 v hv hvp
      · intro h
        obtain ⟨k1, k2⟩ := i3 h
        refine ⟨k1, ?_⟩
        intro v hv hvp
        rw [List.mem_cons] at hv
        rcases hv with rfl | hv
        · have := key hvp; have := h2 k1; exact List.eq_nil_of_length_eq_zero (by omega)
        · exact k2 v hv hvp

/-- C25 for workspaces registered with their URI as name, "encloses" being read as string prefix: the chosen workspace
encloses the document, has the longest URI among those that do, and the implicit workspace is used only if none
encloses it. The result does not depend on the order of the map. -/
theorem C25_innermost_partial (doc : Bytes) (ws : List (Bytes × Bytes)) (hw : ∀ w ∈ ws, w.1 = w.2) :
    (∀ w, wsPathMatch doc ws 0 none = some w → w ∈ ws ∧ w.2 <+: doc ∧ w.2 ≠ [] ∧
      ∀ v ∈ ws, v.2 <+: doc → v.2.length ≤ w.2.length) ∧
    (wsPathMatch doc ws 0 none = none → ∀ v ∈ ws, v.2 <+: doc → v.2 = []) := by
  obtain ⟨h1, h2, h3⟩ := wsPathMatch_spec doc ws hw 0 none (by simp) (by simp)
  refine ⟨?_, fun h => (h3 h).2⟩
  intro w h
  rcases h1 w h with ⟨hm | hm, hp, hne⟩ | hm
  · exact ⟨hm, hp, hne, (h2 w h).2.2⟩
  · simp at hm
  · simp at hm

theorem C25_order_independent_partial (doc : Bytes) (ws ws' : List (Bytes × Bytes)) (hw : ∀ w ∈ ws, w.1 = w.2)
    (hp : ws.Perm ws') : wsPathMatch doc ws 0 none = wsPathMatch doc ws' 0 none := by
  have hw' : ∀ w ∈ ws', w.1 = w.2 := fun w h => hw w (hp.mem_iff.mpr h)
  obtain ⟨a1, a2⟩ := C25_innermost_partial doc ws hw
  obtain ⟨b1, b2⟩ := C25_innermost_partial doc ws' hw'
  cases h : wsPathMatch doc ws 0 none with
  | none =>
    cases h' : wsPathMatch doc ws' 0 none with
    | none => rfl
    | some w =>
      obtain ⟨c1, c2, c3, _⟩ := b1 w h'
      exact absurd (a2 h w (hp.mem_iff.mpr c1) c2) c3
  | some v =>
    obtain ⟨d1, d2, d3, d4⟩ := a1 v h
    cases h' : wsPathMatch doc ws' 0 none with
    | none => exact absurd (b2 h' v (hp.mem_iff.mp d1) d2) d3
    | some w =>
      obtain ⟨c1, c2, c3, c4⟩ := b1 w h'
      have e1 := c4 v (hp.mem_iff.mp d1) d2
      have e2 := d4 w (hp.mem_iff.mpr c1) c2
      have : v.2 = w.2 := by
        have p1 := List.prefix_of_prefix_length_le d2 c2 e1
        exact p1.eq_of_length (by omega)
      have e3 := hw v d1; have e4 := hw' w c1
      have : v = w := Prod.ext (by rw [e3, e4, this]) this
      rw [this]

/-- Violation: a workspace named `w` with URI `/a/b` handles `/a/c`, which it does not enclose. -/
theorem C25_witness_name :
    wsPathMatch [47, 97, 47, 99] [([119], [47, 97, 47, 98])] 0 none = some ([119], [47, 97, 47, 98]) ∧
    ¬ [47, 97, 47, 98] <+: ([47, 97, 47, 99] : Bytes) := by decide

/-- Violation: the workspace `/a` handles the document `/ab` of the sibling directory, even when registered under its URI. -/
theorem C25_witness_sibling :
    wsPathMatch [47, 97, 98] [([47, 97], [47, 97])] 0 none = some ([47, 97], [47, 97]) := by decide

/-- Violation: a workspace whose name differs from its URI is not removed when the client closes the folder. -/
theorem C25_witness_remove (m : List (Bytes × Bytes)) (name uri : Bytes) (hne : name ≠ uri) (hl : lookup m name = none) :
    (name, uri) ∈ removeWorkspace (addWorkspace m name uri) uri := by
  unfold removeWorkspace addWorkspace emplace
  rw [hl]
  simp [hne]

/-- Specification: what the client says about its folders; a folder is named by its URI. -/
inductive Folder
  | opened (uri : Bytes)
  | closed (uri : Bytes)
deriving DecidableEq

/-- The workspaces after a history (workspace_manager_impl.h:55-71), all registered under their URI. -/
def folders (m : List (Bytes × Bytes)) : List Folder → List (Bytes × Bytes)
  | [] => m
  | .opened u :: es => folders (addWorkspace m u u) es
  | .closed u :: es => folders (removeWorkspace m u) es

/-- Specification: the folder was opened and not closed since. -/
def OpenAfter (es : List Folder) (u : Bytes) : Prop := ∃ pre post, es = pre ++ .opened u :: post ∧ .closed u ∉ post

theorem mem_addWorkspace (m : List (Bytes × Bytes)) (u : Bytes) (hm : ∀ w ∈ m, w.1 = w.2) (w : Bytes × Bytes) :
    w ∈ addWorkspace m u u ↔ w ∈ m ∨ w = (u, u) := by
  unfold addWorkspace emplace
  cases h : lookup m u with
  | none => simp
  | some v =>
    simp only [lookup, Option.map_eq_some_iff] at h
    obtain ⟨x, hx, rfl⟩ := h
    have h1 := List.mem_of_find?_eq_some hx
    have h2 := List.find?_some hx
    simp only [decide_eq_true_eq] at h2
    have : x = (u, u) := Prod.ext h2 (by rw [← hm x h1, h2])
    subst this
    simp only
    exact ⟨Or.inl, fun h => h.elim id (fun e => e ▸ h1)⟩

theorem mem_folders (es : List Folder) : ∀ m : List (Bytes × Bytes), (∀ w ∈ m, w.1 = w.2) →
    (∀ w ∈ folders m es, w.1 = w.2) ∧
    ∀ u, (u, u) ∈ folders m es ↔ OpenAfter es u ∨ ((u, u) ∈ m ∧ .closed u ∉ es) := by
  induction es with
  | nil => intro m hm; exact ⟨hm, fun u => by simp [folders, OpenAfter]⟩
  | cons e es ih =>
    intro m hm
    have hopen : ∀ u, OpenAfter (e :: es) u ↔ (e = .opened u ∧ .closed u ∉ es) ∨ OpenAfter es u := by
      intro u
      constructor
      · rintro ⟨pre, post, h, hp⟩
        cases pre with
        | nil => simp at h; exact Or.inl ⟨h.1, h.2 ▸ hp⟩
        | cons a pre => simp at h; exact Or.inr ⟨pre, post, h.2, hp⟩
      · rintro (⟨rfl, hp⟩ | ⟨pre, post, h, hp⟩)
        · exact ⟨[], es, rfl, hp⟩
        · exact ⟨e :: pre, post, by simp [h], hp⟩
    cases e with
    | opened v =>
      have hm' : ∀ w ∈ addWorkspace m v v, w.1 = w.2 := by
        intro w hw
        rcases (mem_addWorkspace m v hm w).mp hw with h | rfl
        · exact hm w h
        · rfl
      obtain ⟨i1, i2⟩ := ih _ hm'
      refine ⟨i1, fun u => ?_⟩
      rw [folders, i2, hopen, mem_addWorkspace m v hm]
      have e1 : ((u, u) = (v, v)) ↔ v = u := by simp [eq_comm]
      have e2 : (Folder.opened v = Folder.opened u) ↔ v = u := by simp
      have e3 : (Folder.closed u ∉ Folder.opened v :: es) ↔ Folder.closed u ∉ es := by simp
      rw [e1, e2, e3]
      grind
    | closed v =>
      have hm' : ∀ w ∈ removeWorkspace m v, w.1 = w.2 := fun w hw => hm w (List.mem_filter.mp hw).1
      obtain ⟨i1, i2⟩ := ih _ hm'
      refine ⟨i1, fun u => ?_⟩
      rw [folders, i2, hopen]
      have e1 : (u, u) ∈ removeWorkspace m v ↔ (u, u) ∈ m ∧ u ≠ v := by simp [removeWorkspace]
      have e3 : (Folder.closed u ∉ Folder.closed v :: es) ↔ u ≠ v ∧ Folder.closed u ∉ es := by simp
      rw [e1, e3]
      have e2 : ¬ (Folder.closed v = Folder.opened u) := by simp
      grind

/-- C25 over histories, for workspaces registered under their URI and enclosure read as string prefix: whatever folders were
opened and closed, in whatever order, a document is handled by the longest enclosing folder among those opened and not
closed since, and by the implicit workspace only if none of these encloses it. -/
theorem C25_history_partial (es : List Folder) (doc : Bytes) :
    (∀ w, wsPathMatch doc (folders [] es) 0 none = some w → OpenAfter es w.2 ∧ w.2 <+: doc ∧ w.2 ≠ [] ∧
      ∀ u, OpenAfter es u → u <+: doc → u.length ≤ w.2.length) ∧
    (wsPathMatch doc (folders [] es) 0 none = none → ∀ u, OpenAfter es u → u <+: doc → u = []) := by
  obtain ⟨h1, h2⟩ := mem_folders es [] (by simp)
  obtain ⟨a1, a2⟩ := C25_innermost_partial doc _ h1
  have h3 : ∀ u, (u, u) ∈ folders [] es ↔ OpenAfter es u := fun u => by simpa using h2 u
  refine ⟨?_, ?_⟩
  · intro w hw
    obtain ⟨b1, b2, b3, b4⟩ := a1 w hw
    have hw' : w = (w.2, w.2) := Prod.ext (h1 w b1) rfl
    refine ⟨(h3 _).mp (hw' ▸ b1), b2, b3, ?_⟩
    intro u hu hp
    exact b4 _ ((h3 u).mpr hu) hp
  · intro h u hu hp
    exact a2 h _ ((h3 u).mpr hu) hp

/-- Non-vacuity: `/` and `/a` are opened, `/a` is closed: `/` handles `/a/b`. -/
example : wsPathMatch [47, 97, 47, 98] (folders [] [.opened [47], .opened [47, 97], .closed [47, 97]]) 0 none =
    some ([47], [47]) ∧ OpenAfter [.opened [47], .opened [47, 97], .closed [47, 97]] [47] :=
  ⟨by decide, [], [.opened [47, 97], .closed [47, 97]], rfl, by decide⟩

example : wsPathMatch [47, 97, 47, 98] [([47], [47]), ([47, 97], [47, 97]), ([47, 99], [47, 99])] 0 none =
    some ([47, 97], [47, 97]) := by decide

/-! C26 -/

/-- C26: the effective limit is always defined; it is the one of the program configuration if present, else the one of the
client configuration (negative values meaning zero), else 10. -/
theorem C26_precedence (program client : Option Int) :
    getConfig (programConfig program) (clientConfig client) =
      some (match program, client with
        | some p, _ => p
        | none, some c => max c 0
        | none, none => 10) := by
  cases program with
  | some p => simp [getConfig, fillMissing, combineConfigs, programConfig]
  | none =>
    cases client with
    | some c =>
      simp only [getConfig, fillMissing, combineConfigs, programConfig, clientConfig]
      by_cases h : c < 0
      · have : max c 0 = 0 := by omega
        simp [h, this]
      · have : max c 0 = c := by omega
        simp [h, this]
    | none => simp [getConfig, fillMissing, combineConfigs, programConfig, clientConfig]

/-- C26: a value set at a higher level is never overridden by a lower level. -/
theorem C26_not_overridden (v : Int) (c1 c2 : LibConfig) :
    getConfig (programConfig (some v)) c1 = getConfig (programConfig (some v)) c2 := by
  simp [getConfig, fillMissing, combineConfigs, programConfig]

example : getConfig (programConfig none) (clientConfig (some (-3))) = some 0 := by decide

/-- C22: exactly the entries that contain an asterisk or a question mark are patterns. -/
theorem C22_wildcard_entry (s : Bytes) : isWildcard s = true ↔ 42 ∈ s ∨ 63 ∈ s := by
  simp [isWildcard]

end Verif.Workspace
