import Verif.Workspace.Library
/-! C20, C21: library lookup and member names. -/
namespace Verif.Workspace

/-- C20: a member is taken from library `l` with path `p` exactly when `l` is the first library containing it; and
existence is reported exactly when the lookup would succeed. -/
theorem C20_first_library (ls : List Lib) (m p : Bytes) (l : Lib) :
    (parseLibrary ls m = some (l, p) ↔
      ∃ pre post, ls = pre ++ l :: post ∧ l.find m = some p ∧ ∀ l' ∈ pre, l'.find m = none) := by
  induction ls with
  | nil => simp [parseLibrary]
  | cons a ls ih =>
    simp only [parseLibrary]
    cases ha : a.find m with
    | some q =>
      simp only [Option.some.injEq, Prod.mk.injEq]
      constructor
      · rintro ⟨rfl, rfl⟩; exact ⟨[], ls, rfl, ha, by simp⟩
      · rintro ⟨pre, post, h1, h2, h3⟩
        cases pre with
        | nil => simp at h1; obtain ⟨rfl, _⟩ := h1; rw [ha] at h2; simp at h2; exact ⟨rfl, h2⟩
        | cons b pre =>
          simp at h1; obtain ⟨rfl, _⟩ := h1
          have := h3 a (by simp); rw [ha] at this; simp at this
    | none =>
      simp only
      rw [ih]
      constructor
      · rintro ⟨pre, post, h1, h2, h3⟩
        exact ⟨a :: pre, post, by rw [h1]; rfl, h2, by
          intro l' hl; rw [List.mem_cons] at hl
          rcases hl with rfl | hl
          · exact ha
          · exact h3 l' hl⟩
      · rintro ⟨pre, post, h1, h2, h3⟩
        cases pre with
        | nil => simp at h1; obtain ⟨rfl, _⟩ := h1; rw [ha] at h2; simp at h2
        | cons b pre =>
          simp at h1; obtain ⟨rfl, h1⟩ := h1
          exact ⟨pre, post, h1, h2, fun l' hl => h3 l' (by simp [hl])⟩

theorem C20_has_iff_parse (ls : List Lib) (m : Bytes) : hasLibrary ls m = true ↔ ∃ l p, parseLibrary ls m = some (l, p) := by
  induction ls with
  | nil => simp [hasLibrary, parseLibrary]
  | cons a ls ih =>
    simp only [hasLibrary, parseLibrary]
    cases ha : a.find m with
    | some q => simp
    | none => simpa using ih

example : parseLibrary [⟨[], []⟩, ⟨[([65], [1])], []⟩, ⟨[([65], [2])], []⟩] [65] = some (⟨[([65], [1])], []⟩, [1]) := by rfl

theorem mem_unique (l : List Bytes) (e : Bytes) : e ∈ unique l ↔ e ∈ l := by
  fun_induction unique l with
  | case1 => simp
  | case2 a => simp
  | case3 a r ih => simp [ih]
  | case4 a b r h ih => rw [List.mem_cons, ih]; simp

/-- Lists in order of non-increasing length. -/
def LongFirst (l : List Bytes) : Prop := l.Pairwise fun a b => b.length ≤ a.length

theorem unique_sublist (l : List Bytes) : (unique l).Sublist l := by
  fun_induction unique l with
  | case1 => exact .slnil
  | case2 a => exact List.Sublist.refl _
  | case3 a r ih => exact ih.cons _
  | case4 a b r h ih => exact ih.cons_cons _

theorem lexLe_trans (a b c : Bytes) (h1 : lexLe a b = true) (h2 : lexLe b c = true) : lexLe a c = true := by
  induction a generalizing b c with
  | nil => rfl
  | cons x a ih =>
    cases b with
    | nil => simp [lexLe] at h1
    | cons y b =>
      cases c with
      | nil => simp [lexLe] at h2
      | cons z c =>
        simp only [lexLe] at h1 h2 ⊢
        by_cases hxy : x < y
        · by_cases hyz : y < z
          · simp [UInt8.lt_trans hxy hyz]
          · simp only [hyz, if_false] at h2
            split at h2
            · simp at h2
            · next hzy =>
              have : y = z := by rw [UInt8.lt_iff_toNat_lt] at hyz hzy; exact UInt8.toNat_inj.mp (by omega)
              subst this; simp [hxy]
        · simp only [hxy, if_false] at h1
          split at h1
          · simp at h1
          · next hyx =>
            have : x = y := by rw [UInt8.lt_iff_toNat_lt] at hxy hyx; exact UInt8.toNat_inj.mp (by omega)
            subst this
            split
            · rfl
            · next hxz =>
              simp only [hxz, if_false] at h2
              split
              · next hzx => simp [hzx] at h2
              · next hzx => simp only [hzx, if_false] at h2; exact ih b c h1 h2

theorem lexLe_total (a b : Bytes) : (lexLe a b || lexLe b a) = true := by
  induction a generalizing b with
  | nil => simp [lexLe]
  | cons x a ih =>
    cases b with
    | nil => simp [lexLe]
    | cons y b =>
      simp only [lexLe]
      by_cases h1 : x < y
      · simp [h1]
      · by_cases h2 : y < x
        · simp [h2]
        · simp only [h1, h2, if_false]; exact ih b

theorem extLe_trans (a b c : Bytes) (h1 : extLe a b = true) (h2 : extLe b c = true) : extLe a c = true := by
  unfold extLe at *
  by_cases hab : a.length > b.length
  · by_cases hbc : b.length < c.length
    · have : ¬ b.length > c.length := by omega
      simp [this, hbc] at h2
    · have : a.length > c.length := by omega
      simp [this]
  · simp only [hab, if_false] at h1
    by_cases hab' : a.length < b.length
    · simp [hab'] at h1
    · simp only [hab', if_false] at h1
      have e : a.length = b.length := by omega
      rw [e]
      split
      · rfl
      · next h => simp only [h, if_false] at h2
                  split
                  · next h' => simp [h'] at h2
                  · next h' => simp only [h', if_false] at h2; exact lexLe_trans a b c h1 h2

theorem extLe_total (a b : Bytes) : (extLe a b || extLe b a) = true := by
  unfold extLe
  by_cases h1 : a.length > b.length
  · simp [h1]
  · by_cases h2 : b.length > a.length
    · simp [h2]
    · have e1 : ¬ a.length < b.length := by omega
      have e2 : ¬ b.length < a.length := by omega
      simp only [h1, h2, e1, e2, if_false]; exact lexLe_total a b

/-- The configured extensions, as the user means them: with a dot; files without extension are accepted too if the list
comes from the deprecated setting. -/
def Configured (exts : List Bytes) (deprecated : Bool) (e : Bytes) : Prop :=
  (∃ x ∈ exts, e = addDot x) ∨ (deprecated = true ∧ e = [])

theorem mem_adjust (exts : List Bytes) (hne : exts ≠ []) (dep : Bool) (e : Bytes) :
    e ∈ adjustExtensions exts dep ↔ Configured exts dep e := by
  have hemp : exts.isEmpty = false := by simpa using hne
  unfold adjustExtensions Configured
  simp only [hemp, Bool.false_eq_true, if_false, mem_unique]
  split
  · next h =>
    simp only [Bool.and_eq_true, Bool.not_eq_true'] at h
    simp [List.mem_mergeSort, h.1]
    constructor <;> (intro h; rcases h with ⟨a, h1, h2⟩ | h <;> first | exact Or.inl ⟨a, h1, h2.symm⟩ | exact Or.inr h)
  · next h =>
    simp only [Bool.and_eq_true, Bool.not_eq_true', not_and] at h
    rw [List.mem_mergeSort, List.mem_map]
    constructor
    · rintro ⟨x, hx, rfl⟩; exact Or.inl ⟨x, hx, rfl⟩
    · rintro (⟨x, hx, rfl⟩ | ⟨h1, rfl⟩)
      · exact ⟨x, hx, rfl⟩
      · have := h h1
        simp only [Bool.not_eq_false, List.any_eq_true] at this
        obtain ⟨x, hx, hx0⟩ := this
        simp at hx0; subst hx0; exact ⟨[], hx, rfl⟩

theorem adjust_longFirst (exts : List Bytes) (dep : Bool) : LongFirst (adjustExtensions exts dep) := by
  unfold adjustExtensions
  split
  · exact List.Pairwise.nil
  · have hs : LongFirst ((exts.map addDot).mergeSort extLe) := by
      have := List.pairwise_mergeSort (le := extLe) extLe_trans extLe_total (exts.map addDot)
      refine this.imp ?_
      intro a b h
      unfold extLe at h
      by_cases h1 : a.length > b.length
      · omega
      · simp only [h1, if_false] at h
        by_cases h2 : a.length < b.length
        · simp [h2] at h
        · omega
    refine List.Pairwise.sublist (unique_sublist _) ?_
    split
    · refine List.pairwise_append.mpr ⟨hs, by simp, ?_⟩
      intro a _ b hb; simp at hb; subst hb; simp
    · exact hs

theorem find_longFirst (l : List Bytes) (hl : LongFirst l) (p : Bytes → Bool) (e : Bytes) (h : l.find? p = some e) :
    ∀ e' ∈ l, p e' = true → e'.length ≤ e.length := by
  induction l with
  | nil => simp at h
  | cons a l ih =>
    rw [LongFirst, List.pairwise_cons] at hl
    rw [List.find?_cons] at h
    split at h
    · simp at h; subst h
      intro e' he' _
      rw [List.mem_cons] at he'
      rcases he' with rfl | he'
      · exact Nat.le_refl _
      · exact hl.1 e' he'
    · next hp =>
      intro e' he' hpe
      rw [List.mem_cons] at he'
      rcases he' with rfl | he'
      · rw [hp] at hpe; simp at hpe
      · exact ih hl.2 h e' he' hpe

/-- Specification of the visible name: upper-cased, with the longest configured extension that leaves a non-empty name
removed once. -/
def VisibleAs (exts : List Bytes) (dep : Bool) (name m : Bytes) : Prop :=
  ∃ base e, base ≠ [] ∧ name = base ++ e ∧ Configured exts dep e ∧ m = upper base ∧
    ∀ base' e', base' ≠ [] → name = base' ++ e' → Configured exts dep e' → e'.length ≤ e.length

theorem suffix_iff (name e : Bytes) :
    (decide (e.length < name.length) && name.drop (name.length - e.length) == e) = true ↔ ∃ base, base ≠ [] ∧ name = base ++ e := by
  simp only [Bool.and_eq_true, decide_eq_true_eq, beq_iff_eq]
  constructor
  · rintro ⟨h1, h2⟩
    refine ⟨name.take (name.length - e.length), ?_, ?_⟩
    · intro h
      have := congrArg List.length h
      simp at this; omega
    · conv => lhs; rw [← List.take_append_drop (name.length - e.length) name, h2]
  · rintro ⟨base, h1, rfl⟩
    have : 0 < base.length := List.length_pos_iff.mpr h1
    simp; omega

/-- C21: the name under which a file is entered. -/
theorem C21_visible_name (exts : List Bytes) (hne : exts ≠ []) (dep : Bool) (name m : Bytes) :
    memberName (adjustExtensions exts dep) name = some m ↔ VisibleAs exts dep name m := by
  unfold memberName
  constructor
  · intro h
    split at h
    · next e he =>
      simp at h; subst h
      obtain ⟨base, hb, hn⟩ := (suffix_iff name e).mp (by simpa using List.find?_some he)
      refine ⟨base, e, hb, hn, (mem_adjust exts hne dep e).mp (List.mem_of_find?_eq_some he), ?_, ?_⟩
      · subst hn; simp
      · intro base' e' hb' hn' hc'
        exact find_longFirst _ (adjust_longFirst exts dep) _ e he e' ((mem_adjust exts hne dep e').mpr hc')
          ((suffix_iff name e').mpr ⟨base', hb', hn'⟩)
    · simp at h
  · rintro ⟨base, e, hb, hn, hc, rfl, hmax⟩
    split
    · next e' he' =>
      obtain ⟨base', hb', hn'⟩ := (suffix_iff name e').mp (by simpa using List.find?_some he')
      have l1 := hmax base' e' hb' hn' ((mem_adjust exts hne dep e').mp (List.mem_of_find?_eq_some he'))
      have l2 := find_longFirst _ (adjust_longFirst exts dep) _ e' he' e ((mem_adjust exts hne dep e).mpr hc)
          ((suffix_iff name e).mpr ⟨base, hb, hn⟩)
      have : e.length = e'.length := by omega
      subst hn
      simp [← this]
    · next hnone =>
      rw [List.find?_eq_none] at hnone
      exact absurd ((suffix_iff name e).mpr ⟨base, hb, hn⟩) (hnone e ((mem_adjust exts hne dep e).mpr hc))

theorem find_append_none (l : Lib) (m m' p : Bytes) (cs : List Bytes) :
    Lib.find ⟨l.files ++ [(m', p)], cs⟩ m = if (l.find m).isSome then l.find m else if m' = m then some p else none := by
  unfold Lib.find
  simp only [List.find?_append]
  cases h : l.files.find? (·.1 = m) with
  | some x => simp
  | none =>
    by_cases e : m' = m <;> simp [List.find?_cons, e]

/-- Loading with extensions: the first file with a name is used. -/
theorem load_find (exts : List Bytes) (hne : exts.isEmpty = false) (fs : List (Bytes × Bytes)) : ∀ l : Lib, ∀ m,
    (fs.foldl (Lib.add exts) l).find m =
      if (l.find m).isSome then l.find m else (fs.find? fun f => memberName exts f.1 = some m).map (·.2) := by
  induction fs with
  | nil => intro l m; cases h : l.find m <;> simp [h]
  | cons f fs ih =>
    intro l m
    rw [List.foldl_cons, ih, List.find?_cons]
    unfold Lib.add
    simp only [hne, Bool.false_eq_true, if_false]
    cases hm : memberName exts f.1 with
    | none => simp
    | some m' =>
      simp only
      cases hf : l.find m' with
      | some q =>
        by_cases e : m' = m
        · subst e
          have : Lib.find { l with conflicts := l.conflicts ++ [m'] } m' = some q := hf
          simp [this, hf]
        · have : Lib.find { l with conflicts := l.conflicts ++ [m'] } m = l.find m := rfl
          simp [this, e]
      | none =>
        simp only
        rw [find_append_none]
        by_cases e : m' = m
        · subst e; simp [hf]
        · cases hl : l.find m <;> simp [e]

/-- C21: with extensions configured, a member name resolves to the first file of the directory listing visible under it
and to nothing if there is none. -/
theorem C21_first_file (exts : List Bytes) (hne : exts ≠ []) (dep : Bool) (listing : List (Bytes × Bytes)) (m p : Bytes) :
    (loadFiles exts dep listing).find m = some p ↔
      ∃ pre f post, listing = pre ++ f :: post ∧ VisibleAs exts dep f.1 m ∧ f.2 = p ∧ ∀ g ∈ pre, ¬ VisibleAs exts dep g.1 m := by
  have hadj : (adjustExtensions exts dep).isEmpty = false := by
    cases exts with
    | nil => exact absurd rfl hne
    | cons x xs =>
      have : addDot x ∈ adjustExtensions (x :: xs) dep := (mem_adjust _ (by simp) _ _).mpr (Or.inl ⟨x, by simp, rfl⟩)
      cases h : adjustExtensions (x :: xs) dep with
      | nil => rw [h] at this; simp at this
      | cons => rfl
  unfold loadFiles
  rw [load_find _ hadj]
  have h0 : Lib.find {} m = none := rfl
  simp only [h0, Option.isSome_none, Bool.false_eq_true, if_false, Option.map_eq_some_iff]
  constructor
  · rintro ⟨f, hf, rfl⟩
    rw [List.find?_eq_some_iff_append] at hf
    obtain ⟨hv, pre, post, h1, h2⟩ := hf
    refine ⟨pre, f, post, h1, (C21_visible_name exts hne dep _ _).mp (by simpa using hv), rfl, ?_⟩
    intro g hg hv'
    have := h2 g hg
    rw [← C21_visible_name exts hne dep] at hv'
    simp [hv'] at this
  · rintro ⟨pre, f, post, h1, hv, rfl, h2⟩
    refine ⟨f, ?_, rfl⟩
    rw [List.find?_eq_some_iff_append]
    refine ⟨by simpa using (C21_visible_name exts hne dep _ _).mpr hv, pre, post, h1, ?_⟩
    intro g hg
    have := h2 g hg
    rw [← C21_visible_name exts hne dep] at this
    simp [this]

theorem load_conflicts (exts : List Bytes) (hne : exts.isEmpty = false) (fs : List (Bytes × Bytes)) : ∀ l : Lib, ∀ m,
    m ∈ (fs.foldl (Lib.add exts) l).conflicts ↔ m ∈ l.conflicts ∨
      ((l.find m).isSome = true ∧ ∃ f ∈ fs, memberName exts f.1 = some m) ∨
      (∃ pre f mid g post, fs = pre ++ f :: mid ++ g :: post ∧ memberName exts f.1 = some m ∧ memberName exts g.1 = some m) := by
  induction fs with
  | nil => intro l m; simp
  | cons f fs ih =>
    intro l m
    rw [List.foldl_cons, ih]
    have hsplit : ∀ P : (Bytes × Bytes) → Prop, (∃ g ∈ fs, P g) ↔ ∃ mid g post, fs = mid ++ g :: post ∧ P g := by
      intro P
      constructor
      · rintro ⟨g, hg, hp⟩
        obtain ⟨s, t, rfl⟩ := List.append_of_mem hg
        exact ⟨s, g, t, rfl, hp⟩
      · rintro ⟨mid, g, post, rfl, hp⟩; exact ⟨g, by simp, hp⟩
    have htail : (∃ pre f' mid g post, f :: fs = pre ++ f' :: mid ++ g :: post ∧ memberName exts f'.1 = some m ∧
        memberName exts g.1 = some m) ↔
        (memberName exts f.1 = some m ∧ ∃ g ∈ fs, memberName exts g.1 = some m) ∨
        (∃ pre f' mid g post, fs = pre ++ f' :: mid ++ g :: post ∧ memberName exts f'.1 = some m ∧ memberName exts g.1 = some m) := by
      rw [hsplit]
      constructor
      · rintro ⟨pre, f', mid, g, post, h, h1, h2⟩
        cases pre with
        | nil => simp at h; obtain ⟨rfl, h⟩ := h; exact Or.inl ⟨h1, mid, g, post, h, h2⟩
        | cons a pre => simp at h; exact Or.inr ⟨pre, f', mid, g, post, by simpa using h.2, h1, h2⟩
      · rintro (⟨h1, mid, g, post, h, h2⟩ | ⟨pre, f', mid, g, post, h, h1, h2⟩)
        · exact ⟨[], f, mid, g, post, by simp [h], h1, h2⟩
        · exact ⟨f :: pre, f', mid, g, post, by simp [h], h1, h2⟩
    rw [htail]
    unfold Lib.add
    simp only [hne, Bool.false_eq_true, if_false]
    cases hm : memberName exts f.1 with
    | none => simp [hm]
    | some m' =>
      simp only
      cases hf : l.find m' with
      | some q =>
        have : Lib.find { l with conflicts := l.conflicts ++ [m'] } m = l.find m := rfl
        simp only [this, List.mem_append, List.mem_singleton, List.mem_cons, exists_eq_or_imp, hm, Option.some.injEq]
        by_cases e : m' = m
        · subst e; simp [hf]
        · have e' : ¬ m = m' := fun h => e h.symm
          simp [e, e']
      | none =>
        simp only [find_append_none, List.mem_cons, exists_eq_or_imp, hm, Option.some.injEq]
        by_cases e : m' = m
        · subst e; simp [hf]
        · cases hl : l.find m <;> simp [e]

/-- C21: with extensions configured, a conflict is reported for a name exactly when two files of the directory are visible
under it. -/
theorem C21_conflict_reported (exts : List Bytes) (hne : exts ≠ []) (dep : Bool) (listing : List (Bytes × Bytes)) (m : Bytes) :
    m ∈ (loadFiles exts dep listing).conflicts ↔ ∃ pre f mid g post, listing = pre ++ f :: mid ++ g :: post ∧
      VisibleAs exts dep f.1 m ∧ VisibleAs exts dep g.1 m := by
  have hadj : (adjustExtensions exts dep).isEmpty = false := by
    cases exts with
    | nil => exact absurd rfl hne
    | cons x xs =>
      have : addDot x ∈ adjustExtensions (x :: xs) dep := (mem_adjust _ (by simp) _ _).mpr (Or.inl ⟨x, by simp, rfl⟩)
      cases h : adjustExtensions (x :: xs) dep with
      | nil => rw [h] at this; simp at this
      | cons => rfl
  unfold loadFiles
  rw [load_conflicts _ hadj]
  have h0 : Lib.find {} m = none := rfl
  simp only [h0, Option.isSome_none, Bool.false_eq_true, false_and, List.not_mem_nil, false_or,
    C21_visible_name exts hne dep]

/-- Violation: with no extension configured, two files that differ only in case conflict; the last one is used and nothing
is reported. -/
theorem C21_witness_no_extensions :
    let l := loadFiles [] false [([109], [1]), ([77], [2])]
    l.find [77] = some [2] ∧ l.conflicts = [] := by decide +kernel

theorem load_none_find (fs : List (Bytes × Bytes)) : ∀ l : Lib, ∀ m,
    (fs.foldl (Lib.add []) l).find m =
      match fs.reverse.find? (fun f => decide (upper f.1 = m)) with
      | some f => some f.2
      | none => l.find m := by
  induction fs with
  | nil => intro l m; simp
  | cons f fs ih =>
    intro l m
    rw [List.foldl_cons, ih, List.reverse_cons, List.find?_append]
    cases fs.reverse.find? (fun f => decide (upper f.1 = m)) with
    | some g => simp
    | none =>
      by_cases e : upper f.1 = m
      · simp [Lib.add, Lib.find, e]
      · have hk : (l.files.filter (fun x => decide (x.1 ≠ upper f.1))).find? (fun x => decide (x.1 = m)) =
            l.files.find? (fun x => decide (x.1 = m)) := by
          rw [List.find?_filter]
          congr 1
          funext x
          by_cases hx : x.1 = m
          · have : x.1 ≠ upper f.1 := by rw [hx]; exact fun h => e h.symm
            simp [hx, this, Ne.symm e]
          · simp [hx]
        simp only [List.find?_cons, e, decide_false, List.find?_nil, Option.none_or, Lib.find, Lib.add, List.isEmpty_nil, if_true]
        rw [hk]

theorem load_none_conflicts (fs : List (Bytes × Bytes)) : ∀ l : Lib, (fs.foldl (Lib.add []) l).conflicts = l.conflicts := by
  induction fs with
  | nil => intro l; rfl
  | cons f fs ih => intro l; rw [List.foldl_cons, ih]; simp [Lib.add]

/-- C21: with no extension configured, a member name resolves to the last file of the directory listing whose whole name, in
upper case, is that name, and to nothing if there is none; conflicts are never reported (the property asks for the first
one and for a report). -/
theorem C21_no_extensions (dep : Bool) (listing : List (Bytes × Bytes)) (m p : Bytes) :
    ((loadFiles [] dep listing).find m = some p ↔
      ∃ pre f post, listing = pre ++ f :: post ∧ upper f.1 = m ∧ f.2 = p ∧ ∀ g ∈ post, upper g.1 ≠ m) ∧
    (loadFiles [] dep listing).conflicts = [] := by
  have hadj : adjustExtensions [] dep = [] := by simp [adjustExtensions]
  unfold loadFiles
  rw [hadj]
  refine ⟨?_, load_none_conflicts _ _⟩
  rw [load_none_find]
  have h0 : Lib.find {} m = none := rfl
  constructor
  · intro h
    cases hf : listing.reverse.find? (fun f => decide (upper f.1 = m)) with
    | none => rw [hf, h0] at h; simp at h
    | some f =>
      rw [hf] at h
      rw [List.find?_eq_some_iff_append] at hf
      obtain ⟨h1, a, b, h2, h3⟩ := hf
      refine ⟨b.reverse, f, a.reverse, ?_, by simpa using h1, by simpa using h, ?_⟩
      · have := congrArg List.reverse h2; simpa using this
      · intro g hg; simpa using h3 g (by simpa using hg)
  · rintro ⟨pre, f, post, rfl, h1, rfl, h2⟩
    have : (pre ++ f :: post).reverse.find? (fun f => decide (upper f.1 = m)) = some f := by
      rw [List.find?_eq_some_iff_append]
      refine ⟨by simpa using h1, post.reverse, pre.reverse, by simp, ?_⟩
      intro g hg; simpa using h2 g (by simpa using hg)
    rw [this]

/-- Non-vacuity: `mac` and `MAC` are both there, the later one is found. -/
example : (loadFiles [] true [([109], [1]), ([77], [2]), ([78], [3])]).find [77] = some [2] :=
  (C21_no_extensions true _ _ _).1.mpr ⟨[([109], [1])], ([77], [2]), [([78], [3])], rfl, by decide, rfl, by decide⟩

/-- Non-vacuity: `mac.asm.hlasm` with extensions `hlasm` and `asm.hlasm` is visible as `MAC`. -/
example : memberName (adjustExtensions [[104], [97, 46, 104]] false) [109, 46, 97, 46, 104] = some [77] := by
  have : adjustExtensions [[104], [97, 46, 104]] false = [[46, 97, 46, 104], [46, 104]] := by
    simp +decide [adjustExtensions, List.mergeSort, List.MergeSort.Internal.splitInTwo, addDot, extLe, unique]
  rw [this]; decide

/-- C21: an extension written without its dot means the same as with it; an empty extension and extensions with a dot are taken as they are. -/
theorem C21_dot (r : Bytes) : addDot [] = [] ∧ addDot (46 :: r) = 46 :: r ∧ ∀ c, c ≠ 46 → addDot (c :: r) = 46 :: c :: r := by
  refine ⟨rfl, by simp [addDot], fun c h => by simp [addDot, h]⟩

/-- C21: the letters a to z are changed to A to Z in the names of library members, everything else is kept. -/
theorem C21_upper : upper "abcdefghijklmnopqrstuvwxyz".toUTF8.toList = "ABCDEFGHIJKLMNOPQRSTUVWXYZ".toUTF8.toList ∧
    ∀ c : UInt8, c ∉ "abcdefghijklmnopqrstuvwxyz".toUTF8.toList → upper [c] = [c] := by
  refine ⟨by decide +kernel, ?_⟩
  intro c h
  have := forall_byte (fun c => c ∉ "abcdefghijklmnopqrstuvwxyz".toUTF8.toList → upper [c] = [c]) (by decide +kernel)
  exact this c h

end Verif.Workspace
