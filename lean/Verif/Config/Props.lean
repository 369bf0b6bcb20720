import Verif.Config.Spec
import Verif.Message.Props
import Verif.Workspace.SelectProps
import Verif.Workspace.LibraryProps
namespace Verif.Config

open Message (Json text Has Lacks Proper Within)

theorem bind_ok {α β : Type} (x : R α) (f : α → R β) (b : β) : (x >>= f) = .ok b ↔ ∃ a, x = .ok a ∧ f a = .ok b := by
  cases x with
  | error e => simp [bind, Except.bind]
  | ok a => simp [bind, Except.bind]

theorem bind_ub {α β : Type} (x : R α) (f : α → R β) (h : x ≠ .error .ub) (h' : ∀ a, f a ≠ .error .ub) : (x >>= f) ≠ .error .ub := by
  cases x with
  | error e => simpa [bind, Except.bind] using h
  | ok a => simpa [bind, Except.bind] using h' a

theorem pure_ok {α : Type} (a b : α) : (pure a : R α) = .ok b ↔ a = b := by simp [pure, Except.pure]
theorem pure_ub {α : Type} (a : α) : (pure a : R α) ≠ .error .ub := by simp [pure, Except.pure]

/-- The names of the members of the value itself are different. -/
def Flat (j : Json) : Prop := ∀ l, j = .obj l → (l.map (·.1)).Nodup

theorem flat_of {j : Json} (h : Proper j) : Flat j := fun l hl => h l (hl ▸ .self)

theorem found_iff {j : Json} {k : String} {v : Json} (h : Flat j) : j.find (text k) = some v ↔ Has j k v :=
  ⟨Message.has_of_find h, Has.found⟩

theorem lacks_iff {j : Json} {k : String} : j.find (text k) = none ↔ Lacks j k := by
  refine ⟨fun h => ?_, Lacks.found⟩
  intro m hm v hv
  subst hm
  simp only [Json.find, Option.map_eq_none_iff, List.find?_eq_none] at h
  exact h _ hv (by simp)

theorem at_ok {j : Json} {k : String} {v : Json} (h : Flat j) : «at» j k = .ok v ↔ Has j k v := by
  rw [← found_iff h]; unfold «at»; cases j.find (text k) <;> simp

theorem at_ub (j : Json) (k : String) : «at» j k ≠ .error .ub := by
  unfold «at»; cases j.find (text k) <;> simp

theorem optional_ok {α : Type} {j : Json} {k : String} {f : Json → R α} {r : Json → α → Prop} {d a : α} (h : Flat j)
    (hf : ∀ v, Has j k v → ∀ a, f v = .ok a ↔ r v a) : optional j k f d = .ok a ↔ Maybe j k r d a := by
  unfold optional
  cases hk : j.find (text k) with
  | some v =>
    have hv := (found_iff h).mp hk
    simp only
    rw [hf v hv]
    refine ⟨.there hv, fun hm => ?_⟩
    cases hm with
    | there hv' hr => rwa [hv.unique hv']
    | missing hl => rw [hl.found] at hk; simp at hk
  | none =>
    simp only [Except.ok.injEq]
    constructor
    · rintro rfl; exact .missing (lacks_iff.mp hk)
    · intro hm
      cases hm with
      | there hv' hr => rw [hv'.found] at hk; simp at hk
      | missing hl => rfl

theorem optional_ub {α : Type} {j : Json} {k : String} {f : Json → R α} {d : α} (h : ∀ v, f v ≠ .error .ub) :
    optional j k f d ≠ .error .ub := by
  unfold optional; cases j.find (text k) <;> simp [h]

theorem all_ok {α : Type} {f : Json → R α} {r : Json → α → Prop} {l : List Json} (h : ∀ j ∈ l, ∀ a, f j = .ok a ↔ r j a) (as : List α) :
    all f l = .ok as ↔ List.Forall₂ r l as := by
  induction l generalizing as with
  | nil => cases as <;> simp [all]
  | cons j l ih =>
    simp only [all, bind_ok, pure_ok]
    constructor
    · rintro ⟨a, ha, as', has, rfl⟩
      exact .cons ((h j (by simp) a).mp ha) ((ih (fun j hj => h j (by simp [hj])) as').mp has)
    · rintro (_ | ⟨ha, has⟩)
      exact ⟨_, (h j (by simp) _).mpr ha, _, (ih (fun j hj => h j (by simp [hj])) _).mpr has, rfl⟩

theorem all_ub {α : Type} {f : Json → R α} (h : ∀ v, f v ≠ .error .ub) (l : List Json) : all f l ≠ .error .ub := by
  induction l with
  | nil => simp [all]
  | cons j l ih => exact bind_ub _ _ (h j) fun _ => bind_ub _ _ ih fun _ => pure_ub _

theorem vec_ok {α : Type} {f : Json → R α} {r : Json → α → Prop} {j : Json} (h : ∀ l, j = .arr l → ∀ v ∈ l, ∀ a, f v = .ok a ↔ r v a)
    (as : List α) : vec f j = .ok as ↔ IsList r j as := by
  cases j with
  | arr l =>
    simp only [vec]
    rw [all_ok (h l rfl)]
    exact ⟨.mk, fun h => by cases h; assumption⟩
  | _ => simp only [vec, reduceCtorEq, false_iff]; intro h; cases h

theorem vec_ub {α : Type} {f : Json → R α} (h : ∀ v, f v ≠ .error .ub) (j : Json) : vec f j ≠ .error .ub := by
  cases j <;> simp [vec, all_ub h]

theorem str_ok (j : Json) (s : Bytes) : str j = .ok s ↔ IsText j s := by
  cases j with
  | str t => simp only [str, Except.ok.injEq]; exact ⟨fun h => h ▸ .mk _, fun h => by cases h; rfl⟩
  | _ => simp only [str, reduceCtorEq, false_iff]; intro h; cases h

theorem str_ub (j : Json) : str j ≠ .error .ub := by cases j <;> simp [str]

theorem bool_ok (j : Json) (s : Bool) : bool j = .ok s ↔ IsBool j s := by
  cases j with
  | bool t => simp only [bool, Except.ok.injEq]; exact ⟨fun h => h ▸ .mk _, fun h => by cases h; rfl⟩
  | _ => simp only [bool, reduceCtorEq, false_iff]; intro h; cases h

theorem bool_ub (j : Json) : bool j ≠ .error .ub := by cases j <;> simp [bool]

theorem strs_ok (j : Json) (s : List Bytes) : vec str j = .ok s ↔ IsList IsText j s := vec_ok (fun _ _ v _ a => str_ok v a) s

theorem library_ok {j : Json} (h : Flat j) (l : Library) : library j = .ok l ↔ IsLibrary j l := by
  cases j with
  | str s =>
    simp only [library, Except.ok.injEq]
    refine ⟨fun h => h ▸ .path _, fun h => ?_⟩
    cases h with
    | path => rfl
    | object h => cases h
  | obj m =>
    simp only [library, bind_ok, pure_ok, at_ok h, str_ok, strs_ok, optional_ok (r := IsBool) h (fun v _ => bool_ok v),
      optional_ok (r := IsList IsText) h (fun v _ => strs_ok v)]
    constructor
    · rintro ⟨v, hv, p, hp, o, ho, e, he, rfl⟩
      exact .object hv hp ho he
    · intro h
      cases h with
      | object hv hp ho he => exact ⟨_, hv, _, hp, _, ho, _, he, rfl⟩
  | _ =>
    simp only [library, reduceCtorEq, false_iff]
    intro h
    cases h with
    | object h => cases h

theorem library_ub (j : Json) : library j ≠ .error .ub := by
  cases j with
  | obj m =>
    refine bind_ub _ _ (at_ub _ _) fun _ => bind_ub _ _ (str_ub _) fun _ => ?_
    exact bind_ub _ _ (optional_ub bool_ub) fun _ => bind_ub _ _ (optional_ub (vec_ub str_ub)) fun _ => pure_ub _
  | _ => simp [library]

theorem options_ok {j : Json} (h : Flat j) (o : Bytes × Bytes) : options j = .ok o ↔ IsOptions j o := by
  cases j with
  | obj m =>
    simp only [options, bind_ok, pure_ok, optional_ok (r := IsText) h (fun v _ => str_ok v)]
    constructor
    · rintro ⟨p, hp, s, hs, rfl⟩
      exact .mk hp hs
    · intro h
      cases h with
      | mk hp hs => exact ⟨_, hp, _, hs, rfl⟩
  | _ =>
    simp only [options, reduceCtorEq, false_iff]
    intro h
    cases h

theorem options_ub (j : Json) : options j ≠ .error .ub := by
  cases j with
  | obj m => exact bind_ub _ _ (optional_ub str_ub) fun _ => bind_ub _ _ (optional_ub str_ub) fun _ => pure_ub _
  | _ => simp [options]

theorem proper_has {j : Json} {k : String} {v : Json} (h : Proper j) (hv : Has j k v) : Proper v := by
  cases hv with
  | mk hn hm => exact h.sub (.member hm .self)

theorem proper_elem {l : List Json} {v : Json} (h : Proper (.arr l)) (hv : v ∈ l) : Proper v := h.sub (.elem hv .self)

theorem group_ok {j : Json} (h : Proper j) (g : Group) : group j = .ok g ↔ IsGroup j g := by
  have hf := flat_of h
  simp only [group, bind_ok, pure_ok, at_ok hf, str_ok,
    optional_ok (r := IsOptions) hf (fun v hv => options_ok (flat_of (proper_has h hv)))]
  constructor
  · rintro ⟨v, hv, n, hn, w, hw, l, hl, o, ho, rfl⟩
    refine .mk hv hn hw ((vec_ok ?_ _).mp hl) ho
    rintro m rfl x hx a
    exact library_ok (flat_of (proper_elem (proper_has h hw) hx)) a
  · intro hg
    cases hg with
    | mk hv hn hw hl ho =>
      refine ⟨_, hv, _, hn, _, hw, _, (vec_ok ?_ _).mpr hl, _, ho, rfl⟩
      rintro m rfl x hx a
      exact library_ok (flat_of (proper_elem (proper_has h hw) hx)) a

theorem group_ub (j : Json) : group j ≠ .error .ub := by
  refine bind_ub _ _ (at_ub _ _) fun _ => bind_ub _ _ (str_ub _) fun _ => bind_ub _ _ (at_ub _ _) fun _ => ?_
  exact bind_ub _ _ (vec_ub library_ub _) fun _ => bind_ub _ _ (optional_ub options_ub) fun _ => pure_ub _

/-- C114: exactly the files that say which groups there are are accepted, and they are understood as they say. -/
theorem C114_groups_file {j : Json} (h : Proper j) (c : ProcConf) : procConf j = .ok c ↔ IsProcConf j c := by
  have hf := flat_of h
  simp only [procConf, bind_ok, pure_ok, at_ok hf, optional_ok (r := IsList IsText) hf (fun v _ => strs_ok v)]
  have hg : ∀ {v : Json}, Has j "pgroups" v → ∀ g, vec group v = .ok g ↔ IsList IsGroup v g := by
    intro v hv
    apply vec_ok
    rintro m rfl x hx a
    exact group_ok (proper_elem (proper_has h hv) hx) a
  constructor
  · rintro ⟨v, hv, g, hl, e, he, rfl⟩
    exact .mk hv ((hg hv _).mp hl) he
  · intro hc
    cases hc with
    | mk hv hl he => exact ⟨_, hv, _, (hg hv _).mpr hl, _, he, rfl⟩

theorem procConf_ub (j : Json) : procConf j ≠ .error .ub :=
  bind_ub _ _ (at_ub _ _) fun _ => bind_ub _ _ (vec_ub group_ub _) fun _ => bind_ub _ _ (optional_ub (vec_ub str_ub)) fun _ => pure_ub _

theorem mapping_ok {j : Json} (h : Flat j) (p : Workspace.Pgm) : mapping j = .ok p ↔ IsMapping j p := by
  simp only [mapping, bind_ok, pure_ok, at_ok h, str_ok]
  constructor
  · rintro ⟨v, hv, n, hn, w, hw, l, hl, rfl⟩
    exact .mk hv hn hw hl
  · intro hg
    cases hg with
    | mk hv hn hw hl => exact ⟨_, hv, _, hn, _, hw, _, hl, rfl⟩

theorem mapping_ub (j : Json) : mapping j ≠ .error .ub := by
  refine bind_ub _ _ (at_ub _ _) fun _ => bind_ub _ _ (str_ub _) fun _ => bind_ub _ _ (at_ub _ _) fun _ => ?_
  exact bind_ub _ _ (str_ub _) fun _ => pure_ub _

theorem limit_ok {v : Json} (h1 : ∀ b, v ≠ .bool b) (h2 : ∀ n, v ≠ .real n) (h3 : ∀ n, v = .int n → 0 ≤ n ∧ n < 2 ^ 32) (l : Option Nat) :
    (unsigned v).map some = .ok l ↔ IsLimit v l := by
  cases v with
  | int n =>
    obtain ⟨h0, h1⟩ := h3 n rfl
    have : n % 2 ^ 32 = n := by omega
    simp only [unsigned, this, Except.map, Except.ok.injEq]
    constructor
    · rintro rfl
      obtain ⟨k, rfl⟩ := Int.eq_ofNat_of_zero_le h0
      exact .mk k (by omega)
    · intro h
      cases h
      simp
  | bool b => exact absurd rfl (h1 b)
  | real n => exact absurd rfl (h2 n)
  | _ => simp only [unsigned, Except.map, reduceCtorEq, false_iff]; intro h; cases h

/-- C114: the same for the file about programs, if the limit in it is plain (see the witnesses). -/
theorem C114_programs_file {j : Json} (h : Proper j) (hl : PlainLimit j) (c : PgmConf) : pgmConf j = .ok c ↔ IsPgmConf j c := by
  have hf := flat_of h
  have ho : ∀ d a, optional j "diagnosticsSuppressLimit" (fun v => (unsigned v).map some) d = .ok a ↔
      Maybe j "diagnosticsSuppressLimit" IsLimit d a :=
    fun d a => optional_ok hf fun v hv a => limit_ok (hl v hv).1 (hl v hv).2.1 (hl v hv).2.2 a
  simp only [pgmConf, bind_ok, pure_ok, at_ok hf, optional_ok (r := IsList IsText) hf (fun v _ => strs_ok v), ho]
  have hg : ∀ {v : Json}, Has j "pgms" v → ∀ g, vec mapping v = .ok g ↔ IsList IsMapping v g := by
    intro v hv
    apply vec_ok
    rintro m rfl x hx a
    exact mapping_ok (flat_of (proper_elem (proper_has h hv) hx)) a
  constructor
  · rintro ⟨v, hv, g, hl, e, he, l, hll, rfl⟩
    exact .mk hv ((hg hv _).mp hl) he hll
  · intro hc
    cases hc with
    | mk hv hl he hll => exact ⟨_, hv, _, (hg hv _).mpr hl, _, he, _, hll, rfl⟩

theorem pgmConf_ub {j : Json} (h : Proper j) (hl : PlainLimit j) : pgmConf j ≠ .error .ub := by
  refine bind_ub _ _ (at_ub _ _) fun _ => bind_ub _ _ (vec_ub mapping_ub _) fun _ => bind_ub _ _ (optional_ub (vec_ub str_ub)) fun _ => ?_
  refine bind_ub _ _ ?_ fun _ => pure_ub _
  unfold optional
  cases hk : j.find (text "diagnosticsSuppressLimit") with
  | none => simp
  | some v =>
    obtain ⟨h1, h2, h3⟩ := hl v ((found_iff (flat_of h)).mp hk)
    cases v with
    | real n => exact absurd rfl (h2 n)
    | _ => simp [unsigned, Except.map]

/-! ### writing and reading again -/

theorem at_of {j : Json} {k : String} {v : Json} (h : Has j k v) : «at» j k = .ok v := by simp [«at», h.found]

theorem optional_of {α : Type} {j : Json} {k : String} {f : Json → R α} {r : Json → α → Prop} {d a : α}
    (hf : ∀ v a, r v a → f v = .ok a) (h : Maybe j k r d a) : optional j k f d = .ok a := by
  cases h with
  | there h hr => simp [optional, h.found, hf _ _ hr]
  | missing h => simp [optional, h.found]

theorem all_of {α : Type} {f : Json → R α} {r : Json → α → Prop} (hf : ∀ v a, r v a → f v = .ok a) {l : List Json} {as : List α}
    (h : List.Forall₂ r l as) : all f l = .ok as := by
  induction h with
  | nil => rfl
  | cons h _ ih => simp only [all, bind_ok, pure_ok]; exact ⟨_, hf _ _ h, _, ih, rfl⟩

theorem vec_of {α : Type} {f : Json → R α} {r : Json → α → Prop} (hf : ∀ v a, r v a → f v = .ok a) {j : Json} {as : List α}
    (h : IsList r j as) : vec f j = .ok as := by
  cases h with
  | mk h => exact all_of hf h

theorem strs_of (j : Json) (l : List Bytes) (h : IsList IsText j l) : vec str j = .ok l := (strs_ok j l).mpr h

theorem library_of (j : Json) (l : Library) (h : IsLibrary j l) : library j = .ok l := by
  cases h with
  | path p => rfl
  | object hv hp ho he =>
    obtain ⟨m, rfl⟩ : ∃ m, j = .obj m := by cases hv; exact ⟨_, rfl⟩
    simp only [library, bind_ok, pure_ok]
    exact ⟨_, at_of hv, _, (str_ok _ _).mpr hp, _, optional_of (fun v a => (bool_ok v a).mpr) ho, _, optional_of strs_of he, rfl⟩

theorem options_of (j : Json) (o : Bytes × Bytes) (h : IsOptions j o) : options j = .ok o := by
  cases h with
  | mk hp hs =>
    simp only [options, bind_ok, pure_ok]
    exact ⟨_, optional_of (fun v a => (str_ok v a).mpr) hp, _, optional_of (fun v a => (str_ok v a).mpr) hs, rfl⟩

theorem group_of (j : Json) (g : Group) (h : IsGroup j g) : group j = .ok g := by
  cases h with
  | mk hv hn hw hl ho =>
    simp only [group, bind_ok, pure_ok]
    exact ⟨_, at_of hv, _, (str_ok _ _).mpr hn, _, at_of hw, _, vec_of library_of hl, _, optional_of options_of ho, rfl⟩

theorem procConf_of (j : Json) (c : ProcConf) (h : IsProcConf j c) : procConf j = .ok c := by
  cases h with
  | mk hv hl he =>
    simp only [procConf, bind_ok, pure_ok]
    exact ⟨_, at_of hv, _, vec_of group_of hl, _, optional_of strs_of he, rfl⟩

theorem mapping_of (j : Json) (c : Workspace.Pgm) (h : IsMapping j c) : mapping j = .ok c := by
  cases h with
  | mk hv hn hw hl =>
    simp only [mapping, bind_ok, pure_ok]
    exact ⟨_, at_of hv, _, (str_ok _ _).mpr hn, _, at_of hw, _, (str_ok _ _).mpr hl, rfl⟩

theorem limit_of (j : Json) (l : Option Nat) (h : IsLimit j l) : (unsigned j).map some = .ok l := by
  cases h with
  | mk n hn =>
    have : ((n : Int) % 2 ^ 32).toNat = n := by omega
    simp only [unsigned, this, Except.map]

theorem pgmConf_of (j : Json) (c : PgmConf) (h : IsPgmConf j c) : pgmConf j = .ok c := by
  cases h with
  | mk hv hl he hll =>
    simp only [pgmConf, bind_ok, pure_ok]
    exact ⟨_, at_of hv, _, vec_of mapping_of hl, _, optional_of strs_of he, _, optional_of limit_of hll, rfl⟩

theorem lacks_of {m : List (Bytes × Json)} {k : String} (h : text k ∉ m.map (·.1)) : Lacks (.obj m) k := by
  intro m' hm v hv
  cases hm
  exact h (List.mem_map.mpr ⟨_, hv, rfl⟩)

/-- A member of a list that is written out. -/
macro "has" : tactic => `(tactic| exact .mk (by (try simp only [List.map_cons, List.map_nil]); decide +kernel) (by simp))
/-- No such member in a list that is written out. -/
macro "lacks" : tactic => `(tactic| exact lacks_of (by (try simp only [List.map_cons, List.map_nil]); decide +kernel))

theorem isTexts (l : List Bytes) : IsList IsText (strsJson l) l := by
  refine .mk ?_
  rw [List.forall₂_map_left_iff]
  exact List.forall₂_same.mpr fun x _ => .mk x

theorem isMany {α : Type} {r : Json → α → Prop} {f : α → Json} (h : ∀ a, r (f a) a) (l : List α) : IsList r (.arr (l.map f)) l := by
  refine .mk ?_
  rw [List.forall₂_map_left_iff]
  exact List.forall₂_same.mpr fun x _ => h x

theorem says_library (l : Library) : IsLibrary l.json l := by
  obtain ⟨p, e, o⟩ := l
  cases e with
  | nil =>
    simp only [Library.json, listMember, List.isEmpty_nil, if_true, List.append_nil]
    refine .object (by has) (.mk p) (.there (by has) (.mk o)) (.missing (by lacks))
  | cons a e =>
    simp only [Library.json, listMember, List.isEmpty_cons, Bool.false_eq_true, if_false, List.cons_append, List.nil_append]
    refine .object (by has) (.mk p) (.there (by has) (.mk o)) (.there (by has) (isTexts _))

theorem says_options (g : Group) : IsOptions (.obj (optionMembers g)) (g.sysparm, g.profile) := by
  obtain ⟨n, l, s, p⟩ := g
  cases s <;> cases p <;>
    simp only [optionMembers, textMember, List.isEmpty_nil, List.isEmpty_cons, Bool.false_eq_true, if_true, if_false, List.nil_append,
      List.append_nil, List.cons_append]
  · exact .mk (.missing (by lacks)) (.missing (by lacks))
  · exact .mk (.there (by has) (.mk _)) (.missing (by lacks))
  · exact .mk (.missing (by lacks)) (.there (by has) (.mk _))
  · exact .mk (.there (by has) (.mk _)) (.there (by has) (.mk _))

theorem says_group (g : Group) : IsGroup g.json g := by
  have ho := says_options g
  unfold Group.json
  by_cases h : optionMembers g = []
  · have hs : g.sysparm = [] ∧ g.profile = [] := by
      obtain ⟨n, l, s, p⟩ := g
      cases s <;> cases p <;> simp [optionMembers, textMember] at h ⊢
    rw [if_pos (by simpa using h), List.append_nil]
    have : g = ⟨g.name, g.libs, ([], ([] : Bytes)).1, (([] : Bytes), []).2⟩ := by
      obtain ⟨n, l, s, p⟩ := g; simpa using hs
    rw [this]
    exact .mk (by has) (.mk _) (by has) (isMany says_library _) (.missing (by lacks))
  · rw [if_neg (by simpa using h), List.cons_append, List.cons_append, List.nil_append]
    exact IsGroup.mk (o := (g.sysparm, g.profile)) (by has) (.mk _) (by has) (isMany says_library _) (.there (by has) ho)

/-- C114: the written form of a configuration says what the configuration is, and is read as it. -/
theorem C114_groups_round_trip (c : ProcConf) : IsProcConf c.json c ∧ procConf c.json = .ok c := by
  suffices h : IsProcConf c.json c from ⟨h, procConf_of _ _ h⟩
  obtain ⟨g, e⟩ := c
  cases e with
  | nil =>
    simp only [ProcConf.json, listMember, List.isEmpty_nil, if_true, List.append_nil]
    exact .mk (by has) (isMany says_group _) (.missing (by lacks))
  | cons a e =>
    simp only [ProcConf.json, listMember, List.isEmpty_cons, Bool.false_eq_true, if_false, List.cons_append, List.nil_append]
    exact .mk (by has) (isMany says_group _) (.there (by has) (isTexts _))

theorem says_mapping (p : Workspace.Pgm) : IsMapping (mappingJson p) p := by
  unfold mappingJson
  exact .mk (by has) (.mk _) (by has) (.mk _)

/-- C114: the same for the programs. -/
theorem C114_programs_round_trip (c : PgmConf) (h : ∀ n, c.limit = some n → n < 2 ^ 32) : IsPgmConf c.json c ∧ pgmConf c.json = .ok c := by
  suffices h : IsPgmConf c.json c from ⟨h, pgmConf_of _ _ h⟩
  obtain ⟨g, e, l⟩ := c
  cases e <;> cases l <;>
    simp only [PgmConf.json, listMember, List.isEmpty_nil, List.isEmpty_cons, Bool.false_eq_true, if_true, if_false, List.nil_append,
      List.append_nil, List.cons_append]
  · exact .mk (by has) (isMany says_mapping _) (.missing (by lacks)) (.missing (by lacks))
  · exact .mk (by has) (isMany says_mapping _) (.missing (by lacks)) (.there (by has) (.mk _ (h _ rfl)))
  · exact .mk (by has) (isMany says_mapping _) (.there (by has) (isTexts _)) (.missing (by lacks))
  · exact .mk (by has) (isMany says_mapping _) (.there (by has) (isTexts _)) (.there (by has) (.mk _ (h _ rfl)))

/-! ### extensions -/

theorem extOf_none {w : Bytes} : extOf w = none ↔ ∀ x y, w ≠ x ++ 42 :: 46 :: y := by
  induction w with
  | nil => simp [extOf]
  | cons c r ih =>
    unfold extOf
    cases hr : extOf r with
    | some e =>
      simp only [reduceCtorEq, false_iff]
      intro h
      have : extOf r = none := ih.mpr fun x y hxy => h (c :: x) y (by rw [hxy]; rfl)
      rw [hr] at this; simp at this
    | none =>
      have h0 := ih.mp hr
      simp only
      split
      · next h =>
        simp only [reduceCtorEq, false_iff]
        intro h'
        obtain ⟨rfl, hh⟩ := h
        cases r with
        | nil => simp at hh
        | cons d r => simp only [List.head?_cons, Option.some.injEq] at hh; subst hh; exact h' [] r rfl
      · next h =>
        simp only [true_iff]
        intro x y hxy
        cases x with
        | nil => simp only [List.nil_append, List.cons.injEq] at hxy; exact h ⟨hxy.1, by rw [hxy.2]; rfl⟩
        | cons d x => simp only [List.cons_append, List.cons.injEq] at hxy; exact h0 x y hxy.2

theorem extOf_some {w e : Bytes} : extOf w = some e ↔ Extension w e := by
  induction w generalizing e with
  | nil =>
    simp only [extOf, reduceCtorEq, false_iff]
    intro h
    generalize hw : ([] : Bytes) = w at h
    cases h with
    | mk a e _ => simp at hw
  | cons c r ih =>
    unfold extOf
    cases hr : extOf r with
    | some f =>
      simp only [Option.some.injEq]
      have hf := ih.mp hr
      constructor
      · rintro rfl
        cases hf with
        | mk a e h => exact .mk (c :: a) e h
      · intro h
        generalize hw : c :: r = w at h
        cases h with
        | mk a e h =>
          cases a with
          | nil =>
            simp only [List.nil_append, List.cons.injEq] at hw
            obtain ⟨rfl, rfl⟩ := hw
            have : extOf e = none := extOf_none.mpr h
            simp [extOf, this] at hr
          | cons d a =>
            simp only [List.cons_append, List.cons.injEq] at hw
            have := ih.mpr (hw.2.symm ▸ Extension.mk a e h : Extension r (46 :: e))
            rw [hr] at this
            simpa using this
    | none =>
      have h0 := extOf_none.mp hr
      simp only
      constructor
      · intro h
        split at h
        · next hc =>
          obtain ⟨rfl, hh⟩ := hc
          cases h
          cases r with
          | nil => simp at hh
          | cons d r =>
            simp only [List.head?_cons, Option.some.injEq] at hh; subst hh
            exact .mk [] r fun x y hxy => h0 (46 :: x) y (by rw [hxy]; rfl)
        · simp at h
      · intro h
        generalize hw : c :: r = w at h
        cases h with
        | mk a e h =>
          cases a with
          | nil =>
            simp only [List.nil_append, List.cons.injEq] at hw
            obtain ⟨rfl, rfl⟩ := hw
            simp
          | cons d a =>
            simp only [List.cons_append, List.cons.injEq] at hw
            exact absurd hw.2 (h0 a e)

theorem before_of {a b : Bytes} (h : Workspace.lexLe a b = true) (hne : a ≠ b) : Before a b := by
  induction a generalizing b with
  | nil =>
    cases b with
    | nil => exact absurd rfl hne
    | cons y b => exact .nil y b
  | cons x a ih =>
    cases b with
    | nil => simp [Workspace.lexLe] at h
    | cons y b =>
      simp only [Workspace.lexLe] at h
      split at h
      · next hl => exact .less a b hl
      · next hl =>
        split at h
        · simp at h
        · next hg =>
          have : x = y := by rw [UInt8.lt_iff_toNat_lt] at hl hg; exact UInt8.toNat_inj.mp (by omega)
          subst this
          exact .same x (ih h fun hab => hne (by rw [hab]))

theorem lexLe_antisymm {a b : Bytes} (h : Workspace.lexLe a b = true) (h' : Workspace.lexLe b a = true) : a = b := by
  induction a generalizing b with
  | nil => cases b with
    | nil => rfl
    | cons y b => simp [Workspace.lexLe] at h'
  | cons x a ih =>
    cases b with
    | nil => simp [Workspace.lexLe] at h
    | cons y b =>
      simp only [Workspace.lexLe] at h h'
      by_cases h1 : x < y
      · have h2 : ¬ y < x := by rw [UInt8.lt_iff_toNat_lt] at h1 ⊢; omega
        simp [h1, h2] at h'
      · by_cases h2 : y < x
        · simp [h1, h2] at h
        · have : x = y := by rw [UInt8.lt_iff_toNat_lt] at h1 h2; exact UInt8.toNat_inj.mp (by omega)
          subst this
          simp only [h1, if_false] at h h'
          rw [ih h h']

theorem unique_before (l : List Bytes) (h : l.Pairwise fun a b => Workspace.lexLe a b = true) : (Workspace.unique l).Pairwise Before := by
  fun_induction Workspace.unique l with
  | case1 => exact .nil
  | case2 a => exact List.pairwise_singleton _ _
  | case3 b r ih => exact ih (List.pairwise_cons.mp h).2
  | case4 a b r hab ih =>
    have h2 := List.pairwise_cons.mp h
    refine List.pairwise_cons.mpr ⟨fun x hx => ?_, ih h2.2⟩
    have hx := (Workspace.mem_unique _ _).mp hx
    refine before_of (h2.1 x hx) ?_
    rintro rfl
    rcases List.mem_cons.mp hx with rfl | hx
    · exact hab rfl
    · exact hab (lexLe_antisymm (h2.1 b (by simp)) ((List.pairwise_cons.mp h2.2).1 _ hx))

theorem compat_before (l : List Bytes) : (compat l).Pairwise Before :=
  unique_before _ (List.pairwise_mergeSort (fun a b c => Workspace.lexLe_trans a b c) (fun a b => Workspace.lexLe_total a b) _)

theorem mem_compat (l : List Bytes) (e : Bytes) : e ∈ compat l ↔ ∃ w ∈ l, Extension w e := by
  simp only [compat, Workspace.mem_unique, List.mem_mergeSort, List.mem_filterMap, extOf_some]

/-! ### taking effect -/

theorem located (ops : Paths) (ws p : Bytes) : Located ops ws p (libPath ops ws p) := by
  unfold libPath Located
  cases p with
  | nil => exact .inl ⟨rfl, by simp⟩
  | cons a p =>
    refine .inr ?_
    simp only [List.isEmpty_cons, Bool.false_eq_true, if_false]
    cases h : ops.absolute (ops.join (a :: p) []) <;> simp

theorem makes (ops : Paths) (ws : Bytes) (exts always : List Bytes) (l : Library) : Makes ops ws exts always l (libOf ops ws exts always l) := by
  have hl := located ops ws l.path
  obtain ⟨p, e, o⟩ := l
  unfold libOf
  cases e with
  | cons a e => exact ⟨by simpa using hl, by simp, by simp, by simp, by simp⟩
  | nil =>
    cases exts with
    | cons a e => exact ⟨by simpa using hl, by simp, by simp, by simp, by simp⟩
    | nil =>
      have hb := compat_before always
      have hm := mem_compat always
      simp only [List.isEmpty_nil, Bool.not_true, Bool.false_eq_true, if_false]
      cases hc : compat always with
      | nil =>
        rw [hc] at hb hm
        exact ⟨by simpa using hl, by simp, by simp, by simp, fun _ _ => ⟨by simp, by simpa using hm, by simp⟩⟩
      | cons a e =>
        rw [hc] at hb hm
        exact ⟨by simpa using hl, by simp, by simp, by simp, fun _ _ => ⟨by simpa using hb, by simpa using hm, by simp⟩⟩

theorem groupMade (ops : Paths) (ws : Bytes) (c : ProcConf) (always : List Bytes) (g : Group) :
    GroupMade ops ws c.exts always g (grpOf ops ws c always g) := by
  refine ⟨rfl, rfl, rfl, ?_⟩
  simp only [grpOf, List.forall₂_map_right_iff]
  exact List.forall₂_same.mpr fun l _ => makes ops ws c.exts always l

theorem groupIndex_lt (g : Bytes) (gs : List Bytes) (i : Nat) (h : Workspace.groupIndex g gs = some i) : i < gs.length := by
  induction gs generalizing i with
  | nil => simp [Workspace.groupIndex] at h
  | cons x gs ih =>
    simp only [Workspace.groupIndex] at h
    split at h
    · cases h; simp
    · cases hg : Workspace.groupIndex g gs with
      | none => simp [hg] at h
      | some k => simp only [hg, Option.map_some, Option.some.injEq] at h; have := ih k hg; simp only [List.length_cons]; omega

theorem specSelect_lt (rx : Bytes → Bytes → Bool) (gs : List Bytes) (ps : List Workspace.Pgm) (file : Bytes) {i : Nat}
    (h : Workspace.specSelect rx gs ps file = .group i) : i < gs.length := by
  have key : ∀ g, (match Workspace.groupIndex g gs with | some i => Workspace.Group.group i | none => .outOfRange) = .group i → i < gs.length := by
    intro g hg
    cases hk : Workspace.groupIndex g gs with
    | none => simp [hk] at hg
    | some k => simp only [hk, Workspace.Group.group.injEq] at hg; exact hg ▸ groupIndex_lt g gs k hk
  unfold Workspace.specSelect at h
  simp only at h
  split at h
  · exact key _ h
  · split at h
    · exact key _ h
    · simp at h

/-- C114: after two correct files are read, whatever was configured before: the groups are those of the first file, in its order; a program
has the group that C22 says, made of its entry; the limit is that of the second file; the messages are one for every group with a SYSPARM
of more than 255 bytes and one for every program with an unknown group. -/
theorem C114_effect (ops : Paths) (ws : Bytes) (s : State) {gj pj : Json} {gc : ProcConf} {pc : PgmConf} (hg : IsProcConf gj gc)
    (hp : IsPgmConf pj pc) : ∃ s', load ops ws s (.json gj) (.json pj) = some s' ∧
      List.Forall₂ (GroupMade ops ws gc.exts pc.always) gc.groups s'.groups ∧
      s'.limit = pc.limit ∧
      s'.diags = (gc.groups.filter (256 ≤ ·.sysparm.length)).map (fun g => .W005 g.name) ++
        (pc.pgms.filter fun m => ∀ g ∈ gc.groups, g.name ≠ m.pgroup).map (fun _ => .W004) ∧
      ∀ rx file, match Workspace.specSelect rx (gc.groups.map (·.name)) pc.pgms file with
        | .group i => ∃ e g, gc.groups[i]? = some e ∧ s'.group rx file = some g ∧ GroupMade ops ws gc.exts pc.always e g
        | _ => s'.group rx file = none := by
  have h1 := procConf_of _ _ hg
  have h2 := pgmConf_of _ _ hp
  refine ⟨{ groups := gc.groups.map (grpOf ops ws gc pc.always)
            conf := s.conf.load (some (gc.groups.map (·.name))) (some pc.pgms)
            limit := pc.limit
            diags := optionDiags gc ++
      (pc.pgms.filter fun m => !(decide (m.pgroup ∈ gc.groups.map (·.name)))).map (fun _ => .W004) }, ?_, ?_, rfl, ?_, ?_⟩
  · simp only [load, h1, loadPrograms, h2]
  · simp only [List.forall₂_map_right_iff]
    exact List.forall₂_same.mpr fun g _ => groupMade ops ws gc pc.always g
  · simp only [optionDiags]
    congr 2
    · apply List.filter_congr; intro g _; rw [Bool.eq_iff_iff]; simp
    · apply List.filter_congr
      intro m _
      rw [Bool.eq_iff_iff]; simp
  · intro rx file
    have hs := Workspace.C22_selection s.conf rx (gc.groups.map (·.name)) pc.pgms file
    simp only [State.group, hs.1]
    cases hsel : Workspace.specSelect rx (gc.groups.map (·.name)) pc.pgms file with
    | implicit => rfl
    | outOfRange => rfl
    | group i =>
      have hi : i < gc.groups.length := by
        have := specSelect_lt rx _ _ _ hsel
        simpa using this
      exact ⟨gc.groups[i], grpOf ops ws gc pc.always gc.groups[i], by simp [hi], by simp [hi], groupMade ops ws gc pc.always _⟩

/-- C114: a file about groups that cannot be read changes nothing; if it says nothing proper, that is reported. -/
theorem C114_bad_groups (ops : Paths) (ws : Bytes) (s : State) (pgm : File) :
    load ops ws s .unreadable pgm = some { s with diags := [] } ∧
    load ops ws s .garbage pgm = some { s with diags := [.W002] } ∧
    ∀ j, Proper j → (∀ c, ¬ IsProcConf j c) → load ops ws s (.json j) pgm = some { s with diags := [.W002] } := by
  refine ⟨rfl, rfl, fun j hj hc => ?_⟩
  cases h : procConf j with
  | ok c => exact absurd ((C114_groups_file hj c).mp h) (hc c)
  | error e => cases e with
    | ub => exact absurd h (procConf_ub j)
    | exn => simp only [load, h]

/-- C114: after a file about programs that cannot be read or says nothing proper no program has a group, the limit stays, and the latter is
reported. The programs that had a group before are left with a name nothing belongs to: C22's witness. -/
theorem C114_bad_programs (ops : Paths) (ws : Bytes) (s : State) {gj : Json} {gc : ProcConf} (hg : IsProcConf gj gc) (pgm : File)
    (hp : ∀ j, pgm = .json j → Proper j ∧ PlainLimit j ∧ ∀ c, ¬ IsPgmConf j c) : ∃ s', load ops ws s (.json gj) pgm = some s' ∧
      (∀ rx file, s'.group rx file = none) ∧ s'.limit = s.limit ∧
      (s.conf.exact = [] → s.conf.regex = [] → ∀ rx file, s'.conf.select rx file = .implicit) ∧
      ∃ d, s'.diags = (gc.groups.filter (256 ≤ ·.sysparm.length)).map (fun g => .W005 g.name) ++ d ∧
        (pgm = .unreadable → d = []) ∧ (pgm ≠ .unreadable → d = [.W003]) := by
  have h1 := procConf_of _ _ hg
  have hd : optionDiags gc = (gc.groups.filter (256 ≤ ·.sysparm.length)).map (fun g => .W005 g.name) := by
    simp only [optionDiags]
    congr 1
    apply List.filter_congr; intro g _; rw [Bool.eq_iff_iff]; simp
  have key : ∀ (d : List Diag) rx file, (State.group { s with conf := s.conf.load (some []) none, groups := [], diags := d } rx file) = none := by
    intro d rx file
    unfold State.group
    split <;> simp
  have sel : s.conf.exact = [] → s.conf.regex = [] → ∀ rx file, (s.conf.load (some []) none).select rx file = .implicit := by
    intro he hr rx file
    simp [Workspace.Conf.load, Workspace.Conf.select, he, hr, Workspace.lookup]
  cases pgm with
  | unreadable =>
    refine ⟨_, by simp only [load, h1, loadPrograms]; rfl, fun rx file => key _ rx file, rfl, sel, [], by simp [hd], by simp, by simp⟩
  | garbage =>
    refine ⟨_, by simp only [load, h1, loadPrograms]; rfl, fun rx file => key _ rx file, rfl, sel, [.W003], by simp [hd], by simp, by simp⟩
  | json j =>
    obtain ⟨hj, hl, hc⟩ := hp j rfl
    cases h : pgmConf j with
    | ok c => exact absurd ((C114_programs_file hj hl c).mp h) (hc c)
    | error e => cases e with
      | ub => exact absurd h (pgmConf_ub hj hl)
      | exn =>
        refine ⟨_, by simp only [load, h1, loadPrograms, h]; rfl, fun rx file => key _ rx file, rfl, sel, [.W003], by simp [hd], by simp,
          by simp⟩

/-! ### limits that are no limits -/

/-- C114 does not hold of limits that are no numbers of 32 bits: they are not refused. A limit of -1 is the greatest there is (that of the
editor's settings is 0 then, C26), `true` is 1, 2^32 is 0, and 1e10 is undefined. -/
theorem C114_limit_witness :
    (pgmConf (.obj [(text "pgms", .arr []), (text "diagnosticsSuppressLimit", .int (-1))])) = .ok ⟨[], [], some 4294967295⟩ ∧
    (pgmConf (.obj [(text "pgms", .arr []), (text "diagnosticsSuppressLimit", .bool true)])) = .ok ⟨[], [], some 1⟩ ∧
    (pgmConf (.obj [(text "pgms", .arr []), (text "diagnosticsSuppressLimit", .int (2 ^ 32))])) = .ok ⟨[], [], some 0⟩ ∧
    (pgmConf (.obj [(text "pgms", .arr []), (text "diagnosticsSuppressLimit", .real (10 ^ 10))])) = .error .ub ∧
    (∀ c, ¬ IsPgmConf (.obj [(text "pgms", .arr []), (text "diagnosticsSuppressLimit", .int (-1))]) c) := by
  refine ⟨by decide +kernel, by decide +kernel, by decide +kernel, by decide +kernel, ?_⟩
  rintro c ⟨hv, hl, ha, hm⟩
  have hh : Has (.obj [(text "pgms", .arr []), (text "diagnosticsSuppressLimit", .int (-1))]) "diagnosticsSuppressLimit" (.int (-1)) := by has
  cases hm with
  | there h hr =>
    rw [hh.unique h |>.symm] at hr
    generalize hj : Json.int (-1) = j at hr
    cases hr with
    | mk n _ => injection hj; omega
  | missing h => exact h _ rfl (.int (-1)) (by simp)

/-! ### examples -/

/-- Paths as strings: absolute ones begin with a slash. -/
def slashes : Paths := ⟨fun p => p.head? = some 47, fun a b => a ++ 47 :: b, id⟩

/-- Two groups; the second has a library given by its path alone. -/
def exampleGroups : ProcConf :=
  ⟨[⟨text "G1", [⟨text "/lib", [text ".mac"], true⟩, ⟨text "own", [], false⟩], List.replicate 256 65, []⟩, ⟨text "G2", [⟨[], [], false⟩], [], []⟩], []⟩

/-- A program of each, and one of a group there is not. -/
def examplePrograms : PgmConf :=
  ⟨[⟨text "a.asm", text "G1"⟩, ⟨text "*.b", text "G2"⟩, ⟨text "c", text "G3"⟩], [text "x*.*.asm", text "a"], some 3⟩

example : IsProcConf exampleGroups.json exampleGroups := (C114_groups_round_trip _).1
example : IsPgmConf examplePrograms.json examplePrograms := (C114_programs_round_trip _ (by decide +kernel)).1

/-- What comes of them. -/
def exampleState : Option State := load slashes (text "/ws") {} (.json exampleGroups.json) (.json examplePrograms.json)

example : exampleState.map (·.diags) = some [.W005 (text "G1"), .W004] := by decide +kernel
example : exampleState.map (fun s => s.group (fun _ _ => true) (text "a.asm")) =
    some (some ⟨text "G1", [⟨text "/lib/", [text ".mac"], false, true⟩, ⟨text "/ws/own/", [text ".asm"], true, false⟩],
      List.replicate 256 65, []⟩) := by decide +kernel
example : exampleState.map (fun s => (s.group (fun _ _ => true) (text "d")).map (·.name)) = some (some (text "G2")) := by decide +kernel
example : exampleState.map (·.limit) = some (some 3) := by decide +kernel

/-- The bare form of a library, and members nobody knows. -/
example : procConf (.obj [(text "x", .null), (text "pgroups", .arr [.obj [(text "libs", .arr [.str (text "l")]), (text "name", .str (text "G"))]])]) =
    .ok ⟨[⟨text "G", [⟨text "l", [], false⟩], [], []⟩], []⟩ := by decide +kernel
/-- A group without a name is refused. -/
example : procConf (.obj [(text "pgroups", .arr [.obj [(text "libs", .arr [])]])]) = .error .exn := by decide +kernel
/-- Such files are proper and say nothing: C114_bad_groups. -/
example : (load slashes [] {} (.json (.obj [(text "pgroups", .null)])) .garbage).map (·.diags) = some [.W002] := by decide +kernel
/-- The same for programs. -/
example : (load slashes [] {} (.json exampleGroups.json) (.json (.obj [(text "pgms", .null)]))).map (·.diags) = some [.W005 (text "G1"), .W003] := by
  decide +kernel

end Verif.Config
