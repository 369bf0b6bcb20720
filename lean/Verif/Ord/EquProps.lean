import Verif.Ord.ResolveProps
/-!
C55 and C58 for whole programs: `EQU` over sums and differences of symbols, constants and addresses without unresolved spaces.

The graph is that of the expressions themselves (`SymSt.Refers`), not of what the code extracts from them.
-/
namespace Verif.Ord

/-- No unresolved space is involved. -/
def SVal.Flat (v : SVal) : Prop := ∀ a, v = .reloc a → a.spaces = []

/-- Sums and differences of symbols, constants and addresses without spaces. -/
def MExpr.Simple (e : MExpr) : Prop := e.Linear = true ∧ e.attrRefs = [] ∧ ∀ a, some a ∈ e.locs → a.spaces = []

/-- The statements of these programs. -/
inductive SymStmt.Simple : SymStmt → Prop
  | equ (n : SymId) (s : Sym) (e : MExpr) : e.Simple → SymStmt.Simple (.equ n s e)
  | label (n : SymId) (s : Sym) : s.val ≠ .undef → s.val.Flat → SymStmt.Simple (.label n s)

/-- The pending definition of `n` refers to the undefined symbol `m`. -/
def SymSt.Refers (st : SymSt) (n m : SymId) : Prop := ∃ e, (Dep.sym n, e) ∈ st.deps ∧ m ∈ e.symRefs ∧ st.tab.value m = .undef

/-- Directly or through other pending definitions, or the same. -/
inductive SymSt.Reach (st : SymSt) : SymId → SymId → Prop
  | refl (n) : Reach st n n
  | step {n m k} : st.Refers n m → Reach st m k → Reach st n k

/-! ### Values -/

theorem flat_norm {H : Heap} {a : Addr} (h : a.spaces = []) : a.norm H = [] ∧ a.offset H = a.off ∧ a.pending H = false := by
  unfold Addr.norm Addr.offset Addr.pending
  rw [h]
  exact ⟨rfl, by simp, rfl⟩

theorem ofAddr_flat {H H' : Heap} {t : Addr} (h : t.spaces = []) : SVal.ofAddr H t = SVal.ofAddr H' t ∧ (SVal.ofAddr H t).Flat := by
  unfold SVal.ofAddr
  rw [(flat_norm (H := H) h).2.1, (flat_norm (H := H) h).2.2, (flat_norm (H := H') h).2.1, (flat_norm (H := H') h).2.2]
  refine ⟨rfl, ?_⟩
  split
  · unfold int32; split <;> (intro a ha; cases ha)
  · intro a ha; injection ha with ha; subst ha; exact h

theorem int32_flat (v : Int) : (int32 v).Flat := by unfold int32; split <;> (intro a h; cases h)

theorem add_flat {H H' : Heap} {u v : SVal} (hu : u.Flat) (hv : v.Flat) : u.add H v = u.add H' v ∧ (u.add H v).Flat := by
  cases u with
  | ub => exact ⟨rfl, fun a h => by cases h⟩
  | undef => cases v <;> exact ⟨rfl, fun a h => by cases h⟩
  | abs x =>
    cases v with
    | ub => exact ⟨rfl, fun a h => by cases h⟩
    | undef => exact ⟨rfl, fun a h => by cases h⟩
    | abs y => exact ⟨rfl, int32_flat _⟩
    | reloc b => exact ⟨rfl, fun a h => by injection h with h; subst h; exact hv b rfl⟩
  | reloc a =>
    cases v with
    | ub => exact ⟨rfl, fun a h => by cases h⟩
    | undef => exact ⟨rfl, fun a h => by cases h⟩
    | abs y => exact ⟨rfl, fun b h => by injection h with h; subst h; exact hu a rfl⟩
    | reloc b =>
      have ha := hu a rfl
      have hb := hv b rfl
      have e : a.add H b = a.add H' b := by
        unfold Addr.add
        rw [(flat_norm (H := H) ha).1, (flat_norm (H := H) ha).2.1, (flat_norm (H := H) hb).1, (flat_norm (H := H) hb).2.1,
          (flat_norm (H := H') ha).1, (flat_norm (H := H') ha).2.1, (flat_norm (H := H') hb).1, (flat_norm (H := H') hb).2.1]
      have hs : (a.add H b).spaces = [] := by simp [Addr.add, (flat_norm (H := H) ha).1, (flat_norm (H := H) hb).1, merge, AOp.rest]
      show SVal.ofAddr H (a.add H b) = SVal.ofAddr H' (a.add H' b) ∧ (SVal.ofAddr H (a.add H b)).Flat
      rw [← e]
      exact ofAddr_flat hs

theorem sub_flat {H H' : Heap} {u v : SVal} (hu : u.Flat) (hv : v.Flat) : u.sub H v = u.sub H' v ∧ (u.sub H v).Flat := by
  cases u with
  | ub => exact ⟨rfl, fun a h => by cases h⟩
  | undef => cases v <;> exact ⟨rfl, fun a h => by cases h⟩
  | abs x =>
    cases v with
    | ub => exact ⟨rfl, fun a h => by cases h⟩
    | undef => exact ⟨rfl, fun a h => by cases h⟩
    | abs y => exact ⟨rfl, int32_flat _⟩
    | reloc b =>
      have hb := hv b rfl
      simp only [SVal.sub, Addr.subInt, (flat_norm (H := H) hb).1, (flat_norm (H := H) hb).2.1, (flat_norm (H := H') hb).1, (flat_norm (H := H') hb).2.1, true_and]
      intro a h; injection h with h; subst h; rfl
  | reloc a =>
    cases v with
    | ub => exact ⟨rfl, fun a h => by cases h⟩
    | undef => exact ⟨rfl, fun a h => by cases h⟩
    | abs y =>
      have ha := hu a rfl
      simp only [SVal.sub, Addr.subInt, (flat_norm (H := H) ha).1, (flat_norm (H := H) ha).2.1, (flat_norm (H := H') ha).1, (flat_norm (H := H') ha).2.1, true_and]
      intro a h; injection h with h; subst h; rfl
    | reloc b =>
      have ha := hu a rfl
      have hb := hv b rfl
      have e : a.sub H b = a.sub H' b := by
        unfold Addr.sub
        rw [(flat_norm (H := H) ha).1, (flat_norm (H := H) ha).2.1, (flat_norm (H := H) hb).1, (flat_norm (H := H) hb).2.1,
          (flat_norm (H := H') ha).1, (flat_norm (H := H') ha).2.1, (flat_norm (H := H') hb).1, (flat_norm (H := H') hb).2.1]
      have hs : (a.sub H b).spaces = [] := by simp [Addr.sub, (flat_norm (H := H) ha).1, (flat_norm (H := H) hb).1, merge, AOp.rest]
      show SVal.ofAddr H (a.sub H b) = SVal.ofAddr H' (a.sub H' b) ∧ (SVal.ofAddr H (a.sub H b)).Flat
      rw [← e]
      exact ofAddr_flat hs

theorem neg_flat {H H' : Heap} {u : SVal} (hu : u.Flat) : u.neg H = u.neg H' ∧ (u.neg H).Flat := by
  cases u with
  | ub => exact ⟨rfl, fun a h => by cases h⟩
  | undef => exact ⟨rfl, fun a h => by cases h⟩
  | abs x => exact ⟨rfl, int32_flat _⟩
  | reloc a =>
    have ha := hu a rfl
    simp only [SVal.neg, Addr.neg, (flat_norm (H := H) ha).1, (flat_norm (H := H) ha).2.1, (flat_norm (H := H') ha).1, (flat_norm (H := H') ha).2.1, true_and]
    intro b h; injection h with h; subst h; simp [merge, AOp.rest]

/-- All symbols have values without unresolved spaces. -/
def Table.Flat (T : Table) : Prop := ∀ n, (T.value n).Flat

theorem simple_eval {T : Table} (hT : T.Flat) (H H' : Heap) (e : MExpr) (hl : e.Linear = true) (ha : ∀ a, some a ∈ e.locs → a.spaces = []) :
    e.eval H T = e.eval H' T ∧ (e.eval H T).Flat := by
  induction e with
  | const v => exact ⟨rfl, fun a h => by cases h⟩
  | sym n => exact ⟨rfl, hT n⟩
  | attr k n => exact ⟨rfl, fun a h => by cases h⟩
  | loc o =>
    cases o with
    | none => cases hl
    | some a => exact ⟨rfl, fun b h => by injection h with h; subst h; exact ha a (by simp [MExpr.locs])⟩
  | dflt => exact ⟨rfl, fun a h => by cases h⟩
  | par e ih => exact ih hl ha
  | neg e ih =>
    obtain ⟨a, b⟩ := ih hl ha
    simp only [MExpr.eval, ← a]
    exact neg_flat b
  | add l r ihl ihr =>
    simp [MExpr.Linear] at hl
    obtain ⟨a, b⟩ := ihl hl.1 (fun a h => ha a (by simp [MExpr.locs, h]))
    obtain ⟨c, d⟩ := ihr hl.2 (fun a h => ha a (by simp [MExpr.locs, h]))
    simp only [MExpr.eval, ← a, ← c]
    exact add_flat b d
  | sub l r ihl ihr =>
    simp [MExpr.Linear] at hl
    obtain ⟨a, b⟩ := ihl hl.1 (fun a h => ha a (by simp [MExpr.locs, h]))
    obtain ⟨c, d⟩ := ihr hl.2 (fun a h => ha a (by simp [MExpr.locs, h]))
    simp only [MExpr.eval, ← a, ← c]
    exact sub_flat b d
  | mul => cases hl
  | div => cases hl

theorem simple_resolve {T : Table} (hT : T.Flat) (H H' : Heap) {e : MExpr} (h : e.Simple) : e.resolve H T = e.resolve H' T ∧ (e.resolve H T).Flat := by
  obtain ⟨a, b⟩ := simple_eval hT H H' e h.1 h.2.2
  unfold MExpr.resolve
  rw [← a]
  refine ⟨rfl, ?_⟩
  split
  · intro x hx; cases hx
  · exact b

theorem resolve_ne {H : Heap} {T : Table} (e : MExpr) : e.resolve H T ≠ .undef := by
  unfold MExpr.resolve
  split
  · simp
  · rename_i h; exact h

/-! ### Dependencies -/

theorem simple_settled {T : Table} (hT : T.Flat) {e : MExpr} (h : e.Simple) (H : Heap) : e.Settled H T :=
  ⟨fun n _ a ha => (flat_norm (hT n a ha)).2.2, fun a ha => (flat_norm (h.2.2 a ha)).2.2⟩

theorem simple_extract {E : Env} {T : Table} (hT : T.Flat) {e : MExpr} (h : e.Simple) (d : Dep) :
    d ∈ (e.collect E T).extract E ↔ ∃ m, d = .sym m ∧ m ∈ e.symRefs ∧ T.value m = .undef := by
  obtain ⟨h1, h2⟩ := collect_refs (E := E) e (linear_quiet E T e h.1)
  obtain ⟨h3, h4⟩ := collect_still (E := E) e (simple_settled hT h E.heap)
  have ha : (e.collect E T).attrs = [] := List.eq_nil_iff_forall_not_mem.2 fun x hx => by
    have := ((h2 x).1 hx).1; rw [h.2.1] at this; simp at this
  unfold Coll.extract
  split
  · rw [List.mem_map]
    constructor
    · rintro ⟨m, hm, rfl⟩; exact ⟨m, rfl, (h1 m).1 hm⟩
    · rintro ⟨m, rfl, hm⟩; exact ⟨m, (h1 m).2 hm, rfl⟩
  · rename_i hs
    have hs : (e.collect E T).syms = [] := by simpa using hs
    rw [if_neg (by simp [h3]), ha]
    constructor
    · intro hd
      cases hc : (e.collect E T).addr with
      | none => simp [hc] at hd
      | some a => simp [hc, Addr.norm, h4 a hc, norm_nil] at hd
    · rintro ⟨m, rfl, hm⟩
      have := (h1 m).2 hm
      rw [hs] at this; simp at this

/-- When a simple expression depends on anything, it does so on a symbol. -/
theorem simple_contains {E : Env} {T : Table} (hT : T.Flat) {e : MExpr} (h : e.Simple) :
    ((e.collect E T).contains E = true → (e.collect E T).isAddress = false) ∧ ((e.collect E T).contains E = false → e.Closed T) := by
  obtain ⟨h1, h2⟩ := collect_refs (E := E) e (linear_quiet E T e h.1)
  obtain ⟨h3, h4⟩ := collect_still (E := E) e (simple_settled hT h E.heap)
  have ha : (e.collect E T).attrs = [] := List.eq_nil_iff_forall_not_mem.2 fun x hx => by
    have := ((h2 x).1 hx).1; rw [h.2.1] at this; simp at this
  constructor
  · intro hc
    unfold Coll.isAddress
    cases hs : (e.collect E T).syms with
    | cons => rfl
    | nil =>
      unfold Coll.contains at hc
      rw [hs, ha, h3] at hc
      cases had : (e.collect E T).addr with
      | none => simp
      | some a => simp [had, Addr.pending, h4 a had] at hc
  · intro hc
    unfold Coll.contains at hc
    simp only [Bool.or_eq_false_iff] at hc
    refine ⟨fun n hn hv => ?_, fun x hx => by rw [h.2.1] at hx; simp at hx⟩
    have := (h1 n).2 ⟨hn, hv⟩
    have hsyms : (e.collect E T).syms = [] := by simpa using hc.1.1.1
    rw [hsyms] at this; simp at this

/-! ### The invariant -/

/-- What holds of the tables throughout such a program. -/
structure Good (st : SymSt) : Prop where
  keyed : st.Keyed
  target : ∀ x ∈ st.deps, ∃ n s, x.1 = .sym n ∧ st.tab n = some s ∧ s.val = .undef ∧ x.2.Simple
  flat : st.tab.Flat
  acyclic : ∃ rank : SymId → Nat, ∀ n m, st.Refers n m → rank m < rank n

theorem good_find {st : SymSt} (hk : st.Keyed) {d : Dep} {e : MExpr} (h : (d, e) ∈ st.deps) : st.deps.find? (fun x => decide (x.1 = d)) = some (d, e) := by
  cases hf : st.deps.find? (fun x => decide (x.1 = d)) with
  | none =>
    rw [List.find?_eq_none] at hf
    exact absurd (decide_eq_true rfl) (hf _ h)
  | some x =>
    have hm := List.mem_of_find?_eq_some hf
    have hx : x.1 = d := by simpa using List.find?_some hf
    obtain ⟨x1, x2⟩ := x
    simp only at hx; subst hx
    rw [keyed_unique hk h hm]

/-- The edges the code sees are the references. -/
theorem good_edge {st : SymSt} (h : Good st) (n : SymId) (d : Dep) : st.Edge (.sym n) d ↔ ∃ m, d = .sym m ∧ st.Refers n m := by
  constructor
  · rintro ⟨xs, hxs, hd⟩
    simp only [SymSt.out, Option.map_eq_some_iff] at hxs
    obtain ⟨⟨d', e⟩, hf, rfl⟩ := hxs
    have hm := List.mem_of_find?_eq_some hf
    have hx : d' = .sym n := by simpa using List.find?_some hf
    subst hx
    obtain ⟨_, _, _, _, _, hs⟩ := h.target _ hm
    obtain ⟨m, rfl, hr⟩ := (simple_extract h.flat hs d).1 hd
    exact ⟨m, rfl, e, hm, hr⟩
  · rintro ⟨m, rfl, e, hm, hr⟩
    obtain ⟨_, _, _, _, _, hs⟩ := h.target _ hm
    exact ⟨_, by simp only [SymSt.out, good_find h.keyed hm]; rfl, (simple_extract h.flat hs _).2 ⟨m, rfl, hr⟩⟩

theorem good_path {st : SymSt} (h : Good st) (n m : SymId) : st.Path (.sym n) (.sym m) ↔ st.Reach n m := by
  constructor
  · intro hp
    generalize hd : Dep.sym n = d at hp
    generalize hd' : Dep.sym m = d' at hp
    induction hp generalizing n with
    | refl => rw [← hd] at hd'; injection hd' with hd'; subst hd'; exact .refl _
    | step he _ ih =>
      subst hd
      obtain ⟨k, rfl, hr⟩ := (good_edge h n _).1 he
      exact .step hr (ih k rfl hd')
  · intro hr
    induction hr with
    | refl => exact .refl _
    | step hr _ ih => exact .step ((good_edge h _ _).2 ⟨_, rfl, hr⟩) ih

/-- Below a rank of the symbols every worklist of symbols is worked off. -/
theorem checkLoop_ends' {st : SymSt} (rank : SymId → Nat) (hr : ∀ n d', st.Edge (.sym n) d' → ∃ m, d' = .sym m ∧ rank m < rank n) (t : Dep) (k : Nat) :
    ∀ l : List Dep, (∀ d ∈ l, ∃ n, d = .sym n ∧ rank n < k) → ∀ rest f, (∃ b, st.checkLoop t f rest = some b) → ∃ f' b, st.checkLoop t f' (l ++ rest) = some b := by
  induction k with
  | zero =>
    intro l hl rest f hrest
    cases l with
    | nil => exact ⟨f, hrest⟩
    | cons d _ => obtain ⟨n, _, hn⟩ := hl d (by simp); omega
  | succ k ih =>
    intro l
    induction l with
    | nil => intro _ rest f hrest; exact ⟨f, hrest⟩
    | cons d ds ihl =>
      intro hl rest f hrest
      obtain ⟨f1, b1, h1⟩ := ihl (fun x hx => hl x (by simp [hx])) rest f hrest
      cases ho : st.out d with
      | none => exact ⟨f1 + 1, b1, by rw [List.cons_append, SymSt.checkLoop]; simp only [ho]; exact h1⟩
      | some xs =>
        by_cases ht : t ∈ xs
        · exact ⟨1, false, by rw [List.cons_append, SymSt.checkLoop]; simp [ho, ht]⟩
        · obtain ⟨f2, b2, h2⟩ := ih xs.reverse (fun x hx => by
            obtain ⟨n, rfl, hn⟩ := hl d (by simp)
            obtain ⟨m, rfl, hm⟩ := hr n x ⟨xs, ho, List.mem_reverse.1 hx⟩
            exact ⟨m, rfl, by omega⟩) (ds ++ rest) f1 ⟨b1, h1⟩
          exact ⟨f2 + 1, b2, by rw [List.cons_append, SymSt.checkLoop]; simp only [ho, ht, if_false]; exact h2⟩

theorem bound_rank {α : Type} (l : List α) (rank : α → Nat) : ∃ k, ∀ d ∈ l, rank d < k := by
  induction l with
  | nil => exact ⟨0, by simp⟩
  | cons x l ih =>
    obtain ⟨k, hk⟩ := ih
    refine ⟨max k (rank x + 1), ?_⟩
    intro d hd
    rw [List.mem_cons] at hd
    rcases hd with rfl | hd
    · omega
    · have := hk d hd; omega

/-- The check ends. -/
theorem good_check {st : SymSt} (h : Good st) (t : Dep) {e : MExpr} (he : e.Simple) :
    ∃ fuel b, st.checkCycle t fuel ((e.collect st.env st.tab).extract st.env) = some b := by
  obtain ⟨rank, hr⟩ := h.acyclic
  unfold SymSt.checkCycle
  split
  · exact ⟨0, false, rfl⟩
  · obtain ⟨k, hk⟩ := bound_rank e.symRefs rank
    obtain ⟨f, b, hb⟩ := checkLoop_ends' rank (fun n d' hd => by
      obtain ⟨m, rfl, hm⟩ := (good_edge h n d').1 hd
      exact ⟨m, rfl, hr n m hm⟩) t k ((e.collect st.env st.tab).extract st.env).reverse (fun d hd => by
        obtain ⟨m, rfl, hm, _⟩ := (simple_extract h.flat he d).1 (List.mem_reverse.1 hd)
        exact ⟨m, rfl, hk m hm⟩) [] 0 ⟨true, by simp [SymSt.checkLoop]⟩
    rw [List.append_nil] at hb
    exact ⟨f, b, hb⟩

theorem value_undef_ext {T T' : Table} (h : Ext T T') {n : SymId} (hv : T'.value n = .undef) : T.value n = .undef := by
  by_cases hh : T.value n = .undef
  · exact hh
  · rw [value_ext h hh] at hv; exact absurd hv hh

theorem set_value (T : Table) (n m : SymId) (s : Sym) : (T.set n s).value m = if m = n then s.val else T.value m := by
  unfold Table.value Table.set
  by_cases h : m = n <;> simp [h]

/-- A state with fewer entries and more values. -/
theorem good_shrink {st st' : SymSt} (h : Good st) (hsub : st'.deps.Sublist st.deps) (hext : Ext st.tab st'.tab) (hf : st'.tab.Flat)
    (hu : ∀ n e, (.sym n, e) ∈ st'.deps → st'.tab.value n = .undef) : Good st' where
  keyed := h.keyed.sublist (hsub.map _)
  target := by
    intro x hx
    obtain ⟨n, s, hn, hs, hv, he⟩ := h.target x (hsub.subset hx)
    obtain ⟨s', hs', _⟩ := hext n s hs
    refine ⟨n, s', hn, hs', ?_, he⟩
    obtain ⟨x1, x2⟩ := x
    simp only at hn; subst hn
    have := hu n x2 hx
    rw [Table.value, hs'] at this; exact this
  flat := hf
  acyclic := by
    obtain ⟨rank, hr⟩ := h.acyclic
    exact ⟨rank, fun n m ⟨e, he, hm, hv⟩ => hr n m ⟨e, hsub.subset he, hm, value_undef_ext hext hv⟩⟩

theorem good_fire {st st' : SymSt} (h : Good st) {d : Dep} {e : MExpr} (hr : st.Ready d e) (hf : st.fire d e = some st') : Good st' := by
  obtain ⟨_, hT, hd, henv, _⟩ := fire_some hf
  obtain ⟨n, s, hn, hs, hv, he⟩ := h.target _ hr.1
  simp only at hn he; subst hn
  rw [assign_eq] at hT
  simp only [Dep.owner, hs] at hT
  split at hT
  · injection hT with hT
    have hval : ∀ m, st'.tab.value m = if m = n then e.resolve st.env.heap st.tab else st.tab.value m := by
      intro m; rw [← hT, set_value]; rfl
    refine good_shrink h (by rw [hd]; exact List.filter_sublist) (fire_ext hf) ?_ ?_
    · intro m
      rw [hval m]
      split
      · exact (simple_resolve h.flat _ st.env.heap he).2
      · exact h.flat m
    · intro m x hx
      rw [hd, List.mem_filter] at hx
      have hne : m ≠ n := by intro hh; subst hh; simp at hx
      rw [hval m, if_neg hne]
      obtain ⟨m', s', hm', hs', hv', _⟩ := h.target _ hx.1
      injection hm' with hm'; subst hm'
      rw [Table.value, hs']; exact hv'
  · cases hT

theorem good_resolves {st st' : SymSt} (h : Good st) (hr : Resolves st (.ok st')) : Good st' := by
  generalize ho : Outcome.ok st' = o at hr
  induction hr with
  | stop => cases ho; exact h
  | step hrd hf _ ih => exact ih (good_fire h hrd hf) ho
  | crash => cases ho

theorem good_unused {st : SymSt} (h : Good st) {n : SymId} (hn : st.tab n = none) : Dep.sym n ∉ st.deps.map (·.1) := by
  intro hm
  obtain ⟨x, hx, hxn⟩ := List.mem_map.1 hm
  obtain ⟨m, s, hm', hs, _⟩ := h.target x hx
  rw [hxn] at hm'; injection hm' with hm'; subst hm'
  rw [hn] at hs; cases hs

/-- Creating a symbol. -/
theorem good_set {st : SymSt} (h : Good st) {n : SymId} {s : Sym} (hn : st.tab n = none) (hs : s.val.Flat) (env : Env) (sps : List (SpId × SpSrc)) :
    Good { st with tab := st.tab.set n s, env := env, sps := sps } := by
  refine good_shrink (st' := { st with tab := st.tab.set n s, env := env, sps := sps }) h (.refl _) (.new hn) ?_ ?_
  · intro m
    show ((st.tab.set n s).value m).Flat
    rw [set_value]
    split
    · exact hs
    · exact h.flat m
  · intro m e hm
    obtain ⟨m', s', hm', hs', hv', _⟩ := h.target _ hm
    injection hm' with hm'; subst hm'
    show (st.tab.set n s).value m = .undef
    rw [set_value, if_neg (by intro hh; subst hh; rw [hn] at hs'; cases hs'), Table.value, hs']; exact hv'

theorem good_create {st st' : SymSt} (h : Good st) {n : SymId} {s : Sym} (hs : s.val.Flat) (hc : Create st n s (.ok st')) : Good st' := by
  cases hc with
  | pending hn => exact good_set h hn hs _ _
  | defined hn _ _ hr => exact good_resolves (good_set h hn hs _ _) hr

theorem good_addDep {st st' : SymSt} (h : Good st) {n : SymId} {e : MExpr} (he : e.Simple) {s : Sym} (hn : st.tab n = some s) (hv : s.val = .undef) {b : Bool}
    (ha : AddDep st (.sym n) e (.ok (b, st'))) : Good st' := by
  cases ha with
  | @added fuel hnew hc =>
    have hcor := C55_correct st (.sym n) _ fuel true hc
    have hno : ∀ m ∈ e.symRefs, st.tab.value m = .undef → ¬ st.Reach m n := by
      intro m hm hmv hr
      have := hcor.2 ⟨.sym m, (simple_extract h.flat he _).2 ⟨m, rfl, hm, hmv⟩, (good_path h m n).2 hr⟩
      cases this
    obtain ⟨rank, hr⟩ := h.acyclic
    obtain ⟨k, hk⟩ := bound_rank e.symRefs rank
    refine ⟨?_, ?_, h.flat, ?_⟩
    · unfold SymSt.Keyed
      rw [List.map_append, List.nodup_append]
      refine ⟨h.keyed, by simp, ?_⟩
      rintro a ha b hb rfl
      simp at hb; subst hb
      exact hnew ha
    · intro x hx
      rcases List.mem_append.1 hx with hx | hx
      · exact h.target x hx
      · simp at hx; subst hx; exact ⟨n, s, rfl, hn, hv, he⟩
    · classical
      refine ⟨fun m => if st.Reach m n then rank m + k else rank m, ?_⟩
      rintro a b ⟨e', he', hb, hbv⟩
      rcases List.mem_append.1 he' with hx | hx
      · have href : st.Refers a b := ⟨e', hx, hb, hbv⟩
        have hlt := hr a b href
        show (if st.Reach b n then _ else _) < (if st.Reach a n then _ else _)
        by_cases hp : st.Reach b n
        · rw [if_pos hp, if_pos (.step href hp)]; omega
        · rw [if_neg hp]; split <;> omega
      · simp at hx
        obtain ⟨rfl, rfl⟩ := hx
        show (if st.Reach b a then _ else _) < (if st.Reach a a then _ else _)
        rw [if_neg (hno b hb hbv), if_pos (.refl _)]
        have := hk b hb
        omega
  | @cyclic fuel T _ hnew hc hT hr =>
    refine good_resolves ?_ hr
    unfold Table.assignDefault at hT
    rw [assign_eq] at hT
    simp only [Dep.owner, hn, Dep.may, Dep.put, hv] at hT
    simp at hT
    refine good_shrink (st' := { st with tab := T }) h (.refl _) (by
      rw [← hT]; exact .set hn (fun hh => absurd hv hh) (fun _ h => h) (fun _ h => h) rfl rfl rfl) ?_ ?_
    · intro m
      show (T.value m).Flat
      rw [← hT, set_value]
      split
      · intro a ha; cases ha
      · exact h.flat m
    · intro m x hx
      obtain ⟨m', s', hm', hs', hv', _⟩ := h.target _ hx
      injection hm' with hm'; subst hm'
      show T.value m = .undef
      rw [← hT, set_value, if_neg (by
        rintro rfl
        exact hnew (List.mem_map_of_mem (f := (·.1)) hx)), Table.value, hs']; exact hv'

theorem reach_congr {st st' : SymSt} (hd : st.deps = st'.deps) (hv : ∀ m, st.tab.value m = st'.tab.value m) {a b : SymId} (h : st.Reach a b) : st'.Reach a b := by
  induction h with
  | refl => exact .refl _
  | step hx _ ih =>
    obtain ⟨e, a1, a2, a3⟩ := hx
    exact .step ⟨e, hd ▸ a1, a2, (hv _).symm.trans a3⟩ ih

theorem pending_tab {st st' : SymSt} {n : SymId} {s : Sym} (hs : s.val = .undef) (hc : Create st n s (.ok st')) : st' = { st with tab := st.tab.set n s } := by
  cases hc with
  | pending => rfl
  | defined _ h => exact absurd hs h

theorem good_exec {st st' : SymSt} (h : Good st) {x : SymStmt} (hx : x.Simple) (he : Exec st x (.ok st')) : Good st' := by
  cases hx with
  | equ n s e hse =>
    cases he with
    | equDup => exact h
    | equNow _ _ hc => exact good_create h (simple_resolve h.flat _ st.env.heap hse).2 hc
    | equAddr _ hcon had => rw [(simple_contains h.flat hse).1 hcon] at had; cases had
    | equLater hn _ _ hc ha =>
      have hg := good_create h (s := { s with val := .undef }) (fun a ha => by cases ha) hc
      have e1 := pending_tab rfl hc
      subst e1
      exact good_addDep hg hse (s := { s with val := .undef }) (by simp [Table.set]) rfl ha
  | label n s hs hf =>
    cases he with
    | labelDup => exact h
    | label _ hc => exact good_create h hf hc

theorem good_init (env : Env) : Good (.init env) where
  keyed := by simp [SymSt.Keyed, SymSt.init]
  target := by simp [SymSt.init]
  flat := by intro n a h; simp [SymSt.init, Table.value] at h
  acyclic := ⟨fun _ => 0, by rintro n m ⟨e, he, _⟩; simp [SymSt.init] at he⟩

theorem good_all {st : SymSt} {xs : List SymStmt} {o : Outcome SymSt} (hr : ExecAll st xs o) : Good st → (∀ x ∈ xs, x.Simple) → ∀ st', o = .ok st' → Good st' := by
  induction hr with
  | nil => intro h _ st' e; cases e; exact h
  | cons hx _ ih => intro h hs st' e; exact ih (good_exec h (hs _ (by simp)) hx) (fun x hx => hs x (by simp [hx])) st' e
  | crash => intro _ _ st' e; cases e

theorem good_runs {st : SymSt} (h : Good st) {x : SymStmt} (hx : x.Simple) : ∃ o, Exec st x o := by
  cases hx with
  | equ n s e hse =>
    by_cases hn : st.tab n = none
    · by_cases hc : (e.collect st.env st.tab).contains st.env = true
      · have had := (simple_contains h.flat hse).1 hc
        have hg := good_set h (s := { s with val := .undef }) hn (fun a ha => by cases ha) st.env st.sps
        have hcr : Create st n { s with val := .undef } (.ok { st with tab := st.tab.set n { s with val := .undef } }) := .pending hn rfl
        obtain ⟨fuel, b, hb⟩ := good_check hg (.sym n) hse
        have hnew := good_unused h hn
        cases b with
        | true => exact ⟨_, .equLater hn hc had hcr (.added (fuel := fuel) hnew hb)⟩
        | false =>
          obtain ⟨T, hT⟩ : ∃ T, (st.tab.set n { s with val := .undef }).assignDefault (.sym n) = some T := by
            unfold Table.assignDefault; rw [assign_eq]
            simp [Dep.owner, Table.set, Dep.may]
          obtain ⟨o, ho⟩ := C56_ends { st with tab := T }
          cases o with
          | ok st' => exact ⟨_, .equLater hn hc had hcr (.cyclic (fuel := fuel) hnew hb hT ho)⟩
          | crash => exact ⟨_, .equLaterCrash hn hc had hcr (.cyclicCrash (fuel := fuel) hnew hb hT ho)⟩
      · obtain ⟨o, ho⟩ := C56_ends { st with tab := st.tab.set n { s with val := e.resolve st.env.heap st.tab } }
        exact ⟨o, .equNow hn (by simpa using hc) (.defined (env := st.env) (sps := st.sps) hn (resolve_ne e) (fun _ => ⟨rfl, rfl⟩) ho)⟩
    · exact ⟨_, .equDup hn⟩
  | label n s hs hf =>
    by_cases hn : st.tab n = none
    · obtain ⟨o, ho⟩ := C56_ends { st with tab := st.tab.set n s }
      exact ⟨o, .label hn (.defined (env := st.env) (sps := st.sps) hn hs (fun _ => ⟨rfl, rfl⟩) ho)⟩
    · exact ⟨_, .labelDup hn⟩

/-- C55 (partial): a program of `EQU` statements over sums and differences always comes to an end, and the pending definitions never refer to
each other in a circle. Missing: attributes, storage of unknown length, products. -/
theorem C55_programs_partial (env : Env) (xs : List SymStmt) (hs : ∀ x ∈ xs, x.Simple) : (∃ o, ExecAll (.init env) xs o) ∧
    ∀ st, ExecAll (.init env) xs (.ok st) → ∃ rank : SymId → Nat, ∀ n m, st.Refers n m → rank m < rank n := by
  refine ⟨?_, fun st h => (good_all h (good_init env) hs st rfl).acyclic⟩
  have : ∀ st, Good st → ∃ o, ExecAll st xs o := by
    induction xs with
    | nil => exact fun st _ => ⟨_, .nil⟩
    | cons x xs ih =>
      intro st h
      obtain ⟨o, ho⟩ := good_runs h (hs x (by simp))
      cases o with
      | crash => exact ⟨_, .crash ho⟩
      | ok st' =>
        obtain ⟨o, ho'⟩ := ih (fun x hx => hs x (by simp [hx])) st' (good_exec h (hs x (by simp)) ho)
        exact ⟨o, .cons ho ho'⟩
  exact this _ (good_init env)

/-- C55 (partial): after any such program, the definition `n EQU e` is reported as cyclic exactly when `e` refers, directly or through pending
definitions, to `n`. -/
theorem C55_reported_partial (env : Env) (xs : List SymStmt) (hs : ∀ x ∈ xs, x.Simple) (st : SymSt) (h : ExecAll (.init env) xs (.ok st)) (n : SymId) (s : Sym)
    (hn : st.tab n = none) (hv : s.val = .undef) (e : MExpr) (he : e.Simple) (b : Bool) (st' : SymSt)
    (ha : AddDep { st with tab := st.tab.set n s } (.sym n) e (.ok (b, st'))) :
    b = false ↔ ∃ m ∈ e.symRefs, (m = n ∨ st.tab.value m = .undef ∧ st.Reach m n) := by
  have hg := good_all h (good_init env) hs st rfl
  have hg' := good_set hg (s := s) hn (by rw [hv]; intro a ha; cases ha) st.env st.sps
  have hval : ∀ m, (st.tab.set n s).value m = st.tab.value m := by
    intro m; rw [set_value]; split
    · rename_i hm; subst hm; rw [hv, Table.value, hn]
    · rfl
  have hreach : ∀ a b, SymSt.Reach { st with tab := st.tab.set n s } a b ↔ st.Reach a b :=
    fun a b => ⟨fun h => reach_congr (st := { st with tab := st.tab.set n s }) (st' := st) rfl hval h,
      fun h => reach_congr (st := st) (st' := { st with tab := st.tab.set n s }) rfl (fun m => (hval m).symm) h⟩
  have key : ∀ fuel b, SymSt.checkCycle { st with tab := st.tab.set n s } (.sym n) fuel ((e.collect st.env (st.tab.set n s)).extract st.env) = some b →
      (b = false ↔ ∃ m ∈ e.symRefs, (m = n ∨ st.tab.value m = .undef ∧ st.Reach m n)) := by
    intro fuel b hb
    rw [C55_correct _ _ _ fuel b hb]
    constructor
    · rintro ⟨d, hd, hp⟩
      obtain ⟨m, rfl, hm, hmv⟩ := (simple_extract hg'.flat he d).1 hd
      exact ⟨m, hm, .inr ⟨(hval m).symm.trans hmv, (hreach m n).1 ((good_path hg' m n).1 hp)⟩⟩
    · rintro ⟨m, hm, h1⟩
      rcases h1 with rfl | ⟨h1, h2⟩
      · exact ⟨.sym m, (simple_extract hg'.flat he _).2 ⟨m, rfl, hm, by rw [hval, Table.value, hn]⟩, .refl _⟩
      · exact ⟨.sym m, (simple_extract hg'.flat he _).2 ⟨m, rfl, hm, by rw [hval]; exact h1⟩, (good_path hg' m n).2 ((hreach m n).2 h2)⟩
  cases ha with
  | added _ hc => exact key _ _ hc
  | cyclic _ hc => exact key _ _ hc

/-! ### C58: `EQU` gives its label the value of its expression -/

theorem done_aux {T T' : Table} (h : Ext T T') {e : MExpr} (hc : e.Closed T) (H : Heap) : e.Closed T' ∧ e.resolve H T' = e.resolve H T := by
  refine ⟨⟨fun n hn => by rw [value_ext h (hc.1 n hn)]; exact hc.1 n hn, fun x hx => ?_⟩, ?_⟩
  · obtain ⟨s, hs, hk⟩ := hc.2 x hx
    obtain ⟨s', hs', hk', _⟩ := hasAttr_ext h hs hk
    exact ⟨s', hs', hk'⟩
  · unfold MExpr.resolve
    rw [(closed_ext (E := ⟨H, fun _ => false, fun _ => false⟩) h e hc).1]

/-- The label has the value of the expression, and this is final. -/
def Done (n : SymId) (e : MExpr) (st : SymSt) : Prop := e.Closed st.tab ∧ ∀ H, st.tab.value n = e.resolve H st.tab

theorem done_ext {n : SymId} {e : MExpr} {st st' : SymSt} (hx : Ext st.tab st'.tab) (h : Done n e st) : Done n e st' := by
  refine ⟨(done_aux hx h.1 st.env.heap).1, fun H => ?_⟩
  rw [(done_aux hx h.1 H).2, ← h.2 H]
  exact value_ext hx (by rw [h.2 H]; exact resolve_ne e)

theorem kept_resolves {st st' : SymSt} (hg : Good st) (h : Resolves st (.ok st')) {n : SymId} {e : MExpr} (he : (.sym n, e) ∈ st.deps) :
    (.sym n, e) ∈ st'.deps ∨ Done n e st' := by
  have hl : ∀ x ∈ st.deps, x.2.Linear = true := fun x hx => by obtain ⟨_, _, _, _, _, hs⟩ := hg.target x hx; exact hs.1
  rcases C56_value_partial st st' hg.keyed (noMix_of_linear hl) h _ e he with h1 | ⟨h1, h2, _⟩
  · exact .inl h1
  · obtain ⟨_, _, _, _, _, hs⟩ := hg.target _ he
    exact .inr ⟨h1, fun H => h2.trans (simple_resolve (good_resolves hg h).flat _ _ hs).1⟩

theorem kept_create {st st' : SymSt} (hg : Good st) {m : SymId} {s : Sym} (hs : s.val.Flat) (hc : Create st m s (.ok st')) {n : SymId} {e : MExpr}
    (he : (.sym n, e) ∈ st.deps) : (.sym n, e) ∈ st'.deps ∨ Done n e st' := by
  cases hc with
  | pending => exact .inl he
  | defined hn _ _ hr => exact kept_resolves (good_set hg hn hs _ _) hr he

theorem cyclic_good {st : SymSt} (h : Good st) {n : SymId} {s : Sym} (hn : st.tab n = some s) (hv : s.val = .undef) (hnew : Dep.sym n ∉ st.deps.map (·.1)) {T : Table}
    (hT : st.tab.assignDefault (.sym n) = some T) : Good { st with tab := T } ∧ T.value n = .abs 0 := by
  unfold Table.assignDefault at hT
  rw [assign_eq] at hT
  simp only [Dep.owner, hn, Dep.may, Dep.put, hv] at hT
  simp at hT
  refine ⟨good_shrink (st' := { st with tab := T }) h (.refl _) (by
    rw [← hT]; exact .set hn (fun hh => absurd hv hh) (fun _ h => h) (fun _ h => h) rfl rfl rfl) ?_ ?_, ?_⟩
  · intro m
    show (T.value m).Flat
    rw [← hT, set_value]
    split
    · intro a ha; cases ha
    · exact h.flat m
  · intro m x hx
    obtain ⟨m', s', hm', hs', hv', _⟩ := h.target _ hx
    injection hm' with hm'; subst hm'
    show T.value m = .undef
    rw [← hT, set_value, if_neg (by
      rintro rfl
      exact hnew (List.mem_map_of_mem (f := (·.1)) hx)), Table.value, hs']; exact hv'
  · rw [← hT, set_value, if_pos rfl]

theorem kept_addDep {st st' : SymSt} (hg : Good st) {m : SymId} {e' : MExpr} {s : Sym} (hn : st.tab m = some s) (hv : s.val = .undef) {b : Bool}
    (ha : AddDep st (.sym m) e' (.ok (b, st'))) {n : SymId} {e : MExpr} (he : (.sym n, e) ∈ st.deps) : (.sym n, e) ∈ st'.deps ∨ Done n e st' := by
  cases ha with
  | added => exact .inl (List.mem_append.2 (.inl he))
  | cyclic hnew _ hT hr => exact kept_resolves (cyclic_good hg hn hv hnew hT).1 hr he

theorem kept_exec {st st' : SymSt} (hg : Good st) {x : SymStmt} (hx : x.Simple) (h : Exec st x (.ok st')) {n : SymId} {e : MExpr} (he : (.sym n, e) ∈ st.deps) :
    (.sym n, e) ∈ st'.deps ∨ Done n e st' := by
  cases hx with
  | equ m s e' hse =>
    cases h with
    | equDup => exact .inl he
    | equNow _ _ hc => exact kept_create hg (simple_resolve hg.flat _ st.env.heap hse).2 hc he
    | equAddr _ hcon had => rw [(simple_contains hg.flat hse).1 hcon] at had; cases had
    | equLater hn _ _ hc ha =>
      have hg1 := good_create hg (s := { s with val := .undef }) (fun a ha => by cases ha) hc
      have e1 := pending_tab rfl hc
      subst e1
      exact kept_addDep hg1 (s := { s with val := .undef }) (by simp [Table.set]) rfl ha he
  | label m s hs hf =>
    cases h with
    | labelDup => exact .inl he
    | label _ hc => exact kept_create hg hf hc he

theorem kept_all {st : SymSt} {xs : List SymStmt} {o : Outcome SymSt} (h : ExecAll st xs o) : Good st → (∀ x ∈ xs, x.Simple) → ∀ st', o = .ok st' →
    ∀ n e, ((.sym n, e) ∈ st.deps ∨ Done n e st) → ((.sym n, e) ∈ st'.deps ∨ Done n e st') := by
  induction h with
  | nil => intro _ _ st' e; cases e; exact fun _ _ h => h
  | cons hx _ ih =>
    intro hg hs st' e n ex h
    refine ih (good_exec hg (hs _ (by simp)) hx) (fun x hx => hs x (by simp [hx])) st' e n ex ?_
    rcases h with h | h
    · exact kept_exec hg (hs _ (by simp)) hx h
    · exact .inr (done_ext (exec_ext hx) h)
  | crash => intro _ _ st' e; cases e

/-- The outcome of one definition. -/
theorem equ_outcome {st st' : SymSt} (hg : Good st) {n : SymId} {s : Sym} {e : MExpr} (he : e.Simple) (hn : st.tab n = none) (h : Exec st (.equ n s e) (.ok st')) :
    (.sym n, e) ∈ st'.deps ∨ Done n e st' ∨ ((∃ m ∈ e.symRefs, m = n ∨ st.tab.value m = .undef ∧ st.Reach m n) ∧ st'.tab.value n = .abs 0) := by
  cases h with
  | equDup hd => exact absurd hn hd
  | equNow _ hcon hc =>
    have hcl := (simple_contains hg.flat he).2 hcon
    have hne := resolve_ne (H := st.env.heap) (T := st.tab) e
    cases hc with
    | pending _ hv => exact absurd hv hne
    | @defined _ env sps _ _ _ hr =>
      right; left
      have hx : Ext (st.tab.set n { s with val := e.resolve st.env.heap st.tab }) st'.tab := resolves_ext hr st' rfl
      have hx0 : Ext st.tab (st.tab.set n { s with val := e.resolve st.env.heap st.tab }) := .new hn
      have hd : Done n e { st with tab := st.tab.set n { s with val := e.resolve st.env.heap st.tab }, env := env, sps := sps } := by
        refine ⟨(done_aux hx0 hcl st.env.heap).1, fun H => ?_⟩
        show (st.tab.set n { s with val := e.resolve st.env.heap st.tab }).value n = e.resolve H (st.tab.set n { s with val := e.resolve st.env.heap st.tab })
        rw [set_value, if_pos rfl, (done_aux hx0 hcl H).2]
        exact (simple_resolve hg.flat _ _ he).1
      exact done_ext hx hd
  | equAddr _ hcon had => rw [(simple_contains hg.flat he).1 hcon] at had; cases had
  | equLater _ _ _ hc ha =>
    have hg1 := good_create hg (s := { s with val := .undef }) (fun a ha => by cases ha) hc
    have e1 := pending_tab rfl hc
    subst e1
    cases ha with
    | added => exact .inl (by simp)
    | @cyclic fuel T _ hnew hcy hT hr =>
      right; right
      obtain ⟨_, hz⟩ := cyclic_good hg1 (s := { s with val := .undef }) (by simp [Table.set]) rfl hnew hT
      have hval : ∀ m, (st.tab.set n { s with val := .undef }).value m = st.tab.value m := by
        intro m; rw [set_value]; split
        · rename_i hm; subst hm; rw [Table.value, hn]
        · rfl
      refine ⟨?_, ?_⟩
      · obtain ⟨d, hd, hp⟩ := (C55_correct _ _ _ fuel false hcy).1 rfl
        obtain ⟨m, rfl, hm, hmv⟩ := (simple_extract hg1.flat he d).1 hd
        refine ⟨m, hm, .inr ⟨(hval m).symm.trans hmv, ?_⟩⟩
        exact reach_congr (st := { st with tab := st.tab.set n { s with val := .undef } }) (st' := st) rfl hval ((good_path hg1 m n).1 hp)
      · have hx : Ext T st'.tab := resolves_ext hr st' rfl
        rw [value_ext hx (by rw [hz]; simp), hz]

/-- Every pending definition waits for an undefined symbol. -/
def SymSt.Idle (st : SymSt) : Prop := ∀ x ∈ st.deps, ∃ m ∈ x.2.symRefs, st.tab.value m = .undef

theorem idle_resolves {st st' : SymSt} (hg : Good st) (h : Resolves st (.ok st')) : st'.Idle := by
  intro x hx
  have hg' := good_resolves hg h
  obtain ⟨_, _, _, _, _, hs⟩ := hg'.target x hx
  have := (resolves_stops h st' rfl).1 x.1 x.2
  obtain ⟨d, hd⟩ := List.exists_mem_of_ne_nil _ fun he => this ⟨hx, he⟩
  obtain ⟨m, _, hm⟩ := (simple_extract hg'.flat hs d).1 hd
  exact ⟨m, hm⟩

theorem idle_create {st st' : SymSt} (hg : Good st) (hi : st.Idle) {n : SymId} {s : Sym} (hs : s.val.Flat) (h : Create st n s (.ok st')) : st'.Idle := by
  cases h with
  | pending hn hv =>
    intro x hx
    obtain ⟨m, hm, hmv⟩ := hi x hx
    refine ⟨m, hm, ?_⟩
    show (st.tab.set n s).value m = .undef
    rw [set_value]; split
    · exact hv
    · exact hmv
  | defined hn _ _ hr => exact idle_resolves (good_set hg hn hs _ _) hr

theorem idle_exec {st st' : SymSt} (hg : Good st) (hi : st.Idle) {x : SymStmt} (hx : x.Simple) (h : Exec st x (.ok st')) : st'.Idle := by
  cases hx with
  | equ m s e' hse =>
    cases h with
    | equDup => exact hi
    | equNow _ _ hc => exact idle_create hg hi (simple_resolve hg.flat _ st.env.heap hse).2 hc
    | equAddr _ hcon had => rw [(simple_contains hg.flat hse).1 hcon] at had; cases had
    | equLater hn hcon _ hc ha =>
      have hg1 := good_create hg (s := { s with val := .undef }) (fun a ha => by cases ha) hc
      have hi1 := idle_create hg hi (s := { s with val := .undef }) (fun a ha => by cases ha) hc
      have e1 := pending_tab rfl hc
      subst e1
      cases ha with
      | added =>
        intro x hx
        rcases List.mem_append.1 hx with hx | hx
        · exact hi1 x hx
        · simp at hx; subst hx
          show ∃ k ∈ e'.symRefs, (st.tab.set m { s with val := .undef }).value k = .undef
          have hval : ∀ k, (st.tab.set m { s with val := .undef }).value k = st.tab.value k := by
            intro k; rw [set_value]; split
            · rename_i hm; subst hm; rw [Table.value, hn]
            · rfl
          by_cases hh : ∃ k ∈ e'.symRefs, st.tab.value k = .undef
          · obtain ⟨k, hk, hv⟩ := hh; exact ⟨k, hk, (hval k).trans hv⟩
          · have hclosed : e'.Closed st.tab := ⟨fun k hk hv => hh ⟨k, hk, hv⟩, fun x hx => by rw [hse.2.1] at hx; simp at hx⟩
            have hcs : (e'.collect st.env st.tab).syms = [] := List.eq_nil_iff_forall_not_mem.2 fun k hk =>
              hclosed.1 k ((collect_sub e').1 k hk).1 ((collect_sub e').1 k hk).2
            have hca : (e'.collect st.env st.tab).attrs = [] := List.eq_nil_iff_forall_not_mem.2 fun k hk => by
              have := ((collect_sub e').2 k hk).1; rw [hse.2.1] at this; simp at this
            obtain ⟨h3, h4⟩ := collect_still (E := st.env) e' (simple_settled hg.flat hse st.env.heap)
            unfold Coll.contains at hcon
            rw [hcs, hca, h3] at hcon
            cases had : (e'.collect st.env st.tab).addr with
            | none => simp [had] at hcon
            | some a => simp [had, Addr.pending, h4 a had] at hcon
      | cyclic hnew _ hT hr => exact idle_resolves (cyclic_good hg1 (s := { s with val := .undef }) (by simp [Table.set]) rfl hnew hT).1 hr
  | label m s hs hf =>
    cases h with
    | labelDup => exact hi
    | label _ hc => exact idle_create hg hi hf hc

theorem idle_all {st : SymSt} {xs : List SymStmt} {o : Outcome SymSt} (h : ExecAll st xs o) : Good st → st.Idle → (∀ x ∈ xs, x.Simple) → ∀ st', o = .ok st' → st'.Idle := by
  induction h with
  | nil => intro _ hi _ st' e; cases e; exact hi
  | cons hx _ ih =>
    intro hg hi hs st' e
    exact ih (good_exec hg (hs _ (by simp)) hx) (idle_exec hg hi (hs _ (by simp)) hx) (fun x hx => hs x (by simp [hx])) st' e
  | crash => intro _ _ _ st' e; cases e

/-- C58 (partial): after any such program, every label defined by `EQU` has the value of its expression in the final symbol table, with everything
the expression refers to defined; unless the expression refers to something that was never defined, in which case the label is undefined, or
the definition was cyclic when it was read, in which case it is 0. Missing: attributes, products, storage of unknown length (see
`C58_witness_offset`). -/
theorem C58_program_partial (env : Env) (xs ys : List SymStmt) (n : SymId) (s : Sym) (e : MExpr) (hs : ∀ x ∈ xs ++ .equ n s e :: ys, x.Simple)
    (st st1 st2 : SymSt) (h1 : ExecAll (.init env) xs (.ok st)) (hn : st.tab n = none) (h2 : Exec st (.equ n s e) (.ok st1)) (h3 : ExecAll st1 ys (.ok st2)) :
    ((∀ m ∈ e.symRefs, st2.tab.value m ≠ .undef) ∧ ∀ H, st2.tab.value n = e.resolve H st2.tab) ∨
    ((∃ m ∈ e.symRefs, st2.tab.value m = .undef) ∧ st2.tab.value n = .undef) ∨
    ((∃ m ∈ e.symRefs, m = n ∨ st.tab.value m = .undef ∧ st.Reach m n) ∧ st2.tab.value n = .abs 0) := by
  have hxs : ∀ x ∈ xs, x.Simple := fun x hx => hs x (by simp [hx])
  have hys : ∀ x ∈ ys, x.Simple := fun x hx => hs x (by simp [hx])
  have hequ : (SymStmt.equ n s e).Simple := hs _ (by simp)
  have he : e.Simple := by cases hequ with | equ _ _ _ h => exact h
  have hg := good_all h1 (good_init env) hxs st rfl
  have hg1 := good_exec hg hequ h2
  have hg2 := good_all h3 hg1 hys st2 rfl
  have fin : (.sym n, e) ∈ st1.deps ∨ Done n e st1 → ((∀ m ∈ e.symRefs, st2.tab.value m ≠ .undef) ∧ ∀ H, st2.tab.value n = e.resolve H st2.tab) ∨
      ((∃ m ∈ e.symRefs, st2.tab.value m = .undef) ∧ st2.tab.value n = .undef) := by
    intro h
    rcases kept_all h3 hg1 hys st2 rfl n e h with h | h
    · right
      obtain ⟨n', s', hn', hs', hv', _⟩ := hg2.target _ h
      injection hn' with hn'; subst hn'
      refine ⟨idle_all h3 hg1 (idle_exec hg (idle_all h1 (good_init env) (by simp [SymSt.Idle, SymSt.init]) hxs st rfl) hequ h2) hys st2 rfl _ h, ?_⟩
      rw [Table.value, hs']; exact hv'
    · exact .inl ⟨h.1.1, h.2⟩
  rcases equ_outcome hg he hn h2 with h | h | ⟨h, hz⟩
  · rcases fin (.inl h) with h | h
    · exact .inl h
    · exact .inr (.inl h)
  · rcases fin (.inr h) with h | h
    · exact .inl h
    · exact .inr (.inl h)
  · refine .inr (.inr ⟨h, ?_⟩)
    rw [value_ext (execAll_ext h3 st2 rfl) (by rw [hz]; simp), hz]

/-- C58: whatever the expression (0 stands for an undefined one, such as a product of addresses), when it depends on nothing the label gets its value at once. -/
theorem C58_now (st st' : SymSt) (n : SymId) (s : Sym) (e : MExpr) (hn : st.tab n = none) (hc : (e.collect st.env st.tab).contains st.env = false)
    (h : Exec st (.equ n s e) (.ok st')) :
    st'.tab.value n = (if e.eval st.env.heap st.tab = .undef then .abs 0 else e.eval st.env.heap st.tab) := by
  have hres : (if e.eval st.env.heap st.tab = .undef then .abs 0 else e.eval st.env.heap st.tab) = e.resolve st.env.heap st.tab := by
    unfold MExpr.resolve
    split <;> rename_i h0
    · rw [h0]
    · split
      · rename_i h1; exact absurd h1 h0
      · rfl
  rw [hres]
  have hne := resolve_ne (H := st.env.heap) (T := st.tab) e
  have key : ∀ {st'}, Create st n { s with val := e.resolve st.env.heap st.tab } (.ok st') → st'.tab.value n = e.resolve st.env.heap st.tab := by
    intro st' hcr
    cases hcr with
    | pending _ hv => exact absurd hv hne
    | defined _ _ _ hr =>
      have hx : Ext (st.tab.set n { s with val := e.resolve st.env.heap st.tab }) st'.tab := resolves_ext hr st' rfl
      have hv : (st.tab.set n { s with val := e.resolve st.env.heap st.tab }).value n = e.resolve st.env.heap st.tab := by rw [set_value, if_pos rfl]
      rw [value_ext hx (by rw [hv]; exact hne), hv]
  cases h with
  | equDup hd => exact absurd hn hd
  | equNow _ _ hcr => exact key hcr
  | equAddr _ h => rw [hc] at h; cases h
  | equLater _ h => rw [hc] at h; cases h

/-- C58: for sums and differences, with attributes: "depends on nothing" means that everything the expression refers to is known. -/
theorem C58_known (E : Env) (T : Table) (e : MExpr) (hl : e.Linear = true) (h : (e.collect E T).contains E = false) :
    (∀ n ∈ e.symRefs, T.value n ≠ .undef) ∧ ∀ x ∈ e.attrRefs, ∃ s, T x.2 = some s ∧ s.hasAttr x.1 = true := by
  obtain ⟨h1, h2⟩ := collect_refs (E := E) e (linear_quiet E T e hl)
  unfold Coll.contains at h
  simp only [Bool.or_eq_false_iff] at h
  have hsyms : (e.collect E T).syms = [] := by simpa using h.1.1.1
  have hattrs : (e.collect E T).attrs = [] := by simpa using h.1.1.2
  constructor
  · intro n hn hv
    have := (h1 n).2 ⟨hn, hv⟩
    rw [hsyms] at this; simp at this
  · intro x hx
    by_cases hh : T.HasAttr x.1 x.2
    · exact hh
    · have := (h2 x).2 ⟨hx, hh⟩
      rw [hattrs] at this; simp at this

/-- What a sum or difference is worth, as a number. -/
def MExpr.num (σ : SymId → Int) : MExpr → Int
  | .const v => v
  | .sym n => σ n
  | .par e => e.num σ
  | .neg e => - e.num σ
  | .add l r => l.num σ + r.num σ
  | .sub l r => l.num σ - r.num σ
  | _ => 0

/-- Numbers and symbols only. -/
def MExpr.Pure : MExpr → Bool
  | .const _ => true
  | .sym _ => true
  | .par e => e.Pure
  | .neg e => e.Pure
  | .add l r => l.Pure && r.Pure
  | .sub l r => l.Pure && r.Pure
  | _ => false

theorem pure_eval {T : Table} (H : Heap) (σ : SymId → Int) (e : MExpr) (hp : e.Pure = true) (hσ : ∀ m ∈ e.symRefs, T.value m = .abs (σ m)) :
    e.eval H T = .ub ∨ e.eval H T = .abs (e.num σ) := by
  induction e with
  | const v => exact .inr rfl
  | sym n => exact .inr (hσ n (by simp [MExpr.symRefs]))
  | par e ih => exact ih hp hσ
  | neg e ih =>
    rcases ih hp hσ with h | h
    · left; simp only [MExpr.eval, h]; rfl
    · simp only [MExpr.eval, h, SVal.neg, MExpr.num, int32]
      split
      · exact .inr rfl
      · exact .inl rfl
  | add l r ihl ihr =>
    simp only [MExpr.Pure, Bool.and_eq_true] at hp
    rcases ihl hp.1 (fun m hm => hσ m (by simp [MExpr.symRefs, hm])) with h | h
    · left; simp only [MExpr.eval, h]; cases r.eval H T <;> rfl
    · rcases ihr hp.2 (fun m hm => hσ m (by simp [MExpr.symRefs, hm])) with h' | h'
      · left; simp only [MExpr.eval, h, h']; rfl
      · simp only [MExpr.eval, h, h', SVal.add, MExpr.num, int32]
        split
        · exact .inr rfl
        · exact .inl rfl
  | sub l r ihl ihr =>
    simp only [MExpr.Pure, Bool.and_eq_true] at hp
    rcases ihl hp.1 (fun m hm => hσ m (by simp [MExpr.symRefs, hm])) with h | h
    · left; simp only [MExpr.eval, h]; cases r.eval H T <;> rfl
    · rcases ihr hp.2 (fun m hm => hσ m (by simp [MExpr.symRefs, hm])) with h' | h'
      · left; simp only [MExpr.eval, h, h']; rfl
      · simp only [MExpr.eval, h, h', SVal.sub, MExpr.num, int32]
        split
        · exact .inr rfl
        · exact .inl rfl
  | attr => cases hp
  | loc => cases hp
  | dflt => cases hp
  | mul => cases hp
  | div => cases hp

/-- C58 (partial): the same in numbers: if in the end all symbols in `e` are the absolute numbers `σ`, the label is the number the expression is
worth, unless the 32-bit arithmetic overflowed (undefined in C++) or the definition was cyclic. -/
theorem C58_number_partial (env : Env) (xs ys : List SymStmt) (n : SymId) (s : Sym) (e : MExpr) (hs : ∀ x ∈ xs ++ .equ n s e :: ys, x.Simple)
    (hp : e.Pure = true) (st st1 st2 : SymSt) (h1 : ExecAll (.init env) xs (.ok st)) (hn : st.tab n = none) (h2 : Exec st (.equ n s e) (.ok st1))
    (h3 : ExecAll st1 ys (.ok st2)) (σ : SymId → Int) (hσ : ∀ m ∈ e.symRefs, st2.tab.value m = .abs (σ m))
    (hc : ∀ m ∈ e.symRefs, m ≠ n ∧ (st.tab.value m = .undef → ¬ st.Reach m n)) :
    st2.tab.value n = .abs (e.num σ) ∨ st2.tab.value n = .ub := by
  rcases C58_program_partial env xs ys n s e hs st st1 st2 h1 hn h2 h3 with ⟨_, hv⟩ | ⟨⟨m, hm, hv⟩, _⟩ | ⟨⟨m, hm, hv⟩, _⟩
  · rw [hv Heap.fresh]
    unfold MExpr.resolve
    rcases pure_eval Heap.fresh σ e hp hσ with h | h <;> rw [h] <;> simp
  · rw [hσ m hm] at hv; cases hv
  · rcases hv with hv | ⟨hv, hr⟩
    · exact absurd hv (hc m hm).1
    · exact absurd hr ((hc m hm).2 hv)

/-- Non-vacuity: `A EQU B-C`, `B EQU C+1`, `C EQU 5` is such a program. -/
example : ∀ x ∈ [SymStmt.equ 0 (equSym .undef) (.sub (.sym 1) (.sym 2)), .equ 1 (equSym .undef) (.add (.sym 2) (.const 1)), .equ 2 (equSym .undef) (.const 5)], x.Simple := by
  intro x hx
  simp at hx
  rcases hx with rfl | rfl | rfl <;> exact .equ _ _ _ ⟨rfl, rfl, by simp [MExpr.locs]⟩

/-- `X`, an address in section 7 behind the unresolved space 1. -/
def symX : Sym := ⟨.reloc ⟨[(some 7, 1)], 0, [(1, 1)]⟩, 228, some 1, none, 0, false⟩

/-- Violation: `A EQU X+4` where `X` lies behind storage whose length is not known yet: `A` gets the address of `X`, the 4 is lost for ever. -/
theorem C58_witness_offset : ∃ st, ExecAll (.init .plain) [.label 0 symX, .equ 1 (equSym .undef) (.add (.sym 0) (.const 4))] (.ok st) ∧
    st.tab.value 1 = st.tab.value 0 ∧ (MExpr.add (.sym 0) (.const 4)).resolve st.env.heap st.tab = .reloc ⟨[(some 7, 1)], 4, [(1, 1)]⟩ ∧
    st.tab.value 0 = .reloc ⟨[(some 7, 1)], 0, [(1, 1)]⟩ ∧ st.deps = [] := by
  refine ⟨⟨.plain, Table.set (Table.set (fun _ => none) 0 symX) 1 (equSym symX.val), [], []⟩, ?_, rfl, by decide +kernel, rfl, rfl⟩
  refine .cons (.label rfl (.defined (env := .plain) (sps := []) rfl (by decide) (fun _ => ⟨rfl, rfl⟩) (resolves_nil rfl))) ?_
  refine .cons (.equAddr (a := ⟨[(some 7, 1)], 0, [(1, 1)]⟩) rfl (by decide +kernel) (by decide +kernel) (by decide +kernel)
    (.defined (env := .plain) (sps := []) rfl (by simp) (fun _ => ⟨rfl, rfl⟩) (resolves_nil rfl))) .nil

/-- Violation: `A EQU X+L'B` likewise: the length of `B`, not known yet, is never added. -/
theorem C58_witness_attribute : ∃ st, ExecAll (.init .plain) [.label 0 symX, .equ 1 (equSym .undef) (.add (.sym 0) (.attr .L 2))] (.ok st) ∧
    st.tab.value 1 = st.tab.value 0 ∧ st.deps = [] := by
  refine ⟨⟨.plain, Table.set (Table.set (fun _ => none) 0 symX) 1 (equSym symX.val), [], []⟩, ?_, rfl, rfl⟩
  refine .cons (.label rfl (.defined (env := .plain) (sps := []) rfl (by decide) (fun _ => ⟨rfl, rfl⟩) (resolves_nil rfl))) ?_
  exact .cons (.equAddr (a := ⟨[(some 7, 1)], 0, [(1, 1)]⟩) rfl (by decide +kernel) (by decide +kernel) (by decide +kernel)
    (.defined (env := .plain) (sps := []) rfl (by simp) (fun _ => ⟨rfl, rfl⟩) (resolves_nil rfl))) .nil

end Verif.Ord
