import Verif.Context.Ids
import Mathlib.Data.List.Nodup
/-!
C30: identifiers are equal exactly when their upper-cased spellings are; they stay valid.
-/
namespace Verif.Context

theorem insert_prefix (s : IdStorage) (v : Bytes) : ∃ t, (s.insert v).1.nodes = s.nodes ++ t := by
  unfold IdStorage.insert
  split
  · exact ⟨[], by simp⟩
  · exact ⟨[v], rfl⟩

theorem add_prefix (s : IdStorage) (v : Bytes) (u : Bool) : ∃ t, (s.add v u).1.nodes = s.nodes ++ t := by
  unfold IdStorage.add
  split
  · exact ⟨[], by simp⟩
  · exact insert_prefix _ _

theorem run_prefix (ops : List (Bytes × Bool)) : ∀ s : IdStorage, ∃ t, (s.run ops).nodes = s.nodes ++ t := by
  induction ops with
  | nil => intro s; exact ⟨[], by simp [IdStorage.run]⟩
  | cons op ops ih =>
    intro s
    obtain ⟨t, ht⟩ := add_prefix s op.1 op.2
    obtain ⟨t', ht'⟩ := ih (s.add op.1 op.2).1
    exact ⟨t ++ t', by rw [← List.append_assoc, ← ht]; exact ht'⟩

theorem insert_nodup (s : IdStorage) (v : Bytes) (h : s.nodes.Nodup) : (s.insert v).1.nodes.Nodup := by
  unfold IdStorage.insert
  split
  · exact h
  · next hl =>
    rw [List.nodup_append]
    refine ⟨h, by simp, ?_⟩
    rintro a ha b hb rfl
    simp at hb; subst hb
    simp [IdStorage.lookup] at hl
    exact hl ha

theorem add_nodup (s : IdStorage) (v : Bytes) (u : Bool) (h : s.nodes.Nodup) : (s.add v u).1.nodes.Nodup := by
  unfold IdStorage.add
  split
  · exact h
  · exact insert_nodup _ _ h

theorem run_nodup (ops : List (Bytes × Bool)) : ∀ s : IdStorage, s.nodes.Nodup → (s.run ops).nodes.Nodup := by
  induction ops with
  | nil => intro s h; exact h
  | cons op ops ih => intro s h; exact ih _ (add_nodup s op.1 op.2 h)

theorem init_nodup : IdStorage.init.nodes.Nodup := by decide +kernel

theorem insert_deref (s : IdStorage) (v : Bytes) : (s.insert v).1.deref (s.insert v).2 = some v := by
  unfold IdStorage.insert
  cases h : s.lookup v with
  | some k =>
    simp only [IdStorage.deref]
    simp only [IdStorage.lookup, List.idxOf?, List.findIdx?_eq_some_iff_getElem] at h
    obtain ⟨h1, h2, _⟩ := h
    rw [List.getElem?_eq_getElem h1]
    simpa using h2
  | none => simp [IdStorage.deref]

/-- An identifier that is valid keeps its name. -/
theorem deref_run (ops : List (Bytes × Bool)) (s : IdStorage) (p : Id) (v : Bytes) (h : s.deref p = some v) :
    (s.run ops).deref p = some v := by
  obtain ⟨t, ht⟩ := run_prefix ops s
  cases p with
  | empty => exact h
  | node k =>
    simp only [IdStorage.deref] at *
    rw [ht]
    rw [List.getElem?_eq_some_iff] at h
    obtain ⟨h1, h2⟩ := h
    rw [List.getElem?_append_left h1, List.getElem?_eq_getElem h1, h2]

theorem add_deref (s : IdStorage) (v : Bytes) : (s.add v false).1.deref (s.add v false).2 = some (up v) := by
  unfold IdStorage.add
  split
  · next h => rw [List.isEmpty_iff] at h; subst h; rfl
  · exact insert_deref _ _

theorem up_empty (v : Bytes) : up v = [] ↔ v = [] := by simp [up]

theorem add_empty (s : IdStorage) (v : Bytes) : (s.add v false).2 = .empty ↔ v = [] := by
  unfold IdStorage.add
  split
  · next h => simpa using h
  · next h =>
    have : (s.insert (if false then v else up v)).2 ≠ .empty := by
      unfold IdStorage.insert; split <;> simp
    simp only [Bool.false_eq_true, if_false] at this ⊢
    simp [this] 
    simpa using h

/-- Two valid node identifiers with the same name are the same. -/
theorem node_inj (s : IdStorage) (h : s.nodes.Nodup) (j k : Nat) (v : Bytes) (hj : s.nodes[j]? = some v) (hk : s.nodes[k]? = some v) :
    j = k := by
  rw [List.getElem?_eq_some_iff] at hj hk
  obtain ⟨h1, h2⟩ := hj
  obtain ⟨h3, h4⟩ := hk
  exact (List.Nodup.getElem_inj_iff h).mp (h2.trans h4.symm)

/-- C30: in every history of insertions, the identifiers obtained for two spellings are the same exactly when the spellings are
equal after upper-casing, and the first one still denotes its name. -/
theorem C30_same_iff (before between : List (Bytes × Bool)) (v w : Bytes) :
    let s0 := IdStorage.init.run before
    let s1 := (s0.add v false).1
    let p := (s0.add v false).2
    let s2 := s1.run between
    let s3 := (s2.add w false).1
    let q := (s2.add w false).2
    (p = q ↔ up v = up w) ∧ s3.deref p = some (up v) ∧ s3.deref q = some (up w) := by
  intro s0 s1 p s2 s3 q
  have n0 : s0.nodes.Nodup := run_nodup _ _ init_nodup
  have n2 : s2.nodes.Nodup := run_nodup _ _ (add_nodup _ _ _ n0)
  have n3 : s3.nodes.Nodup := add_nodup _ _ _ n2
  have d3 : s3.deref q = some (up w) := add_deref s2 w
  have e3 : s3 = s1.run (between ++ [(w, false)]) := by
    show (s2.add w false).1 = _
    simp [IdStorage.run, s2]
  have d1 : s3.deref p = some (up v) := by
    rw [e3]; exact deref_run _ s1 p _ (add_deref s0 v)
  refine ⟨⟨?_, ?_⟩, d1, d3⟩
  · intro h; rw [h] at d1; rw [d1] at d3; simpa using d3
  · intro h
    cases hp : p with
    | empty =>
      have : v = [] := (add_empty s0 v).mp hp
      subst this
      have : w = [] := (up_empty w).mp (h ▸ rfl)
      subst this
      have : q = .empty := (add_empty s2 []).mpr rfl
      exact this.symm
    | node j =>
      cases hq : q with
      | empty =>
        have : w = [] := (add_empty s2 w).mp hq
        subst this
        have : v = [] := (up_empty v).mp (h ▸ rfl)
        subst this
        have : p = .empty := (add_empty s0 []).mpr rfl
        rw [hp] at this; simp at this
      | node k =>
        rw [hp] at d1; rw [hq, ← h] at d3
        simp only [IdStorage.deref] at d1 d3
        rw [node_inj s3 n3 j k _ d1 d3]

/-- C30: looking a spelling up finds exactly the identifier that was issued for an equal spelling. -/
theorem C30_find (before between : List (Bytes × Bool)) (v w : Bytes) :
    let s0 := IdStorage.init.run before
    let p := (s0.add v false).2
    let s2 := (s0.add v false).1.run between
    s2.find w = some p ↔ up v = up w := by
  intro s0 p s2
  have key := (C30_same_iff before between v w).1
  rw [← key]
  show s2.find w = some p ↔ p = (s2.add w false).2
  have valid : s2.deref p = some (up v) := deref_run _ _ p _ (add_deref s0 v)
  unfold IdStorage.find IdStorage.add
  by_cases hw : w = []
  · subst hw; simp [up, eq_comm]
  · have hw' : (up w).isEmpty = false := by
      cases h : up w with
      | nil => exact absurd ((up_empty w).mp h) hw
      | cons => rfl
    have hw'' : w.isEmpty = false := by cases w <;> simp_all
    simp only [hw', hw'', Bool.false_eq_true, if_false]
    unfold IdStorage.insert
    cases hl : s2.lookup (up w) with
    | some k => simp [eq_comm]
    | none =>
      simp only [Option.map_none, reduceCtorEq, false_iff]
      intro h
      rw [h] at valid
      simp [IdStorage.deref] at valid

/-- C30: a spelling that was never added (ignoring case) is not found. -/
theorem C30_not_found (ops : List (Bytes × Bool)) (w : Bytes) (hne : w ≠ []) (hw : up w ∉ wellKnown)
    (h : ∀ op ∈ ops, (if op.2 then op.1 else up op.1) ≠ up w) : (IdStorage.init.run ops).find w = none := by
  have gen : ∀ (ops : List (Bytes × Bool)) (s : IdStorage), up w ∉ s.nodes →
      (∀ op ∈ ops, (if op.2 then op.1 else up op.1) ≠ up w) → up w ∉ (s.run ops).nodes := by
    intro ops
    induction ops with
    | nil => intro s hs _; exact hs
    | cons op ops ih =>
      intro s hs ho
      refine ih (s.add op.1 op.2).1 ?_ (fun o h => ho o (by simp [h]))
      unfold IdStorage.add
      split
      · exact hs
      · unfold IdStorage.insert
        split
        · exact hs
        · simp only [List.mem_append, List.mem_singleton, not_or]
          exact ⟨hs, fun e => ho op (by simp) e.symm⟩
  have h0 : up w ∉ IdStorage.init.nodes := by
    have : IdStorage.init.nodes = wellKnown := by decide +kernel
    rw [this]; exact hw
  have := gen ops _ h0 h
  unfold IdStorage.find
  have hw' : (up w).isEmpty = false := by
    cases e : up w with
    | nil => exact absurd ((up_empty w).mp e) hne
    | cons => rfl
  simp only [hw', Bool.false_eq_true, if_false, Option.map_eq_none_iff, IdStorage.lookup]
  simpa using this

/-- Violation: the storage holds a second identifier for the empty name, different from the one `add("")` issues. -/
theorem C30_witness_empty : IdStorage.init.deref wellKnownEmpty = some [] ∧ (IdStorage.init.add [] false).2 ≠ wellKnownEmpty ∧
    IdStorage.init.deref (IdStorage.init.add [] false).2 = some [] := by decide +kernel

/-- Non-vacuity: `aB` and `Ab` are one identifier, `ac` is another. -/
example : let s := IdStorage.init.run []
    let (s1, p) := s.add [97, 66] false
    let (s2, q) := (s1.run [([120], false)]).add [65, 98] false
    p = q ∧ (s2.add [97, 99] false).2 ≠ p := by decide +kernel

/-- C30: letter case is the difference between a–z and A–Z, of no other byte. -/
theorem C30_case : up "abcdefghijklmnopqrstuvwxyz".toUTF8.toList = "ABCDEFGHIJKLMNOPQRSTUVWXYZ".toUTF8.toList ∧
    ∀ c : UInt8, c ∉ "abcdefghijklmnopqrstuvwxyz".toUTF8.toList → up [c] = [c] := by
  refine ⟨by decide +kernel, ?_⟩
  intro c h
  have := forall_byte (fun c => c ∉ "abcdefghijklmnopqrstuvwxyz".toUTF8.toList → up [c] = [c]) (by decide +kernel)
  exact this c h

end Verif.Context
