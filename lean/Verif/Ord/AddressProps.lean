import Verif.Ord.Address
import Mathlib.Tactic.Ring
import Mathlib.Algebra.BigOperators.Group.List.Basic
/-!
C50: address arithmetic is linear.

The specification: under an assignment of values to sections (`β`) and of lengths to the spaces that are still unknown (`σ`), an address
denotes the number `Addr.val`. A resolved space stands for its length plus the spaces it was replaced by, each as often as its count says.
-/
namespace Verif.Ord

/-- The value of a list of entries with counts. -/
def wsum {κ : Type} (f : κ → Int) (l : List (κ × Int)) : Int := (l.map fun e => e.2 * f e.1).sum

/-- The length of a space. -/
def Heap.val (H : Heap) (σ : SpId → Int) (i : SpId) : Int :=
  match h : H.info i with
  | none => σ i
  | some s => s.len + (s.ptrs.attach.map fun p => p.1.2 * H.val σ p.1.1).sum
termination_by H.rank i
decreasing_by exact H.dec i s h p.1 p.2

/-- The number an address denotes. -/
def Addr.val (H : Heap) (β : Base → Int) (σ : SpId → Int) (a : Addr) : Int := a.off + wsum β a.bases + wsum (H.val σ) a.spaces

/-- The counts of resolved spaces are 1, also within resolved spaces. -/
inductive Plain (H : Heap) : SpId × Int → Prop
  | unknown {e} : H.info e.1 = none → Plain H e
  | known {i s} : H.info i = some s → (∀ p ∈ s.ptrs, Plain H p) → Plain H (i, 1)

def Addr.Plain (H : Heap) (a : Addr) : Prop := ∀ e ∈ a.spaces, Ord.Plain H e

@[simp] theorem wsum_nil {κ} (f : κ → Int) : wsum f [] = 0 := rfl
@[simp] theorem wsum_cons {κ} (f : κ → Int) (e : κ × Int) (l) : wsum f (e :: l) = e.2 * f e.1 + wsum f l := by simp [wsum]
theorem wsum_append {κ} (f : κ → Int) (l r : List (κ × Int)) : wsum f (l ++ r) = wsum f l + wsum f r := by simp [wsum]

theorem offset_unknown {H : Heap} {i} (h : H.info i = none) : H.offset i = 0 := by rw [Heap.offset.eq_def]; split <;> simp_all
theorem offset_known {H : Heap} {i s} (h : H.info i = some s) : H.offset i = s.len + (s.ptrs.map fun p => H.offset p.1).sum := by
  rw [Heap.offset.eq_def]; split
  · simp_all
  · rename_i s' h'
    rw [h] at h'; cases h'
    conv_rhs => rw [← List.attach_map_subtype_val s.ptrs, List.map_map]
    rfl
theorem val_unknown {H : Heap} {σ i} (h : H.info i = none) : H.val σ i = σ i := by rw [Heap.val.eq_def]; split <;> simp_all
theorem val_known {H : Heap} {σ i s} (h : H.info i = some s) : H.val σ i = s.len + wsum (H.val σ) s.ptrs := by
  rw [Heap.val.eq_def]; split
  · simp_all
  · rename_i s' h'
    rw [h] at h'; cases h'
    unfold wsum
    conv_rhs => rw [← List.attach_map_subtype_val s.ptrs, List.map_map]
    rfl
theorem flat_unknown {H : Heap} {e : SpId × Int} (h : H.info e.1 = none) : H.flat e = [e] := by rw [Heap.flat.eq_def]; split <;> simp_all
theorem flat_known {H : Heap} {e : SpId × Int} {s} (h : H.info e.1 = some s) : H.flat e = s.ptrs.flatMap H.flat := by
  rw [Heap.flat.eq_def]; split
  · simp_all
  · rename_i s' h'
    rw [h] at h'; cases h'
    simp

theorem plain_val {H : Heap} (σ : SpId → Int) {e : SpId × Int} (h : Plain H e) : e.2 * H.val σ e.1 = H.offset e.1 + wsum σ (H.flat e) := by
  induction h with
  | unknown h => rw [offset_unknown h, val_unknown h, flat_unknown h]; simp
  | @known i s h hp ih =>
    rw [offset_known h, val_known h, flat_known (e := (i, 1)) h]
    have : ∀ l : List (SpId × Int), (∀ p ∈ l, p.2 * H.val σ p.1 = H.offset p.1 + wsum σ (H.flat p)) →
        wsum (H.val σ) l = (l.map fun p => H.offset p.1).sum + wsum σ (l.flatMap H.flat) := by
      intro l
      induction l with
      | nil => simp
      | cons p l ihl =>
        intro hl
        rw [wsum_cons, hl p (by simp), ihl (fun q hq => hl q (by simp [hq])), List.flatMap_cons, wsum_append, List.map_cons, List.sum_cons]
        ring
    rw [this s.ptrs (fun p hp => ih p hp)]
    simp; ring

theorem wsum_insert (σ : SpId → Int) (l : List (SpId × Int)) (e : SpId × Int) : wsum σ (insertEntry l e) = wsum σ l + e.2 * σ e.1 := by
  induction l with
  | nil => simp [insertEntry]
  | cons x l ih =>
    unfold insertEntry
    split
    · rename_i h; simp only [wsum_cons, h]; ring
    · rw [wsum_cons, ih, wsum_cons]; ring

theorem wsum_filter {κ : Type} (f : κ → Int) (l : List (κ × Int)) : wsum f (l.filter (·.2 ≠ 0)) = wsum f l := by
  induction l with
  | nil => rfl
  | cons e l ih =>
    rw [List.filter_cons]
    split
    · rw [wsum_cons, ih, wsum_cons]
    · rename_i h
      have : e.2 = 0 := by simpa using h
      rw [ih, wsum_cons, this]; ring

theorem wsum_foldl_insert (σ : SpId → Int) (l acc : List (SpId × Int)) : wsum σ (l.foldl insertEntry acc) = wsum σ acc + wsum σ l := by
  induction l generalizing acc with
  | nil => simp
  | cons e l ih => rw [List.foldl_cons, ih, wsum_insert, wsum_cons]; ring

theorem wsum_norm (H : Heap) (σ : SpId → Int) (l : List (SpId × Int)) : wsum σ (H.norm l) = wsum σ (l.flatMap H.flat) := by
  unfold Heap.norm
  rw [wsum_filter, wsum_foldl_insert]; simp

theorem norm_unknown (H : Heap) (l : List (SpId × Int)) : ∀ e ∈ H.norm l, H.info e.1 = none := by
  have hf : ∀ e : SpId × Int, ∀ x ∈ H.flat e, H.info x.1 = none := by
    intro e
    induction hn : H.rank e.1 using Nat.strongRecOn generalizing e with
    | _ n ih =>
      intro x hx
      cases h : H.info e.1 with
      | none => rw [flat_unknown h] at hx; simp at hx; rw [hx]; exact h
      | some s =>
        rw [flat_known h, List.mem_flatMap] at hx
        obtain ⟨p, hp, hx⟩ := hx
        exact ih _ (hn ▸ H.dec _ _ h p hp) p rfl x hx
  have hi : ∀ (l acc : List (SpId × Int)), (∀ e ∈ l, H.info e.1 = none) → (∀ e ∈ acc, H.info e.1 = none) →
      ∀ e ∈ l.foldl insertEntry acc, H.info e.1 = none := by
    intro l
    induction l with
    | nil => intro acc _ h; exact h
    | cons x l ihl =>
      intro acc hl hacc
      refine ihl _ (fun e he => hl e (by simp [he])) ?_
      have hx := hl x (by simp)
      clear ihl hl
      induction acc with
      | nil => intro e he; simp [insertEntry] at he; rw [he]; exact hx
      | cons y acc ih =>
        intro e he
        unfold insertEntry at he
        split at he
        · rw [List.mem_cons] at he
          rcases he with rfl | he
          · exact hacc y (by simp)
          · exact hacc e (by simp [he])
        · rw [List.mem_cons] at he
          rcases he with rfl | he
          · exact hacc _ (by simp)
          · exact ih (fun e he => hacc e (by simp [he])) e he
  intro e he
  unfold Heap.norm at he
  rw [List.mem_filter] at he
  refine hi _ [] ?_ (by simp) e he.1
  intro x hx
  rw [List.mem_flatMap] at hx
  obtain ⟨y, _, hx⟩ := hx
  exact hf y x hx

/-- Reading an address through `offset` and `normalized_spaces` gives its value. -/
theorem val_eq {H : Heap} {a : Addr} (β σ) (h : a.Plain H) : a.val H β σ = a.offset H + wsum β a.bases + wsum σ (a.norm H) := by
  unfold Addr.val Addr.offset Addr.norm
  rw [wsum_norm]
  have : ∀ l : List (SpId × Int), (∀ e ∈ l, Plain H e) →
      wsum (H.val σ) l = (l.map fun e => H.offset e.1).sum + wsum σ (l.flatMap H.flat) := by
    intro l
    induction l with
    | nil => simp
    | cons p l ihl =>
      intro hl
      rw [wsum_cons, plain_val σ (hl p (by simp)), ihl (fun q hq => hl q (by simp [hq])), List.flatMap_cons, wsum_append, List.map_cons,
        List.sum_cons]
      ring
  rw [this _ h]; ring

theorem wsum_val_unknown {H : Heap} {σ} (l : List (SpId × Int)) (h : ∀ e ∈ l, H.info e.1 = none) : wsum (H.val σ) l = wsum σ l := by
  induction l with
  | nil => rfl
  | cons e l ih => rw [wsum_cons, wsum_cons, ih (fun x hx => h x (by simp [hx])), val_unknown (h e (by simp))]

theorem wsum_eraseP {κ : Type} [DecidableEq κ] (f : κ → Int) (r : List (κ × Int)) (k : κ) (x : κ × Int) (h : r.find? (·.1 = k) = some x) :
    wsum f r = x.2 * f k + wsum f (r.eraseP (·.1 = k)) := by
  induction r with
  | nil => simp at h
  | cons y r ih =>
    rw [List.find?_cons] at h
    rw [List.eraseP_cons]
    split at h
    · rename_i hy
      have hyx : y = x := by simpa using h
      subst hyx
      have : y.1 = k := by simpa using hy
      simp [this]
    · rename_i hy
      simp only [hy, cond_false]
      rw [wsum_cons, wsum_cons, ih h]
      ring

theorem wsum_merge_add {κ : Type} [DecidableEq κ] (f : κ → Int) (l r : List (κ × Int)) : wsum f (merge .add l r) = wsum f l + wsum f r := by
  induction l generalizing r with
  | nil => simp [merge, AOp.rest]
  | cons e l ih =>
    unfold merge
    split
    · rename_i x hx
      rw [wsum_append, ih, wsum_cons, wsum_eraseP f r e.1 x hx]
      have : wsum f (if AOp.add.count e.2 x.2 ≠ 0 then [(e.1, AOp.add.count e.2 x.2)] else []) = (x.2 + e.2) * f e.1 := by
        split
        · simp [AOp.count]
        · rename_i h; have h : x.2 + e.2 = 0 := by simpa [AOp.count] using h
          rw [h]; simp
      rw [this]; ring
    · rw [wsum_cons, ih, wsum_cons]; ring

/-- Shared keys have equal counts. -/
def Agree {κ : Type} (l r : List (κ × Int)) : Prop := ∀ x ∈ l, ∀ y ∈ r, x.1 = y.1 → x.2 = y.2

theorem wsum_rest_sub {κ : Type} (f : κ → Int) (r : List (κ × Int)) : wsum f (AOp.sub.rest r) = - wsum f r := by
  induction r with
  | nil => rfl
  | cons e r ih =>
    have : AOp.sub.rest (e :: r) = (e.1, e.2 * -1) :: AOp.sub.rest r := rfl
    rw [this, wsum_cons, ih, wsum_cons]; ring

theorem wsum_merge_sub {κ : Type} [DecidableEq κ] (f : κ → Int) (l r : List (κ × Int)) (h : Agree l r) :
    wsum f (merge .sub l r) = wsum f l - wsum f r := by
  induction l generalizing r with
  | nil => simp [merge, wsum_rest_sub]
  | cons e l ih =>
    unfold merge
    split
    · rename_i x hx
      have hx1 : x.1 = e.1 := by simpa using List.find?_some hx
      have he : e.2 = x.2 := h e (by simp) x (List.mem_of_find?_eq_some hx) hx1.symm
      rw [wsum_append, ih, wsum_cons, wsum_eraseP f r e.1 x hx]
      · have : AOp.sub.count e.2 x.2 = 0 := by simp [AOp.count, he]
        rw [this]
        simp [he]
      · intro y hy z hz
        exact h y (by simp [hy]) z (List.mem_of_mem_eraseP hz)
    · rw [wsum_cons, ih, wsum_cons]
      · ring
      · intro y hy z hz; exact h y (by simp [hy]) z hz

/-- C50 (partial): the sum denotes the sum, for all values of sections and spaces. Missing: resolved spaces with a count other than 1, see
`C50_witness_count`. -/
theorem C50_add_partial (H : Heap) (a b : Addr) (ha : a.Plain H) (hb : b.Plain H) (β : Base → Int) (σ : SpId → Int) :
    (a.add H b).val H β σ = a.val H β σ + b.val H β σ := by
  rw [val_eq β σ ha, val_eq β σ hb]
  unfold Addr.add Addr.val
  simp only
  rw [wsum_val_unknown, wsum_merge_add, wsum_merge_add]
  · ring
  · intro e he
    have hm : ∀ (l r : List (SpId × Int)), (∀ e ∈ l, H.info e.1 = none) → (∀ e ∈ r, H.info e.1 = none) → ∀ e ∈ merge .add l r, H.info e.1 = none := by
      intro l
      induction l with
      | nil => intro r _ hr; simpa [merge, AOp.rest] using hr
      | cons x l ih =>
        intro r hl hr
        unfold merge
        split
        · intro e he
          rw [List.mem_append] at he
          rcases he with he | he
          · split at he
            · simp at he; rw [he]; exact hl x (by simp)
            · simp at he
          · exact ih _ (fun e he => hl e (by simp [he])) (fun e he => hr e (List.mem_of_mem_eraseP he)) e he
        · intro e he
          rw [List.mem_cons] at he
          rcases he with rfl | he
          · exact hl _ (by simp)
          · exact ih _ (fun e he => hl e (by simp [he])) hr e he
    exact hm _ _ (norm_unknown H _) (norm_unknown H _) e he

theorem merge_sub_unknown (H : Heap) (l r : List (SpId × Int)) (hl : ∀ e ∈ l, H.info e.1 = none) (hr : ∀ e ∈ r, H.info e.1 = none) :
    ∀ e ∈ merge .sub l r, H.info e.1 = none := by
  induction l generalizing r with
  | nil =>
    intro e he
    simp only [merge, AOp.rest, List.mem_map] at he
    obtain ⟨x, hx, rfl⟩ := he
    exact hr x hx
  | cons x l ih =>
    unfold merge
    split
    · intro e he
      rw [List.mem_append] at he
      rcases he with he | he
      · split at he
        · simp at he; rw [he]; exact hl x (by simp)
        · simp at he
      · exact ih _ (fun e he => hl e (by simp [he])) (fun e he => hr e (List.mem_of_mem_eraseP he)) e he
    · intro e he
      rw [List.mem_cons] at he
      rcases he with rfl | he
      · exact hl _ (by simp)
      · exact ih _ (fun e he => hl e (by simp [he])) hr e he

/-- C50 (partial): the difference denotes the difference if every section and every unknown space occurring in both operands occurs
equally often. Missing: other counts, see `C50_witness_sign`. -/
theorem C50_sub_partial (H : Heap) (a b : Addr) (ha : a.Plain H) (hb : b.Plain H) (hbase : Agree a.bases b.bases)
    (hspace : Agree (a.norm H) (b.norm H)) (β : Base → Int) (σ : SpId → Int) : (a.sub H b).val H β σ = a.val H β σ - b.val H β σ := by
  rw [val_eq β σ ha, val_eq β σ hb]
  unfold Addr.sub Addr.val
  simp only
  rw [wsum_val_unknown _ (merge_sub_unknown H (a.norm H) (b.norm H) (norm_unknown H _) (norm_unknown H _)), wsum_merge_sub _ _ _ hbase, wsum_merge_sub _ _ _ hspace]
  ring

/-- C50: the negated address denotes the negated number. -/
theorem C50_neg (H : Heap) (a : Addr) (ha : a.Plain H) (β : Base → Int) (σ : SpId → Int) : (a.neg H).val H β σ = - a.val H β σ := by
  rw [val_eq β σ ha]
  unfold Addr.neg Addr.val
  simp only
  rw [wsum_val_unknown _ (merge_sub_unknown H [] (a.norm H) (by simp) (norm_unknown H _)), wsum_merge_sub _ _ _ (by intro x hx; simp at hx),
    wsum_merge_sub _ _ _ (by intro x hx; simp at hx)]
  simp; ring

/-- C50: adding and subtracting a number. -/
theorem C50_int (H : Heap) (a : Addr) (n : Int) (β : Base → Int) (σ : SpId → Int) :
    (a.addInt n).val H β σ = a.val H β σ + n ∧ (a.Plain H → (a.subInt H n).val H β σ = a.val H β σ - n) := by
  constructor
  · unfold Addr.addInt Addr.val; ring
  · intro ha
    rw [val_eq β σ ha]
    unfold Addr.subInt Addr.val
    simp only
    rw [wsum_val_unknown (a.norm H) (norm_unknown H _)]
    ring

/-- C50: `a + b` and `b + a` denote the same number whatever the values of sections and spaces are. -/
theorem C50_add_comm_partial (H : Heap) (a b : Addr) (ha : a.Plain H) (hb : b.Plain H) (β : Base → Int) (σ : SpId → Int) :
    (a.add H b).val H β σ = (b.add H a).val H β σ := by
  rw [C50_add_partial H a b ha hb, C50_add_partial H b a hb ha]; ring

/-! ### Addresses that occur -/

/-- The addresses obtained from location counters by the operations, with the spaces in the state `H`. -/
inductive Built (H : Heap) : Addr → Prop
  | make (base off spaces) : Built H (Addr.make H base off spaces)
  | add {a b} : Built H a → Built H b → Built H (a.add H b)
  | addInt {a} (n) : Built H a → Built H (a.addInt n)
  | sub {a b} : Built H a → Built H b → Built H (a.sub H b)
  | subInt {a} (n) : Built H a → Built H (a.subInt H n)
  | neg {a} : Built H a → Built H (a.neg H)

/-- Every key once, no count zero. -/
def Canonical {κ : Type} (l : List (κ × Int)) : Prop := (l.map (·.1)).Nodup ∧ ∀ e ∈ l, e.2 ≠ 0

theorem merge_keys {κ : Type} [DecidableEq κ] (op : AOp) (l r : List (κ × Int)) (k : κ) (h : k ∈ (merge op l r).map (·.1)) :
    k ∈ l.map (·.1) ∨ k ∈ r.map (·.1) := by
  induction l generalizing r with
  | nil =>
    cases op
    · exact .inr (by simpa [merge, AOp.rest] using h)
    · refine .inr ?_
      simp only [merge, AOp.rest, List.map_map] at h
      exact h
  | cons e l ih =>
    unfold merge at h
    split at h
    · rw [List.map_append, List.mem_append] at h
      rcases h with h | h
      · split at h
        · simp at h; simp [h]
        · simp at h
      · rcases ih _ h with h | h
        · exact .inl (by simp at h ⊢; exact .inr h)
        · refine .inr ?_
          rw [List.mem_map] at h ⊢
          obtain ⟨x, hx, rfl⟩ := h
          exact ⟨x, List.mem_of_mem_eraseP hx, rfl⟩
    · rw [List.map_cons, List.mem_cons] at h
      rcases h with rfl | h
      · simp
      · rcases ih _ h with h | h
        · exact .inl (by simp at h ⊢; exact .inr h)
        · exact .inr h

theorem eraseP_keys_nodup {κ : Type} [DecidableEq κ] (r : List (κ × Int)) (k : κ) (h : (r.map (·.1)).Nodup) :
    ((r.eraseP (·.1 = k)).map (·.1)).Nodup ∧ k ∉ (r.eraseP (·.1 = k)).map (·.1) := by
  induction r with
  | nil => simp
  | cons x r ih =>
    rw [List.map_cons, List.nodup_cons] at h
    rw [List.eraseP_cons]
    by_cases hx : x.1 = k
    · simp only [hx, decide_true, cond_true]
      exact ⟨h.2, hx ▸ h.1⟩
    · simp only [hx, decide_false, cond_false, List.map_cons, List.nodup_cons]
      refine ⟨⟨fun hm => h.1 ?_, (ih h.2).1⟩, ?_⟩
      · rw [List.mem_map] at hm ⊢
        obtain ⟨y, hy, e⟩ := hm
        exact ⟨y, List.mem_of_mem_eraseP hy, e⟩
      · rw [List.mem_cons]
        rintro (rfl | hm)
        · exact hx rfl
        · exact (ih h.2).2 hm

theorem canonical_merge {κ : Type} [DecidableEq κ] (op : AOp) (l r : List (κ × Int)) (hl : Canonical l) (hr : Canonical r) : Canonical (merge op l r) := by
  induction l generalizing r with
  | nil =>
    cases op
    · simpa [merge, AOp.rest] using hr
    · simp only [merge, AOp.rest]
      refine ⟨?_, ?_⟩
      · rw [List.map_map]; exact hr.1
      · intro e he
        rw [List.mem_map] at he
        obtain ⟨x, hx, rfl⟩ := he
        have := hr.2 x hx
        simp; exact this
  | cons e l ih =>
    have hl1 := hl.1
    rw [List.map_cons, List.nodup_cons] at hl1
    have hl' : Canonical l := ⟨hl1.2, fun x hx => hl.2 x (by simp [hx])⟩
    unfold merge
    split
    · have hk := eraseP_keys_nodup r e.1 hr.1
      have := ih (r.eraseP (·.1 = e.1)) hl' ⟨hk.1, fun x hx => hr.2 x (List.mem_of_mem_eraseP hx)⟩
      split
      · rename_i x hx hc
        refine ⟨?_, ?_⟩
        · simp only [List.singleton_append, List.map_cons, List.nodup_cons]
          refine ⟨fun hm => ?_, this.1⟩
          rcases merge_keys _ _ _ _ hm with hm | hm
          · exact hl1.1 hm
          · exact hk.2 hm
        · intro y hy
          rw [List.singleton_append, List.mem_cons] at hy
          rcases hy with rfl | hy
          · exact hc
          · exact this.2 y hy
      · simpa using this
    · rename_i hx
      have := ih r hl' hr
      refine ⟨?_, ?_⟩
      · rw [List.map_cons, List.nodup_cons]
        refine ⟨fun hm => ?_, this.1⟩
        rcases merge_keys _ _ _ _ hm with hm | hm
        · exact hl1.1 hm
        · rw [List.mem_map] at hm
          obtain ⟨y, hy, e1⟩ := hm
          rw [List.find?_eq_none] at hx
          exact hx y hy (by simp [e1])
      · intro y hy
        rw [List.mem_cons] at hy
        rcases hy with rfl | hy
        · exact hl.2 _ (by simp)
        · exact this.2 y hy

theorem insert_keys (l : List (SpId × Int)) (e : SpId × Int) (h : (l.map (·.1)).Nodup) :
    ((insertEntry l e).map (·.1)).Nodup ∧ ∀ k, k ∈ (insertEntry l e).map (·.1) → k ∈ l.map (·.1) ∨ k = e.1 := by
  induction l with
  | nil => simp [insertEntry]
  | cons x l ih =>
    rw [List.map_cons, List.nodup_cons] at h
    unfold insertEntry
    split
    · simp only [List.map_cons, List.nodup_cons]
      exact ⟨h, fun k hk => .inl hk⟩
    · rename_i hne
      simp only [List.map_cons, List.nodup_cons]
      refine ⟨⟨fun hm => ?_, (ih h.2).1⟩, ?_⟩
      · rcases (ih h.2).2 _ hm with hm | hm
        · exact h.1 hm
        · exact hne hm
      · intro k hk
        rw [List.mem_cons] at hk
        rcases hk with rfl | hk
        · simp
        · rcases (ih h.2).2 _ hk with hk | hk
          · exact .inl (by simp at hk ⊢; exact .inr hk)
          · exact .inr hk

theorem canonical_norm (H : Heap) (l : List (SpId × Int)) : Canonical (H.norm l) := by
  unfold Heap.norm
  have : ∀ (l acc : List (SpId × Int)), (acc.map (·.1)).Nodup → ((l.foldl insertEntry acc).map (·.1)).Nodup := by
    intro l
    induction l with
    | nil => intro acc h; exact h
    | cons e l ih => intro acc h; exact ih _ (insert_keys acc e h).1
  refine ⟨?_, ?_⟩
  · exact ((List.filter_sublist).map _).nodup (this _ [] (by simp))
  · intro e he; rw [List.mem_filter] at he; simpa using he.2

/-- C50: in every address that occurs no section and no space is listed twice or with count 0, and every space is unknown. -/
theorem C50_canonical (H : Heap) (a : Addr) (h : Built H a) : Canonical a.bases ∧ Canonical a.spaces ∧ ∀ e ∈ a.spaces, H.info e.1 = none := by
  induction h with
  | make base off spaces => exact ⟨by simp [Addr.make, Canonical], canonical_norm H _, norm_unknown H _⟩
  | @add a b _ _ iha ihb =>
    refine ⟨canonical_merge _ _ _ iha.1 ihb.1, canonical_merge _ _ _ (canonical_norm H _) (canonical_norm H _), ?_⟩
    intro e he
    have hk := merge_keys .add (a.norm H) (b.norm H) e.1 (List.mem_map_of_mem he)
    rcases hk with hk | hk <;> (rw [List.mem_map] at hk; obtain ⟨x, hx, e1⟩ := hk; rw [← e1]; exact norm_unknown H _ x hx)
  | addInt n _ ih => exact ih
  | @sub a b _ _ iha ihb =>
    exact ⟨canonical_merge _ _ _ iha.1 ihb.1, canonical_merge _ _ _ (canonical_norm H _) (canonical_norm H _),
      merge_sub_unknown H _ _ (norm_unknown H _) (norm_unknown H _)⟩
  | subInt n _ ih => exact ⟨ih.1, canonical_norm H _, norm_unknown H _⟩
  | @neg a _ ih =>
    exact ⟨canonical_merge _ _ _ (by simp [Canonical]) ih.1, canonical_merge _ _ _ (by simp [Canonical]) (canonical_norm H _),
      merge_sub_unknown H _ _ (by simp) (norm_unknown H _)⟩

theorem built_plain {H : Heap} {a : Addr} (h : Built H a) : a.Plain H := fun e he => .unknown ((C50_canonical H a h).2.2 e he)

theorem merge_self {κ : Type} [DecidableEq κ] (l : List (κ × Int)) (h : (l.map (·.1)).Nodup) : merge .sub l l = [] := by
  induction l with
  | nil => rfl
  | cons e l ih =>
    rw [List.map_cons, List.nodup_cons] at h
    unfold merge
    rw [List.find?_cons]
    simp [AOp.count, ih h.2]

/-- C50: `a - a` is the absolute number 0. -/
theorem C50_self (H : Heap) (a : Addr) (h : Built H a) : a.sub H a = ⟨[], 0, []⟩ := by
  unfold Addr.sub
  rw [merge_self _ (C50_canonical H a h).1.1, merge_self (a.norm H) (canonical_norm H _).1]
  simp

theorem norm_canonical {H : Heap} {l : List (SpId × Int)} (hc : Canonical l) (hall : ∀ e ∈ l, H.info e.1 = none) : H.norm l = l := by
  unfold Heap.norm
  have h1 : l.flatMap H.flat = l := by
    clear hc
    induction l with
    | nil => rfl
    | cons e l ih => rw [List.flatMap_cons, flat_unknown (hall e (by simp)), ih (fun x hx => hall x (by simp [hx]))]; rfl
  have h2 : ∀ (l acc : List (SpId × Int)), ((acc ++ l).map (·.1)).Nodup → l.foldl insertEntry acc = acc ++ l := by
    intro l
    induction l with
    | nil => simp
    | cons e l ih =>
      intro acc hn
      have hi : insertEntry acc e = acc ++ [e] := by
        have he : e.1 ∉ acc.map (·.1) := by
          rw [List.map_append, List.nodup_append] at hn
          intro hm
          exact hn.2.2 _ hm _ (by simp) rfl
        clear ih hn
        induction acc with
        | nil => rfl
        | cons x acc ih =>
          simp only [List.map_cons, List.mem_cons, not_or] at he
          unfold insertEntry
          rw [if_neg (fun h => he.1 h.symm), ih he.2]; rfl
      rw [List.foldl_cons, hi, ih _ (by simpa using hn)]
      simp
  rw [h1, h2 _ [] (by simpa using hc.1), List.nil_append, List.filter_eq_self]
  intro e he
  simpa using hc.2 e he

theorem built_norm {H : Heap} {a : Addr} (h : Built H a) : a.norm H = a.spaces :=
  norm_canonical (C50_canonical H a h).2.1 (C50_canonical H a h).2.2

/-- C50: for addresses that occur, the sum is the sum, without restriction as long as the spaces stay as they are. -/
theorem C50_add (H : Heap) (a b : Addr) (ha : Built H a) (hb : Built H b) (β : Base → Int) (σ : SpId → Int) :
    (a.add H b).val H β σ = a.val H β σ + b.val H β σ := C50_add_partial H a b (built_plain ha) (built_plain hb) β σ

theorem nodup_key {κ : Type} {l : List (κ × Int)} (h : (l.map (·.1)).Nodup) {x y : κ × Int} (hx : x ∈ l) (hy : y ∈ l) (e : x.1 = y.1) : x = y := by
  induction l with
  | nil => simp at hx
  | cons z l ih =>
    rw [List.map_cons, List.nodup_cons] at h
    rw [List.mem_cons] at hx hy
    rcases hx with rfl | hx <;> rcases hy with rfl | hy
    · rfl
    · exact absurd (e ▸ List.mem_map_of_mem hy) h.1
    · exact absurd (e ▸ List.mem_map_of_mem hx) h.1
    · exact ih h.2 hx hy

/-- C50 (partial): `(a + b) - b` denotes what `a` denotes, if `a` and `b` have no section and no unknown space in common. Missing: common
ones, see `C50_witness_sign`. -/
theorem C50_cancel_partial (H : Heap) (a b : Addr) (ha : Built H a) (hb : Built H b) (hbase : ∀ x ∈ a.bases, ∀ y ∈ b.bases, x.1 ≠ y.1)
    (hspace : ∀ x ∈ a.spaces, ∀ y ∈ b.spaces, x.1 ≠ y.1) (β : Base → Int) (σ : SpId → Int) :
    ((a.add H b).sub H b).val H β σ = a.val H β σ := by
  have hd : ∀ {κ : Type} [DecidableEq κ] (l r : List (κ × Int)), Canonical r → (∀ x ∈ l, ∀ y ∈ r, x.1 ≠ y.1) → Agree (merge .add l r) r := by
    intro κ _ l r hr h
    have hm : merge .add l r = l ++ r := by
      induction l with
      | nil => rfl
      | cons e l ih =>
        unfold merge
        have : r.find? (·.1 = e.1) = none := by
          rw [List.find?_eq_none]
          intro y hy he
          exact h e (by simp) y hy (by simp at he; exact he.symm)
        rw [this]
        simp only
        rw [ih (fun x hx => h x (by simp [hx]))]; rfl
    rw [hm]
    intro x hx y hy e
    rw [List.mem_append] at hx
    rcases hx with hx | hx
    · exact absurd e (h x hx y hy)
    · rw [nodup_key hr.1 hx hy e]
  rw [C50_sub_partial H _ b (built_plain (.add ha hb)) (built_plain hb), C50_add H a b ha hb]
  · ring
  · exact hd _ _ (C50_canonical H b hb).1 hbase
  · rw [built_norm (.add ha hb), built_norm hb]
    show Agree (merge .add (a.norm H) (b.norm H)) b.spaces
    rw [built_norm ha, built_norm hb]
    exact hd _ _ (C50_canonical H b hb).2.1 hspace

/-! ### Violations -/

/-- No space is resolved. -/
def Heap.fresh : Heap := ⟨fun _ => none, fun _ => 0, by intro i s h; cases h⟩
/-- Space 1 got the length 4. -/
def Heap.one : Heap := ⟨fun i => if i = 1 then some ⟨4, []⟩ else none, fun _ => 0, by
  intro i s h p hp
  by_cases hi : i = 1
  · simp [hi] at h; rw [← h] at hp; simp at hp
  · simp [hi] at h⟩

/-- Violation: with the section `S`, `(S + S) - S` is `-S` and not `S`. -/
theorem C50_witness_sign : let s := Addr.make Heap.fresh (some 7) 0 []
    (s.add Heap.fresh s).sub Heap.fresh s = ⟨[(some 7, -1)], 0, []⟩ ∧ s = ⟨[(some 7, 1)], 0, []⟩ := by
  simp [Addr.make, Addr.add, Addr.sub, Heap.norm, Addr.norm, Addr.offset, merge, AOp.count, AOp.rest]

/-- Violation: the difference of an address without and one with an unknown space counts that space positively once its length is known:
the offset of `(S + 10) - (S + X)` is 14 instead of 6 when `X` turns out to be 4. -/
theorem C50_witness_count :
    let a := Addr.make Heap.fresh (some 7) 10 []
    let b := Addr.make Heap.fresh (some 7) 0 [1]
    let d := a.sub Heap.fresh b
    d.val Heap.one (fun _ => 0) (fun _ => 0) = 6 ∧ d.offset Heap.one = 14 := by
  have hu : Heap.fresh.info 1 = none := rfl
  have hk : Heap.one.info 1 = some ⟨4, []⟩ := rfl
  have hf : Heap.fresh.flat (1, 1) = [(1, 1)] := flat_unknown hu
  have hd : (Addr.make Heap.fresh (some 7) 10 []).sub Heap.fresh (Addr.make Heap.fresh (some 7) 0 [1]) = ⟨[], 10, [(1, -1)]⟩ := by
    simp [Addr.make, Addr.sub, Heap.norm, Addr.norm, Addr.offset, merge, AOp.count, AOp.rest, hf, insertEntry, offset_unknown hu]
  simp only [hd]
  constructor
  · simp [Addr.val, val_known hk]
  · simp [Addr.offset, offset_known hk]

/-- Non-vacuity: sums and differences over two sections and an unknown space. -/
example : let H := Heap.fresh
    let a := Addr.make H (some 1) 10 [1]
    let b := Addr.make H (some 2) 3 []
    Built H ((a.add H b).sub H b) ∧ ((a.add H b).sub H b) = a := by
  have hu : Heap.fresh.info 1 = none := rfl
  have hf : ∀ c, Heap.fresh.flat (1, c) = [(1, c)] := fun c => flat_unknown hu
  refine ⟨.sub (.add (.make ..) (.make ..)) (.make ..), ?_⟩
  simp [Addr.make, Addr.sub, Addr.add, Heap.norm, Addr.norm, Addr.offset, merge, AOp.count, AOp.rest, hf, insertEntry, offset_unknown hu]

end Verif.Ord
