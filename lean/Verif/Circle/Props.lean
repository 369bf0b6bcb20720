import Verif.Circle.Spec
import Mathlib.Data.List.Infix
import Mathlib.Order.WellFounded
import Mathlib.Tactic.Tauto
import Mathlib.Tactic.ByContra
import Mathlib.Data.List.Nodup

/-! C128: lengths that depend on themselves are found. -/
namespace Verif.Circle
open Ord (SymSt SpId Dep SpSrc)

variable {G : Graph}

/-- An edge of the graph. -/
def Edge (G : Graph) (a b : SpId) : Prop := b ∈ G.adj a

/-- A walk, from back to front. -/
def Walk (G : Graph) : List SpId → Prop
  | [] => True
  | [_] => True
  | t :: u :: pre => Edge G u t ∧ Walk G (u :: pre)

/-- Edges between spaces not found yet, from the end to the start. -/
def Left (G : Graph) (c : List SpId) (b a : SpId) : Prop := Edge G a b ∧ a ∉ c ∧ b ∉ c

theorem acc_mono {c c' : List SpId} (h : c ⊆ c') {v : SpId} (ha : Acc (Left G c) v) : Acc (Left G c') v := by
  induction ha with
  | intro v _ ih => exact ⟨_, fun w hw => ih w ⟨hw.1, fun hc => hw.2.1 (h hc), fun hc => hw.2.2 (h hc)⟩⟩

theorem acc_found {c : List SpId} {v : SpId} (h : v ∈ c) : Acc (Left G c) v := ⟨_, fun _ hw => absurd h hw.2.1⟩

/-- The path to the vertex being looked at. -/
def St.trail (s : St) : List SpId := (s.stack.headD []).tail

structure Inv (G : Graph) (s : St) : Prop where
  walk : ∀ p ∈ s.stack, p ≠ [] ∧ Walk G p
  nest : s.stack.Pairwise fun p q => q.tail <:+ p.tail
  pend : ∀ u pre, u :: pre <:+ s.trail → ∀ x, Edge G u x → x :: u :: pre ∈ s.stack ∨ x ∈ (s.visited u).getD []
  reg : ∀ u x, x ∈ (s.visited u).getD [] → Edge G u x ∧
    (u ∈ s.cycled ∨ x ∈ s.cycled ∨ Acc (Left G s.cycled) x ∨ ∃ pre, x :: u :: pre <:+ s.trail)
  acc : ∀ w, (s.visited w).isSome → w ∈ s.trail ∨ Acc (Left G s.cycled) w
  keyed : ∀ v ∈ s.trail.tail, (s.visited v).isSome
  dup : ∀ v pre, v :: pre <:+ s.trail → v ∈ pre → v ∈ s.cycled
  cyc : ∀ c ∈ s.cycled, Relation.TransGen (Edge G) c c

theorem suffix_head_mem {α} {v : α} {pre l : List α} (h : v :: pre <:+ l) : v ∈ l := h.subset (by simp)

theorem mem_suffix {α} {v : α} {l : List α} (h : v ∈ l) : ∃ pre, v :: pre <:+ l := by
  obtain ⟨a, b, rfl⟩ := List.append_of_mem h
  exact ⟨b, a, rfl⟩

/-- Two suffixes of the same list: the shorter one is a suffix of the longer one. -/
theorem suffix_of_le {α} {a b l : List α} (ha : a <:+ l) (hb : b <:+ l) (h : a.length ≤ b.length) : a <:+ b :=
  List.suffix_of_suffix_length_le ha hb h

theorem mem_of_suffix_le {x v : SpId} {pre pre' : List SpId} (h : x :: v :: pre' <:+ v :: pre) : v ∈ pre := by
  obtain ⟨a, ha⟩ := h
  cases a with
  | nil =>
    simp only [List.nil_append, List.cons.injEq] at ha
    rw [← ha.2]
    simp
  | cons y ys =>
    simp only [List.cons_append, List.cons.injEq] at ha
    rw [← ha.2]
    simp

/-- What was left behind on the path is finished: `rest` was the path, `r` is what is left of it, and all edges from what is left behind
are registered. -/
theorem left_behind {rest r : List SpId} {c : List SpId}
    (hreg : ∀ v pre, v :: pre <:+ rest → r.length < (v :: pre).length → ∀ x, Edge G v x →
      v ∈ c ∨ x ∈ c ∨ Acc (Left G c) x ∨ ∃ pre', x :: v :: pre' <:+ rest)
    (hdup : ∀ v pre, v :: pre <:+ rest → v ∈ pre → v ∈ c) :
    ∀ n v pre, v :: pre <:+ rest → r.length < (v :: pre).length → rest.length ≤ (v :: pre).length + n → Acc (Left G c) v := by
  intro n
  induction n with
  | zero =>
    intro v pre hs hl hn
    refine ⟨_, fun x hx => ?_⟩
    rcases hreg v pre hs hl x hx.1 with h | h | h | ⟨pre', h⟩
    · exact absurd h hx.2.1
    · exact absurd h hx.2.2
    · exact h
    · exact absurd (hdup v pre hs (mem_of_suffix_le (suffix_of_le h hs (by have := h.length_le; omega)))) hx.2.1
  | succ n ih =>
    intro v pre hs hl hn
    refine ⟨_, fun x hx => ?_⟩
    rcases hreg v pre hs hl x hx.1 with h | h | h | ⟨pre', h⟩
    · exact absurd h hx.2.1
    · exact absurd h hx.2.2
    · exact h
    · by_cases hlt : (x :: v :: pre').length ≤ (v :: pre).length
      · exact absurd (hdup v pre hs (mem_of_suffix_le (suffix_of_le h hs hlt))) hx.2.1
      · exact ih x (v :: pre') h (by omega) (by omega)

theorem walk_tail {a : SpId} {p : List SpId} (h : Walk G (a :: p)) : Walk G p := by
  cases p with
  | nil => trivial
  | cons b p => exact h.2

/-- From a vertex of a walk to its end. -/
theorem walk_reach : ∀ {p : List SpId} {t : SpId}, Walk G (t :: p) → ∀ v ∈ p, Relation.TransGen (Edge G) v t
  | [], _, _, v, hv => by simp at hv
  | u :: p, t, h, v, hv => by
    rcases List.mem_cons.1 hv with rfl | hv
    · exact .single h.1
    · exact (walk_reach h.2 v hv).tail h.1

theorem fromFirst_suffix {t : SpId} : ∀ {p : List SpId}, t ∈ p → ∃ a, fromFirst t p = a ++ [t] ∧ ∃ b, p = a ++ t :: b
  | [], h => by simp at h
  | v :: rest, h => by
    unfold fromFirst
    by_cases ht : t ∈ rest
    · obtain ⟨a, h1, b, h2⟩ := fromFirst_suffix ht
      exact ⟨v :: a, by simp [ht, h1], b, by simp [h2]⟩
    · have hv : v = t := by
        rcases List.mem_cons.1 h with h | h
        · exact h.symm
        · exact absurd h ht
      subst hv
      exact ⟨[], by simp [ht], rest, by simp⟩

/-- All vertices between two occurrences are on a circle. -/
theorem circle_mem {t : SpId} {rest : List SpId} (hw : Walk G (t :: rest)) (ht : t ∈ rest) :
    ∀ c ∈ fromFirst t (t :: rest), Relation.TransGen (Edge G) c c := by
  intro c hc
  have hf : fromFirst t (t :: rest) = t :: fromFirst t rest := by rw [fromFirst]; simp [ht]
  rw [hf] at hc
  have htt := walk_reach hw t ht
  rcases List.mem_cons.1 hc with rfl | hc
  · exact htt
  · obtain ⟨a, h1, b, h2⟩ := fromFirst_suffix ht
    rw [h1] at hc
    rcases List.mem_append.1 hc with hc | hc
    · have h3 : c ∈ rest := by rw [h2]; exact List.mem_append_left _ hc
      have h4 := walk_reach hw c h3
      obtain ⟨x, y, rfl⟩ := List.append_of_mem hc
      have h5 : Walk G (c :: (y ++ t :: b)) := by
        have h6 : c :: (y ++ t :: b) <:+ t :: rest := by
          refine .trans ?_ (List.suffix_cons _ _)
          exact ⟨x, by simp [h2]⟩
        obtain ⟨z, hz⟩ := h6
        rw [← hz] at hw
        clear * - hw
        induction z with
        | nil => exact hw
        | cons q z ih => exact ih (walk_tail hw)
      exact .trans h4 (walk_reach h5 t (by simp)) |> fun h => h
    · simp only [List.mem_singleton] at hc
      exact hc ▸ htt

/-- The first path is dropped. -/
theorem Inv.drop {s s' : St} {t : SpId} {rest : List SpId} {tl : List (List SpId)} (h : Inv G s) (hs : s.stack = (t :: rest) :: tl)
    (hs' : s'.stack = tl) (hc : s'.cycled = s.cycled)
    (hv1 : ∀ v x, x ∈ (s'.visited v).getD [] → x ∈ (s.visited v).getD [] ∨ (x = t ∧ ∃ pre, rest = v :: pre))
    (hv2 : ∀ v x, x ∈ (s.visited v).getD [] → x ∈ (s'.visited v).getD [])
    (hv3 : ∀ u pre, rest = u :: pre → t ∈ (s'.visited u).getD [])
    (hk1 : ∀ w, (s'.visited w).isSome → (s.visited w).isSome ∨ w ∈ rest ∨ (rest = [] ∧ w = t))
    (hk2 : ∀ w, (s.visited w).isSome → (s'.visited w).isSome)
    (hok : ∀ u pre, rest = u :: pre → u ∈ s.cycled ∨ t ∈ s.cycled ∨ Acc (Left G s.cycled) t ∨ ∃ pre', t :: u :: pre' <:+ rest)
    (hok1 : rest = [] → Acc (Left G s.cycled) t) : Inv G s' := by
  have htr : s.trail = rest := by simp [St.trail, hs]
  have hnest := h.nest
  rw [hs, List.pairwise_cons] at hnest
  -- what is left of the path
  have htr' : s'.trail <:+ rest := by
    simp only [St.trail, hs']
    cases tl with
    | nil => simp
    | cons q qs => exact hnest.1 q (by simp)
  have htl : ∀ q ∈ tl, q.tail <:+ s'.trail := by
    intro q hq
    simp only [St.trail, hs']
    cases tl with
    | nil => simp at hq
    | cons q' qs =>
      rcases List.mem_cons.1 hq with rfl | hq
      · exact List.suffix_refl _
      · exact (List.pairwise_cons.1 hnest.2).1 q hq
  have hw : Walk G (t :: rest) := (h.walk _ (by rw [hs]; simp)).2
  have hdup : ∀ v pre, v :: pre <:+ rest → v ∈ pre → v ∈ s.cycled := by
    intro v pre hp
    exact h.dup v pre (htr ▸ hp)
  have hreg : ∀ v pre, v :: pre <:+ rest → s'.trail.length < (v :: pre).length → ∀ x, Edge G v x →
      v ∈ s.cycled ∨ x ∈ s.cycled ∨ Acc (Left G s.cycled) x ∨ ∃ pre', x :: v :: pre' <:+ rest := by
    intro v pre hp hl x hx
    have hx' : x ∈ (s.visited v).getD [] ∨ (x = t ∧ v :: pre = rest) := by
      rcases h.pend v pre (htr ▸ hp) x hx with h1 | h1
      · rw [hs] at h1
        rcases List.mem_cons.1 h1 with h1 | h1
        · cases h1
          exact .inr ⟨rfl, rfl⟩
        · have := (htl _ h1).length_le
          simp only [List.tail_cons] at this
          omega
      · exact .inl h1
    rcases hx' with h1 | ⟨rfl, h1⟩
    · have := (h.reg v x h1).2
      rwa [htr] at this
    · exact hok v pre h1.symm
  have hleft : ∀ v pre, v :: pre <:+ rest → s'.trail.length < (v :: pre).length → Acc (Left G s.cycled) v := by
    intro v pre hp hl
    exact left_behind (r := s'.trail) hreg hdup rest.length v pre hp hl (by omega)
  have hsplit : ∀ v pre, v :: pre <:+ rest → v :: pre <:+ s'.trail ∨ Acc (Left G s.cycled) v := by
    intro v pre hp
    by_cases hl : s'.trail.length < (v :: pre).length
    · exact .inr (hleft v pre hp hl)
    · exact .inl (suffix_of_le hp htr' (by omega))
  constructor
  · intro p hp
    rw [hs'] at hp
    exact h.walk p (by rw [hs]; simp [hp])
  · rw [hs']; exact hnest.2
  · intro u pre hp x hx
    have hp' := hp.trans htr'
    rcases h.pend u pre (htr ▸ hp') x hx with h1 | h1
    · rw [hs] at h1
      rcases List.mem_cons.1 h1 with h1 | h1
      · simp only [List.cons.injEq] at h1
        exact .inr (h1.1 ▸ hv3 u pre h1.2.symm)
      · exact .inl (hs' ▸ h1)
    · exact .inr (hv2 u x h1)
  · intro u x hx
    rw [hc]
    rcases hv1 u x hx with h1 | ⟨rfl, pre, h1⟩
    · obtain ⟨h2, h3⟩ := h.reg u x h1
      refine ⟨h2, ?_⟩
      rcases h3 with h3 | h3 | h3 | ⟨pre, h3⟩
      · exact .inl h3
      · exact .inr (.inl h3)
      · exact .inr (.inr (.inl h3))
      · rcases hsplit x (u :: pre) (htr ▸ h3) with h4 | h4
        · exact .inr (.inr (.inr ⟨pre, h4⟩))
        · exact .inr (.inr (.inl h4))
    · subst h1
      refine ⟨hw.1, ?_⟩
      rcases hok u pre rfl with h3 | h3 | h3 | ⟨pre', h3⟩
      · exact .inl h3
      · exact .inr (.inl h3)
      · exact .inr (.inr (.inl h3))
      · rcases hsplit x (u :: pre') h3 with h4 | h4
        · exact .inr (.inr (.inr ⟨pre', h4⟩))
        · exact .inr (.inr (.inl h4))
  · intro w hk
    rw [hc]
    have hin : w ∈ rest → w ∈ s'.trail ∨ Acc (Left G s.cycled) w := by
      intro hm
      obtain ⟨pre, hp⟩ := mem_suffix hm
      rcases hsplit w pre hp with h4 | h4
      · exact .inl (suffix_head_mem h4)
      · exact .inr h4
    rcases hk1 w hk with h1 | h1 | ⟨h1, rfl⟩
    · rcases h.acc w h1 with h2 | h2
      · exact hin (htr ▸ h2)
      · exact .inr h2
    · exact hin h1
    · exact .inr (hok1 h1)
  · intro v hv
    refine hk2 v (h.keyed v ?_)
    rw [htr]
    obtain ⟨a, ha⟩ := htr'
    rw [← ha]
    cases a with
    | nil => simpa using hv
    | cons y ys => simp only [List.cons_append, List.tail_cons, List.mem_append]; exact .inr (List.mem_of_mem_tail hv)
  · intro v pre hp hm
    rw [hc]
    exact hdup v pre (hp.trans htr') hm
  · rw [hc]; exact h.cyc

/-- The first path is continued. -/
theorem Inv.push {s s' : St} {t : SpId} {rest : List SpId} {tl : List (List SpId)} (h : Inv G s) (hs : s.stack = (t :: rest) :: tl)
    (hne : G.adj t ≠ []) (hs' : s'.stack = ((G.adj t).map (· :: t :: rest)).reverse ++ tl) (hc : s.cycled ⊆ s'.cycled)
    (hcyc : ∀ c ∈ s'.cycled, Relation.TransGen (Edge G) c c) (hct : t ∈ rest → t ∈ s'.cycled)
    (hv1 : ∀ v x, x ∈ (s'.visited v).getD [] → x ∈ (s.visited v).getD [] ∨ (x = t ∧ ∃ pre, rest = v :: pre))
    (hv2 : ∀ v x, x ∈ (s.visited v).getD [] → x ∈ (s'.visited v).getD [])
    (hv3 : ∀ u pre, rest = u :: pre → t ∈ (s'.visited u).getD [])
    (hk1 : ∀ w, (s'.visited w).isSome → (s.visited w).isSome ∨ w ∈ rest ∨ (rest = [] ∧ w = t))
    (hk2 : ∀ w, (s.visited w).isSome → (s'.visited w).isSome) : Inv G s' := by
  have htr : s.trail = rest := by simp [St.trail, hs]
  have htr' : s'.trail = t :: rest := by
    simp only [St.trail, hs']
    cases hr : ((G.adj t).map (· :: t :: rest)).reverse with
    | nil => simp at hr; exact absurd hr hne
    | cons q qs =>
      have hq : q ∈ ((G.adj t).map (· :: t :: rest)).reverse := by rw [hr]; simp
      simp only [List.mem_reverse, List.mem_map] at hq
      obtain ⟨x, _, rfl⟩ := hq
      simp
  have hnest := h.nest
  rw [hs, List.pairwise_cons] at hnest
  have hw : Walk G (t :: rest) := (h.walk _ (by rw [hs]; simp)).2
  constructor
  · intro p hp
    rw [hs', List.mem_append] at hp
    rcases hp with hp | hp
    · simp only [List.mem_reverse, List.mem_map] at hp
      obtain ⟨x, hx, rfl⟩ := hp
      exact ⟨by simp, hx, hw⟩
    · exact h.walk p (by rw [hs]; simp [hp])
  · rw [hs', List.pairwise_append]
    refine ⟨?_, hnest.2, ?_⟩
    · rw [List.pairwise_iff_forall_sublist]
      intro a b hab
      have ha : a ∈ ((G.adj t).map (· :: t :: rest)).reverse := hab.subset (by simp)
      have hb : b ∈ ((G.adj t).map (· :: t :: rest)).reverse := hab.subset (by simp)
      simp only [List.mem_reverse, List.mem_map] at ha hb
      obtain ⟨x, _, rfl⟩ := ha
      obtain ⟨y, _, rfl⟩ := hb
      exact List.suffix_refl _
    · intro a ha b hb
      simp only [List.mem_reverse, List.mem_map] at ha
      obtain ⟨x, _, rfl⟩ := ha
      exact (hnest.1 b hb).trans (List.suffix_cons _ _)
  · intro u pre hp x hx
    rw [htr', List.suffix_cons_iff] at hp
    rcases hp with hp | hp
    · cases hp
      refine .inl ?_
      rw [hs', List.mem_append, List.mem_reverse, List.mem_map]
      exact .inl ⟨x, hx, rfl⟩
    · rcases h.pend u pre (htr ▸ hp) x hx with h1 | h1
      · rw [hs] at h1
        rcases List.mem_cons.1 h1 with h1 | h1
        · simp only [List.cons.injEq] at h1
          exact .inr (h1.1 ▸ hv3 u pre h1.2.symm)
        · exact .inl (by rw [hs']; exact List.mem_append_right _ h1)
      · exact .inr (hv2 u x h1)
  · intro u x hx
    rcases hv1 u x hx with h1 | ⟨rfl, pre, h1⟩
    · obtain ⟨h2, h3⟩ := h.reg u x h1
      refine ⟨h2, ?_⟩
      rcases h3 with h3 | h3 | h3 | ⟨pre, h3⟩
      · exact .inl (hc h3)
      · exact .inr (.inl (hc h3))
      · exact .inr (.inr (.inl (acc_mono hc h3)))
      · refine .inr (.inr (.inr ⟨pre, ?_⟩))
        rw [htr']
        exact (htr ▸ h3).trans (List.suffix_cons _ _)
    · subst h1
      exact ⟨hw.1, .inr (.inr (.inr ⟨pre, by rw [htr']⟩))⟩
  · intro w hk
    rw [htr']
    rcases hk1 w hk with h1 | h1 | ⟨_, rfl⟩
    · rcases h.acc w h1 with h2 | h2
      · exact .inl (List.mem_cons_of_mem _ (htr ▸ h2))
      · exact .inr (acc_mono hc h2)
    · exact .inl (List.mem_cons_of_mem _ h1)
    · exact .inl (by simp)
  · intro v hv
    rw [htr'] at hv
    simp only [List.tail_cons] at hv
    cases rest with
    | nil => simp at hv
    | cons u pre =>
      rcases List.mem_cons.1 hv with rfl | hv
      · have := hv3 v pre rfl
        cases hvv : s'.visited v with
        | none => simp [hvv] at this
        | some _ => rfl
      · exact hk2 v (h.keyed v (by rw [htr]; exact hv))
  · intro v pre hp hm
    rw [htr', List.suffix_cons_iff] at hp
    rcases hp with hp | hp
    · cases hp
      exact hct hm
    · exact hc (h.dup v pre (htr ▸ hp) hm)
  · exact hcyc

theorem touch_getD (s : St) (v w : SpId) : ((s.touch v).visited w).getD [] = (s.visited w).getD [] := by
  unfold St.touch
  by_cases h : w = v
  · simp [h]
  · simp [h]

theorem touch_isSome (s : St) (v w : SpId) : ((s.touch v).visited w).isSome = true ↔ w = v ∨ (s.visited w).isSome := by
  unfold St.touch
  by_cases h : w = v
  · simp [h]
  · simp [h]

theorem mark_getD (s : St) (v x w y : SpId) : y ∈ ((s.mark v x).visited w).getD [] ↔ (w = v ∧ y = x) ∨ y ∈ (s.visited w).getD [] := by
  unfold St.mark
  by_cases h : w = v
  · simp [h]
  · simp [h]

theorem mark_isSome (s : St) (v x w : SpId) : ((s.mark v x).visited w).isSome = true ↔ w = v ∨ (s.visited w).isSome := by
  unfold St.mark
  by_cases h : w = v
  · simp [h]
  · simp [h]

theorem acc_leaf {c : List SpId} {t : SpId} (h : G.adj t = []) : Acc (Left G c) t :=
  ⟨_, fun x hx => by
    have := hx.1
    unfold Edge at this
    rw [h] at this
    cases this⟩

/-- One vertex, the edge to it being new. -/
theorem Inv.go {s s0 : St} {t : SpId} {rest : List SpId} {tl : List (List SpId)} (h : Inv G s) (hs : s.stack = (t :: rest) :: tl)
    (hs0 : s0.stack = tl) (hc0 : s0.cycled = s.cycled) (hv0 : ∀ v, (s0.visited v).getD [] = (s.visited v).getD [])
    (hk0 : ∀ w, (s0.visited w).isSome ↔ (s.visited w).isSome ∨ ∃ pre, rest = w :: pre) : Inv G (s0.go G t rest) := by
  have htr : s.trail = rest := by simp [St.trail, hs]
  have hw : Walk G (t :: rest) := (h.walk _ (by rw [hs]; simp)).2
  have hk : t ∈ rest → (s0.visited t).isSome := by
    intro ht
    rw [hk0]
    cases rest with
    | nil => simp at ht
    | cons u pre =>
      rcases List.mem_cons.1 ht with rfl | ht
      · exact .inr ⟨pre, rfl⟩
      · exact .inl (h.keyed t (by rw [htr]; exact ht))
  -- what is registered, whatever else happens
  generalize hq : (match rest with
    | u :: _ => (if (s0.visited t).isSome && decide (t ∈ rest) then
        { s0 with cycled := s0.cycled ++ fromFirst t (t :: rest) } else s0).mark u t
    | [] => (if (s0.visited t).isSome && decide (t ∈ rest) then
        { s0 with cycled := s0.cycled ++ fromFirst t (t :: rest) } else s0).touch t) = q
  have hqs : q.stack = tl := by
    subst hq
    cases rest <;> (simp only [St.mark, St.touch]; split <;> exact hs0)
  have hqc : q.cycled = if t ∈ rest then s.cycled ++ fromFirst t (t :: rest) else s.cycled := by
    subst hq
    by_cases ht : t ∈ rest
    · cases rest <;> simp [St.mark, St.touch, ht, hk ht, hc0]
    · cases rest <;> simp [St.mark, St.touch, ht, hc0]
  have hqv : ∀ v x, x ∈ (q.visited v).getD [] ↔ x ∈ (s.visited v).getD [] ∨ (x = t ∧ ∃ pre, rest = v :: pre) := by
    intro v x
    subst hq
    cases rest with
    | nil =>
      rw [touch_getD]
      simp only [List.not_mem_nil, decide_false, Bool.and_false, Bool.false_eq_true, if_false]
      rw [hv0]
      simp
    | cons u pre =>
      rw [mark_getD]
      have : ∀ b : Bool, (if b = true then { s0 with cycled := s0.cycled ++ fromFirst t (t :: u :: pre) } else s0).visited v
          = s0.visited v := by intro b; cases b <;> rfl
      rw [this, hv0]
      constructor
      · rintro (⟨rfl, rfl⟩ | h1)
        · exact .inr ⟨rfl, pre, rfl⟩
        · exact .inl h1
      · rintro (h1 | ⟨rfl, pre', h1⟩)
        · exact .inr h1
        · cases h1
          exact .inl ⟨rfl, rfl⟩
  have hqk : ∀ w, (q.visited w).isSome ↔ (s.visited w).isSome ∨ (∃ pre, rest = w :: pre) ∨ (rest = [] ∧ w = t) := by
    intro w
    subst hq
    cases rest with
    | nil =>
      rw [touch_isSome]
      simp only [List.not_mem_nil, decide_false, Bool.and_false, Bool.false_eq_true, if_false]
      rw [hk0]
      simp
      tauto
    | cons u pre =>
      rw [mark_isSome]
      have : ∀ b : Bool, (if b = true then { s0 with cycled := s0.cycled ++ fromFirst t (t :: u :: pre) } else s0).visited w
          = s0.visited w := by intro b; cases b <;> rfl
      rw [this, hk0]
      constructor
      · rintro (rfl | h1 | h1)
        · exact .inr (.inl ⟨pre, rfl⟩)
        · exact .inl h1
        · exact .inr (.inl h1)
      · rintro (h1 | h1 | ⟨h1, _⟩)
        · exact .inr (.inl h1)
        · exact .inr (.inr h1)
        · cases h1
  have hgo : s0.go G t rest = if (s0.visited t).isSome && !decide (t ∈ rest) then q
      else { q with stack := ((G.adj t).map (· :: t :: rest)).reverse ++ q.stack } := by
    subst hq
    rfl
  rw [hgo]
  clear hgo hq
  have hv1 : ∀ v x, x ∈ (q.visited v).getD [] → x ∈ (s.visited v).getD [] ∨ (x = t ∧ ∃ pre, rest = v :: pre) := fun v x => (hqv v x).1
  have hv2 : ∀ v x, x ∈ (s.visited v).getD [] → x ∈ (q.visited v).getD [] := fun v x hx => (hqv v x).2 (.inl hx)
  have hv3 : ∀ u pre, rest = u :: pre → t ∈ (q.visited u).getD [] := fun u pre hr => (hqv u t).2 (.inr ⟨rfl, pre, hr⟩)
  have hk1 : ∀ w, (q.visited w).isSome → (s.visited w).isSome ∨ w ∈ rest ∨ (rest = [] ∧ w = t) := by
    intro w hw
    rcases (hqk w).1 hw with h1 | ⟨pre, rfl⟩ | h1
    · exact .inl h1
    · exact .inr (.inl (by simp))
    · exact .inr (.inr h1)
  have hk2 : ∀ w, (s.visited w).isSome → (q.visited w).isSome := fun w hw => (hqk w).2 (.inl hw)
  by_cases ht : t ∈ rest
  · have hne : G.adj t ≠ [] := by
      intro h0
      have := walk_reach hw t ht
      rcases Relation.TransGen.head'_iff.1 this with ⟨y, hy, _⟩
      unfold Edge at hy
      rw [h0] at hy
      cases hy
    simp only [ht, if_true] at hqc
    simp only [ht, decide_true, Bool.not_true, Bool.and_false, Bool.false_eq_true, if_false]
    refine h.push hs hne (by simp [hqs]) (by simp [hqc]) ?_ ?_ hv1 hv2 hv3 hk1 hk2
    · intro c hcm
      simp only [hqc, List.mem_append] at hcm
      rcases hcm with hcm | hcm
      · exact h.cyc c hcm
      · exact circle_mem hw ht c hcm
    · intro _
      simp only [hqc, List.mem_append]
      exact .inr (by rw [fromFirst]; simp [ht])
  · simp only [ht, if_false] at hqc
    simp only [ht, decide_false, Bool.not_false, Bool.and_true]
    by_cases hseen : (s0.visited t).isSome = true
    · simp only [hseen, if_true]
      have hold : (s.visited t).isSome := by
        rcases (hk0 t).1 hseen with h1 | ⟨pre, rfl⟩
        · exact h1
        · exact absurd (by simp) ht
      have hacc : Acc (Left G s.cycled) t := by
        rcases h.acc t hold with h1 | h1
        · exact absurd (htr ▸ h1) ht
        · exact h1
      exact h.drop hs hqs hqc hv1 hv2 hv3 hk1 hk2 (fun _ _ _ => .inr (.inr (.inl hacc))) fun _ => hacc
    · simp only [hseen, Bool.false_eq_true, if_false]
      by_cases hne : G.adj t = []
      · have hacc : Acc (Left G s.cycled) t := acc_leaf hne
        refine h.drop hs (by simp [hne, hqs]) hqc hv1 hv2 hv3 hk1 hk2 (fun _ _ _ => .inr (.inr (.inl hacc))) fun _ => hacc
      · refine h.push hs hne (by simp [hqs]) (by simp [hqc]) ?_ (fun hm => absurd hm ht) hv1 hv2 hv3 hk1 hk2
        intro c hcm
        exact h.cyc c (by simpa [hqc] using hcm)

theorem Inv.round {s : St} {p : List SpId} {tl : List (List SpId)} (h : Inv G s) (hs : s.stack = p :: tl) :
    Inv G (({ s with stack := tl }).round G p) := by
  match p, hs with
  | [], hs => exact absurd rfl (h.walk [] (by rw [hs]; simp)).1
  | [t], hs =>
    exact h.go hs rfl rfl (fun _ => rfl) (fun w => by simp)
  | t :: u :: pre, hs =>
    have htr : s.trail = u :: pre := by simp [St.trail, hs]
    simp only [St.round]
    split
    next hv =>
      rw [touch_getD] at hv
      refine h.drop hs rfl rfl ?_ ?_ ?_ ?_ ?_ ?_ ?_
      · intro v x hx
        rw [touch_getD] at hx
        exact .inl hx
      · intro v x hx
        rw [touch_getD]
        exact hx
      · intro u' pre' he
        cases he
        rw [touch_getD]
        exact hv
      · intro w hw
        rw [touch_isSome] at hw
        rcases hw with rfl | hw
        · exact .inr (.inl (by simp))
        · exact .inl hw
      · intro w hw
        rw [touch_isSome]
        exact .inr hw
      · intro u' pre' he
        cases he
        have := (h.reg u t hv).2
        rwa [htr] at this
      · intro he
        cases he
    next hv =>
      refine h.go hs rfl rfl (fun v => touch_getD _ _ _) fun w => ?_
      rw [touch_isSome]
      constructor
      · rintro (rfl | h1)
        · exact .inr ⟨pre, rfl⟩
        · exact .inl h1
      · rintro (h1 | ⟨pre', he⟩)
        · exact .inr h1
        · cases he
          exact .inl rfl

theorem inner_inv : ∀ (fuel : Nat) {s s' : St}, Inv G s → inner G fuel s = some s' → Inv G s' ∧ s'.stack = []
  | fuel, s, s', h, he => by
    unfold inner at he
    cases hst : s.stack with
    | nil =>
      simp only [hst, Option.some.injEq] at he
      exact ⟨he ▸ h, he ▸ hst⟩
    | cons p ps =>
      simp only [hst] at he
      cases fuel with
      | zero => simp at he
      | succ fuel => exact inner_inv fuel (h.round hst) he

/-! ### Keys stay, edges are registered, the loops end -/

theorem go_stack (s : St) (t : SpId) (rest : List SpId) : (s.go G t rest).stack = s.stack ∨
    (s.go G t rest).stack = ((G.adj t).map (· :: t :: rest)).reverse ++ s.stack := by
  have hq : ∀ (b : Bool), ((if b = true then { s with cycled := s.cycled ++ fromFirst t (t :: rest) } else s) : St).stack = s.stack := by
    intro b; cases b <;> rfl
  unfold St.go
  cases rest with
  | nil =>
    simp only [St.touch]
    split
    · exact .inl (hq _)
    · right
      simp only
      rw [hq]
  | cons u pre =>
    simp only [St.mark]
    split
    · exact .inl (hq _)
    · right
      simp only
      rw [hq]

theorem go_visited_nil (s : St) (t : SpId) : (s.go G t []).visited = (s.touch t).visited := by
  simp only [St.go, List.not_mem_nil, decide_false, Bool.and_false, Bool.false_eq_true, if_false]
  split <;> rfl

theorem go_visited_cons (s : St) (t u : SpId) (pre : List SpId) : (s.go G t (u :: pre)).visited = (s.mark u t).visited := by
  have hq : ∀ (b : Bool), (((if b = true then { s with cycled := s.cycled ++ fromFirst t (t :: u :: pre) } else s) : St).mark u t).visited =
      (s.mark u t).visited := by
    intro b; cases b <;> rfl
  unfold St.go
  simp only
  split
  · exact hq _
  · exact hq _

theorem round_keys (s : St) (p : List SpId) (w : SpId) (h : (s.visited w).isSome) : ((s.round G p).visited w).isSome := by
  match p with
  | [] => exact h
  | [t] =>
    simp only [St.round, go_visited_nil]
    exact (touch_isSome s t w).2 (.inr h)
  | t :: u :: pre =>
    simp only [St.round]
    split
    · exact (touch_isSome s u w).2 (.inr h)
    · rw [go_visited_cons]
      exact (mark_isSome _ u t w).2 (.inr ((touch_isSome s u w).2 (.inr h)))

theorem inner_keys : ∀ (fuel : Nat) {s s' : St}, inner G fuel s = some s' → ∀ w, (s.visited w).isSome → (s'.visited w).isSome
  | fuel, s, s', he, w, h => by
    unfold inner at he
    cases hst : s.stack with
    | nil =>
      simp only [hst, Option.some.injEq] at he
      exact he ▸ h
    | cons p ps =>
      simp only [hst] at he
      cases fuel with
      | zero => simp at he
      | succ fuel => exact inner_keys fuel he w (round_keys _ p w h)

/-- All edges. -/
def edges (G : Graph) : List (SpId × SpId) := G.flatMap fun x => (G.adj x.1).map (x.1, ·)

theorem adj_entry {a b : SpId} (h : Edge G a b) : ∃ x ∈ G, x.1 = a := by
  unfold Edge Graph.adj at h
  cases hf : G.find? (·.1 = a) with
  | none => simp [hf] at h
  | some x => exact ⟨x, List.mem_of_find?_eq_some hf, by simpa using List.find?_some hf⟩

theorem edge_mem {a b : SpId} (h : Edge G a b) : (a, b) ∈ edges G := by
  obtain ⟨x, hx, rfl⟩ := adj_entry h
  exact List.mem_flatMap.2 ⟨x, hx, List.mem_map.2 ⟨b, h, rfl⟩⟩

theorem adj_length (a : SpId) : (G.adj a).length ≤ (edges G).length := by
  by_cases h : G.adj a = []
  · simp [h]
  · obtain ⟨b, hb⟩ := List.exists_mem_of_ne_nil _ h
    obtain ⟨x, hx, rfl⟩ := adj_entry hb
    obtain ⟨l, r, rfl⟩ := List.append_of_mem hx
    simp only [edges, List.flatMap_append, List.flatMap_cons, List.length_append, List.length_map]
    omega

/-- The edges not registered yet. -/
def unreg (G : Graph) (s : St) : Nat := ((edges G).filter fun e => !decide (e.2 ∈ (s.visited e.1).getD [])).length

theorem filter_lt {α} {P Q : α → Bool} {l : List α} (h : ∀ x, Q x = true → P x = true) {a : α} (ha : a ∈ l) (hp : P a = true)
    (hq : Q a = false) : (l.filter Q).length < (l.filter P).length := by
  induction l with
  | nil => cases ha
  | cons x l ih =>
    have hle : (l.filter Q).length ≤ (l.filter P).length := by
      clear * - h
      induction l with
      | nil => simp
      | cons y l ih =>
        by_cases hy : Q y = true
        · simp [List.filter_cons, hy, h y hy]; exact ih
        · by_cases hp : P y = true
          · simp only [List.filter_cons, hy, hp]; simp; omega
          · simp only [List.filter_cons, hy, hp]; exact ih
    rcases List.mem_cons.1 ha with rfl | ha
    · simp only [List.filter_cons, hp, hq]
      simp
      omega
    · have := ih ha
      by_cases hy : Q x = true
      · simp [List.filter_cons, hy, h x hy]; exact this
      · by_cases hp' : P x = true
        · simp only [List.filter_cons, hy, hp']; simp; omega
        · simp only [List.filter_cons, hy, hp']; exact this

theorem unreg_le (s : St) : unreg G s ≤ (edges G).length := List.length_filter_le _ _

/-- One round that is not the first one. -/
theorem round_measure {s : St} {t u : SpId} {pre : List SpId} {tl : List (List SpId)} (h : Inv G s)
    (hs : s.stack = (t :: u :: pre) :: tl) :
    unreg G (({ s with stack := tl }).round G (t :: u :: pre)) * ((edges G).length + 1) +
      (({ s with stack := tl }).round G (t :: u :: pre)).stack.length <
    unreg G s * ((edges G).length + 1) + s.stack.length := by
  simp only [St.round]
  split
  next hv =>
    have h1 : unreg G (({ s with stack := tl } : St).touch u) = unreg G s := by
      unfold unreg
      congr 2
      funext e
      rw [touch_getD]
    rw [h1, hs]
    simp [St.touch]
  next hv =>
    rw [touch_getD] at hv
    have hw : Edge G u t := (show Walk G (t :: u :: pre) from (h.walk (t :: u :: pre) (by rw [hs]; simp)).2).1
    have hvis : ∀ v x, x ∈ (((({ s with stack := tl } : St).touch u).go G t (u :: pre)).visited v).getD [] ↔
        (v = u ∧ x = t) ∨ x ∈ (s.visited v).getD [] := by
      intro v x
      rw [go_visited_cons, mark_getD, touch_getD]
    have h1 : unreg G ((({ s with stack := tl } : St).touch u).go G t (u :: pre)) < unreg G s := by
      unfold unreg
      refine filter_lt (a := (u, t)) ?_ (edge_mem hw) ?_ ?_
      · intro e he
        simp only [Bool.not_eq_true', decide_eq_false_iff_not] at he ⊢
        exact fun hm => he ((hvis _ _).2 (.inr hm))
      · simpa using hv
      · simp only [Bool.not_eq_false', decide_eq_true_eq]
        exact (hvis _ _).2 (.inl ⟨rfl, rfl⟩)
    have h2 : ((({ s with stack := tl } : St).touch u).go G t (u :: pre)).stack.length ≤ (edges G).length + tl.length := by
      rcases go_stack (G := G) (({ s with stack := tl } : St).touch u) t (u :: pre) with h2 | h2
      · rw [h2]; simp [St.touch]
      · rw [h2]
        simp only [List.length_append, List.length_reverse, List.length_map, St.touch]
        have := adj_length (G := G) t
        omega
    rw [hs, List.length_cons]
    have h3 : (unreg G ((({ s with stack := tl } : St).touch u).go G t (u :: pre)) + 1) * ((edges G).length + 1) ≤
        unreg G s * ((edges G).length + 1) := Nat.mul_le_mul_right _ h1
    rw [Nat.add_mul] at h3
    omega

theorem round_long {s : St} {p : List SpId} {tl : List (List SpId)} (hl : ∀ q ∈ tl, 2 ≤ q.length) (hp : p ≠ []) :
    ∀ q ∈ (({ s with stack := tl } : St).round G p).stack, 2 ≤ q.length := by
  have key : ∀ (s0 : St) (t : SpId) (rest : List SpId), s0.stack = tl → ∀ q ∈ (s0.go G t rest).stack, 2 ≤ q.length := by
    intro s0 t rest h0 q hq
    rcases go_stack (G := G) s0 t rest with h | h
    · rw [h, h0] at hq; exact hl q hq
    · rw [h, h0, List.mem_append] at hq
      rcases hq with hq | hq
      · simp only [List.mem_reverse, List.mem_map] at hq
        obtain ⟨x, _, rfl⟩ := hq
        simp
      · exact hl q hq
  match p with
  | [] => exact absurd rfl hp
  | [t] => exact key _ t [] rfl
  | t :: u :: pre =>
    simp only [St.round]
    split
    · exact hl
    · exact key _ t (u :: pre) rfl

theorem inner_ends : ∀ (n : Nat) {s : St}, Inv G s → (∀ p ∈ s.stack, 2 ≤ p.length) →
    unreg G s * ((edges G).length + 1) + s.stack.length ≤ n → (inner G n s).isSome
  | n, s, h, hl, hn => by
    unfold inner
    cases hst : s.stack with
    | nil => simp
    | cons p ps =>
      simp only
      cases n with
      | zero => rw [hst] at hn; simp at hn
      | succ n =>
        simp only
        have hp := hl p (by rw [hst]; simp)
        match p, hst, hp with
        | t :: u :: pre, hst, _ =>
          have := round_measure h hst
          exact inner_ends n (h.round hst) (round_long (fun q hq => hl q (by rw [hst]; simp [hq])) (by simp)) (by omega)

/-- Rounds that are enough. -/
def enough (G : Graph) : Nat := (edges G).length * ((edges G).length + 1) + (edges G).length + 1

theorem start_inv {s : St} {v : SpId} (h : Inv G s) (hs : s.stack = []) : Inv G { s with stack := [v] :: s.stack } := by
  have ht : s.trail = [] := by simp [St.trail, hs]
  constructor
  · intro p hp
    simp only [hs, List.mem_singleton] at hp
    subst hp
    exact ⟨by simp, trivial⟩
  · simp [hs]
  · intro u pre hp
    simp [St.trail] at hp
  · intro u x hx
    obtain ⟨h1, h2⟩ := h.reg u x hx
    refine ⟨h1, ?_⟩
    rcases h2 with h2 | h2 | h2 | ⟨pre, h2⟩
    · exact .inl h2
    · exact .inr (.inl h2)
    · exact .inr (.inr (.inl h2))
    · rw [ht] at h2; simp at h2
  · intro w hw
    rcases h.acc w hw with h1 | h1
    · rw [ht] at h1; simp at h1
    · exact .inr h1
  · intro w hw
    simp [St.trail] at hw
  · intro w pre hp
    simp [St.trail] at hp
  · exact h.cyc

theorem outer_inv : ∀ (vs : List SpId) {fuel : Nat} {s : St}, enough G ≤ fuel → Inv G s → s.stack = [] →
    ∃ s', outer G fuel vs s = some s' ∧ Inv G s' ∧ s'.stack = [] ∧ (∀ w, (s.visited w).isSome → (s'.visited w).isSome) ∧
      ∀ v ∈ vs, (s'.visited v).isSome
  | [], _, s, _, h, hs => ⟨s, rfl, h, hs, fun _ h => h, by simp⟩
  | v :: vs, fuel, s, hf, h, hs => by
    unfold outer
    by_cases hv : (s.visited v).isSome = true
    · obtain ⟨s', h1, h2, h3, h4, h5⟩ := outer_inv vs hf h hs
      refine ⟨s', by simp [hv, h1], h2, h3, h4, ?_⟩
      intro w hw
      rcases List.mem_cons.1 hw with rfl | hw
      · exact h4 _ hv
      · exact h5 w hw
    · have hI := start_inv (v := v) h hs
      have hst : ({ s with stack := [v] :: s.stack } : St).stack = [v] :: [] := by simp [hs]
      obtain ⟨fuel, rfl⟩ : ∃ n, fuel = n + 1 := ⟨fuel - 1, by unfold enough at hf; omega⟩
      have hr := hI.round hst
      have hend : (inner G (fuel + 1) { s with stack := [v] :: s.stack }).isSome := by
        unfold inner
        simp only [hs]
        refine inner_ends fuel hr (round_long (by simp) (by simp)) ?_
        have h1 := unreg_le (G := G) (({ s with stack := [] } : St).round G [v])
        have h2 : (({ s with stack := [] } : St).round G [v]).stack.length ≤ (edges G).length := by
          rcases go_stack (G := G) ({ s with stack := [] } : St) v [] with h2 | h2
          · simp [St.round, h2]
          · simp only [St.round, h2, List.append_nil, List.length_reverse, List.length_map]
            exact adj_length v
        unfold enough at hf
        have h3 := Nat.mul_le_mul_right ((edges G).length + 1) h1
        exact Nat.le_trans (Nat.add_le_add h3 h2) (by omega)
      obtain ⟨s1, h1⟩ := Option.isSome_iff_exists.1 hend
      have h2 := inner_inv _ hI h1
      have hk : (s1.visited v).isSome := by
        have h3 := h1
        unfold inner at h3
        simp only [hs] at h3
        refine inner_keys _ h3 v ?_
        simp only [St.round, go_visited_nil]
        exact (touch_isSome _ v v).2 (.inl rfl)
      obtain ⟨s', g1, g2, g3, g4, g5⟩ := outer_inv vs hf h2.1 h2.2
      refine ⟨s', by simp only [hv, h1]; exact g1, g2, g3, fun w hw => g4 w (inner_keys _ h1 w hw), ?_⟩
      intro w hw
      rcases List.mem_cons.1 hw with rfl | hw
      · exact g4 _ hk
      · exact g5 w hw

theorem empty_inv : Inv G {} := by
  constructor <;> simp [St.trail]

/-- The search ends, finds only what is on circles, and something of every circle. -/
theorem search_spec {fuel : Nat} (hf : enough G ≤ fuel) : ∃ c, search G fuel = some c ∧
    (∀ v ∈ c, Relation.TransGen (Edge G) v v) ∧ ∀ v, Acc (Left G c) v := by
  obtain ⟨s', h1, h2, h3, _, h5⟩ := outer_inv (G.map (·.1)) hf (empty_inv (G := G)) rfl
  refine ⟨s'.cycled, by simp [search, h1], h2.cyc, fun v => ?_⟩
  by_cases hv : ∃ b, Edge G v b
  · obtain ⟨b, hb⟩ := hv
    obtain ⟨x, hx, rfl⟩ := adj_entry hb
    rcases h2.acc _ (h5 x.1 (List.mem_map.2 ⟨x, hx, rfl⟩)) with h | h
    · simp [St.trail, h3] at h
    · exact h
  · exact ⟨_, fun y hy => absurd ⟨y, hy.1⟩ hv⟩

/-- No circle without something found. -/
theorem no_circle {c : List SpId} (h : ∀ v, Acc (Left G c) v) {v : SpId}
    (ht : Relation.TransGen (fun a b => Edge G a b ∧ a ∉ c ∧ b ∉ c) v v) : False := by
  have key : ∀ x, Acc (Left G c) x → ¬ Relation.TransGen (fun a b => Edge G a b ∧ a ∉ c ∧ b ∉ c) x x := by
    intro x hx
    induction hx with
    | intro x _ ih =>
      intro ht
      rcases Relation.TransGen.head'_iff.1 ht with ⟨y, hy, hr⟩
      exact ih y hy (Relation.TransGen.tail' hr hy)
  exact key v (h v) ht

/-! ### The graph is that of the lengths -/

theorem symbolFirst_mem {l : List Dep} (h : symbolFirst l = true) : ∃ n, Dep.sym n ∈ l := by
  cases l with
  | nil => simp [symbolFirst] at h
  | cons d ds =>
    cases d with
    | sym n => exact ⟨n, by simp⟩
    | attr _ _ => simp [symbolFirst] at h
    | space _ => simp [symbolFirst] at h

theorem extract_symbols (E : Ord.Env) (c : Ord.Coll) : symbolFirst (c.extract E) = true ↔ ∃ n, Dep.sym n ∈ c.extract E := by
  unfold Ord.Coll.extract
  split
  next h =>
    obtain ⟨n, ns, hn⟩ := List.exists_cons_of_ne_nil h
    simp [hn, symbolFirst]
  next h =>
    split
    next h2 =>
      obtain ⟨n, ns, hn⟩ := List.exists_cons_of_ne_nil h2
      simp [hn, symbolFirst]
    next h2 =>
      constructor
      · intro h3
        exact symbolFirst_mem h3
      · rintro ⟨n, hn⟩
        rw [List.mem_append] at hn
        rcases hn with hn | hn
        · simp at hn
        · cases ha : c.addr with
          | none => simp [ha] at hn
          | some a => simp [ha] at hn

theorem spaceOf_mem (l : List Dep) (b : SpId) : b ∈ l.filterMap spaceOf ↔ Dep.space b ∈ l := by
  rw [List.mem_filterMap]
  constructor
  · rintro ⟨d, hd, h⟩
    cases d <;> simp [spaceOf] at h
    exact h ▸ hd
  · intro h
    exact ⟨_, h, rfl⟩

theorem vertex_eq {st : SymSt} {x : SpId × SpSrc} {y : SpId × List SpId} (h : vertex st x = some y) :
    y.1 = x.1 ∧ y.2 = ((x.2.collect st.env st.tab).extract st.env).filterMap spaceOf ∧
      ∀ n, Dep.sym n ∉ (x.2.collect st.env st.tab).extract st.env := by
  unfold vertex at h
  simp only at h
  split at h
  next => cases h
  next h1 =>
    split at h
    next => cases h
    next h2 =>
      cases h
      refine ⟨rfl, rfl, fun n hn => h1 ((extract_symbols _ _).2 ⟨n, hn⟩)⟩

theorem edge_iff {st : SymSt} (hn : (st.sps.map (·.1)).Nodup) (hG : G.Perm (graph st)) (a b : SpId) : Edge G a b ↔ Needs st a b := by
  unfold Edge Graph.adj Needs
  constructor
  · intro h
    cases hf : G.find? (·.1 = a) with
    | none => simp [hf] at h
    | some y =>
      simp only [hf, Option.map_some, Option.getD_some] at h
      have hy : y ∈ graph st := hG.subset (List.mem_of_find?_eq_some hf)
      obtain ⟨x, hx, hv⟩ := List.mem_filterMap.1 hy
      obtain ⟨h1, h2, h3⟩ := vertex_eq hv
      have ha : y.1 = a := by simpa using List.find?_some hf
      refine ⟨x, hx, h1 ▸ ha, h3, ?_⟩
      rw [h2] at h
      exact (spaceOf_mem _ _).1 h
  · rintro ⟨x, hx, rfl, h3, h4⟩
    have hb := (spaceOf_mem _ _).2 h4
    have hv : vertex st x = some (x.1, ((x.2.collect st.env st.tab).extract st.env).filterMap spaceOf) := by
      unfold vertex
      have hs : symbolFirst ((x.2.collect st.env st.tab).extract st.env) = false := by
        cases hs : symbolFirst ((x.2.collect st.env st.tab).extract st.env) with
        | false => rfl
        | true =>
          obtain ⟨n, hn'⟩ := (extract_symbols _ _).1 hs
          exact absurd hn' (h3 n)
      have he : (((x.2.collect st.env st.tab).extract st.env).filterMap spaceOf).isEmpty = false := by
        cases he : ((x.2.collect st.env st.tab).extract st.env).filterMap spaceOf with
        | nil => rw [he] at hb; cases hb
        | cons _ _ => rfl
      simp [hs, he]
    have hm : (x.1, ((x.2.collect st.env st.tab).extract st.env).filterMap spaceOf) ∈ G :=
      hG.symm.subset (List.mem_filterMap.2 ⟨x, hx, hv⟩)
    cases hf : G.find? (·.1 = x.1) with
    | none =>
      have := List.find?_eq_none.1 hf _ hm
      simp at this
    | some y =>
      have hy : y ∈ graph st := hG.subset (List.mem_of_find?_eq_some hf)
      obtain ⟨x', hx', hv'⟩ := List.mem_filterMap.1 hy
      obtain ⟨h1, h2, _⟩ := vertex_eq hv'
      have ha : y.1 = x.1 := by simpa using List.find?_some hf
      have hxx : x' = x := List.inj_on_of_nodup_map hn hx' hx (h1.symm.trans ha)
      subst hxx
      simp only [Option.map_some, Option.getD_some, h2]
      exact hb

theorem transGen_inside {R : SpId → SpId → Prop} {P : SpId → Prop} (hR : ∀ x y, R x y → P x) {a b : SpId}
    (h : Relation.TransGen R a b) (hb : P b) : Relation.TransGen (fun x y => R x y ∧ P x ∧ P y) a b := by
  induction h using Relation.TransGen.head_induction_on with
  | single h => exact .single ⟨h, hR _ _ h, hb⟩
  | head h h' ih =>
    refine .head ⟨h, hR _ _ h, ?_⟩ ih
    rcases Relation.TransGen.head'_iff.1 h' with ⟨y, hy, _⟩
    exact hR _ _ hy

/-- **C128**, the search: it ends after at most `enough G` rounds of its loop; it succeeds exactly when no length depends on itself; it
removes only entries whose length depends on itself, and afterwards no length depends on itself any more. -/
theorem C128_search (st : SymSt) (hn : (st.sps.map (·.1)).Nodup) (G : Graph) (hG : G.Perm (graph st)) (fuel : Nat)
    (hf : enough G ≤ fuel) :
    ∃ ok sps, check st G fuel = some (ok, sps) ∧ (ok = true ↔ ∀ a, ¬ Circular st a) ∧
      sps.Sublist st.sps ∧ (∀ x ∈ st.sps, x ∉ sps → Circular st x.1) ∧ ∀ a, ¬ Circular { st with sps := sps } a := by
  obtain ⟨c, h1, h2, h3⟩ := search_spec hf
  have hE : Edge G = Needs st := by
    funext a b
    exact propext (edge_iff hn hG a b)
  rw [hE] at h2
  refine ⟨c.isEmpty, st.sps.filter fun x => !decide (x.1 ∈ c), by simp [check, h1], ?_, List.filter_sublist, ?_, ?_⟩
  · constructor
    · intro he a ha
      have he' : c = [] := by simpa using he
      subst he'
      refine no_circle h3 (v := a) ?_
      unfold Circular at ha
      rw [← hE] at ha
      exact Relation.TransGen.mono (fun x y hxy => ⟨hxy, by simp, by simp⟩) _ _ ha
    · intro ha
      cases c with
      | nil => rfl
      | cons v vs => exact absurd (h2 v (by simp)) (ha v)
  · intro x hx hx'
    have : x.1 ∈ c := by
      by_contra hc
      exact hx' (List.mem_filter.2 ⟨hx, by simpa using hc⟩)
    exact h2 _ this
  · intro a ha
    unfold Circular at ha
    have hR : ∀ x y, Needs { st with sps := st.sps.filter fun x => !decide (x.1 ∈ c) } x y → x ∉ c ∧ Needs st x y := by
      rintro x y ⟨z, hz, rfl, hz1, hz2⟩
      have hz' := List.mem_filter.1 hz
      exact ⟨by simpa using hz'.2, z, hz'.1, rfl, hz1, hz2⟩
    have hac : a ∉ c := by
      rcases Relation.TransGen.head'_iff.1 ha with ⟨y, hy, _⟩
      exact (hR _ _ hy).1
    have := transGen_inside (P := (· ∉ c)) (fun x y h => (hR x y h).1) ha hac
    refine no_circle h3 (v := a) (Relation.TransGen.mono ?_ _ _ this)
    rintro x y ⟨hxy, hx, hy⟩
    rw [hE]
    exact ⟨(hR _ _ hxy).2, hx, hy⟩

/-- **C128** for labels: whatever the order of the tables, the definition of a label with a relocatable value is reported exactly when
then some length depends on itself, and no such length is left. Missing: definitions with absolute values, which may close a circle
as well (`C128_witness_absolute`). -/
theorem C128_label_partial (st : SymSt) (hn : (st.sps.map (·.1)).Nodup) (n : Ord.SymId) (s : Ord.Sym) (a : Ord.Addr)
    (hs : s.val = .reloc a) (order : Graph → Graph) (ho : ∀ G, (order G).Perm G) :
    ∃ bound, ∀ fuel, bound ≤ fuel → ∃ ok sps, create st n s order fuel = some (ok, sps) ∧
      (ok = false ↔ ∃ a, Circular { st with tab := st.tab.set n s } a) ∧
      ∀ a, ¬ Circular { st with tab := st.tab.set n s, sps := sps } a := by
  refine ⟨enough (order (graph { st with tab := st.tab.set n s })), fun fuel hf => ?_⟩
  obtain ⟨ok, sps, h1, h2, _, _, h5⟩ := C128_search { st with tab := st.tab.set n s } hn _ (ho _) fuel hf
  refine ⟨ok, sps, by simp [create, hs, h1], ?_, h5⟩
  cases ok with
  | true =>
    simp only [Bool.true_eq_false, false_iff]
    rintro ⟨a, ha⟩
    exact (h2.1 rfl) a ha
  | false =>
    simp only [true_iff]
    by_contra hc
    have := h2.2 fun a ha => hc ⟨a, ha⟩
    cases this

/-- A label behind the gaps `l`. -/
def behind (l : List SpId) : Ord.Sym := ⟨.reloc ⟨[(some 0, 1)], 0, l.map (·, 1)⟩, 0, some 1, none, 0, false⟩
/-- An absolute value. -/
def absolute (v : Int) : Ord.Sym := ⟨.abs v, 0, some 1, none, 0, false⟩

/-- `A DS (C-B+N)C`, `B DS (B-A+N)C`, `C DS C` with the symbols A, B, C, N as 0, 1, 2, 3: before C and N are defined. -/
def exSt : SymSt :=
  { env := ⟨⟨fun _ => none, fun _ => 0, fun _ _ h => by cases h⟩, fun _ => true, fun _ => false⟩
    tab := Ord.Table.set (Ord.Table.set (fun _ => none) 0 (behind [])) 1 (behind [0])
    deps := []
    sps := [(0, .data [.add (.sub (.sym 2) (.sym 1)) (.sym 3)]), (1, .data [.add (.sub (.sym 1) (.sym 0)) (.sym 3)])] }

/-- The same, `N` having been defined at the beginning. -/
def exSt1 : SymSt := { exSt with tab := exSt.tab.set 3 (absolute 1) }
/-- The same, `C` having been defined before `N`. -/
def exSt2 : SymSt := { exSt with tab := exSt.tab.set 2 (behind [0, 1]) }

/-- The label that closes the circle is reported, and both lengths are given up. -/
example : create exSt1 2 (behind [0, 1]) id 100 = some (false, []) := by decide +kernel
/-- The hypotheses of `C128_search` and `C128_label_partial` are met. -/
example : (exSt1.sps.map (·.1)).Nodup ∧ graph exSt1 = [(1, [0])] ∧
    graph { exSt1 with tab := exSt1.tab.set 2 (behind [0, 1]) } = [(0, [1]), (1, [0])] := by decide +kernel

/-- **C128** is violated by definitions with absolute values: with `C` defined before, `N EQU 1` closes a circle, and nothing is
reported, nor anything given up. -/
theorem C128_witness_absolute :
    (∀ fuel, create exSt2 3 (absolute 1) id fuel = some (true, exSt2.sps)) ∧
      Circular { exSt2 with tab := exSt2.tab.set 3 (absolute 1) } 0 := by
  refine ⟨fun _ => rfl, ?_⟩
  refine .head (b := 1) ⟨(0, .data [.add (.sub (.sym 2) (.sym 1)) (.sym 3)]), by decide, rfl, ?_⟩
    (.single ⟨(1, .data [.add (.sub (.sym 1) (.sym 0)) (.sym 3)]), by decide, rfl, ?_⟩)
  · rw [show (SpSrc.collect _ _ _ : Ord.Coll).extract _ = [Dep.space 1] by decide +kernel]
    simp
  · rw [show (SpSrc.collect _ _ _ : Ord.Coll).extract _ = [Dep.space 0] by decide +kernel]
    simp

end Verif.Circle
