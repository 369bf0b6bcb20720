import Verif.Ord.DepsProps
/-!
C56 and the witnesses for C55: what resolution leaves behind and which values it gives.
-/
namespace Verif.Ord

/-! ### Linear expressions -/

/-- Sums and differences of symbols, attributes, constants and addresses. -/
def MExpr.Linear : MExpr → Bool
  | .mul _ _ => false
  | .div _ _ => false
  | .loc none => false
  | .par e => e.Linear
  | .neg e => e.Linear
  | .add l r => l.Linear && r.Linear
  | .sub l r => l.Linear && r.Linear
  | _ => true

theorem addSub_err (E : Env) (op : AOp) (c h : Coll) : (c.addSub E op h).err = h.err := by
  unfold Coll.addSub
  split <;> (unfold Coll.mergeUndef; split <;> simp_all)

theorem linear_err (E : Env) (T : Table) (e : MExpr) (h : e.Linear = true) : (e.collect E T).err = false := by
  induction e with
  | const v => rfl
  | sym n => unfold MExpr.collect; split <;> rfl
  | attr k n => unfold MExpr.collect; split; rfl; split <;> rfl
  | loc a => cases a; cases h; rfl
  | dflt => rfl
  | par e ih => exact ih h
  | neg e ih => exact (addSub_err _ _ _ _).trans (ih h)
  | add l r _ ih => exact (addSub_err _ _ _ _).trans (ih (by simp [MExpr.Linear] at h; exact h.2))
  | sub l r _ ih => exact (addSub_err _ _ _ _).trans (ih (by simp [MExpr.Linear] at h; exact h.2))
  | mul => cases h
  | div => cases h

theorem linear_quiet (E : Env) (T : Table) (e : MExpr) (h : e.Linear = true) : e.Quiet E T := by
  induction e with
  | par e ih => exact ih h
  | neg e ih => exact ⟨ih h, linear_err E T e h⟩
  | add l r ihl ihr => simp [MExpr.Linear] at h; exact ⟨ihl h.1, ihr h.2, linear_err E T r h.2⟩
  | sub l r ihl ihr => simp [MExpr.Linear] at h; exact ⟨ihl h.1, ihr h.2, linear_err E T r h.2⟩
  | mul => cases h
  | div => cases h
  | _ => trivial

theorem fires_sub {st st' : SymSt} (h : Fires st st') : st'.deps.Sublist st.deps := by
  induction h with
  | refl => exact .refl _
  | step _ hf _ ih => rw [(fire_some hf).2.2.1] at ih; exact ih.trans List.filter_sublist

/-- Linear expressions are never mixed up. -/
theorem noMix_of_linear {st : SymSt} (h : ∀ x ∈ st.deps, x.2.Linear = true) : st.NoMix := by
  intro st' hf d e hr
  exact linear_quiet _ _ _ (h (d, e) ((fires_sub hf).subset hr.1))

/-! ### Completeness -/

/-- The addresses an expression refers to have no unresolved spaces. -/
def MExpr.Settled (H : Heap) (T : Table) (e : MExpr) : Prop :=
  (∀ n ∈ e.symRefs, ∀ a, T.value n = .reloc a → a.pending H = false) ∧ ∀ a, some a ∈ e.locs → a.pending H = false

theorem pending_known {H : Heap} {i : SpId} {s : Filled} (h : H.info i = some s) : H.pending i = s.ptrs.any fun p => H.pending p.1 := by
  rw [Heap.pending.eq_def]; split
  · simp_all
  · rename_i s' h'
    rw [h] at h'; injection h' with h'; subst h'
    conv_rhs => rw [← List.attach_map_subtype_val s.ptrs, List.any_map]
    rfl

theorem flat_settled {H : Heap} (e : SpId × Int) (h : H.pending e.1 = false) : H.flat e = [] := by
  induction hn : H.rank e.1 using Nat.strongRecOn generalizing e with
  | _ n ih =>
    cases hi : H.info e.1 with
    | none => rw [pending_unknown hi] at h; cases h
    | some s =>
      rw [flat_known hi, List.flatMap_eq_nil_iff]
      rw [pending_known hi, List.any_eq_false] at h
      intro p hp
      exact ih _ (hn ▸ H.dec _ _ hi p hp) p (by simpa using h p hp) rfl

theorem norm_settled {H : Heap} {l : List (SpId × Int)} (h : ∀ e ∈ l, H.pending e.1 = false) : H.norm l = [] := by
  unfold Heap.norm
  have : l.flatMap H.flat = [] := by
    rw [List.flatMap_eq_nil_iff]; exact fun e he => flat_settled e (h e he)
  rw [this]; rfl

theorem norm_nil (H : Heap) : H.norm [] = [] := rfl

/-- Nothing is left of spaces. -/
def Coll.Still (c : Coll) : Prop := c.spaces = [] ∧ ∀ a, c.addr = some a → a.spaces = []

theorem mergeUndef_spaces {c h : Coll} (hc : c.spaces = []) (hh : h.spaces = []) : (c.mergeUndef h).spaces = [] := by
  unfold Coll.mergeUndef; split
  · exact hc
  · simp [hc, hh, addAll]

theorem mergeUndef_addr (c h : Coll) : (c.mergeUndef h).addr = c.addr := by unfold Coll.mergeUndef; split <;> rfl

theorem adjust_still {E : Env} {a : Addr} (h : a.spaces = []) : (adjust E a).spaces = [] := by
  unfold adjust; split <;> simp [h]

theorem addSub_still {E : Env} {op : AOp} {c h : Coll} (hc : c.Still) (hh : h.Still) : (c.addSub E op h).Still := by
  unfold Coll.addSub
  split
  · exact ⟨mergeUndef_spaces hc.1 hh.1, by rw [mergeUndef_addr]; exact hc.2⟩
  · refine ⟨mergeUndef_spaces hc.1 hh.1, ?_⟩
    intro a ha
    simp only at ha
    unfold joinAddr at ha
    split at ha
    · rename_i x y hx hy
      injection ha with ha; subst ha
      apply adjust_still
      cases op <;> simp [Addr.add, Addr.sub, Addr.norm, hc.2 _ hx, hh.2 _ hy, norm_nil, merge, AOp.rest]
    · rename_i y hx hy
      injection ha with ha; subst ha
      cases op
      · exact hh.2 _ hy
      · simp [Addr.neg, Addr.norm, hh.2 _ hy, norm_nil, merge, AOp.rest]
    · rename_i hy
      exact hc.2 a ha

theorem spacesOf_still {o : Option Addr} (h : ∀ a, o = some a → a.spaces = []) : spacesOf o = [] := by
  cases o with
  | none => rfl
  | some a => simp [spacesOf, h a rfl]

theorem divMul_still {c h : Coll} (hc : c.Still) (hh : h.Still) : (c.divMul h).Still := by
  unfold Coll.divMul
  split
  · exact ⟨mergeUndef_spaces hc.1 hh.1, by rw [mergeUndef_addr]; exact hc.2⟩
  · split
    · exact ⟨mergeUndef_spaces hc.1 hh.1, by simp only [mergeUndef_addr]; exact hc.2⟩
    · refine ⟨?_, by simp only [mergeUndef_addr]; exact hc.2⟩
      simp only [mergeUndef_spaces hc.1 hh.1, spacesOf_still hc.2, spacesOf_still hh.2]
      rfl

theorem collect_still {E : Env} {T : Table} (e : MExpr) (h : e.Settled E.heap T) : (e.collect E T).Still := by
  have hnone : Coll.none.Still := ⟨rfl, fun a h => by cases h⟩
  have hof : ∀ a : Addr, a.pending E.heap = false → (Coll.ofAddr E a).Still := by
    intro a ha
    refine ⟨rfl, ?_⟩
    intro b hb
    injection hb with hb; subst hb
    unfold Addr.pending at ha
    rw [List.any_eq_false] at ha
    exact norm_settled fun e he => by simpa using ha e he
  induction e with
  | const v => exact hnone
  | sym n =>
    unfold MExpr.collect
    split
    · exact ⟨rfl, fun a h => by cases h⟩
    · rename_i a ha; exact hof a (h.1 n (by simp [MExpr.symRefs]) a ha)
    · exact hnone
  | attr k n =>
    unfold MExpr.collect; split
    · exact ⟨rfl, fun a h => by cases h⟩
    · split
      · exact hnone
      · exact ⟨rfl, fun a h => by cases h⟩
  | loc a =>
    cases a with
    | none => exact ⟨rfl, fun a h => by cases h⟩
    | some a => exact hof a (h.2 a (by simp [MExpr.locs]))
  | dflt => exact hnone
  | par e ih => exact ih h
  | neg e ih => exact addSub_still hnone (ih h)
  | add l r ihl ihr =>
    exact addSub_still (ihl ⟨fun n hn => h.1 n (by simp [MExpr.symRefs, hn]), fun a ha => h.2 a (by simp [MExpr.locs, ha])⟩)
      (ihr ⟨fun n hn => h.1 n (by simp [MExpr.symRefs, hn]), fun a ha => h.2 a (by simp [MExpr.locs, ha])⟩)
  | sub l r ihl ihr =>
    exact addSub_still (ihl ⟨fun n hn => h.1 n (by simp [MExpr.symRefs, hn]), fun a ha => h.2 a (by simp [MExpr.locs, ha])⟩)
      (ihr ⟨fun n hn => h.1 n (by simp [MExpr.symRefs, hn]), fun a ha => h.2 a (by simp [MExpr.locs, ha])⟩)
  | mul l r ihl ihr =>
    exact divMul_still (ihl ⟨fun n hn => h.1 n (by simp [MExpr.symRefs, hn]), fun a ha => h.2 a (by simp [MExpr.locs, ha])⟩)
      (ihr ⟨fun n hn => h.1 n (by simp [MExpr.symRefs, hn]), fun a ha => h.2 a (by simp [MExpr.locs, ha])⟩)
  | div l r ihl ihr =>
    exact divMul_still (ihl ⟨fun n hn => h.1 n (by simp [MExpr.symRefs, hn]), fun a ha => h.2 a (by simp [MExpr.locs, ha])⟩)
      (ihr ⟨fun n hn => h.1 n (by simp [MExpr.symRefs, hn]), fun a ha => h.2 a (by simp [MExpr.locs, ha])⟩)

theorem mergeUndef_sub {c h : Coll} : (∀ n ∈ (c.mergeUndef h).syms, n ∈ c.syms ∨ n ∈ h.syms) ∧ ∀ x ∈ (c.mergeUndef h).attrs, x ∈ c.attrs ∨ x ∈ h.attrs := by
  unfold Coll.mergeUndef; split
  · exact ⟨fun n h => .inl h, fun n h => .inl h⟩
  · exact ⟨fun n h => (mem_addAll _ _ _).1 h, fun n h => (mem_addAll _ _ _).1 h⟩

theorem addSub_sub {E : Env} {op : AOp} {c h : Coll} : (∀ n ∈ (c.addSub E op h).syms, n ∈ c.syms ∨ n ∈ h.syms) ∧
    ∀ x ∈ (c.addSub E op h).attrs, x ∈ c.attrs ∨ x ∈ h.attrs := by
  unfold Coll.addSub; split <;> exact mergeUndef_sub

theorem divMul_sub {c h : Coll} : (∀ n ∈ (c.divMul h).syms, n ∈ c.syms ∨ n ∈ h.syms) ∧ ∀ x ∈ (c.divMul h).attrs, x ∈ c.attrs ∨ x ∈ h.attrs := by
  unfold Coll.divMul; split
  · exact mergeUndef_sub
  · split <;> exact mergeUndef_sub

/-- What is collected is really undefined and really referred to. -/
theorem collect_sub {E : Env} {T : Table} (e : MExpr) :
    (∀ n ∈ (e.collect E T).syms, n ∈ e.symRefs ∧ T.value n = .undef) ∧ (∀ x ∈ (e.collect E T).attrs, x ∈ e.attrRefs ∧ ¬ T.HasAttr x.1 x.2) := by
  induction e with
  | const v => exact collect_refs (E := E) (T := T) (.const v) trivial |>.imp (fun h n => (h n).1) (fun h n => (h n).1)
  | sym m => exact collect_refs (E := E) (T := T) (.sym m) trivial |>.imp (fun h n => (h n).1) (fun h n => (h n).1)
  | attr k m => exact collect_refs (E := E) (T := T) (.attr k m) trivial |>.imp (fun h n => (h n).1) (fun h n => (h n).1)
  | loc a => exact collect_refs (E := E) (T := T) (.loc a) trivial |>.imp (fun h n => (h n).1) (fun h n => (h n).1)
  | dflt => exact collect_refs (E := E) (T := T) .dflt trivial |>.imp (fun h n => (h n).1) (fun h n => (h n).1)
  | par e ih => exact ih
  | neg e ih =>
    refine ⟨fun n hn => ?_, fun x hx => ?_⟩
    · exact ih.1 n ((addSub_sub.1 n hn).resolve_left (by simp [Coll.none]))
    · exact ih.2 x ((addSub_sub.2 x hx).resolve_left (by simp [Coll.none]))
  | add l r ihl ihr =>
    refine ⟨fun n hn => ?_, fun x hx => ?_⟩
    · rcases addSub_sub.1 n hn with h | h
      · exact ⟨by simp [MExpr.symRefs, (ihl.1 n h).1], (ihl.1 n h).2⟩
      · exact ⟨by simp [MExpr.symRefs, (ihr.1 n h).1], (ihr.1 n h).2⟩
    · rcases addSub_sub.2 x hx with h | h
      · exact ⟨by simp [MExpr.attrRefs, (ihl.2 x h).1], (ihl.2 x h).2⟩
      · exact ⟨by simp [MExpr.attrRefs, (ihr.2 x h).1], (ihr.2 x h).2⟩
  | sub l r ihl ihr =>
    refine ⟨fun n hn => ?_, fun x hx => ?_⟩
    · rcases addSub_sub.1 n hn with h | h
      · exact ⟨by simp [MExpr.symRefs, (ihl.1 n h).1], (ihl.1 n h).2⟩
      · exact ⟨by simp [MExpr.symRefs, (ihr.1 n h).1], (ihr.1 n h).2⟩
    · rcases addSub_sub.2 x hx with h | h
      · exact ⟨by simp [MExpr.attrRefs, (ihl.2 x h).1], (ihl.2 x h).2⟩
      · exact ⟨by simp [MExpr.attrRefs, (ihr.2 x h).1], (ihr.2 x h).2⟩
  | mul l r ihl ihr =>
    refine ⟨fun n hn => ?_, fun x hx => ?_⟩
    · rcases divMul_sub.1 n hn with h | h
      · exact ⟨by simp [MExpr.symRefs, (ihl.1 n h).1], (ihl.1 n h).2⟩
      · exact ⟨by simp [MExpr.symRefs, (ihr.1 n h).1], (ihr.1 n h).2⟩
    · rcases divMul_sub.2 x hx with h | h
      · exact ⟨by simp [MExpr.attrRefs, (ihl.2 x h).1], (ihl.2 x h).2⟩
      · exact ⟨by simp [MExpr.attrRefs, (ihr.2 x h).1], (ihr.2 x h).2⟩
  | div l r ihl ihr =>
    refine ⟨fun n hn => ?_, fun x hx => ?_⟩
    · rcases divMul_sub.1 n hn with h | h
      · exact ⟨by simp [MExpr.symRefs, (ihl.1 n h).1], (ihl.1 n h).2⟩
      · exact ⟨by simp [MExpr.symRefs, (ihr.1 n h).1], (ihr.1 n h).2⟩
    · rcases divMul_sub.2 x hx with h | h
      · exact ⟨by simp [MExpr.attrRefs, (ihl.2 x h).1], (ihl.2 x h).2⟩
      · exact ⟨by simp [MExpr.attrRefs, (ihr.2 x h).1], (ihr.2 x h).2⟩

/-- An expression over known things without unresolved spaces has no dependencies. -/
theorem extract_of_known {E : Env} {T : Table} {e : MExpr} (hc : e.Closed T) (hs : e.Settled E.heap T) : (e.collect E T).extract E = [] := by
  obtain ⟨h1, h2⟩ := collect_sub (E := E) (T := T) e
  obtain ⟨h3, h4⟩ := collect_still (E := E) e hs
  have e1 : (e.collect E T).syms = [] := List.eq_nil_iff_forall_not_mem.2 fun n hn => hc.1 n (h1 n hn).1 (h1 n hn).2
  have e2 : (e.collect E T).attrs = [] := List.eq_nil_iff_forall_not_mem.2 fun n hn => (h2 n hn).2 (hc.2 n (h2 n hn).1)
  unfold Coll.extract
  rw [if_neg (by simp [e1]), if_neg (by simp [h3]), e2]
  cases ha : (e.collect E T).addr with
  | none => rfl
  | some a => simp [Addr.norm, h4 a ha, norm_nil]

theorem resolves_stops {st : SymSt} {o : Outcome SymSt} (h : Resolves st o) : ∀ st', o = .ok st' → (∀ d e, ¬ st'.Ready d e) ∧ st'.env = st.env ∧ st'.sps = st.sps ∧ st'.deps.Sublist st.deps := by
  induction h with
  | stop hs => intro st' e; cases e; exact ⟨hs, rfl, rfl, .refl _⟩
  | step _ hf _ ih =>
    intro st' e
    obtain ⟨a, b, c, d⟩ := ih st' e
    obtain ⟨_, _, hd, he, hs⟩ := fire_some hf
    exact ⟨a, b.trans he, c.trans hs, (hd ▸ d).trans List.filter_sublist⟩
  | crash => intro st' e; cases e

/-- C56: when resolution stops, what is still unresolved refers to an undefined symbol, to an unknown attribute or to an address behind
storage of unknown length. -/
theorem C56_complete (st st' : SymSt) (h : Resolves st (.ok st')) (d : Dep) (e : MExpr) (hm : (d, e) ∈ st'.deps) :
    (∃ n ∈ e.symRefs, st'.tab.value n = .undef) ∨ (∃ x ∈ e.attrRefs, ¬ st'.tab.HasAttr x.1 x.2) ∨ ¬ e.Settled st'.env.heap st'.tab := by
  have hs := (resolves_stops h st' rfl).1 d e
  by_cases h1 : ∃ n ∈ e.symRefs, st'.tab.value n = .undef
  · exact .inl h1
  · by_cases h2 : ∃ x ∈ e.attrRefs, ¬ st'.tab.HasAttr x.1 x.2
    · exact .inr (.inl h2)
    · refine .inr (.inr fun h3 => hs ⟨hm, extract_of_known ⟨fun n hn hv => h1 ⟨n, hn, hv⟩, fun x hx => ?_⟩ h3⟩)
      by_cases hh : st'.tab.HasAttr x.1 x.2
      · exact hh
      · exact absurd ⟨x, hx, hh⟩ h2

/-- What it means that a target got the value of its expression. -/
def Dep.Got (d : Dep) (v : SVal) (T : Table) : Prop := match d with
  | .sym n => T.value n = v ∧ v ≠ .undef
  | .attr .L n => ∃ s, T n = some s ∧ ∀ x, v = .abs x → x ≠ -1 → s.len = some x
  | .attr .S n => ∃ s, T n = some s ∧ ∀ x, v = .abs x → -32768 ≤ x → x < 32767 → s.scale = some x
  | _ => True

theorem got_assign {T T' : Table} {d : Dep} {v : SVal} (h : T.assign d v (d.attrVal v) = some T') : d.Got v T' := by
  rw [assign_eq] at h
  cases ho : d.owner with
  | none => simp [ho] at h
  | some n =>
    simp only [ho] at h
    cases hn : T n with
    | none => simp [hn] at h
    | some s =>
      simp only [hn] at h
      split at h
      · rename_i hmay
        injection h with h; subst h
        cases d with
        | space s => trivial
        | sym m =>
          have : m = n := by simpa [Dep.owner] using ho
          subst this
          refine ⟨by simp [Table.value, Table.set, Dep.put], ?_⟩
          simp [Dep.may] at hmay; exact hmay.1
        | attr k m =>
          have : m = n := by simpa [Dep.owner] using ho
          subst this
          cases k with
          | L =>
            refine ⟨_, by simp [Table.set]; rfl, ?_⟩
            rintro x rfl hx
            simp [Dep.put, Dep.attrVal, toLen, hx]
          | S =>
            refine ⟨_, by simp [Table.set]; rfl, ?_⟩
            rintro x rfl hx hy
            have : x.bmod 65536 = x := by rw [Int.bmod_def]; split <;> omega
            simp only [Dep.put, Dep.attrVal, toScale, this]
            rw [if_neg (by omega)]
          | T => trivial
          | I => trivial
          | other => trivial
      · cases h

theorem got_ext {T T' : Table} (h : Ext T T') {d : Dep} {v : SVal} (hg : d.Got v T) : d.Got v T' := by
  cases d with
  | space s => trivial
  | sym n =>
    obtain ⟨a, b⟩ := hg
    exact ⟨(value_ext h (by rw [a]; exact b)).trans a, b⟩
  | attr k n =>
    cases k with
    | L =>
      obtain ⟨s, hs, hl⟩ := hg
      obtain ⟨s', hs', _, hx, _⟩ := h n s hs
      exact ⟨s', hs', fun x hv h1 => hx x (hl x hv h1)⟩
    | S =>
      obtain ⟨s, hs, hl⟩ := hg
      obtain ⟨s', hs', _, _, hx, _⟩ := h n s hs
      exact ⟨s', hs', fun x hv h1 h2 => hx x (hl x hv h1 h2)⟩
    | T => trivial
    | I => trivial
    | other => trivial

/-- C56 (partial): an entry that was resolved has the value its expression has in the end, with everything it refers to known. Missing: see
`C56_order_partial`. -/
theorem C56_value_partial (st st' : SymSt) (hk : st.Keyed) (hm : st.NoMix) (h : Resolves st (.ok st')) (d : Dep) (e : MExpr) (he : (d, e) ∈ st.deps) :
    (d, e) ∈ st'.deps ∨ (e.Closed st'.tab ∧ d.Got (e.resolve st'.env.heap st'.tab) st'.tab) := by
  generalize ho : Outcome.ok st' = o at h
  induction h with
  | stop hs => cases ho; exact .inl he
  | @step st d' e' st1 o hr hf h ih =>
    subst ho
    have hnm : st1.NoMix := fun st2 hfs => hm st2 (.step hr hf hfs)
    by_cases hd : d = d'
    · subst hd
      have := keyed_unique hk he hr.1
      subst this
      have hc := closed_of_ready (hm st (.refl _) d e hr) hr.2
      have hx := fire_ext hf
      have hx' := resolves_ext h st' rfl
      obtain ⟨_, hT, _, henv, _⟩ := fire_some hf
      have hxx := hx.trans hx'
      have hev := (closed_ext (E := st.env) hxx e hc).1
      have henv' := (resolves_stops h st' rfl).2.1.trans henv
      right
      refine ⟨⟨fun n hn => by rw [value_ext hxx (hc.1 n hn)]; exact hc.1 n hn, fun x hx => ?_⟩, ?_⟩
      · obtain ⟨s, hs, hk⟩ := hc.2 x hx
        obtain ⟨s', hs', hk', _⟩ := hasAttr_ext hxx hs hk
        exact ⟨s', hs', hk'⟩
      · have : e.resolve st'.env.heap st'.tab = e.resolve st.env.heap st.tab := by unfold MExpr.resolve; rw [henv', hev]
        rw [this]
        exact got_ext hx' (got_assign hT)
    · refine ih (fire_keyed hk hf) hnm ?_ rfl
      rw [(fire_some hf).2.2.1, List.mem_filter]
      exact ⟨he, by simpa using hd⟩
  | crash => cases ho

theorem resolves_kept {st st' : SymSt} (h : Resolves st (.ok st')) (n : SymId) (e : MExpr) (he : (.sym n, e) ∈ st.deps) :
    (.sym n, e) ∈ st'.deps ∨ st'.tab.value n ≠ .undef := by
  generalize ho : Outcome.ok st' = o at h
  induction h with
  | stop hs => cases ho; exact .inl he
  | @step st d' e' st1 o hr hf h ih =>
    subst ho
    obtain ⟨_, hT, hd, _, _⟩ := fire_some hf
    by_cases hd' : d' = .sym n
    · subst hd'
      have hg := got_ext (resolves_ext h st' rfl) (got_assign hT)
      right
      rw [hg.1]; exact hg.2
    · refine ih ?_ rfl
      rw [hd, List.mem_filter]
      exact ⟨he, by simpa using fun h => hd' h.symm⟩
  | crash => cases ho

/-- A list of entries that is not empty has one of least rank. -/
theorem least_entry (l : List (Dep × MExpr)) (rank : Dep → Nat) (h : l ≠ []) : ∃ x ∈ l, ∀ y ∈ l, rank x.1 ≤ rank y.1 := by
  induction l with
  | nil => exact absurd rfl h
  | cons a l ih =>
    by_cases hl : l = []
    · exact ⟨a, by simp, by intro y hy; simp [hl] at hy; subst hy; exact Nat.le_refl _⟩
    · obtain ⟨x, hx, hmin⟩ := ih hl
      by_cases hc : rank a.1 ≤ rank x.1
      · refine ⟨a, by simp, ?_⟩
        intro y hy
        rcases List.mem_cons.1 hy with rfl | hy
        · exact Nat.le_refl _
        · exact Nat.le_trans hc (hmin y hy)
      · refine ⟨x, by simp [hx], ?_⟩
        intro y hy
        rcases List.mem_cons.1 hy with rfl | hy
        · omega
        · exact hmin y hy

/-- C56 (partial): if every symbol an entry refers to has a value or an entry of its own and these references form no cycle, resolution
leaves nothing unresolved. Missing: attributes and storage of unknown length. -/
theorem C56_total_partial (st st' : SymSt) (h : Resolves st (.ok st')) (hH : ∀ i, st.env.heap.pending i = false) (rank : Dep → Nat)
    (hs : ∀ x ∈ st.deps, x.2.attrRefs = [] ∧ ∀ n ∈ x.2.symRefs, st.tab.value n ≠ .undef ∨ ∃ e, (.sym n, e) ∈ st.deps ∧ rank (.sym n) < rank x.1) :
    st'.deps = [] ∧ ∀ n e, (.sym n, e) ∈ st.deps → st'.tab.value n ≠ .undef := by
  obtain ⟨_, henv, _, hsub⟩ := resolves_stops h st' rfl
  have hnil : st'.deps = [] := by
    by_cases hn : st'.deps = []
    · exact hn
    · obtain ⟨⟨d, e⟩, hx, hmin⟩ := least_entry st'.deps rank hn
      obtain ⟨ha, hr⟩ := hs _ (hsub.subset hx)
      rcases C56_complete st st' h d e hx with ⟨n, hn, hv⟩ | ⟨x, hx, _⟩ | hset
      · rcases hr n hn with h1 | ⟨e', he', hlt⟩
        · exact absurd hv (by rw [value_ext (resolves_ext h st' rfl) h1]; exact h1)
        · rcases resolves_kept h n e' he' with h2 | h2
          · have := hmin _ h2; simp only at this hlt; omega
          · exact absurd hv h2
      · simp only at ha; rw [ha] at hx; simp at hx
      · refine absurd ?_ hset
        rw [henv]
        have : ∀ a : Addr, a.pending st.env.heap = false := fun a => by
          unfold Addr.pending; rw [List.any_eq_false]; intro e _; simp [hH]
        exact ⟨fun _ _ a _ => this a, fun a _ => this a⟩
  refine ⟨hnil, fun n e he => (resolves_kept h n e he).resolve_left (by simp [hnil])⟩

/-! ### Non-vacuity and violations -/

theorem fire_eq {st : SymSt} {d : Dep} {e : MExpr} {v : SVal} {T : Table} (hv : e.resolve st.env.heap st.tab = v) (hu : v ≠ .ub)
    (hT : st.tab.assign d v (d.attrVal v) = some T) : st.fire d e = some { st with tab := T, deps := st.deps.filter (·.1 ≠ d) } := by
  unfold SymSt.fire
  rw [hv, if_neg hu, hT]; rfl

theorem resolves_none {st : SymSt} (h : (st.deps.all fun x => decide ((x.2.collect st.env st.tab).extract st.env ≠ [])) = true) : Resolves st (.ok st) :=
  .stop (by
    rintro d e ⟨hm, he⟩
    rw [List.all_eq_true] at h
    exact of_decide_eq_true (h _ hm) he)

/-- All spaces have got the length 0. -/
def Heap.done : Heap := ⟨fun _ => some ⟨0, []⟩, fun _ => 0, by intro i s h p hp; injection h with h; subst h; simp at hp⟩

/-- `A EQU B+C`, `B EQU C` after `C EQU 3` was read: two entries, both to be resolved. -/
def stTwo (E : Env) : SymSt := ⟨E, Table.set (Table.set (Table.set (fun _ => none) 0 (equSym .undef)) 1 (equSym .undef)) 2 (equSym (.abs 3)),
  [(.sym 0, .add (.sym 1) (.sym 2)), (.sym 1, .sym 2)], []⟩

/-- Non-vacuity of `C56_order_partial`, `C56_value_partial` and `C56_total_partial`. -/
example : (stTwo ⟨.done, fun _ => false, fun _ => false⟩).Keyed ∧ (stTwo ⟨.done, fun _ => false, fun _ => false⟩).NoMix ∧
    ∃ st', Resolves (stTwo ⟨.done, fun _ => false, fun _ => false⟩) (.ok st') ∧ st'.tab.value 0 = .abs 6 ∧ st'.deps = [] := by
  refine ⟨by unfold SymSt.Keyed stTwo; decide, noMix_of_linear (by unfold stTwo; decide), ?_⟩
  refine ⟨_, .step (d := .sym 1) (e := .sym 2) ⟨by unfold stTwo; decide, rfl⟩ rfl
    (.step (d := .sym 0) (e := .add (.sym 1) (.sym 2)) ⟨by decide, rfl⟩ rfl (resolves_nil rfl)), rfl, rfl⟩

example (i : SpId) : Heap.done.pending i = false := by rw [pending_known (H := Heap.done) (s := ⟨0, []⟩) rfl]; rfl

/-- `S`, an address in section 7. -/
def symS : Sym := ⟨.reloc ⟨[(some 7, 1)], 0, []⟩, 228, some 1, none, 0, false⟩
/-- `V+(U+((1-S)-S)*2)` where `S` is symbol 9, `V` symbol 2 and `U` symbol 1. -/
def exprMix : MExpr := .add (.sym 2) (.add (.sym 1) (.mul (.sub (.sub (.const 1) (.sym 9)) (.sym 9)) (.const 2)))
/-- The four symbols, `A` being symbol 0. -/
def tabMix (a u : SVal) : Table := Table.set (Table.set (Table.set (Table.set (fun _ => none) 9 symS) 0 (equSym a)) 1 (equSym u)) 2 (equSym (.abs 3))

/-- Violation: with `A EQU V+(U+((1-S)-S)*2)`, `U EQU V`, `V EQU 3` the dependency of `A` on `U` is forgotten because the code takes the product
for one of addresses. `A` becomes 0 or 4, depending on the order of an unordered map. -/
theorem C56_witness_order : let prog := [.label 9 symS, .equ 0 (equSym .undef) exprMix, .equ 1 (equSym .undef) (.sym 2), .equ 2 (equSym .undef) (.const 3)]
    (∃ st, ExecAll (.init .plain) prog (.ok st) ∧ st.tab.value 0 = .abs 0 ∧ st.tab.value 1 = .abs 3) ∧
    (∃ st, ExecAll (.init .plain) prog (.ok st) ∧ st.tab.value 0 = .abs 4 ∧ st.tab.value 1 = .abs 3) := by
  have start : ∀ o, Exec ⟨.plain, Table.set (Table.set (Table.set (fun _ => none) 9 symS) 0 (equSym .undef)) 1 (equSym .undef),
      [(.sym 0, exprMix), (.sym 1, .sym 2)], []⟩ (.equ 2 (equSym .undef) (.const 3)) (.ok o) →
      ExecAll (.init .plain) [.label 9 symS, .equ 0 (equSym .undef) exprMix, .equ 1 (equSym .undef) (.sym 2), .equ 2 (equSym .undef) (.const 3)] (.ok o) := by
    intro o ho
    refine .cons (.label rfl (.defined (env := .plain) (sps := []) rfl (by decide) (fun _ => ⟨rfl, rfl⟩) (resolves_nil rfl))) ?_
    refine .cons (.equLater rfl (by decide +kernel) (by decide +kernel) (.pending rfl rfl) (.added (fuel := 1) (by decide) (by decide +kernel))) ?_
    refine .cons (.equLater rfl (by decide +kernel) (by decide +kernel) (.pending rfl rfl) (.added (fuel := 1) (by decide) (by decide +kernel))) ?_
    exact .cons ho .nil
  refine ⟨⟨⟨.plain, Table.set (Table.set (tabMix .undef .undef) 0 (equSym (.abs 0))) 1 (equSym (.abs 3)), [], []⟩, start _ ?_, rfl, rfl⟩,
    ⟨⟨.plain, Table.set (Table.set (tabMix .undef .undef) 1 (equSym (.abs 3))) 0 (equSym (.abs 4)), [], []⟩, start _ ?_, rfl, rfl⟩⟩
  · refine .equNow rfl (by decide) (.defined (env := .plain) (sps := []) rfl (by decide) (fun _ => ⟨rfl, rfl⟩) ?_)
    refine .step (d := .sym 0) (e := exprMix) (st' := ⟨.plain, Table.set (tabMix .undef .undef) 0 (equSym (.abs 0)), [(.sym 1, .sym 2)], []⟩)
      ⟨by decide, by decide +kernel⟩ ?_ ?_
    · exact fire_eq (v := .abs 0) (by decide +kernel) (by decide) rfl
    · exact .step (d := .sym 1) (e := .sym 2) ⟨by decide, by decide +kernel⟩ rfl (resolves_nil rfl)
  · refine .equNow rfl (by decide) (.defined (env := .plain) (sps := []) rfl (by decide) (fun _ => ⟨rfl, rfl⟩) ?_)
    refine .step (d := .sym 1) (e := .sym 2) (st' := ⟨.plain, Table.set (tabMix .undef .undef) 1 (equSym (.abs 3)), [(.sym 0, exprMix)], []⟩)
      ⟨by decide, by decide +kernel⟩ rfl ?_
    refine .step (d := .sym 0) (e := exprMix) ⟨by decide, by decide +kernel⟩ (fire_eq (v := .abs 4) (by decide +kernel) (by decide) rfl) (resolves_nil rfl)

/-- Violation: `A DS CL(B)`, `B EQU -1`: the length of `A` is assigned, but -1 is the code's mark of an undefined length, so whatever refers to it
waits for ever. -/
theorem C56_witness_length : ∃ st, ExecAll (.init .plain) [.data 0 symS (some (.sym 1)) none, .equ 2 (equSym .undef) (.attr .L 0),
    .equ 1 (equSym .undef) (.const (-1))] (.ok st) ∧ st.deps = [(.sym 2, .attr .L 0)] ∧ st.tab.value 1 = .abs (-1) ∧ st.tab.value 2 = .undef := by
  refine ⟨⟨.plain, Table.set (Table.set (Table.set (Table.set (fun _ => none) 0 { symS with len := none }) 2 (equSym .undef)) 1 (equSym (.abs (-1)))) 0
    { symS with len := none }, [(.sym 2, .attr .L 0)], []⟩, ?_, rfl, rfl, rfl⟩
  refine .cons (.dataNew (env := .plain) (sps := []) rfl (.defined (env := .plain) (sps := []) rfl (by decide) (fun _ => ⟨rfl, rfl⟩) (resolves_nil rfl))
    (.add rfl rfl (.added (fuel := 1) (by decide) (by decide +kernel))) (.skip rfl)) ?_
  refine .cons (.equLater rfl (by decide +kernel) (by decide +kernel) (.pending rfl rfl) (.added (fuel := 2) (by decide) (by decide +kernel))) ?_
  refine .cons (.equNow rfl (by decide) (.defined (env := .plain) (sps := []) rfl (by decide) (fun _ => ⟨rfl, rfl⟩) ?_)) .nil
  refine .step (d := .attr .L 0) (e := .sym 1) ⟨by decide, by decide +kernel⟩ (fire_eq (v := .abs (-1)) (by decide +kernel) (by decide) rfl) (resolves_none (by decide +kernel))

/-- Violation: `B EQU A-S`, `A DS CL(B)`: when the label is defined `B` gets its value, and the code then no longer sees a reason to register the
length of `A`, which it left undefined: it stays so although its modifier is known. -/
theorem C56_witness_lost_length : ∃ st, ExecAll (.init .plain) [.label 9 symS, .equ 1 (equSym .undef) (.sub (.sym 0) (.sym 9)), .data 0 symS (some (.sym 1)) none] (.ok st) ∧
    st.deps = [] ∧ st.tab.value 1 = .abs 0 ∧ (st.tab 0).map (·.len) = some none := by
  refine ⟨⟨.plain, Table.set (Table.set (Table.set (Table.set (fun _ => none) 9 symS) 1 (equSym .undef)) 0 { symS with len := none }) 1 (equSym (.abs 0)), [], []⟩, ?_, rfl, rfl, rfl⟩
  refine .cons (.label rfl (.defined (env := .plain) (sps := []) rfl (by decide) (fun _ => ⟨rfl, rfl⟩) (resolves_nil rfl))) ?_
  refine .cons (.equLater rfl (by decide +kernel) (by decide +kernel) (.pending rfl rfl) (.added (fuel := 1) (by decide) (by decide +kernel))) ?_
  exact .cons (.dataNew (env := .plain) (sps := []) rfl (.defined (env := .plain) (sps := []) rfl (by decide) (fun _ => ⟨rfl, rfl⟩)
    (.step (d := .sym 1) (e := .sub (.sym 0) (.sym 9)) ⟨by decide, by decide +kernel⟩ (fire_eq (v := .abs 0) (by decide +kernel) (by decide) rfl) (resolves_nil rfl)))
    (.skip rfl) (.skip rfl)) .nil

/-! ### C55: cycles that are not found -/

/-- The tables after `A EQU B+L'C`, `C DS CL(A)`, `B EQU 1`; `A`, `B`, `C` are the symbols 0, 1, 2. -/
def stHidden : SymSt := ⟨.plain, Table.set (Table.set (Table.set (fun _ => none) 0 (equSym .undef)) 2 { symS with len := none }) 1 (equSym (.abs 1)),
  [(.sym 0, .add (.sym 1) (.attr .L 2)), (.attr .L 2, .sym 0)], []⟩

/-- Violation: `A` depends on the length of `C` and the length of `C` on `A`. While `B` is undefined the code looks at `B` only; the cycle is
accepted. -/
theorem C55_witness_hidden : ExecAll (.init .plain) [.equ 0 (equSym .undef) (.add (.sym 1) (.attr .L 2)), .data 2 symS (some (.sym 0)) none,
    .equ 1 (equSym .undef) (.const 1)] (.ok stHidden) ∧ stHidden.Edge (.sym 0) (.attr .L 2) ∧ stHidden.Edge (.attr .L 2) (.sym 0) := by
  refine ⟨?_, ⟨_, rfl, by decide +kernel⟩, ⟨_, rfl, by decide +kernel⟩⟩
  refine .cons (.equLater rfl (by decide +kernel) (by decide +kernel) (.pending rfl rfl) (.added (fuel := 2) (by decide) (by decide +kernel))) ?_
  refine .cons (.dataNew (env := .plain) (sps := []) rfl (.defined (env := .plain) (sps := []) rfl (by decide) (fun _ => ⟨rfl, rfl⟩) (resolves_none (by decide +kernel)))
    (.add rfl rfl (.added (fuel := 3) (by decide) (by decide +kernel))) (.skip rfl)) ?_
  exact .cons (.equNow rfl (by decide) (.defined (env := .plain) (sps := []) rfl (by decide) (fun _ => ⟨rfl, rfl⟩) (resolves_none (by decide +kernel)))) .nil

/-- The tables with `D` (symbol 3) just created. -/
def stHang : SymSt := { stHidden with tab := stHidden.tab.set 3 (equSym .undef) }

theorem hang (fuel : Nat) : stHang.checkLoop (.sym 3) fuel [.sym 0] = none ∧ stHang.checkLoop (.sym 3) fuel [.attr .L 2] = none := by
  induction fuel with
  | zero => exact ⟨rfl, rfl⟩
  | succ k ih =>
    have h0 : stHang.out (.sym 0) = some [.attr .L 2] := by decide +kernel
    have h2 : stHang.out (.attr .L 2) = some [.sym 0] := by decide +kernel
    constructor
    · simp only [SymSt.checkLoop, h0]; exact ih.2
    · simp only [SymSt.checkLoop, h2]; exact ih.1

/-- Violation: on such tables the next dependency, `D EQU A`, sends the check into an endless loop: no bound on the number of rounds suffices and
the statement has no outcome. -/
theorem C55_witness_hang : (∀ fuel, stHang.checkCycle (.sym 3) fuel [.sym 0] = none) ∧ ∀ o, ¬ Exec stHidden (.equ 3 (equSym .undef) (.sym 0)) o := by
  have hloop : ∀ fuel, stHang.checkCycle (.sym 3) fuel [.sym 0] = none := fun fuel => by
    unfold SymSt.checkCycle
    rw [if_neg (by decide)]; exact (hang fuel).1
  refine ⟨hloop, ?_⟩
  have hadd : ∀ o, ¬ AddDep stHang (.sym 3) (.sym 0) o := by
    have hx : ((MExpr.sym 0).collect stHang.env stHang.tab).extract stHang.env = [.sym 0] := by decide +kernel
    intro o h
    cases h with
    | present h => revert h; decide
    | added _ h => rw [hx, hloop] at h; cases h
    | cyclic _ h => rw [hx, hloop] at h; cases h
    | cyclicCrash _ h => rw [hx, hloop] at h; cases h
    | defined _ h => rw [hx, hloop] at h; cases h
  have hcre : ∀ st, Create stHidden 3 { equSym .undef with val := .undef } (.ok st) → st = stHang := by
    intro st h
    cases h with
    | pending => rfl
    | defined _ h => exact absurd rfl h
  intro o h
  cases h with
  | equDup h => exact h (by decide)
  | equNow _ h => revert h; decide +kernel
  | equAddr _ _ h => revert h; decide +kernel
  | equLater _ _ _ hc ha => rw [hcre _ hc] at ha; exact hadd _ ha
  | equLaterCrash _ _ _ hc ha => rw [hcre _ hc] at ha; exact hadd _ ha

end Verif.Ord
