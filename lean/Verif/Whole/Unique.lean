import Verif.Whole.Props
/-!
C134: the values are the only ones that satisfy the program.
-/
namespace Verif.Whole
open Verif.Ord

section
variable {Q : Val → MExpr → Prop} {G : Values} {v : SpId → Int}

/-! ### Expressions, for any lengths the known ones agree with -/

theorem under_inv {σ : SpId → Int} {st : St} {p : Int} {out : List Int} (h : Inv σ v st.lc p out) : Under st.env.heap v := by
  constructor
  · intro i s hs
    change st.lc.heap.info i = some s at hs
    rw [info_eq] at hs
    cases hl : lenOf st.lc.spaces i with
    | none => simp [hl] at hs
    | some l => simp [hl] at hs; rw [← hs]
  · intro i s hs
    change st.lc.heap.info i = some s at hs
    rw [info_eq] at hs
    cases hl : lenOf st.lc.spaces i with
    | none => simp [hl] at hs
    | some l =>
      simp [hl] at hs
      rw [← hs]
      exact h.res i l hl

theorem eval_good {st : St} (hu : Under st.env.heap v) (hg : Good v G st.tab) {a : Addr} (ha : SimpleA a) {e : MExpr} (ht : Tidy G e)
    {w : Val} (hw : value G (.rel (aval v a)) e = some w) (hc : Closed st (fill a e)) (hub : (fill a e).eval st.env.heap st.tab ≠ .ub) :
    Rep v ((fill a e).eval st.env.heap st.tab) (some w) ∧
      ∀ b, (fill a e).eval st.env.heap st.tab = .reloc b → b.norm st.env.heap = [] := by
  obtain ⟨c1, c2, c3⟩ := hc
  have hsh := (eval_shape (env_unknown st) hu hg ha rfl e w hw ht c1 c2).resolve_left hub
  refine ⟨(eval_closed (env_unknown st) hu hg ha rfl hw ht c1 c2 c3).resolve_left hub, ?_⟩
  intro b hb
  rw [hb] at hsh
  generalize ((fill a e).collect st.env st.tab).addr = o at hsh c3
  generalize places G e = n at hsh
  cases hsh with
  | place s e2 =>
    have := c3 _ rfl
    unfold Addr.norm at this e2 ⊢
    rw [e2, norm_norm] at this
    exact this
  | pend n1 k1 u1 => exact absurd ((norm_canonical k1 u1).symm.trans (c3 _ rfl)) n1

theorem resolve_good {st : St} (hu : Under st.env.heap v) (hg : Good v G st.tab) {a : Addr} (ha : SimpleA a) {e : MExpr} (ht : Tidy G e)
    {w : Val} (hw : value G (.rel (aval v a)) e = some w) (hc : Closed st (fill a e))
    (hub : (fill a e).resolve st.env.heap st.tab ≠ .ub) :
    Rep v ((fill a e).resolve st.env.heap st.tab) (some w) ∧
      ∀ b, (fill a e).resolve st.env.heap st.tab = .reloc b → b.norm st.env.heap = [] := by
  have hub' : (fill a e).eval st.env.heap st.tab ≠ .ub := by
    intro h; unfold MExpr.resolve at hub; rw [h] at hub; exact hub rfl
  obtain ⟨hx, hy⟩ := eval_good hu hg ha ht hw hc hub'
  unfold MExpr.resolve at hub ⊢
  generalize (fill a e).eval st.env.heap st.tab = x at hx hy
  cases x with
  | undef => exact absurd hx (by simp [Rep])
  | ub => exact absurd hx (by simp [Rep])
  | abs k => exact ⟨hx, by intro b hb; cases hb⟩
  | reloc b => exact ⟨hx, hy⟩

/-- All spaces of the address are there. -/
def Inside (st : St) (a : Addr) : Prop := ∀ x ∈ a.spaces.map (·.1), x < st.lc.spaces.length

theorem known_inside {st : St} (hu : Under st.env.heap v) {b : Addr} (hb : SimpleA b) (hn : b.norm st.env.heap = []) : Fit st b ∧ Inside st b := by
  unfold Addr.norm at hn
  rw [norm_eq hu hb.2] at hn
  unfold unknownIn at hn
  rw [List.filter_eq_nil_iff] at hn
  have hi : Inside st b := by
    intro x hx
    obtain ⟨e, he, rfl⟩ := List.mem_map.1 hx
    have := hn e he
    change ¬ (st.lc.heap.info e.1).isNone = true at this
    rw [info_eq] at this
    cases hl : lenOf st.lc.spaces e.1 with
    | none => simp [hl] at this
    | some l => exact len_lt hl
  refine ⟨⟨hb, fun h0 => List.eq_nil_iff_forall_not_mem.2 fun e he => ?_⟩, hi⟩
  have := hi e.1 (List.mem_map_of_mem he)
  rw [h0] at this
  exact absurd this (by simp)

theorem aval_inside {st : St} {v' : SpId → Int} {a : Addr} (ha : Inside st a) (h : ∀ i, i < st.lc.spaces.length → v' i = v i) : aval v' a = aval v a := by
  unfold aval vsum
  congr 2
  exact List.map_congr_left fun e he => h e.1 (ha e.1 (List.mem_map_of_mem he))

/-! ### What stays on the way, for values that satisfy the program -/

/-- The state agrees with the values `G`, the lengths `v` and the place `p`. -/
structure Fwd (Q : Val → MExpr → Prop) (G : Values) (v : SpId → Int) (st : St) (p : Int) : Prop where
  wf : Wf st
  inv : ∃ out, Inv v v st.lc p out
  good : Good v G st.tab
  tab : ∀ n a, st.tab.value n = .reloc a → Fit st a ∧ Inside st a
  log : ∀ a ∈ st.lc.log, Fit st a ∧ Inside st a
  deps : ∀ y ∈ st.deps, ∃ a e w, y.2 = fill a e ∧ SimpleA a ∧ Inside st a ∧ Tidy G e ∧ value G (.rel (aval v a)) e = some w ∧ G y.1 = some w ∧
    Q (.rel (aval v a)) e
  gaps : ∀ y ∈ st.gaps, ∃ a e k, y.2.2 = fill a e ∧ SimpleA a ∧ Inside st a ∧ Tidy G e ∧ value G (.rel (aval v a)) e = some (.abs k) ∧
    v y.1 = bytes y.2.1 k ∧ Q (.rel (aval v a)) e
  seen : ∀ n, st.tab n ≠ none → st.tab.value n ≠ .undef ∨ ∃ x, (n, x) ∈ st.deps

theorem fwd_init (G : Values) : Fwd Q G (fun _ => 0) St.init 0 := by
  refine ⟨wf_init, ⟨_, inv_init _⟩, ?_, ?_, ?_, ?_, ?_, ?_⟩ <;> simp [St.init, LC.init, Table.value, Good]

theorem Fwd.under {st : St} {p : Int} (h : Fwd Q G v st p) : Under st.env.heap v := by
  obtain ⟨out, hi⟩ := h.inv
  exact under_inv hi

theorem inv_diag {σ : SpId → Int} {c : LC} {p : Int} {out : List Int} (h : Inv σ v c p out) (hn : ∀ i n, kindOf c.spaces i = some (.ordinary n) → n = i) :
    Inv v v c p out := by
  constructor
  case ord => intro i n hk; rw [hn i n hk]
  all_goals first | exact h.sum | exact h.pos | exact h.lt | exact h.unres | exact h.nodup | exact h.ok | exact h.res | exact h.byte | exact h.pow | exact h.dep | exact h.depres | exact h.chain | exact h.log

theorem inv_names {σ τ : SpId → Int} {c : LC} {p : Int} {out : List Int} (h : Inv σ v c p out)
    (hn : ∀ i n, kindOf c.spaces i = some (.ordinary n) → v i = τ n) : Inv τ v c p out := by
  constructor
  case ord => exact hn
  all_goals first | exact h.sum | exact h.pos | exact h.lt | exact h.unres | exact h.nodup | exact h.ok | exact h.res | exact h.byte | exact h.pow | exact h.dep | exact h.depres | exact h.chain | exact h.log

/-- A step of the location counter. -/
theorem fwd_lc {σ v' : SpId → Int} {st : St} {c : LC} {p p' : Int} {out : List Int} (h : Fwd Q G v st p) (hag : ∀ i, i < st.lc.spaces.length → v' i = v i)
    (hi : Inv σ v' c p' out) (hg : Grow st.lc c) (hl : ∀ a ∈ c.log, a ∈ st.lc.log ∨ a = c.current) (hw : Wf { st with lc := c }) :
    Fwd Q G v' { st with lc := c } p' := by
  have hin : ∀ {a}, Inside st a → Inside { st with lc := c } a := fun ha x hx => Nat.lt_of_lt_of_le (ha x hx) hg.size
  refine ⟨hw, ⟨out, inv_diag hi hw.name⟩, ?_, ?_, ?_, ?_, ?_, h.seen⟩
  · intro n hn
    have := h.good n hn
    change Rep v' (st.tab.value n) (G n)
    cases hv : st.tab.value n with
    | undef => exact absurd hv hn
    | ub => rw [hv] at this; exact this
    | abs k => rw [hv] at this; exact this
    | reloc a =>
      rw [hv] at this
      exact ⟨this.1, by rw [this.2, aval_inside (h.tab n a hv).2 hag]⟩
  · intro n a ha
    obtain ⟨h1, h2⟩ := h.tab n a ha
    exact ⟨fit_grow (st := st) hg.size h1, hin h2⟩
  · intro a ha
    rcases hl a ha with ha | ha
    · obtain ⟨h1, h2⟩ := h.log a ha
      exact ⟨fit_grow (st := st) hg.size h1, hin h2⟩
    · subst ha
      refine ⟨fit_current (st := { st with lc := c }) hi, ?_⟩
      intro x hx
      rw [current_eq hi] at hx
      simp only [List.map_map, Function.comp_def] at hx
      exact hi.lt x hx
  · intro y hy
    obtain ⟨a, e, w, h1, h2, h3, h4, h5, h6, h7⟩ := h.deps y hy
    exact ⟨a, e, w, h1, h2, hin h3, h4, by rw [aval_inside h3 hag]; exact h5, h6, by rw [aval_inside h3 hag]; exact h7⟩
  · intro y hy
    obtain ⟨a, e, k, h1, h2, h3, h4, h5, h6, h7⟩ := h.gaps y hy
    exact ⟨a, e, k, h1, h2, hin h3, h4, by rw [aval_inside h3 hag]; exact h5, by rw [hag _ (kind_lt (h.wf.wait y hy).1)]; exact h6,
      by rw [aval_inside h3 hag]; exact h7⟩

theorem fwd_reserve {st : St} {p : Int} (h : Fwd Q G v st p) (len : Nat) {al : Al} (hp : Pow al) (h0 : al.byte = 0) :
    ∃ v', Fwd Q G v' { st with lc := st.lc.reserve len al } (alignUp al p + len) ∧ ∀ i, i < st.lc.spaces.length → v' i = v i := by
  obtain ⟨out, hi⟩ := h.inv
  have hpos : al.byte < al.boundary := by
    obtain ⟨k, _, e⟩ := hp
    rw [h0, e]; exact Nat.two_pow_pos k
  obtain ⟨v', hag, hi'⟩ := inv_step_keep hi (.reserve len al) ⟨hp, hpos, .inl h0⟩
  refine ⟨v', fwd_lc h hag hi' (grow_reserve _ _ _) ?_ (wf_oneMore h.wf (oneMore_reserve _ _ _)), hag⟩
  intro a ha
  change a ∈ (st.lc.reserve len al).log at ha
  rw [log_reserve] at ha
  rcases List.mem_append.1 ha with ha | ha
  · exact .inl ha
  · simp only [List.mem_singleton] at ha; exact .inr ha

/-- A symbol is defined. -/
theorem fwd_new {st : St} {p : Int} (h : Fwd Q G v st p) {n : SymId} {x : SVal} (hn : st.tab n = none) (hr : Rep v x (G n))
    (hx : ∀ a, x = .reloc a → Fit st a ∧ Inside st a) : Fwd Q G v { st with tab := st.tab.set n (mkSym x) } p := by
  refine ⟨wf_new h.wf hn _, h.inv, ?_, ?_, h.log, h.deps, h.gaps, ?_⟩
  · intro m hm
    simp only [value_set, mkSym] at hm ⊢
    split
    · rename_i e; subst e; exact hr
    · rename_i e; rw [if_neg e] at hm; exact h.good m hm
  · intro m a ha
    simp only [value_set, mkSym] at ha
    split at ha
    · exact hx a ha
    · exact h.tab m a ha
  · intro m hm
    by_cases e : m = n
    · subst e
      left
      simp only [value_set, mkSym, if_pos]
      exact rep_defined hr
    · simp only [value_set, if_neg e]
      simp only [Table.set, if_neg e] at hm
      exact h.seen m hm

/-- A definition that waited. -/
theorem fwd_sym {st : St} {p : Int} (h : Fwd Q G v st p) {n : SymId} {x : MExpr} (hm : (n, x) ∈ st.deps) (hc : Closed st x)
    (hub : x.resolve st.env.heap st.tab ≠ .ub) :
    Fwd Q G v { st with tab := st.tab.set n (mkSym (x.resolve st.env.heap st.tab)), deps := st.deps.filter (·.1 ≠ n) } p := by
  obtain ⟨a, e, w, h1, h2, h3, h4, h5, h6, h7⟩ := h.deps _ hm
  simp only at h1 h6
  subst h1
  obtain ⟨r1, r2⟩ := resolve_good h.under h.good h2 h4 h5 hc hub
  refine ⟨tr_wf h.wf (.sym (F := G) (σ := v) (p := p) hm hc hub), h.inv, ?_, ?_, h.log, ?_, h.gaps, ?_⟩
  · intro m hm
    simp only [value_set, mkSym] at hm ⊢
    split
    · rename_i e; subst e; rw [h6]; exact r1
    · rename_i e; rw [if_neg e] at hm; exact h.good m hm
  · intro m b hb
    simp only [value_set, mkSym] at hb
    split at hb
    · rw [hb] at r1
      exact known_inside (st := st) h.under r1.1 (r2 b hb)
    · exact h.tab m b hb
  · intro y hy; exact h.deps y (List.mem_filter.1 hy).1
  · intro m hm
    by_cases e : m = n
    · subst e
      left
      simp only [value_set, mkSym, if_pos]
      exact rep_defined r1
    · simp only [value_set, if_neg e]
      simp only [Table.set, if_neg e] at hm
      refine (h.seen m hm).imp_right fun ⟨y, hy⟩ => ⟨y, ?_⟩
      exact List.mem_filter.2 ⟨hy, by simpa using e⟩

theorem fwd_resolves {st : St} {o : Out} (h : Resolves st o) : ∀ st' p, o = .ok st' → Fwd Q G v st p → Fwd Q G v st' p := by
  induction h with
  | stop => intro st' p e hk; cases e; exact hk
  | step h1 h2 h3 _ ih =>
    intro st' p e hk
    exact ih st' p e (fwd_sym hk h1 (closed_extract h2) h3)
  | crash => intro st' p e; cases e

/-- A length that waited, or an alignment. -/
theorem fwd_round {st st' : St} {p : Int} (h : Fwd Q G v st p) (hr : Round st (.ok st')) : ∃ v', Fwd Q G v' st' p := by
  obtain ⟨out, hi⟩ := h.inv
  cases hr with
  | sym h1 h2 h3 => exact ⟨v, fwd_sym h h1 (closed_extract h2) h3⟩
  | gap h1 h2 h3 =>
    rename_i i u x
    obtain ⟨a, e, k, g1, g2, g3, g4, g5, g6, g7⟩ := h.gaps _ h1
    simp only at g1 g6
    subst g1
    obtain ⟨j1, j2, _⟩ := collect_ok (env_unknown st) h.good g2 e _ g5
    have hcl := closed_data j1 j2 (closed_extract h2)
    have hv := rep_abs (eval_good h.under h.good g2 g4 g5 hcl h3).1
    obtain ⟨hk, hl⟩ := h.wf.wait _ h1
    have hwf := tr_wf h.wf (.define (F := G) (σ := v) (p := p) h1 h2 h3)
    obtain ⟨v', hag, hi'⟩ := inv_step_keep hi (.define i (byteLen u ((fill a e).eval st.env.heap st.tab) : Nat)) (by
      intro s n hs hn
      have : kindOf st.lc.spaces i = some (.ordinary n) := by unfold kindOf; rw [hs]; simp [hn]
      rw [h.wf.name i n this, g6, hv, byteLen_bytes])
    refine ⟨v', ?_⟩
    have hlog : (st.lc.step (.define i (byteLen u ((fill a e).eval st.env.heap st.tab) : Nat))).log = st.lc.log := by
      unfold LC.step
      simp only
      split
      · exact log_setLen _ _ _
      · rfl
    have hf := fwd_lc (st := { st with gaps := st.gaps.filter (·.1 ≠ i) }) (c := st.lc.step (.define i (byteLen u ((fill a e).eval st.env.heap st.tab) : Nat)))
      (Q := Q) (G := G) (v := v) (p := p) ?_ hag hi' (grow_define _ _ _) (by intro b hb; rw [hlog] at hb; exact .inl hb) hwf
    · exact hf
    · exact ⟨⟨h.wf.deps, h.wf.open', nodup_filter_keys h.wf.gaps _, fun y hy => h.wf.wait y (List.mem_filter.1 hy).1, h.wf.name⟩, h.inv, h.good, h.tab, h.log, h.deps,
        fun y hy => h.gaps y (List.mem_filter.1 hy).1, h.seen⟩
  | align h1 h2 =>
    rename_i i d
    obtain ⟨v', hag, hi'⟩ := inv_step_keep hi (.settle i) trivial
    have hlog : (st.lc.step (.settle i)).log = st.lc.log := by
      unfold LC.step
      simp only
      split
      · split
        · exact log_setLen _ _ _
        · rfl
      · rfl
    exact ⟨v', fwd_lc h hag hi' (grow_settle _ _) (by intro b hb; rw [hlog] at hb; exact .inl hb) (tr_wf h.wf (.settle (F := G) (σ := v) (p := p) i))⟩

theorem fwd_settles {st : St} {o : Out} (h : Settles st o) : ∀ st' p v, o = .ok st' → Fwd Q G v st p → ∃ v', Fwd Q G v' st' p := by
  induction h with
  | stop => intro st' p v e hk; cases e; exact ⟨v, hk⟩
  | step hr _ ih =>
    intro st' p v e hk
    obtain ⟨v', hk'⟩ := fwd_round hk hr
    exact ih st' p v' e hk'
  | crash => intro st' p v e; cases e

theorem address_good {st : St} {p : Int} (h : Fwd Q G v st p) {a b : Addr} (ha : Fit st a) (hia : Inside st a) {e : MExpr} (hb : Bare e)
    {w : Val} (hw : value G (.rel (aval v a)) e = some w) (hadr : ((fill a e).collect st.env st.tab).addr = some b) :
    Rep v (.reloc b) (some w) ∧ Fit st b ∧ Inside st b := by
  have key : ∀ c : Addr, Fit st c → Inside st c → b = ⟨c.bases, c.offset st.env.heap, c.norm st.env.heap⟩ → w = .rel (aval v c) →
      Rep v (.reloc b) (some w) ∧ Fit st b ∧ Inside st b := by
    intro c hc hic e1 e2
    have hsm : SimpleA b := by rw [e1]; exact ⟨hc.1.1, ones_norm h.under hc.1.2⟩
    have hin : Inside st b := by
      intro x hx
      rw [e1] at hx
      simp only [Addr.norm] at hx
      rw [norm_eq h.under hc.1.2] at hx
      obtain ⟨y, hy, rfl⟩ := List.mem_map.1 hx
      exact hic y.1 (List.mem_map_of_mem (List.mem_filter.1 hy).1)
    refine ⟨⟨hsm, ?_⟩, ⟨hsm, ?_⟩, hin⟩
    · rw [e2, aval_eq h.under c hc.1.2, e1]; rfl
    · intro h0
      rw [e1]
      simp only [Addr.norm]
      rw [hc.2 h0]; rfl
  induction e with
  | sym n =>
    simp only [fill, MExpr.collect] at hadr
    simp only [value] at hw
    cases hv : st.tab.value n with
    | reloc c =>
      rw [hv] at hadr
      have hg := h.good n (by rw [hv]; simp)
      rw [hv, hw] at hg
      cases hadr
      exact key c (h.tab n c hv).1 (h.tab n c hv).2 rfl (by have := hg.2; simpa using this)
    | undef => rw [hv] at hadr; cases hadr
    | ub => rw [hv] at hadr; cases hadr
    | abs k => rw [hv] at hadr; cases hadr
  | loc o =>
    cases hadr
    simp only [value, Option.some.injEq] at hw
    exact key a ha hia rfl hw.symm
  | par e ih => exact ih hb hw hadr
  | _ => cases hb

theorem address_case_good {st : St} {p : Int} (h : Fwd Q G v st p) {a b : Addr} (ha : Fit st a) (hia : Inside st a) {e : MExpr}
    (h3 : IsNumber G e ∨ IsPlace G e ∧ (st.lc.spaces = [] ∨ Bare e))
    (h4 : ((fill a e).collect st.env st.tab).contains st.env = true) (h5 : ((fill a e).collect st.env st.tab).isAddress = true)
    (h6 : ((fill a e).collect st.env st.tab).addr = some b) {w : Val} (hw : value G (.rel (aval v a)) e = some w) :
    Rep v (.reloc b) (some w) ∧ Fit st b ∧ Inside st b := by
  obtain ⟨j1, j2, j3⟩ := collect_ok (env_unknown st) h.good ha.1 e _ hw
  unfold Coll.isAddress at h5
  rw [h6] at h5
  simp only [Bool.and_eq_true, List.isEmpty_iff, Bool.not_eq_true'] at h5
  rcases h3 with h3 | ⟨h3, h7 | h7⟩
  · obtain ⟨k, hk⟩ := number_here (aval v a) h3
    rw [hw] at hk
    cases hk
    have := j3 h5.1 b h6
    rw [this] at h5
    simp at h5
  · exfalso
    obtain ⟨q1, q2⟩ := collect_quiet (env_unknown st) (T := st.tab) (fun n c hc => (h.tab n c hc).1.2 h7) (ha.2 h7) e
    unfold Coll.contains at h4
    rw [h5.1, j2, q1, h6] at h4
    have := q2 b h6
    simp [Addr.pending, this] at h4
  · exact address_good h ha hia h7 hw h6

/-- `n EQU e`. -/
theorem fwd_equ {st st' : St} {p : Int} (h : Fwd Q G v st p) {n : SymId} {a : Addr} {e : MExpr} (hx : Equ st n (fill a e) (.ok st')) (ha : a ∈ st.lc.log)
    (ht : Tidy G e) (hk : IsNumber G e ∨ IsPlace G e ∧ (st.lc.spaces = [] ∨ Bare e)) {w : Val} (hw : value G (.rel (aval v a)) e = some w)
    (hn : G n = some w) (hq : Q (.rel (aval v a)) e) : Fwd Q G v st' p := by
  obtain ⟨ha1, ha2⟩ := h.log a ha
  cases hx with
  | now h1 h2 h3 h4 =>
    obtain ⟨r1, r2⟩ := resolve_good h.under h.good ha1.1 ht hw (closed_contains h2) h3
    refine fwd_resolves (create_ok h4) st' p rfl (fwd_new h h1 (by rw [hn]; exact r1) ?_)
    intro b hb
    rw [hb] at r1
    exact known_inside h.under r1.1 (r2 b hb)
  | address h1 h2 h3 h4 h5 =>
    obtain ⟨r1, r2⟩ := address_case_good h ha1 ha2 hk h2 h3 h4 hw
    refine fwd_resolves (create_ok h5) st' p rfl (fwd_new h h1 (by rw [hn]; exact r1) ?_)
    intro c hc
    cases hc
    exact r2
  | later h1 h2 h3 h4 =>
    have hwf := tr_wf h.wf (.later (F := G) (σ := v) (p := p) h1 ha ht (hk.imp_right And.left))
    refine ⟨hwf, h.inv, ?_, ?_, h.log, ?_, h.gaps, ?_⟩
    · intro m hm
      simp only [value_set, mkSym] at hm ⊢
      split
      · rename_i e; rw [if_pos e] at hm; exact absurd rfl hm
      · rename_i e; rw [if_neg e] at hm; exact h.good m hm
    · intro m b hb
      simp only [value_set, mkSym] at hb
      split at hb
      · cases hb
      · exact h.tab m b hb
    · intro y hy
      rcases List.mem_append.1 hy with hy | hy
      · exact h.deps y hy
      · simp only [List.mem_singleton] at hy
        subst hy
        exact ⟨a, e, w, rfl, ha1.1, ha2, ht, hw, hn, hq⟩
    · intro m hm
      by_cases e' : m = n
      · subst e'
        exact .inr ⟨_, List.mem_append_right _ (by simp; rfl)⟩
      · simp only [value_set, if_neg e']
        simp only [Table.set, if_neg e'] at hm
        exact (h.seen m hm).imp_right fun ⟨y, hy⟩ => ⟨y, List.mem_append_left _ hy⟩

/-- The label of data. -/
theorem fwd_label {st st' : St} {p : Int} (h : Fwd Q G v st p) {a : Addr} {l : Option SymId} (hx : Label st a l (.ok st')) (ha : a ∈ st.lc.log)
    (hn : ∀ n, l = some n → G n = some (.rel (aval v a))) : Fwd Q G v st' p := by
  obtain ⟨ha1, ha2⟩ := h.log a ha
  cases hx with
  | none => exact h
  | new h1 h2 =>
    refine fwd_resolves (create_ok h2) st' p rfl (fwd_new h h1 ?_ ?_)
    · rw [hn _ rfl]; exact ⟨ha1.1, rfl⟩
    · intro b hb; cases hb; exact ⟨ha1, ha2⟩

theorem fwd_align {st : St} {p : Int} (h : Fwd Q G v st p) {al : Al} (hp : Pow al) (h0 : al.byte = 0) :
    ∃ v', Fwd Q G v' (st.align al) (alignUp al p) ∧ aval v' (lastAddr (st.align al).lc) = alignUp al p := by
  obtain ⟨v', h1, _⟩ := fwd_reserve h 0 hp h0
  have h1 : Fwd Q G v' (st.align al) (alignUp al p) := by simpa [St.align] using h1
  refine ⟨v', h1, ?_⟩
  obtain ⟨out, hi⟩ := h1.inv
  have hl : (st.align al).lc.log = st.lc.log ++ [(st.align al).lc.current] := log_reserve _ _ _
  unfold lastAddr
  rw [hl]
  simpa using aval_current hi

theorem bytes_dvd (u : Nat) (k : Int) : (u : Int) ∣ bytes u k := by
  unfold bytes
  split
  · exact Dvd.intro _ rfl
  · exact Int.dvd_zero _

/-- The storage of data whose length is not known yet. -/
theorem fwd_gap {st : St} {p : Int} (h : Fwd Q G v st p) {al : Al} {u : Nat} {a : Addr} {e : MExpr} {k : Int} (hp : Pow al) (h0 : al.byte = 0) (hd : al.boundary ∣ u)
    (hm : p % (al.boundary : Int) = 0) (ha : a ∈ st.lc.log) (ht : Tidy G e) (hn : IsNumber G e) (hw : value G (.rel (aval v a)) e = some (.abs k))
    (hq : Q (.rel (aval v a)) e) :
    ∃ v', Fwd Q G v' { st with lc := st.lc.gap st.lc.spaces.length al, gaps := st.gaps ++ [(st.lc.spaces.length, u, fill a e)] } (p + bytes u k) := by
  obtain ⟨out, hi⟩ := h.inv
  have hwf := tr_wf h.wf (.gap (F := G) (σ := v) (p := p) hp h0 hd hm ha ht hn)
  have hi1 : Inv (fun i => if i = st.lc.spaces.length then bytes u k else v i) v st.lc p out := inv_names hi (by
    intro i n hk
    have hlt := kind_lt hk
    rw [h.wf.name i n hk, if_neg (Nat.ne_of_lt hlt)])
  obtain ⟨v', hag, hi'⟩ := inv_step_keep hi1 (.gap st.lc.spaces.length al) ⟨hp, h0, by
    have hb : (al.boundary : Int) ∣ bytes u k := Int.dvd_trans (Int.natCast_dvd_natCast.2 hd) (bytes_dvd u k)
    simp only [if_pos]
    rw [Int.add_emod, hm, Int.emod_eq_zero_of_dvd hb]; simp⟩
  simp only [posAfter, if_pos] at hi'
  have hk : kindOf (st.lc.gap st.lc.spaces.length al).spaces st.lc.spaces.length = some (.ordinary st.lc.spaces.length) := by
    show kindOf (st.lc.spaces ++ [_]) _ = _
    rw [kindOf_append]; simp
  have hv : v' st.lc.spaces.length = bytes u k := by
    have := hi'.ord _ _ hk
    simpa using this
  have hw0 : Wf { st with lc := st.lc.gap st.lc.spaces.length al } :=
    ⟨hwf.deps, hwf.open', h.wf.gaps, fun y hy => hwf.wait y (List.mem_append_left _ hy), hwf.name⟩
  have hf := fwd_lc h hag hi' (grow_gap _ _ _) (by
    intro b hb
    change b ∈ (st.lc.gap st.lc.spaces.length al).log at hb
    rw [log_gap] at hb
    rcases List.mem_append.1 hb with hb | hb
    · exact .inl hb
    · simp only [List.mem_singleton] at hb; exact .inr hb) hw0
  obtain ⟨ha1, ha2⟩ := h.log a ha
  refine ⟨v', hwf, hf.inv, hf.good, hf.tab, hf.log, hf.deps, ?_, hf.seen⟩
  intro y hy
  rcases List.mem_append.1 hy with hy | hy
  · exact hf.gaps y hy
  · simp only [List.mem_singleton] at hy
    subst hy
    exact ⟨a, e, k, rfl, ha1.1, fun x hx => Nat.lt_of_lt_of_le (ha2 x hx) (grow_gap _ _ _).size, ht, by rw [aval_inside ha2 hag]; exact hw, hv,
      by rw [aval_inside ha2 hag]; exact hq⟩

/-- Symbols stay. -/
theorem trs_some {F : Values} {σ : SpId → Int} {st st' : St} {p p' : Int} (h : Trs F σ st p st' p') (n : SymId) : st.tab n ≠ none → st'.tab n ≠ none := by
  have key : ∀ (T : Table) (m : SymId) (s : Sym), T n ≠ none → (T.set m s) n ≠ none := by
    intro T m s hn
    simp only [Table.set]
    split
    · simp
    · exact hn
  induction h with
  | refl => exact id
  | head h _ ih =>
    intro hn
    apply ih
    cases h <;> first | exact hn | exact key _ _ _ hn

/-- The symbols a program defines. -/
def names : List Stmt → List SymId
  | [] => []
  | .equ n _ :: rest => n :: names rest
  | .data (some n) _ _ _ :: rest => n :: names rest
  | .data none _ _ _ :: rest => names rest

theorem resolves_some {st st' : St} (h : Resolves st (.ok st')) (n : SymId) (hn : st.tab n ≠ none) : st'.tab n ≠ none :=
  trs_some (resolves_trs (F := fun _ => none) (σ := fun _ => 0) h st' 0 rfl).1 n hn

theorem set_some (T : Table) (n : SymId) (s : Sym) : (T.set n s) n ≠ none := by simp [Table.set]

theorem equ_some {st st' : St} {n : SymId} {x : MExpr} (h : Equ st n x (.ok st')) : st'.tab n ≠ none := by
  cases h with
  | now _ _ _ h4 => exact resolves_some (create_ok h4) n (set_some _ _ _)
  | address _ _ _ _ h5 => exact resolves_some (create_ok h5) n (set_some _ _ _)
  | later => exact set_some _ _ _

theorem label_some {st st' : St} {n : SymId} {a : Addr} (h : Label st a (some n) (.ok st')) : st'.tab n ≠ none := by
  cases h with
  | new _ h2 => exact resolves_some (create_ok h2) n (set_some _ _ _)

theorem reserve_tab (st : St) (late : Bool) (al : Al) (u : Nat) (e : MExpr) : (st.reserve late al u e).tab = st.tab := by
  unfold St.reserve; split <;> rfl

/-- The values satisfy the program, and all its expressions are such that `Q`. -/
def SolvesQ (Q : Val → MExpr → Prop) (F : Values) : Int → List Stmt → Prop
  | _, [] => True
  | p, .equ n e :: rest => (∃ x, value F (.rel p) e = some x ∧ F n = some x ∧ Q (.rel p) e) ∧ SolvesQ Q F p rest
  | p, .data l al u e :: rest =>
    (∀ n, l = some n → F n = some (.rel (alignUp al p))) ∧
    ∃ k, value F (.rel (alignUp al p)) e = some (.abs k) ∧ Q (.rel (alignUp al p)) e ∧ SolvesQ Q F (alignUp al p + bytes u k) rest

theorem solvesQ_true {F : Values} {prog : List Stmt} : ∀ {p : Int}, SolvesQ (fun _ _ => True) F p prog ↔ SolvesFrom F p prog := by
  induction prog with
  | nil => intro p; exact Iff.rfl
  | cons s rest ih =>
    intro p
    cases s with
    | equ n e => simp [SolvesQ, SolvesFrom, ih]
    | data l al u e => simp [SolvesQ, SolvesFrom, ih]

theorem fwd_runs {st : St} {prog : List Stmt} {o : Out} (h : Runs st prog o) : ∀ st1 var p v, o = .ok st1 → CarefulFrom G var prog → SolvesQ Q G p prog →
    (var = false → st.lc.spaces = [] ∧ st.lc.data.parts = []) → Fwd Q G v st p →
    (∃ v' p', Fwd Q G v' st1 p') ∧ ∀ n ∈ names prog, st1.tab n ≠ none := by
  induction h with
  | nil => intro st1 var p v e _ _ _ hk; cases e; exact ⟨⟨v, p, hk⟩, by intro n hn; cases hn⟩
  | @cons st s rest st' o hx hrest ih =>
    intro st1 var p v e hc hs hv hk
    cases hx with
    | equ hx =>
      obtain ⟨c1, c2, c3⟩ := hc
      obtain ⟨⟨w, s1, s2, sq⟩, s3⟩ := hs
      have hv' : var = false → (st.align ⟨0, 1⟩).lc.spaces = [] ∧ (st.align ⟨0, 1⟩).lc.data.parts = [] := fun h => reserve_none (hv h) _ _
      have hkind := c2.imp_right fun ⟨h1, h2⟩ => (⟨h1, h2.imp_left fun h => (hv' h).1⟩ : _ ∧ ((st.align ⟨0, 1⟩).lc.spaces = [] ∨ Bare _))
      obtain ⟨i1, i2⟩ := equ_trs (σ := v) hx (last_mem st _) c1 hkind p
      obtain ⟨v1, k1, a1⟩ := fwd_align hk (al := ⟨0, 1⟩) pow_one rfl
      rw [alignUp_one] at k1 a1
      have k2 := fwd_equ k1 hx (last_mem st _) c1 hkind (by rw [a1]; exact s1) s2 (by rw [a1]; exact sq)
      obtain ⟨j1, j2⟩ := ih st1 var p v1 e c3 s3 (by rw [i2]; exact hv') k2
      refine ⟨j1, ?_⟩
      intro m hm
      rcases List.mem_cons.1 hm with hm | hm
      · subst hm
        obtain ⟨p1, hp1⟩ := runs_trs (σ := v) hrest st1 var p e c3 (by rw [i2]; exact hv')
        exact trs_some hp1 _ (equ_some hx)
      · exact j2 m hm
    | data hxe hl hub =>
      rename_i l al u e0 x st2
      subst hxe
      obtain ⟨⟨k, hk0, hal⟩, c2, c3, c4, c5⟩ := hc
      obtain ⟨s1, n, s2, sq, s3⟩ := hs
      have hp : Pow al := ⟨k, hk0, by rw [hal]⟩
      have h0 : al.byte = 0 := by rw [hal]
      obtain ⟨v1, k1, a1⟩ := fwd_align hk hp h0
      obtain ⟨i1, i2, i3⟩ := data_trs (F := G) (σ := v1) hp h0 c2 c3 c4 hl p
      have hvar : ∃ var', CarefulFrom G var' rest ∧ (var' = false →
          (st2.reserve ((st.align al).late (fill (lastAddr (st.align al).lc) e0)) al u (fill (lastAddr (st.align al).lc) e0)).lc.spaces = [] ∧
          (st2.reserve ((st.align al).late (fill (lastAddr (st.align al).lc) e0)) al u (fill (lastAddr (st.align al).lc) e0)).lc.data.parts = []) := by
        rcases c5 with ⟨c5, c6⟩ | c6
        · refine ⟨var, c6, ?_⟩
          intro h
          have := reserve_none (hv h) 0 al
          rw [constant_late c5]
          unfold St.reserve
          simp only [Bool.false_eq_true, if_false]
          rw [i2]
          exact reserve_none this _ _
        · exact ⟨true, c6, by intro h; cases h⟩
      obtain ⟨var', c6, hv'⟩ := hvar
      have k2 := fwd_label k1 hl (last_mem st al) (by intro m hm; rw [a1]; exact s1 m hm)
      have hval : value G (.rel (aval v1 (lastAddr (st.align al).lc))) e0 = some (.abs n) := by rw [a1]; exact s2
      have hsim := (k1.log _ (last_mem st al)).1.1
      have k3 : ∃ v2, Fwd Q G v2 (st2.reserve ((st.align al).late (fill (lastAddr (st.align al).lc) e0)) al u (fill (lastAddr (st.align al).lc) e0))
          (alignUp al p + bytes u n) := by
        unfold St.reserve
        split
        · exact fwd_gap k2 hp h0 c2 (alignUp_mod h0 hp p) (by rw [i2]; exact last_mem st al) c3 c4 hval (by rw [a1]; exact sq)
        · rename_i hlate
          have hlate' : (st.align al).late (fill (lastAddr (st.align al).lc) e0) = false := by simpa using hlate
          obtain ⟨j1, j2, _⟩ := collect_ok (env_unknown (st.align al)) k1.good hsim e0 _ hval
          have hcl := closed_data j1 j2 (closed_contains hlate')
          have hdef := syms_defined (env_unknown (st.align al)) k1.good hsim e0 _ hval hcl.1
          have hee : (fill (lastAddr (st.align al).lc) e0).eval st2.env.heap st2.tab =
              (fill (lastAddr (st.align al).lc) e0).eval (st.align al).env.heap (st.align al).tab := by
            have hh : st2.env.heap = (st.align al).env.heap := by show st2.lc.heap = _; rw [i2]; rfl
            rw [hh]
            exact value_rel (F := G) (p := alignUp al p) (by rw [s2]; simp) fun m hm => (trs_ext i1 k1.wf).tab m (hdef m hm)
          have hub' := hub.resolve_left hlate
          rw [hee] at hub' ⊢
          rw [rep_abs (eval_good k1.under k1.good hsim c3 hval hcl hub').1]
          obtain ⟨v2, k3, _⟩ := fwd_reserve k2 (byteLen u (.abs n)) pow_one rfl
          have hb : alignUp al p + ((byteLen u (.abs n) : Nat) : Int) = alignUp al p + bytes u n := by rw [byteLen_bytes]
          rw [alignUp_one, hb] at k3
          exact ⟨v2, k3⟩
      obtain ⟨v2, k3⟩ := k3
      obtain ⟨j1, j2⟩ := ih st1 var' _ v2 e c6 s3 hv' k3
      refine ⟨j1, ?_⟩
      intro m hm
      cases l with
      | none => exact j2 m hm
      | some l =>
        rcases List.mem_cons.1 hm with hm | hm
        · subst hm
          obtain ⟨p1, hp1⟩ := runs_trs (σ := v) hrest st1 var' p e c6 hv'
          exact trs_some hp1 _ (by rw [reserve_tab]; exact label_some hl)
        · exact j2 m hm
  | reported => intro st1 var p v e; cases e
  | crash => intro st1 var p v e; cases e

end

/-- C134 (partial): when a program that has a careful solution is assembled to the end and nothing is left over, every symbol it defines
has the value of the solution: no program has two such solutions, and in whatever order definitions and lengths are resolved, the outcome is
the same. Missing: programs whose solution is not `Careful`. -/
theorem C134_unique_partial (prog : List Stmt) (G : Values) (hs : Solves G prog) (hc : Careful G prog) (fin : St)
    (h : Assembles prog (.ok fin)) (hf : fin.Finished) : ∀ n ∈ names prog, fin.value n = G n := by
  cases h with
  | done h1 h2 =>
    rename_i st1
    obtain ⟨⟨v1, p1, k1⟩, hn⟩ := fwd_runs h1 st1 false 0 (fun _ => 0) rfl hc (solvesQ_true.2 hs) (fun _ => ⟨rfl, rfl⟩) (fwd_init G)
    obtain ⟨v2, k2⟩ := fwd_settles h2 fin p1 v1 rfl k1
    intro n hm
    have hsome := trs_some (settles_trs (F := G) (σ := v2) h2 fin 0 rfl) n (hn n hm)
    have hdef := (k2.seen n hsome).resolve_right (by rw [hf.1]; simp)
    have hr := k2.good n hdef
    obtain ⟨out, hi⟩ := k2.inv
    have hlen : ∀ i, i < fin.lc.spaces.length → finLen fin i = v2 i := by
      intro i hlt
      obtain ⟨s, hs⟩ : ∃ s, fin.lc.spaces[i]? = some s := ⟨_, List.getElem?_eq_getElem hlt⟩
      have hne := hf.2.2 s (List.mem_of_getElem? hs)
      cases hl : s.len with
      | none => exact absurd hl hne
      | some x =>
        have : lenOf fin.lc.spaces i = some x := by unfold lenOf; rw [hs]; simp [hl]
        rw [← hi.res i x this]
        unfold finLen
        rw [this]; rfl
    unfold St.value
    cases hv : fin.tab.value n with
    | undef => exact absurd hv hdef
    | ub => rw [hv] at hr; exact absurd hr (by simp [Rep])
    | abs k => rw [hv] at hr; exact hr.symm
    | reloc a =>
      rw [hv] at hr
      simp only
      rw [if_pos hr.1.1, offset_fin, aval_inside (k2.tab n a hv).2 hlen]
      exact hr.2.symm

/-- Two ways to assemble a program agree. -/
theorem C134_order_partial (prog : List Stmt) (fin fin' : St) (h : Assembles prog (.ok fin)) (hf : fin.Finished) (hc : Careful fin.value prog)
    (h' : Assembles prog (.ok fin')) (hf' : fin'.Finished) : ∀ n ∈ names prog, fin'.value n = fin.value n :=
  C134_unique_partial prog fin.value (C132_values_solve_partial prog fin h hf hc) hc fin' h' hf'

/-- A solution of the program of `Props`, found without assembling it. -/
example : Solves (fun n => [some (.rel 0), some (.rel 8), some (.abs 5), some (.abs 4), some (.abs 12)].getD n none) exProg ∧
    Careful (fun n => [some (.rel 0), some (.rel 8), some (.abs 5), some (.abs 4), some (.abs 12)].getD n none) exProg ∧ names exProg = [0, 1, 2, 3, 4] := by
  refine ⟨?_, ?_, rfl⟩
  · simp [Solves, SolvesFrom, exProg, value, plus, minus, bytes, alignUp]
  · simp [Careful, CarefulFrom, exProg, Tidy, places, IsNumber, IsPlace, Constant, Bare, value, plus, minus]
    exact ⟨⟨0, by omega, rfl⟩, ⟨2, by omega, rfl⟩⟩

end Verif.Whole
