import Verif.Whole.Trace
/-!
The final lengths and values, and that all steps keep to them.
-/
namespace Verif.Whole
open Verif.Ord

/-- The lengths of the spaces in the end. -/
def finLen (fin : St) (i : SpId) : Int := (lenOf fin.lc.spaces i).getD 0

theorem under_fin {st fin : St} (h : Ext st fin) : Under st.env.heap (finLen fin) := by
  constructor
  · intro i s hs
    change st.lc.heap.info i = some s at hs
    rw [info_eq] at hs
    cases hl : lenOf st.lc.spaces i with
    | none => simp [hl] at hs
    | some l => simp [hl] at hs; rw [← hs]
  · intro i s hs
    change st.lc.heap.info i = some s at hs
    rw [info_eq] at hs
    cases hl : lenOf st.lc.spaces i with
    | none => simp [hl] at hs
    | some l =>
      simp [hl] at hs
      rw [← hs]
      unfold finLen
      rw [h.lc.len i l hl]; rfl

theorem offset_fin (fin : St) (a : Addr) : a.offset fin.lc.heap = aval (finLen fin) a := by
  unfold Addr.offset aval vsum
  congr 2
  exact List.map_congr_left fun e _ => offset_eq_len _ _

/-- A place that mentions no spaces as long as there are none. -/
def Fit (st : St) (a : Addr) : Prop := SimpleA a ∧ (st.lc.spaces = [] → a.spaces = [])

/-- Values, addresses and what waits are as they should be. -/
structure Sane (F : Values) (st : St) : Prop where
  ub : ∀ n, st.tab.value n ≠ .ub
  tab : ∀ n a, st.tab.value n = .reloc a → Fit st a
  log : ∀ a ∈ st.lc.log, Fit st a
  deps : ∀ y ∈ st.deps, ∃ a e, y.2 = fill a e ∧ SimpleA a ∧ Tidy F e ∧ (IsNumber F e ∨ IsPlace F e)
  gaps : ∀ y ∈ st.gaps, ∃ a e, y.2.2 = fill a e ∧ SimpleA a ∧ Tidy F e ∧ IsNumber F e

theorem sane_init (F : Values) : Sane F St.init := by
  constructor <;> simp [St.init, LC.init, Table.value]

theorem good_fin {F' : Values} {st fin : St} (hs : Sane F' st) (h : Ext st fin) : Good (finLen fin) fin.value st.tab := by
  intro n hn
  have hk := h.tab n hn
  have : fin.value n = match fin.tab.value n with
    | .abs x => some (.abs x)
    | .reloc a => if a.bases = [(owner, 1)] then some (.rel (a.offset fin.lc.heap)) else none
    | _ => none := rfl
  rw [hk] at this
  cases hv : st.tab.value n with
  | undef => exact hn hv
  | ub => exact hs.ub n hv
  | abs k => rw [hv] at this; exact this
  | reloc a =>
    rw [hv] at this
    have hf := hs.tab n a hv
    refine ⟨hf.1, ?_⟩
    rw [this]
    simp only
    rw [if_pos hf.1.1, offset_fin]

theorem kinds_here {F : Values} (p : Int) {e : MExpr} (h : IsNumber F e ∨ IsPlace F e) : ∃ w, value F (.rel p) e = some w := by
  rcases h with h | h
  · obtain ⟨k, hk⟩ := number_here p h; exact ⟨_, hk⟩
  · obtain ⟨k, hk⟩ := place_here p h; exact ⟨_, hk⟩

theorem env_unknown (st : St) : st.env.unknown = fun _ => false := rfl

/-- What is evaluated is worth the value, and nothing of it is open. -/
theorem eval_rep {st fin : St} (hs : Sane fin.value st) (h : Ext st fin) {a : Addr} (ha : SimpleA a) {e : MExpr} (ht : Tidy fin.value e)
    {w : Val} (hw : value fin.value (.rel (aval (finLen fin) a)) e = some w) (hc : Closed st (fill a e)) :
    (fill a e).eval st.env.heap st.tab = .ub ∨ Rep (finLen fin) ((fill a e).eval st.env.heap st.tab) (some w) ∧
      ∀ b, (fill a e).eval st.env.heap st.tab = .reloc b → b.norm st.env.heap = [] := by
  obtain ⟨c1, c2, c3⟩ := hc
  have hu := under_fin h
  have hg := good_fin hs h
  rcases eval_shape (env_unknown st) hu hg ha rfl e w hw ht c1 c2 with hub | hsh
  · exact .inl hub
  rcases eval_closed (env_unknown st) hu hg ha rfl hw ht c1 c2 c3 with hub | hrep
  · exact .inl hub
  refine .inr ⟨hrep, ?_⟩
  intro b hb
  rw [hb] at hsh
  generalize ((fill a e).collect st.env st.tab).addr = o at hsh c3
  generalize places fin.value e = n at hsh
  cases hsh with
  | place s e2 =>
    have := c3 _ rfl
    unfold Addr.norm at this e2 ⊢
    rw [e2, norm_norm] at this
    exact this
  | pend n1 k1 u1 => exact absurd ((norm_canonical k1 u1).symm.trans (c3 _ rfl)) n1

theorem resolve_rep {st fin : St} (hs : Sane fin.value st) (h : Ext st fin) {a : Addr} (ha : SimpleA a) {e : MExpr} (ht : Tidy fin.value e)
    {w : Val} (hw : value fin.value (.rel (aval (finLen fin) a)) e = some w) (hc : Closed st (fill a e))
    (hub : (fill a e).resolve st.env.heap st.tab ≠ .ub) :
    Rep (finLen fin) ((fill a e).resolve st.env.heap st.tab) (some w) ∧
      ∀ b, (fill a e).resolve st.env.heap st.tab = .reloc b → b.norm st.env.heap = [] := by
  unfold MExpr.resolve at hub ⊢
  rcases eval_rep hs h ha ht hw hc with hx | ⟨hx, hy⟩
  · rw [hx] at hub; exact absurd rfl hub
  · generalize (fill a e).eval st.env.heap st.tab = x at hx hy
    cases x with
    | undef => exact absurd hx (by simp [Rep])
    | ub => exact absurd hx (by simp [Rep])
    | abs k => exact ⟨hx, by intro b hb; cases hb⟩
    | reloc b => exact ⟨hx, hy⟩

theorem fit_of_norm {st fin : St} (h : Ext st fin) {b : Addr} (hb : SimpleA b) (hn : b.norm st.env.heap = []) : Fit st b := by
  refine ⟨hb, fun h0 => ?_⟩
  unfold Addr.norm at hn
  rw [norm_eq (under_fin h) hb.2] at hn
  unfold unknownIn at hn
  rw [List.filter_eq_nil_iff] at hn
  refine List.eq_nil_iff_forall_not_mem.2 fun e he => ?_
  have := hn e he
  apply this
  show (st.lc.heap.info e.1).isNone = true
  rw [info_eq]
  simp [h0, lenOf]

/-! ### Nothing is open as long as there are no spaces -/

theorem addSub_quiet {E : Env} (hE : E.unknown = fun _ => false) (op : AOp) {c h : Coll} (h1 : c.spaces = []) (h2 : Quiet c.addr) (h3 : h.spaces = [])
    (h4 : Quiet h.addr) : (c.addSub E op h).spaces = [] ∧ Quiet (c.addSub E op h).addr := by
  unfold Coll.addSub Coll.mergeUndef
  split <;> split
  · exact ⟨h1, h2⟩
  · exact ⟨by simp [h1, h3, addAll], h2⟩
  · exact ⟨h1, quiet_join hE op h2 h4⟩
  · exact ⟨by simp [h1, h3, addAll], quiet_join hE op h2 h4⟩

theorem spacesOf_quiet {o : Option Addr} (h : Quiet o) : spacesOf o = [] := by
  cases o with
  | none => rfl
  | some a => simp [spacesOf, h a rfl]

theorem divMul_quiet {c h : Coll} (h1 : c.spaces = []) (h2 : Quiet c.addr) (h3 : h.spaces = [])
    (h4 : Quiet h.addr) : (c.divMul h).spaces = [] ∧ Quiet (c.divMul h).addr := by
  have e1 := spacesOf_quiet h2
  have e2 := spacesOf_quiet h4
  have e3 : (c.mergeUndef h).spaces = [] ∧ (c.mergeUndef h).addr = c.addr := by
    unfold Coll.mergeUndef
    split
    · exact ⟨h1, rfl⟩
    · exact ⟨by simp [h1, h3, addAll], rfl⟩
  unfold Coll.divMul
  split
  · rw [e3.2]; exact ⟨e3.1, h2⟩
  · split
    · simp only; rw [e3.2]; exact ⟨e3.1, h2⟩
    · simp only; rw [e3.2]; exact ⟨by simp [e3.1, e1, e2, addAll], h2⟩

theorem collect_quiet {E : Env} (hE : E.unknown = fun _ => false) {T : Table} (hT : ∀ n a, T.value n = .reloc a → a.spaces = []) {a : Addr} (ha : a.spaces = [])
    (e : MExpr) : ((fill a e).collect E T).spaces = [] ∧ Quiet ((fill a e).collect E T).addr := by
  have hq : Quiet none := fun b hb => by cases hb
  have hof : ∀ b : Addr, b.spaces = [] → (Coll.ofAddr E b).spaces = [] ∧ Quiet (Coll.ofAddr E b).addr := by
    intro b hb
    refine ⟨rfl, ?_⟩
    intro c hc
    cases hc
    simp [Addr.norm, hb, norm_nil]
  induction e with
  | const k => exact ⟨rfl, hq⟩
  | sym n =>
    simp only [fill, MExpr.collect]
    cases hv : T.value n with
    | undef => exact ⟨rfl, hq⟩
    | ub => exact ⟨rfl, hq⟩
    | abs k => exact ⟨rfl, hq⟩
    | reloc b => exact hof b (hT n b hv)
  | attr k n =>
    simp only [fill, MExpr.collect]
    cases T n with
    | none => exact ⟨rfl, hq⟩
    | some s => simp only; split <;> exact ⟨rfl, hq⟩
  | loc o => exact hof a ha
  | dflt => exact ⟨rfl, hq⟩
  | par e ih => exact ih
  | neg e ih => exact addSub_quiet hE .sub (c := Coll.none) rfl hq ih.1 ih.2
  | add l r ihl ihr => exact addSub_quiet hE .add ihl.1 ihl.2 ihr.1 ihr.2
  | sub l r ihl ihr => exact addSub_quiet hE .sub ihl.1 ihl.2 ihr.1 ihr.2
  | mul l r ihl ihr => exact divMul_quiet ihl.1 ihl.2 ihr.1 ihr.2
  | div l r ihl ihr => exact divMul_quiet ihl.1 ihl.2 ihr.1 ihr.2

/-- The address of an expression that is a symbol or `*` alone is its value. -/
theorem address_rep {st fin : St} (hs : Sane fin.value st) (h : Ext st fin) {a b : Addr} (ha : Fit st a) {e : MExpr} (hb : Bare e)
    {w : Val} (hw : value fin.value (.rel (aval (finLen fin) a)) e = some w) (hadr : ((fill a e).collect st.env st.tab).addr = some b) :
    Rep (finLen fin) (.reloc b) (some w) ∧ Fit st b := by
  have key : ∀ c : Addr, Fit st c → b = ⟨c.bases, c.offset st.env.heap, c.norm st.env.heap⟩ → w = .rel (aval (finLen fin) c) →
      Rep (finLen fin) (.reloc b) (some w) ∧ Fit st b := by
    intro c hc e1 e2
    have hsm : SimpleA b := by rw [e1]; exact ⟨hc.1.1, ones_norm (under_fin h) hc.1.2⟩
    refine ⟨⟨hsm, ?_⟩, hsm, ?_⟩
    · rw [e2, aval_eq (under_fin h) c hc.1.2, e1]; rfl
    · intro h0
      rw [e1]
      simp only [Addr.norm]
      rw [hc.2 h0]; rfl
  induction e with
  | sym n =>
    simp only [fill, MExpr.collect] at hadr
    simp only [value] at hw
    cases hv : st.tab.value n with
    | reloc c =>
      rw [hv] at hadr
      have hg := good_fin hs h n (by rw [hv]; simp)
      rw [hv, hw] at hg
      cases hadr
      exact key c (hs.tab n c hv) rfl (by have := hg.2; simpa using this)
    | undef => rw [hv] at hadr; cases hadr
    | ub => rw [hv] at hadr; cases hadr
    | abs k => rw [hv] at hadr; cases hadr
  | loc o =>
    cases hadr
    simp only [value, Option.some.injEq] at hw
    exact key a ha rfl hw.symm
  | par e ih => exact ih hb hw hadr
  | _ => cases hb

theorem address_case {st fin : St} (hs : Sane fin.value st) (hef : Ext st fin) {a b : Addr} (ha : Fit st a) {e : MExpr}
    (h3 : IsNumber fin.value e ∨ IsPlace fin.value e ∧ (st.lc.spaces = [] ∨ Bare e))
    (h4 : ((fill a e).collect st.env st.tab).contains st.env = true) (h5 : ((fill a e).collect st.env st.tab).isAddress = true)
    (h6 : ((fill a e).collect st.env st.tab).addr = some b) {w : Val} (hw : value fin.value (.rel (aval (finLen fin) a)) e = some w) :
    Rep (finLen fin) (.reloc b) (some w) ∧ Fit st b := by
  obtain ⟨j1, j2, j3⟩ := collect_ok (env_unknown st) (good_fin hs hef) ha.1 e _ hw
  unfold Coll.isAddress at h5
  rw [h6] at h5
  simp only [Bool.and_eq_true, List.isEmpty_iff, Bool.not_eq_true'] at h5
  rcases h3 with h3 | ⟨h3, h7 | h7⟩
  · obtain ⟨k, hk⟩ := number_here (aval (finLen fin) a) h3
    rw [hw] at hk
    cases hk
    have := j3 h5.1 b h6
    rw [this] at h5
    simp at h5
  · exfalso
    obtain ⟨q1, q2⟩ := collect_quiet (env_unknown st) (T := st.tab) (fun n c hc => (hs.tab n c hc).2 h7) (ha.2 h7) e
    unfold Coll.contains at h4
    rw [h5.1, j2, q1, h6] at h4
    have := q2 b h6
    simp [Addr.pending, this] at h4
  · exact address_rep hs hef ha h7 hw h6

/-! ### The invariant of the location counter -/

section
variable {fin : St} {q : Int}

theorem inv_align {v w : SpId → Int} {st : St} {p : Int} {out : List Int} (hi : Inv v w st.lc p out) {al : Al} (h1 : Pow al) (h2 : al.byte = 0) :
    ∃ w', Inv v w' (st.align al).lc (alignUp al p) (out ++ [alignUp al p]) := by
  have hpos : al.byte < al.boundary := by
    obtain ⟨k, _, e⟩ := h1
    rw [h2, e]; exact Nat.two_pow_pos k
  obtain ⟨w', hw'⟩ := inv_step hi (.reserve 0 al) ⟨h1, hpos, .inl h2⟩
  refine ⟨w', ?_⟩
  simpa [posAfter, Ev.isStmt, LC.step, St.align] using hw'

theorem byteLen_dvd (u : Nat) (x : SVal) : u ∣ byteLen u x := by
  unfold byteLen
  split
  · split
    · exact Dvd.intro _ rfl
    · exact Nat.dvd_zero _
  · exact Nat.dvd_zero _

theorem inv_tr {F : Values} {w : SpId → Int} {st : St} {p : Int} {out : List Int} {st' : St} {p' : Int}
    (hi : Inv (finLen fin) w st.lc p out) (hw : Wf st) (h : Tr F (finLen fin) st p st' p') (ht : Trs F (finLen fin) st' p' fin q) (hf : fin.gaps = []) :
    ∃ w' out', Inv (finLen fin) w' st'.lc p' (out ++ out') := by
  have hw' := tr_wf hw h
  cases h with
  | align h1 h2 =>
    obtain ⟨w', hw'⟩ := inv_align hi h1 h2
    exact ⟨w', _, hw'⟩
  | label => exact ⟨w, [], by simpa using hi⟩
  | now => exact ⟨w, [], by simpa using hi⟩
  | address => exact ⟨w, [], by simpa using hi⟩
  | later => exact ⟨w, [], by simpa using hi⟩
  | sym => exact ⟨w, [], by simpa using hi⟩
  | room len =>
    obtain ⟨w', hw'⟩ := inv_step hi (.reserve len ⟨0, 1⟩) ⟨⟨0, by omega, rfl⟩, by decide, .inl rfl⟩
    exact ⟨w', _, hw'⟩
  | gap h1 h2 h3 h4 h5 =>
    rename_i al u a e _ _
    obtain ⟨mid, r, _, _, _, _, hl⟩ := gap_done ht hw' (i := st.lc.spaces.length) (u := u) (x := fill a e)
      (List.mem_append_right _ (by simp)) hf
    have hv : finLen fin st.lc.spaces.length = (byteLen u ((fill a e).eval mid.env.heap mid.tab) : Nat) := by
      unfold finLen; rw [hl]; rfl
    have hd : (al.boundary : Int) ∣ finLen fin st.lc.spaces.length := by
      rw [hv]
      exact Int.natCast_dvd_natCast.2 (Nat.dvd_trans h3 (byteLen_dvd _ _))
    obtain ⟨w', hw'⟩ := inv_step hi (.gap st.lc.spaces.length al) ⟨h1, h2, by
      rw [Int.add_emod, h4, Int.emod_eq_zero_of_dvd hd]; simp⟩
    exact ⟨w', _, hw'⟩
  | define h1 h2 h3 =>
    rename_i i u x
    obtain ⟨hk, hl⟩ := hw.wait _ h1
    obtain ⟨w', hw2⟩ := inv_step hi (.define i (byteLen u (x.eval st.env.heap st.tab) : Nat)) (by
      intro s n hs hn
      have : kindOf st.lc.spaces i = some (.ordinary n) := by unfold kindOf; rw [hs]; simp [hn]
      rw [hw.name i n this]
      have hfin := (trs_ext ht hw').lc.len i _ (define_self _ _ _ hk hl)
      unfold finLen
      rw [hfin]; rfl)
    exact ⟨w', _, hw2⟩
  | settle i =>
    obtain ⟨w', hw2⟩ := inv_step hi (.settle i) trivial
    exact ⟨w', _, hw2⟩

theorem inv_trs_aux {F : Values} {σ : SpId → Int} {w : SpId → Int} {st : St} {p : Int} {out : List Int} {f : St} (ht : Trs F σ st p f q)
    (hσ : σ = finLen f) (hf : f.gaps = []) (hi : Inv σ w st.lc p out) (hw : Wf st) : ∃ w' out', Inv σ w' f.lc q (out ++ out') := by
  induction ht generalizing w out with
  | refl => exact ⟨w, [], by simpa using hi⟩
  | head h t ih =>
    subst hσ
    obtain ⟨w1, o1, h1⟩ := inv_tr hi hw h t hf
    obtain ⟨w2, o2, h2⟩ := ih rfl hf h1 (tr_wf hw h)
    exact ⟨w2, o1 ++ o2, by rw [← List.append_assoc]; exact h2⟩

theorem inv_trs {F : Values} {w : SpId → Int} {st : St} {p : Int} {out : List Int} (hi : Inv (finLen fin) w st.lc p out) (hw : Wf st)
    (ht : Trs F (finLen fin) st p fin q) (hf : fin.gaps = []) : ∃ w' out', Inv (finLen fin) w' fin.lc q (out ++ out') :=
  inv_trs_aux ht rfl hf hi hw

theorem forall₂_mid {α β : Type} {R : α → β → Prop} {l : List α} {o : List β} {a : α} {b : β} {l' : List α} {o' : List β}
    (h : List.Forall₂ R (l ++ a :: l') (o ++ b :: o')) (hl : l.length = o.length) : R a b := by
  induction l generalizing o with
  | nil =>
    cases o with
    | nil => cases h; assumption
    | cons => simp at hl
  | cons x l ih =>
    cases o with
    | nil => simp at hl
    | cons y o => cases h; rename_i h2; exact ih h2 (by simpa using hl)

/-- The address returned last is worth the position. -/
theorem place_fin {F : Values} {w : SpId → Int} {st : St} {p : Int} {out : List Int} {a : Addr} {l : List Addr}
    (hi : Inv (finLen fin) w st.lc p (out ++ [p])) (hlog : st.lc.log = l ++ [a]) (hw : Wf st)
    (ht : Trs F (finLen fin) st p fin q) (hf : fin.Finished) : aval (finLen fin) a = p := by
  obtain ⟨w', out', hinv⟩ := inv_trs hi hw ht hf.2.1
  obtain ⟨l', hl'⟩ := (trs_ext ht hw).lc.log
  have hlen : l.length = out.length := by
    have := hi.log.length_eq
    rw [hlog] at this
    simpa using this
  have hlg := hinv.log
  rw [← hl', hlog, List.append_assoc, List.append_assoc] at hlg
  obtain ⟨h1, h2⟩ := forall₂_mid hlg hlen
  rw [← h1]
  unfold aval vsum
  congr 2
  refine List.map_congr_left ?_
  intro e he
  have hlt := h2 e.1 (List.mem_map_of_mem he)
  obtain ⟨s, hs⟩ : ∃ s, fin.lc.spaces[e.1]? = some s := ⟨_, List.getElem?_eq_getElem hlt⟩
  have hne := hf.2.2 s (List.mem_of_getElem? hs)
  cases hl : s.len with
  | none => exact absurd hl hne
  | some x =>
    have : lenOf fin.lc.spaces e.1 = some x := by unfold lenOf; rw [hs]; simp [hl]
    rw [← hinv.res e.1 x this]
    unfold finLen
    rw [this]; rfl

/-! ### Sanity stays -/

theorem fit_grow {st st' : St} (h : st.lc.spaces.length ≤ st'.lc.spaces.length) {a : Addr} (ha : Fit st a) : Fit st' a := by
  refine ⟨ha.1, fun h0 => ha.2 ?_⟩
  rw [h0] at h
  exact List.length_eq_zero_iff.1 (Nat.le_zero.1 h)

theorem fit_current {v w : SpId → Int} {st : St} {p : Int} {out : List Int} (hi : Inv v w st.lc p out) : Fit st st.lc.current := by
  rw [current_eq hi]
  refine ⟨⟨rfl, ?_, ?_⟩, ?_⟩
  · intro e he
    obtain ⟨x, _, rfl⟩ := List.mem_map.1 he
    rfl
  · simpa [Function.comp_def] using hi.nodup
  · intro h0
    simp only [List.map_eq_nil_iff]
    refine List.eq_nil_iff_forall_not_mem.2 fun e he => ?_
    have := hi.lt e.1 (List.mem_map_of_mem he)
    rw [h0] at this
    exact absurd this (by simp)

theorem sane_lc {F : Values} {st : St} (hs : Sane F st) {c : LC} (hg : Grow st.lc c) (hl : ∀ a ∈ c.log, a ∈ st.lc.log ∨ Fit { st with lc := c } a) :
    Sane F { st with lc := c } := by
  refine ⟨hs.ub, fun n a h => fit_grow (st := st) hg.size (hs.tab n a h), ?_, hs.deps, hs.gaps⟩
  intro a ha
  rcases hl a ha with h | h
  · exact fit_grow (st := st) hg.size (hs.log a h)
  · exact h

theorem sane_set {F : Values} {st : St} (hs : Sane F st) {n : SymId} {x : SVal} (h1 : x ≠ .ub) (h2 : ∀ a, x = .reloc a → Fit st a) :
    Sane F { st with tab := st.tab.set n (mkSym x) } := by
  refine ⟨?_, ?_, hs.log, hs.deps, hs.gaps⟩
  · intro m
    simp only [value_set, mkSym]
    split
    · exact h1
    · exact hs.ub m
  · intro m a ha
    simp only [value_set, mkSym] at ha
    split at ha
    · exact h2 a ha
    · exact hs.tab m a ha

theorem sane_tr {w' : SpId → Int} {st : St} {p : Int} {out : List Int} {st' : St} {p' : Int}
    (hs : Sane fin.value st) (hw : Wf st) (hi' : Inv (finLen fin) w' st'.lc p' out)
    (h : Tr fin.value (finLen fin) st p st' p') (he : Ext st' fin) : Sane fin.value st' := by
  have hext := tr_ext hw h
  have hef := hext.trans he
  cases h with
  | align =>
    refine sane_lc hs hext.lc ?_
    intro a ha
    rw [log_reserve] at ha
    rcases List.mem_append.1 ha with ha | ha
    · exact .inl ha
    · simp only [List.mem_singleton] at ha; subst ha; exact .inr (fit_current hi')
  | label h1 h2 => exact sane_set hs (by simp) (by intro b hb; cases hb; exact hs.log _ h2)
  | now h1 h2 h3 h4 h5 h6 =>
    rename_i n a e
    obtain ⟨x, hx⟩ := kinds_here (aval (finLen fin) a) h4
    obtain ⟨r1, r2⟩ := resolve_rep hs hef (hs.log _ h2).1 h3 hx h5 h6
    refine sane_set hs h6 ?_
    intro b hb
    rw [hb] at r1
    exact fit_of_norm hef r1.1 (r2 b hb)
  | address h1 h2 h3 h4 h5 h6 =>
    rename_i n a e b
    refine sane_set hs (by simp) ?_
    intro b' hb'
    cases hb'
    obtain ⟨x, hx⟩ := kinds_here (aval (finLen fin) a) (h3.imp_right And.left)
    exact (address_case hs hef (hs.log _ h2) h3 h4 h5 h6 hx).2
  | later h1 h2 h3 h4 =>
    rename_i n a e
    have := sane_set hs (n := n) (x := .undef) (by simp) (by intro a ha; cases ha)
    refine ⟨this.ub, this.tab, this.log, ?_, this.gaps⟩
    intro y hy
    rcases List.mem_append.1 hy with hy | hy
    · exact hs.deps y hy
    · simp only [List.mem_singleton] at hy
      subst hy
      exact ⟨a, e, rfl, (hs.log _ h2).1, h3, h4⟩
  | sym h1 h2 h3 =>
    rename_i n y
    obtain ⟨a, e, hx, ha, ht, hk⟩ := hs.deps _ h1
    simp only at hx
    subst hx
    obtain ⟨x, hx⟩ := kinds_here (aval (finLen fin) a) hk
    obtain ⟨r1, r2⟩ := resolve_rep hs hef ha ht hx h2 h3
    have := sane_set hs (n := n) h3 (by
      intro b hb
      rw [hb] at r1
      exact fit_of_norm hef r1.1 (r2 b hb))
    exact ⟨this.ub, this.tab, this.log, fun y hy => hs.deps y (List.mem_filter.1 hy).1, this.gaps⟩
  | room =>
    refine sane_lc hs hext.lc ?_
    intro a ha
    rw [log_reserve] at ha
    rcases List.mem_append.1 ha with ha | ha
    · exact .inl ha
    · simp only [List.mem_singleton] at ha; subst ha; exact .inr (fit_current hi')
  | gap h1 h2 h3 h4 h5 h6 h7 =>
    rename_i al u a e
    have := sane_lc hs hext.lc (by
      intro a ha
      change a ∈ (st.lc.gap st.lc.spaces.length al).log at ha
      rw [log_gap] at ha
      rcases List.mem_append.1 ha with ha | ha
      · exact .inl ha
      · simp only [List.mem_singleton] at ha; subst ha; exact .inr (fit_current hi'))
    refine ⟨this.ub, this.tab, this.log, this.deps, ?_⟩
    intro y hy
    rcases List.mem_append.1 hy with hy | hy
    · exact hs.gaps y hy
    · simp only [List.mem_singleton] at hy
      subst hy
      exact ⟨a, e, rfl, (hs.log _ h5).1, h6, h7⟩
  | define h1 h2 h3 =>
    rename_i i u x
    have hlog : (st.lc.step (.define i (byteLen u (x.eval st.env.heap st.tab) : Nat))).log = st.lc.log := by
      unfold LC.step
      simp only
      split
      · exact log_setLen _ _ _
      · rfl
    have := sane_lc hs hext.lc (by intro a ha; simp only at ha; rw [hlog] at ha; exact .inl ha)
    exact ⟨this.ub, this.tab, this.log, this.deps, fun y hy => hs.gaps y (List.mem_filter.1 hy).1⟩
  | settle i =>
    have hlog : (st.lc.step (.settle i)).log = st.lc.log := by
      unfold LC.step
      simp only
      split
      · split
        · exact log_setLen _ _ _
        · rfl
      · rfl
    exact sane_lc hs hext.lc (by intro a ha; rw [hlog] at ha; exact .inl ha)

/-- All that is known of a state on the way to the end. -/
structure Known (fin : St) (q : Int) (st : St) (p : Int) : Prop where
  wf : Wf st
  sane : Sane fin.value st
  inv : ∃ w out, Inv (finLen fin) w st.lc p out
  trs : Trs fin.value (finLen fin) st p fin q

theorem known_init {q} (h : Trs fin.value (finLen fin) St.init 0 fin q) : Known fin q St.init 0 :=
  ⟨wf_init, sane_init _, ⟨_, _, inv_init _⟩, h⟩

theorem known_tr {st p st' p'} (hf : fin.gaps = []) (hk : Known fin q st p) (h : Tr fin.value (finLen fin) st p st' p')
    (ht : Trs fin.value (finLen fin) st' p' fin q) : Known fin q st' p' := by
  obtain ⟨w, out, hi⟩ := hk.inv
  obtain ⟨w', out', hi'⟩ := inv_tr hi hk.wf h ht hf
  have hw' := tr_wf hk.wf h
  exact ⟨hw', sane_tr hk.sane hk.wf hi' h (trs_ext ht hw'), ⟨_, _, hi'⟩, ht⟩

theorem known_trs {st p st' p'} (hf : fin.gaps = []) (hk : Known fin q st p) (h : Trs fin.value (finLen fin) st p st' p')
    (ht : Trs fin.value (finLen fin) st' p' fin q) : Known fin q st' p' := by
  induction h with
  | refl => exact hk
  | head h t ih => exact ih (known_tr hf hk h (t.trans ht)) ht

end
end Verif.Whole
