import Verif.Whole.Unreported
/-!
C134: programs whose numbers fit into 32 bits are assembled to the end.
-/
namespace Verif.Whole
open Verif.Ord

theorem solves_small {F : Values} {prog : List Stmt} : ∀ {p : Int}, SolvesFrom F p prog → SmallFrom F p prog → SolvesQ (Small F) F p prog := by
  induction prog with
  | nil => intros; trivial
  | cons s rest ih =>
    intro p h1 h2
    cases s with
    | equ n e =>
      obtain ⟨⟨x, a, b⟩, c⟩ := h1
      exact ⟨⟨x, a, b, h2.1⟩, ih c h2.2⟩
    | data l al u e =>
      obtain ⟨a, k, b, c⟩ := h1
      exact ⟨a, k, b, h2.1, ih c (h2.2 k b)⟩

section
variable {G : Values} {v : SpId → Int} {r : SymId → Nat} {D : List SymId}

/-! ### No overflow -/

theorem shape_safe {H : Heap} {n : Nat} {x : Val} {c : Option Addr} (h : Shape H v n x .ub c) : False := by cases h

theorem safe_eval {st : St} (hu : Under st.env.heap v) (hg : Good v G st.tab) {a : Addr} (ha : SimpleA a) {e : MExpr} (ht : Tidy G e)
    {w : Val} (hw : value G (.rel (aval v a)) e = some w) (hc : Closed st (fill a e)) (hq : Small G (.rel (aval v a)) e) :
    (fill a e).eval st.env.heap st.tab ≠ .ub := by
  obtain ⟨c1, c2, c3⟩ := hc
  rcases eval_small (env_unknown st) hu hg ha rfl e w hw ht c1 c2 with h | h
  · exact absurd hq h.2
  · intro he
    rw [he] at h
    exact shape_safe h

theorem safe_resolve {st : St} (hu : Under st.env.heap v) (hg : Good v G st.tab) {a : Addr} (ha : SimpleA a) {e : MExpr} (ht : Tidy G e)
    {w : Val} (hw : value G (.rel (aval v a)) e = some w) (hc : Closed st (fill a e)) (hq : Small G (.rel (aval v a)) e) :
    (fill a e).resolve st.env.heap st.tab ≠ .ub := by
  have := safe_eval hu hg ha ht hw hc hq
  unfold MExpr.resolve
  cases he : (fill a e).eval st.env.heap st.tab <;> simp_all

theorem deps_safe {st : St} {p : Int} (h : Fwd (Small G) G v st p) {n : SymId} {x : MExpr} (hm : (n, x) ∈ st.deps) (hc : Closed st x) :
    x.resolve st.env.heap st.tab ≠ .ub := by
  obtain ⟨a, e, w, h1, h2, h3, h4, h5, h6, h7⟩ := h.deps _ hm
  simp only at h1
  subst h1
  exact safe_resolve h.under h.good h2 h4 h5 hc h7

theorem gaps_safe {st : St} {p : Int} (h : Fwd (Small G) G v st p) {i : SpId} {u : Nat} {x : MExpr} (hm : (i, u, x) ∈ st.gaps)
    (hx : ((SpSrc.data [x]).collect st.env st.tab).extract st.env = []) : x.eval st.env.heap st.tab ≠ .ub := by
  obtain ⟨a, e, k, g1, g2, g3, g4, g5, g6, g7⟩ := h.gaps _ hm
  simp only at g1
  subst g1
  obtain ⟨j1, j2, _⟩ := collect_ok (env_unknown st) h.good g2 e _ g5
  exact safe_eval h.under h.good g2 g4 g5 (closed_data j1 j2 (closed_extract hx)) g7

theorem resolves_safe {st : St} {o : Out} (h : Resolves st o) : ∀ p, Fwd (Small G) G v st p → o ≠ .crash := by
  induction h with
  | stop => intros; simp
  | step h1 h2 h3 _ ih => intro p hk; exact ih p (fwd_sym hk h1 (closed_extract h2) h3)
  | crash h1 h2 h3 => intro p hk; exact absurd h3 (deps_safe hk h1 (closed_extract h2))

theorem resolves_ends {p : Int} : ∀ (k : Nat) (st : St), st.deps.length = k → Fwd (Small G) G v st p → ∃ st', Resolves st (.ok st') := by
  intro k
  induction k using Nat.strongRecOn with
  | _ k ih =>
    intro st hk hf
    by_cases h : ∃ n e, (n, e) ∈ st.deps ∧ (e.collect st.env st.tab).extract st.env = []
    · obtain ⟨n, e, h1, h2⟩ := h
      have hub := deps_safe hf h1 (closed_extract h2)
      have hlt : (st.deps.filter (·.1 ≠ n)).length < k := by
        rw [← hk, List.length_filter_lt_length_iff_exists]
        exact ⟨_, h1, by simp⟩
      obtain ⟨st', hs⟩ := ih _ hlt _ rfl (fwd_sym hf h1 (closed_extract h2) hub)
      exact ⟨st', .step h1 h2 hub hs⟩
    · exact ⟨st, .stop fun n e h1 h2 => h ⟨n, e, h1, h2⟩⟩

/-! ### One statement -/

theorem create_ends {ρ : SpId → Nat} {b : Nat} {st : St} {p : Int} {n : SymId} {x : SVal} (h : Rk r D ρ b { st with tab := st.tab.set n (mkSym x) })
    (hf : Fwd (Small G) G v { st with tab := st.tab.set n (mkSym x) } p) : (∃ st', Create st n x (.ok st')) ∧ ¬ Create st n x .crash := by
  constructor
  · obtain ⟨st', hs⟩ := resolves_ends _ _ rfl hf
    exact ⟨st', .fine (fun a _ s => uncircular (down_of h hf) s) hs⟩
  · intro hc
    cases hc with
    | fine _ h2 => exact resolves_safe h2 p hf rfl

theorem later_ends {ρ : SpId → Nat} {b : Nat} {st : St} {p : Int} (h : Rk r D ρ b st) (hf : Fwd (Small G) G v st p) {n : SymId} {x : MExpr}
    (hw : Waits r D ρ st.lc.spaces.length x (r n)) :
    ∃ fuel, { st with tab := st.tab.set n (mkSym .undef) }.sym.checkCycle (.sym n) fuel
      ((x.collect st.env (st.tab.set n (mkSym .undef))).extract st.env) = some true := by
  have hd : Down r D ρ b v { st with tab := st.tab.set n (mkSym .undef) } := by
    refine ⟨rk_set h (by intro a ha; cases ha), hf.under, ?_, (fun i d hi => fwd_in hf i d hi), fun y hy => kind_lt (hf.wf.wait y hy).1⟩
    intro m a ha
    simp only [value_set, mkSym] at ha
    split at ha
    · cases ha
    · exact (hf.tab m a ha).2
  obtain ⟨fuel, q, hq⟩ := C55_terminates_partial _ ⟨_, edge_down hd⟩ (.sym n) ((x.collect st.env (st.tab.set n (mkSym .undef))).extract st.env)
  cases q with
  | true => exact ⟨fuel, hq⟩
  | false => exact absurd hq (later_unreported h hf hw)

theorem equ_ends {ρ : SpId → Nat} {b : Nat} {st : St} {p : Int} (h : Rk r D ρ b st) (hf : Fwd (Small G) G v st p) {n : SymId} {a : Addr} {e : MExpr}
    (ha : a ∈ st.lc.log) (ht : Tidy G e) (hk : IsNumber G e ∨ IsPlace G e ∧ (st.lc.spaces = [] ∨ Bare e)) {w : Val}
    (hw : value G (.rel (aval v a)) e = some w) (hn : G n = some w) (hq : Small G (.rel (aval v a)) e)
    (hwt : Waits r D ρ st.lc.spaces.length (fill a e) (r n)) (hnew : st.tab n = none) :
    (∃ st', Equ st n (fill a e) (.ok st')) ∧ ¬ Equ st n (fill a e) .crash := by
  obtain ⟨ha1, ha2⟩ := hf.log a ha
  have hnow : ((fill a e).collect st.env st.tab).contains st.env = false → (fill a e).resolve st.env.heap st.tab ≠ .ub :=
    fun h2 => safe_resolve hf.under hf.good ha1.1 ht hw (closed_contains h2) hq
  have hcn : ((fill a e).collect st.env st.tab).contains st.env = false →
      (∃ st', Create st n ((fill a e).resolve st.env.heap st.tab) (.ok st')) ∧ ¬ Create st n ((fill a e).resolve st.env.heap st.tab) .crash := by
    intro h2
    obtain ⟨r1, r2⟩ := resolve_good hf.under hf.good ha1.1 ht hw (closed_contains h2) (hnow h2)
    refine create_ends (rk_set h ?_) (fwd_new hf hnew (by rw [hn]; exact r1) ?_)
    · intro c hc s hs hl
      rw [hc] at r1
      exact absurd hl (known_len hf.under r1.1 (r2 c hc) s hs)
    · intro b hb
      rw [hb] at r1
      exact known_inside hf.under r1.1 (r2 b hb)
  have hca : ∀ c, ((fill a e).collect st.env st.tab).contains st.env = true → ((fill a e).collect st.env st.tab).isAddress = true →
      ((fill a e).collect st.env st.tab).addr = some c → (∃ st', Create st n (.reloc c) (.ok st')) ∧ ¬ Create st n (.reloc c) .crash := by
    intro c h2 h3 h4
    obtain ⟨r1, r2⟩ := address_case_good hf ha1 ha2 hk h2 h3 h4 hw
    refine create_ends (rk_set h ?_) (fwd_new hf hnew (by rw [hn]; exact r1) (by intro c hc; cases hc; exact r2))
    exact rk_address_case h hf ha1 hk h3 h4 hw hwt r2.2
  constructor
  · cases h2 : ((fill a e).collect st.env st.tab).contains st.env with
    | false =>
      obtain ⟨⟨st', hs⟩, _⟩ := hcn h2
      exact ⟨st', .now hnew h2 (hnow h2) hs⟩
    | true =>
      cases h3 : ((fill a e).collect st.env st.tab).isAddress with
      | true =>
        obtain ⟨c, h4⟩ : ∃ c, ((fill a e).collect st.env st.tab).addr = some c := by
          unfold Coll.isAddress at h3
          cases h4 : ((fill a e).collect st.env st.tab).addr with
          | none => rw [h4] at h3; simp at h3
          | some c => exact ⟨c, rfl⟩
        obtain ⟨⟨st', hs⟩, _⟩ := hca c h2 h3 h4
        exact ⟨st', .address hnew h2 h3 h4 hs⟩
      | false =>
        obtain ⟨fuel, hc⟩ := later_ends h hf hwt
        exact ⟨_, .later hnew h2 h3 hc⟩
  · intro hx
    cases hx with
    | now h1 h2 h3 h4 => exact (hcn h2).2 h4
    | ub h1 h2 h3 => exact hnow h2 h3
    | address h1 h2 h3 h4 h5 => exact (hca _ h2 h3 h4).2 h5

theorem label_ends {ρ : SpId → Nat} {b : Nat} {st : St} {p : Int} (h : Rk r D ρ b st) (hf : Fwd (Small G) G v st p) {a : Addr} {l : Option SymId}
    (ha : a ∈ st.lc.log) (hn : ∀ n, l = some n → G n = some (.rel (aval v a))) (hr : ∀ n, l = some n → b < r n)
    (hnew : ∀ n, l = some n → st.tab n = none) : (∃ st', Label st a l (.ok st')) ∧ ¬ Label st a l .crash := by
  obtain ⟨ha1, ha2⟩ := hf.log a ha
  cases l with
  | none => exact ⟨⟨st, .none⟩, by intro hx; cases hx⟩
  | some n =>
    have hc : (∃ st', Create st n (.reloc a) (.ok st')) ∧ ¬ Create st n (.reloc a) .crash := by
      refine create_ends (rk_set h ?_) (fwd_new hf (hnew n rfl) (by rw [hn _ rfl]; exact ⟨ha1.1, rfl⟩) (by intro b hb; cases hb; exact ⟨ha1, ha2⟩))
      intro c hc s hs _
      cases hc
      exact Nat.lt_of_le_of_lt (h.all s (ha2 s hs)) (hr _ rfl)
    refine ⟨?_, ?_⟩
    · obtain ⟨⟨st', hs⟩, _⟩ := hc
      exact ⟨st', .new (hnew n rfl) hs⟩
    · intro hx
      cases hx with
      | new h1 h2 => exact hc.2 h2

theorem exec_ends {st : St} {s : Stmt} {rest : List Stmt} {var : Bool} {p : Int} {ρ : SpId → Nat} {b : Nat}
    (hc : CarefulFrom G var (s :: rest)) (hs : SolvesQ (Small G) G p (s :: rest)) (hrk : RankedFrom r D b (s :: rest))
    (hv : var = false → st.lc.spaces = [] ∧ st.lc.data.parts = []) (hk : Fwd (Small G) G v st p) (hR : Rk r D ρ b st)
    (hnew : ∀ n, nameOf s = some n → st.tab n = none) : (∃ st', Exec st s (.ok st')) ∧ ¬ Exec st s .crash := by
  cases s with
  | equ n e =>
    obtain ⟨c1, c2, c3⟩ := hc
    obtain ⟨⟨w, s1, s2, sq⟩, s3⟩ := hs
    obtain ⟨q1, q2, q3⟩ := hrk
    have hv' : var = false → (st.align ⟨0, 1⟩).lc.spaces = [] ∧ (st.align ⟨0, 1⟩).lc.data.parts = [] := fun h => reserve_none (hv h) _ _
    have hkind := c2.imp_right fun ⟨h1, h2⟩ => (⟨h1, h2.imp_left fun h => (hv' h).1⟩ : _ ∧ ((st.align ⟨0, 1⟩).lc.spaces = [] ∨ Bare _))
    obtain ⟨v1, k1, a1⟩ := fwd_align hk (al := ⟨0, 1⟩) pow_one rfl
    rw [alignUp_one] at k1 a1
    obtain ⟨ρ1, R1⟩ := rk_reserve hR hk 0 (al := ⟨0, 1⟩) k1
    have hwt := waits_of R1 k1 (last_mem st _) q1 q2
    obtain ⟨⟨st', e1⟩, e2⟩ := equ_ends R1 k1 (last_mem st _) c1 hkind (by rw [a1]; exact s1) s2 (by rw [a1]; exact sq) hwt (hnew n rfl)
    refine ⟨⟨st', .equ e1⟩, ?_⟩
    intro hx
    cases hx with
    | equ hx => exact e2 hx
  | data l al u e0 =>
    obtain ⟨⟨k, hk0, hal⟩, c2, c3, c4, c5⟩ := hc
    obtain ⟨s1, n, s2, sq, s3⟩ := hs
    obtain ⟨q1, g, q2, q3, q4⟩ := hrk
    have hp : Pow al := ⟨k, hk0, by rw [hal]⟩
    have h0 : al.byte = 0 := by rw [hal]
    obtain ⟨v1, k1, a1⟩ := fwd_align hk hp h0
    obtain ⟨ρ1, R1⟩ := rk_reserve hR hk 0 (al := al) k1
    have hlab : ∀ m, l = some m → G m = some (.rel (aval v1 (lastAddr (st.align al).lc))) := by intro m hm; rw [a1]; exact s1 m hm
    have hval : value G (.rel (aval v1 (lastAddr (st.align al).lc))) e0 = some (.abs n) := by rw [a1]; exact s2
    have hsim := (k1.log _ (last_mem st al)).1.1
    obtain ⟨⟨st2, e1⟩, e2⟩ := label_ends R1 k1 (last_mem st al) hlab q1 hnew
    have hsafe : ∀ st2, Label (st.align al) (lastAddr (st.align al).lc) l (.ok st2) → (st.align al).late (fill (lastAddr (st.align al).lc) e0) = false →
        (fill (lastAddr (st.align al).lc) e0).eval st2.env.heap st2.tab ≠ .ub := by
      intro st2 hl hlate
      obtain ⟨i1, i2, i3⟩ := data_trs (F := G) (σ := v1) hp h0 c2 c3 c4 hl p
      obtain ⟨j1, j2, _⟩ := collect_ok (env_unknown (st.align al)) k1.good hsim e0 _ hval
      have hcl := closed_data j1 j2 (closed_contains hlate)
      have hdef := syms_defined (env_unknown (st.align al)) k1.good hsim e0 _ hval hcl.1
      have hee : (fill (lastAddr (st.align al).lc) e0).eval st2.env.heap st2.tab =
          (fill (lastAddr (st.align al).lc) e0).eval (st.align al).env.heap (st.align al).tab := by
        have hh : st2.env.heap = (st.align al).env.heap := by show st2.lc.heap = _; rw [i2]; rfl
        rw [hh]
        exact value_rel (F := G) (p := alignUp al p) (by rw [s2]; simp) fun m hm => (trs_ext i1 k1.wf).tab m (hdef m hm)
      rw [hee]
      exact safe_eval k1.under k1.good hsim c3 hval hcl (by rw [a1]; exact sq)
    refine ⟨⟨_, .data rfl e1 ?_⟩, ?_⟩
    · cases hl : (st.align al).late (fill (lastAddr (st.align al).lc) e0) with
      | true => exact .inl rfl
      | false => exact .inr (hsafe st2 e1 hl)
    · intro hx
      cases hx with
      | dataUb hxe hl hlate hub => subst hxe; exact hsafe _ hl hlate hub
      | dataCrash hl => exact e2 hl

/-! ### The addresses of alignments -/

/-- Alignments remember addresses of the section. -/
def Plain (c : LC) : Prop := ∀ i d, kindOf c.spaces i = some (.alignment d) → Ones d.spaces

theorem plain_reserve {st : St} {p : Int} {Q : Val → MExpr → Prop} (hf : Fwd Q G v st p) (h : Plain st.lc) (len : Nat) (al : Al) : Plain (st.lc.reserve len al) := by
  obtain ⟨out, hi⟩ := hf.inv
  have hs : (st.lc.reserve len al).spaces = st.lc.spaces ∨ ∃ al', (st.lc.reserve len al).spaces = st.lc.spaces ++ [⟨al', .alignment st.lc.current, none⟩] := by
    unfold LC.reserve LC.alignTo
    simp only
    split
    · exact .inl rfl
    · split
      · exact .inr ⟨_, rfl⟩
      · exact .inl rfl
  intro i d hk
  rcases hs with hs | ⟨al', hs⟩
  · rw [hs] at hk; exact h i d hk
  · rw [hs, kindOf_append] at hk
    split at hk
    · simp only [Option.some.injEq, SpKind.alignment.injEq] at hk
      subst hk
      exact (fit_current (st := st) hi).1.2
    · exact h i d hk

theorem plain_gap {c : LC} (h : Plain c) (n : Nat) (al : Al) : Plain (c.gap n al) := by
  intro i d hk
  have hsp : (c.gap n al).spaces = c.spaces ++ [⟨al, .ordinary n, none⟩] := rfl
  rw [hsp, kindOf_append] at hk
  split at hk
  · simp at hk
  · exact h i d hk

theorem plain_exec {st st' : St} {s : Stmt} (hx : Exec st s (.ok st')) {rest : List Stmt} {var : Bool} {p : Int}
    (hc : CarefulFrom G var (s :: rest)) (hs : SolvesQ (Small G) G p (s :: rest)) (hv : var = false → st.lc.spaces = [] ∧ st.lc.data.parts = [])
    (hk : Fwd (Small G) G v st p) (h : Plain st.lc) : Plain st'.lc := by
  cases hx with
  | equ hx =>
    obtain ⟨c1, c2, c3⟩ := hc
    have hv' : var = false → (st.align ⟨0, 1⟩).lc.spaces = [] ∧ (st.align ⟨0, 1⟩).lc.data.parts = [] := fun h => reserve_none (hv h) _ _
    have hkind := c2.imp_right fun ⟨h1, h2⟩ => (⟨h1, h2.imp_left fun h => (hv' h).1⟩ : _ ∧ ((st.align ⟨0, 1⟩).lc.spaces = [] ∨ Bare _))
    obtain ⟨i1, i2⟩ := equ_trs (σ := v) hx (last_mem st _) c1 hkind p
    rw [i2]
    exact plain_reserve hk h 0 _
  | data hxe hl hub =>
    rename_i l al u e0 x st2
    obtain ⟨⟨k, hk0, hal⟩, c2, c3, c4, c5⟩ := hc
    obtain ⟨s1, n, s2, sq, s3⟩ := hs
    have hp : Pow al := ⟨k, hk0, by rw [hal]⟩
    have h0 : al.byte = 0 := by rw [hal]
    obtain ⟨i1, i2, i3⟩ := data_trs (F := G) (σ := v) hp h0 c2 c3 c4 hl p
    obtain ⟨v1, k1, a1⟩ := fwd_align hk hp h0
    have k2 := fwd_label k1 hl (last_mem st al) (by intro m hm; rw [a1]; exact s1 m hm)
    have h2 : Plain st2.lc := by rw [i2]; exact plain_reserve hk h 0 al
    unfold St.reserve
    split
    · exact plain_gap h2 _ _
    · exact plain_reserve k2 h2 _ _

/-! ### The end of the program -/

/-- An alignment that depends on nothing any more gets its length. -/
theorem settle_self {st : St} {p : Int} {Q : Val → MExpr → Prop} (hf : Fwd Q G v st p) (hp : Plain st.lc) {i : SpId} {d : Addr} (hm : (i, SpSrc.addr d) ∈ aligns st.lc)
    (hx : ((SpSrc.addr d).collect st.env st.tab).extract st.env = []) :
    ∃ al len, st.lc.spaces[i]? = some ⟨al, .alignment d, none⟩ ∧ (st.lc.step (.settle i)).spaces = st.lc.spaces.set i ⟨al, .alignment d, some len⟩ := by
  unfold aligns at hm
  obtain ⟨j, hj, hy⟩ := List.mem_filterMap.1 hm
  split at hy
  · rename_i al a hsp
    simp only [Option.some.injEq, Prod.mk.injEq, SpSrc.addr.injEq] at hy
    obtain ⟨rfl, rfl⟩ := hy
    have hk : kindOf st.lc.spaces j = some (.alignment a) := by unfold kindOf; rw [hsp]; rfl
    have hn : a.norm st.env.heap = [] := by
      have h1 := (closed_extract hx).2.2 _ rfl
      have hcan : Canonical (uptoStop st.env (a.norm st.env.heap).reverse) := by
        obtain ⟨c1, c2⟩ := canonical_norm st.env.heap a.spaces
        have hsub : ∀ l : List (SpId × Int), (uptoStop st.env l).Sublist l := by
          intro l
          induction l with
          | nil => exact List.Sublist.refl _
          | cons e l ih =>
            unfold uptoStop
            split
            · exact (List.nil_sublist l).cons_cons e
            · exact ih.cons_cons e
        refine ⟨?_, fun e he => c2 e (List.mem_reverse.1 ((hsub _).subset he))⟩
        refine List.Nodup.sublist ((hsub _).map _) ?_
        rw [List.map_reverse]
        exact List.pairwise_reverse.2 (c1.imp fun h => h.symm)
      have hunk : ∀ e ∈ uptoStop st.env (a.norm st.env.heap).reverse, st.env.heap.info e.1 = none :=
        fun e he => norm_unknown st.env.heap a.spaces e (List.mem_reverse.1 (uptoStop_mem he))
      have h2 : uptoStop st.env (a.norm st.env.heap).reverse = [] := by
        rw [← norm_canonical hcan hunk]; exact h1
      cases hl : (a.norm st.env.heap).reverse with
      | nil => exact List.reverse_eq_nil_iff.1 hl
      | cons e l =>
        rw [hl] at h2
        unfold uptoStop at h2
        split at h2 <;> cases h2
    have hall : ∀ e ∈ a.spaces, (st.lc.heap.info e.1).isSome = true := by
      intro e he
      unfold Addr.norm at hn
      rw [norm_eq hf.under (hp j a hk)] at hn
      unfold unknownIn at hn
      have := List.filter_eq_nil_iff.1 hn e he
      change ¬ (st.lc.heap.info e.1).isNone = true at this
      cases hi : st.lc.heap.info e.1 with
      | none => rw [hi] at this; exact absurd rfl this
      | some _ => rfl
    have hready : st.lc.ready a = true := by
      unfold LC.ready
      rw [List.all_eq_true]
      have hsub : ∀ l : List (SpId × Int), ∀ e ∈ depTail st.lc l, e ∈ l := by
        intro l
        induction l with
        | nil => intro e he; exact he
        | cons x l ih =>
          intro e he
          unfold depTail at he
          rcases List.mem_cons.1 he with he | he
          · subst he; simp
          · split at he
            · cases he
            · exact List.mem_cons_of_mem _ (ih e he)
      intro e he
      exact hall e (List.mem_reverse.1 (hsub _ e he))
    refine ⟨al, padSpace al (a.offset st.lc.heap), hsp, ?_⟩
    simp only [LC.step, hsp, hready, if_true, LC.setLen]
  · cases hy

/-- What is left to do. -/
def left (st : St) : Nat := st.deps.length + st.gaps.length + st.lc.spaces.countP (fun s => s.len = none)

theorem count_set {l : List Sp} {i : Nat} {s s' : Sp} (h : l[i]? = some s) (hs : s.len = none) (hs' : s'.len ≠ none) :
    (l.set i s').countP (fun s => s.len = none) < l.countP (fun s => s.len = none) := by
  induction l generalizing i with
  | nil => cases h
  | cons x l ih =>
    cases i with
    | zero =>
      simp only [List.getElem?_cons_zero, Option.some.injEq] at h
      subst h
      simp [List.countP_cons, hs, hs']
    | succ i =>
      have := ih (i := i) (by simpa using h)
      simp only [List.set_cons_succ, List.countP_cons]
      omega

theorem count_define (c : LC) (i : SpId) (len : Int) : (c.step (.define i len)).spaces.countP (fun s => s.len = none) ≤ c.spaces.countP (fun s => s.len = none) := by
  simp only [LC.step]
  split
  · rename_i al n l hs
    unfold LC.setLen
    rw [hs]
    cases l with
    | some x => exact Nat.le_refl _
    | none => exact Nat.le_of_lt (count_set (s := ⟨al, .ordinary n, none⟩) hs rfl (by simp))
  · exact Nat.le_refl _

theorem plain_round {st st' : St} (h : Plain st.lc) (hr : Round st (.ok st')) : Plain st'.lc := by
  cases hr with
  | sym => exact h
  | gap h1 h2 h3 =>
    intro i d hk
    rw [kind_define] at hk
    exact h i d hk
  | align h1 h2 =>
    rename_i j d
    have hkind : ∀ i, kindOf (st.lc.step (.settle j)).spaces i = kindOf st.lc.spaces i := by
      intro i
      unfold LC.step
      simp only
      split
      · split
        · exact lookup_setLen_kind _ _ _ _
        · rfl
      · rfl
    intro i d hk
    rw [hkind] at hk
    exact h i d hk

theorem round_left {st st' : St} {p : Int} {Q : Val → MExpr → Prop} (hf : Fwd Q G v st p) (hp : Plain st.lc) (hr : Round st (.ok st')) : left st' < left st := by
  cases hr with
  | sym h1 h2 h3 =>
    rename_i n e
    have hlt : (st.deps.filter (·.1 ≠ n)).length < st.deps.length := by
      rw [List.length_filter_lt_length_iff_exists]
      exact ⟨_, h1, by simp⟩
    unfold left
    simp only
    omega
  | gap h1 h2 h3 =>
    rename_i i u e
    have hlt : (st.gaps.filter (·.1 ≠ i)).length < st.gaps.length := by
      rw [List.length_filter_lt_length_iff_exists]
      exact ⟨_, h1, by simp⟩
    have := count_define st.lc i (byteLen u (e.eval st.env.heap st.tab) : Nat)
    unfold left
    simp only
    omega
  | align h1 h2 =>
    rename_i j d
    obtain ⟨al, len, e1, e2⟩ := settle_self hf hp h1 h2
    have := count_set (s' := ⟨al, .alignment d, some len⟩) e1 rfl (by simp)
    unfold left
    simp only
    rw [e2]
    omega

theorem settles_ends {p : Int} : ∀ (k : Nat) (st : St) (v : SpId → Int), left st = k → Fwd (Small G) G v st p → Plain st.lc → ∃ st', Settles st (.ok st') := by
  intro k
  induction k using Nat.strongRecOn with
  | _ k ih =>
    intro st v hk hf hp
    by_cases h : ∃ o, Round st o
    · obtain ⟨o, hr⟩ := h
      have hok : ∃ st', Round st (.ok st') := by
        cases hr with
        | sym h1 h2 h3 => exact ⟨_, .sym h1 h2 h3⟩
        | symUb h1 h2 h3 => exact absurd h3 (deps_safe hf h1 (closed_extract h2))
        | gap h1 h2 h3 => exact ⟨_, .gap h1 h2 h3⟩
        | gapUb h1 h2 h3 => exact absurd h3 (gaps_safe hf h1 h2)
        | align h1 h2 => exact ⟨_, .align h1 h2⟩
      obtain ⟨st', hr'⟩ := hok
      obtain ⟨v', hf'⟩ := fwd_round hf hr'
      obtain ⟨st'', hs⟩ := ih _ (hk ▸ round_left hf hp hr') st' v' rfl hf' (plain_round hp hr')
      exact ⟨st'', .step hr' hs⟩
    · exact ⟨st, .stop fun o ho => h ⟨o, ho⟩⟩

theorem settles_safe {st : St} {o : Out} (h : Settles st o) : ∀ p v, Fwd (Small G) G v st p → o ≠ .crash := by
  induction h with
  | stop => intros; simp
  | step hr _ ih =>
    intro p v hf
    obtain ⟨v', hf'⟩ := fwd_round hf hr
    exact ih p v' hf'
  | crash hr =>
    intro p v hf
    cases hr with
    | symUb h1 h2 h3 => exact absurd h3 (deps_safe hf h1 (closed_extract h2))
    | gapUb h1 h2 h3 => exact absurd h3 (gaps_safe hf h1 h2)

theorem runs_safe {st : St} {prog : List Stmt} {o : Out} (h : Runs st prog o) : ∀ var p v ρ b, CarefulFrom G var prog → SolvesQ (Small G) G p prog →
    RankedFrom r D b prog → (var = false → st.lc.spaces = [] ∧ st.lc.data.parts = []) → Fwd (Small G) G v st p → Rk r D ρ b st →
    (names prog).Nodup → (∀ n ∈ names prog, st.tab n = none) → o ≠ .crash := by
  induction h with
  | nil => intros; simp
  | cons hx hrest ih =>
    intro var p v ρ b hc hs hrk hv hk hR hn hnew
    rw [names_cons] at hn hnew
    obtain ⟨var', p', v', ρ', b', h1, h2, h3, h4, h5, h6⟩ := rk_exec hx hc hs hrk hv hk hR
    obtain ⟨_, j2⟩ := exec_unreported hc hs hrk hv hk hR (fun n h => hnew n (by simp [h]))
    refine ih var' p' v' ρ' b' h1 h2 h3 h4 h5 h6 (List.nodup_append.1 hn).2.1 ?_
    intro n hn'
    refine j2 _ hx n ?_ (hnew n (List.mem_append_right _ hn'))
    intro he
    exact (List.nodup_append.1 hn).2.2 n (by simp [he]) n hn' rfl
  | reported => intros; simp
  | crash hx =>
    intro var p v ρ b hc hs hrk hv hk hR hn hnew
    rw [names_cons] at hnew
    exact absurd hx (exec_ends hc hs hrk hv hk hR (fun n h => hnew n (by simp [h]))).2

theorem runs_ends (prog : List Stmt) : ∀ (st : St) var p v ρ b, CarefulFrom G var prog → SolvesQ (Small G) G p prog →
    RankedFrom r D b prog → (var = false → st.lc.spaces = [] ∧ st.lc.data.parts = []) → Fwd (Small G) G v st p → Rk r D ρ b st → Plain st.lc →
    (names prog).Nodup → (∀ n ∈ names prog, st.tab n = none) →
    ∃ st' p' v', Runs st prog (.ok st') ∧ Fwd (Small G) G v' st' p' ∧ Plain st'.lc := by
  induction prog with
  | nil => intro st var p v ρ b _ _ _ _ hk _ hp _ _; exact ⟨st, p, v, .nil, hk, hp⟩
  | cons s rest ih =>
    intro st var p v ρ b hc hs hrk hv hk hR hpl hn hnew
    rw [names_cons] at hn hnew
    obtain ⟨⟨st1, hx⟩, _⟩ := exec_ends hc hs hrk hv hk hR (fun n h => hnew n (by simp [h]))
    obtain ⟨var', p', v', ρ', b', h1, h2, h3, h4, h5, h6⟩ := rk_exec hx hc hs hrk hv hk hR
    obtain ⟨_, j2⟩ := exec_unreported hc hs hrk hv hk hR (fun n h => hnew n (by simp [h]))
    obtain ⟨st', p2, v2, g1, g2, g3⟩ := ih st1 var' p' v' ρ' b' h1 h2 h3 h4 h5 h6 (plain_exec hx hc hs hv hk hpl) (List.nodup_append.1 hn).2.1 (by
      intro n hn'
      refine j2 _ hx n ?_ (hnew n (List.mem_append_right _ hn'))
      intro he
      exact (List.nodup_append.1 hn).2.2 n (by simp [he]) n hn' rfl)
    exact ⟨st', p2, v2, .cons hx g1, g2, g3⟩

theorem runs_upto (pre post : List Stmt) : ∀ (st st' : St) var p v ρ b, Runs st pre (.ok st') → CarefulFrom G var (pre ++ post) → SolvesQ (Small G) G p (pre ++ post) →
    RankedFrom r D b (pre ++ post) → (var = false → st.lc.spaces = [] ∧ st.lc.data.parts = []) → Fwd (Small G) G v st p → Rk r D ρ b st → Plain st.lc →
    (names (pre ++ post)).Nodup → (∀ n ∈ names (pre ++ post), st.tab n = none) →
    ∃ var p v ρ b, CarefulFrom G var post ∧ SolvesQ (Small G) G p post ∧ RankedFrom r D b post ∧
      (var = false → st'.lc.spaces = [] ∧ st'.lc.data.parts = []) ∧ Fwd (Small G) G v st' p ∧ Rk r D ρ b st' ∧ Plain st'.lc ∧
      (names post).Nodup ∧ (∀ n ∈ names post, st'.tab n = none) := by
  induction pre with
  | nil =>
    intro st st' var p v ρ b h hc hs hrk hv hk hR hp hn hnew
    cases h
    exact ⟨var, p, v, ρ, b, hc, hs, hrk, hv, hk, hR, hp, hn, hnew⟩
  | cons s rest ih =>
    intro st st' var p v ρ b h hc hs hrk hv hk hR hpl hn hnew
    rw [List.cons_append] at hc hs hrk hn hnew
    rw [names_cons] at hn hnew
    cases h with
    | cons hx hrest =>
      obtain ⟨var', p', v', ρ', b', h1, h2, h3, h4, h5, h6⟩ := rk_exec hx hc hs hrk hv hk hR
      obtain ⟨_, j2⟩ := exec_unreported hc hs hrk hv hk hR (fun n h => hnew n (by simp [h]))
      refine ih _ _ var' p' v' ρ' b' hrest h1 h2 h3 h4 h5 h6 (plain_exec hx hc hs hv hk hpl) (List.nodup_append.1 hn).2.1 ?_
      intro n hn'
      refine j2 _ hx n ?_ (hnew n (List.mem_append_right _ hn'))
      intro he
      exact (List.nodup_append.1 hn).2.2 n (by simp [he]) n hn' rfl

/-- Rounds one after the other. -/
inductive Rounds : St → St → Prop
  | refl {st} : Rounds st st
  | step {st st' st''} : Round st (.ok st') → Rounds st' st'' → Rounds st st''

theorem rounds_keep {st st' : St} (h : Rounds st st') : ∀ {p : Int} {v : SpId → Int}, Fwd (Small G) G v st p → Plain st.lc →
    ∃ v', Fwd (Small G) G v' st' p ∧ Plain st'.lc := by
  induction h with
  | refl => intro p v hf hp; exact ⟨v, hf, hp⟩
  | step hr _ ih =>
    intro p v hf hp
    obtain ⟨v', hf'⟩ := fwd_round hf hr
    exact ih hf' (plain_round hp hr)

theorem no_endless {f : Nat → St} (hf : ∀ i, Round (f i) (.ok (f (i + 1)))) {p : Int} (h0 : Fwd (Small G) G v (f 0) p) (hp : Plain (f 0).lc) : False := by
  have h : ∀ i, (∃ v', Fwd (Small G) G v' (f i) p) ∧ Plain (f i).lc ∧ left (f i) + i ≤ left (f 0) := by
    intro i
    induction i with
    | zero => exact ⟨⟨v, h0⟩, hp, Nat.le_refl _⟩
    | succ i ih =>
      obtain ⟨⟨v', k1⟩, k2, k3⟩ := ih
      have := round_left k1 k2 (hf i)
      exact ⟨fwd_round k1 (hf i), plain_round k2 (hf i), by omega⟩
  have := (h (left (f 0) + 1)).2.2
  omega

end

/-- C134 (partial): a program that defines no symbol twice, has a careful solution, whose definitions do not go round in circles and whose
numbers fit into 32 bits can be assembled, and however it is assembled, nothing is reported, nothing overflows, nothing is left over, and every
symbol has the value of the solution. -/
theorem C134_total_partial (prog : List Stmt) (G : Values) (hs : Solves G prog) (hc : Careful G prog) (r : SymId → Nat) (hr : Ranked r prog)
    (hn : (names prog).Nodup) (hq : SmallProg G prog) :
    (∃ fin, Assembles prog (.ok fin)) ∧
    ∀ o, Assembles prog o → ∃ fin, o = .ok fin ∧ fin.Finished ∧ ∀ n ∈ names prog, fin.value n = G n := by
  have hs' := solves_small hs hq
  constructor
  · obtain ⟨st, p, v, h1, h2, h3⟩ := runs_ends prog St.init false 0 (fun _ => 0) (fun _ => 0) 0 hc hs' hr (fun _ => ⟨rfl, rfl⟩) (fwd_init G)
      (rk_init _ _ _ _) (by intro i d hk; simp [St.init, LC.init, kindOf] at hk) hn (fun _ _ => rfl)
    obtain ⟨fin, h4⟩ := settles_ends _ st v rfl h2 h3
    exact ⟨fin, .done h1 h4⟩
  · intro o h
    refine (C134_assembled_partial prog G hs hc r hr hn o h).resolve_left ?_
    cases h with
    | done h1 h2 =>
      obtain ⟨v1, p1, ρ, b, k1, R1⟩ := rk_runs h1 _ false 0 (fun _ => 0) (fun _ => 0) 0 rfl hc hs' hr (fun _ => ⟨rfl, rfl⟩) (fwd_init G) (rk_init _ _ _ _)
      exact settles_safe h2 p1 v1 k1
    | reported => simp
    | crash h1 =>
      exact runs_safe h1 false 0 (fun _ => 0) (fun _ => 0) 0 hc hs' hr (fun _ => ⟨rfl, rfl⟩) (fwd_init G) (rk_init _ _ _ _) hn (fun _ _ => rfl)

/-- C134 (partial): whatever was chosen so far, the assembly of such a program can be brought to its end: from the state after any of its
statements, and from the state after any round of the resolution. -/
theorem C134_never_stuck_partial (pre post : List Stmt) (G : Values) (hs : Solves G (pre ++ post)) (hc : Careful G (pre ++ post)) (r : SymId → Nat)
    (hr : Ranked r (pre ++ post)) (hn : (names (pre ++ post)).Nodup) (hq : SmallProg G (pre ++ post)) (st : St) (h : Runs St.init pre (.ok st)) :
    (∃ st' fin, Runs st post (.ok st') ∧ Settles st' (.ok fin)) ∧
    (post = [] → ∀ st', Rounds st st' → ∃ fin, Settles st' (.ok fin)) := by
  obtain ⟨var, p, v, ρ, b, h1, h2, h3, h4, h5, h6, h7, h8, h9⟩ := runs_upto pre post St.init st false 0 (fun _ => 0) (fun _ => 0) 0 h hc (solves_small hs hq) hr
    (fun _ => ⟨rfl, rfl⟩) (fwd_init G) (rk_init _ _ _ _) (by intro i d hk; simp [St.init, LC.init, kindOf] at hk) hn (fun _ _ => rfl)
  constructor
  · obtain ⟨st', p', v', g1, g2, g3⟩ := runs_ends post st var p v ρ b h1 h2 h3 h4 h5 h6 h7 h8 h9
    obtain ⟨fin, g4⟩ := settles_ends _ st' v' rfl g2 g3
    exact ⟨st', fin, g1, g4⟩
  · intro _ st' hrs
    obtain ⟨v', g1, g2⟩ := rounds_keep hrs h5 h7
    exact settles_ends _ st' v' rfl g1 g2

/-- C134 (partial): the resolution at the end of such a program does not go on for ever, whichever entries it takes. -/
theorem C134_not_endless_partial (prog : List Stmt) (G : Values) (hs : Solves G prog) (hc : Careful G prog) (r : SymId → Nat) (hr : Ranked r prog)
    (hn : (names prog).Nodup) (hq : SmallProg G prog) (f : Nat → St) (h : Runs St.init prog (.ok (f 0))) : ¬ ∀ i, Round (f i) (.ok (f (i + 1))) := by
  intro hf
  rw [← List.append_nil prog] at hs hc hr hn hq
  obtain ⟨var, p, v, ρ, b, h1, h2, h3, h4, h5, h6, h7, h8, h9⟩ := runs_upto prog [] St.init (f 0) false 0 (fun _ => 0) (fun _ => 0) 0 h hc (solves_small hs hq) hr
    (fun _ => ⟨rfl, rfl⟩) (fwd_init G) (rk_init _ _ _ _) (by intro i d hk; simp [St.init, LC.init, kindOf] at hk) hn (fun _ _ => rfl)
  exact no_endless hf h5 h7

/-- The program of `Props` is one of them. -/
example : ∃ fin, Assembles exProg (.ok fin) ∧ fin.Finished ∧ fin.value 4 = some (.abs 12) := by
  obtain ⟨⟨fin, h1⟩, h2⟩ := C134_total_partial exProg
    (fun n => [some (.rel 0), some (.rel 8), some (.abs 5), some (.abs 4), some (.abs 12)].getD n none)
    (by simp [Solves, SolvesFrom, exProg, value, plus, minus, bytes, alignUp])
    (by
      simp [Careful, CarefulFrom, exProg, Tidy, places, IsNumber, IsPlace, Constant, Bare, value, plus, minus]
      exact ⟨⟨0, by omega, rfl⟩, ⟨2, by omega, rfl⟩⟩)
    (fun n => [1, 4, 2, 1, 4].getD n 0)
    (by
      simp [Ranked, RankedFrom, exProg, symsOf, names, Here]
      exact ⟨3, by omega, by omega, 0, by omega⟩)
    (by decide)
    (by simp [SmallProg, SmallFrom, Small, Fits, exProg, value, plus, minus, bytes, alignUp])
  obtain ⟨fin', he, h3, h4⟩ := h2 _ h1
  cases he
  exact ⟨fin, h1, h3, h4 4 (by decide)⟩

end Verif.Whole
