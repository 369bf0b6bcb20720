import Verif.Whole.Unique
/-!
C134: nothing is left over when definitions do not go round in circles.
-/
namespace Verif.Whole
open Verif.Ord

/-- The expression mentions `*`. -/
def Here : MExpr → Prop
  | .loc _ => True
  | .par e => Here e
  | .neg e => Here e
  | .add l r => Here l ∨ Here r
  | .sub l r => Here l ∨ Here r
  | .mul l r => Here l ∨ Here r
  | .div l r => Here l ∨ Here r
  | _ => False

/-- Definitions do not go round in circles: symbols have ranks, `n EQU e` refers only to symbols that the program defines (`D`) and that are of
a lower rank; the length of data has a rank above the symbols it refers to; a label has a rank above the lengths of all data before it, and so
has whatever refers to `*`. `b` is the highest rank of a length so far. -/
def RankedFrom (r : SymId → Nat) (D : List SymId) : Nat → List Stmt → Prop
  | _, [] => True
  | b, .equ n e :: rest => (∀ m ∈ symsOf e, m ∈ D ∧ r m < r n) ∧ (Here e → b < r n) ∧ RankedFrom r D b rest
  | b, .data l _ _ e :: rest => (∀ n, l = some n → b < r n) ∧
    ∃ g, (∀ m ∈ symsOf e, m ∈ D ∧ r m < g) ∧ (Here e → b < g) ∧ RankedFrom r D (max b g) rest

def Ranked (r : SymId → Nat) (prog : List Stmt) : Prop := RankedFrom r (names prog) 0 prog

section
variable {Q : Val → MExpr → Prop} {G : Values} {v : SpId → Int} {r : SymId → Nat} {D : List SymId}

/-! ### What is waited for -/

/-- The addresses in an expression. -/
def locsOf : MExpr → List Addr
  | .loc (some a) => [a]
  | .par e => locsOf e
  | .neg e => locsOf e
  | .add l r => locsOf l ++ locsOf r
  | .sub l r => locsOf l ++ locsOf r
  | .mul l r => locsOf l ++ locsOf r
  | .div l r => locsOf l ++ locsOf r
  | _ => []

theorem symsOf_fill (a : Addr) (e : MExpr) : symsOf (fill a e) = symsOf e := by
  induction e <;> simp_all [fill, symsOf]

theorem locsOf_fill {a b : Addr} {e : MExpr} : b ∈ locsOf (fill a e) → b = a ∧ Here e := by
  induction e with
  | loc o => intro h; simp [fill, locsOf] at h; exact ⟨h, trivial⟩
  | par e ih => exact ih
  | neg e ih => exact ih
  | add l r ihl ihr => intro h; rcases List.mem_append.1 h with h | h; exacts [(ihl h).imp_right .inl, (ihr h).imp_right .inr]
  | sub l r ihl ihr => intro h; rcases List.mem_append.1 h with h | h; exacts [(ihl h).imp_right .inl, (ihr h).imp_right .inr]
  | mul l r ihl ihr => intro h; rcases List.mem_append.1 h with h | h; exacts [(ihl h).imp_right .inl, (ihr h).imp_right .inr]
  | div l r ihl ihr => intro h; rcases List.mem_append.1 h with h | h; exacts [(ihl h).imp_right .inl, (ihr h).imp_right .inr]
  | _ => intro h; simp [fill, locsOf] at h

/-- An expression refers to symbols and spaces below `k` only. -/
def Waits (r : SymId → Nat) (D : List SymId) (ρ : SpId → Nat) (N : Nat) (x : MExpr) (k : Nat) : Prop :=
  (∀ m ∈ symsOf x, m ∈ D ∧ r m < k) ∧ ∀ a ∈ locsOf x, ∀ s ∈ a.spaces.map (·.1), s < N ∧ ρ s < k

/-- The ranks `ρ` of the spaces fit those of the symbols. -/
structure Rk (r : SymId → Nat) (D : List SymId) (ρ : SpId → Nat) (b : Nat) (st : St) : Prop where
  tab : ∀ n a, st.tab.value n = .reloc a → ∀ x ∈ a.spaces.map (·.1), lenOf st.lc.spaces x = none → ρ x < r n
  all : ∀ i, i < st.lc.spaces.length → ρ i ≤ b
  deps : ∀ y ∈ st.deps, Waits r D ρ st.lc.spaces.length y.2 (r y.1)
  gaps : ∀ y ∈ st.gaps, Waits r D ρ st.lc.spaces.length y.2.2 (ρ y.1)
  align : ∀ i d, kindOf st.lc.spaces i = some (.alignment d) → ∀ x ∈ d.spaces.map (·.1), ρ x ≤ ρ i
  ord : ∀ i n, kindOf st.lc.spaces i = some (.ordinary n) → lenOf st.lc.spaces i = none → ∃ u x, (i, u, x) ∈ st.gaps

theorem rk_init (r : SymId → Nat) (D : List SymId) (ρ : SpId → Nat) (b : Nat) : Rk r D ρ b St.init := by
  constructor <;> simp [St.init, LC.init, Table.value, kindOf]

theorem waits_grow {ρ ρ' : SpId → Nat} {N M : Nat} {x : MExpr} {k : Nat} (h : Waits r D ρ N x k) (hm : N ≤ M) (ha : ∀ i, i < N → ρ' i = ρ i) :
    Waits r D ρ' M x k :=
  ⟨h.1, fun a ha' s hs => ⟨Nat.lt_of_lt_of_le (h.2 a ha' s hs).1 hm, by rw [ha s (h.2 a ha' s hs).1]; exact (h.2 a ha' s hs).2⟩⟩

theorem known_len {st : St} (hu : Under st.env.heap v) {b : Addr} (hb : SimpleA b) (hn : b.norm st.env.heap = []) :
    ∀ x ∈ b.spaces.map (·.1), lenOf st.lc.spaces x ≠ none := by
  unfold Addr.norm at hn
  rw [norm_eq hu hb.2] at hn
  unfold unknownIn at hn
  rw [List.filter_eq_nil_iff] at hn
  intro x hx
  obtain ⟨e, he, rfl⟩ := List.mem_map.1 hx
  have := hn e he
  change ¬ (st.lc.heap.info e.1).isNone = true at this
  rw [info_eq] at this
  intro hl
  simp [hl] at this

/-! ### Steps keep it -/

theorem rk_lc {ρ ρ' : SpId → Nat} {b b' : Nat} {st : St} {c : LC} {p : Int} (h : Rk r D ρ b st) (hf : Fwd Q G v st p)
    (hag : ∀ i, i < st.lc.spaces.length → ρ' i = ρ i) (hg : Grow st.lc c) (hall : ∀ i, i < c.spaces.length → ρ' i ≤ b')
    (hal : ∀ i d, kindOf c.spaces i = some (.alignment d) → kindOf st.lc.spaces i = some (.alignment d) ∨ ∀ x ∈ d.spaces.map (·.1), ρ' x ≤ ρ' i)
    (hin : ∀ i d, kindOf st.lc.spaces i = some (.alignment d) → ∀ x ∈ d.spaces.map (·.1), x < i)
    (hord : ∀ i n, kindOf c.spaces i = some (.ordinary n) → lenOf c.spaces i = none → ∃ u x, (i, u, x) ∈ st.gaps) :
    Rk r D ρ' b' { st with lc := c } := by
  refine ⟨?_, hall, ?_, ?_, ?_, hord⟩
  · intro n a ha x hx hl
    have hlt := (hf.tab n a ha).2 x hx
    rw [hag x hlt]
    refine h.tab n a ha x hx ?_
    cases hl' : lenOf st.lc.spaces x with
    | none => rfl
    | some l => rw [hg.len x l hl'] at hl; cases hl
  · intro y hy; exact waits_grow (h.deps y hy) hg.size hag
  · intro y hy
    have := h.gaps y hy
    rw [← hag y.1 (kind_lt (hf.wf.wait y hy).1)] at this
    exact waits_grow this hg.size hag
  · intro i d hk x hx
    rcases hal i d hk with hk' | h2
    · have hi := kind_lt hk'
      have hx' := hin i d hk' x hx
      rw [hag i hi, hag x (Nat.lt_trans hx' hi)]
      exact h.align i d hk' x hx
    · exact h2 x hx

theorem fwd_in {st : St} {p : Int} (h : Fwd Q G v st p) : ∀ i d, kindOf st.lc.spaces i = some (.alignment d) → ∀ x ∈ d.spaces.map (·.1), x < i := by
  obtain ⟨out, hi⟩ := h.inv
  exact fun i d hk => (hi.dep i d hk).2.1

theorem rk_reserve {ρ : SpId → Nat} {b : Nat} {st : St} {p p' : Int} {v' : SpId → Int} (h : Rk r D ρ b st) (hf : Fwd Q G v st p) (len : Nat) {al : Al}
    (hf' : Fwd Q G v' { st with lc := st.lc.reserve len al } p') : ∃ ρ', Rk r D ρ' b { st with lc := st.lc.reserve len al } := by
  rcases oneMore_reserve st.lc len al with hs | ⟨al', dep, hs⟩
  · refine ⟨ρ, rk_lc h hf (fun _ _ => rfl) (grow_reserve _ _ _) (by rw [hs]; exact h.all) ?_ (fwd_in hf) (by rw [hs]; exact h.ord)⟩
    intro i d hk
    rw [hs] at hk
    exact .inl hk
  · refine ⟨fun i => if i = st.lc.spaces.length then b else ρ i, rk_lc h hf (fun i hi => if_neg (Nat.ne_of_lt hi)) (grow_reserve _ _ _) ?_ ?_ (fwd_in hf) ?_⟩
    · intro i hi
      rw [hs] at hi
      simp only [List.length_append, List.length_singleton] at hi
      split
      · exact Nat.le_refl _
      · rename_i e
        exact h.all i (Nat.lt_of_le_of_ne (Nat.lt_succ_iff.1 hi) e)
    · intro i d hk
      have hk0 := hk
      rw [hs, kindOf_append] at hk
      split at hk
      · rename_i e
        right
        intro x hx
        have hx' := fwd_in hf' i d hk0 x hx
        rw [e] at hx'
        rw [if_pos e, if_neg (Nat.ne_of_lt hx')]
        exact h.all x hx'
      · exact .inl hk
    · intro i n hk hl
      rw [hs, kindOf_append] at hk
      split at hk
      · simp at hk
      · rename_i e
        rw [hs, lenOf_append, if_neg e] at hl
        exact h.ord i n hk hl

theorem rk_set {ρ : SpId → Nat} {b : Nat} {st : St} (h : Rk r D ρ b st) {n : SymId} {x : SVal}
    (hx : ∀ a, x = .reloc a → ∀ s ∈ a.spaces.map (·.1), lenOf st.lc.spaces s = none → ρ s < r n) :
    Rk r D ρ b { st with tab := st.tab.set n (mkSym x) } := by
  refine ⟨?_, h.all, h.deps, h.gaps, h.align, h.ord⟩
  intro m a ha
  simp only [value_set, mkSym] at ha
  split at ha
  · rename_i e; subst e; exact hx a ha
  · exact h.tab m a ha

theorem rk_sym {ρ : SpId → Nat} {b : Nat} {st : St} {p : Int} (h : Rk r D ρ b st) (hf : Fwd Q G v st p) {n : SymId} {x : MExpr} (hm : (n, x) ∈ st.deps)
    (hc : Closed st x) (hub : x.resolve st.env.heap st.tab ≠ .ub) :
    Rk r D ρ b { st with tab := st.tab.set n (mkSym (x.resolve st.env.heap st.tab)), deps := st.deps.filter (·.1 ≠ n) } := by
  obtain ⟨a, e, w, h1, h2, h3, h4, h5, h6, h7⟩ := hf.deps _ hm
  simp only at h1 h6
  subst h1
  obtain ⟨r1, r2⟩ := resolve_good hf.under hf.good h2 h4 h5 hc hub
  have := rk_set h (n := n) (x := (fill a e).resolve st.env.heap st.tab) (by
    intro c hb s hs hl
    rw [hb] at r1
    exact absurd hl (known_len hf.under r1.1 (r2 c hb) s hs))
  exact ⟨this.tab, this.all, fun y hy => this.deps y (List.mem_filter.1 hy).1, this.gaps, this.align, this.ord⟩

theorem rk_resolves {ρ : SpId → Nat} {b : Nat} {st : St} {o : Out} (h : Resolves st o) : ∀ st' p, o = .ok st' → Fwd Q G v st p → Rk r D ρ b st → Rk r D ρ b st' := by
  induction h with
  | stop => intro st' p e _ hk; cases e; exact hk
  | step h1 h2 h3 _ ih =>
    intro st' p e hf hk
    exact ih st' p e (fwd_sym hf h1 (closed_extract h2) h3) (rk_sym hk hf h1 (closed_extract h2) h3)
  | crash => intro st' p e; cases e

theorem rk_round {ρ : SpId → Nat} {b : Nat} {st st' : St} {p : Int} (h : Rk r D ρ b st) (hf : Fwd Q G v st p) (hr : Round st (.ok st')) : Rk r D ρ b st' := by
  cases hr with
  | sym h1 h2 h3 => exact rk_sym h hf h1 (closed_extract h2) h3
  | gap h1 h2 h3 =>
    rename_i i u x
    have hg := grow_define st.lc i (byteLen u (x.eval st.env.heap st.tab) : Nat)
    have hlen : (st.lc.step (.define i (byteLen u (x.eval st.env.heap st.tab) : Nat))).spaces.length = st.lc.spaces.length := by
      unfold LC.step
      simp only
      split
      · unfold LC.setLen
        split
        · rfl
        · split
          · rfl
          · simp
      · rfl
    have hf0 : Fwd Q G v { st with gaps := st.gaps.filter (·.1 ≠ i) } p :=
      ⟨⟨hf.wf.deps, hf.wf.open', nodup_filter_keys hf.wf.gaps _, fun y hy => hf.wf.wait y (List.mem_filter.1 hy).1, hf.wf.name⟩, hf.inv, hf.good, hf.tab, hf.log, hf.deps,
        fun y hy => hf.gaps y (List.mem_filter.1 hy).1, hf.seen⟩
    obtain ⟨hk, hl⟩ := hf.wf.wait _ h1
    have h0 : Rk r D ρ b { st with lc := st.lc.step (.define i (byteLen u (x.eval st.env.heap st.tab) : Nat)) } := by
      refine rk_lc h hf (fun _ _ => rfl) hg (by rw [hlen]; exact h.all) ?_ (fwd_in hf) ?_
      · intro j d hj
        rw [kind_define] at hj
        exact .inl hj
      · intro j n hj hl'
        rw [kind_define] at hj
        refine h.ord j n hj ?_
        cases hl2 : lenOf st.lc.spaces j with
        | none => rfl
        | some l => rw [hg.len j l hl2] at hl'; cases hl'
    refine ⟨h0.tab, h0.all, h0.deps, fun y hy => h0.gaps y (List.mem_filter.1 hy).1, h0.align, ?_⟩
    intro j n hj hl'
    obtain ⟨u', x', hm⟩ := h0.ord j n hj hl'
    refine ⟨u', x', List.mem_filter.2 ⟨hm, ?_⟩⟩
    simp only [decide_eq_true_eq]
    rintro rfl
    rw [define_self _ _ _ hk hl] at hl'
    cases hl'
  | align h1 h2 =>
    rename_i i d
    have hg := grow_settle st.lc i
    have hkind : ∀ j, kindOf (st.lc.step (.settle i)).spaces j = kindOf st.lc.spaces j := by
      intro j
      unfold LC.step
      simp only
      split
      · split
        · exact lookup_setLen_kind _ _ _ _
        · rfl
      · rfl
    have hlen : (st.lc.step (.settle i)).spaces.length = st.lc.spaces.length := by
      unfold LC.step
      simp only
      split
      · split
        · unfold LC.setLen
          split
          · rfl
          · split
            · rfl
            · simp
        · rfl
      · rfl
    refine rk_lc h hf (fun _ _ => rfl) hg (by rw [hlen]; exact h.all) (by intro j d hj; rw [hkind] at hj; exact .inl hj) (fwd_in hf) ?_
    intro j n hj hl'
    rw [hkind] at hj
    refine h.ord j n hj ?_
    cases hl2 : lenOf st.lc.spaces j with
    | none => rfl
    | some l => rw [hg.len j l hl2] at hl'; cases hl'

theorem rk_settles {ρ : SpId → Nat} {b : Nat} {st : St} {o : Out} (h : Settles st o) : ∀ st' p v, o = .ok st' → Fwd Q G v st p → Rk r D ρ b st →
    ∃ v', Fwd Q G v' st' p ∧ Rk r D ρ b st' ∧ ∀ o, ¬ Round st' o := by
  induction h with
  | stop hs => intro st' p v e hf hk; cases e; exact ⟨v, hf, hk, hs⟩
  | step hr _ ih =>
    intro st' p v e hf hk
    obtain ⟨v', hf'⟩ := fwd_round hf hr
    exact ih st' p v' e hf' (rk_round hk hf hr)
  | crash => intro st' p v e; cases e

theorem rk_address {ρ : SpId → Nat} {b k : Nat} {st : St} {p : Int} (h : Rk r D ρ b st) (hf : Fwd Q G v st p) {a c : Addr} (ha : Fit st a) {e : MExpr} (hb : Bare e)
    {w : Val} (hw : value G (.rel (aval v a)) e = some w)
    (hwt : Waits r D ρ st.lc.spaces.length (fill a e) k) (hadr : ((fill a e).collect st.env st.tab).addr = some c) :
    ∀ s ∈ c.spaces.map (·.1), lenOf st.lc.spaces s = none → ρ s < k := by
  have key : ∀ d : Addr, SimpleA d → c = ⟨d.bases, d.offset st.env.heap, d.norm st.env.heap⟩ → (∀ s ∈ d.spaces.map (·.1), lenOf st.lc.spaces s = none → ρ s < k) →
      ∀ s ∈ c.spaces.map (·.1), lenOf st.lc.spaces s = none → ρ s < k := by
    intro d hd e1 h2 s hs
    rw [e1] at hs
    simp only [Addr.norm] at hs
    rw [norm_eq hf.under hd.2] at hs
    obtain ⟨y, hy, rfl⟩ := List.mem_map.1 hs
    exact h2 _ (List.mem_map_of_mem (List.mem_filter.1 hy).1)
  induction e with
  | sym n =>
    simp only [fill, MExpr.collect] at hadr
    cases hv : st.tab.value n with
    | reloc d =>
      rw [hv] at hadr
      cases hadr
      refine key d (hf.tab n d hv).1.1 rfl ?_
      intro s hs hl
      exact Nat.lt_trans (h.tab n d hv s hs hl) (hwt.1 n (by simp [fill, symsOf])).2
    | undef => rw [hv] at hadr; cases hadr
    | ub => rw [hv] at hadr; cases hadr
    | abs k => rw [hv] at hadr; cases hadr
  | loc o =>
    cases hadr
    exact key a ha.1 rfl fun s hs _ => (hwt.2 a (by simp [fill, locsOf]) s hs).2
  | par e ih => exact ih hb hw hwt hadr
  | _ => cases hb

theorem rk_address_case {ρ : SpId → Nat} {b k : Nat} {st : St} {p : Int} (h : Rk r D ρ b st) (hf : Fwd Q G v st p) {a d : Addr} (ha : Fit st a) {e : MExpr}
    (hk : IsNumber G e ∨ IsPlace G e ∧ (st.lc.spaces = [] ∨ Bare e)) (h3 : ((fill a e).collect st.env st.tab).isAddress = true)
    (h4 : ((fill a e).collect st.env st.tab).addr = some d) {w : Val} (hw : value G (.rel (aval v a)) e = some w)
    (hwt : Waits r D ρ st.lc.spaces.length (fill a e) k) (hin : Inside st d) :
    ∀ c, SVal.reloc d = .reloc c → ∀ s ∈ c.spaces.map (·.1), lenOf st.lc.spaces s = none → ρ s < k := by
  intro c hc s hs hl
  cases hc
  obtain ⟨j1, j2, j3⟩ := collect_ok (env_unknown st) hf.good ha.1 e _ hw
  unfold Coll.isAddress at h3
  rw [h4] at h3
  simp only [Bool.and_eq_true, List.isEmpty_iff, Bool.not_eq_true'] at h3
  rcases hk with hk | ⟨hk, h7 | h7⟩
  · obtain ⟨q, hk⟩ := number_here (aval v a) hk
    rw [hw] at hk
    cases hk
    have := j3 h3.1 _ h4
    rw [this] at h3
    simp at h3
  · have := hin s hs
    rw [h7] at this
    exact absurd this (by simp)
  · exact rk_address h hf ha h7 hw hwt h4 s hs hl

theorem rk_equ {ρ : SpId → Nat} {b : Nat} {st st' : St} {p : Int} (h : Rk r D ρ b st) (hf : Fwd Q G v st p) {n : SymId} {a : Addr} {e : MExpr}
    (hx : Equ st n (fill a e) (.ok st')) (ha : a ∈ st.lc.log)
    (ht : Tidy G e) (hk : IsNumber G e ∨ IsPlace G e ∧ (st.lc.spaces = [] ∨ Bare e)) {w : Val} (hw : value G (.rel (aval v a)) e = some w)
    (hn : G n = some w) (hwt : Waits r D ρ st.lc.spaces.length (fill a e) (r n)) : Rk r D ρ b st' := by
  obtain ⟨ha1, ha2⟩ := hf.log a ha
  cases hx with
  | now h1 h2 h3 h4 =>
    obtain ⟨r1, r2⟩ := resolve_good hf.under hf.good ha1.1 ht hw (closed_contains h2) h3
    have hfit : ∀ b, (fill a e).resolve st.env.heap st.tab = .reloc b → Fit st b ∧ Inside st b := by
      intro b hb
      rw [hb] at r1
      exact known_inside hf.under r1.1 (r2 b hb)
    refine rk_resolves (create_ok h4) st' p rfl (fwd_new hf h1 (by rw [hn]; exact r1) hfit) (rk_set h ?_)
    intro c hc s hs hl
    rw [hc] at r1
    exact absurd hl (known_len hf.under r1.1 (r2 c hc) s hs)
  | address h1 h2 h3 h4 h5 =>
    obtain ⟨r1, r2⟩ := address_case_good hf ha1 ha2 hk h2 h3 h4 hw
    refine rk_resolves (create_ok h5) st' p rfl (fwd_new hf h1 (by rw [hn]; exact r1) (by intro c hc; cases hc; exact r2)) (rk_set h ?_)
    exact rk_address_case h hf ha1 hk h3 h4 hw hwt r2.2
  | later h1 h2 h3 h4 =>
    have := rk_set h (n := n) (x := .undef) (by intro a ha; cases ha)
    refine ⟨this.tab, this.all, ?_, this.gaps, this.align, this.ord⟩
    intro y hy
    rcases List.mem_append.1 hy with hy | hy
    · exact this.deps y hy
    · simp only [List.mem_singleton] at hy
      subst hy
      exact hwt

theorem rk_label {ρ : SpId → Nat} {b : Nat} {st st' : St} {p : Int} (h : Rk r D ρ b st) (hf : Fwd Q G v st p) {a : Addr} {l : Option SymId}
    (hx : Label st a l (.ok st')) (ha : a ∈ st.lc.log) (hn : ∀ n, l = some n → G n = some (.rel (aval v a))) (hr : ∀ n, l = some n → b < r n) :
    Rk r D ρ b st' := by
  obtain ⟨ha1, ha2⟩ := hf.log a ha
  cases hx with
  | none => exact h
  | new h1 h2 =>
    refine rk_resolves (create_ok h2) st' p rfl (fwd_new hf h1 (by rw [hn _ rfl]; exact ⟨ha1.1, rfl⟩) (by intro b hb; cases hb; exact ⟨ha1, ha2⟩)) (rk_set h ?_)
    intro c hc s hs _
    cases hc
    exact Nat.lt_of_le_of_lt (h.all s (ha2 s hs)) (hr _ rfl)

theorem rk_gap {ρ : SpId → Nat} {b g : Nat} {st : St} {p : Int} (h : Rk r D ρ b st) (hf : Fwd Q G v st p) {al : Al} {u : Nat} {x : MExpr}
    (hwt : Waits r D ρ st.lc.spaces.length x g) :
    ∃ ρ', Rk r D ρ' (max b g) { st with lc := st.lc.gap st.lc.spaces.length al, gaps := st.gaps ++ [(st.lc.spaces.length, u, x)] } := by
  have hag : ∀ i, i < st.lc.spaces.length → (if i = st.lc.spaces.length then g else ρ i) = ρ i := fun i hi => if_neg (Nat.ne_of_lt hi)
  refine ⟨fun i => if i = st.lc.spaces.length then g else ρ i, ?_⟩
  have hsp : (st.lc.gap st.lc.spaces.length al).spaces = st.lc.spaces ++ [⟨al, .ordinary st.lc.spaces.length, none⟩] := rfl
  have hg := grow_gap st.lc st.lc.spaces.length al
  refine ⟨?_, ?_, ?_, ?_, ?_, ?_⟩
  · intro n a ha s hs hl
    have hlt := (hf.tab n a ha).2 s hs
    show (if s = st.lc.spaces.length then g else ρ s) < _
    rw [hag s hlt]
    refine h.tab n a ha s hs ?_
    change lenOf (st.lc.gap st.lc.spaces.length al).spaces s = none at hl
    rw [hsp, lenOf_append, if_neg (Nat.ne_of_lt hlt)] at hl
    exact hl
  · intro i hi
    change i < (st.lc.gap st.lc.spaces.length al).spaces.length at hi
    rw [hsp] at hi
    simp only [List.length_append, List.length_singleton] at hi
    show (if i = st.lc.spaces.length then g else ρ i) ≤ _
    split
    · exact Nat.le_max_right _ _
    · rename_i e
      exact Nat.le_trans (h.all i (Nat.lt_of_le_of_ne (Nat.lt_succ_iff.1 hi) e)) (Nat.le_max_left _ _)
  · intro y hy; exact waits_grow (h.deps y hy) hg.size hag
  · intro y hy
    rcases List.mem_append.1 hy with hy | hy
    · have := h.gaps y hy
      rw [← hag y.1 (kind_lt (hf.wf.wait y hy).1)] at this
      exact waits_grow this hg.size hag
    · simp only [List.mem_singleton] at hy
      subst hy
      simp only [if_pos]
      exact waits_grow hwt hg.size hag
  · intro i d hk
    change kindOf (st.lc.gap st.lc.spaces.length al).spaces i = _ at hk
    rw [hsp, kindOf_append] at hk
    split at hk
    · simp at hk
    · have hi := kind_lt hk
      intro s hs
      have hs' := fwd_in hf i d hk s hs
      show (if s = st.lc.spaces.length then g else ρ s) ≤ if i = st.lc.spaces.length then g else ρ i
      rw [hag i hi, hag s (Nat.lt_trans hs' hi)]
      exact h.align i d hk s hs
  · intro i n hk hl
    change kindOf (st.lc.gap st.lc.spaces.length al).spaces i = _ at hk
    change lenOf (st.lc.gap st.lc.spaces.length al).spaces i = _ at hl
    rw [hsp, kindOf_append] at hk
    split at hk
    · rename_i e
      exact ⟨u, x, List.mem_append_right _ (by rw [e]; simp)⟩
    · rename_i e
      rw [hsp, lenOf_append, if_neg e] at hl
      obtain ⟨u', x', hm⟩ := h.ord i n hk hl
      exact ⟨u', x', List.mem_append_left _ hm⟩

theorem waits_of {ρ : SpId → Nat} {b k : Nat} {st : St} {p : Int} (h : Rk r D ρ b st) (hf : Fwd Q G v st p) {a : Addr} (ha : a ∈ st.lc.log) {e : MExpr}
    (h1 : ∀ m ∈ symsOf e, m ∈ D ∧ r m < k) (h2 : Here e → b < k) : Waits r D ρ st.lc.spaces.length (fill a e) k := by
  refine ⟨by rw [symsOf_fill]; exact h1, ?_⟩
  intro c hc s hs
  obtain ⟨rfl, he⟩ := locsOf_fill hc
  have hlt := (hf.log c ha).2 s hs
  exact ⟨hlt, Nat.lt_of_le_of_lt (h.all s hlt) (h2 he)⟩

theorem rk_mono {ρ : SpId → Nat} {b b' : Nat} {st : St} (h : Rk r D ρ b st) (hb : b ≤ b') : Rk r D ρ b' st :=
  ⟨h.tab, fun i hi => Nat.le_trans (h.all i hi) hb, h.deps, h.gaps, h.align, h.ord⟩

/-- One statement. -/
theorem rk_exec {st st' : St} {s : Stmt} (hx : Exec st s (.ok st')) {rest : List Stmt} {var : Bool} {p : Int} {ρ : SpId → Nat} {b : Nat}
    (hc : CarefulFrom G var (s :: rest)) (hs : SolvesQ Q G p (s :: rest)) (hrk : RankedFrom r D b (s :: rest))
    (hv : var = false → st.lc.spaces = [] ∧ st.lc.data.parts = []) (hk : Fwd Q G v st p) (hR : Rk r D ρ b st) :
    ∃ var' p' v' ρ' b', CarefulFrom G var' rest ∧ SolvesQ Q G p' rest ∧ RankedFrom r D b' rest ∧
      (var' = false → st'.lc.spaces = [] ∧ st'.lc.data.parts = []) ∧ Fwd Q G v' st' p' ∧ Rk r D ρ' b' st' := by
  cases hx with
  | equ hx =>
    obtain ⟨c1, c2, c3⟩ := hc
    obtain ⟨⟨w, s1, s2, sq⟩, s3⟩ := hs
    obtain ⟨q1, q2, q3⟩ := hrk
    have hv' : var = false → (st.align ⟨0, 1⟩).lc.spaces = [] ∧ (st.align ⟨0, 1⟩).lc.data.parts = [] := fun h => reserve_none (hv h) _ _
    have hkind := c2.imp_right fun ⟨h1, h2⟩ => (⟨h1, h2.imp_left fun h => (hv' h).1⟩ : _ ∧ ((st.align ⟨0, 1⟩).lc.spaces = [] ∨ Bare _))
    obtain ⟨i1, i2⟩ := equ_trs (σ := v) hx (last_mem st _) c1 hkind p
    obtain ⟨v1, k1, a1⟩ := fwd_align hk (al := ⟨0, 1⟩) pow_one rfl
    rw [alignUp_one] at k1 a1
    obtain ⟨ρ1, R1⟩ := rk_reserve hR hk 0 (al := ⟨0, 1⟩) k1
    have hwt := waits_of R1 k1 (last_mem st _) q1 q2
    have k2 := fwd_equ k1 hx (last_mem st _) c1 hkind (by rw [a1]; exact s1) s2 (by rw [a1]; exact sq)
    have R2 := rk_equ R1 k1 hx (last_mem st _) c1 hkind (by rw [a1]; exact s1) s2 hwt
    exact ⟨var, p, v1, ρ1, b, c3, s3, q3, by rw [i2]; exact hv', k2, R2⟩
  | data hxe hl hub =>
    rename_i l al u e0 x st2
    subst hxe
    obtain ⟨⟨k, hk0, hal⟩, c2, c3, c4, c5⟩ := hc
    obtain ⟨s1, n, s2, sq, s3⟩ := hs
    obtain ⟨q1, g, q2, q3, q4⟩ := hrk
    have hp : Pow al := ⟨k, hk0, by rw [hal]⟩
    have h0 : al.byte = 0 := by rw [hal]
    obtain ⟨v1, k1, a1⟩ := fwd_align hk hp h0
    obtain ⟨ρ1, R1⟩ := rk_reserve hR hk 0 (al := al) k1
    obtain ⟨i1, i2, i3⟩ := data_trs (F := G) (σ := v1) hp h0 c2 c3 c4 hl p
    have hvar : ∃ var', CarefulFrom G var' rest ∧ (var' = false →
        (st2.reserve ((st.align al).late (fill (lastAddr (st.align al).lc) e0)) al u (fill (lastAddr (st.align al).lc) e0)).lc.spaces = [] ∧
        (st2.reserve ((st.align al).late (fill (lastAddr (st.align al).lc) e0)) al u (fill (lastAddr (st.align al).lc) e0)).lc.data.parts = []) := by
      rcases c5 with ⟨c5, c6⟩ | c6
      · refine ⟨var, c6, ?_⟩
        intro h
        have := reserve_none (hv h) 0 al
        rw [constant_late c5]
        unfold St.reserve
        simp only [Bool.false_eq_true, if_false]
        rw [i2]
        exact reserve_none this _ _
      · exact ⟨true, c6, by intro h; cases h⟩
    obtain ⟨var', c6, hv'⟩ := hvar
    have hlab : ∀ m, l = some m → G m = some (.rel (aval v1 (lastAddr (st.align al).lc))) := by intro m hm; rw [a1]; exact s1 m hm
    have k2 := fwd_label k1 hl (last_mem st al) hlab
    have R2 := rk_label R1 k1 hl (last_mem st al) hlab q1
    have hval : value G (.rel (aval v1 (lastAddr (st.align al).lc))) e0 = some (.abs n) := by rw [a1]; exact s2
    have hsim := (k1.log _ (last_mem st al)).1.1
    have hmem : lastAddr (st.align al).lc ∈ st2.lc.log := by rw [i2]; exact last_mem st al
    have k3 : ∃ v2 ρ2, Fwd Q G v2 (st2.reserve ((st.align al).late (fill (lastAddr (st.align al).lc) e0)) al u (fill (lastAddr (st.align al).lc) e0))
        (alignUp al p + bytes u n) ∧
        Rk r D ρ2 (max b g) (st2.reserve ((st.align al).late (fill (lastAddr (st.align al).lc) e0)) al u (fill (lastAddr (st.align al).lc) e0)) := by
      unfold St.reserve
      split
      · obtain ⟨v2, k3⟩ := fwd_gap k2 hp h0 c2 (alignUp_mod h0 hp p) hmem c3 c4 hval (by rw [a1]; exact sq)
        obtain ⟨ρ2, R3⟩ := rk_gap R2 k2 (al := al) (u := u) (waits_of R2 k2 hmem q2 q3)
        exact ⟨v2, ρ2, k3, R3⟩
      · rename_i hlate
        have hlate' : (st.align al).late (fill (lastAddr (st.align al).lc) e0) = false := by simpa using hlate
        obtain ⟨j1, j2, _⟩ := collect_ok (env_unknown (st.align al)) k1.good hsim e0 _ hval
        have hcl := closed_data j1 j2 (closed_contains hlate')
        have hdef := syms_defined (env_unknown (st.align al)) k1.good hsim e0 _ hval hcl.1
        have hee : (fill (lastAddr (st.align al).lc) e0).eval st2.env.heap st2.tab =
            (fill (lastAddr (st.align al).lc) e0).eval (st.align al).env.heap (st.align al).tab := by
          have hh : st2.env.heap = (st.align al).env.heap := by show st2.lc.heap = _; rw [i2]; rfl
          rw [hh]
          exact value_rel (F := G) (p := alignUp al p) (by rw [s2]; simp) fun m hm => (trs_ext i1 k1.wf).tab m (hdef m hm)
        have hub' := hub.resolve_left hlate
        rw [hee] at hub' ⊢
        rw [rep_abs (eval_good k1.under k1.good hsim c3 hval hcl hub').1]
        obtain ⟨v2, k3, _⟩ := fwd_reserve k2 (byteLen u (.abs n)) pow_one rfl
        obtain ⟨ρ2, R3⟩ := rk_reserve R2 k2 (byteLen u (.abs n)) k3
        have hb : alignUp al p + ((byteLen u (.abs n) : Nat) : Int) = alignUp al p + bytes u n := by rw [byteLen_bytes]
        rw [alignUp_one, hb] at k3
        exact ⟨v2, ρ2, k3, rk_mono R3 (Nat.le_max_left _ _)⟩
    obtain ⟨v2, ρ2, k3, R3⟩ := k3
    exact ⟨var', _, v2, ρ2, _, c6, s3, q4, hv', k3, R3⟩

theorem rk_runs {st : St} {prog : List Stmt} {o : Out} (h : Runs st prog o) : ∀ st1 var p v ρ b, o = .ok st1 → CarefulFrom G var prog → SolvesQ Q G p prog →
    RankedFrom r D b prog → (var = false → st.lc.spaces = [] ∧ st.lc.data.parts = []) → Fwd Q G v st p → Rk r D ρ b st →
    ∃ v' p' ρ' b', Fwd Q G v' st1 p' ∧ Rk r D ρ' b' st1 := by
  induction h with
  | nil => intro st1 var p v ρ b e _ _ _ _ hk hR; cases e; exact ⟨v, p, ρ, b, hk, hR⟩
  | cons hx hrest ih =>
    intro st1 var p v ρ b e hc hs hrk hv hk hR
    obtain ⟨var', p', v', ρ', b', h1, h2, h3, h4, h5, h6⟩ := rk_exec hx hc hs hrk hv hk hR
    exact ih st1 var' p' v' ρ' b' e h1 h2 h3 h4 h5 h6
  | reported => intro st1 var p v ρ b e; cases e
  | crash => intro st1 var p v ρ b e; cases e

/-! ### Nothing is left -/

/-- An expression of which everything is known depends on nothing. -/
theorem collect_ready {E : Env} (hE : E.unknown = fun _ => false) {T : Table} {a : Addr} (e : MExpr)
    (hs : ∀ n ∈ symsOf e, T.value n ≠ .undef ∧ ∀ c, T.value n = .reloc c → c.norm E.heap = [])
    (ha : Here e → a.norm E.heap = []) {p : Int} (hg : Good v G T) (hsm : SimpleA a) :
    ∀ w, value G (.rel p) e = some w → ((fill a e).collect E T).syms = [] ∧ ((fill a e).collect E T).spaces = [] ∧ Quiet ((fill a e).collect E T).addr := by
  have bin : ∀ {f : Val → Val → Option Val} {l r : MExpr} {w : Val}, ((value G (.rel p) l).bind fun x => (value G (.rel p) r).bind (f x)) = some w →
      ∃ x y, value G (.rel p) l = some x ∧ value G (.rel p) r = some y ∧ f x y = some w := by
    intro f l r w h
    obtain ⟨x, hx, h⟩ := Option.bind_eq_some_iff.1 h
    obtain ⟨y, hy, h⟩ := Option.bind_eq_some_iff.1 h
    exact ⟨x, y, hx, hy, h⟩
  have hq : Quiet none := fun b hb => by cases hb
  have hof : ∀ b : Addr, b.norm E.heap = [] → (Coll.ofAddr E b).syms = [] ∧ (Coll.ofAddr E b).spaces = [] ∧ Quiet (Coll.ofAddr E b).addr := by
    intro b hb
    refine ⟨rfl, rfl, ?_⟩
    intro c hc
    cases hc
    exact hb
  induction e with
  | const k => intro w _; exact ⟨rfl, rfl, hq⟩
  | sym n =>
    intro w _
    obtain ⟨h1, h2⟩ := hs n (by simp [symsOf])
    simp only [fill, MExpr.collect]
    cases hv : T.value n with
    | undef => exact absurd hv h1
    | ub => exact ⟨rfl, rfl, hq⟩
    | abs k => exact ⟨rfl, rfl, hq⟩
    | reloc b => exact hof b (h2 b hv)
  | attr k n => intro w h; simp [value] at h
  | loc o => intro w _; exact hof a (ha trivial)
  | dflt => intro w _; exact ⟨rfl, rfl, hq⟩
  | par e ih => exact ih hs ha
  | neg e ih =>
    intro w hw
    simp only [value] at hw
    obtain ⟨x, hx, hw⟩ := Option.bind_eq_some_iff.1 hw
    obtain ⟨i1, i2, i3⟩ := collect_ok hE hg hsm e x hx
    obtain ⟨_, _, j3, _, _⟩ := addSub_ok (E := E) (op := .sub) (c := Coll.none) (h := (fill a e).collect E T) rfl i1 rfl i2
    obtain ⟨k1, k2, k3⟩ := ih hs ha x hx
    refine ⟨?_, addSub_quiet hE .sub (c := Coll.none) rfl hq k2 k3⟩
    simp only [fill, MExpr.collect]
    rw [j3, k1]; rfl
  | add l r ihl ihr =>
    intro w hw
    obtain ⟨x, y, hx, hy, hf⟩ := bin hw
    obtain ⟨i1, i2, i3⟩ := collect_ok hE hg hsm l x hx
    obtain ⟨k1, k2, k3⟩ := collect_ok hE hg hsm r y hy
    obtain ⟨_, _, j3, _, _⟩ := addSub_ok (E := E) (op := .add) i1 k1 i2 k2
    obtain ⟨l1, l2, l3⟩ := ihl (fun n hn => hs n (by simp [symsOf, hn])) (fun h => ha (.inl h)) x hx
    obtain ⟨m1, m2, m3⟩ := ihr (fun n hn => hs n (by simp [symsOf, hn])) (fun h => ha (.inr h)) y hy
    refine ⟨?_, addSub_quiet hE .add l2 l3 m2 m3⟩
    simp only [fill, MExpr.collect]
    rw [j3, l1, m1]; rfl
  | sub l r ihl ihr =>
    intro w hw
    obtain ⟨x, y, hx, hy, hf⟩ := bin hw
    obtain ⟨i1, i2, i3⟩ := collect_ok hE hg hsm l x hx
    obtain ⟨k1, k2, k3⟩ := collect_ok hE hg hsm r y hy
    obtain ⟨_, _, j3, _, _⟩ := addSub_ok (E := E) (op := .sub) i1 k1 i2 k2
    obtain ⟨l1, l2, l3⟩ := ihl (fun n hn => hs n (by simp [symsOf, hn])) (fun h => ha (.inl h)) x hx
    obtain ⟨m1, m2, m3⟩ := ihr (fun n hn => hs n (by simp [symsOf, hn])) (fun h => ha (.inr h)) y hy
    refine ⟨?_, addSub_quiet hE .sub l2 l3 m2 m3⟩
    simp only [fill, MExpr.collect]
    rw [j3, l1, m1]; rfl
  | mul l r ihl ihr =>
    intro w hw
    obtain ⟨x, y, hx, hy, hf⟩ := bin hw
    obtain ⟨i1, i2, i3⟩ := collect_ok hE hg hsm l x hx
    obtain ⟨k1, k2, k3⟩ := collect_ok hE hg hsm r y hy
    cases x <;> cases y <;> simp only [times, reduceCtorEq] at hf
    obtain ⟨_, _, j3, _, _⟩ := divMul_ok i1 k1 i2 k2 i3 k3
    obtain ⟨l1, l2, l3⟩ := ihl (fun n hn => hs n (by simp [symsOf, hn])) (fun h => ha (.inl h)) _ hx
    obtain ⟨m1, m2, m3⟩ := ihr (fun n hn => hs n (by simp [symsOf, hn])) (fun h => ha (.inr h)) _ hy
    refine ⟨?_, divMul_quiet l2 l3 m2 m3⟩
    simp only [fill, MExpr.collect]
    rw [j3, l1, m1]; rfl
  | div l r ihl ihr =>
    intro w hw
    obtain ⟨x, y, hx, hy, hf⟩ := bin hw
    obtain ⟨i1, i2, i3⟩ := collect_ok hE hg hsm l x hx
    obtain ⟨k1, k2, k3⟩ := collect_ok hE hg hsm r y hy
    cases x <;> cases y <;> simp only [over, reduceCtorEq] at hf
    obtain ⟨_, _, j3, _, _⟩ := divMul_ok i1 k1 i2 k2 i3 k3
    obtain ⟨l1, l2, l3⟩ := ihl (fun n hn => hs n (by simp [symsOf, hn])) (fun h => ha (.inl h)) _ hx
    obtain ⟨m1, m2, m3⟩ := ihr (fun n hn => hs n (by simp [symsOf, hn])) (fun h => ha (.inr h)) _ hy
    refine ⟨?_, divMul_quiet l2 l3 m2 m3⟩
    simp only [fill, MExpr.collect]
    rw [j3, l1, m1]; rfl

theorem locsOf_here {a : Addr} {e : MExpr} (h : Here e) : a ∈ locsOf (fill a e) := by
  induction e with
  | loc o => simp [fill, locsOf]
  | par e ih => exact ih h
  | neg e ih => exact ih h
  | add l r ihl ihr => exact List.mem_append.2 (h.imp ihl ihr)
  | sub l r ihl ihr => exact List.mem_append.2 (h.imp ihl ihr)
  | mul l r ihl ihr => exact List.mem_append.2 (h.imp ihl ihr)
  | div l r ihl ihr => exact List.mem_append.2 (h.imp ihl ihr)
  | _ => cases h

theorem norm_known {st : St} (hu : Under st.env.heap v) {b : Addr} (hb : SimpleA b) (h : ∀ x ∈ b.spaces.map (·.1), lenOf st.lc.spaces x ≠ none) :
    b.norm st.env.heap = [] := by
  unfold Addr.norm
  rw [norm_eq hu hb.2]
  unfold unknownIn
  rw [List.filter_eq_nil_iff]
  intro e he
  have := h e.1 (List.mem_map_of_mem he)
  change ¬ (st.lc.heap.info e.1).isNone = true
  rw [info_eq]
  cases hl : lenOf st.lc.spaces e.1 with
  | none => exact absurd hl this
  | some l => simp

/-- When everything below `k` is known, what waits for nothing else is ready. -/
theorem ready_below {ρ : SpId → Nat} {b k : Nat} {st : St} {p : Int} (h : Rk r D ρ b st) (hf : Fwd Q G v st p) (hD : ∀ n ∈ D, st.tab n ≠ none)
    (h1 : ∀ n, st.tab n ≠ none → r n < k → st.tab.value n ≠ .undef) (h2 : ∀ i, i < st.lc.spaces.length → ρ i < k → lenOf st.lc.spaces i ≠ none)
    {a : Addr} {e : MExpr} (ha : SimpleA a) {w : Val} (hw : value G (.rel (aval v a)) e = some w)
    (hwt : Waits r D ρ st.lc.spaces.length (fill a e) k) :
    ((fill a e).collect st.env st.tab).err = false ∧ ((fill a e).collect st.env st.tab).attrs = [] ∧
    ((fill a e).collect st.env st.tab).syms = [] ∧ ((fill a e).collect st.env st.tab).spaces = [] ∧ Quiet ((fill a e).collect st.env st.tab).addr := by
  obtain ⟨j1, j2, _⟩ := collect_ok (env_unknown st) hf.good ha e _ hw
  refine ⟨j1, j2, collect_ready (env_unknown st) e ?_ ?_ hf.good ha w hw⟩
  · intro n hn
    obtain ⟨m1, m2⟩ := hwt.1 n (by rw [symsOf_fill]; exact hn)
    refine ⟨h1 n (hD n m1) m2, ?_⟩
    intro c hc
    refine norm_known hf.under (hf.tab n c hc).1.1 ?_
    intro x hx hl
    exact h2 x ((hf.tab n c hc).2 x hx) (Nat.lt_trans (h.tab n c hc x hx hl) m2) hl
  · intro he
    refine norm_known hf.under ha ?_
    intro x hx
    obtain ⟨m1, m2⟩ := hwt.2 a (locsOf_here he) x hx
    exact h2 x m1 m2

theorem extract_quiet {E : Env} {c : Coll} (h1 : c.attrs = []) (h2 : c.syms = []) (h3 : c.spaces = []) (h4 : Quiet c.addr) : c.extract E = [] := by
  unfold Coll.extract
  rw [h1, h2, h3]
  cases hc : c.addr with
  | none => simp
  | some a => simp [Addr.norm, h4 a hc, norm_nil]

theorem all_known {ρ : SpId → Nat} {b : Nat} {st : St} {p : Int} (h : Rk r D ρ b st) (hf : Fwd Q G v st p) (hD : ∀ n ∈ D, st.tab n ≠ none)
    (hs : ∀ o, ¬ Round st o) (k : Nat) :
    (∀ n, st.tab n ≠ none → r n < k → st.tab.value n ≠ .undef) ∧ ∀ i, i < st.lc.spaces.length → ρ i < k → lenOf st.lc.spaces i ≠ none := by
  induction k with
  | zero => exact ⟨fun _ _ h => absurd h (Nat.not_lt_zero _), fun _ _ h => absurd h (Nat.not_lt_zero _)⟩
  | succ k ih =>
    obtain ⟨h1, h2⟩ := ih
    constructor
    · intro n hn hr hu
      rcases Nat.lt_succ_iff_lt_or_eq.1 hr with hr | hr
      · exact h1 n hn hr hu
      rcases hf.seen n hn with hs' | ⟨x, hx⟩
      · exact hs' hu
      obtain ⟨a, e, w, g1, g2, g3, g4, g5, g6, g7⟩ := hf.deps _ hx
      simp only at g1
      subst g1
      have hw := h.deps _ hx
      simp only [hr] at hw
      obtain ⟨_, j2, j3, j4, j5⟩ := ready_below h hf hD h1 h2 g2 g5 hw
      have hex := extract_quiet (E := st.env) j2 j3 j4 j5
      by_cases hub : (fill a e).resolve st.env.heap st.tab = .ub
      · exact hs _ (.symUb hx hex hub)
      · exact hs _ (.sym hx hex hub)
    · intro i
      induction i using Nat.strongRecOn with
      | _ i ihi =>
        intro hi hr hl
        rcases Nat.lt_succ_iff_lt_or_eq.1 hr with hr | hr
        · exact h2 i hi hr hl
        obtain ⟨s, hsp⟩ : ∃ s, st.lc.spaces[i]? = some s := ⟨_, List.getElem?_eq_getElem hi⟩
        cases hkd : s.kind with
        | ordinary m =>
          have hk : kindOf st.lc.spaces i = some (.ordinary m) := by unfold kindOf; rw [hsp]; simp [hkd]
          obtain ⟨u, x, hx⟩ := h.ord i m hk hl
          obtain ⟨a, e, q, g1, g2, g3, g4, g5, g6, g7⟩ := hf.gaps _ hx
          simp only at g1
          subst g1
          have hw := h.gaps _ hx
          simp only [hr] at hw
          obtain ⟨j1, j2, j3, j4, j5⟩ := ready_below h hf hD h1 h2 g2 g5 hw
          obtain ⟨d1, d2, d3⟩ := data_collect j1 j2
          have hatt := (addSub_ok (E := st.env) (op := .add) (c := Coll.none) rfl j1 rfl j2).2.1
          have hex : ((SpSrc.data [fill a e]).collect st.env st.tab).extract st.env = [] := by
            refine extract_quiet hatt (by rw [d1, j3]; rfl) (by rw [d2, j4]; rfl) ?_
            rw [d3 j3]; exact j5
          by_cases hub : (fill a e).eval st.env.heap st.tab = .ub
          · exact hs _ (.gapUb hx hex hub)
          · exact hs _ (.gap hx hex hub)
        | alignment d =>
          have hk : kindOf st.lc.spaces i = some (.alignment d) := by unfold kindOf; rw [hsp]; simp [hkd]
          have hnone : s.len = none := by
            unfold lenOf at hl; rw [hsp] at hl; simpa using hl
          have hmem : (i, SpSrc.addr d) ∈ aligns st.lc := by
            unfold aligns
            refine List.mem_filterMap.2 ⟨i, List.mem_range.2 hi, ?_⟩
            rw [hsp]
            obtain ⟨al, kd, ln⟩ := s
            simp only at hkd hnone
            subst hkd hnone
            rfl
          have hall : ∀ x ∈ d.spaces.map (·.1), lenOf st.lc.spaces x ≠ none := by
            intro x hx
            have hlt := fwd_in hf i d hk x hx
            have := h.align i d hk x hx
            exact ihi x hlt (Nat.lt_trans hlt hi) (by omega)
          have hn : d.norm st.env.heap = [] := by
            unfold Addr.norm Heap.norm
            have : d.spaces.flatMap st.env.heap.flat = [] := by
              rw [flat_eq hf.under]
              unfold unknownIn
              rw [List.filter_eq_nil_iff]
              intro e he
              have := hall e.1 (List.mem_map_of_mem he)
              change ¬ (st.lc.heap.info e.1).isNone = true
              rw [info_eq]
              cases hl : lenOf st.lc.spaces e.1 with
              | none => exact absurd hl this
              | some l => simp
            rw [this]; rfl
          refine hs _ (.align hmem ?_)
          refine extract_quiet rfl rfl rfl ?_
          intro c hc
          cases hc
          simp [hn, uptoStop]

end

/-- C134 (partial): a program that has a careful solution and whose definitions do not go round in circles is resolved completely: whenever
it is assembled without a message, nothing is left over, and every symbol has the value of the solution. -/
theorem C134_complete_partial (prog : List Stmt) (G : Values) (hs : Solves G prog) (hc : Careful G prog) (r : SymId → Nat) (hr : Ranked r prog) (fin : St)
    (h : Assembles prog (.ok fin)) : fin.Finished ∧ ∀ n ∈ names prog, fin.value n = G n := by
  have hfin : fin.Finished := by
    cases h with
    | done h1 h2 =>
      rename_i st1
      obtain ⟨_, hn⟩ := fwd_runs h1 st1 false 0 (fun _ => 0) rfl hc (solvesQ_true.2 hs) (fun _ => ⟨rfl, rfl⟩) (fwd_init G)
      obtain ⟨v1, p1, ρ, b, k1, R1⟩ := rk_runs h1 st1 false 0 (fun _ => 0) (fun _ => 0) 0 rfl hc (solvesQ_true.2 hs) hr (fun _ => ⟨rfl, rfl⟩) (fwd_init G) (rk_init _ _ _ _)
      obtain ⟨v2, k2, R2, hstop⟩ := rk_settles h2 fin p1 v1 rfl k1 R1
      have hD : ∀ n ∈ names prog, fin.tab n ≠ none := fun n hm => trs_some (settles_trs (F := G) (σ := v2) h2 fin 0 rfl) n (hn n hm)
      have key := all_known R2 k2 hD hstop
      refine ⟨?_, ?_, ?_⟩
      · refine List.eq_nil_iff_forall_not_mem.2 fun y hy => ?_
        obtain ⟨s, h3, h4⟩ := k2.wf.open' y hy
        refine (key (r y.1 + 1)).1 y.1 (by rw [h3]; simp) (Nat.lt_succ_self _) ?_
        unfold Table.value; rw [h3]; exact h4
      · refine List.eq_nil_iff_forall_not_mem.2 fun y hy => ?_
        obtain ⟨h3, h4⟩ := k2.wf.wait y hy
        exact (key (ρ y.1 + 1)).2 y.1 (kind_lt h3) (Nat.lt_succ_self _) h4
      · intro s hs' hl
        obtain ⟨i, hi, he⟩ := List.getElem_of_mem hs'
        refine (key (ρ i + 1)).2 i hi (Nat.lt_succ_self _) ?_
        unfold lenOf
        rw [List.getElem?_eq_getElem hi, he]
        simpa using hl
  exact ⟨hfin, C134_unique_partial prog G hs hc fin h hfin⟩

/-- The program of `Props` is ranked, has a careful solution (see `Unique`) and is assembled. -/
example : Ranked (fun n => [1, 4, 2, 1, 4].getD n 0) exProg := by
  simp [Ranked, RankedFrom, exProg, symsOf, names, Here]
  exact ⟨3, by omega, by omega, 0, by omega⟩

end Verif.Whole
