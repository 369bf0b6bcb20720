import Verif.Whole.Complete
import Verif.Ord.DepsProps
/-!
C134: definitions that do not go round in circles are not reported.
-/
namespace Verif.Whole
open Verif.Ord

section
variable {Q : Val → MExpr → Prop} {G : Values} {v : SpId → Int} {r : SymId → Nat} {D : List SymId}

/-! ### What expressions depend on -/

theorem foldl_keys (l acc : List (SpId × Int)) (k : SpId) (h : k ∈ (l.foldl insertEntry acc).map (·.1)) : k ∈ acc.map (·.1) ∨ k ∈ l.map (·.1) := by
  have ins : ∀ (acc : List (SpId × Int)) (e : SpId × Int), k ∈ (insertEntry acc e).map (·.1) → k ∈ acc.map (·.1) ∨ k = e.1 := by
    intro acc e
    induction acc with
    | nil => intro h; right; simpa [insertEntry] using h
    | cons x xs ih =>
      intro h
      unfold insertEntry at h
      split at h
      · left; simpa using h
      · rw [List.map_cons, List.mem_cons] at h
        rcases h with h | h
        · left; simp [h]
        · exact (ih h).imp_left fun h => List.mem_cons_of_mem _ h
  induction l generalizing acc with
  | nil => exact .inl h
  | cons e l ih =>
    rcases ih (insertEntry acc e) h with h | h
    · rcases ins acc e h with h | h
      · exact .inl h
      · right; simp [h]
    · right; exact List.mem_cons_of_mem _ h

theorem norm_keys {H : Heap} (hu : Under H v) (l : List (SpId × Int)) (k : SpId) (h : k ∈ (H.norm l).map (·.1)) : k ∈ l.map (·.1) ∧ H.info k = none := by
  obtain ⟨e, he, rfl⟩ := List.mem_map.1 h
  refine ⟨?_, norm_unknown H l e he⟩
  unfold Heap.norm at he
  have hk := foldl_keys _ [] e.1 (List.mem_map_of_mem (List.mem_filter.1 he).1)
  rcases hk with hk | hk
  · cases hk
  · rw [flat_eq hu] at hk
    obtain ⟨y, hy, hy'⟩ := List.mem_map.1 hk
    rw [← hy']
    exact List.mem_map_of_mem (List.mem_filter.1 hy).1

/-- All a collector knows is in `S` and `P`. -/
def Below (S : SymId → Prop) (P : SpId → Prop) (c : Coll) : Prop :=
  (∀ n ∈ c.syms, S n) ∧ (∀ s ∈ c.spaces, P s) ∧ ∀ s ∈ spacesOf c.addr, P s

theorem below_merge {S P} {c h : Coll} (hc : Below S P c) (hh : Below S P h) : Below S P (c.mergeUndef h) := by
  unfold Coll.mergeUndef
  split
  · exact hc
  · refine ⟨fun n hn => ?_, fun s hs => ?_, hc.2.2⟩
    · rcases (addAll_mem _ _ _).1 hn with hn | hn
      exacts [hc.1 n hn, hh.1 n hn]
    · rcases (addAll_mem _ _ _).1 hs with hs | hs
      exacts [hc.2.1 s hs, hh.2.1 s hs]

theorem below_join {E : Env} (hE : E.unknown = fun _ => false) (hu : Under E.heap v) {P : SpId → Prop} (op : AOp) {a b : Option Addr}
    (ha : ∀ s ∈ spacesOf a, P s) (hb : ∀ s ∈ spacesOf b, P s) : ∀ s ∈ spacesOf (joinAddr E op a b), P s := by
  have mk : ∀ (o : AOp) (l m : List (SpId × Int)), (∀ s ∈ l.map (·.1), P s) → (∀ s ∈ m.map (·.1), P s) → ∀ s ∈ (merge o l m).map (·.1), P s := by
    intro o l m hl hm s hs
    rcases merge_keys o l m s hs with h | h
    exacts [hl s h, hm s h]
  have nk : ∀ c : Addr, (∀ s ∈ spacesOf (some c), P s) → ∀ s ∈ (c.norm E.heap).map (·.1), P s :=
    fun c hc s hs => hc s (norm_keys hu c.spaces s hs).1
  cases a with
  | none =>
    cases b with
    | none => exact ha
    | some b =>
      cases op with
      | add => exact hb
      | sub => exact mk .sub [] (b.norm E.heap) (by simp) (nk b hb)
  | some a =>
    cases b with
    | none => exact ha
    | some b =>
      simp only [joinAddr]
      rw [adjust_id hE]
      cases op with
      | add => exact mk .add _ _ (nk a ha) (nk b hb)
      | sub => exact mk .sub _ _ (nk a ha) (nk b hb)

theorem below_addSub {E : Env} (hE : E.unknown = fun _ => false) (hu : Under E.heap v) {S P} (op : AOp) {c h : Coll} (hc : Below S P c) (hh : Below S P h) :
    Below S P (c.addSub E op h) := by
  have := below_merge hc hh
  unfold Coll.addSub
  split
  · exact this
  · exact ⟨this.1, this.2.1, below_join hE hu op hc.2.2 hh.2.2⟩

theorem below_divMul {S P} {c h : Coll} (hc : Below S P c) (hh : Below S P h) : Below S P (c.divMul h) := by
  have := below_merge hc hh
  unfold Coll.divMul
  split
  · exact this
  · split
    · exact this
    · refine ⟨this.1, fun s hs => ?_, this.2.2⟩
      rcases (addAll_mem _ _ _).1 hs with hs | hs
      · rcases (addAll_mem _ _ _).1 hs with hs | hs
        exacts [this.2.1 s hs, hc.2.2 s hs]
      · exact hh.2.2 s hs

theorem below_none {S P} : Below S P Coll.none := ⟨by simp [Coll.none], by simp [Coll.none], by simp [Coll.none, spacesOf]⟩

theorem below_collect {E : Env} (hE : E.unknown = fun _ => false) (hu : Under E.heap v) {T : Table} {S : SymId → Prop} {P : SpId → Prop} (x : MExpr)
    (h1 : ∀ n ∈ symsOf x, S n) (h2 : ∀ n ∈ symsOf x, ∀ c, T.value n = .reloc c → ∀ s ∈ c.spaces.map (·.1), E.heap.info s = none → P s)
    (h3 : ∀ a ∈ locsOf x, ∀ s ∈ a.spaces.map (·.1), P s) : Below S P (x.collect E T) := by
  have hof : ∀ c : Addr, (∀ s ∈ c.spaces.map (·.1), E.heap.info s = none → P s) → Below S P (Coll.ofAddr E c) := by
    intro c hc
    refine ⟨by simp [Coll.ofAddr], by simp [Coll.ofAddr], ?_⟩
    intro s hs
    obtain ⟨k1, k2⟩ := norm_keys hu c.spaces s hs
    exact hc s k1 k2
  induction x with
  | const => exact below_none
  | sym n =>
    simp only [MExpr.collect]
    cases hv : T.value n with
    | undef =>
      refine ⟨?_, by simp [Coll.ofSym], by simp [Coll.ofSym, spacesOf]⟩
      intro m hm
      simp only [Coll.ofSym, List.mem_singleton] at hm
      subst hm
      exact h1 m (by simp [symsOf])
    | ub => exact below_none
    | abs k => exact below_none
    | reloc c => exact hof c (h2 n (by simp [symsOf]) c hv)
  | attr k n =>
    have : Below S P (Coll.ofAttr k n) := ⟨by simp [Coll.ofAttr], by simp [Coll.ofAttr], by simp [Coll.ofAttr, spacesOf]⟩
    simp only [MExpr.collect]
    split
    · exact this
    · split
      · exact below_none
      · exact this
  | loc o =>
    cases o with
    | none => exact ⟨by simp [MExpr.collect, Coll.error], by simp [MExpr.collect, Coll.error], by simp [MExpr.collect, Coll.error, spacesOf]⟩
    | some a => exact hof a fun s hs _ => h3 a (by simp [locsOf]) s hs
  | dflt => exact below_none
  | par e ih => exact ih h1 h2 h3
  | neg e ih => exact below_addSub hE hu .sub below_none (ih h1 h2 h3)
  | add l r ihl ihr =>
    exact below_addSub hE hu .add
      (ihl (fun n hn => h1 n (List.mem_append_left _ hn)) (fun n hn => h2 n (List.mem_append_left _ hn)) (fun n hn => h3 n (List.mem_append_left _ hn)))
      (ihr (fun n hn => h1 n (List.mem_append_right _ hn)) (fun n hn => h2 n (List.mem_append_right _ hn)) (fun n hn => h3 n (List.mem_append_right _ hn)))
  | sub l r ihl ihr =>
    exact below_addSub hE hu .sub
      (ihl (fun n hn => h1 n (List.mem_append_left _ hn)) (fun n hn => h2 n (List.mem_append_left _ hn)) (fun n hn => h3 n (List.mem_append_left _ hn)))
      (ihr (fun n hn => h1 n (List.mem_append_right _ hn)) (fun n hn => h2 n (List.mem_append_right _ hn)) (fun n hn => h3 n (List.mem_append_right _ hn)))
  | mul l r ihl ihr =>
    exact below_divMul
      (ihl (fun n hn => h1 n (List.mem_append_left _ hn)) (fun n hn => h2 n (List.mem_append_left _ hn)) (fun n hn => h3 n (List.mem_append_left _ hn)))
      (ihr (fun n hn => h1 n (List.mem_append_right _ hn)) (fun n hn => h2 n (List.mem_append_right _ hn)) (fun n hn => h3 n (List.mem_append_right _ hn)))
  | div l r ihl ihr =>
    exact below_divMul
      (ihl (fun n hn => h1 n (List.mem_append_left _ hn)) (fun n hn => h2 n (List.mem_append_left _ hn)) (fun n hn => h3 n (List.mem_append_left _ hn)))
      (ihr (fun n hn => h1 n (List.mem_append_right _ hn)) (fun n hn => h2 n (List.mem_append_right _ hn)) (fun n hn => h3 n (List.mem_append_right _ hn)))

theorem below_extract {E : Env} (hu : Under E.heap v) {S P} {c : Coll} (h : Below S P c) {d : Dep} (hd : d ∈ c.extract E) :
    (∃ n, d = .sym n ∧ S n) ∨ (∃ s, d = .space s ∧ P s) ∨ ∃ k n, d = .attr k n := by
  unfold Coll.extract at hd
  split at hd
  · obtain ⟨n, hn, rfl⟩ := List.mem_map.1 hd
    exact .inl ⟨n, rfl, h.1 n hn⟩
  · split at hd
    · obtain ⟨s, hs, rfl⟩ := List.mem_map.1 hd
      exact .inr (.inl ⟨s, rfl, h.2.1 s hs⟩)
    · rcases List.mem_append.1 hd with hd | hd
      · obtain ⟨x, _, rfl⟩ := List.mem_map.1 hd
        exact .inr (.inr ⟨_, _, rfl⟩)
      · cases ha : c.addr with
        | none => rw [ha] at hd; cases hd
        | some a =>
          rw [ha] at hd
          obtain ⟨e, he, rfl⟩ := List.mem_map.1 hd
          refine .inr (.inl ⟨e.1, rfl, h.2.2 e.1 ?_⟩)
          rw [ha]
          exact (norm_keys hu a.spaces e.1 (List.mem_map_of_mem he)).1

/-! ### Dependencies lead downwards -/

/-- The rank of a target; `N` is the number of spaces. -/
def depRank (r : SymId → Nat) (ρ : SpId → Nat) (N : Nat) : Dep → Nat
  | .sym n => r n * (N + 2) + 1
  | .space i => ρ i * (N + 2) + (i + 1 : Nat)
  | .attr .. => 0

theorem lex_lt {a b c d N : Nat} (h : a < b) (hc : c < N + 2) : a * (N + 2) + c < b * (N + 2) + d := by
  have : (a + 1) * (N + 2) ≤ b * (N + 2) := Nat.mul_le_mul_right _ h
  rw [Nat.add_mul] at this
  omega

/-- What is known of a state whose dependencies lead downwards. -/
structure Down (r : SymId → Nat) (D : List SymId) (ρ : SpId → Nat) (b : Nat) (v : SpId → Int) (st : St) : Prop where
  rk : Rk r D ρ b st
  under : Under st.env.heap v
  inside : ∀ n a, st.tab.value n = .reloc a → Inside st a
  dep : ∀ i d, kindOf st.lc.spaces i = some (.alignment d) → ∀ x ∈ d.spaces.map (·.1), x < i
  gap : ∀ y ∈ st.gaps, y.1 < st.lc.spaces.length

theorem down_of {ρ : SpId → Nat} {b : Nat} {st : St} {p : Int} (h : Rk r D ρ b st) (hf : Fwd Q G v st p) : Down r D ρ b v st :=
  ⟨h, hf.under, fun n a ha => (hf.tab n a ha).2, fwd_in hf, fun y hy => kind_lt (hf.wf.wait y hy).1⟩

theorem info_none {st : St} {s : SpId} (h : st.env.heap.info s = none) : lenOf st.lc.spaces s = none := by
  change st.lc.heap.info s = none at h
  rw [info_eq] at h
  simpa using h

theorem expr_down {ρ : SpId → Nat} {b k : Nat} {st : St} (h : Down r D ρ b v st) {x : MExpr} (hw : Waits r D ρ st.lc.spaces.length x k) :
    Below (fun n => r n < k) (fun s => s < st.lc.spaces.length ∧ ρ s < k) (x.collect st.env st.tab) := by
  refine below_collect (env_unknown st) h.under x (fun n hn => (hw.1 n hn).2) ?_ hw.2
  intro n hn c hc s hs hi
  exact ⟨h.inside n c hc s hs, Nat.lt_trans (h.rk.tab n c hc s hs (info_none hi)) (hw.1 n hn).2⟩

theorem rank_below {ρ : SpId → Nat} {k e : Nat} {st : St} {c : Coll} (hu : Under st.env.heap v)
    (hb : Below (fun n => r n < k) (fun s => s < st.lc.spaces.length ∧ ρ s < k) c) {d : Dep} (hd : d ∈ c.extract st.env) :
    depRank r ρ st.lc.spaces.length d < k * (st.lc.spaces.length + 2) + (e + 1) := by
  rcases below_extract hu hb hd with ⟨n, rfl, h1⟩ | ⟨s, rfl, h1, h2⟩ | ⟨kd, n, rfl⟩
  · exact lex_lt h1 (by omega)
  · exact lex_lt h2 (Nat.lt_of_le_of_lt (Nat.succ_le_of_lt h1) (by omega))
  · simp only [depRank]; omega

theorem deps_down {ρ : SpId → Nat} {b : Nat} {st : St} (h : Down r D ρ b v st) {n : SymId} {x : MExpr} (hm : (n, x) ∈ st.deps) {d : Dep}
    (hd : d ∈ (x.collect st.env st.tab).extract st.env) : depRank r ρ st.lc.spaces.length d < depRank r ρ st.lc.spaces.length (.sym n) :=
  rank_below (e := 0) h.under (expr_down h (h.rk.deps _ hm)) hd

theorem uptoStop_mem {E : Env} {l : List (SpId × Int)} {e : SpId × Int} (h : e ∈ uptoStop E l) : e ∈ l := by
  induction l with
  | nil => exact h
  | cons x l ih =>
    unfold uptoStop at h
    split at h
    · simp only [List.mem_singleton] at h; subst h; simp
    · rcases List.mem_cons.1 h with h | h
      · subst h; simp
      · exact List.mem_cons_of_mem _ (ih h)

theorem sps_down {ρ : SpId → Nat} {b : Nat} {st : St} (h : Down r D ρ b v st) {y : SpId × SpSrc} (hm : y ∈ st.sym.sps) {d : Dep}
    (hd : d ∈ (y.2.collect st.env st.tab).extract st.env) : depRank r ρ st.lc.spaces.length d < depRank r ρ st.lc.spaces.length (.space y.1) := by
  rcases List.mem_append.1 hm with hm | hm
  · obtain ⟨z, hz, rfl⟩ := List.mem_map.1 hm
    have hb := below_addSub (env_unknown st) h.under .add below_none (expr_down h (h.rk.gaps z hz))
    exact rank_below h.under hb hd
  · unfold aligns at hm
    obtain ⟨i, hi, hy⟩ := List.mem_filterMap.1 hm
    split at hy
    · rename_i al a hsp
      cases hy
      have hk : kindOf st.lc.spaces i = some (.alignment a) := by unfold kindOf; rw [hsp]; rfl
      have hb : Below (fun _ => False) (fun s => s < i ∧ ρ s ≤ ρ i) ((SpSrc.addr a).collect st.env st.tab) := by
        refine ⟨by simp [SpSrc.collect], by simp [SpSrc.collect], ?_⟩
        intro s hs
        obtain ⟨e, he, rfl⟩ := List.mem_map.1 hs
        have := uptoStop_mem he
        have hk' := (norm_keys h.under a.spaces e.1 (List.mem_map_of_mem (List.mem_reverse.1 this))).1
        exact ⟨h.dep i a hk _ hk', h.rk.align i a hk _ hk'⟩
      rcases below_extract h.under hb hd with ⟨n, rfl, h1⟩ | ⟨s, rfl, h1, h2⟩ | ⟨kd, n, rfl⟩
      · exact h1.elim
      · have h3 : ρ s * (st.lc.spaces.length + 2) ≤ ρ i * (st.lc.spaces.length + 2) := Nat.mul_le_mul_right _ h2
        exact Nat.add_lt_add_of_le_of_lt h3 (Nat.succ_lt_succ h1)
      · simp only [depRank]; exact Nat.lt_of_lt_of_le (Nat.succ_pos _) (Nat.le_add_left _ _)
    · cases hy

theorem edge_down {ρ : SpId → Nat} {b : Nat} {st : St} (h : Down r D ρ b v st) (d d' : Dep) (he : st.sym.Edge d d') :
    depRank r ρ st.lc.spaces.length d' < depRank r ρ st.lc.spaces.length d := by
  obtain ⟨xs, ho, hd⟩ := he
  have hdeps : ∀ d, (st.sym.deps.find? (·.1 = d)).map (fun x => (x.2.collect st.env st.tab).extract st.env) = some xs →
      depRank r ρ st.lc.spaces.length d' < depRank r ρ st.lc.spaces.length d := by
    intro d ho
    obtain ⟨y, hy, rfl⟩ := Option.map_eq_some_iff.1 ho
    have he := List.find?_some hy
    obtain ⟨z, hz, hz'⟩ := List.mem_map.1 (List.mem_of_find?_eq_some hy)
    subst hz'
    simp only [decide_eq_true_eq] at he
    rw [← he]
    exact deps_down h hz hd
  cases d with
  | space s =>
    obtain ⟨y, hy, rfl⟩ := Option.map_eq_some_iff.1 ho
    have he := List.find?_some hy
    simp only [decide_eq_true_eq] at he
    rw [← he]
    exact sps_down h (List.mem_of_find?_eq_some hy) hd
  | sym n => exact hdeps _ ho
  | attr k n => exact hdeps _ ho

theorem path_down {ρ : SpId → Nat} {b : Nat} {st : St} (h : Down r D ρ b v st) {d d' : Dep} (hp : st.sym.Path d d') :
    depRank r ρ st.lc.spaces.length d' ≤ depRank r ρ st.lc.spaces.length d := by
  induction hp with
  | refl => exact Nat.le_refl _
  | step he _ ih => exact Nat.le_trans ih (Nat.le_of_lt (edge_down h _ _ he))

/-- No length depends on itself. -/
theorem uncircular {ρ : SpId → Nat} {b : Nat} {st : St} (h : Down r D ρ b v st) (s : SpId) : ¬ Circle.Circular st.sym s := by
  have key : ∀ a c, Relation.TransGen (Circle.Needs st.sym) a c → depRank r ρ st.lc.spaces.length (.space c) < depRank r ρ st.lc.spaces.length (.space a) := by
    have one : ∀ a c, Circle.Needs st.sym a c → depRank r ρ st.lc.spaces.length (.space c) < depRank r ρ st.lc.spaces.length (.space a) := by
      rintro a c ⟨x, hx, rfl, _, hd⟩
      exact sps_down h hx hd
    intro a c hac
    induction hac with
    | single h => exact one _ _ h
    | tail _ h ih => exact Nat.lt_trans (one _ _ h) ih
  intro hc
  exact Nat.lt_irrefl _ (key s s hc)

theorem resolves_unreported {st : St} {o : Out} (h : Resolves st o) : o ≠ .reported := by
  induction h with
  | stop => simp
  | step _ _ _ _ ih => exact ih
  | crash => simp

theorem create_unreported {ρ : SpId → Nat} {b : Nat} {st : St} {p : Int} {n : SymId} {x : SVal} (h : Rk r D ρ b { st with tab := st.tab.set n (mkSym x) })
    (hf : Fwd Q G v { st with tab := st.tab.set n (mkSym x) } p) : ¬ Create st n x .reported := by
  intro hc
  cases hc with
  | circle h1 h2 => exact uncircular (down_of h hf) _ h2
  | fine _ h2 => exact resolves_unreported h2 rfl

/-- A definition that waits goes round in no circle. -/
theorem later_unreported {ρ : SpId → Nat} {b : Nat} {st : St} {p : Int} (h : Rk r D ρ b st) (hf : Fwd Q G v st p) {n : SymId} {x : MExpr} {fuel : Nat}
    (hw : Waits r D ρ st.lc.spaces.length x (r n)) :
    { st with tab := st.tab.set n (mkSym .undef) }.sym.checkCycle (.sym n) fuel ((x.collect st.env (st.tab.set n (mkSym .undef))).extract st.env) ≠ some false := by
  intro hc
  have hd : Down r D ρ b v { st with tab := st.tab.set n (mkSym .undef) } := by
    refine ⟨rk_set h (by intro a ha; cases ha), hf.under, ?_, (fun i d hi => fwd_in hf i d hi), fun y hy => kind_lt (hf.wf.wait y hy).1⟩
    intro m a ha
    simp only [value_set, mkSym] at ha
    split at ha
    · cases ha
    · exact (hf.tab m a ha).2
  obtain ⟨d, h1, h2⟩ := (C55_correct _ _ _ _ _ hc).1 rfl
  have h3 := path_down hd h2
  have h4 := rank_below (e := 0) hd.under (expr_down hd (x := x) (k := r n) hw) h1
  exact Nat.lt_irrefl _ (Nat.lt_of_lt_of_le h4 h3)

theorem equ_unreported {ρ : SpId → Nat} {b : Nat} {st : St} {p : Int} (h : Rk r D ρ b st) (hf : Fwd Q G v st p) {n : SymId} {a : Addr} {e : MExpr}
    (ha : a ∈ st.lc.log) (ht : Tidy G e) (hk : IsNumber G e ∨ IsPlace G e ∧ (st.lc.spaces = [] ∨ Bare e)) {w : Val}
    (hw : value G (.rel (aval v a)) e = some w) (hn : G n = some w) (hwt : Waits r D ρ st.lc.spaces.length (fill a e) (r n)) (hnew : st.tab n = none) :
    ¬ Equ st n (fill a e) .reported := by
  obtain ⟨ha1, ha2⟩ := hf.log a ha
  intro hx
  cases hx with
  | dup h1 => exact h1 hnew
  | now h1 h2 h3 h4 =>
    obtain ⟨r1, r2⟩ := resolve_good hf.under hf.good ha1.1 ht hw (closed_contains h2) h3
    refine create_unreported (rk_set h ?_) (fwd_new hf h1 (by rw [hn]; exact r1) ?_) h4
    · intro c hc s hs hl
      rw [hc] at r1
      exact absurd hl (known_len hf.under r1.1 (r2 c hc) s hs)
    · intro b hb
      rw [hb] at r1
      exact known_inside hf.under r1.1 (r2 b hb)
  | address h1 h2 h3 h4 h5 =>
    obtain ⟨r1, r2⟩ := address_case_good hf ha1 ha2 hk h2 h3 h4 hw
    refine create_unreported (rk_set h ?_) (fwd_new hf h1 (by rw [hn]; exact r1) (by intro c hc; cases hc; exact r2)) h5
    exact rk_address_case h hf ha1 hk h3 h4 hw hwt r2.2
  | cyclic _ _ _ h4 => exact later_unreported h hf hwt h4

theorem label_unreported {ρ : SpId → Nat} {b : Nat} {st : St} {p : Int} (h : Rk r D ρ b st) (hf : Fwd Q G v st p) {a : Addr} {l : Option SymId}
    (ha : a ∈ st.lc.log) (hn : ∀ n, l = some n → G n = some (.rel (aval v a))) (hr : ∀ n, l = some n → b < r n)
    (hnew : ∀ n, l = some n → st.tab n = none) : ¬ Label st a l .reported := by
  obtain ⟨ha1, ha2⟩ := hf.log a ha
  intro hx
  cases hx with
  | dup h1 => exact h1 (hnew _ rfl)
  | new h1 h2 =>
    refine create_unreported (rk_set h ?_) (fwd_new hf h1 (by rw [hn _ rfl]; exact ⟨ha1.1, rfl⟩) (by intro b hb; cases hb; exact ⟨ha1, ha2⟩)) h2
    intro c hc s hs _
    cases hc
    exact Nat.lt_of_le_of_lt (h.all s (ha2 s hs)) (hr _ rfl)

/-! ### Which symbols are there -/

theorem resolves_none {st : St} {o : Out} (h : Resolves st o) : ∀ st' p, o = .ok st' → Fwd Q G v st p → ∀ m, st.tab m = none → st'.tab m = none := by
  induction h with
  | stop => intro st' p e _ m hm; cases e; exact hm
  | step h1 h2 h3 _ ih =>
    intro st' p e hf m hm
    refine ih st' p e (fwd_sym hf h1 (closed_extract h2) h3) m ?_
    obtain ⟨s, hs, _⟩ := hf.wf.open' _ h1
    simp only [Table.set]
    rw [if_neg]
    · exact hm
    · rintro rfl
      rw [hm] at hs; cases hs
  | crash => intro st' p e; cases e

theorem equ_none {st st' : St} {p : Int} (hf : Fwd Q G v st p) {n m : SymId} {a : Addr} {e : MExpr} (hx : Equ st n (fill a e) (.ok st')) (ha : a ∈ st.lc.log)
    (ht : Tidy G e) (hk : IsNumber G e ∨ IsPlace G e ∧ (st.lc.spaces = [] ∨ Bare e)) {w : Val} (hw : value G (.rel (aval v a)) e = some w)
    (hn : G n = some w) (hm : m ≠ n) (h0 : st.tab m = none) : st'.tab m = none := by
  obtain ⟨ha1, ha2⟩ := hf.log a ha
  have hs : ∀ s, (st.tab.set n s) m = none := by intro s; simp only [Table.set, if_neg hm]; exact h0
  cases hx with
  | now h1 h2 h3 h4 =>
    obtain ⟨r1, r2⟩ := resolve_good hf.under hf.good ha1.1 ht hw (closed_contains h2) h3
    refine resolves_none (create_ok h4) st' p rfl (fwd_new hf h1 (by rw [hn]; exact r1) ?_) m (hs _)
    intro b hb
    rw [hb] at r1
    exact known_inside hf.under r1.1 (r2 b hb)
  | address h1 h2 h3 h4 h5 =>
    obtain ⟨r1, r2⟩ := address_case_good hf ha1 ha2 hk h2 h3 h4 hw
    exact resolves_none (create_ok h5) st' p rfl (fwd_new hf h1 (by rw [hn]; exact r1) (by intro c hc; cases hc; exact r2)) m (hs _)
  | later => exact hs _

theorem label_none {st st' : St} {p : Int} (hf : Fwd Q G v st p) {a : Addr} {l : Option SymId} {m : SymId}
    (hx : Label st a l (.ok st')) (ha : a ∈ st.lc.log) (hn : ∀ n, l = some n → G n = some (.rel (aval v a))) (hm : l ≠ some m) (h0 : st.tab m = none) :
    st'.tab m = none := by
  obtain ⟨ha1, ha2⟩ := hf.log a ha
  cases hx with
  | none => exact h0
  | new h1 h2 =>
    refine resolves_none (create_ok h2) st' p rfl (fwd_new hf h1 (by rw [hn _ rfl]; exact ⟨ha1.1, rfl⟩) (by intro b hb; cases hb; exact ⟨ha1, ha2⟩)) m ?_
    simp only [Table.set]
    rw [if_neg]
    · exact h0
    · rintro rfl; exact hm rfl

/-- The symbol a statement defines. -/
def nameOf : Stmt → Option SymId
  | .equ n _ => some n
  | .data l _ _ _ => l

theorem names_cons (s : Stmt) (rest : List Stmt) : names (s :: rest) = (nameOf s).toList ++ names rest := by
  cases s with
  | equ n e => rfl
  | data l al u e => cases l <;> rfl

/-- One statement: nothing is reported, and only its symbol is new. -/
theorem exec_unreported {st : St} {s : Stmt} {rest : List Stmt} {var : Bool} {p : Int} {ρ : SpId → Nat} {b : Nat}
    (hc : CarefulFrom G var (s :: rest)) (hs : SolvesQ Q G p (s :: rest)) (hrk : RankedFrom r D b (s :: rest))
    (hv : var = false → st.lc.spaces = [] ∧ st.lc.data.parts = []) (hk : Fwd Q G v st p) (hR : Rk r D ρ b st) (hnew : ∀ n, nameOf s = some n → st.tab n = none) :
    ¬ Exec st s .reported ∧ ∀ st', Exec st s (.ok st') → ∀ m, nameOf s ≠ some m → st.tab m = none → st'.tab m = none := by
  cases s with
  | equ n e =>
    obtain ⟨c1, c2, c3⟩ := hc
    obtain ⟨⟨w, s1, s2, sq⟩, s3⟩ := hs
    obtain ⟨q1, q2, q3⟩ := hrk
    have hv' : var = false → (st.align ⟨0, 1⟩).lc.spaces = [] ∧ (st.align ⟨0, 1⟩).lc.data.parts = [] := fun h => reserve_none (hv h) _ _
    have hkind := c2.imp_right fun ⟨h1, h2⟩ => (⟨h1, h2.imp_left fun h => (hv' h).1⟩ : _ ∧ ((st.align ⟨0, 1⟩).lc.spaces = [] ∨ Bare _))
    obtain ⟨v1, k1, a1⟩ := fwd_align hk (al := ⟨0, 1⟩) pow_one rfl
    rw [alignUp_one] at k1 a1
    obtain ⟨ρ1, R1⟩ := rk_reserve hR hk 0 (al := ⟨0, 1⟩) k1
    have hwt := waits_of R1 k1 (last_mem st _) q1 q2
    constructor
    · intro hx
      cases hx with
      | equ hx => exact equ_unreported R1 k1 (last_mem st _) c1 hkind (by rw [a1]; exact s1) s2 hwt (hnew n rfl) hx
    · intro st' hx m hm h0
      cases hx with
      | equ hx => exact equ_none k1 hx (last_mem st _) c1 hkind (by rw [a1]; exact s1) s2 (by rintro rfl; exact hm rfl) h0
  | data l al u e0 =>
    obtain ⟨⟨k, hk0, hal⟩, c2, c3, c4, c5⟩ := hc
    obtain ⟨s1, n, s2, sq, s3⟩ := hs
    obtain ⟨q1, g, q2, q3, q4⟩ := hrk
    have hp : Pow al := ⟨k, hk0, by rw [hal]⟩
    have h0 : al.byte = 0 := by rw [hal]
    obtain ⟨v1, k1, a1⟩ := fwd_align hk hp h0
    obtain ⟨ρ1, R1⟩ := rk_reserve hR hk 0 (al := al) k1
    have hlab : ∀ m, l = some m → G m = some (.rel (aval v1 (lastAddr (st.align al).lc))) := by intro m hm; rw [a1]; exact s1 m hm
    constructor
    · intro hx
      cases hx with
      | dataReported hx => exact label_unreported R1 k1 (last_mem st al) hlab q1 hnew hx
    · intro st' hx m hm h0
      cases hx with
      | data hxe hl hub =>
        rw [reserve_tab]
        exact label_none k1 hl (last_mem st al) hlab hm h0

theorem runs_unreported {st : St} {prog : List Stmt} {o : Out} (h : Runs st prog o) : ∀ var p v ρ b, CarefulFrom G var prog → SolvesQ Q G p prog →
    RankedFrom r D b prog → (var = false → st.lc.spaces = [] ∧ st.lc.data.parts = []) → Fwd Q G v st p → Rk r D ρ b st →
    (names prog).Nodup → (∀ n ∈ names prog, st.tab n = none) → o ≠ .reported := by
  induction h with
  | nil => intros; simp
  | cons hx hrest ih =>
    intro var p v ρ b hc hs hrk hv hk hR hn hnew
    rw [names_cons] at hn hnew
    obtain ⟨var', p', v', ρ', b', h1, h2, h3, h4, h5, h6⟩ := rk_exec hx hc hs hrk hv hk hR
    obtain ⟨_, j2⟩ := exec_unreported hc hs hrk hv hk hR (fun n h => hnew n (by simp [h]))
    refine ih var' p' v' ρ' b' h1 h2 h3 h4 h5 h6 (List.nodup_append.1 hn).2.1 ?_
    intro n hn'
    refine j2 _ hx n ?_ (hnew n (List.mem_append_right _ hn'))
    intro he
    exact (List.nodup_append.1 hn).2.2 n (by simp [he]) n hn' rfl
  | reported hx =>
    intro var p v ρ b hc hs hrk hv hk hR hn hnew
    rw [names_cons] at hnew
    exact absurd hx (exec_unreported hc hs hrk hv hk hR (fun n h => hnew n (by simp [h]))).1
  | crash => intros; simp

theorem settles_unreported {st : St} {o : Out} (h : Settles st o) : o ≠ .reported := by
  induction h with
  | stop => simp
  | step _ _ ih => exact ih
  | crash => simp

end

/-- C134 (partial): a program that defines no symbol twice, has a careful solution and whose definitions do not go round in circles is
assembled without a message about circles: unless the arithmetic of `int` overflows, it ends with nothing left over and every symbol has the
value of the solution. -/
theorem C134_assembled_partial (prog : List Stmt) (G : Values) (hs : Solves G prog) (hc : Careful G prog) (r : SymId → Nat) (hr : Ranked r prog)
    (hn : (names prog).Nodup) (o : Out) (h : Assembles prog o) :
    o = .crash ∨ ∃ fin, o = .ok fin ∧ fin.Finished ∧ ∀ n ∈ names prog, fin.value n = G n := by
  have hne : o ≠ .reported := by
    cases h with
    | done h1 h2 => exact settles_unreported h2
    | reported h1 =>
      exact runs_unreported h1 false 0 (fun _ => 0) (fun _ => 0) 0 hc (solvesQ_true.2 hs) hr (fun _ => ⟨rfl, rfl⟩) (fwd_init G) (rk_init _ _ _ _) hn (fun _ _ => rfl)
    | crash => simp
  cases o with
  | ok fin =>
    obtain ⟨h1, h2⟩ := C134_complete_partial prog G hs hc r hr fin h
    exact .inr ⟨fin, rfl, h1, h2⟩
  | reported => exact absurd rfl hne
  | crash => exact .inl rfl

example : (names exProg).Nodup := by decide

end Verif.Whole
