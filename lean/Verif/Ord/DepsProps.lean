import Verif.Ord.Deps
import Verif.Ord.SymbolProps
/-!
C54, C55, C56: symbols and their dependencies.
-/
namespace Verif.Ord

/-! ### C54: a symbol keeps its value -/

/-- Everything known about a symbol in `T` is known in `T'` and the same. -/
def Ext (T T' : Table) : Prop := ∀ n s, T n = some s → ∃ s', T' n = some s' ∧ (s.val ≠ .undef → s'.val = s.val) ∧
  (∀ x, s.len = some x → s'.len = some x) ∧ (∀ x, s.scale = some x → s'.scale = some x) ∧ s'.type = s.type ∧ s'.integer = s.integer ∧ s'.si = s.si

theorem Ext.refl (T : Table) : Ext T T := fun _ s h => ⟨s, h, fun _ => rfl, fun _ h => h, fun _ h => h, rfl, rfl, rfl⟩

theorem Ext.trans {T T' T'' : Table} (h : Ext T T') (h' : Ext T' T'') : Ext T T'' := by
  intro n s hs
  obtain ⟨s1, e1, a1, b1, c1, d1, f1, g1⟩ := h n s hs
  obtain ⟨s2, e2, a2, b2, c2, d2, f2, g2⟩ := h' n s1 e1
  refine ⟨s2, e2, fun hv => ?_, fun x hx => b2 x (b1 x hx), fun x hx => c2 x (c1 x hx), d2.trans d1, f2.trans f1, g2.trans g1⟩
  have := a1 hv
  rw [a2 (by rw [this]; exact hv), this]

theorem Ext.set {T : Table} {n : SymId} {s s' : Sym} (h : T n = some s) (hv : s.val ≠ .undef → s'.val = s.val)
    (hl : ∀ x, s.len = some x → s'.len = some x) (hc : ∀ x, s.scale = some x → s'.scale = some x) (ht : s'.type = s.type)
    (hi : s'.integer = s.integer) (hs : s'.si = s.si) : Ext T (T.set n s') := by
  intro m t hm
  by_cases e : m = n
  · subst e
    rw [h] at hm; injection hm with hm; subst hm
    exact ⟨s', by simp [Table.set], hv, hl, hc, ht, hi, hs⟩
  · exact ⟨t, by simp [Table.set, e, hm], fun _ => rfl, fun _ h => h, fun _ h => h, rfl, rfl, rfl⟩

theorem Ext.new {T : Table} {n : SymId} {s : Sym} (h : T n = none) : Ext T (T.set n s) := by
  intro m t hm
  by_cases e : m = n
  · subst e; rw [h] at hm; cases hm
  · exact ⟨t, by simp [Table.set, e, hm], fun _ => rfl, fun _ h => h, fun _ h => h, rfl, rfl, rfl⟩

theorem assign_ext {T T' : Table} {d : Dep} {v : SVal} {av : Int} (h : T.assign d v av = some T') : Ext T T' := by
  unfold Table.assign at h
  split at h
  · split at h
    · cases h
    · rename_i s hs
      split at h
      · cases h
      · rename_i hc
        injection h with h; subst h
        exact .set hs (fun hv => absurd (Or.inr hv) hc) (fun _ h => h) (fun _ h => h) rfl rfl rfl
  · split at h
    · cases h
    · rename_i s hs
      split at h
      · cases h
      · rename_i hc
        injection h with h; subst h
        exact .set hs (fun _ => rfl) (fun x hx => by simp [hx] at hc) (fun _ h => h) rfl rfl rfl
  · split at h
    · cases h
    · rename_i s hs
      split at h
      · cases h
      · rename_i hc
        injection h with h; subst h
        exact .set hs (fun _ => rfl) (fun _ h => h) (fun x hx => by simp [hx] at hc) rfl rfl rfl
  · rename_i n _ _
    cases hn : T n with
    | none => simp [hn] at h
    | some s => simp [hn] at h; subst h; exact .refl T
  · cases h

theorem assignDefault_ext {T T' : Table} {d : Dep} (h : T.assignDefault d = some T') : Ext T T' := by
  unfold Table.assignDefault at h
  split at h <;> exact assign_ext h

theorem fire_ext {st st' : SymSt} {d : Dep} {e : MExpr} (h : st.fire d e = some st') : Ext st.tab st'.tab := by
  unfold SymSt.fire at h
  split at h
  · cases h
  · rw [Option.map_eq_some_iff] at h
    obtain ⟨T, hT, rfl⟩ := h
    exact assign_ext hT

theorem resolves_ext {st : SymSt} {o : Outcome SymSt} (h : Resolves st o) : ∀ st', o = .ok st' → Ext st.tab st'.tab := by
  induction h with
  | stop _ => intro st' e; cases e; exact .refl _
  | step _ hf _ ih => intro st' e; exact (fire_ext hf).trans (ih st' e)
  | crash => intro st' e; cases e

theorem addDep_ext {st : SymSt} {t : Dep} {e : MExpr} {b : Bool} {st' : SymSt} (h : AddDep st t e (.ok (b, st'))) : Ext st.tab st'.tab := by
  cases h with
  | added => exact .refl _
  | cyclic _ _ hT hr => exact (assignDefault_ext hT).trans (resolves_ext hr _ rfl)

theorem addMod_ext {st : SymSt} {t : Dep} {e : Option MExpr} {st' : SymSt} (h : AddMod st t e (.ok st')) : Ext st.tab st'.tab := by
  cases h with
  | skip => exact .refl _
  | add _ _ ha => exact addDep_ext ha

theorem create_ext {st : SymSt} {n : SymId} {s : Sym} {st' : SymSt} (h : Create st n s (.ok st')) : Ext st.tab st'.tab := by
  cases h with
  | pending hn => exact .new hn
  | defined hn _ _ hr => exact (Ext.new hn).trans (resolves_ext hr _ rfl)

theorem exec_ext {st : SymSt} {x : SymStmt} {st' : SymSt} (h : Exec st x (.ok st')) : Ext st.tab st'.tab := by
  cases h with
  | equDup => exact .refl _
  | equNow _ _ hc => exact create_ext hc
  | equAddr _ _ _ _ hc => exact create_ext hc
  | equLater _ _ _ hc ha => exact (create_ext hc).trans (addDep_ext ha)
  | labelDup => exact .refl _
  | label _ hc => exact create_ext hc
  | extrn hc => exact create_ext hc
  | dataNew _ hc h1 h2 =>
    have e1 := addMod_ext h1
    exact (create_ext hc).trans (Ext.trans e1 (addMod_ext h2))
  | dataDup _ h1 h2 =>
    have e1 := addMod_ext h1
    exact Ext.trans e1 (addMod_ext h2)
  | layout => exact .refl _

theorem execAll_ext {st : SymSt} {xs : List SymStmt} {o : Outcome SymSt} (h : ExecAll st xs o) : ∀ st', o = .ok st' → Ext st.tab st'.tab := by
  induction h with
  | nil => intro st' e; cases e; exact .refl _
  | cons hx _ ih => intro st' e; exact (exec_ext hx).trans (ih st' e)
  | crash => intro st' e; cases e

/-- C54: once a symbol has a value, a length or a scale, it keeps it, whatever statements follow and in whatever order dependencies are
resolved. -/
theorem C54_stays (st : SymSt) (xs : List SymStmt) (st' : SymSt) (h : ExecAll st xs (.ok st')) (n : SymId) (s : Sym) (hs : st.tab n = some s) :
    ∃ s', st'.tab n = some s' ∧ (s.val ≠ .undef → s'.val = s.val) ∧ (s.len ≠ none → s'.len = s.len) ∧ (s.scale ≠ none → s'.scale = s.scale) := by
  obtain ⟨s', e, hv, hl, hc, _⟩ := execAll_ext h st' rfl n s hs
  refine ⟨s', e, hv, fun h => ?_, fun h => ?_⟩
  · obtain ⟨x, hx⟩ := Option.ne_none_iff_exists'.1 h; rw [hx]; exact hl x hx
  · obtain ⟨x, hx⟩ := Option.ne_none_iff_exists'.1 h; rw [hx]; exact hc x hx

/-- C54: `EQU` and labels of instructions for a name in use are ignored: nothing changes. -/
theorem C54_rejected (st : SymSt) (n : SymId) (s : Sym) (hn : st.tab n ≠ none) (o : Outcome SymSt) :
    (∀ e, Exec st (.equ n s e) o → o = .ok st) ∧ (Exec st (.label n s) o → o = .ok st) := by
  constructor
  · intro e h
    cases h with
    | equDup => rfl
    | equNow h0 => exact absurd h0 hn
    | equAddr h0 => exact absurd h0 hn
    | equLater h0 => exact absurd h0 hn
    | equLaterCrash h0 => exact absurd h0 hn
  · intro h
    cases h with
    | labelDup => rfl
    | label h0 => exact absurd h0 hn

/-- An environment without spaces. -/
def Env.plain : Env := ⟨Heap.fresh, fun _ => false, fun _ => false⟩
/-- The attributes of an equated symbol. -/
def equSym (v : SVal) : Sym := ⟨v, 228, some 1, none, 0, false⟩

/-- No entries: resolution ends at once. -/
theorem resolves_nil {st : SymSt} (h : st.deps = []) : Resolves st (.ok st) := .stop (by rintro d e ⟨hm, _⟩; rw [h] at hm; simp at hm)

/-- Violation: the second `EXTRN` of a name is not rejected but throws (`symbol name in use`), and nothing catches it. -/
theorem C54_witness_extrn (n : SymId) (s : Sym) (h : s.val ≠ .undef) : ExecAll (.init .plain) [.extrn n s, .extrn n s] .crash :=
  .cons (.extrn (.defined (env := .plain) (sps := []) rfl h (fun _ => ⟨rfl, rfl⟩) (resolves_nil rfl))) (.crash (.extrn (.inUse (by simp [Table.set]))))

/-- Violation: `A EQU 5`, `A DS CL(X)`, `X EQU 1`: the rejected `DS` leaves a dependency for the length of `A`; resolving it throws (`value can
be assigned only once`). -/
theorem C54_witness_data : ExecAll (.init .plain) [.equ 0 (equSym .undef) (.const 5), .data 0 (equSym .undef) (some (.sym 1)) none,
    .equ 1 (equSym .undef) (.const 1)] .crash := by
  refine .cons (.equNow rfl (by decide) (.defined (env := .plain) (sps := []) rfl (by decide) (fun _ => ⟨rfl, rfl⟩) (resolves_nil rfl))) ?_
  refine .cons (.dataDup (env := .plain) (sps := []) (by simp [Table.set, SymSt.init]) (.add rfl (by decide) (.added (fuel := 1) (by decide) (by decide))) (.skip rfl)) ?_
  refine .crash (.equNow rfl (by decide) (.defined (env := .plain) (sps := []) rfl (by decide) (fun _ => ⟨rfl, rfl⟩) (.crash (d := .attr .L 0) (e := .sym 1) ⟨by decide, by decide⟩ (by decide))))

/-- Violation: the same `DS` twice while its length is not known throws (`symbol dependency already present`). -/
theorem C54_witness_data_twice (a : Addr) : ExecAll (.init .plain) [.data 0 (equSym (.reloc a)) (some (.sym 1)) none, .data 0 (equSym (.reloc a)) (some (.sym 1)) none] .crash := by
  refine .cons (.dataNew (env := .plain) (sps := []) rfl (.defined (env := .plain) (sps := []) rfl (by simp [dataSym, equSym]) (fun _ => ⟨rfl, rfl⟩) (resolves_nil rfl)) (.add rfl rfl (.added (fuel := 1) (by simp [SymSt.init]) rfl)) (.skip rfl)) ?_
  exact .crash (.dataDupCrash (env := .plain) (sps := []) (by simp [Table.set, SymSt.init]) (.crash rfl rfl (.present (by simp))))

/-- Non-vacuity: `A EQU B`, `B EQU 3`, `A EQU 7`. -/
example : ∃ st, ExecAll (.init .plain) [.equ 0 (equSym .undef) (.sym 1), .equ 1 (equSym .undef) (.const 3), .equ 0 (equSym .undef) (.const 7)] (.ok st) ∧
    st.tab.value 0 = .abs 3 := by
  refine ⟨⟨.plain, Table.set (Table.set (Table.set (fun _ => none) 0 (equSym .undef)) 1 (equSym (.abs 3))) 0 (equSym (.abs 3)), [], []⟩, ?_, rfl⟩
  refine .cons (.equLater rfl (by decide) (by decide) (.pending rfl rfl) (.added (fuel := 1) (by decide) (by decide))) ?_
  refine .cons (.equNow rfl (by decide) (.defined (env := .plain) (sps := []) rfl (by decide) (fun _ => ⟨rfl, rfl⟩) (.step (d := .sym 0) (e := .sym 1) ⟨by decide, by decide⟩ rfl (resolves_nil rfl)))) ?_
  exact .cons (.equDup (by simp [Table.set])) .nil

/-! ### C55: cycles -/

/-- The dependency graph as the tables show it: `d` depends on `d'`. -/
def SymSt.Edge (st : SymSt) (d d' : Dep) : Prop := ∃ xs, st.out d = some xs ∧ d' ∈ xs

/-- `d'` can be reached from `d` along dependencies. -/
inductive SymSt.Path (st : SymSt) : Dep → Dep → Prop
  | refl (d) : Path st d d
  | step {d m d'} : st.Edge d m → Path st m d' → Path st d d'

/-- No target depends on itself: dependencies lead downwards. -/
def SymSt.Acyclic (st : SymSt) : Prop := ∃ rank : Dep → Nat, ∀ d d', st.Edge d d' → rank d' < rank d

theorem SymSt.Path.tail {st : SymSt} {a b c : Dep} (h : st.Path a b) (e : st.Edge b c) : st.Path a c := by
  induction h with
  | refl => exact .step e (.refl _)
  | step e1 _ ih => exact .step e1 (ih e)

theorem checkLoop_false {st : SymSt} {t : Dep} {fuel : Nat} {l : List Dep} (h : st.checkLoop t fuel l = some false) : ∃ d ∈ l, st.Path d t := by
  induction fuel generalizing l with
  | zero => cases l <;> simp [SymSt.checkLoop] at h
  | succ f ih =>
    cases l with
    | nil => simp [SymSt.checkLoop] at h
    | cons d ds =>
      rw [SymSt.checkLoop] at h
      split at h
      · obtain ⟨x, hx, hp⟩ := ih h
        exact ⟨x, by simp [hx], hp⟩
      · rename_i xs hxs
        split at h
        · rename_i ht
          exact ⟨d, by simp, .step ⟨xs, hxs, ht⟩ (.refl _)⟩
        · obtain ⟨x, hx, hp⟩ := ih h
          rw [List.mem_append, List.mem_reverse] at hx
          rcases hx with hx | hx
          · exact ⟨d, by simp, .step ⟨xs, hxs, hx⟩ hp⟩
          · exact ⟨x, by simp [hx], hp⟩

theorem checkLoop_true {st : SymSt} {t : Dep} {fuel : Nat} {l : List Dep} (h : st.checkLoop t fuel l = some true) (hl : t ∉ l) :
    ∀ d ∈ l, ¬ st.Path d t := by
  induction fuel generalizing l with
  | zero => cases l <;> simp [SymSt.checkLoop] at h ⊢
  | succ f ih =>
    cases l with
    | nil => simp
    | cons d ds =>
      rw [SymSt.checkLoop] at h
      have hd : d ≠ t := fun e => hl (by simp [e])
      have hds : t ∉ ds := fun e => hl (by simp [e])
      split at h
      · rename_i ho
        intro x hx
        rw [List.mem_cons] at hx
        rcases hx with rfl | hx
        · intro hp
          cases hp with
          | refl => exact hd rfl
          | step e _ => obtain ⟨xs, hxs, _⟩ := e; rw [ho] at hxs; cases hxs
        · exact ih h hds x hx
      · rename_i xs hxs
        split at h
        · cases h
        · rename_i ht
          have := ih h (by rw [List.mem_append, List.mem_reverse]; exact fun e => e.elim ht hds)
          intro x hx
          rw [List.mem_cons] at hx
          rcases hx with rfl | hx
          · intro hp
            cases hp with
            | refl => exact hd rfl
            | step e hp' =>
              obtain ⟨ys, hys, hm⟩ := e
              rw [hxs] at hys; injection hys with hys; subst hys
              exact this _ (by rw [List.mem_append, List.mem_reverse]; exact .inl hm) hp'
          · exact this x (by rw [List.mem_append]; exact .inr hx)

/-- C55: whenever the check ends, in any dependency graph, it reports a cycle exactly when the target can be reached from one of the new
dependencies, that is when adding them would close a cycle. -/
theorem C55_correct (st : SymSt) (t : Dep) (deps : List Dep) (fuel : Nat) (b : Bool) (h : st.checkCycle t fuel deps = some b) :
    b = false ↔ ∃ d ∈ deps, st.Path d t := by
  unfold SymSt.checkCycle at h
  split at h
  · rename_i ht
    injection h with h
    exact ⟨fun _ => ⟨t, ht, .refl _⟩, fun _ => h.symm⟩
  · rename_i ht
    constructor
    · rintro rfl
      obtain ⟨d, hd, hp⟩ := checkLoop_false h
      exact ⟨d, List.mem_reverse.1 hd, hp⟩
    · rintro ⟨d, hd, hp⟩
      cases b with
      | false => rfl
      | true => exact absurd hp (checkLoop_true h (by rwa [List.mem_reverse]) d (List.mem_reverse.2 hd))

theorem checkLoop_mono {st : SymSt} {t : Dep} {f g : Nat} {l : List Dep} {b : Bool} (h : st.checkLoop t f l = some b) (hg : f ≤ g) : st.checkLoop t g l = some b := by
  induction f generalizing g l with
  | zero =>
    cases l with
    | nil => cases g <;> simpa [SymSt.checkLoop] using h
    | cons => simp [SymSt.checkLoop] at h
  | succ f ih =>
    cases l with
    | nil => cases g <;> simpa [SymSt.checkLoop] using h
    | cons d ds =>
      obtain ⟨g, rfl⟩ : ∃ k, g = k + 1 := ⟨g - 1, by omega⟩
      rw [SymSt.checkLoop] at h ⊢
      split at h
      · exact ih h (by omega)
      · split at h
        · rename_i hc; rw [if_pos hc]; exact h
        · rename_i hc; rw [if_neg hc]; exact ih h (by omega)

/-- Below a rank every worklist is worked off. -/
theorem checkLoop_ends {st : SymSt} (rank : Dep → Nat) (hr : ∀ d d', st.Edge d d' → rank d' < rank d) (t : Dep) (k : Nat) :
    ∀ l : List Dep, (∀ d ∈ l, rank d < k) → ∀ rest f, (∃ b, st.checkLoop t f rest = some b) → ∃ f' b, st.checkLoop t f' (l ++ rest) = some b := by
  induction k with
  | zero =>
    intro l hl rest f hrest
    cases l with
    | nil => exact ⟨f, hrest⟩
    | cons d _ => exact absurd (hl d (by simp)) (by omega)
  | succ k ih =>
    intro l
    induction l with
    | nil => intro _ rest f hrest; exact ⟨f, hrest⟩
    | cons d ds ihl =>
      intro hl rest f hrest
      obtain ⟨f1, b1, h1⟩ := ihl (fun x hx => hl x (by simp [hx])) rest f hrest
      cases ho : st.out d with
      | none => exact ⟨f1 + 1, b1, by rw [List.cons_append, SymSt.checkLoop]; simp only [ho]; exact h1⟩
      | some xs =>
        by_cases ht : t ∈ xs
        · exact ⟨1, false, by rw [List.cons_append, SymSt.checkLoop]; simp [ho, ht]⟩
        · obtain ⟨f2, b2, h2⟩ := ih xs.reverse (fun x hx => by
            have := hr d x ⟨xs, ho, List.mem_reverse.1 hx⟩
            have := hl d (by simp)
            omega) (ds ++ rest) f1 ⟨b1, h1⟩
          exact ⟨f2 + 1, b2, by rw [List.cons_append, SymSt.checkLoop]; simp only [ho, ht, if_false]; exact h2⟩

/-- C55 (partial): the check ends when the graph so far has no cycle. Missing: a graph that already has one, see `C55_witness_hang`. -/
theorem C55_terminates_partial (st : SymSt) (h : st.Acyclic) (t : Dep) (deps : List Dep) : ∃ fuel b, st.checkCycle t fuel deps = some b := by
  obtain ⟨rank, hr⟩ := h
  unfold SymSt.checkCycle
  split
  · exact ⟨0, false, rfl⟩
  · have : ∃ k, ∀ d ∈ deps.reverse, rank d < k := by
      generalize deps.reverse = l
      induction l with
      | nil => exact ⟨0, by simp⟩
      | cons x l ih =>
        obtain ⟨k, hk⟩ := ih
        refine ⟨max k (rank x + 1), ?_⟩
        intro d hd
        rw [List.mem_cons] at hd
        rcases hd with rfl | hd
        · omega
        · have := hk d hd; omega
    obtain ⟨k, hk⟩ := this
    obtain ⟨f, b, hb⟩ := checkLoop_ends rank hr t k deps.reverse hk [] 0 ⟨true, by simp [SymSt.checkLoop]⟩
    rw [List.append_nil] at hb
    exact ⟨f, b, hb⟩

/-- C55: a dependency that was accepted closes no cycle: the graph stays without cycles. -/
theorem C55_stays_acyclic (st : SymSt) (h : st.Acyclic) (t : Dep) (e : MExpr) (st' : SymSt) (ht : ∀ s, t ≠ .space s) (hadd : AddDep st t e (.ok (true, st'))) :
    st'.Acyclic := by
  cases hadd with
  | @added fuel hn hc =>
    obtain ⟨rank, hr⟩ := h
    have hno : ∀ d ∈ (e.collect st.env st.tab).extract st.env, ¬ st.Path d t := by
      intro d hd hp
      have := (C55_correct st t _ fuel true hc).2 ⟨d, hd, hp⟩
      cases this
    have hb : ∃ k, ∀ d ∈ (e.collect st.env st.tab).extract st.env, rank d < k := by
      generalize (e.collect st.env st.tab).extract st.env = l
      induction l with
      | nil => exact ⟨0, by simp⟩
      | cons x l ih =>
        obtain ⟨k, hk⟩ := ih
        refine ⟨max k (rank x + 1), ?_⟩
        intro d hd
        rw [List.mem_cons] at hd
        rcases hd with rfl | hd
        · omega
        · have := hk d hd; omega
    obtain ⟨k, hk⟩ := hb
    classical
    refine ⟨fun d => if st.Path d t then rank d + k else rank d, ?_⟩
    intro d d' hed
    have hout : ∀ x, x ≠ t → (SymSt.out { st with deps := st.deps ++ [(t, e)] } x) = st.out x := by
      intro x hx
      cases x with
      | space s => rfl
      | sym n =>
        simp only [SymSt.out, List.find?_append]
        cases hf : st.deps.find? (fun y => decide (y.1 = Dep.sym n)) with
        | some y => simp
        | none => simp [Ne.symm hx]
      | attr q n =>
        simp only [SymSt.out, List.find?_append]
        cases hf : st.deps.find? (fun y => decide (y.1 = Dep.attr q n)) with
        | some y => simp
        | none => simp [Ne.symm hx]
    have houtt : SymSt.out { st with deps := st.deps ++ [(t, e)] } t = some ((e.collect st.env st.tab).extract st.env) := by
      have hf : st.deps.find? (fun y => decide (y.1 = t)) = none := by
        rw [List.find?_eq_none]
        intro y hy
        simp only [decide_eq_true_eq]
        exact fun h => hn (by rw [← h]; exact List.mem_map_of_mem hy)
      cases t with
      | space s => exact absurd rfl (ht s)
      | sym n => simp only [SymSt.out, List.find?_append, hf]; simp
      | attr q n => simp only [SymSt.out, List.find?_append, hf]; simp
    obtain ⟨xs, hxs, hm⟩ := hed
    by_cases hdt : d = t
    · subst hdt
      rw [houtt] at hxs; injection hxs with hxs; subst hxs
      show (if st.Path d' d then _ else _) < (if st.Path d d then _ else _)
      rw [if_neg (hno d' hm), if_pos (.refl _)]
      have := hk d' hm
      omega
    · rw [hout d hdt] at hxs
      have hlt := hr d d' ⟨xs, hxs, hm⟩
      show (if st.Path d' t then _ else _) < (if st.Path d t then _ else _)
      by_cases hp : st.Path d' t
      · rw [if_pos hp, if_pos (.step ⟨xs, hxs, hm⟩ hp)]; omega
      · rw [if_neg hp]; split <;> omega

/-! ### Expressions and what they refer to -/

/-- The symbols an expression refers to. -/
def MExpr.symRefs : MExpr → List SymId
  | .sym n => [n]
  | .par e => e.symRefs
  | .neg e => e.symRefs
  | .add l r => l.symRefs ++ r.symRefs
  | .sub l r => l.symRefs ++ r.symRefs
  | .mul l r => l.symRefs ++ r.symRefs
  | .div l r => l.symRefs ++ r.symRefs
  | _ => []

/-- The attributes an expression refers to. -/
def MExpr.attrRefs : MExpr → List (AttrKind × SymId)
  | .attr k n => [(k, n)]
  | .par e => e.attrRefs
  | .neg e => e.attrRefs
  | .add l r => l.attrRefs ++ r.attrRefs
  | .sub l r => l.attrRefs ++ r.attrRefs
  | .mul l r => l.attrRefs ++ r.attrRefs
  | .div l r => l.attrRefs ++ r.attrRefs
  | _ => []

/-- The location counters in an expression. -/
def MExpr.locs : MExpr → List (Option Addr)
  | .loc a => [a]
  | .par e => e.locs
  | .neg e => e.locs
  | .add l r => l.locs ++ r.locs
  | .sub l r => l.locs ++ r.locs
  | .mul l r => l.locs ++ r.locs
  | .div l r => l.locs ++ r.locs
  | _ => []

/-- The attribute of the symbol is known. -/
def Table.HasAttr (T : Table) (k : AttrKind) (n : SymId) : Prop := ∃ s, T n = some s ∧ s.hasAttr k = true

/-- All symbols and attributes the expression refers to are known. -/
def MExpr.Closed (T : Table) (e : MExpr) : Prop := (∀ n ∈ e.symRefs, T.value n ≠ .undef) ∧ ∀ x ∈ e.attrRefs, T.HasAttr x.1 x.2

/-- No right operand is an expression the code considers erroneous, such as a product of addresses. -/
def MExpr.Quiet (E : Env) (T : Table) : MExpr → Prop
  | .par e => e.Quiet E T
  | .neg e => e.Quiet E T ∧ (e.collect E T).err = false
  | .add l r => l.Quiet E T ∧ r.Quiet E T ∧ (r.collect E T).err = false
  | .sub l r => l.Quiet E T ∧ r.Quiet E T ∧ (r.collect E T).err = false
  | .mul l r => l.Quiet E T ∧ r.Quiet E T ∧ (r.collect E T).err = false
  | .div l r => l.Quiet E T ∧ r.Quiet E T ∧ (r.collect E T).err = false
  | _ => True

theorem mem_addAll {α : Type} [DecidableEq α] (l r : List α) (x : α) : x ∈ addAll l r ↔ x ∈ l ∨ x ∈ r := by
  unfold addAll
  induction r generalizing l with
  | nil => simp
  | cons y r ih =>
    rw [List.foldl_cons, ih]
    split
    · rename_i h
      rw [List.mem_cons]
      constructor
      · rintro (h1 | h1)
        · exact .inl h1
        · exact .inr (.inr h1)
      · rintro (h1 | rfl | h1)
        · exact .inl h1
        · exact .inl h
        · exact .inr h1
    · simp only [List.mem_append, List.mem_cons, List.not_mem_nil, or_false]
      constructor
      · rintro ((h1 | h1) | h1)
        · exact .inl h1
        · exact .inr (.inl h1)
        · exact .inr (.inr h1)
      · rintro (h1 | h1 | h1)
        · exact .inl (.inl h1)
        · exact .inl (.inr h1)
        · exact .inr h1

theorem addSub_syms {E : Env} {op : AOp} {c h : Coll} (he : h.err = false) : (c.addSub E op h).syms = addAll c.syms h.syms ∧
    (c.addSub E op h).attrs = addAll c.attrs h.attrs := by
  unfold Coll.addSub
  split <;> simp [Coll.mergeUndef, he]

theorem divMul_syms {c h : Coll} (he : h.err = false) : (c.divMul h).syms = addAll c.syms h.syms ∧ (c.divMul h).attrs = addAll c.attrs h.attrs := by
  unfold Coll.divMul
  split
  · simp [Coll.mergeUndef, he]
  · split <;> simp [Coll.mergeUndef, he]

/-- What is collected for a quiet expression: exactly its undefined symbols and unknown attributes. -/
theorem collect_refs {E : Env} {T : Table} (e : MExpr) (hq : e.Quiet E T) :
    (∀ n, n ∈ (e.collect E T).syms ↔ n ∈ e.symRefs ∧ T.value n = .undef) ∧
    (∀ x, x ∈ (e.collect E T).attrs ↔ x ∈ e.attrRefs ∧ ¬ T.HasAttr x.1 x.2) := by
  induction e with
  | const v => simp [MExpr.collect, Coll.none, MExpr.symRefs, MExpr.attrRefs]
  | sym m =>
    unfold MExpr.collect
    split <;> rename_i hv
    · constructor
      · intro n; simp only [Coll.ofSym, MExpr.symRefs, List.mem_singleton]
        constructor
        · rintro rfl; exact ⟨rfl, hv⟩
        · exact fun h => h.1
      · simp [Coll.ofSym, MExpr.attrRefs]
    · simp [Coll.ofAddr, MExpr.symRefs, MExpr.attrRefs]; rw [hv]; simp
    · simp only [Coll.none, List.not_mem_nil, false_iff, MExpr.symRefs, List.mem_singleton, MExpr.attrRefs, false_and, not_false_eq_true, implies_true, and_true]
      rintro n ⟨rfl, h⟩; simp_all
  | attr k m =>
    unfold MExpr.collect
    split
    · rename_i hm
      refine ⟨by simp [Coll.ofAttr, MExpr.symRefs], ?_⟩
      intro x; simp only [Coll.ofAttr, List.mem_singleton, MExpr.attrRefs]
      constructor
      · rintro rfl; exact ⟨rfl, by rintro ⟨s, hs, _⟩; rw [hm] at hs; cases hs⟩
      · exact fun h => h.1
    · rename_i s hm
      split
      · rename_i hk
        refine ⟨by simp [Coll.none, MExpr.symRefs], ?_⟩
        intro x; simp only [Coll.none, List.not_mem_nil, MExpr.attrRefs, List.mem_singleton, false_iff]
        rintro ⟨rfl, h⟩; exact h ⟨s, hm, hk⟩
      · rename_i hk
        refine ⟨by simp [Coll.ofAttr, MExpr.symRefs], ?_⟩
        intro x; simp only [Coll.ofAttr, List.mem_singleton, MExpr.attrRefs]
        constructor
        · rintro rfl
          refine ⟨rfl, ?_⟩
          rintro ⟨s', hs, h⟩; rw [hm] at hs; injection hs with hs; subst hs; exact hk h
        · exact fun h => h.1
  | loc a => cases a <;> simp [MExpr.collect, Coll.error, Coll.ofAddr, MExpr.symRefs, MExpr.attrRefs]
  | dflt => simp [MExpr.collect, Coll.none, MExpr.symRefs, MExpr.attrRefs]
  | par e ih => exact ih hq
  | neg e ih =>
    obtain ⟨h1, h2⟩ := ih hq.1
    obtain ⟨e1, e2⟩ := addSub_syms (E := E) (op := .sub) (c := Coll.none) hq.2
    refine ⟨fun n => ?_, fun x => ?_⟩
    · show n ∈ (Coll.addSub _ _ _ _).syms ↔ _
      rw [e1, mem_addAll, h1]; simp [Coll.none, MExpr.symRefs]
    · show x ∈ (Coll.addSub _ _ _ _).attrs ↔ _
      rw [e2, mem_addAll, h2]; simp [Coll.none, MExpr.attrRefs]
  | add l r ihl ihr =>
    obtain ⟨h1, h2⟩ := ihl hq.1
    obtain ⟨h3, h4⟩ := ihr hq.2.1
    obtain ⟨e1, e2⟩ := addSub_syms (E := E) (op := .add) (c := l.collect E T) hq.2.2
    refine ⟨fun n => ?_, fun x => ?_⟩
    · show n ∈ (Coll.addSub _ _ _ _).syms ↔ _
      rw [e1, mem_addAll, h1, h3]; simp only [MExpr.symRefs, List.mem_append]; exact or_and_right.symm
    · show x ∈ (Coll.addSub _ _ _ _).attrs ↔ _
      rw [e2, mem_addAll, h2, h4]; simp only [MExpr.attrRefs, List.mem_append]; exact or_and_right.symm
  | sub l r ihl ihr =>
    obtain ⟨h1, h2⟩ := ihl hq.1
    obtain ⟨h3, h4⟩ := ihr hq.2.1
    obtain ⟨e1, e2⟩ := addSub_syms (E := E) (op := .sub) (c := l.collect E T) hq.2.2
    refine ⟨fun n => ?_, fun x => ?_⟩
    · show n ∈ (Coll.addSub _ _ _ _).syms ↔ _
      rw [e1, mem_addAll, h1, h3]; simp only [MExpr.symRefs, List.mem_append]; exact or_and_right.symm
    · show x ∈ (Coll.addSub _ _ _ _).attrs ↔ _
      rw [e2, mem_addAll, h2, h4]; simp only [MExpr.attrRefs, List.mem_append]; exact or_and_right.symm
  | mul l r ihl ihr =>
    obtain ⟨h1, h2⟩ := ihl hq.1
    obtain ⟨h3, h4⟩ := ihr hq.2.1
    obtain ⟨e1, e2⟩ := divMul_syms (c := l.collect E T) hq.2.2
    refine ⟨fun n => ?_, fun x => ?_⟩
    · show n ∈ (Coll.divMul _ _).syms ↔ _
      rw [e1, mem_addAll, h1, h3]; simp only [MExpr.symRefs, List.mem_append]; exact or_and_right.symm
    · show x ∈ (Coll.divMul _ _).attrs ↔ _
      rw [e2, mem_addAll, h2, h4]; simp only [MExpr.attrRefs, List.mem_append]; exact or_and_right.symm
  | div l r ihl ihr =>
    obtain ⟨h1, h2⟩ := ihl hq.1
    obtain ⟨h3, h4⟩ := ihr hq.2.1
    obtain ⟨e1, e2⟩ := divMul_syms (c := l.collect E T) hq.2.2
    refine ⟨fun n => ?_, fun x => ?_⟩
    · show n ∈ (Coll.divMul _ _).syms ↔ _
      rw [e1, mem_addAll, h1, h3]; simp only [MExpr.symRefs, List.mem_append]; exact or_and_right.symm
    · show x ∈ (Coll.divMul _ _).attrs ↔ _
      rw [e2, mem_addAll, h2, h4]; simp only [MExpr.attrRefs, List.mem_append]; exact or_and_right.symm

theorem extract_nil {E : Env} {c : Coll} (h : c.extract E = []) : c.syms = [] ∧ c.attrs = [] := by
  unfold Coll.extract at h
  split at h
  · rename_i hs; simp at h; exact absurd h hs
  · rename_i hs
    split at h
    · rename_i hs'; simp at h; exact absurd h hs'
    · rw [List.append_eq_nil_iff] at h
      exact ⟨by simpa using hs, by simpa using h.1⟩

/-- A quiet expression without dependencies refers to known things only. -/
theorem closed_of_ready {E : Env} {T : Table} {e : MExpr} (hq : e.Quiet E T) (h : (e.collect E T).extract E = []) : e.Closed T := by
  obtain ⟨h1, h2⟩ := collect_refs e hq
  obtain ⟨e1, e2⟩ := extract_nil h
  constructor
  · intro n hn hv
    have := (h1 n).2 ⟨hn, hv⟩
    rw [e1] at this; simp at this
  · intro x hx
    by_cases hh : T.HasAttr x.1 x.2
    · exact hh
    · have := (h2 x).2 ⟨hx, hh⟩
      rw [e2] at this; simp at this

theorem value_ext {T T' : Table} (h : Ext T T') {n : SymId} (hv : T.value n ≠ .undef) : T'.value n = T.value n := by
  unfold Table.value at *
  cases hn : T n with
  | none => simp [hn] at hv
  | some s =>
    simp only [hn] at hv ⊢
    obtain ⟨s', e, a, _⟩ := h n s hn
    rw [e]; exact a hv

theorem hasAttr_ext {T T' : Table} (h : Ext T T') {k : AttrKind} {n : SymId} {s : Sym} (hs : T n = some s) (hk : s.hasAttr k = true) :
    ∃ s', T' n = some s' ∧ s'.hasAttr k = true ∧ s'.attr k = s.attr k ∧ s'.si = s.si := by
  obtain ⟨s', e, _, hl, hc, ht, hi, hsi⟩ := h n s hs
  refine ⟨s', e, ?_⟩
  cases k with
  | T => exact ⟨rfl, ht, hsi⟩
  | L =>
    obtain ⟨x, hx⟩ := Option.isSome_iff_exists.1 (show s.len.isSome = true from hk)
    exact ⟨by simp [Sym.hasAttr, hl x hx], by simp [Sym.attr, hl x hx, hx], hsi⟩
  | S =>
    obtain ⟨x, hx⟩ := Option.isSome_iff_exists.1 (show s.scale.isSome = true from hk)
    exact ⟨by simp [Sym.hasAttr, hc x hx], by simp [Sym.attr, hc x hx, hx], hsi⟩
  | I =>
    simp only [Sym.hasAttr, Bool.and_eq_true] at hk
    obtain ⟨x, hx⟩ := Option.isSome_iff_exists.1 hk.1
    obtain ⟨y, hy⟩ := Option.isSome_iff_exists.1 hk.2
    exact ⟨by simp [Sym.hasAttr, hc x hx, hl y hy], hi, hsi⟩
  | other => simp [Sym.hasAttr] at hk

/-- What an expression over known things is worth, and what it depends on, does not change when more becomes known. -/
theorem closed_ext {E : Env} {T T' : Table} (h : Ext T T') (e : MExpr) (hc : e.Closed T) :
    e.eval E.heap T' = e.eval E.heap T ∧ e.collect E T' = e.collect E T := by
  induction e with
  | const v => exact ⟨rfl, rfl⟩
  | sym n =>
    have := value_ext h (hc.1 n (by simp [MExpr.symRefs]))
    exact ⟨this, by simp only [MExpr.collect, this]⟩
  | attr k n =>
    obtain ⟨s, hs, hk⟩ := hc.2 (k, n) (by simp [MExpr.attrRefs])
    obtain ⟨s', hs', hk', ha, hsi⟩ := hasAttr_ext h hs hk
    refine ⟨?_, ?_⟩
    · simp only [MExpr.eval, Table.attrValue]
      simp only at hs hs' hk hk'
      simp [hs, hs', hk, hk', ha, hsi]
    · simp only [MExpr.collect]
      simp only at hs hs' hk hk'
      simp [hs, hs', hk, hk']
  | loc a => cases a <;> exact ⟨rfl, rfl⟩
  | dflt => exact ⟨rfl, rfl⟩
  | par e ih => exact ih hc
  | neg e ih =>
    obtain ⟨a, b⟩ := ih hc
    exact ⟨by simp only [MExpr.eval, a], by simp only [MExpr.collect, b]⟩
  | add l r ihl ihr =>
    have hl : l.Closed T := ⟨fun n hn => hc.1 n (by simp [MExpr.symRefs, hn]), fun x hx => hc.2 x (by simp [MExpr.attrRefs, hx])⟩
    have hr : r.Closed T := ⟨fun n hn => hc.1 n (by simp [MExpr.symRefs, hn]), fun x hx => hc.2 x (by simp [MExpr.attrRefs, hx])⟩
    exact ⟨by simp only [MExpr.eval, (ihl hl).1, (ihr hr).1], by simp only [MExpr.collect, (ihl hl).2, (ihr hr).2]⟩
  | sub l r ihl ihr =>
    have hl : l.Closed T := ⟨fun n hn => hc.1 n (by simp [MExpr.symRefs, hn]), fun x hx => hc.2 x (by simp [MExpr.attrRefs, hx])⟩
    have hr : r.Closed T := ⟨fun n hn => hc.1 n (by simp [MExpr.symRefs, hn]), fun x hx => hc.2 x (by simp [MExpr.attrRefs, hx])⟩
    exact ⟨by simp only [MExpr.eval, (ihl hl).1, (ihr hr).1], by simp only [MExpr.collect, (ihl hl).2, (ihr hr).2]⟩
  | mul l r ihl ihr =>
    have hl : l.Closed T := ⟨fun n hn => hc.1 n (by simp [MExpr.symRefs, hn]), fun x hx => hc.2 x (by simp [MExpr.attrRefs, hx])⟩
    have hr : r.Closed T := ⟨fun n hn => hc.1 n (by simp [MExpr.symRefs, hn]), fun x hx => hc.2 x (by simp [MExpr.attrRefs, hx])⟩
    exact ⟨by simp only [MExpr.eval, (ihl hl).1, (ihr hr).1], by simp only [MExpr.collect, (ihl hl).2, (ihr hr).2]⟩
  | div l r ihl ihr =>
    have hl : l.Closed T := ⟨fun n hn => hc.1 n (by simp [MExpr.symRefs, hn]), fun x hx => hc.2 x (by simp [MExpr.attrRefs, hx])⟩
    have hr : r.Closed T := ⟨fun n hn => hc.1 n (by simp [MExpr.symRefs, hn]), fun x hx => hc.2 x (by simp [MExpr.attrRefs, hx])⟩
    exact ⟨by simp only [MExpr.eval, (ihl hl).1, (ihr hr).1], by simp only [MExpr.collect, (ihl hl).2, (ihr hr).2]⟩

/-! ### C56: resolution -/

/-- The entries are a map: no target twice. -/
def SymSt.Keyed (st : SymSt) : Prop := (st.deps.map (·.1)).Nodup

theorem fire_some {st st' : SymSt} {d : Dep} {e : MExpr} (h : st.fire d e = some st') :
    e.resolve st.env.heap st.tab ≠ .ub ∧ st.tab.assign d (e.resolve st.env.heap st.tab) (d.attrVal (e.resolve st.env.heap st.tab)) = some st'.tab ∧
    st'.deps = st.deps.filter (·.1 ≠ d) ∧ st'.env = st.env ∧ st'.sps = st.sps := by
  unfold SymSt.fire at h
  split at h
  · cases h
  · rename_i hu
    rw [Option.map_eq_some_iff] at h
    obtain ⟨T, hT, rfl⟩ := h
    exact ⟨hu, hT, rfl, rfl, rfl⟩

theorem fire_shorter {st st' : SymSt} {d : Dep} {e : MExpr} (hm : (d, e) ∈ st.deps) (h : st.fire d e = some st') : st'.deps.length < st.deps.length := by
  rw [(fire_some h).2.2.1]
  exact List.length_filter_lt_length_iff_exists.2 ⟨(d, e), hm, by simp⟩

theorem fire_keyed {st st' : SymSt} {d : Dep} {e : MExpr} (hk : st.Keyed) (h : st.fire d e = some st') : st'.Keyed := by
  unfold SymSt.Keyed
  rw [(fire_some h).2.2.1]
  exact hk.sublist (List.filter_sublist.map _)

theorem keyed_unique {st : SymSt} (hk : st.Keyed) {d : Dep} {e e' : MExpr} (h : (d, e) ∈ st.deps) (h' : (d, e') ∈ st.deps) : e = e' := by
  unfold SymSt.Keyed at hk
  generalize st.deps = l at *
  induction l with
  | nil => simp at h
  | cons x l ih =>
    rw [List.map_cons, List.nodup_cons] at hk
    rw [List.mem_cons] at h h'
    rcases h with h | h <;> rcases h' with h' | h'
    · rw [← h] at h'; injection h' with _ h'; exact h'.symm
    · exact absurd (List.mem_map_of_mem (f := (·.1)) h') (by rw [← h] at hk; exact hk.1)
    · exact absurd (List.mem_map_of_mem (f := (·.1)) h) (by rw [← h'] at hk; exact hk.1)
    · exact ih hk.2 h h'

/-- C56: resolution always ends: a run has no more rounds than there are entries, and one always exists. -/
theorem C56_ends (st : SymSt) : ∃ o, Resolves st o := by
  induction hn : st.deps.length using Nat.strongRecOn generalizing st with
  | _ n ih =>
    by_cases h : ∃ d e, st.Ready d e
    · obtain ⟨d, e, hr⟩ := h
      cases hf : st.fire d e with
      | none => exact ⟨_, .crash hr hf⟩
      | some st' =>
        obtain ⟨o, ho⟩ := ih _ (hn ▸ fire_shorter hr.1 hf) st' rfl
        exact ⟨o, .step hr hf ho⟩
    · exact ⟨_, .stop (fun d e hr => h ⟨d, e, hr⟩)⟩

theorem set_comm {T : Table} {n m : SymId} {s t : Sym} (h : n ≠ m) : (T.set n s).set m t = (T.set m t).set n s := by
  funext x
  unfold Table.set
  by_cases h1 : x = m
  · by_cases h2 : x = n
    · exact absurd (h2.symm.trans h1) h
    · simp [h1, h2, Ne.symm h]
  · simp [h1]

theorem set_set {T : Table} {n : SymId} {s t : Sym} : (T.set n s).set n t = T.set n t := by
  funext x
  unfold Table.set
  by_cases h1 : x = n <;> simp [h1]

/-- How a target is assigned: the symbol it belongs to, what is required of it, and what it becomes. -/
def Dep.owner : Dep → Option SymId
  | .sym n => some n
  | .attr _ n => some n
  | .space _ => none

def Dep.may (d : Dep) (v : SVal) (s : Sym) : Bool := match d with
  | .sym _ => decide (v ≠ .undef ∧ s.val = .undef)
  | .attr .L _ => s.len.isNone
  | .attr .S _ => s.scale.isNone
  | _ => true

def Dep.put (d : Dep) (v : SVal) (av : Int) (s : Sym) : Sym := match d with
  | .sym _ => { s with val := v }
  | .attr .L _ => { s with len := toLen av }
  | .attr .S _ => { s with scale := toScale av }
  | _ => s

theorem assign_eq (T : Table) (d : Dep) (v : SVal) (av : Int) : T.assign d v av = match d.owner with
    | none => none
    | some n => match T n with
      | none => none
      | some s => if d.may v s then some (T.set n (d.put v av s)) else none := by
  unfold Table.assign Dep.owner Dep.may Dep.put
  cases d with
  | sym n =>
    cases hn : T n with
    | none => simp only [hn]
    | some s =>
      simp only [hn, decide_eq_true_eq]
      by_cases h : v = .undef ∨ s.val ≠ .undef
      · rw [if_pos h, if_neg (by rintro ⟨a, b⟩; exact h.elim a (fun c => c b))]
      · rw [if_neg h, if_pos ⟨fun c => h (.inl c), by
          by_cases hs : s.val = .undef
          · exact hs
          · exact absurd (.inr hs) h⟩]
  | attr k n =>
    cases k with
    | L => cases hn : T n with
      | none => simp only [hn]
      | some s => simp only [hn]; cases s.len <;> simp
    | S => cases hn : T n with
      | none => simp only [hn]
      | some s => simp only [hn]; cases s.scale <;> simp
    | T => cases hn : T n with
      | none => simp only [hn]; rfl
      | some s =>
        simp only [hn, if_true, Option.map_some]
        congr 1; funext x; unfold Table.set; split
        · rename_i h; rw [h, hn]
        · rfl
    | I => cases hn : T n with
      | none => simp only [hn]; rfl
      | some s =>
        simp only [hn, if_true, Option.map_some]
        congr 1; funext x; unfold Table.set; split
        · rename_i h; rw [h, hn]
        · rfl
    | other => cases hn : T n with
      | none => simp only [hn]; rfl
      | some s =>
        simp only [hn, if_true, Option.map_some]
        congr 1; funext x; unfold Table.set; split
        · rename_i h; rw [h, hn]
        · rfl
  | space s => rfl

theorem may_put {d d' : Dep} (h : d ≠ d') (ho : d.owner = d'.owner) (v v' : SVal) (av : Int) (s : Sym) : d'.may v' (d.put v av s) = d'.may v' s := by
  cases d with
  | space s => cases d' <;> simp [Dep.owner] at ho <;> rfl
  | sym n =>
    cases d' with
    | space s => simp [Dep.owner] at ho
    | sym m => simp [Dep.owner] at ho; exact absurd (congrArg Dep.sym ho) h
    | attr k m => cases k <;> rfl
  | attr k n =>
    cases d' with
    | space s => simp [Dep.owner] at ho
    | sym m => cases k <;> rfl
    | attr k' m =>
      have hm : n = m := by simpa [Dep.owner] using ho
      subst hm
      have hk : k ≠ k' := fun e => h (by rw [e])
      cases k <;> cases k' <;> first | rfl | exact absurd rfl hk

theorem put_comm {d d' : Dep} (h : d ≠ d') (ho : d.owner = d'.owner) (v v' : SVal) (av av' : Int) (s : Sym) :
    d'.put v' av' (d.put v av s) = d.put v av (d'.put v' av' s) := by
  cases d with
  | space s => cases d' <;> simp [Dep.owner] at ho <;> rfl
  | sym n =>
    cases d' with
    | space s => simp [Dep.owner] at ho
    | sym m => simp [Dep.owner] at ho; exact absurd (congrArg Dep.sym ho) h
    | attr k m => cases k <;> rfl
  | attr k n =>
    cases d' with
    | space s => simp [Dep.owner] at ho
    | sym m => cases k <;> rfl
    | attr k' m =>
      have hm : n = m := by simpa [Dep.owner] using ho
      subst hm
      have hk : k ≠ k' := fun e => h (by rw [e])
      cases k <;> cases k' <;> first | rfl | exact absurd rfl hk

/-- Assigning two different targets: whether the second succeeds and the result do not depend on the order. -/
theorem assign_comm {T T1 : Table} {d d' : Dep} {v v' : SVal} {av av' : Int} (hne : d ≠ d') (h : T.assign d v av = some T1) :
    (T.assign d' v' av' = none → T1.assign d' v' av' = none) ∧
    (∀ T2, T.assign d' v' av' = some T2 → ∃ T12, T1.assign d' v' av' = some T12 ∧ T2.assign d v av = some T12) := by
  rw [assign_eq] at h
  cases ho : d.owner with
  | none => simp [ho] at h
  | some n =>
    simp only [ho] at h
    cases hn : T n with
    | none => simp [hn] at h
    | some s =>
      simp only [hn] at h
      split at h
      · rename_i hmay
        injection h with h; subst h
        cases ho' : d'.owner with
        | none => constructor <;> (rw [assign_eq]; simp only [ho'])
                  · intro _; rw [assign_eq]; simp only [ho']
                  · intro T2 h; cases h
        | some m =>
          by_cases hmn : m = n
          · subst hmn
            have hoo : d.owner = d'.owner := ho.trans ho'.symm
            have e1 : (T.set m (d.put v av s)) m = some (d.put v av s) := by simp [Table.set]
            constructor
            · rw [assign_eq, assign_eq]
              simp only [ho', hn, e1, may_put hne hoo]
              split <;> simp
            · intro T2 h2
              rw [assign_eq] at h2
              simp only [ho', hn] at h2
              split at h2
              · rename_i hmay'
                injection h2 with h2; subst h2
                have e2 : (T.set m (d'.put v' av' s)) m = some (d'.put v' av' s) := by simp [Table.set]
                refine ⟨T.set m (d'.put v' av' (d.put v av s)), ?_, ?_⟩
                · rw [assign_eq]
                  simp only [ho', e1, may_put hne hoo, hmay', if_true, set_set]
                · rw [assign_eq]
                  simp only [ho, e2, may_put (Ne.symm hne) hoo.symm, hmay, if_true, set_set, put_comm hne hoo]
              · cases h2
          · have e1 : (T.set n (d.put v av s)) m = T m := by simp [Table.set, hmn]
            constructor
            · rw [assign_eq, assign_eq]
              simp only [ho', e1]
              cases T m with
              | none => simp
              | some t => simp only; split <;> simp
            · intro T2 h2
              rw [assign_eq] at h2
              simp only [ho'] at h2
              cases hm : T m with
              | none => simp [hm] at h2
              | some t =>
                simp only [hm] at h2
                split at h2
                · rename_i hmay'
                  injection h2 with h2; subst h2
                  have e2 : (T.set m (d'.put v' av' t)) n = some s := by simp [Table.set, Ne.symm hmn, hn]
                  refine ⟨(T.set n (d.put v av s)).set m (d'.put v' av' t), ?_, ?_⟩
                  · rw [assign_eq]; simp only [ho', e1, hm, hmay', if_true]
                  · rw [assign_eq]; simp only [ho, e2, hmay, if_true, set_comm hmn]
                · cases h2
      · cases h

/-- Firing two entries over known things: the order does not matter. -/
theorem fire_comm {st st1 : SymSt} {d d' : Dep} {e e' : MExpr} (hne : d ≠ d') (hc' : e'.Closed st.tab) (hc : e.Closed st.tab) (h : st.fire d e = some st1) :
    (st.fire d' e' = none → st1.fire d' e' = none) ∧ (∀ st2, st.fire d' e' = some st2 → ∃ st12, st1.fire d' e' = some st12 ∧ st2.fire d e = some st12) := by
  have hext := fire_ext h
  have hr : e'.resolve st1.env.heap st1.tab = e'.resolve st.env.heap st.tab := by
    unfold MExpr.resolve; rw [(fire_some h).2.2.2.1, (closed_ext (E := st.env) hext e' hc').1]
  obtain ⟨hu, hT, hd, he, hs⟩ := fire_some h
  constructor
  · intro h0
    unfold SymSt.fire at h0 ⊢
    rw [hr]
    split at h0
    · rename_i hub; rw [if_pos hub]
    · rename_i hub
      rw [if_neg hub]
      rw [Option.map_eq_none_iff] at h0 ⊢
      exact (assign_comm hne hT).1 h0
  · intro st2 h2
    have hext2 := fire_ext h2
    have hr2 : e.resolve st2.env.heap st2.tab = e.resolve st.env.heap st.tab := by
      unfold MExpr.resolve; rw [(fire_some h2).2.2.2.1, (closed_ext (E := st.env) hext2 e hc).1]
    obtain ⟨hu2, hT2, hd2, he2, hs2⟩ := fire_some h2
    obtain ⟨T12, a1, a2⟩ := (assign_comm hne hT).2 _ hT2
    refine ⟨{ env := st.env, tab := T12, deps := (st.deps.filter (·.1 ≠ d)).filter (·.1 ≠ d'), sps := st.sps }, ?_, ?_⟩
    · unfold SymSt.fire
      rw [hr, if_neg hu2, a1, he, hd, hs]; rfl
    · unfold SymSt.fire
      rw [hr2, if_neg hu, a2, he2, hd2, hs2]
      simp only [Option.map_some, Option.some.injEq, SymSt.mk.injEq, true_and, and_true]
      rw [List.filter_filter, List.filter_filter]
      congr 1; funext x; exact Bool.and_comm _ _

/-- The states resolution can pass through. -/
inductive Fires : SymSt → SymSt → Prop
  | refl (st) : Fires st st
  | step {st d e st' st''} : st.Ready d e → st.fire d e = some st' → Fires st' st'' → Fires st st''

/-- No entry that comes up for resolution has a product or quotient of an address as a right operand. -/
def SymSt.NoMix (st : SymSt) : Prop := ∀ st', Fires st st' → ∀ d e, st'.Ready d e → e.Quiet st'.env st'.tab

/-- C56 (partial): the outcome does not depend on the order in which ready entries are processed. Missing: expressions with a product or
quotient of addresses on the right of an operator, see `C56_witness_order`. -/
theorem C56_order_partial (st : SymSt) (hk : st.Keyed) (hm : st.NoMix) (o o' : Outcome SymSt) (h : Resolves st o) (h' : Resolves st o') : o = o' := by
  induction hn : st.deps.length using Nat.strongRecOn generalizing st o o' with
  | _ n ih =>
    have hclosed : ∀ d e, st.Ready d e → e.Closed st.tab := fun d e hr => closed_of_ready (hm st (.refl _) d e hr) hr.2
    have hready : ∀ {d e st1}, st.Ready d e → st.fire d e = some st1 → ∀ d' e', d' ≠ d → st.Ready d' e' → st1.Ready d' e' := by
      intro d e st1 hr hf d' e' hne hr'
      obtain ⟨_, _, hd, he, _⟩ := fire_some hf
      refine ⟨by rw [hd, List.mem_filter]; exact ⟨hr'.1, by simpa using hne⟩, ?_⟩
      rw [he, (closed_ext (E := st.env) (fire_ext hf) e' (hclosed d' e' hr')).2]
      exact hr'.2
    have next : ∀ {d e st1}, st.Ready d e → st.fire d e = some st1 → ∀ o o', Resolves st1 o → Resolves st1 o' → o = o' := by
      intro d e st1 hr hf o o' h1 h2
      exact ih _ (hn ▸ fire_shorter hr.1 hf) st1 (fire_keyed hk hf) (fun st' hfs => hm st' (.step hr hf hfs)) o o' h1 h2 rfl
    cases h with
    | stop hs =>
      cases h' with
      | stop => rfl
      | step hr' => exact absurd hr' (hs _ _)
      | crash hr' => exact absurd hr' (hs _ _)
    | @step _ d e st1 _ hr hf h1 =>
      cases h' with
      | stop hs => exact absurd hr (hs _ _)
      | @step _ d' e' st2 _ hr' hf' h2 =>
        by_cases hne : d = d'
        · subst hne
          rw [keyed_unique hk hr.1 hr'.1] at hf
          rw [hf] at hf'; injection hf' with hf'; subst hf'
          exact next hr' hf _ _ h1 h2
        · obtain ⟨st12, a1, a2⟩ := (fire_comm hne (hclosed _ _ hr') (hclosed _ _ hr) hf).2 _ hf'
          obtain ⟨o12, ho⟩ := C56_ends st12
          have e1 := next hr hf _ _ h1 (.step (hready hr hf d' e' (Ne.symm hne) hr') a1 ho)
          have e2 := next hr' hf' _ _ h2 (.step (hready hr' hf' d e hne hr) a2 ho)
          rw [e1, e2]
      | @crash _ d' e' hr' hf' =>
        by_cases hne : d = d'
        · subst hne
          rw [keyed_unique hk hr.1 hr'.1] at hf
          rw [hf] at hf'; cases hf'
        · have a1 := (fire_comm hne (hclosed _ _ hr') (hclosed _ _ hr) hf).1 hf'
          exact next hr hf _ _ h1 (.crash (hready hr hf d' e' (Ne.symm hne) hr') a1)
    | @crash _ d e hr hf =>
      cases h' with
      | stop hs => exact absurd hr (hs _ _)
      | @step _ d' e' st2 _ hr' hf' h2 =>
        by_cases hne : d = d'
        · subst hne
          rw [keyed_unique hk hr.1 hr'.1] at hf
          rw [hf] at hf'; cases hf'
        · have a1 := (fire_comm (Ne.symm hne) (hclosed _ _ hr) (hclosed _ _ hr') hf').1 hf
          exact next hr' hf' _ _ (.crash (hready hr' hf' d e hne hr) a1) h2
      | crash => rfl

end Verif.Ord
