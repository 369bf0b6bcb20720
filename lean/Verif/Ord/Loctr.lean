import Verif.Ord.LocCtrProps
import Verif.Ord.Org
import Mathlib.Data.List.Induction
/-!
C101: the location counters of a section (`LOCTR`; context/ordinary_assembly/section.cpp, ordinary_assembly_context.cpp).

One section. `ORG` is left out except for a witness. A counter is found by its name, in the code by a pointer to it.
-/
namespace Verif.Ord

/-- `section` (section.h 42-66): its counters with their names and the name of the current one. -/
structure Sect where
  counters : List (Nat × LC)
  cur : Nat
  deriving Repr

/-- The constructor (section.cpp 24-31). -/
def Sect.init (name : Nat) : Sect := ⟨[(name, LC.init)], name⟩

/-- A counter of the kind `NONSTARTING` (location_counter.cpp 40-41): its first space is the unknown start, here the gap named 0, which like
any gap has no alignment. The symbol defined by `LOCTR` gets the address behind it (ordinary_assembly_context.cpp 125-128). -/
def LC.nonstarting : LC := LC.init.gap 0 ⟨0, 1⟩

/-- The gaps of the program are numbered from 1 on in the counters, 0 is the start. -/
def bump : Ev → Ev
  | .gap name al => .gap (name + 1) al
  | ev => ev

/-- What happens to a section: a `LOCTR` statement, something in the current counter, something in the named counter (a length that becomes
known). -/
inductive SEv where
  | loctr (name : Nat)
  | here (ev : Ev)
  | at (name : Nat) (ev : Ev)
  deriving DecidableEq, Repr

/-- An event in one of the counters. -/
def Sect.touch (s : Sect) (name : Nat) (ev : Ev) : Sect :=
  { s with counters := s.counters.map fun x => if x.1 = name then (x.1, x.2.step (bump ev)) else x }

/-- `set_location_counter` (section.cpp 33-44). -/
def Sect.setCounter (s : Sect) (name : Nat) : Sect :=
  if name ∈ s.counters.map (·.1) then { s with cur := name } else ⟨s.counters ++ [(name, LC.nonstarting)], name⟩

/-- One event. -/
def Sect.step (s : Sect) : SEv → Sect
  | .loctr name => s.setCounter name
  | .here ev => s.touch s.cur ev
  | .at name ev => s.touch name ev

def Sect.run (s : Sect) (evs : List SEv) : Sect := evs.foldl Sect.step s

/-- `add_defined` (symbol_dependency_tables.cpp 125-157, 342) at the end, as far as it concerns one counter: the alignments are resolved. -/
def LC.settleAll (c : LC) : LC := c.run ((List.range c.spaces.length).map Ev.settle)

/-- The loop of `finish_module_layout` over the counters of one section, from the second on (ordinary_assembly_context.cpp 231-243), with
`finish_layout` (location_counter.cpp 187-200); `prev` is the counter before. -/
def finishFrom (prev : LC) : List (Nat × LC) → List (Nat × LC)
  | [] => []
  | (n, c) :: cs =>
    if prev.data.parts.isEmpty then
      (n, (c.step (.define 0 prev.data.storage)).settleAll) :: finishFrom (c.step (.define 0 prev.data.storage)).settleAll cs
    else (n, c) :: cs

/-- `end_processing` (ordinary_processor.cpp 106-110): resolving, then the layout of the counters. -/
def Sect.finish (s : Sect) : List (Nat × LC) := match s.counters with
  | [] => []
  | (n, c) :: cs => (n, c.settleAll) :: finishFrom c.settleAll cs

/-- The locations of all labels, counter by counter. -/
def locations (cs : List (Nat × LC)) : List Int := cs.flatMap fun x => x.2.log.map (·.offset x.2.heap)

/-! ### Specification: the program with the statements of each counter put together -/

/-- The counters in the order of their first `LOCTR`, the one of the section first. -/
def order : List Nat → List SEv → List Nat
  | ns, [] => ns
  | ns, .loctr n :: p => order (if n ∈ ns then ns else ns ++ [n]) p
  | ns, _ :: p => order ns p

/-- What stands in the counter `n` when `cur` is the current one; `known`: the counter exists already. -/
def items (n : Nat) : Bool → Nat → List SEv → List Ev
  | _, _, [] => []
  | known, _, .loctr m :: p => items n (known || m == n) m p
  | known, cur, .here ev :: p => (if cur = n then [ev] else []) ++ items n known cur p
  | known, cur, .at m ev :: p => (if m = n ∧ known then [ev] else []) ++ items n known cur p

/-- The statements of one counter; those of a further counter begin with the label of the `LOCTR`. -/
def group (first n : Nat) (p : List SEv) : List Ev := if n = first then items n true first p else .reserve 0 ⟨0, 1⟩ :: items n false first p

/-- The program with the statements put together. -/
def regroup (first : Nat) (p : List SEv) : List Ev := (order [first] p).flatMap fun n => group first n p

/-! ### Assumptions -/

/-- What happened to one counter. -/
def history (first n : Nat) (p : List SEv) : List Ev :=
  if n = first then (items n true first p).map bump else .gap 0 ⟨0, 1⟩ :: (items n false first p).map bump

/-- The lengths of the gaps, with that of the start. -/
def withStart (σ : Nat → Int) (start : Int) : Nat → Int
  | 0 => start
  | n + 1 => σ n

/-- The assumptions of C52 for every counter, and all gaps have got their lengths. -/
def AllOk (σ : Nat → Int) (first : Nat) (p : List SEv) : Int → List Nat → Prop
  | _, [] => True
  | start, n :: ns => OkEvs (withStart σ start) LC.init 0 (history first n p) ∧
    (∀ i name, kindOf (LC.init.run (history first n p)).spaces i = some (.ordinary name) → (n = first ∨ i ≠ 0) →
      lenOf (LC.init.run (history first n p)).spaces i ≠ none) ∧
    AllOk σ first p ((group first n p).foldl (posAfter σ) start) ns

/-! ### The counters of a section are independent -/

/-- The current counter after a program. -/
def curOf (cur : Nat) (p : List SEv) : Nat := p.foldl (fun c e => match e with
    | .loctr m => m
    | _ => c) cur

theorem items_append (n : Nat) (p : List SEv) (e : SEv) : ∀ known cur, items n known cur (p ++ [e]) =
    items n known cur p ++ items n (known || decide (.loctr n ∈ p)) (curOf cur p) [e] := by
  induction p with
  | nil => intro known cur; simp [curOf, items]
  | cons x p ih =>
    intro known cur
    cases x with
    | loctr m =>
      simp only [List.cons_append, items, ih, curOf, List.foldl_cons, List.mem_cons, SEv.loctr.injEq, Bool.or_assoc]
      congr 3
      by_cases hm : m = n
      · simp [hm]
      · simp [hm, Ne.symm hm]
    | here ev => simp [items, ih, curOf]
    | «at» m ev => simp [items, ih, curOf]

theorem order_append (p : List SEv) (e : SEv) : ∀ ns, order ns (p ++ [e]) = order (order ns p) [e] := by
  induction p with
  | nil => intro ns; rfl
  | cons x p ih => intro ns; cases x <;> simp [order, ih]

theorem order_mem (p : List SEv) : ∀ ns n, n ∈ ns → n ∈ order ns p := by
  induction p with
  | nil => intro ns n h; exact h
  | cons x p ih =>
    intro ns n h
    cases x with
    | loctr m => unfold order; exact ih _ n (by split <;> simp [h])
    | here _ => exact ih _ n h
    | «at» _ _ => exact ih _ n h

theorem order_iff (p : List SEv) : ∀ ns n, n ∈ order ns p ↔ n ∈ ns ∨ .loctr n ∈ p := by
  induction p with
  | nil => intro ns n; simp [order]
  | cons x p ih =>
    intro ns n
    cases x with
    | loctr m =>
      unfold order
      rw [ih]
      by_cases hm : m ∈ ns
      · rw [if_pos hm]; simp only [List.mem_cons, SEv.loctr.injEq]
        constructor
        · rintro (h | h) <;> simp [h]
        · rintro (h | rfl | h) <;> simp_all
      · rw [if_neg hm]; simp [or_assoc]
    | here _ => unfold order; rw [ih]; simp
    | «at» _ _ => unfold order; rw [ih]; simp

theorem run_snoc (c : LC) (evs : List Ev) (ev : Ev) : c.run (evs ++ [ev]) = (c.run evs).step ev := by simp [LC.run]

theorem history_snoc (first n : Nat) (p : List SEv) (e : SEv) :
    history first n (p ++ [e]) = history first n p ++ (items n (decide (n ∈ order [first] p)) (curOf first p) [e]).map bump := by
  have hk : ∀ b, (b = true ↔ n = first) → (b || decide (SEv.loctr n ∈ p)) = decide (n ∈ order [first] p) := by
    intro b hb
    have := order_iff p [first] n
    simp only [List.mem_singleton] at this
    by_cases hn : n = first
    · rw [hb.2 hn]; subst hn; simp [this]
    · have hf : b = false := by simpa [hn] using hb
      rw [hf]; simp [this, hn]
  unfold history
  split
  · rename_i hn
    rw [items_append, hk true (by simp [hn]), List.map_append]
  · rename_i hn
    rw [items_append, hk false (by simp [hn]), List.map_append, List.cons_append]

theorem sect_run (first : Nat) (p : List SEv) : ((Sect.init first).run p).cur = curOf first p ∧
    (∀ n, n ∉ order [first] p → items n false first p = []) ∧ curOf first p ∈ order [first] p ∧
    ((Sect.init first).run p).counters = (order [first] p).map fun n => (n, LC.init.run (history first n p)) := by
  induction p using List.reverseRecOn with
  | nil => exact ⟨rfl, fun n _ => rfl, by simp [curOf, order], by simp [Sect.run, Sect.init, order, history, items, LC.run]⟩
  | append_singleton p e ih =>
    obtain ⟨h1, h2, h3, h4⟩ := ih
    have hrun : (Sect.init first).run (p ++ [e]) = ((Sect.init first).run p).step e := by simp [Sect.run]
    have hfirst : first ∈ order [first] p := (order_iff p _ _).2 (by simp)
    have hnot : ∀ n, n ∉ order [first] p → SEv.loctr n ∉ p := fun n hn h => hn ((order_iff p _ _).2 (.inr h))
    have touch : ∀ m ev, m ∈ order [first] p → (((Sect.init first).run p).touch m ev).counters =
        (order [first] p).map fun n => (n, if n = m then LC.init.run (history first n p ++ [bump ev]) else LC.init.run (history first n p)) := by
      intro m ev _
      show (((Sect.init first).run p).counters.map fun x => if x.1 = m then (x.1, x.2.step (bump ev)) else x) = _
      rw [h4, List.map_map]
      apply List.map_congr_left
      intro n _
      show (if n = m then _ else _) = _
      by_cases hn : n = m
      · rw [if_pos hn, if_pos hn, run_snoc]
      · rw [if_neg hn, if_neg hn]
    rw [hrun]
    cases e with
    | loctr m =>
      have hc : curOf first (p ++ [.loctr m]) = m := by simp [curOf]
      have ho : order [first] (p ++ [.loctr m]) = if m ∈ order [first] p then order [first] p else order [first] p ++ [m] := by
        rw [order_append]; rfl
      have hh : ∀ n, history first n (p ++ [.loctr m]) = history first n p := fun n => by rw [history_snoc]; simp [items]
      have hnames : ((Sect.init first).run p).counters.map (·.1) = order [first] p := by rw [h4, List.map_map]; exact List.map_id _
      have hi : ∀ n, items n false first (p ++ [.loctr m]) = items n false first p := fun n => by rw [items_append]; simp [items]
      show (((Sect.init first).run p).setCounter m).cur = _ ∧ _ ∧ _ ∧ (((Sect.init first).run p).setCounter m).counters = _
      unfold Sect.setCounter
      rw [hnames, hc, ho]
      by_cases hm : m ∈ order [first] p
      · rw [if_pos hm, if_pos hm]
        refine ⟨rfl, fun n hn => by rw [hi]; exact h2 n hn, hm, ?_⟩
        show ((Sect.init first).run p).counters = _
        rw [h4]
        simp only [hh]
      · rw [if_neg hm, if_neg hm]
        refine ⟨rfl, fun n hn => by rw [hi]; exact h2 n (fun h => hn (List.mem_append_left _ h)), by simp, ?_⟩
        show ((Sect.init first).run p).counters ++ [(m, LC.nonstarting)] = _
        rw [h4, List.map_append]
        simp only [hh]
        congr 1
        have hmf : m ≠ first := fun h => hm (h ▸ hfirst)
        have : history first m p = [.gap 0 ⟨0, 1⟩] := by
          unfold history; rw [if_neg hmf, h2 m hm]; rfl
        simp only [List.map_cons, List.map_nil, this]
        rfl
    | here ev =>
      have hc : curOf first (p ++ [.here ev]) = curOf first p := by simp [curOf]
      have ho : order [first] (p ++ [.here ev]) = order [first] p := by rw [order_append]; rfl
      rw [hc, ho]
      refine ⟨h1, ?_, h3, ?_⟩
      · intro n hn
        rw [items_append, h2 n hn]
        have : curOf first p ≠ n := fun h => hn (h ▸ h3)
        simp [items, this]
      · show (((Sect.init first).run p).touch ((Sect.init first).run p).cur ev).counters = _
        rw [h1, touch _ _ h3]
        apply List.map_congr_left
        intro n _
        rw [history_snoc]
        by_cases hn : n = curOf first p
        · rw [if_pos hn]; simp [items, ← hn]
        · rw [if_neg hn]; simp [items, Ne.symm hn]
    | «at» m ev =>
      have hc : curOf first (p ++ [.at m ev]) = curOf first p := by simp [curOf]
      have ho : order [first] (p ++ [.at m ev]) = order [first] p := by rw [order_append]; rfl
      rw [hc, ho]
      refine ⟨h1, ?_, h3, ?_⟩
      · intro n hn
        rw [items_append, h2 n hn]
        simp [items, hnot n hn]
      · show (((Sect.init first).run p).touch m ev).counters = _
        by_cases hm : m ∈ order [first] p
        · rw [touch _ _ hm]
          apply List.map_congr_left
          intro n hn'
          rw [history_snoc]
          by_cases hn : n = m
          · rw [if_pos hn]; simp [items, ← hn, hn']
          · rw [if_neg hn]; simp [items, Ne.symm hn]
        · show (((Sect.init first).run p).counters.map fun x => if x.1 = m then (x.1, x.2.step (bump ev)) else x) = _
          rw [h4, List.map_map]
          apply List.map_congr_left
          intro n hn'
          have hn : n ≠ m := fun h => hm (h ▸ hn')
          show (if n = m then _ else _) = _
          rw [if_neg hn, history_snoc]
          simp [items, Ne.symm hn]

/-! ### The layout of one counter -/

theorem posAfter_bump (σ : Nat → Int) (start p : Int) (ev : Ev) : posAfter (withStart σ start) p (bump ev) = posAfter σ p ev := by
  cases ev <;> rfl

theorem isStmt_bump (ev : Ev) : (bump ev).isStmt = ev.isStmt := by cases ev <;> rfl

theorem layout_bump (σ : Nat → Int) (start : Int) (evs : List Ev) : ∀ p, layout (withStart σ start) p (evs.map bump) = layout σ p evs := by
  induction evs with
  | nil => intro p; rfl
  | cons ev evs ih => intro p; simp only [List.map_cons, layout, posAfter_bump, isStmt_bump, ih]

theorem foldl_bump (σ : Nat → Int) (start : Int) (evs : List Ev) : ∀ p, (evs.map bump).foldl (posAfter (withStart σ start)) p = evs.foldl (posAfter σ) p := by
  induction evs with
  | nil => intro p; rfl
  | cons ev evs ih => intro p; simp only [List.map_cons, List.foldl_cons, posAfter_bump, ih]

theorem layout_append (σ : Nat → Int) (l r : List Ev) : ∀ p, layout σ p (l ++ r) = layout σ p l ++ layout σ (l.foldl (posAfter σ) p) r := by
  induction l with
  | nil => intro p; rfl
  | cons ev l ih => intro p; simp [layout, ih]

theorem okEvs_append (σ : Nat → Int) (l r : List Ev) : ∀ c p, OkEvs σ c p l → OkEvs σ (c.run l) (l.foldl (posAfter σ) p) r → OkEvs σ c p (l ++ r) := by
  induction l with
  | nil => intro c p _ h; exact h
  | cons ev l ih => intro c p h1 h2; exact ⟨h1.1, ih _ _ h1.2 h2⟩

theorem okEvs_settle (σ : Nat → Int) (l : List Nat) : ∀ c p, OkEvs σ c p (l.map Ev.settle) := by
  induction l with
  | nil => intro c p; trivial
  | cons i l ih => intro c p; exact ⟨trivial, ih _ _⟩

theorem foldl_settle (σ : Nat → Int) (l : List Nat) (p : Int) : (l.map Ev.settle).foldl (posAfter σ) p = p := by
  induction l with
  | nil => rfl
  | cons i l ih => exact ih

theorem layout_settle (σ : Nat → Int) (l : List Nat) (p : Int) : layout σ p (l.map Ev.settle) = [] := by
  induction l with
  | nil => rfl
  | cons i l ih => simpa [layout, Ev.isStmt, posAfter] using ih

/-- A counter all of whose gaps have lengths: after resolving the alignments it has no open spaces, and its labels are where they should be. -/
theorem counter_done (σ : Nat → Int) (evs : List Ev) (hok : OkEvs σ LC.init 0 evs)
    (hdef : ∀ i name, kindOf (LC.init.run evs).spaces i = some (.ordinary name) → lenOf (LC.init.run evs).spaces i ≠ none) :
    (LC.init.run evs).settleAll.data.parts = [] ∧ (LC.init.run evs).settleAll.data.storage = evs.foldl (posAfter σ) 0 ∧
    (LC.init.run evs).settleAll.log.map (·.offset (LC.init.run evs).settleAll.heap) = layout σ 0 evs := by
  have hr := C52_all_resolved σ evs hok hdef
  have hrun : (LC.init.run evs).settleAll = LC.init.run (evs ++ (List.range (LC.init.run evs).spaces.length).map Ev.settle) := by
    unfold LC.settleAll LC.run; rw [List.foldl_append]
  have hok' : OkEvs σ LC.init 0 (evs ++ (List.range (LC.init.run evs).spaces.length).map Ev.settle) :=
    okEvs_append σ _ _ _ _ hok (okEvs_settle σ _ _ _)
  generalize hL : evs ++ (List.range (LC.init.run evs).spaces.length).map Ev.settle = L at hrun hok'
  have hfold : L.foldl (posAfter σ) 0 = evs.foldl (posAfter σ) 0 := by rw [← hL, List.foldl_append, foldl_settle]
  have hlay : layout σ 0 L = layout σ 0 evs := by rw [← hL, layout_append, layout_settle, List.append_nil]
  obtain ⟨w, h⟩ := inv_run σ L (inv_init σ) hok'
  change (∀ i, i < (LC.init.run evs).settleAll.spaces.length → lenOf (LC.init.run evs).settleAll.spaces i ≠ none) ∧ _ at hr
  rw [hrun] at hr ⊢
  have hparts : (LC.init.run L).data.parts = [] := by
    cases hp : (LC.init.run L).data.parts with
    | nil => rfl
    | cons e l =>
      have hm : e.1 ∈ (LC.init.run L).data.parts.map (·.1) := by rw [hp]; simp
      exact absurd (h.unres e.1 hm) (hr.1 e.1 (h.lt e.1 hm))
  refine ⟨hparts, ?_, ?_⟩
  · rw [C52_storage_partial σ L hok' hparts, hfold]
  · obtain ⟨hlen, hat⟩ := C52_layout_partial σ L hok'
    rw [← hlay]
    apply List.ext_getElem?
    intro n
    rw [List.getElem?_map]
    cases ha : (LC.init.run L).log[n]? with
    | none =>
      have : (layout σ 0 L)[n]? = none := by
        rw [List.getElem?_eq_none_iff] at ha ⊢; omega
      rw [this]; rfl
    | some a =>
      have hn : n < (layout σ 0 L).length := hlen ▸ (List.getElem?_eq_some_iff.1 ha).1
      have hq := List.getElem?_eq_getElem hn
      rw [hq]
      show some (a.offset (LC.init.run L).heap) = some _
      rw [hat n a _ ha hq]
      intro e he
      have hlt := (List.forall₂_iff_get.1 h.log).2 n (List.getElem?_eq_some_iff.1 ha).1 (h.log.length_eq ▸ (List.getElem?_eq_some_iff.1 ha).1)
      have ea : (LC.init.run L).log.get ⟨n, (List.getElem?_eq_some_iff.1 ha).1⟩ = a := by
        have := (List.getElem?_eq_some_iff.1 ha).2; simpa using this
      rw [ea] at hlt
      exact Option.isSome_iff_ne_none.2 (hr.1 e.1 (hlt.2 e.1 (List.mem_map_of_mem he)))

theorem kind_register (c : LC) (al : Al) (k : SpKind) (j : SpId) (hj : j < c.spaces.length) : kindOf (c.register al k).spaces j = kindOf c.spaces j := by
  show kindOf (c.spaces ++ [_]) j = _
  rw [kindOf_append, if_neg (Nat.ne_of_lt hj)]

theorem kind_step (c : LC) (ev : Ev) (j : SpId) (hj : j < c.spaces.length) :
    kindOf (c.step ev).spaces j = kindOf c.spaces j ∧ c.spaces.length ≤ (c.step ev).spaces.length := by
  cases ev with
  | reserve len al =>
    have : (c.step (.reserve len al)).spaces = (c.alignTo al).spaces := rfl
    rw [this]
    unfold LC.alignTo
    split
    · exact ⟨rfl, Nat.le_refl _⟩
    · split
      · exact ⟨kind_register _ _ _ _ hj, by simp [LC.register]⟩
      · exact ⟨rfl, Nat.le_refl _⟩
  | gap name al => exact ⟨kind_register c al _ _ hj, by simp [LC.step, LC.gap, LC.register]⟩
  | define i len =>
    unfold LC.step
    dsimp only
    split
    · exact ⟨lookup_setLen_kind _ _ _ _, by rw [length_setLen]⟩
    · exact ⟨rfl, Nat.le_refl _⟩
  | settle i =>
    have := step_settle c i j
    exact ⟨this.1, by rw [this.2.1]⟩

theorem kind_run (evs : List Ev) (j : SpId) : ∀ c : LC, j < c.spaces.length → kindOf (c.run evs).spaces j = kindOf c.spaces j ∧ j < (c.run evs).spaces.length := by
  induction evs with
  | nil => intro c hj; exact ⟨rfl, hj⟩
  | cons ev evs ih =>
    intro c hj
    have h1 := kind_step c ev j hj
    have h2 := ih (c.step ev) (Nat.lt_of_lt_of_le hj h1.2)
    exact ⟨h2.1.trans h1.1, h2.2⟩

theorem alignUp_one (p : Int) : alignUp ⟨0, 1⟩ p = p := by simp [alignUp, Int.emod_one]

/-- The first space of a further counter. -/
theorem start_kind (first n : Nat) (p : List SEv) (hn : n ≠ first) :
    kindOf (LC.init.run (history first n p)).spaces 0 = some (.ordinary 0) ∧ 0 < (LC.init.run (history first n p)).spaces.length := by
  unfold history
  rw [if_neg hn]
  have := kind_run ((items n false first p).map bump) 0 LC.nonstarting (by decide)
  exact ⟨this.1.trans (by decide), this.2⟩

theorem step_define {c : LC} {name : Nat} (h : kindOf c.spaces 0 = some (.ordinary name)) (len : Int) : c.step (.define 0 len) = c.setLen 0 len := by
  unfold kindOf at h
  cases hs : c.spaces[0]? with
  | none => rw [hs] at h; cases h
  | some s =>
    obtain ⟨al, k, l⟩ := s
    rw [hs] at h
    have hk : k = .ordinary name := by simpa using h
    subst hk
    unfold LC.step
    dsimp only
    rw [hs]

/-- A further counter whose start has become known. -/
theorem further_done (σ : Nat → Int) (first n : Nat) (p : List SEv) (start : Int) (hn : n ≠ first)
    (hok : OkEvs (withStart σ start) LC.init 0 (history first n p))
    (hdef : ∀ i name, kindOf (LC.init.run (history first n p)).spaces i = some (.ordinary name) → (n = first ∨ i ≠ 0) →
      lenOf (LC.init.run (history first n p)).spaces i ≠ none) :
    let c := ((LC.init.run (history first n p)).step (.define 0 start)).settleAll
    c.data.parts = [] ∧ c.data.storage = (group first n p).foldl (posAfter σ) start ∧ c.log.map (·.offset c.heap) = layout σ start (group first n p) := by
  obtain ⟨hk, hlt⟩ := start_kind first n p hn
  have hrun : (LC.init.run (history first n p)).step (.define 0 start) = LC.init.run (history first n p ++ [.define 0 start]) := (run_snoc _ _ _).symm
  have hsd := step_define hk start
  have hok' : OkEvs (withStart σ start) LC.init 0 (history first n p ++ [.define 0 start]) := by
    refine okEvs_append _ _ _ _ _ hok ⟨?_, trivial⟩
    intro s name hs hkind
    unfold kindOf at hk
    rw [hs] at hk
    have : SpKind.ordinary name = .ordinary 0 := by rw [← hkind]; simpa using hk
    cases this
    rfl
  have hdef' : ∀ i name, kindOf (LC.init.run (history first n p ++ [.define 0 start])).spaces i = some (.ordinary name) →
      lenOf (LC.init.run (history first n p ++ [.define 0 start])).spaces i ≠ none := by
    intro i name hi
    rw [← hrun, hsd] at hi ⊢
    rw [lookup_setLen_kind] at hi
    by_cases h0 : i = 0
    · subst h0; exact len_setLen_self _ _ _ hlt
    · exact len_setLen _ _ _ _ (hdef i name hi (.inr h0))
  obtain ⟨d1, d2, d3⟩ := counter_done _ _ hok' hdef'
  intro c
  have hc : c = (LC.init.run (history first n p ++ [.define 0 start])).settleAll := by show LC.settleAll _ = _; rw [hrun]
  rw [hc]
  have hfold : (history first n p ++ [Ev.define 0 start]).foldl (posAfter (withStart σ start)) 0 = (group first n p).foldl (posAfter σ) start := by
    rw [List.foldl_append]
    unfold history group
    rw [if_neg hn, if_neg hn]
    show List.foldl _ (0 + start) _ = List.foldl _ (alignUp ⟨0, 1⟩ start + (0 : Nat)) _
    rw [foldl_bump, alignUp_one]; simp
  have hlay : layout (withStart σ start) 0 (history first n p ++ [.define 0 start]) = layout σ start (group first n p) := by
    rw [layout_append]
    unfold history group
    rw [if_neg hn, if_neg hn]
    show [0 + start] ++ layout _ (0 + start) _ ++ [] = [alignUp ⟨0, 1⟩ start + (0 : Nat)] ++ layout σ (alignUp ⟨0, 1⟩ start + (0 : Nat)) _
    rw [layout_bump, alignUp_one]; simp
  exact ⟨d1, d2.trans hfold, d3.trans hlay⟩

theorem finish_rest (σ : Nat → Int) (first : Nat) (p : List SEv) (ns : List Nat) : ∀ (start : Int) (prev : LC), first ∉ ns → prev.data.parts = [] →
    prev.data.storage = start → AllOk σ first p start ns →
    locations (finishFrom prev (ns.map fun n => (n, LC.init.run (history first n p)))) = layout σ start (ns.flatMap fun n => group first n p) := by
  induction ns with
  | nil => intro _ _ _ _ _ _; rfl
  | cons n ns ih =>
    intro start prev hf hp hs hok
    have hn : n ≠ first := fun h => hf (by simp [h])
    obtain ⟨k1, k2, k3⟩ := further_done σ first n p start hn hok.1 hok.2.1
    rw [List.map_cons]
    unfold finishFrom
    rw [if_pos (by rw [hp]; rfl), hs]
    have := ih _ _ (fun h => hf (List.mem_cons_of_mem _ h)) k1 k2 hok.2.2
    unfold locations at this ⊢
    rw [List.flatMap_cons, this, k3, List.flatMap_cons, layout_append]

theorem order_cons (p : List SEv) : ∀ n ns, ∃ r, order (n :: ns) p = n :: r ∧ (n ∉ ns → n ∉ r) := by
  induction p with
  | nil => intro n ns; exact ⟨ns, rfl, id⟩
  | cons x p ih =>
    intro n ns
    cases x with
    | loctr m =>
      unfold order
      by_cases hm : m ∈ n :: ns
      · rw [if_pos hm]; exact ih n ns
      · rw [if_neg hm]
        obtain ⟨r, e, h⟩ := ih n (ns ++ [m])
        refine ⟨r, e, fun hn => h ?_⟩
        simp only [List.mem_append, List.mem_singleton, not_or]
        exact ⟨hn, fun he => hm (by simp [he])⟩
    | here _ => exact ih n ns
    | «at» _ _ => exact ih n ns

/-! ### C101 -/

/-- C101 (partial): with `LOCTR` every label is where it would be had the statements of each counter been written together, the counters in
the order of their first `LOCTR`. Missing: the cases C52 leaves out, gaps that never get a length, `ORG` (`C101_witness_org`), several
sections (`C101_witness_pending`). -/
theorem C101_layout_partial (σ : Nat → Int) (first : Nat) (p : List SEv) (hok : AllOk σ first p 0 (order [first] p)) :
    locations ((Sect.init first).run p).finish = layout σ 0 (regroup first p) := by
  obtain ⟨_, _, _, h4⟩ := sect_run first p
  obtain ⟨r, e, hr⟩ := order_cons p first []
  unfold Sect.finish regroup
  rw [h4, e]
  rw [e] at hok
  have hh : history first first p = (items first true first p).map bump := by unfold history; rw [if_pos rfl]
  have hg : group first first p = items first true first p := by unfold group; rw [if_pos rfl]
  obtain ⟨d1, d2, d3⟩ := counter_done _ _ hok.1 (fun i name hk => hok.2.1 i name hk (.inl rfl))
  have hd2 : (LC.init.run (history first first p)).settleAll.data.storage = (group first first p).foldl (posAfter σ) 0 := by
    rw [d2, hh, hg, foldl_bump]
  have hd3 : (LC.init.run (history first first p)).settleAll.log.map (·.offset (LC.init.run (history first first p)).settleAll.heap) = layout σ 0 (group first first p) := by
    rw [d3, hh, hg, layout_bump]
  have hrest := finish_rest σ first p r _ _ (hr (by simp)) d1 hd2 hok.2.2
  rw [List.map_cons]
  dsimp only
  unfold locations at hrest ⊢
  rw [List.flatMap_cons, hrest, hd3, List.flatMap_cons, layout_append]

/-- `storage()` of a counter (location_counter.cpp 27), with which the next one begins (ordinary_assembly_context.cpp 239). -/
def OCtr.endOf (c : OCtr) : Int := c.cur.storage

/-- Violation: `DS 10C`, `ORG A+2`, `B LOCTR`: the counter `B` begins at 2, inside what the first one has reserved. -/
theorem C101_witness_org : ∃ c, OCtr.init.run [.reserve 10 ⟨0, 1⟩, .org 2 0 0] = .ok c ∧ c.endOf = 2 ∧
    ∃ c', c.orgHighest 0 0 = .ok c' ∧ c'.cur.storage = 10 := ⟨_, rfl, rfl, _, rfl, rfl⟩

/-- `finish_module_layout` (ordinary_assembly_context.cpp 227-245) over several sections: the first counter with open spaces that has a
successor ends the function, not only the loop over its section. -/
def finishModule : List (List (Nat × LC)) → List (List (Nat × LC))
  | [] => []
  | [] :: ss => [] :: finishModule ss
  | ((n, c) :: cs) :: ss =>
    ((n, c) :: finishFrom c cs) :: (if ((c :: (finishFrom c cs).map (·.2)).dropLast).all (·.data.parts.isEmpty) then finishModule ss else ss)

/-- A section with two counters, the second aligned and with a label at 4 behind its start. -/
def laterSect : Sect := (Sect.init 3).run [.here (.reserve 8 ⟨0, 1⟩), .loctr 4, .here (.reserve 4 ⟨0, 1⟩)]

/-- Violation: a gap of unknown length in the first section keeps the counters of every later section from being placed: the label expected at
12 stays without a location. -/
theorem C101_witness_pending :
    (finishModule [laterSect.counters]).map locations = [[8, 8, 12]] ∧
    ∃ s, s = (Sect.init 1).run [.here (.gap 0 ⟨0, 1⟩), .loctr 2] ∧
      (finishModule [s.counters, laterSect.counters]).map locations = [[0, 0], [8, 0, 4]] :=
  ⟨by decide +kernel, _, rfl, by decide +kernel⟩

/-- Non-vacuity: `DS 3C`, `B LOCTR`, `DS (X)C`, `A LOCTR`, `DS F`, `B LOCTR`, `DS D`, `X EQU 5`. -/
def loctrProg : List SEv := [.here (.reserve 3 ⟨0, 1⟩), .loctr 2, .here (.gap 0 ⟨0, 1⟩), .loctr 1, .here (.reserve 4 ⟨0, 4⟩), .loctr 2,
  .here (.reserve 8 ⟨0, 8⟩), .at 2 (.define 1 5)]

example : locations ((Sect.init 1).run loctrProg).finish = [3, 8, 8, 13, 24] ∧ layout (fun _ => 5) 0 (regroup 1 loctrProg) = [3, 8, 8, 13, 24] ∧
    AllOk (fun _ => 5) 1 loctrProg 0 (order [1] loctrProg) := by
  refine ⟨by decide +kernel, by decide +kernel, ?_⟩
  have p0 : Pow ⟨0, 1⟩ := ⟨0, by omega, rfl⟩
  have p2 : Pow ⟨0, 4⟩ := ⟨2, by omega, rfl⟩
  have p3 : Pow ⟨0, 8⟩ := ⟨3, by omega, rfl⟩
  refine ⟨⟨⟨p0, by decide, .inl rfl⟩, ⟨p2, by decide, .inl rfl⟩, trivial⟩, ?_, ⟨⟨p0, rfl, by decide +kernel⟩, ⟨p0, rfl, by decide +kernel⟩, ⟨p3, by decide, .inl rfl⟩, ?_, trivial⟩, ?_, trivial⟩
  · intro i name h _
    have hl : (LC.init.run (history 1 1 loctrProg)).spaces = [] := by decide +kernel
    rw [hl] at h; simp [kindOf] at h
  · intro s name h1 h2
    have : s.kind = .ordinary 1 := by
      have e : (s.kind) = ((((((LC.init.step (.gap 0 ⟨0, 1⟩)).step (bump (.gap 0 ⟨0, 1⟩))).step (bump (.reserve 8 ⟨0, 8⟩))).spaces[1]?).map (·.kind)).getD (.ordinary 9)) := by rw [h1]; rfl
      rw [e]; decide +kernel
    rw [this] at h2; cases h2; rfl
  · intro i name h hi
    have hi0 : i ≠ 0 := hi.resolve_left (by decide)
    have hlen : (LC.init.run (history 1 2 loctrProg)).spaces.length = 3 := by decide +kernel
    have hlt := kind_lt h
    rw [hlen] at hlt
    have : i = 1 ∨ i = 2 := (by omega : ∀ k : Nat, k < 3 → k ≠ 0 → k = 1 ∨ k = 2) i hlt hi0
    rcases this with rfl | rfl
    · decide +kernel
    · have : kindOf (LC.init.run (history 1 2 loctrProg)).spaces 2 ≠ some (.ordinary name) := by
        have e : (kindOf (LC.init.run (history 1 2 loctrProg)).spaces 2).map (fun k => match k with
          | .ordinary _ => true
          | _ => false) = some false := by decide +kernel
        intro h; rw [h] at e; cases e
      exact absurd h this

end Verif.Ord
