import Verif.Context.Vars
/-! C31, C32, C33: SET symbols, scopes, `&SYSNDX`. -/
namespace Verif.Context

/-! ### The sparse array -/

theorem dataFind_set (d : List (Nat × Val)) (i j : Nat) (v : Val) :
    dataFind (dataSet d i v) j = if j = i then some v else dataFind d j := by
  unfold dataFind dataSet
  rw [List.find?_cons]
  by_cases e : i = j
  · simp [e]
  · have e' : ¬ j = i := fun h => e h.symm
    simp only [e, decide_false, e', if_false]
    rw [List.find?_filter]
    congr 2
    funext p
    by_cases h : p.1 = j
    · simp [h, e']
    · simp [h]

theorem assign_shape (vs : List Val) : ∀ (sym : SetSym) (base : Nat),
    (sym.assign base vs).scalar = sym.scalar ∧ (sym.assign base vs).ty = sym.ty ∧ (sym.assign base vs).owner = sym.owner := by
  induction vs with
  | nil => intro sym base; exact ⟨rfl, rfl, rfl⟩
  | cons v vs ih => intro sym base; exact ih _ _

theorem assign_find (vs : List Val) : ∀ (sym : SetSym) (base i : Nat), sym.scalar = false →
    dataFind (sym.assign base vs).data i =
      if base ≤ i ∧ i < base + vs.length then vs[i - base]? else dataFind sym.data i := by
  induction vs with
  | nil => intro sym base i _; simp [SetSym.assign]; omega
  | cons v vs ih =>
    intro sym base i hs
    rw [SetSym.assign, ih _ _ _ (by exact hs)]
    simp only [SetSym.setAt, hs, Bool.false_eq_true, if_false, dataFind_set, List.length_cons]
    by_cases h1 : base + 1 ≤ i ∧ i < base + 1 + vs.length
    · have h2 : base ≤ i ∧ i < base + (vs.length + 1) := by omega
      rw [if_pos h1, if_pos h2]
      have : i - base = (i - (base + 1)) + 1 := by omega
      rw [this, List.getElem?_cons_succ]
    · rw [if_neg h1]
      by_cases h3 : i = base
      · subst h3; simp
      · have h2 : ¬ (base ≤ i ∧ i < base + (vs.length + 1)) := by omega
        rw [if_neg h2, if_neg h3]

/-- The elements of a SET array after a history of assignments `(subscript, value)`, oldest first. -/
def element (default : Val) (hist : List (Nat × Val)) (i : Nat) : Val :=
  match hist.reverse.find? (·.1 = i) with
  | some p => p.2
  | none => default

/-- C31: element `i` of an array holds the value most recently assigned to it, or the default value of its type. -/
theorem C31_last_assigned (ty : Ty) (owner : Option (Nat × Name)) (hist : List (Nat × Val)) (i : Nat) :
    (hist.foldl (fun (s : SetSym) p => s.setAt p.2 p.1) { scalar := false, ty := ty, owner := owner }).getAt i =
      element ty.default hist i := by
  have key : ∀ (hist : List (Nat × Val)) (s : SetSym), s.scalar = false →
      let s' := hist.foldl (fun (s : SetSym) p => s.setAt p.2 p.1) s
      s'.scalar = false ∧ s'.ty = s.ty ∧ dataFind s'.data i = match hist.reverse.find? (·.1 = i) with
        | some p => some p.2
        | none => dataFind s.data i := by
    intro hist
    induction hist with
    | nil => intro s h; exact ⟨h, rfl, rfl⟩
    | cons p hist ih =>
      intro s h
      obtain ⟨h1, h2, h3⟩ := ih (s.setAt p.2 p.1) h
      refine ⟨h1, h2, ?_⟩
      rw [List.foldl_cons, h3, List.reverse_cons, List.find?_append]
      cases hf : hist.reverse.find? (·.1 = i) with
      | some q => simp
      | none =>
        simp only [SetSym.setAt, h, Bool.false_eq_true, if_false, dataFind_set, Option.none_or, List.find?_cons]
        by_cases e : p.1 = i
        · simp [e]
        · have e' : ¬ i = p.1 := fun h => e h.symm
          simp [e, e']
  obtain ⟨h1, h2, h3⟩ := key hist { scalar := false, ty := ty, owner := owner } rfl
  unfold SetSym.getAt element
  rw [h1, h2, h3]
  cases hist.reverse.find? (·.1 = i) with
  | some p => rfl
  | none => rfl

theorem foldl_max_ge (l : List Nat) : ∀ m, m ≤ l.foldl max m ∧ ∀ x ∈ l, x ≤ l.foldl max m := by
  induction l with
  | nil => intro m; simp
  | cons a l ih =>
    intro m
    obtain ⟨h1, h2⟩ := ih (max m a)
    rw [List.foldl_cons]
    refine ⟨by omega, ?_⟩
    intro x hx
    rw [List.mem_cons] at hx
    rcases hx with rfl | hx
    · omega
    · exact h2 x hx

theorem foldl_max_mem (l : List Nat) : ∀ m, l.foldl max m = m ∨ l.foldl max m ∈ l := by
  induction l with
  | nil => intro m; simp
  | cons a l ih =>
    intro m
    rw [List.foldl_cons]
    rcases ih (max m a) with h | h
    · rcases Nat.le_total m a with hma | hma
      · right; rw [h, Nat.max_eq_right hma]; simp
      · left; rw [h, Nat.max_eq_left hma]
    · right; simp [h]

theorem dataFind_isSome (d : List (Nat × Val)) (i : Nat) : (dataFind d i).isSome = true ↔ i ∈ d.map (·.1) := by
  unfold dataFind
  rw [Option.isSome_map, List.find?_isSome, List.mem_map]
  constructor
  · rintro ⟨x, hx, h⟩; exact ⟨x, hx, by simpa using h⟩
  · rintro ⟨x, hx, h⟩; exact ⟨x, hx, by simpa using h⟩

/-- C31: N' of an array is the highest subscript (counted from one) that has been assigned, 0 if there is none, as long as it
fits a 32-bit number. -/
theorem C31_number (sym : SetSym) (hs : sym.scalar = false) (hfit : ∀ i, (dataFind sym.data i).isSome → i + 1 < 2 ^ 31) :
    ((∀ i, dataFind sym.data i = none) → sym.number = 0) ∧
    (∀ i, (dataFind sym.data i).isSome → (i : Int) + 1 ≤ sym.number) ∧
    (sym.number ≠ 0 → ∃ i : Nat, sym.number = i + 1 ∧ (dataFind sym.data i).isSome) := by
  have hmem : sym.data ≠ [] → (sym.data.map (·.1)).foldl max 0 ∈ sym.data.map (·.1) := by
    intro hne
    rcases foldl_max_mem (sym.data.map (·.1)) 0 with h | h
    · -- the maximum is 0, hence every key is 0
      obtain ⟨p, hp⟩ := List.exists_mem_of_ne_nil _ hne
      have : p.1 ≤ _ := (foldl_max_ge (sym.data.map (·.1)) 0).2 p.1 (List.mem_map.mpr ⟨p, hp, rfl⟩)
      rw [h] at this ⊢
      have e : p.1 = 0 := by omega
      exact List.mem_map.mpr ⟨p, hp, e⟩
    · exact h
  have hnum : sym.data ≠ [] → sym.number = (((sym.data.map (·.1)).foldl max 0 : Nat) : Int) + 1 := by
    intro hne
    have hlt := hfit _ ((dataFind_isSome _ _).mpr (hmem hne))
    have he : sym.data.isEmpty = false := by simpa using hne
    simp only [SetSym.number, hs, he, Bool.or_false, Bool.false_eq_true, if_false, toA]
    rw [BitVec.toInt_eq_toNat_of_lt (by rw [BitVec.toNat_ofNat]; omega), BitVec.toNat_ofNat]; omega
  refine ⟨?_, ?_, ?_⟩
  · intro h
    have : sym.data = [] := by
      cases hd : sym.data with
      | nil => rfl
      | cons p r =>
        have := h p.1
        rw [hd] at this; simp [dataFind] at this
    simp [SetSym.number, this]
  · intro i hi
    have hi' := (dataFind_isSome _ _).mp hi
    have hne : sym.data ≠ [] := by intro h; rw [h] at hi'; simp at hi'
    rw [hnum hne]
    have := (foldl_max_ge (sym.data.map (·.1)) 0).2 i hi'
    omega
  · intro h
    have hne : sym.data ≠ [] := by intro he; apply h; simp [SetSym.number, he]
    exact ⟨_, hnum hne, (dataFind_isSome _ _).mpr (hmem hne)⟩

/-- Violation at the edge of the range: `&X(2147483647) SETA 1,2` makes N' negative. -/
theorem C31_witness_number :
    (SetSym.assign { scalar := false, ty := .A, owner := none } 2147483646 [.a 1, .a 2]).number = -2147483648 := by decide

/-! ### Invariant of the scopes -/

/-- What a scope's table may refer to. -/
def ScopeOk (heap : List SetSym) (globals : Name → Option Nat) (sc : Scope) : Prop :=
  ∀ n a, sc.vars n = some a → ∃ sym, heap[a]? = some sym ∧
    (sym.owner = some (sc.id, n) ∨ (sym.owner = none ∧ globals n = some a))

structure Inv (s : St) : Prop where
  globals : ∀ n a, s.globals n = some a → ∃ sym, s.heap[a]? = some sym ∧ sym.owner = none
  globInj : ∀ n m a, s.globals n = some a → s.globals m = some a → n = m
  scopes : ∀ sc ∈ s.top :: s.rest, ScopeOk s.heap s.globals sc
  ids : ((s.top :: s.rest).map (·.id)).Nodup
  idle : ∀ sc ∈ s.top :: s.rest, sc.id ≤ s.ndx
  /-- An object created for a scope is the only one of its (scope, name). -/
  uniq : ∀ (a b : Nat) sa sb o, s.heap[a]? = some sa → s.heap[b]? = some sb → sa.owner = some o → sb.owner = some o → a = b
  fresh : ∀ (a : Nat) sa k n, s.heap[a]? = some sa → sa.owner = some (k, n) → k ≤ s.ndx
  disjoint : ∀ sc ∈ s.top :: s.rest, ∀ n, sc.params n = true → sc.vars n = none
  /-- Local objects are still referenced while their scope is alive. -/
  alive : ∀ sc ∈ s.top :: s.rest, ∀ (a : Nat) sa n, s.heap[a]? = some sa → sa.owner = some (sc.id, n) → sc.vars n = some a

theorem getElem?_append_some {α} {l : List α} {x : α} {a : Nat} {y : α} (h : l[a]? = some y) : (l ++ [x])[a]? = some y := by
  have : a < l.length := by rw [List.getElem?_eq_some_iff] at h; exact h.1
  rw [List.getElem?_append_left this, h]

theorem getElem?_append_inv {α} {l : List α} {x : α} {a : Nat} {y : α} (h : (l ++ [x])[a]? = some y) :
    l[a]? = some y ∨ (a = l.length ∧ x = y) := by
  rw [List.getElem?_append] at h
  split at h
  · exact Or.inl h
  · next hl =>
    right
    cases hk : a - l.length with
    | zero => rw [hk] at h; simp at h; exact ⟨by omega, h⟩
    | succ k => rw [hk] at h; simp at h

theorem inv_newLocal {s : St} (h : Inv s) (n : Name) (ty : Ty) (scalar : Bool) (hn : s.top.vars n = none)
    (hp : s.top.params n = false) : Inv (s.newLocal n ty scalar) := by
  have hown : ∀ (a : Nat) sa, s.heap[a]? = some sa → sa.owner ≠ some (s.top.id, n) := by
    intro a sa ha ho
    have := h.alive s.top (by simp) a sa n ha ho
    rw [hn] at this; simp at this
  have hlen : ∀ (a : Nat) (y : SetSym), s.heap[a]? = some y → a < s.heap.length := by
    intro a y hy; rw [List.getElem?_eq_some_iff] at hy; exact hy.1
  constructor
  · intro m a hm
    obtain ⟨sym, h1, h2⟩ := h.globals m a hm
    exact ⟨sym, getElem?_append_some h1, h2⟩
  · exact h.globInj
  · intro sc hsc
    rw [List.mem_cons] at hsc
    rcases hsc with rfl | hsc
    · intro m a hm
      simp only [St.newLocal, upd] at hm ⊢
      split at hm
      · next e =>
        subst e; simp at hm; subst hm
        exact ⟨{ scalar := scalar, ty := ty, owner := some (s.top.id, m) }, by simp, Or.inl rfl⟩
      · obtain ⟨sym, h1, h2⟩ := h.scopes s.top (by simp) m a hm
        exact ⟨sym, getElem?_append_some h1, h2⟩
    · intro m a hm
      obtain ⟨sym, h1, h2⟩ := h.scopes sc (by simp [St.newLocal] at hsc; simp [hsc]) m a hm
      exact ⟨sym, getElem?_append_some h1, h2⟩
  · exact h.ids
  · intro sc hsc
    rw [List.mem_cons] at hsc
    rcases hsc with rfl | hsc
    · exact h.idle s.top (by simp)
    · exact h.idle sc (by simp [St.newLocal] at hsc; simp [hsc])
  · intro a b sa sb o ha hb hoa hob
    simp only [St.newLocal] at ha hb
    rcases getElem?_append_inv ha with ha' | ⟨ha', rfl⟩ <;> rcases getElem?_append_inv hb with hb' | ⟨hb', rfl⟩
    · exact h.uniq a b sa sb o ha' hb' hoa hob
    · simp at hob; subst hob; exact absurd hoa (hown a sa ha')
    · simp at hoa; subst hoa; exact absurd hob (hown b sb hb')
    · omega
  · intro a sa k m ha ho
    simp only [St.newLocal] at ha
    rcases getElem?_append_inv ha with ha | ⟨ha, rfl⟩
    · exact h.fresh a sa k m ha ho
    · simp at ho; rw [← ho.1]; exact h.idle s.top (by simp)
  · intro sc hsc m hm
    rw [List.mem_cons] at hsc
    rcases hsc with rfl | hsc
    · simp only [St.newLocal, upd] at hm ⊢
      split
      · next e => subst e; rw [hp] at hm; simp at hm
      · exact h.disjoint s.top (by simp) m hm
    · exact h.disjoint sc (by simp [St.newLocal] at hsc; simp [hsc]) m hm
  · intro sc hsc a sa m ha ho
    simp only [St.newLocal] at ha hsc ⊢
    rw [List.mem_cons] at hsc
    rcases getElem?_append_inv ha with ha' | ⟨ha', rfl⟩
    · rcases hsc with rfl | hsc
      · simp only [upd]
        split
        · next e => subst e; exact absurd ho (hown a sa ha')
        · exact h.alive s.top (by simp) a sa m ha' ho
      · exact h.alive sc (by simp [hsc]) a sa m ha' ho
    · simp at ho
      rcases hsc with rfl | hsc
      · simp [upd, ho.2, ha']
      · -- another scope has a different id
        have := h.ids
        rw [List.map_cons, List.nodup_cons] at this
        exact absurd (List.mem_map.mpr ⟨sc, hsc, ho.1.symm⟩) this.1

theorem inv_newGlobal {s : St} (h : Inv s) (n : Name) (ty : Ty) (scalar : Bool) (hn : s.top.vars n = none)
    (hp : s.top.params n = false) : Inv (s.newGlobal n ty scalar) := by
  unfold St.newGlobal
  have hlen : ∀ (a : Nat) (y : SetSym), s.heap[a]? = some y → a < s.heap.length := by
    intro a y hy; rw [List.getElem?_eq_some_iff] at hy; exact hy.1
  have hown : ∀ (a : Nat) sa, s.heap[a]? = some sa → sa.owner ≠ some (s.top.id, n) := by
    intro a sa ha ho
    have := h.alive s.top (by simp) a sa n ha ho
    rw [hn] at this; simp at this
  cases hg : s.globals n with
  | some a0 =>
    obtain ⟨sym0, hs0, ho0⟩ := h.globals n a0 hg
    refine ⟨h.globals, h.globInj, ?_, h.ids, ?_, h.uniq, h.fresh, ?_, ?_⟩
    · intro sc hsc
      rw [List.mem_cons] at hsc
      rcases hsc with rfl | hsc
      · intro m a hm
        simp only [upd] at hm
        split at hm
        · next e => subst e; simp at hm; subst hm; exact ⟨sym0, hs0, Or.inr ⟨ho0, hg⟩⟩
        · exact h.scopes s.top (by simp) m a hm
      · exact h.scopes sc (by simp [hsc])
    · intro sc hsc
      rw [List.mem_cons] at hsc
      rcases hsc with rfl | hsc
      · exact h.idle s.top (by simp)
      · exact h.idle sc (by simp [hsc])
    · intro sc hsc m hm
      rw [List.mem_cons] at hsc
      rcases hsc with rfl | hsc
      · simp only [upd] at hm ⊢
        split
        · next e => subst e; rw [hp] at hm; simp at hm
        · exact h.disjoint s.top (by simp) m hm
      · exact h.disjoint sc (by simp [hsc]) m hm
    · intro sc hsc a sa m ha ho
      rw [List.mem_cons] at hsc
      rcases hsc with rfl | hsc
      · simp only [upd]
        split
        · next e => subst e; exact absurd ho (hown a sa ha)
        · exact h.alive s.top (by simp) a sa m ha ho
      · exact h.alive sc (by simp [hsc]) a sa m ha ho
  | none =>
    simp only
    have hglob : ∀ m a, upd s.globals n (some s.heap.length) m = some a → (m = n ∧ a = s.heap.length) ∨
        (m ≠ n ∧ s.globals m = some a) := by
      intro m a hm
      simp only [upd] at hm
      split at hm
      · next e => simp at hm; exact Or.inl ⟨e, hm.symm⟩
      · next e => exact Or.inr ⟨e, hm⟩
    have hgkeep : ∀ m a, s.globals m = some a → upd s.globals n (some s.heap.length) m = some a := by
      intro m a hm
      simp only [upd]
      split
      · next e => subst e; rw [hg] at hm; simp at hm
      · exact hm
    refine ⟨?_, ?_, ?_, h.ids, ?_, ?_, ?_, ?_, ?_⟩
    · intro m a hm
      rcases hglob m a hm with ⟨rfl, rfl⟩ | ⟨_, hm⟩
      · exact ⟨{ scalar := scalar, ty := ty, owner := none }, by simp, rfl⟩
      · obtain ⟨sym, h1, h2⟩ := h.globals m a hm
        exact ⟨sym, getElem?_append_some h1, h2⟩
    · intro m m' a hm hm'
      rcases hglob m a hm with ⟨e1, e2⟩ | ⟨_, g1⟩ <;> rcases hglob m' _ hm' with ⟨e3, e4⟩ | ⟨_, g2⟩
      · rw [e1, e3]
      · obtain ⟨sym, h1, _⟩ := h.globals _ _ g2
        have := hlen _ _ h1; omega
      · obtain ⟨sym, h1, _⟩ := h.globals _ _ g1
        have := hlen _ _ h1; omega
      · exact h.globInj m m' a g1 g2
    · intro sc hsc
      rw [List.mem_cons] at hsc
      have lift : ∀ sc : Scope, ScopeOk s.heap s.globals sc → ∀ m a, sc.vars m = some a →
          ∃ sym, (s.heap ++ [({ scalar := scalar, ty := ty, owner := none } : SetSym)])[a]? = some sym ∧
            (sym.owner = some (sc.id, m) ∨ (sym.owner = none ∧ upd s.globals n (some s.heap.length) m = some a)) := by
        intro sc hok m a hm
        obtain ⟨sym, h1, h2⟩ := hok m a hm
        refine ⟨sym, getElem?_append_some h1, ?_⟩
        rcases h2 with h2 | ⟨h2, h3⟩
        · exact Or.inl h2
        · exact Or.inr ⟨h2, hgkeep m a h3⟩
      rcases hsc with rfl | hsc
      · intro m a hm
        simp only [upd] at hm
        split at hm
        · next e =>
          subst e; simp at hm; subst hm
          exact ⟨{ scalar := scalar, ty := ty, owner := none }, by simp, Or.inr ⟨rfl, by simp [upd]⟩⟩
        · exact lift s.top (h.scopes s.top (by simp)) m a hm
      · exact lift sc (h.scopes sc (by simp [hsc]))
    · intro sc hsc
      rw [List.mem_cons] at hsc
      rcases hsc with rfl | hsc
      · exact h.idle s.top (by simp)
      · exact h.idle sc (by simp [hsc])
    · intro a b sa sb o ha hb hoa hob
      rcases getElem?_append_inv ha with ha' | ⟨_, rfl⟩ <;> rcases getElem?_append_inv hb with hb' | ⟨_, rfl⟩
      · exact h.uniq a b sa sb o ha' hb' hoa hob
      · simp at hob
      · simp at hoa
      · simp at hoa
    · intro a sa k m ha ho
      rcases getElem?_append_inv ha with ha | ⟨_, rfl⟩
      · exact h.fresh a sa k m ha ho
      · simp at ho
    · intro sc hsc m hm
      rw [List.mem_cons] at hsc
      rcases hsc with rfl | hsc
      · simp only [upd] at hm ⊢
        split
        · next e => subst e; rw [hp] at hm; simp at hm
        · exact h.disjoint s.top (by simp) m hm
      · exact h.disjoint sc (by simp [hsc]) m hm
    · intro sc hsc a sa m ha ho
      rw [List.mem_cons] at hsc
      rcases getElem?_append_inv ha with ha' | ⟨_, rfl⟩
      · rcases hsc with rfl | hsc
        · simp only [upd]
          split
          · next e => subst e; exact absurd ho (hown a sa ha')
          · exact h.alive s.top (by simp) a sa m ha' ho
        · exact h.alive sc (by simp [hsc]) a sa m ha' ho
      · simp at ho

theorem modify_getElem? {heap : List SetSym} {a b : Nat} {base : Nat} {vs : List Val} {y : SetSym}
    (h : (heap.modify a fun sym => sym.assign base vs)[b]? = some y) :
    ∃ x, heap[b]? = some x ∧ x.owner = y.owner ∧ x.scalar = y.scalar ∧ x.ty = y.ty ∧ (b ≠ a → x = y) := by
  rw [List.getElem?_modify] at h
  cases hx : heap[b]? with
  | none => rw [hx] at h; simp at h
  | some x =>
    rw [hx] at h
    simp at h
    refine ⟨x, rfl, ?_⟩
    split at h
    · next e =>
      subst h; subst e
      obtain ⟨h1, h2, h3⟩ := assign_shape vs x base
      exact ⟨h3.symm, h1.symm, h2.symm, fun hh => absurd rfl hh⟩
    · subst h; exact ⟨rfl, rfl, rfl, fun _ => rfl⟩

theorem modify_getElem?' {heap : List SetSym} {a b : Nat} {base : Nat} {vs : List Val} {x : SetSym}
    (h : heap[b]? = some x) :
    ∃ y, (heap.modify a fun sym => sym.assign base vs)[b]? = some y ∧ y.owner = x.owner := by
  rw [List.getElem?_modify, h]
  simp only [Option.map_eq_map, Option.map_some]
  split
  · exact ⟨_, rfl, (assign_shape vs x base).2.2⟩
  · exact ⟨_, rfl, rfl⟩

theorem inv_assign {s : St} (h : Inv s) (a base : Nat) (vs : List Val) : Inv (s.assign a base vs) := by
  unfold St.assign
  refine ⟨?_, h.globInj, ?_, h.ids, h.idle, ?_, ?_, h.disjoint, ?_⟩
  · intro n b hn
    obtain ⟨sym, h1, h2⟩ := h.globals n b hn
    obtain ⟨y, hy, ho⟩ := modify_getElem?' (a := a) (base := base) (vs := vs) h1
    exact ⟨y, hy, by rw [ho, h2]⟩
  · intro sc hsc n b hn
    obtain ⟨sym, h1, h2⟩ := h.scopes sc hsc n b hn
    obtain ⟨y, hy, ho⟩ := modify_getElem?' (a := a) (base := base) (vs := vs) h1
    exact ⟨y, hy, by rw [ho]; exact h2⟩
  · intro b c sb sc o hb hc hob hoc
    obtain ⟨x, hx, e1, _⟩ := modify_getElem? hb
    obtain ⟨y, hy, e2, _⟩ := modify_getElem? hc
    exact h.uniq b c x y o hx hy (by rw [e1, hob]) (by rw [e2, hoc])
  · intro b sb k n hb ho
    obtain ⟨x, hx, e1, _⟩ := modify_getElem? hb
    exact h.fresh b x k n hx (by rw [e1, ho])
  · intro sc hsc b sb n hb ho
    obtain ⟨x, hx, e1, _⟩ := modify_getElem? hb
    exact h.alive sc hsc b x n hx (by rw [e1, ho])

theorem resolve_undef {s : St} {n : Name} (h : s.resolve n = .undef) : s.top.vars n = none ∧ s.top.params n = false := by
  unfold St.resolve at h
  cases hv : s.top.vars n with
  | some a => simp [hv] at h
  | none =>
    simp only [hv] at h
    cases hp : s.top.params n with
    | true => simp [hp] at h
    | false => exact ⟨rfl, rfl⟩

theorem inv_setStmt {s : St} (h : Inv s) (ty : Ty) (n : Name) (sub : Option Int) (vals : List Val) :
    Inv (s.setStmt ty n sub vals) := by
  unfold St.setStmt
  cases hr : s.resolve n with
  | param => exact h
  | undef =>
    simp only
    split
    · exact h
    ·
      obtain ⟨h1, h2⟩ := resolve_undef hr
      exact inv_assign (inv_newLocal h n ty _ h1 h2) _ _ _
  | sym a =>
    simp only
    split
    · exact h
    ·
      cases s.heap[a]? with
      | none => exact h
      | some sym =>
        simp only
        split
        · exact h
        · split
          · exact h
          · exact inv_assign h _ _ _

theorem inv_insertSys {s : St} (h : Inv s) (p : Name × Val) (hp : s.top.params p.1 = false) : Inv (s.insertSys p) := by
  unfold St.insertSys
  cases hv : s.top.vars p.1 with
  | some a => exact h
  | none => exact inv_assign (inv_newLocal h _ _ _ hv hp) _ _ _

theorem insertSys_top (s : St) (p : Name × Val) : (s.insertSys p).top.params = s.top.params ∧ (s.insertSys p).top.id = s.top.id := by
  unfold St.insertSys; split <;> exact ⟨rfl, rfl⟩

theorem inv_insertGlob {s : St} (h : Inv s) (n : Name) (hp : s.top.params n = false) : Inv (s.insertGlob n) := by
  unfold St.insertGlob
  cases hv : s.top.vars n with
  | some a => exact h
  | none =>
    cases hg : s.globals n with
    | none => exact h
    | some a =>
      have := inv_newGlobal h n .C true hv hp
      unfold St.newGlobal at this
      rw [hg] at this
      exact this

theorem insertGlob_top (s : St) (n : Name) : (s.insertGlob n).top.params = s.top.params ∧ (s.insertGlob n).top.id = s.top.id := by
  unfold St.insertGlob; split <;> exact ⟨rfl, rfl⟩

/-- Macro parameters must not be named like system variables (else the parameter is shadowed). -/
def Op.Ok : Op → Prop
  | .enter params sys sysGlobals => params SYSNDX = false ∧ (∀ p ∈ sys, params p.1 = false) ∧ ∀ n ∈ sysGlobals, params n = false
  | _ => True

theorem inv_enter {s : St} (h : Inv s) (params : Name → Bool) (sys : List (Name × Val)) (sg : List Name)
    (hok : Op.Ok (.enter params sys sg)) : Inv (s.enterMacro params sys sg) := by
  obtain ⟨k1, k2, k3⟩ := hok
  have h1 : Inv { s with top := { id := s.ndx + 1, params := params }, rest := s.top :: s.rest, ndx := s.ndx + 1 } := by
    refine ⟨h.globals, h.globInj, ?_, ?_, ?_, h.uniq, ?_, ?_, ?_⟩
    · intro sc hsc
      rw [List.mem_cons] at hsc
      rcases hsc with rfl | hsc
      · intro n a hn; simp at hn
      · exact h.scopes sc hsc
    · rw [List.map_cons, List.nodup_cons]
      refine ⟨?_, h.ids⟩
      intro hm
      obtain ⟨sc, hsc, e⟩ := List.mem_map.mp hm
      have := h.idle sc hsc
      simp at e; omega
    · intro sc hsc
      rw [List.mem_cons] at hsc
      rcases hsc with rfl | hsc
      · exact Nat.le_refl _
      · have := h.idle sc hsc; exact Nat.le_succ_of_le this
    · intro a sa k n ha ho
      exact Nat.le_succ_of_le (h.fresh a sa k n ha ho)
    · intro sc hsc n hn
      rw [List.mem_cons] at hsc
      rcases hsc with rfl | hsc
      · rfl
      · exact h.disjoint sc hsc n hn
    · intro sc hsc a sa n ha ho
      rw [List.mem_cons] at hsc
      rcases hsc with rfl | hsc
      · have := h.fresh a sa _ n ha ho
        simp at this; omega
      · exact h.alive sc hsc a sa n ha ho
  -- the counter may as well be advanced first
  have comm1 : ∀ (s : St) (p : Name × Val) (k : Nat), { s.insertSys p with ndx := k } = St.insertSys { s with ndx := k } p := by
    intro s p k; unfold St.insertSys; simp only; cases s.top.vars p.1 <;> rfl
  have comm2 : ∀ (s : St) (n : Name) (k : Nat), { s.insertGlob n with ndx := k } = St.insertGlob { s with ndx := k } n := by
    intro s n k; unfold St.insertGlob; simp only; cases s.top.vars n <;> cases s.globals n <;> rfl
  have comm3 : ∀ (l : List (Name × Val)) (s : St) (k : Nat),
      { l.foldl St.insertSys s with ndx := k } = l.foldl St.insertSys { s with ndx := k } := by
    intro l; induction l with
    | nil => intro s k; rfl
    | cons p l ih => intro s k; rw [List.foldl_cons, List.foldl_cons, ih, comm1]
  have comm4 : ∀ (l : List Name) (s : St) (k : Nat),
      { l.foldl St.insertGlob s with ndx := k } = l.foldl St.insertGlob { s with ndx := k } := by
    intro l; induction l with
    | nil => intro s k; rfl
    | cons p l ih => intro s k; rw [List.foldl_cons, List.foldl_cons, ih, comm2]
  have e : s.enterMacro params sys sg = sg.foldl St.insertGlob (sys.foldl St.insertSys
      (St.insertSys { s with top := { id := s.ndx + 1, params := params }, rest := s.top :: s.rest, ndx := s.ndx + 1 }
        (SYSNDX, .c (sysndxValue s.ndx)))) := by
    unfold St.enterMacro
    simp only
    rw [comm4, comm3, comm1]
  rw [e]
  have foldSys : ∀ (l : List (Name × Val)) (s : St), Inv s → s.top.params = params → (∀ p ∈ l, params p.1 = false) →
      Inv (l.foldl St.insertSys s) ∧ (l.foldl St.insertSys s).top.params = params := by
    intro l; induction l with
    | nil => intro s h hp _; exact ⟨h, hp⟩
    | cons p l ih =>
      intro s h hp hl
      exact ih _ (inv_insertSys h p (by rw [hp]; exact hl p (by simp))) (by rw [(insertSys_top s p).1, hp])
        (fun q hq => hl q (by simp [hq]))
  have foldGlob : ∀ (l : List Name) (s : St), Inv s → s.top.params = params → (∀ n ∈ l, params n = false) →
      Inv (l.foldl St.insertGlob s) := by
    intro l; induction l with
    | nil => intro s h hp _; exact h
    | cons p l ih =>
      intro s h hp hl
      exact ih _ (inv_insertGlob h p (by rw [hp]; exact hl p (by simp))) (by rw [(insertGlob_top s p).1, hp])
        (fun q hq => hl q (by simp [hq]))
  have h2 := inv_insertSys h1 (SYSNDX, .c (sysndxValue s.ndx)) k1
  obtain ⟨h3, h4⟩ := foldSys sys _ h2 (by rw [(insertSys_top _ _).1]) k2
  exact foldGlob sg _ h3 h4 k3

theorem inv_step {s : St} (h : Inv s) (op : Op) (hok : op.Ok) : Inv (s.step op) := by
  cases op with
  | lcl ty n scalar =>
    simp only [St.step]
    cases hr : s.resolve n with
    | undef => obtain ⟨h1, h2⟩ := resolve_undef hr; exact inv_newLocal h n ty scalar h1 h2
    | sym a => exact h
    | param => exact h
  | gbl ty n scalar =>
    simp only [St.step]
    cases hr : s.resolve n with
    | undef => obtain ⟨h1, h2⟩ := resolve_undef hr; exact inv_newGlobal h n ty scalar h1 h2
    | sym a => exact h
    | param => exact h
  | set ty n sub vals => exact inv_setStmt h ty n sub vals
  | enter params sys sg => exact inv_enter h params sys sg hok
  | leave =>
    simp only [St.step]
    cases hr : s.rest with
    | nil => exact h
    | cons sc r =>
      have hin : ∀ x ∈ sc :: r, x ∈ s.top :: s.rest := by
        intro x hx; rw [hr]; exact List.mem_cons_of_mem _ hx
      refine ⟨h.globals, h.globInj, fun x hx => h.scopes x (hin x hx), ?_, fun x hx => h.idle x (hin x hx), h.uniq, h.fresh,
        fun x hx => h.disjoint x (hin x hx), fun x hx => h.alive x (hin x hx)⟩
      have := h.ids
      rw [hr, List.map_cons, List.nodup_cons] at this
      exact this.2

theorem inv_init : Inv {} := by
  refine ⟨by simp, by simp, ?_, by simp, by simp, by simp, by simp, by simp, by simp⟩
  intro sc hsc n a hn
  simp at hsc; subst hsc; simp at hn

theorem inv_run (ops : List Op) (hok : ∀ op ∈ ops, op.Ok) : ∀ s, Inv s → Inv (s.run ops) := by
  induction ops with
  | nil => intro s h; exact h
  | cons op ops ih =>
    intro s h
    exact ih (fun o ho => hok o (by simp [ho])) _ (inv_step h op (hok op (by simp)))

/-! ### C31 at statement level -/

theorem getAt_assign (sym : SetSym) (vs : List Val) (base i : Nat) (hs : sym.scalar = false) :
    (sym.assign base vs).getAt i = if base ≤ i ∧ i < base + vs.length then (vs[i - base]?).getD sym.ty.default else sym.getAt i := by
  obtain ⟨h1, h2, _⟩ := assign_shape vs sym base
  unfold SetSym.getAt
  rw [h1, h2, assign_find vs sym base i hs, hs]
  simp only [Bool.false_eq_true, if_false]
  split <;> rfl

/-- C31: `&N(i) SETx v0,v1,...` on a known array assigns `v_k` to element `i + k`; every other element of the array, every
other SET symbol and every scalar keep their values, whatever names they are read through. -/
theorem C31_assign_frame (s : St) (ty : Ty) (n : Name) (i : Int) (vals : List Val) (a : Nat) (sym : SetSym) (hi : 1 ≤ i)
    (hr : s.resolve n = .sym a) (ha : s.heap[a]? = some sym) (hty : sym.ty = ty) (hs : sym.scalar = false) :
    (∀ m (j : Int), 1 ≤ j → (s.step (.set ty n (some i) vals)).read m (some j) =
      if s.resolve m = .sym a ∧ i ≤ j ∧ j < i + vals.length then vals[(j - i).toNat]? else s.read m (some j)) ∧
    ∀ m, (s.step (.set ty n (some i) vals)).read m none = s.read m none := by
  have hstep : s.step (.set ty n (some i) vals) = s.assign a (i - 1).toNat vals := by
    have hb : ¬ i < 1 := by omega
    simp [St.step, St.setStmt, hr, subBad, subBase, hb, ha, hty, hs]
  rw [hstep]
  have hres : ∀ m, (s.assign a (i - 1).toNat vals).resolve m = s.resolve m := fun m => rfl
  have hheap : ∀ b : Nat, (s.assign a (i - 1).toNat vals).heap[b]? =
      if a = b then (s.heap[b]?).map (fun y => y.assign (i - 1).toNat vals) else s.heap[b]? := by
    intro b
    show (s.heap.modify a fun y => y.assign (i - 1).toNat vals)[b]? = _
    rw [List.getElem?_modify]
    by_cases e : a = b
    · simp [e]
    · simp [e]
  constructor
  · intro m j hj
    have hj' : ¬ j < 1 := by omega
    unfold St.read
    rw [hres]
    cases hm : s.resolve m with
    | undef => simp
    | param => simp
    | sym b =>
      simp only [hheap]
      by_cases e : a = b
      · subst e
        obtain ⟨e1, e2, _⟩ := assign_shape vals sym (i - 1).toNat
        simp only [if_true, ha, Option.map_some, e1, hs, Bool.false_eq_true, if_false, hj', Res.sym.injEq, true_and]
        rw [getAt_assign sym vals _ _ hs]
        by_cases hc : i ≤ j ∧ j < i + vals.length
        · have hc' : (i - 1).toNat ≤ (j - 1).toNat ∧ (j - 1).toNat < (i - 1).toNat + vals.length := by omega
          have hidx : (j - 1).toNat - (i - 1).toNat = (j - i).toNat := by omega
          have hlt : (j - i).toNat < vals.length := by omega
          simp only [hc', and_self, if_true, hc, hidx]
          rw [List.getElem?_eq_getElem hlt]; rfl
        · have hc' : ¬ ((i - 1).toNat ≤ (j - 1).toNat ∧ (j - 1).toNat < (i - 1).toNat + vals.length) := by omega
          simp only [hc', if_false, hc]
      · have e' : ¬ b = a := fun h => e h.symm
        simp [e, e']
  · intro m
    unfold St.read
    rw [hres]
    cases hm : s.resolve m with
    | undef => rfl
    | param => rfl
    | sym b =>
      simp only [hheap]
      by_cases e : a = b
      · subst e
        obtain ⟨e1, e2, _⟩ := assign_shape vals sym (i - 1).toNat
        simp only [if_true, ha, Option.map_some, e1, hs]
        simp
      · simp [e]

/-- C31, first assignment: a name unknown in the scope becomes a local array whose other elements have the default value. -/
theorem C31_first_assignment (s : St) (ty : Ty) (n : Name) (i : Int) (vals : List Val) (hi : 1 ≤ i)
    (hr : s.resolve n = .undef) (j : Int) (hj : 1 ≤ j) :
    (s.step (.set ty n (some i) vals)).read n (some j) =
      if i ≤ j ∧ j < i + vals.length then vals[(j - i).toNat]? else some ty.default := by
  have hb : ¬ i < 1 := by omega
  have hj' : ¬ j < 1 := by omega
  have hstep : s.step (.set ty n (some i) vals) = (s.newLocal n ty false).assign s.heap.length (i - 1).toNat vals := by
    simp [St.step, St.setStmt, hr, subBad, subBase, hb]
  rw [hstep]
  have hres : ((s.newLocal n ty false).assign s.heap.length (i - 1).toNat vals).resolve n = .sym s.heap.length := by
    simp [St.resolve, St.assign, St.newLocal, upd]
  unfold St.read
  rw [hres]
  simp only [St.assign, St.newLocal, List.getElem?_modify]
  rw [List.getElem?_append_right (Nat.le_refl _)]
  simp only [Nat.sub_self, List.getElem?_cons_zero, Option.map_eq_map, Option.map_some, if_true]
  obtain ⟨e1, e2, _⟩ := assign_shape vals ({ scalar := false, ty := ty, owner := some (s.top.id, n) } : SetSym) (i - 1).toNat
  simp only [e1, Bool.false_eq_true, if_false, hj']
  rw [getAt_assign _ vals _ _ rfl]
  by_cases hc : i ≤ j ∧ j < i + vals.length
  · have hc' : (i - 1).toNat ≤ (j - 1).toNat ∧ (j - 1).toNat < (i - 1).toNat + vals.length := by omega
    have hidx : (j - 1).toNat - (i - 1).toNat = (j - i).toNat := by omega
    have hlt : (j - i).toNat < vals.length := by omega
    simp only [hc', and_self, if_true, hc, hidx]
    rw [List.getElem?_eq_getElem hlt]; rfl
  · have hc' : ¬ ((i - 1).toNat ≤ (j - 1).toNat ∧ (j - 1).toNat < (i - 1).toNat + vals.length) := by omega
    simp only [hc', if_false, hc]
    rfl

example : let s := St.run {} [.lcl .A [88] false, .set .A [88] (some 3) [.a 7, .a 8], .set .A [88] (some 4) [.a 9]]
    s.read [88] (some 3) = some (.a 7) ∧ s.read [88] (some 4) = some (.a 9) ∧ s.read [88] (some 1) = some (.a 0) := by decide

/-! ### C32 -/

/-- The scopes that exist now: the current one and those of the callers. -/
def St.scopes (s : St) : List Scope := s.top :: s.rest

/-- C32: in every reachable state, all scopes in which a name denotes a global symbol share one and the same symbol. -/
theorem C32_one_variable (ops : List Op) (hok : ∀ op ∈ ops, op.Ok) (s : St) (hs : s = St.run {} ops)
    (sc sc' : Scope) (h : sc ∈ s.scopes) (h' : sc' ∈ s.scopes) (n : Name) (a a' : Nat) (x x' : SetSym)
    (hv : sc.vars n = some a) (hv' : sc'.vars n = some a') (hx : s.heap[a]? = some x) (hx' : s.heap[a']? = some x')
    (hg : x.owner = none) (hg' : x'.owner = none) : a = a' := by
  have inv := inv_run ops hok {} inv_init
  rw [← hs] at inv
  obtain ⟨y, hy, hy'⟩ := inv.scopes sc h n a hv
  obtain ⟨z, hz, hz'⟩ := inv.scopes sc' h' n a' hv'
  rw [hx] at hy; simp at hy; subst hy
  rw [hx'] at hz; simp at hz; subst hz
  rcases hy' with hy' | ⟨_, h1⟩
  · rw [hg] at hy'; simp at hy'
  · rcases hz' with hz' | ⟨_, h2⟩
    · rw [hg'] at hz'; simp at hz'
    · rw [h1] at h2; simpa using h2

theorem globals_step (s : St) (op : Op) (n : Name) (a : Nat) (h : s.globals n = some a) : (s.step op).globals n = some a := by
  have hl : ∀ (s : St) m ty sc, (s.newLocal m ty sc).globals = s.globals := fun _ _ _ _ => rfl
  have hsys : ∀ (l : List (Name × Val)) (s : St), (l.foldl St.insertSys s).globals = s.globals := by
    intro l; induction l with
    | nil => intro s; rfl
    | cons p l ih =>
      intro s; rw [List.foldl_cons, ih]
      unfold St.insertSys; split <;> rfl
  have hglob : ∀ (l : List Name) (s : St), (l.foldl St.insertGlob s).globals = s.globals := by
    intro l; induction l with
    | nil => intro s; rfl
    | cons p l ih =>
      intro s; rw [List.foldl_cons, ih]
      unfold St.insertGlob; split <;> rfl
  cases op with
  | lcl ty m sc => simp only [St.step]; split <;> exact h
  | gbl ty m sc =>
    simp only [St.step]
    split
    · unfold St.newGlobal
      cases hg : s.globals m with
      | some b => exact h
      | none =>
        simp only [upd]
        split
        · next e => subst e; rw [hg] at h; simp at h
        · exact h
    · exact h
  | set ty m sub vals =>
    simp only [St.step, St.setStmt]
    split
    · exact h
    · split <;> exact h
    · split
      · exact h
      · split
        · exact h
        · split
          · exact h
          · split <;> exact h
  | enter params sys sg =>
    simp only [St.step, St.enterMacro]
    rw [hglob, hsys]
    unfold St.insertSys; split <;> exact h
  | leave => simp only [St.step]; split <;> exact h

/-- C32: once a global symbol exists it stays the same symbol for the rest of the assembly, and declaring it global in a scope
that does not know the name makes the name denote exactly that symbol, with its current values. -/
theorem C32_global_persists (s : St) (ops : List Op) (n : Name) (a : Nat) (h : s.globals n = some a) :
    (s.run ops).globals n = some a := by
  induction ops generalizing s with
  | nil => exact h
  | cons op ops ih => exact ih (s.step op) (globals_step s op n a h)

theorem C32_gbl_attaches (s : St) (ty : Ty) (n : Name) (sc : Bool) (a : Nat) (h : s.globals n = some a)
    (hu : s.resolve n = .undef) : (s.step (.gbl ty n sc)).resolve n = .sym a ∧ (s.step (.gbl ty n sc)).heap = s.heap := by
  have hs : s.step (.gbl ty n sc) = s.newGlobal n ty sc := by simp only [St.step, hu]
  rw [hs]
  unfold St.newGlobal
  rw [h]
  exact ⟨by simp [St.resolve, upd], rfl⟩

/-- C32: a local symbol is invisible to every other scope (under any name) and to global declarations. -/
theorem C32_local_invisible (ops : List Op) (hok : ∀ op ∈ ops, op.Ok) (s : St) (hs : s = St.run {} ops)
    (sc sc' : Scope) (h : sc ∈ s.scopes) (h' : sc' ∈ s.scopes) (hne : sc.id ≠ sc'.id) (n m : Name) (a a' : Nat) (x : SetSym)
    (hv : sc.vars n = some a) (hx : s.heap[a]? = some x) (hl : x.owner ≠ none) :
    (sc'.vars m = some a' → a' ≠ a) ∧ s.globals m ≠ some a := by
  have inv := inv_run ops hok {} inv_init
  rw [← hs] at inv
  obtain ⟨y, hy, hy'⟩ := inv.scopes sc h n a hv
  rw [hx] at hy; simp at hy; subst hy
  constructor
  · rintro hv' rfl
    obtain ⟨z, hz, hz'⟩ := inv.scopes sc' h' m a' hv'
    rw [hx] at hz; simp at hz; subst hz
    rcases hy' with hy' | ⟨h1, _⟩
    · rcases hz' with hz' | ⟨h2, _⟩
      · rw [hy'] at hz'; simp at hz'; exact hne hz'.1
      · exact hl h2
    · exact hl h1
  · intro hg
    obtain ⟨z, hz, hz'⟩ := inv.globals m a hg
    rw [hx] at hz; simp at hz; subst hz; exact hl hz'

/-- C32: two names of one scope never denote the same local symbol, and no name is a SET symbol and a parameter at once. -/
theorem C32_name_denotes_one (ops : List Op) (hok : ∀ op ∈ ops, op.Ok) (s : St) (hs : s = St.run {} ops)
    (sc : Scope) (h : sc ∈ s.scopes) (n m : Name) (a : Nat) (hv : sc.vars n = some a) :
    (sc.vars m = some a → n = m) ∧ sc.params n = false := by
  have inv := inv_run ops hok {} inv_init
  rw [← hs] at inv
  obtain ⟨y, hy, hy'⟩ := inv.scopes sc h n a hv
  constructor
  · intro hm
    obtain ⟨z, hz, hz'⟩ := inv.scopes sc h m a hm
    rw [hy] at hz; simp at hz; subst hz
    rcases hy' with hy' | ⟨h1, h2⟩ <;> rcases hz' with hz' | ⟨h3, h4⟩
    · rw [hy'] at hz'; simpa using hz'
    · rw [hy'] at h3; simp at h3
    · rw [hz'] at h1; simp at h1
    · exact inv.globInj n m a h2 h4
  · cases hp : sc.params n with
    | false => rfl
    | true => have := inv.disjoint sc h n hp; rw [hv] at this; simp at this

/-- C32: leaving a macro makes its local symbols unreachable: no scope and no global declaration refers to them. -/
theorem C32_local_gone (ops : List Op) (hok : ∀ op ∈ ops, op.Ok) (s : St) (hs : s = St.run {} ops) (hin : s.rest ≠ [])
    (a : Nat) (x : SetSym) (k : Name) (hx : s.heap[a]? = some x) (hown : x.owner = some (s.top.id, k)) :
    let s' := s.step .leave
    (∀ sc ∈ s'.scopes, ∀ m, sc.vars m ≠ some a) ∧ ∀ m, s'.globals m ≠ some a := by
  have inv := inv_run ops hok {} inv_init
  rw [← hs] at inv
  cases hr : s.rest with
  | nil => exact absurd hr hin
  | cons sc0 r =>
    have hs' : s.step .leave = { s with top := sc0, rest := r } := by simp [St.step, hr]
    rw [hs']
    constructor
    · intro sc hsc m hm
      have hsc' : sc ∈ s.rest := by rw [hr]; exact hsc
      obtain ⟨z, hz, hz'⟩ := inv.scopes sc (List.mem_cons_of_mem _ hsc') m a hm
      rw [hx] at hz; simp at hz; subst hz
      rcases hz' with hz' | ⟨h2, _⟩
      · rw [hown] at hz'; simp at hz'
        have := inv.ids
        rw [List.map_cons, List.nodup_cons] at this
        exact this.1 (List.mem_map.mpr ⟨sc, hsc', hz'.1.symm⟩)
      · rw [hown] at h2; simp at h2
    · intro m hm
      obtain ⟨z, hz, hz'⟩ := inv.globals m a hm
      rw [hx] at hz; simp at hz; subst hz; rw [hown] at hz'; simp at hz'

/-- One statement cannot change the local symbols of the calling scopes. -/
theorem step_keeps_callers {s : St} (inv : Inv s) (op : Op) (sc : Scope) (hsc : sc ∈ s.rest) (n : Name) (a : Nat) (x : SetSym)
    (hv : sc.vars n = some a) (hx : s.heap[a]? = some x) (hl : x.owner ≠ none) : (s.step op).heap[a]? = some x := by
  have hne : s.top.id ≠ sc.id := by
    have := inv.ids
    rw [List.map_cons, List.nodup_cons] at this
    intro e
    exact this.1 (List.mem_map.mpr ⟨sc, hsc, e.symm⟩)
  obtain ⟨y, hy, hy'⟩ := inv.scopes sc (List.mem_cons_of_mem _ hsc) n a hv
  rw [hx] at hy; simp at hy; subst hy
  have hown : x.owner = some (sc.id, n) := by
    rcases hy' with h | ⟨h, _⟩
    · exact h
    · exact absurd h hl
  have halen : a < s.heap.length := by rw [List.getElem?_eq_some_iff] at hx; exact hx.1
  have hmod : ∀ (heap : List SetSym) b base vs, b ≠ a → heap[a]? = some x →
      (heap.modify b fun y => y.assign base vs)[a]? = some x := by
    intro heap b base vs hb hh
    rw [List.getElem?_modify, hh]; simp [hb]
  have hsys : ∀ (s : St) (p : Name × Val), s.heap[a]? = some x → (s.insertSys p).heap[a]? = some x := by
    intro s p h
    unfold St.insertSys
    split
    · exact h
    · have hl : a < s.heap.length := by rw [List.getElem?_eq_some_iff] at h; exact h.1
      exact hmod _ _ _ _ (by omega) (getElem?_append_some h)
  have hsysL : ∀ (l : List (Name × Val)) (s : St), s.heap[a]? = some x → (l.foldl St.insertSys s).heap[a]? = some x := by
    intro l; induction l with
    | nil => intro s h; exact h
    | cons p l ih => intro s h; exact ih _ (hsys s p h)
  have hglobL : ∀ (l : List Name) (s : St), (l.foldl St.insertGlob s).heap = s.heap := by
    intro l; induction l with
    | nil => intro s; rfl
    | cons p l ih => intro s; rw [List.foldl_cons, ih]; unfold St.insertGlob; split <;> rfl
  cases op with
  | lcl ty m c =>
    simp only [St.step]; split
    · exact getElem?_append_some hx
    · exact hx
  | gbl ty m c =>
    simp only [St.step]; split
    · unfold St.newGlobal
      split
      · exact hx
      · exact getElem?_append_some hx
    · exact hx
  | set ty m sub vals =>
    simp only [St.step, St.setStmt]
    split
    · exact hx
    · split
      · exact hx
      · exact hmod _ _ _ _ (by omega) (getElem?_append_some hx)
    · next b hb =>
      split
      · exact hx
      · split
        · exact hx
        · next sym hsym =>
          split
          · exact hx
          · split
            · exact hx
            · refine hmod _ _ _ _ ?_ hx
              rintro rfl
              -- the current scope cannot refer to a local symbol of another scope
              have hvt : s.top.vars m = some b := by
                unfold St.resolve at hb
                cases hv' : s.top.vars m with
                | some c => simp [hv'] at hb; rw [hb]
                | none => simp only [hv'] at hb; split at hb <;> simp at hb
              obtain ⟨z, hz, hz'⟩ := inv.scopes s.top (by simp) m b hvt
              rw [hx] at hz; simp at hz; subst hz
              rcases hz' with hz' | ⟨h2, _⟩
              · rw [hown] at hz'; simp at hz'; exact hne hz'.1.symm
              · exact hl h2
  | enter params sys sg =>
    simp only [St.step, St.enterMacro]
    rw [hglobL]
    exact hsysL _ _ (hsys _ _ hx)
  | leave => simp only [St.step]; split <;> exact hx

/-- All states during `ops` keep at least `k` callers below the current scope. -/
def Above (k : Nat) : St → List Op → Prop
  | _, [] => True
  | s, op :: ops => k ≤ (s.step op).rest.length ∧ Above k (s.step op) ops

theorem step_rest (s : St) (op : Op) (base : List Scope) (h : ∃ pre, s.rest = pre ++ base)
    (hk : base.length ≤ (s.step op).rest.length) : ∃ pre, (s.step op).rest = pre ++ base := by
  obtain ⟨pre, hp⟩ := h
  have hsysL : ∀ (l : List (Name × Val)) (s : St), (l.foldl St.insertSys s).rest = s.rest := by
    intro l; induction l with
    | nil => intro s; rfl
    | cons p l ih => intro s; rw [List.foldl_cons, ih]; unfold St.insertSys; split <;> rfl
  have hglobL : ∀ (l : List Name) (s : St), (l.foldl St.insertGlob s).rest = s.rest := by
    intro l; induction l with
    | nil => intro s; rfl
    | cons p l ih => intro s; rw [List.foldl_cons, ih]; unfold St.insertGlob; split <;> rfl
  cases op with
  | lcl ty m c => simp only [St.step]; split <;> exact ⟨pre, hp⟩
  | gbl ty m c =>
    simp only [St.step]; split
    · unfold St.newGlobal; split <;> exact ⟨pre, hp⟩
    · exact ⟨pre, hp⟩
  | set ty m sub vals =>
    simp only [St.step, St.setStmt]
    split
    · exact ⟨pre, hp⟩
    · split <;> exact ⟨pre, hp⟩
    · split
      · exact ⟨pre, hp⟩
      · split
        · exact ⟨pre, hp⟩
        · split
          · exact ⟨pre, hp⟩
          · split <;> exact ⟨pre, hp⟩
  | enter params sys sg =>
    simp only [St.step, St.enterMacro]
    rw [hglobL, hsysL]
    have : ∀ (s : St) p, (s.insertSys p).rest = s.rest := by intro s p; unfold St.insertSys; split <;> rfl
    rw [this]
    exact ⟨s.top :: pre, by simp [hp]⟩
  | leave =>
    simp only [St.step] at hk ⊢
    split
    · exact ⟨pre, hp⟩
    · next sc r hr =>
      rw [hr] at hk hp
      simp only at hk
      cases pre with
      | nil =>
        simp at hp
        rw [← hp] at hk; simp at hk; omega
      | cons p pre => simp at hp; exact ⟨pre, hp.2⟩

/-- C32: whatever a called macro does, including nested calls, the local SET symbols of its callers keep their values. -/
theorem C32_callers_untouched (ops : List Op) (hok : ∀ op ∈ ops, op.Ok) : ∀ (s : St), Inv s → ∀ (base : List Scope),
    (∃ pre, s.rest = pre ++ base) → Above base.length s ops →
    ∀ sc ∈ base, ∀ n a x, sc.vars n = some a → s.heap[a]? = some x → x.owner ≠ none → (s.run ops).heap[a]? = some x := by
  induction ops with
  | nil => intro s _ base _ _ sc _ n a x _ hx _; exact hx
  | cons op ops ih =>
    intro s inv base hb hab sc hsc n a x hv hx hl
    obtain ⟨h1, h2⟩ := hab
    have hsc' : sc ∈ s.rest := by obtain ⟨pre, hp⟩ := hb; rw [hp]; simp [hsc]
    have hx' := step_keeps_callers inv op sc hsc' n a x hv hx hl
    exact ih (fun o ho => hok o (by simp [ho])) _ (inv_step inv op (hok op (by simp))) base (step_rest s op base hb h1) h2
      sc hsc n a x hv hx' hl

/-- Non-vacuity: a global set in a macro is seen in open code, a local of the same name is not. -/
example : let s := St.run {} [.gbl .A [71] true, .lcl .A [76] true, .set .A [76] none [.a 1],
      .enter (fun _ => false) [] [], .gbl .A [71] true, .set .A [71] none [.a 5], .set .A [76] none [.a 9], .leave]
    s.read [71] none = some (.a 5) ∧ s.read [76] none = some (.a 1) := by decide +kernel

/-- Observation: the type of a second declaration is ignored; after GBLA in open code, GBLC in a macro gives an A symbol and
SETC is refused. -/
theorem C32_witness_type : let s := St.run {} [.gbl .A [71] true, .enter (fun _ => false) [] [], .gbl .C [71] true,
      .set .C [71] none [.c [65]]]
    s.read [71] none = some (.a 0) := by decide +kernel

/-! ### C33 -/

/-- The number denoted by decimal digits. -/
def decVal (d : Bytes) : Nat := d.foldl (fun acc b => acc * 10 + (b.toNat - 48)) 0

theorem digit_val (k : Nat) (h : k < 10) : (48 + UInt8.ofNat k).toNat = 48 + k := by
  rw [UInt8.toNat_add, UInt8.toNat_ofNat']
  have : UInt8.toNat 48 = 48 := rfl
  omega

theorem decVal_toDec (n : Nat) : decVal (toDec n) = n := by
  fun_induction toDec n with
  | case1 n h => simp [decVal, digit_val n h]
  | case2 n h ih =>
    unfold decVal at *
    rw [List.foldl_append, ih]
    simp only [List.foldl_cons, List.foldl_nil, digit_val (n % 10) (by omega)]
    omega

theorem decVal_sysndx (n : Nat) : decVal (sysndxValue n) = n := by
  unfold sysndxValue decVal
  rw [List.foldl_append]
  have : ∀ k, (List.replicate k (48 : UInt8)).foldl (fun acc b => acc * 10 + (b.toNat - 48)) 0 = 0 := by
    intro k; induction k with
    | zero => rfl
    | succ k ih => rw [List.replicate_succ, List.foldl_cons]; simpa using ih
  rw [this]
  exact decVal_toDec n

theorem toDec_digits (n : Nat) : ∀ b ∈ toDec n, 48 ≤ b.toNat ∧ b.toNat ≤ 57 := by
  fun_induction toDec n with
  | case1 n h => intro b hb; simp at hb; subst hb; rw [digit_val n h]; omega
  | case2 n h ih =>
    intro b hb
    rw [List.mem_append] at hb
    rcases hb with hb | hb
    · exact ih b hb
    · simp at hb; subst hb; rw [digit_val (n % 10) (by omega)]; omega

/-- C33: the value given to the call with number `n` is a decimal number of at least four digits whose value is `n`; hence
different calls see different values, increasing in call order. -/
theorem C33_value (n : Nat) : 4 ≤ (sysndxValue n).length ∧ (∀ b ∈ sysndxValue n, 48 ≤ b.toNat ∧ b.toNat ≤ 57) ∧
    decVal (sysndxValue n) = n ∧ ∀ m, sysndxValue m = sysndxValue n → m = n := by
  refine ⟨?_, ?_, decVal_sysndx n, ?_⟩
  · simp [sysndxValue]; omega
  · intro b hb
    rw [sysndxValue, List.mem_append] at hb
    rcases hb with hb | hb
    · have := List.eq_of_mem_replicate hb; subst this; decide
    · exact toDec_digits n b hb
  · intro m h
    rw [← decVal_sysndx m, h, decVal_sysndx]

/-- Number of macro calls in a history. -/
def calls (ops : List Op) : Nat := (ops.filter fun op => match op with | .enter _ _ _ => true | _ => false).length

theorem ndx_step (s : St) (op : Op) : (s.step op).ndx = s.ndx + match op with | .enter _ _ _ => 1 | _ => 0 := by
  cases op with
  | lcl ty m c => simp only [St.step]; split <;> rfl
  | gbl ty m c =>
    simp only [St.step]; split
    · unfold St.newGlobal; split <;> rfl
    · rfl
  | set ty m sub vals =>
    simp only [St.step, St.setStmt]
    split
    · rfl
    · split <;> rfl
    · split
      · rfl
      · split
        · rfl
        · split
          · rfl
          · split <;> rfl
  | enter params sys sg => rfl
  | leave => simp only [St.step]; split <;> rfl

theorem ndx_run (ops : List Op) : ∀ s : St, (s.run ops).ndx = s.ndx + calls ops := by
  induction ops with
  | nil => intro s; rfl
  | cons op ops ih =>
    intro s
    have : s.run (op :: ops) = (s.step op).run ops := rfl
    rw [this, ih, ndx_step]
    unfold calls
    cases op <;> simp [List.filter_cons] <;> omega

/-- The `&SYSNDX` of every macro scope alive has the value of its call (the scope with number `k + 1` is that of the call
number `k`). -/
def NdxOk (s : St) : Prop := ∀ sc ∈ s.scopes, sc.id ≠ 0 → ∃ (a : Nat) (x : SetSym), sc.vars SYSNDX = some a ∧
  s.heap[a]? = some x ∧ x.owner = some (sc.id, SYSNDX) ∧ x.scalar = true ∧ x.get = .c (sysndxValue (sc.id - 1))

/-- Changes to other objects and names do not matter. -/
theorem ndxOk_of {s s' : St} (h : NdxOk s) (hscopes : ∀ sc' ∈ s'.scopes, ∃ sc ∈ s.scopes, sc'.id = sc.id ∧
      (∀ a, sc.vars SYSNDX = some a → sc'.vars SYSNDX = some a))
    (hheap : ∀ (a : Nat) (x : SetSym) k, s.heap[a]? = some x → x.owner = some (k, SYSNDX) → s'.heap[a]? = some x) : NdxOk s' := by
  intro sc' hsc' hid
  obtain ⟨sc, hsc, e, hv⟩ := hscopes sc' hsc'
  rw [e] at hid ⊢
  obtain ⟨a, x, h1, h2, h3, h4, h5⟩ := h sc hsc hid
  exact ⟨a, x, hv a h1, hheap a x _ h2 h3, h3, h4, h5⟩

theorem upd_keeps {s : St} {n : Name} {b : Nat} {a : Nat} (hu : s.top.vars n = none) (hv : s.top.vars SYSNDX = some a) :
    upd s.top.vars n (some b) SYSNDX = some a := by
  unfold upd
  split
  · next e => subst e; rw [hu] at hv; simp at hv
  · exact hv

theorem ndxOk_newLocal {s : St} (h : NdxOk s) (n : Name) (ty : Ty) (sc : Bool) (hu : s.top.vars n = none) :
    NdxOk (s.newLocal n ty sc) := by
  refine ndxOk_of h ?_ ?_
  · intro sc' hsc'
    simp only [St.scopes, List.mem_cons] at hsc'
    rcases hsc' with rfl | hsc'
    · exact ⟨s.top, by simp [St.scopes], rfl, fun a hv => upd_keeps hu hv⟩
    · exact ⟨sc', by simp [St.scopes]; exact Or.inr hsc', rfl, fun a hv => hv⟩
  · intro a x k hx _; exact getElem?_append_some hx

theorem ndxOk_newGlobal {s : St} (h : NdxOk s) (n : Name) (ty : Ty) (sc : Bool) (hu : s.top.vars n = none) :
    NdxOk (s.newGlobal n ty sc) := by
  unfold St.newGlobal
  split
  · refine ndxOk_of h ?_ ?_
    · intro sc' hsc'
      simp only [St.scopes, List.mem_cons] at hsc'
      rcases hsc' with rfl | hsc'
      · exact ⟨s.top, by simp [St.scopes], rfl, fun a hv => upd_keeps hu hv⟩
      · exact ⟨sc', by simp [St.scopes]; exact Or.inr hsc', rfl, fun a hv => hv⟩
    · intro a x k hx _; exact hx
  · refine ndxOk_of h ?_ ?_
    · intro sc' hsc'
      simp only [St.scopes, List.mem_cons] at hsc'
      rcases hsc' with rfl | hsc'
      · exact ⟨s.top, by simp [St.scopes], rfl, fun a hv => upd_keeps hu hv⟩
      · exact ⟨sc', by simp [St.scopes]; exact Or.inr hsc', rfl, fun a hv => hv⟩
    · intro a x k hx _; exact getElem?_append_some hx

theorem ndxOk_assign {s : St} (h : NdxOk s) (b base : Nat) (vs : List Val)
    (hb : ∀ (x : SetSym) k, s.heap[b]? = some x → x.owner ≠ some (k, SYSNDX)) : NdxOk (s.assign b base vs) := by
  refine ndxOk_of h (fun sc' hsc' => ⟨sc', hsc', rfl, fun a hv => hv⟩) ?_
  intro a x k hx ho
  have : b ≠ a := by rintro rfl; exact hb x k hx ho
  show (s.heap.modify b fun y => y.assign base vs)[a]? = some x
  rw [List.getElem?_modify, hx]; simp [this]

theorem ndxOk_insertSys {s : St} (h : NdxOk s) (p : Name × Val) (hp : p.1 ≠ SYSNDX) : NdxOk (s.insertSys p) := by
  unfold St.insertSys
  split
  · exact h
  · next hu =>
    refine ndxOk_assign (ndxOk_newLocal h _ _ _ hu) _ _ _ ?_
    intro x k hx
    simp [St.newLocal] at hx
    subst hx
    intro e; simp at e; exact hp e.2

theorem ndxOk_insertGlob {s : St} (h : NdxOk s) (n : Name) : NdxOk (s.insertGlob n) := by
  unfold St.insertGlob
  split
  · next a hu hg =>
    have := ndxOk_newGlobal h n .C true hu
    unfold St.newGlobal at this
    rw [hg] at this
    exact this
  · exact h

/-- The statement does not assign `&SYSNDX`. -/
def Op.NoNdx : Op → Prop
  | .set _ n _ _ => n ≠ SYSNDX
  | .enter _ sys _ => ∀ p ∈ sys, p.1 ≠ SYSNDX
  | _ => True

theorem ndxOk_step {s : St} (inv : Inv s) (h : NdxOk s) (op : Op) (hn : op.NoNdx) (hok : op.Ok) : NdxOk (s.step op) := by
  cases op with
  | lcl ty m c =>
    simp only [St.step]; split
    · next hr => exact ndxOk_newLocal h m ty c (resolve_undef hr).1
    · exact h
  | gbl ty m c =>
    simp only [St.step]; split
    · next hr => exact ndxOk_newGlobal h m ty c (resolve_undef hr).1
    · exact h
  | set ty m sub vals =>
    simp only [Op.NoNdx] at hn
    simp only [St.step, St.setStmt]
    split
    · exact h
    · next hr =>
      split
      · exact h
      · refine ndxOk_assign (ndxOk_newLocal h _ _ _ (resolve_undef hr).1) _ _ _ ?_
        intro x k hx
        simp [St.newLocal] at hx
        subst hx
        intro e; simp at e; exact hn e.2
    · next b hb =>
      split
      · exact h
      · split
        · exact h
        · split
          · exact h
          · split
            · exact h
            · refine ndxOk_assign h _ _ _ ?_
              intro x k hx ho
              have hvt : s.top.vars m = some b := by
                unfold St.resolve at hb
                cases hv' : s.top.vars m with
                | some c => simp [hv'] at hb; rw [hb]
                | none => simp only [hv'] at hb; split at hb <;> simp at hb
              obtain ⟨z, hz, hz'⟩ := inv.scopes s.top (by simp) m b hvt
              rw [hx] at hz; simp at hz; subst hz
              rcases hz' with hz' | ⟨h2, _⟩
              · rw [ho] at hz'; simp at hz'; exact hn hz'.2.symm
              · rw [ho] at h2; simp at h2
  | enter params sys sg =>
    simp only [Op.NoNdx] at hn
    simp only [St.step, St.enterMacro]
    have h2 : NdxOk (St.insertSys { s with top := { id := s.ndx + 1, params := params }, rest := s.top :: s.rest }
        (SYSNDX, .c (sysndxValue s.ndx))) := by
      unfold St.insertSys
      simp only
      intro sc hsc hid
      simp only [St.scopes, St.assign, St.newLocal, List.mem_cons] at hsc
      rcases hsc with rfl | hsc
      · refine ⟨s.heap.length, ({ scalar := true, ty := .C, owner := some (s.ndx + 1, SYSNDX) } : SetSym).assign 0
          [.c (sysndxValue s.ndx)], by simp [upd], ?_, ?_, ?_, ?_⟩
        · simp only [St.assign, St.newLocal]
          rw [List.getElem?_modify, List.getElem?_append_right (Nat.le_refl _)]
          simp only [Nat.sub_self, List.getElem?_cons_zero, Option.map_eq_map, Option.map_some, if_true]
          rfl
        · rfl
        · rfl
        · rfl
      · obtain ⟨a, x, h1, h2, h3, h4, h5⟩ := h sc (by simp [St.scopes]; exact hsc) hid
        refine ⟨a, x, h1, ?_, h3, h4, h5⟩
        have hl : a < s.heap.length := by rw [List.getElem?_eq_some_iff] at h2; exact h2.1
        simp only [St.assign, St.newLocal]
        rw [List.getElem?_modify, getElem?_append_some h2]
        have : ¬ s.heap.length = a := by omega
        simp [this]
    have foldSys : ∀ (l : List (Name × Val)) (s : St), NdxOk s → (∀ p ∈ l, p.1 ≠ SYSNDX) → NdxOk (l.foldl St.insertSys s) := by
      intro l; induction l with
      | nil => intro s h _; exact h
      | cons p l ih =>
        intro s h hl
        exact ih _ (ndxOk_insertSys h p (hl p (by simp))) (fun q hq => hl q (by simp [hq]))
    have foldGlob : ∀ (l : List Name) (s : St), NdxOk s → NdxOk (l.foldl St.insertGlob s) := by
      intro l; induction l with
      | nil => intro s h; exact h
      | cons p l ih => intro s h; exact ih _ (ndxOk_insertGlob h p)
    exact foldGlob sg _ (foldSys sys _ h2 hn)
  | leave =>
    simp only [St.step]
    split
    · exact h
    · next sc r hr =>
      intro x hx hid
      exact h x (by simp [St.scopes, hr] at hx ⊢; exact Or.inr hx) hid

/-- The call number of the current scope: 0 is the first macro call. -/
def St.callNumber (s : St) : Nat := s.top.id - 1

/-- C33: during the whole life of a macro scope, in every history that does not assign `&SYSNDX` explicitly, reading
`&SYSNDX` gives the value of the call; scopes alive at the same time belong to different calls. -/
theorem C33_constant_partial (ops : List Op) (hok : ∀ op ∈ ops, op.Ok) (hn : ∀ op ∈ ops, op.NoNdx) (s : St)
    (hs : s = St.run {} ops) (hin : s.top.id ≠ 0) :
    s.read SYSNDX none = some (.c (sysndxValue s.callNumber)) ∧ (s.scopes.map (·.id)).Nodup ∧
      ∀ sc ∈ s.scopes, sc.id ≤ calls ops := by
  have key : ∀ (ops : List Op) (s : St), (∀ op ∈ ops, op.Ok) → (∀ op ∈ ops, op.NoNdx) → Inv s → NdxOk s →
      Inv (s.run ops) ∧ NdxOk (s.run ops) := by
    intro ops
    induction ops with
    | nil => intro s _ _ h1 h2; exact ⟨h1, h2⟩
    | cons op ops ih =>
      intro s k1 k2 h1 h2
      exact ih _ (fun o ho => k1 o (by simp [ho])) (fun o ho => k2 o (by simp [ho])) (inv_step h1 op (k1 op (by simp)))
        (ndxOk_step h1 h2 op (k2 op (by simp)) (k1 op (by simp)))
  have h0 : NdxOk {} := by intro sc hsc hid; simp [St.scopes] at hsc; subst hsc; exact absurd rfl hid
  obtain ⟨inv, ndx⟩ := key ops {} hok hn inv_init h0
  have hcalls := ndx_run ops {}
  rw [← hs] at inv ndx hcalls
  refine ⟨?_, inv.ids, ?_⟩
  · obtain ⟨a, x, h1, h2, _, h4, h5⟩ := ndx s.top (by simp [St.scopes]) hin
    simp [St.read, St.resolve, h1, h2, h4, h5, St.callNumber]
  · intro sc hsc
    have := inv.idle sc hsc
    rw [hcalls] at this
    simpa using this

/-- C33: entering a macro after `k` calls starts the call with number `k`. -/
theorem C33_call_number (ops : List Op) (params : Name → Bool) (sys : List (Name × Val)) (sg : List Name) :
    ((St.run {} ops).step (.enter params sys sg)).callNumber = calls ops := by
  have hsys : ∀ (l : List (Name × Val)) (s : St), (l.foldl St.insertSys s).top.id = s.top.id := by
    intro l; induction l with
    | nil => intro s; rfl
    | cons p l ih => intro s; rw [List.foldl_cons, ih, (insertSys_top s p).2]
  have hglob : ∀ (l : List Name) (s : St), (l.foldl St.insertGlob s).top.id = s.top.id := by
    intro l; induction l with
    | nil => intro s; rfl
    | cons p l ih => intro s; rw [List.foldl_cons, ih, (insertGlob_top s p).2]
  simp only [St.step, St.enterMacro, St.callNumber]
  rw [hglob, hsys, (insertSys_top _ _).2]
  have := ndx_run ops {}
  simp at this ⊢
  exact this

/-- Violation: a macro may assign `&SYSNDX` like any SETC symbol, so two calls can see the same value. -/
theorem C33_witness_assigned :
    let s := St.run {} [.enter (fun _ => false) [] [], .set .C SYSNDX none [.c [88]]]
    s.read SYSNDX none = some (.c [88]) := by decide +kernel

example : sysndxValue 0 = [48, 48, 48, 48] ∧ sysndxValue 12345 = [49, 50, 51, 52, 53] := by decide +kernel
example : let s := St.run {} [.enter (fun _ => false) [] [], .enter (fun _ => false) [] [], .leave]
    s.read SYSNDX none = some (.c [48, 48, 48, 48]) := by decide +kernel

/-- C31: an assignment of another type than the one declared, to a scalar with a subscript, to an array without one, or with a subscript
below one, changes nothing. -/
theorem C31_refused (s : St) (ty : Ty) (n : Name) (sub : Option Int) (vals : List Val) (a : Nat) (sym : SetSym)
    (hr : s.resolve n = .sym a) (ha : s.heap[a]? = some sym)
    (h : sym.ty ≠ ty ∨ sym.scalar ≠ sub.isNone ∨ ∃ i, sub = some i ∧ i < 1) : s.step (.set ty n sub vals) = s := by
  simp only [St.step, St.setStmt, hr, ha]
  by_cases hb : subBad sub = true
  · rw [if_pos hb]
  · rw [if_neg hb]
    rcases h with h | h | ⟨i, rfl, h⟩
    · simp [h]
    · by_cases ht : sym.ty ≠ ty <;> simp [ht, h]
    · simp [subBad, h] at hb

example : (St.run {} [.lcl .A [86] true, .set .A [86] none [.a 5], .set .C [86] none [.c [65]], .set .A [86] (some 2) [.a 7]]).read [86] none = some (.a 5) := by
  decide +kernel

end Verif.Context
