import Verif.Whole.Eval
/-!
Assembling as a sequence of small steps, and what later steps leave alone.
-/
namespace Verif.Whole
open Verif.Ord

/-- The expression depends on nothing any more. -/
def Closed (st : St) (x : MExpr) : Prop := (x.collect st.env st.tab).syms = [] ∧ (x.collect st.env st.tab).spaces = [] ∧
  ∀ b, (x.collect st.env st.tab).addr = some b → b.norm st.env.heap = []

/-- Small steps, with the position in the section. `σ` gives the final lengths. -/
inductive Tr (F : Values) (σ : SpId → Int) : St → Int → St → Int → Prop
  | align {st p al} : Pow al → al.byte = 0 → Tr F σ st p (st.align al) (alignUp al p)
  | label {st p n a} : st.tab n = none → a ∈ st.lc.log → Tr F σ st p { st with tab := st.tab.set n (mkSym (.reloc a)) } p
  | now {st p n a e} : st.tab n = none → a ∈ st.lc.log → Tidy F e → (IsNumber F e ∨ IsPlace F e) → Closed st (fill a e) →
      (fill a e).resolve st.env.heap st.tab ≠ .ub →
      Tr F σ st p { st with tab := st.tab.set n (mkSym ((fill a e).resolve st.env.heap st.tab)) } p
  | address {st p n a e b} : st.tab n = none → a ∈ st.lc.log → (IsNumber F e ∨ IsPlace F e ∧ (st.lc.spaces = [] ∨ Bare e)) →
      ((fill a e).collect st.env st.tab).contains st.env = true → ((fill a e).collect st.env st.tab).isAddress = true →
      ((fill a e).collect st.env st.tab).addr = some b → Tr F σ st p { st with tab := st.tab.set n (mkSym (.reloc b)) } p
  | later {st p n a e} : st.tab n = none → a ∈ st.lc.log → Tidy F e → (IsNumber F e ∨ IsPlace F e) →
      Tr F σ st p { st with tab := st.tab.set n (mkSym .undef), deps := st.deps ++ [(n, fill a e)] } p
  | sym {st p n x} : (n, x) ∈ st.deps → Closed st x → x.resolve st.env.heap st.tab ≠ .ub →
      Tr F σ st p { st with tab := st.tab.set n (mkSym (x.resolve st.env.heap st.tab)), deps := st.deps.filter (·.1 ≠ n) } p
  | room {st p} (len : Nat) : Tr F σ st p { st with lc := st.lc.reserve len ⟨0, 1⟩ } (alignUp ⟨0, 1⟩ p + len)
  | gap {st} {p : Int} {al u a e} : Pow al → al.byte = 0 → al.boundary ∣ u → p % (al.boundary : Int) = 0 → a ∈ st.lc.log → Tidy F e → IsNumber F e →
      Tr F σ st p { st with lc := st.lc.gap st.lc.spaces.length al, gaps := st.gaps ++ [(st.lc.spaces.length, u, fill a e)] }
        (p + σ st.lc.spaces.length)
  | define {st p i u x} : (i, u, x) ∈ st.gaps → ((SpSrc.data [x]).collect st.env st.tab).extract st.env = [] → x.eval st.env.heap st.tab ≠ .ub →
      Tr F σ st p { st with lc := st.lc.step (.define i (byteLen u (x.eval st.env.heap st.tab))), gaps := st.gaps.filter (·.1 ≠ i) } p
  | settle {st p} (i : SpId) : Tr F σ st p { st with lc := st.lc.step (.settle i) } p

/-- Many steps. -/
inductive Trs (F : Values) (σ : SpId → Int) : St → Int → St → Int → Prop
  | refl {st p} : Trs F σ st p st p
  | head {st p st' p' st'' p''} : Tr F σ st p st' p' → Trs F σ st' p' st'' p'' → Trs F σ st p st'' p''

theorem Trs.trans {F σ a p b q c r} (h1 : Trs F σ a p b q) (h2 : Trs F σ b q c r) : Trs F σ a p c r := by
  induction h1 with
  | refl => exact h2
  | head h _ ih => exact .head h (ih h2)

theorem Trs.one {F σ a p b q} (h : Tr F σ a p b q) : Trs F σ a p b q := .head h .refl

/-! ### Spaces -/

/-- Spaces, lengths and addresses that stay. -/
structure Grow (c d : LC) : Prop where
  size : c.spaces.length ≤ d.spaces.length
  kind : ∀ i k, kindOf c.spaces i = some k → kindOf d.spaces i = some k
  len : ∀ i l, lenOf c.spaces i = some l → lenOf d.spaces i = some l
  log : c.log <+: d.log

theorem Grow.refl (c : LC) : Grow c c := ⟨Nat.le_refl _, fun _ _ h => h, fun _ _ h => h, List.prefix_refl _⟩
theorem Grow.trans {a b c : LC} (h1 : Grow a b) (h2 : Grow b c) : Grow a c :=
  ⟨Nat.le_trans h1.size h2.size, fun i k h => h2.kind i k (h1.kind i k h), fun i l h => h2.len i l (h1.len i l h), h1.log.trans h2.log⟩

theorem len_lt {sp : List Sp} {i l} (h : lenOf sp i = some l) : i < sp.length := by
  unfold lenOf at h
  cases hs : sp[i]? with
  | none => simp [hs] at h
  | some s => exact (List.getElem?_eq_some_iff.1 hs).1

/-- The spaces after a statement: the same, or one more without a length. -/
def OneMore (c d : LC) : Prop := d.spaces = c.spaces ∨ ∃ al dep, d.spaces = c.spaces ++ [⟨al, .alignment dep, none⟩]

theorem oneMore_reserve (c : LC) (len : Int) (al : Al) : OneMore c (c.reserve len al) := by
  unfold LC.reserve LC.alignTo
  simp only
  split
  · exact .inl rfl
  · split
    · exact .inr ⟨_, _, rfl⟩
    · exact .inl rfl

theorem log_reserve (c : LC) (len : Int) (al : Al) : (c.reserve len al).log = c.log ++ [(c.reserve len al).current] := by
  unfold LC.reserve LC.alignTo
  simp only
  split
  · rfl
  · split
    · rfl
    · rfl

theorem log_gap (c : LC) (i : Nat) (al : Al) : (c.gap i al).log = c.log ++ [(c.gap i al).current] := rfl

theorem grow_append {c d : LC} {s : Sp} (h : d.spaces = c.spaces ++ [s]) (hl : c.log <+: d.log) : Grow c d := by
  refine ⟨by rw [h]; simp, ?_, ?_, hl⟩
  · intro i k hk
    rw [h, kindOf_append, if_neg (Nat.ne_of_lt (kind_lt hk))]; exact hk
  · intro i l hk
    rw [h, lenOf_append, if_neg (Nat.ne_of_lt (len_lt hk))]; exact hk

theorem grow_same {c d : LC} (h : d.spaces = c.spaces) (hl : c.log <+: d.log) : Grow c d :=
  ⟨by rw [h], by rw [h]; exact fun _ _ h => h, by rw [h]; exact fun _ _ h => h, hl⟩

theorem grow_reserve (c : LC) (len : Int) (al : Al) : Grow c (c.reserve len al) := by
  have hl : c.log <+: (c.reserve len al).log := by rw [log_reserve]; exact List.prefix_append _ _
  rcases oneMore_reserve c len al with h | ⟨_, _, h⟩
  · exact grow_same h hl
  · exact grow_append h hl

theorem grow_gap (c : LC) (i : Nat) (al : Al) : Grow c (c.gap i al) :=
  grow_append (s := ⟨al, .ordinary i, none⟩) rfl (by rw [log_gap]; exact List.prefix_append _ _)

theorem log_setLen (c : LC) (i : SpId) (len : Int) : (c.setLen i len).log = c.log := by
  unfold LC.setLen
  split
  · rfl
  · split <;> rfl

theorem len_setLen_keep (c : LC) (i : SpId) (len : Int) (j : SpId) {l : Int} (h : lenOf c.spaces j = some l) : lenOf (c.setLen i len).spaces j = some l := by
  unfold LC.setLen
  split
  · exact h
  · rename_i s hs
    split
    · exact h
    · rename_i hn
      simp only
      rw [lenOf_set hs, if_neg]
      · exact h
      · rintro rfl
        unfold lenOf at h
        rw [hs] at h
        simp [hn] at h

theorem grow_setLen (c : LC) (i : SpId) (len : Int) : Grow c (c.setLen i len) :=
  ⟨by rw [length_setLen], fun j k h => by rw [lookup_setLen_kind]; exact h, fun j l h => len_setLen_keep c i len j h, by rw [log_setLen]; exact List.prefix_refl _⟩

theorem grow_define (c : LC) (i : SpId) (len : Int) : Grow c (c.step (.define i len)) := by
  unfold LC.step
  simp only
  split
  · exact grow_setLen _ _ _
  · exact .refl _

theorem grow_settle (c : LC) (i : SpId) : Grow c (c.step (.settle i)) := by
  unfold LC.step
  simp only
  split
  · split
    · exact grow_setLen _ _ _
    · exact .refl _
  · exact .refl _

/-- Defining a length leaves the other spaces alone. -/
theorem define_other (c : LC) (i j : SpId) (len : Int) (h : j ≠ i) : lenOf (c.step (.define i len)).spaces j = lenOf c.spaces j := by
  unfold LC.step
  simp only
  split
  · rename_i s hs
    unfold LC.setLen
    rw [hs]
    simp only
    split
    · rfl
    · simp only
      rw [lenOf_set hs, if_neg h]
  · rfl

theorem define_self (c : LC) (i : SpId) (len : Int) {n : Nat} (hk : kindOf c.spaces i = some (.ordinary n)) (hl : lenOf c.spaces i = none) :
    lenOf (c.step (.define i len)).spaces i = some len := by
  unfold kindOf at hk
  cases hs : c.spaces[i]? with
  | none => simp [hs] at hk
  | some s =>
    obtain ⟨al, k, l⟩ := s
    simp [hs] at hk
    subst hk
    unfold lenOf at hl
    simp [hs] at hl
    subst hl
    unfold LC.step
    simp only [hs]
    unfold LC.setLen
    simp only [hs]
    rw [lenOf_set hs, if_pos rfl]

/-- Settling an alignment leaves gaps alone. -/
theorem settle_ordinary (c : LC) (i j : SpId) {n : Nat} (hk : kindOf c.spaces j = some (.ordinary n)) :
    lenOf (c.step (.settle i)).spaces j = lenOf c.spaces j := by
  unfold LC.step
  simp only
  split
  · rename_i al d l hs
    split
    · unfold LC.setLen
      rw [hs]
      simp only
      split
      · rfl
      · simp only
        rw [lenOf_set hs, if_neg]
        rintro rfl
        unfold kindOf at hk
        rw [hs] at hk
        simp at hk
    · rfl
  · rfl

theorem kind_define (c : LC) (i j : SpId) (len : Int) : kindOf (c.step (.define i len)).spaces j = kindOf c.spaces j := by
  unfold LC.step
  simp only
  split
  · exact lookup_setLen_kind _ _ _ _
  · rfl

/-! ### What is well-formed -/

structure Wf (st : St) : Prop where
  deps : (st.deps.map (·.1)).Nodup
  open' : ∀ x ∈ st.deps, ∃ s, st.tab x.1 = some s ∧ s.val = .undef
  gaps : (st.gaps.map (·.1)).Nodup
  wait : ∀ x ∈ st.gaps, kindOf st.lc.spaces x.1 = some (.ordinary x.1) ∧ lenOf st.lc.spaces x.1 = none
  name : ∀ i n, kindOf st.lc.spaces i = some (.ordinary n) → n = i

theorem wf_init : Wf St.init := by
  constructor <;> simp [St.init, LC.init, kindOf]

/-- Symbols that have a value keep it. -/
def Keep (T U : Table) : Prop := ∀ n, T.value n ≠ .undef → U.value n = T.value n

structure Ext (st st' : St) : Prop where
  lc : Grow st.lc st'.lc
  tab : Keep st.tab st'.tab

theorem Ext.refl (st : St) : Ext st st := ⟨.refl _, fun _ _ => rfl⟩
theorem Ext.trans {a b c : St} (h1 : Ext a b) (h2 : Ext b c) : Ext a c :=
  ⟨h1.lc.trans h2.lc, fun n h => by rw [h2.tab n (by rw [h1.tab n h]; exact h), h1.tab n h]⟩

theorem value_set (T : Table) (n m : SymId) (s : Sym) : (T.set n s).value m = if m = n then s.val else T.value m := by
  unfold Table.value Table.set
  by_cases h : m = n <;> simp [h]

theorem keep_set {T : Table} {n : SymId} (h : T.value n = .undef) (s : Sym) : Keep T (T.set n s) := by
  intro m hm
  rw [value_set, if_neg]
  rintro rfl
  exact hm h

theorem value_none {T : Table} {n : SymId} (h : T n = none) : T.value n = .undef := by unfold Table.value; rw [h]

variable {F : Values} {σ : SpId → Int}

theorem tr_ext {st p st' p'} (hw : Wf st) (h : Tr F σ st p st' p') : Ext st st' := by
  cases h with
  | align => exact ⟨grow_reserve _ _ _, fun _ _ => rfl⟩
  | label h1 => exact ⟨.refl _, keep_set (value_none h1) _⟩
  | now h1 => exact ⟨.refl _, keep_set (value_none h1) _⟩
  | address h1 => exact ⟨.refl _, keep_set (value_none h1) _⟩
  | later h1 => exact ⟨.refl _, keep_set (value_none h1) _⟩
  | sym h1 =>
    obtain ⟨s, hs, hv⟩ := hw.open' _ h1
    refine ⟨.refl _, keep_set ?_ _⟩
    unfold Table.value
    simp only [] at hs
    rw [hs]; exact hv
  | room => exact ⟨grow_reserve _ _ _, fun _ _ => rfl⟩
  | gap => exact ⟨grow_gap _ _ _, fun _ _ => rfl⟩
  | define => exact ⟨grow_define _ _ _, fun _ _ => rfl⟩
  | settle i => exact ⟨grow_settle _ _, fun _ _ => rfl⟩

theorem nodup_filter_keys {α β : Type} {l : List (α × β)} (h : (l.map (·.1)).Nodup) (p) : ((l.filter p).map (·.1)).Nodup :=
  h.sublist (List.filter_sublist.map _)

theorem wf_new {st : St} (hw : Wf st) {n : SymId} (h : st.tab n = none) (s : Sym) : Wf { st with tab := st.tab.set n s } := by
  refine ⟨hw.deps, ?_, hw.gaps, hw.wait, hw.name⟩
  intro x hx
  obtain ⟨t, ht, hv⟩ := hw.open' x hx
  refine ⟨t, ?_, hv⟩
  show (if x.1 = n then some s else st.tab x.1) = some t
  rw [if_neg]
  · exact ht
  · intro e; rw [e, h] at ht; cases ht

theorem wf_oneMore {st : St} (hw : Wf st) {c : LC} (h : OneMore st.lc c) : Wf { st with lc := c } := by
  rcases h with h | ⟨al, d, h⟩
  · refine ⟨hw.deps, hw.open', hw.gaps, ?_, ?_⟩
    · intro x hx; show kindOf c.spaces _ = _ ∧ lenOf c.spaces _ = _; rw [h]; exact hw.wait x hx
    · intro i n hk; change kindOf c.spaces _ = _ at hk; rw [h] at hk; exact hw.name i n hk
  · refine ⟨hw.deps, hw.open', hw.gaps, ?_, ?_⟩
    · intro x hx
      obtain ⟨h1, h2⟩ := hw.wait x hx
      show kindOf c.spaces _ = _ ∧ lenOf c.spaces _ = _
      have := Nat.ne_of_lt (kind_lt h1)
      rw [h, kindOf_append, lenOf_append, if_neg this, if_neg this]
      exact ⟨h1, h2⟩
    · intro i n hk
      change kindOf c.spaces _ = _ at hk
      rw [h, kindOf_append] at hk
      split at hk
      · simp at hk
      · exact hw.name i n hk

theorem tr_wf {st p st' p'} (hw : Wf st) (h : Tr F σ st p st' p') : Wf st' := by
  cases h with
  | align => exact wf_oneMore hw (oneMore_reserve _ _ _)
  | label h1 => exact wf_new hw h1 _
  | now h1 => exact wf_new hw h1 _
  | address h1 => exact wf_new hw h1 _
  | later h1 =>
    rename_i n a e _ _ _
    have hnew := wf_new hw h1 (mkSym .undef)
    have hn : ∀ x ∈ st.deps, x.1 ≠ n := by
      intro x hx e
      obtain ⟨t, ht, _⟩ := hw.open' x hx
      rw [e, h1] at ht; cases ht
    refine ⟨?_, ?_, hw.gaps, hw.wait, hw.name⟩
    · show ((st.deps ++ [(n, fill a e)]).map (·.1)).Nodup
      rw [List.map_append]
      refine List.nodup_append.2 ⟨hw.deps, by simp, ?_⟩
      intro y hy z hz
      obtain ⟨x, hx, rfl⟩ := List.mem_map.1 hy
      simp at hz
      rw [hz]
      exact hn x hx
    · intro x hx
      rcases List.mem_append.1 hx with hx | hx
      · exact hnew.open' x hx
      · simp only [List.mem_singleton] at hx
        subst hx
        exact ⟨mkSym .undef, if_pos rfl, rfl⟩
  | sym h1 =>
    rename_i n x _ _
    refine ⟨nodup_filter_keys hw.deps _, ?_, hw.gaps, hw.wait, hw.name⟩
    intro y hy
    obtain ⟨hy1, hy2⟩ := List.mem_filter.1 hy
    obtain ⟨t, ht, hv⟩ := hw.open' y hy1
    refine ⟨t, ?_, hv⟩
    show (if y.1 = n then _ else st.tab y.1) = some t
    rw [if_neg (by simpa using hy2)]
    exact ht
  | room => exact wf_oneMore hw (oneMore_reserve _ _ _)
  | gap =>
    rename_i al u a e _ _ _ _ _ _ _
    have hsp : (st.lc.gap st.lc.spaces.length al).spaces = st.lc.spaces ++ [⟨al, .ordinary st.lc.spaces.length, none⟩] := rfl
    refine ⟨hw.deps, hw.open', ?_, ?_, ?_⟩
    · show ((st.gaps ++ [(st.lc.spaces.length, u, fill a e)]).map (·.1)).Nodup
      rw [List.map_append]
      refine List.nodup_append.2 ⟨hw.gaps, by simp, ?_⟩
      intro y hy z hz
      obtain ⟨x, hx, rfl⟩ := List.mem_map.1 hy
      simp at hz
      rw [hz]
      exact Nat.ne_of_lt (kind_lt (hw.wait x hx).1)
    · intro x hx
      show kindOf (st.lc.gap st.lc.spaces.length al).spaces _ = _ ∧ lenOf (st.lc.gap st.lc.spaces.length al).spaces _ = _
      rw [hsp, kindOf_append, lenOf_append]
      rcases List.mem_append.1 hx with hx | hx
      · have := Nat.ne_of_lt (kind_lt (hw.wait x hx).1)
        rw [if_neg this, if_neg this]
        exact hw.wait x hx
      · simp only [List.mem_singleton] at hx
        subst hx
        simp
    · intro i n hk
      change kindOf (st.lc.gap st.lc.spaces.length al).spaces _ = _ at hk
      rw [hsp, kindOf_append] at hk
      split at hk
      · rename_i hi; simp at hk; rw [hi, hk]
      · exact hw.name i n hk
  | define h1 =>
    refine ⟨hw.deps, hw.open', nodup_filter_keys hw.gaps _, ?_, ?_⟩
    · intro y hy
      obtain ⟨hy1, hy2⟩ := List.mem_filter.1 hy
      simp only []
      rw [kind_define, define_other _ _ _ _ (by simpa using hy2)]
      exact hw.wait y hy1
    · intro i n hk
      simp only [] at hk
      rw [kind_define] at hk
      exact hw.name i n hk
  | settle i =>
    refine ⟨hw.deps, hw.open', hw.gaps, ?_, ?_⟩
    · intro y hy
      simp only []
      rw [(step_settle _ _ _).1, settle_ordinary _ _ _ (hw.wait y hy).1]
      exact hw.wait y hy
    · intro j n hk
      simp only [] at hk
      rw [(step_settle _ _ _).1] at hk
      exact hw.name j n hk

theorem trs_wf {st p st' p'} (h : Trs F σ st p st' p') (hw : Wf st) : Wf st' := by
  induction h with
  | refl => exact hw
  | head h _ ih => exact ih (tr_wf hw h)

theorem trs_ext {st p st' p'} (h : Trs F σ st p st' p') (hw : Wf st) : Ext st st' := by
  induction h with
  | refl => exact .refl _
  | head h _ ih => exact (tr_ext hw h).trans (ih (tr_wf hw h))

/-! ### What waits is looked at in the end -/

theorem unique_key {α β : Type} {l : List (α × β)} (h : (l.map (·.1)).Nodup) {x y : α × β} (hx : x ∈ l) (hy : y ∈ l) (e : x.1 = y.1) : x = y := by
  induction l with
  | nil => cases hx
  | cons z l ih =>
    rw [List.map_cons, List.nodup_cons] at h
    rcases List.mem_cons.1 hx with rfl | hx' <;> rcases List.mem_cons.1 hy with rfl | hy'
    · rfl
    · exact absurd (List.mem_map.2 ⟨y, hy', e.symm⟩) h.1
    · exact absurd (List.mem_map.2 ⟨x, hx', e⟩) h.1
    · exact ih h.2 hx' hy'

/-- On the way a definition was evaluated. -/
def DepDone (F : Values) (σ : SpId → Int) (n : SymId) (x : MExpr) (st : St) (p : Int) (fin : St) (q : Int) : Prop :=
  ∃ mid r, Trs F σ st p mid r ∧ Trs F σ mid r fin q ∧ Closed mid x ∧ x.resolve mid.env.heap mid.tab ≠ .ub ∧
    (x.resolve mid.env.heap mid.tab ≠ .undef → fin.tab.value n = x.resolve mid.env.heap mid.tab)

theorem DepDone.head {n x st p st' p' fin q} (h : Tr F σ st p st' p') : DepDone F σ n x st' p' fin q → DepDone F σ n x st p fin q :=
  fun ⟨mid, r, a1, a2, a3⟩ => ⟨mid, r, .head h a1, a2, a3⟩

theorem dep_done {st p fin q} (h : Trs F σ st p fin q) (hw : Wf st) {n : SymId} {x : MExpr} (hx : (n, x) ∈ st.deps) (hf : fin.deps = []) :
    DepDone F σ n x st p fin q := by
  induction h with
  | refl => rw [hf] at hx; cases hx
  | head h t ih =>
    have hw' := tr_wf hw h
    have go := fun hx' => DepDone.head h (ih hw' hx' hf)
    cases h with
    | align => exact go hx
    | label => exact go hx
    | now => exact go hx
    | address => exact go hx
    | later => exact go (List.mem_append_left _ hx)
    | sym h1 h2 h3 =>
      rename_i m y
      by_cases e : n = m
      · subst e
        have := unique_key hw.deps hx h1 rfl
        cases this
        refine ⟨_, _, .refl, .head (.sym h1 h2 h3) t, h2, h3, ?_⟩
        intro hu
        have hk := (trs_ext t hw').tab n (by simp only [value_set, if_true, mkSym]; exact hu)
        rw [hk]
        simp [value_set, mkSym]
      · exact go (List.mem_filter.2 ⟨hx, by simpa using e⟩)
    | room => exact go hx
    | gap => exact go hx
    | define => exact go hx
    | settle => exact go hx

/-- On the way a length was evaluated. -/
def GapDone (F : Values) (σ : SpId → Int) (i : SpId) (u : Nat) (x : MExpr) (st : St) (p : Int) (fin : St) (q : Int) : Prop :=
  ∃ mid r, Trs F σ st p mid r ∧ Trs F σ mid r fin q ∧ ((SpSrc.data [x]).collect mid.env mid.tab).extract mid.env = [] ∧
      x.eval mid.env.heap mid.tab ≠ .ub ∧ lenOf fin.lc.spaces i = some ((byteLen u (x.eval mid.env.heap mid.tab) : Nat) : Int)

theorem GapDone.head {i u x st p st' p' fin q} (h : Tr F σ st p st' p') : GapDone F σ i u x st' p' fin q → GapDone F σ i u x st p fin q :=
  fun ⟨mid, r, a1, a2, a3⟩ => ⟨mid, r, .head h a1, a2, a3⟩

theorem gap_done {st p fin q} (h : Trs F σ st p fin q) (hw : Wf st) {i : SpId} {u : Nat} {x : MExpr} (hx : (i, u, x) ∈ st.gaps) (hf : fin.gaps = []) :
    GapDone F σ i u x st p fin q := by
  induction h with
  | refl => rw [hf] at hx; cases hx
  | head h t ih =>
    have hw' := tr_wf hw h
    have go := fun hx' => GapDone.head h (ih hw' hx' hf)
    cases h with
    | align => exact go hx
    | label => exact go hx
    | now => exact go hx
    | address => exact go hx
    | later => exact go hx
    | sym h1 h2 h3 => exact go hx
    | room => exact go hx
    | gap => exact go (List.mem_append_left _ hx)
    | define h1 h2 h3 =>
      rename_i m w y
      by_cases e : i = m
      · subst e
        have := unique_key hw.gaps hx h1 rfl
        cases this
        refine ⟨_, _, .refl, .head (.define h1 h2 h3) t, h2, h3, ?_⟩
        obtain ⟨hk, hl⟩ := hw.wait _ h1
        exact (trs_ext t hw').lc.len i _ (define_self _ _ _ hk hl)
      · exact go (List.mem_filter.2 ⟨hx, by simpa using e⟩)
    | settle => exact go hx

end Verif.Whole
