import Verif.Whole.Spec
import Verif.Ord.LocCtrProps
import Verif.Ord.SymbolProps
import Mathlib.Tactic.Tauto
import Mathlib.Tactic.Linarith
/-!
Evaluating an expression that depends on nothing any more gives its value in the end.
-/
namespace Verif.Whole
open Verif.Ord

/-! ### Lists of spaces that count each space once -/

def Ones (l : List (SpId × Int)) : Prop := (∀ e ∈ l, e.2 = 1) ∧ (l.map (·.1)).Nodup

/-- What is known of the spaces agrees with the lengths they have in the end. -/
structure Under (H : Heap) (v : SpId → Int) : Prop where
  flat : ∀ i s, H.info i = some s → s.ptrs = []
  len : ∀ i s, H.info i = some s → s.len = v i

def unknownIn (H : Heap) (l : List (SpId × Int)) : List (SpId × Int) := l.filter fun e => (H.info e.1).isNone

theorem ones_filter {l : List (SpId × Int)} (h : Ones l) (p) : Ones (l.filter p) :=
  ⟨fun e he => h.1 e (List.mem_filter.1 he).1, h.2.sublist ((List.filter_sublist).map _)⟩

theorem ones_canonical {l : List (SpId × Int)} (h : Ones l) : Canonical l := ⟨h.2, fun e he => by rw [h.1 e he]; decide⟩

theorem flat_eq {H : Heap} {v} (hu : Under H v) (l : List (SpId × Int)) : l.flatMap H.flat = unknownIn H l := by
  induction l with
  | nil => rfl
  | cons e l ih =>
    rw [List.flatMap_cons, ih]
    unfold unknownIn
    rw [List.filter_cons]
    cases hi : H.info e.1 with
    | none => rw [flat_unknown hi]; simp
    | some s => rw [flat_known hi, hu.flat _ _ hi]; simp

theorem unknownIn_unknown (H : Heap) (l : List (SpId × Int)) : ∀ e ∈ unknownIn H l, H.info e.1 = none := by
  intro e he
  have := (List.mem_filter.1 he).2
  simpa using this

theorem norm_eq {H : Heap} {v} (hu : Under H v) {l : List (SpId × Int)} (h : Ones l) : H.norm l = unknownIn H l := by
  have h1 : H.norm l = H.norm (unknownIn H l) := by
    unfold Heap.norm
    rw [flat_eq hu, flat_eq hu]
    congr 2
    unfold unknownIn
    rw [List.filter_filter]
    simp
  rw [h1]
  exact norm_canonical (ones_canonical (ones_filter h _)) (unknownIn_unknown H l)

theorem norm_norm (H : Heap) (l : List (SpId × Int)) : H.norm (H.norm l) = H.norm l := norm_canonical (canonical_norm H l) (norm_unknown H l)

theorem norm_nil (H : Heap) : H.norm [] = [] := rfl

theorem ones_norm {H : Heap} {v} (hu : Under H v) {l : List (SpId × Int)} (h : Ones l) : Ones (H.norm l) := by
  rw [norm_eq hu h]; exact ones_filter h _

theorem aval_eq {H : Heap} {v} (hu : Under H v) (a : Addr) (h : Ones a.spaces) : aval v a = a.offset H + vsum v (a.norm H) := by
  unfold aval Addr.offset Addr.norm
  rw [norm_eq hu h]
  have : ∀ l : List (SpId × Int), vsum v l = (l.map fun e => H.offset e.1).sum + vsum v (unknownIn H l) := by
    intro l
    induction l with
    | nil => rfl
    | cons e l ih =>
      unfold unknownIn at ih ⊢
      rw [vsum_cons, ih, List.map_cons, List.sum_cons, List.filter_cons]
      cases hi : H.info e.1 with
      | none => rw [offset_unknown hi]; simp; ring
      | some s =>
        rw [offset_known hi, hu.flat _ _ hi, hu.len _ _ hi]; simp; ring
  rw [this a.spaces]; ring

theorem merge_nil_right {κ : Type} [DecidableEq κ] (op : AOp) (l : List (κ × Int)) : merge op l [] = l := by
  induction l with
  | nil => cases op <;> rfl
  | cons e l ih => unfold merge; simp [ih]

theorem merge_add_nil_left {κ : Type} [DecidableEq κ] (l : List (κ × Int)) : merge .add [] l = l := rfl

/-! ### Values -/

/-- A place in the section. -/
def SimpleA (a : Addr) : Prop := a.bases = [(owner, 1)] ∧ Ones a.spaces

/-- A value stands for what it is worth in the end. -/
def Rep (v : SpId → Int) : SVal → Option Val → Prop
  | .abs k, w => w = some (.abs k)
  | .reloc a, w => SimpleA a ∧ w = some (.rel (aval v a))
  | .undef, _ => False
  | .ub, _ => False

/-- All symbols that have a value have the value of the end. -/
def Good (v : SpId → Int) (F : Values) (T : Table) : Prop := ∀ n, T.value n ≠ .undef → Rep v (T.value n) (F n)

theorem addAll_nil_right {α : Type} [DecidableEq α] (l : List α) : addAll l [] = l := rfl

theorem addAll_mem {α : Type} [DecidableEq α] (r l : List α) (x : α) : x ∈ addAll l r ↔ x ∈ l ∨ x ∈ r := by
  unfold addAll
  induction r generalizing l with
  | nil => simp
  | cons y r ih =>
    rw [List.foldl_cons, ih]
    split
    · rename_i h
      constructor
      · rintro (h1 | h1)
        · exact .inl h1
        · exact .inr (by simp [h1])
      · rintro (h1 | h1)
        · exact .inl h1
        · rcases List.mem_cons.1 h1 with rfl | h1
          · exact .inl h
          · exact .inr h1
    · simp only [List.mem_append, List.mem_cons, List.not_mem_nil, or_false]
      tauto

theorem addAll_eq_nil {α : Type} [DecidableEq α] {l r : List α} : addAll l r = [] ↔ l = [] ∧ r = [] := by
  constructor
  · intro h
    constructor
    · refine List.eq_nil_iff_forall_not_mem.2 fun x hx => ?_
      have : x ∈ addAll l r := (addAll_mem r l x).2 (.inl hx)
      rw [h] at this; simp at this
    · refine List.eq_nil_iff_forall_not_mem.2 fun x hx => ?_
      have : x ∈ addAll l r := (addAll_mem r l x).2 (.inr hx)
      rw [h] at this; simp at this
  · rintro ⟨rfl, rfl⟩; rfl

/-- The sections of an address that stands for a value. -/
def BasesOf : Val → Option Addr → Prop
  | .abs _, o => ∀ b, o = some b → b.bases = []
  | .rel _, o => ∃ b, o = some b ∧ b.bases = [(owner, 1)]

section
variable {E : Env} {T : Table} {v : SpId → Int} {F : Values}

theorem addSub_ok {op : AOp} {c h : Coll} (hc : c.err = false) (hh : h.err = false) (hca : c.attrs = []) (hha : h.attrs = []) :
    (c.addSub E op h).err = false ∧ (c.addSub E op h).attrs = [] ∧ (c.addSub E op h).syms = addAll c.syms h.syms ∧
    (c.addSub E op h).spaces = addAll c.spaces h.spaces ∧
    (c.syms = [] → h.syms = [] → (c.addSub E op h).addr = joinAddr E op c.addr h.addr) := by
  unfold Coll.addSub Coll.mergeUndef Coll.mergeDone
  simp only [hh, Bool.false_or, Bool.false_eq_true, if_false]
  split
  · rename_i hd
    refine ⟨rfl, by simp [hca, hha, addAll], rfl, rfl, ?_⟩
    intro h1 h2
    simp [h1, h2, addAll] at hd
  · exact ⟨rfl, by simp [hca, hha, addAll], rfl, rfl, fun _ _ => rfl⟩

theorem adjust_id (hE : E.unknown = fun _ => false) (a : Addr) : adjust E a = a := by
  unfold adjust
  rw [if_neg]
  simp [hE]

theorem divMul_ok {c h : Coll} (hc : c.err = false) (hh : h.err = false) (hca : c.attrs = []) (hha : h.attrs = [])
    (h1 : c.syms = [] → ∀ b, c.addr = some b → b.bases = []) (h2 : h.syms = [] → ∀ b, h.addr = some b → b.bases = []) :
    (c.divMul h).err = false ∧ (c.divMul h).attrs = [] ∧ (c.divMul h).syms = addAll c.syms h.syms ∧
    (c.divMul h).addr = c.addr ∧
    (c.syms = [] → h.syms = [] → (c.divMul h).spaces = addAll (addAll (addAll c.spaces h.spaces) (spacesOf c.addr)) (spacesOf h.addr)) := by
  unfold Coll.divMul Coll.mergeUndef Coll.mergeDone
  simp only [hh, Bool.false_or, Bool.false_eq_true, if_false]
  split
  · rename_i hd
    refine ⟨rfl, by simp [hca, hha, addAll], rfl, rfl, ?_⟩
    intro h1 h2
    simp [h1, h2, addAll] at hd
  · rename_i hd
    have hs : addAll c.syms h.syms = [] := by simpa using hd
    obtain ⟨hs1, hs2⟩ := addAll_eq_nil.1 hs
    have e1 : Coll.isAddress ⟨false, c.addr, addAll c.syms h.syms, addAll c.attrs h.attrs, addAll c.spaces h.spaces⟩ = false := by
      unfold Coll.isAddress
      cases hx : c.addr with
      | none => simp
      | some b => simp [h1 hs1 b hx]
    have e2 : h.isAddress = false := by
      unfold Coll.isAddress
      cases hx : h.addr with
      | none => simp
      | some b => simp [h2 hs2 b hx]
    rw [if_neg (by simp [e1, e2])]
    exact ⟨rfl, by simp [hca, hha, addAll], rfl, rfl, fun _ _ => rfl⟩

theorem bases_join_add (hE : E.unknown = fun _ => false) {x y z : Val} {c h : Option Addr} (h1 : BasesOf x c) (h2 : BasesOf y h) (hz : plus x y = some z) :
    BasesOf z (joinAddr E .add c h) := by
  cases x <;> cases y <;> simp only [plus, Option.some.injEq, reduceCtorEq] at hz <;> subst hz <;> simp only [BasesOf] at h1 h2 ⊢
  · intro b hb
    cases hc : c <;> cases hh : h <;> simp only [hc, hh, joinAddr, Option.some.injEq, reduceCtorEq] at hb
    · subst hb; exact h2 _ hh
    · subst hb; exact h1 _ hc
    · rw [adjust_id hE] at hb; subst hb; simp [Addr.add, h1 _ hc, h2 _ hh, merge, AOp.rest]
  · obtain ⟨b, rfl, hb⟩ := h2
    cases hc : c with
    | none => exact ⟨_, rfl, hb⟩
    | some a => exact ⟨_, rfl, by rw [adjust_id hE]; simp [Addr.add, h1 _ hc, hb, merge, AOp.rest]⟩
  · obtain ⟨a, rfl, ha⟩ := h1
    cases hc : h with
    | none => exact ⟨_, rfl, ha⟩
    | some b => exact ⟨_, rfl, by rw [adjust_id hE]; simp only [Addr.add, h2 _ hc, ha]; exact merge_nil_right _ _⟩

theorem bases_join_sub (hE : E.unknown = fun _ => false) {x y z : Val} {c h : Option Addr} (h1 : BasesOf x c) (h2 : BasesOf y h) (hz : minus x y = some z) :
    BasesOf z (joinAddr E .sub c h) := by
  cases x <;> cases y <;> simp only [minus, Option.some.injEq, reduceCtorEq] at hz <;> subst hz <;> simp only [BasesOf] at h1 h2 ⊢
  · intro b hb
    cases hc : c <;> cases hh : h <;> simp only [hc, hh, joinAddr, Option.some.injEq, reduceCtorEq] at hb
    · subst hb; simp [Addr.neg, h2 _ hh, merge, AOp.rest]
    · subst hb; exact h1 _ hc
    · rw [adjust_id hE] at hb; subst hb; simp [Addr.sub, h1 _ hc, h2 _ hh, merge, AOp.rest]
  · obtain ⟨a, rfl, ha⟩ := h1
    cases hc : h with
    | none => exact ⟨_, rfl, ha⟩
    | some b => exact ⟨_, rfl, by rw [adjust_id hE]; simp only [Addr.sub, h2 _ hc, ha]; exact merge_nil_right _ _⟩
  · obtain ⟨a, rfl, ha⟩ := h1
    obtain ⟨b, rfl, hb⟩ := h2
    intro t ht
    simp only [joinAddr, Option.some.injEq] at ht
    rw [adjust_id hE] at ht
    subst ht
    simp only [Addr.sub, ha, hb]
    decide

/-- What is collected from an expression that has a value in the end. -/
theorem collect_ok (hE : E.unknown = fun _ => false) (hg : Good v F T) {a : Addr} (ha : SimpleA a) {p : Int} (e : MExpr) :
    ∀ w, value F (.rel p) e = some w → ((fill a e).collect E T).err = false ∧ ((fill a e).collect E T).attrs = [] ∧
      (((fill a e).collect E T).syms = [] → BasesOf w ((fill a e).collect E T).addr) := by
  induction e with
  | const k => intro w h; simp only [value, Option.some.injEq] at h; subst h; exact ⟨rfl, rfl, fun _ b hb => by cases hb⟩
  | sym n =>
    intro w h
    simp only [value] at h
    simp only [fill, MExpr.collect]
    have := hg n
    cases hT : T.value n with
    | undef => exact ⟨rfl, rfl, fun hs => by simp [Coll.ofSym] at hs⟩
    | ub => rw [hT] at this; exact absurd (this (by simp)) (by simp [Rep])
    | abs k =>
      rw [hT] at this
      have h2 : F n = _ := this (by simp)
      rw [h] at h2; cases h2
      exact ⟨rfl, rfl, fun _ b hb => by cases hb⟩
    | reloc b =>
      rw [hT] at this
      obtain ⟨h1, h2⟩ := this (by simp)
      rw [h] at h2; cases h2
      exact ⟨rfl, rfl, fun _ => ⟨_, rfl, h1.1⟩⟩
  | attr k n => intro w h; simp [value] at h
  | loc o => intro w h; simp only [value, Option.some.injEq] at h; subst h; exact ⟨rfl, rfl, fun _ => ⟨_, rfl, ha.1⟩⟩
  | dflt => intro w h; simp [value] at h
  | par e ih => intro w h; exact ih w h
  | neg e ih =>
    intro w h
    simp only [value] at h
    cases hl : value F (.rel p) e with
    | none => simp [hl] at h
    | some x =>
      rw [hl] at h
      obtain ⟨i1, i2, i3⟩ := ih x hl
      obtain ⟨j1, j2, j3, _, j5⟩ := addSub_ok (E := E) (op := .sub) (c := Coll.none) (h := (fill a e).collect E T) rfl i1 rfl i2
      refine ⟨j1, j2, ?_⟩
      intro hs
      simp only [fill, MExpr.collect] at hs ⊢
      rw [j3] at hs
      have hs2 := (addAll_eq_nil.1 hs).2
      rw [j5 rfl hs2]
      cases x with
      | rel y => simp [minus1] at h
      | abs y =>
        simp only [Option.bind_some, minus1, Option.some.injEq] at h
        subst h
        intro b hb
        have := i3 hs2
        cases hc : ((fill a e).collect E T).addr with
        | none => rw [hc] at hb; cases hb
        | some b' =>
          rw [hc] at hb
          simp only [Coll.none, joinAddr, Option.some.injEq] at hb
          subst hb
          simp [Addr.neg, this b' hc, merge, AOp.rest]
  | add l r ihl ihr =>
    intro w h
    simp only [value] at h
    cases hl : value F (.rel p) l with
    | none => simp [hl] at h
    | some x =>
      cases hr : value F (.rel p) r with
      | none => simp [hl, hr] at h
      | some y =>
        simp only [hl, hr, Option.bind_some] at h
        obtain ⟨i1, i2, i3⟩ := ihl x hl
        obtain ⟨k1, k2, k3⟩ := ihr y hr
        obtain ⟨j1, j2, j3, _, j5⟩ := addSub_ok (E := E) (op := .add) i1 k1 i2 k2
        refine ⟨j1, j2, ?_⟩
        intro hs
        simp only [fill, MExpr.collect] at hs ⊢
        rw [j3] at hs
        obtain ⟨hs1, hs2⟩ := addAll_eq_nil.1 hs
        rw [j5 hs1 hs2]
        exact bases_join_add hE (i3 hs1) (k3 hs2) h
  | sub l r ihl ihr =>
    intro w h
    simp only [value] at h
    cases hl : value F (.rel p) l with
    | none => simp [hl] at h
    | some x =>
      cases hr : value F (.rel p) r with
      | none => simp [hl, hr] at h
      | some y =>
        simp only [hl, hr, Option.bind_some] at h
        obtain ⟨i1, i2, i3⟩ := ihl x hl
        obtain ⟨k1, k2, k3⟩ := ihr y hr
        obtain ⟨j1, j2, j3, _, j5⟩ := addSub_ok (E := E) (op := .sub) i1 k1 i2 k2
        refine ⟨j1, j2, ?_⟩
        intro hs
        simp only [fill, MExpr.collect] at hs ⊢
        rw [j3] at hs
        obtain ⟨hs1, hs2⟩ := addAll_eq_nil.1 hs
        rw [j5 hs1 hs2]
        exact bases_join_sub hE (i3 hs1) (k3 hs2) h
  | mul l r ihl ihr =>
    intro w h
    simp only [value] at h
    cases hl : value F (.rel p) l with
    | none => simp [hl] at h
    | some x =>
      cases hr : value F (.rel p) r with
      | none => simp [hl, hr] at h
      | some y =>
        simp only [hl, hr, Option.bind_some] at h
        cases x <;> cases y <;> simp only [times, Option.some.injEq, reduceCtorEq] at h
        subst h
        obtain ⟨i1, i2, i3⟩ := ihl _ hl
        obtain ⟨k1, k2, k3⟩ := ihr _ hr
        obtain ⟨j1, j2, j3, j4, _⟩ := divMul_ok i1 k1 i2 k2 i3 k3
        refine ⟨j1, j2, ?_⟩
        intro hs
        simp only [fill, MExpr.collect] at hs ⊢
        rw [j3] at hs
        rw [j4]
        exact i3 (addAll_eq_nil.1 hs).1
  | div l r ihl ihr =>
    intro w h
    simp only [value] at h
    cases hl : value F (.rel p) l with
    | none => simp [hl] at h
    | some x =>
      cases hr : value F (.rel p) r with
      | none => simp [hl, hr] at h
      | some y =>
        simp only [hl, hr, Option.bind_some] at h
        cases x <;> cases y <;> simp only [over, Option.some.injEq, reduceCtorEq] at h
        subst h
        obtain ⟨i1, i2, i3⟩ := ihl _ hl
        obtain ⟨k1, k2, k3⟩ := ihr _ hr
        obtain ⟨j1, j2, j3, j4, _⟩ := divMul_ok i1 k1 i2 k2 i3 k3
        refine ⟨j1, j2, ?_⟩
        intro hs
        simp only [fill, MExpr.collect] at hs ⊢
        rw [j3] at hs
        rw [j4]
        exact i3 (addAll_eq_nil.1 hs).1

/-! ### What is evaluated -/

/-- No spaces. -/
def Quiet (o : Option Addr) : Prop := ∀ b, o = some b → b.spaces = []

/-- How the value, what is evaluated and the collected address go together, for so many places. -/
inductive Shape (H : Heap) (v : SpId → Int) : Nat → Val → SVal → Option Addr → Prop
  | num {k o} : Quiet o → Shape H v 0 (.abs k) (.abs k) o
  | place {a b} : SimpleA a → b.spaces = a.norm H → Shape H v 1 (.rel (aval v a)) (.reloc a) (some b)
  | diff {k b} : b.spaces = [] → Shape H v 2 (.abs k) (.abs k) (some b)
  | pend {k t b} : b.spaces ≠ [] → Canonical b.spaces → (∀ e ∈ b.spaces, H.info e.1 = none) → Shape H v 2 (.abs k) (.reloc t) (some b)

theorem quiet_join (hE : E.unknown = fun _ => false) (op : AOp) {c h : Option Addr} (h1 : Quiet c) (h2 : Quiet h) : Quiet (joinAddr E op c h) := by
  intro b hb
  cases hc : c <;> cases hh : h <;> simp only [hc, hh, joinAddr, Option.some.injEq, reduceCtorEq] at hb
  · subst hb
    cases op
    · exact h2 _ hh
    · simp [Addr.neg, Addr.norm, h2 _ hh, norm_nil, merge, AOp.rest]
  · subst hb; exact h1 _ hc
  · rw [adjust_id hE] at hb
    subst hb
    cases op <;> simp [Addr.add, Addr.sub, Addr.norm, h1 _ hc, h2 _ hh, norm_nil, merge, AOp.rest]

theorem join_add_left (hE : E.unknown = fun _ => false) {c : Option Addr} {b : Addr} (h1 : Quiet c) (hb : E.heap.norm b.spaces = b.spaces) :
    ∃ b', joinAddr E .add c (some b) = some b' ∧ b'.spaces = b.spaces := by
  cases hc : c with
  | none => exact ⟨_, rfl, rfl⟩
  | some a => exact ⟨_, rfl, by rw [adjust_id hE]; simp [Addr.add, Addr.norm, h1 _ hc, norm_nil, merge, AOp.rest, hb]⟩

theorem join_right (hE : E.unknown = fun _ => false) (op : AOp) {c : Option Addr} {b : Addr} (h1 : Quiet c) (hb : E.heap.norm b.spaces = b.spaces) :
    ∃ b', joinAddr E op (some b) c = some b' ∧ b'.spaces = b.spaces := by
  cases hc : c with
  | none => exact ⟨_, rfl, rfl⟩
  | some a =>
    refine ⟨_, rfl, ?_⟩
    rw [adjust_id hE]
    cases op <;> simp [Addr.add, Addr.sub, Addr.norm, h1 _ hc, norm_nil, merge_nil_right, hb]

theorem join_sub_left (hE : E.unknown = fun _ => false) {c : Option Addr} {b : Addr} (h1 : Quiet c) (hb : E.heap.norm b.spaces = b.spaces) :
    ∃ b', joinAddr E .sub c (some b) = some b' ∧ b'.spaces = merge .sub [] b.spaces := by
  cases hc : c with
  | none => exact ⟨_, rfl, by simp [Addr.neg, Addr.norm, hb]⟩
  | some a => exact ⟨_, rfl, by rw [adjust_id hE]; simp [Addr.sub, Addr.norm, h1 _ hc, norm_nil, hb]⟩

/-- A result that does not fit. -/
def TooBig (z : Val) : Prop := ¬ Fits (some z)

theorem int32_shape {H : Heap} (k : Int) {o : Option Addr} (ho : Quiet o) : (int32 k = .ub ∧ TooBig (.abs k)) ∨ Shape H v 0 (.abs k) (int32 k) o := by
  unfold int32
  split
  · exact .inr (.num ho)
  · exact .inl ⟨rfl, ‹_›⟩

theorem int32_shape2 {H : Heap} (k : Int) {b : Addr} (ho : b.spaces = []) : (int32 k = .ub ∧ TooBig (.abs k)) ∨ Shape H v 2 (.abs k) (int32 k) (some b) := by
  unfold int32
  split
  · exact .inr (.diff ho)
  · exact .inl ⟨rfl, ‹_›⟩

theorem addInt_place {H : Heap} (hu : Under H v) {a : Addr} (ha : SimpleA a) (n : Int) :
    SimpleA (a.addInt n) ∧ aval v (a.addInt n) = aval v a + n ∧ (a.addInt n).norm H = a.norm H := by
  refine ⟨⟨ha.1, ha.2⟩, ?_, rfl⟩
  unfold aval Addr.addInt; simp only; ring

theorem subInt_place {H : Heap} (hu : Under H v) {a : Addr} (ha : SimpleA a) (n : Int) :
    SimpleA (a.subInt H n) ∧ aval v (a.subInt H n) = aval v a - n ∧ (a.subInt H n).norm H = a.norm H := by
  refine ⟨⟨ha.1, ones_norm hu ha.2⟩, ?_, norm_norm H _⟩
  rw [aval_eq hu a ha.2]
  unfold aval Addr.subInt; simp only; ring

theorem shape_add (hE : E.unknown = fun _ => false) (hu : Under E.heap v) {n m : Nat} {x y z : Val} {xs ys : SVal} {c h : Option Addr}
    (h1 : Shape E.heap v n x xs c) (h2 : Shape E.heap v m y ys h) (hz : plus x y = some z) (hn : n + m ≤ 2) :
    (xs.add E.heap ys = .ub ∧ TooBig z) ∨ Shape E.heap v (n + m) z (xs.add E.heap ys) (joinAddr E .add c h) := by
  cases h1 with
  | num q1 =>
    cases h2 with
    | num q2 => simp only [plus, Option.some.injEq] at hz; subst hz; exact int32_shape _ (quiet_join hE _ q1 q2)
    | place s2 e2 =>
      simp only [plus, Option.some.injEq] at hz; subst hz
      obtain ⟨b', hb', hs⟩ := join_add_left hE q1 (b := _) (by rw [e2]; exact norm_norm _ _)
      obtain ⟨g1, g2, g3⟩ := addInt_place hu s2 ‹Int›
      rw [hb', Int.add_comm, ← g2]
      exact .inr (.place g1 (by rw [hs, e2, g3]))
    | diff e2 =>
      simp only [plus, Option.some.injEq] at hz; subst hz
      obtain ⟨b', hb', hs⟩ := join_add_left hE q1 (b := _) (by rw [e2]; exact norm_nil _)
      rw [hb']
      exact int32_shape2 _ (by rw [hs, e2])
    | pend n2 c2 u2 =>
      simp only [plus, Option.some.injEq] at hz; subst hz
      obtain ⟨b', hb', hs⟩ := join_add_left hE q1 (b := _) (norm_canonical c2 u2)
      rw [hb']
      exact .inr (.pend (by rw [hs]; exact n2) (by rw [hs]; exact c2) (by rw [hs]; exact u2))
  | place s1 e1 =>
    cases h2 with
    | num q2 =>
      simp only [plus, Option.some.injEq] at hz; subst hz
      obtain ⟨b', hb', hs⟩ := join_right hE .add q2 (b := _) (by rw [e1]; exact norm_norm _ _)
      obtain ⟨g1, g2, g3⟩ := addInt_place hu s1 ‹Int›
      rw [hb', ← g2]
      exact .inr (.place g1 (by rw [hs, e1, g3]))
    | place s2 e2 => simp [plus] at hz
    | diff e2 => omega
    | pend n2 c2 u2 => omega
  | diff e1 =>
    cases h2 with
    | num q2 =>
      simp only [plus, Option.some.injEq] at hz; subst hz
      obtain ⟨b', hb', hs⟩ := join_right hE .add q2 (b := _) (by rw [e1]; exact norm_nil _)
      rw [hb']
      exact int32_shape2 _ (by rw [hs, e1])
    | place s2 e2 => omega
    | diff e2 => omega
    | pend n2 c2 u2 => omega
  | pend n1 c1 u1 =>
    cases h2 with
    | num q2 =>
      simp only [plus, Option.some.injEq] at hz; subst hz
      obtain ⟨b', hb', hs⟩ := join_right hE .add q2 (b := _) (norm_canonical c1 u1)
      rw [hb']
      exact .inr (.pend (by rw [hs]; exact n1) (by rw [hs]; exact c1) (by rw [hs]; exact u1))
    | place s2 e2 => omega
    | diff e2 => omega
    | pend n2 c2 u2 => omega

theorem rest_ok {H : Heap} {l : List (SpId × Int)} (h1 : l ≠ []) (h2 : Canonical l) (h3 : ∀ e ∈ l, H.info e.1 = none) :
    merge .sub [] l ≠ [] ∧ Canonical (merge .sub [] l) ∧ ∀ e ∈ merge .sub [] l, H.info e.1 = none := by
  refine ⟨?_, canonical_merge _ _ _ ⟨List.nodup_nil, by simp⟩ h2, merge_sub_unknown H [] l (by simp) h3⟩
  cases l with
  | nil => exact absurd rfl h1
  | cons e l => simp [merge, AOp.rest]

theorem vsum_ones {l : List (SpId × Int)} (h : ∀ e ∈ l, e.2 = 1) : wsum v l = vsum v l := by
  induction l with
  | nil => rfl
  | cons e l ih =>
    rw [wsum_cons, vsum_cons, ih fun x hx => h x (by simp [hx]), h e (by simp)]; ring

theorem ones_agree {l r : List (SpId × Int)} (hl : Ones l) (hr : Ones r) : Agree l r := fun x hx y hy _ => by rw [hl.1 x hx, hr.1 y hy]

theorem shape_sub (hE : E.unknown = fun _ => false) (hu : Under E.heap v) {n m : Nat} {x y z : Val} {xs ys : SVal} {c h : Option Addr}
    (h1 : Shape E.heap v n x xs c) (h2 : Shape E.heap v m y ys h) (hz : minus x y = some z) (hn : n + m ≤ 2) :
    (xs.sub E.heap ys = .ub ∧ TooBig z) ∨ Shape E.heap v (n + m) z (xs.sub E.heap ys) (joinAddr E .sub c h) := by
  cases h1 with
  | num q1 =>
    cases h2 with
    | num q2 => simp only [minus, Option.some.injEq] at hz; subst hz; exact int32_shape _ (quiet_join hE _ q1 q2)
    | place s2 e2 => simp [minus] at hz
    | diff e2 =>
      simp only [minus, Option.some.injEq] at hz; subst hz
      obtain ⟨b', hb', hs⟩ := join_sub_left hE q1 (b := _) (by rw [e2]; exact norm_nil _)
      rw [hb']
      exact int32_shape2 _ (by rw [hs, e2]; rfl)
    | pend n2 c2 u2 =>
      simp only [minus, Option.some.injEq] at hz; subst hz
      obtain ⟨b', hb', hs⟩ := join_sub_left hE q1 (b := _) (norm_canonical c2 u2)
      obtain ⟨g1, g2, g3⟩ := rest_ok n2 c2 u2
      rw [hb']
      exact .inr (.pend (by rw [hs]; exact g1) (by rw [hs]; exact g2) (by rw [hs]; exact g3))
  | place s1 e1 =>
    cases h2 with
    | num q2 =>
      simp only [minus, Option.some.injEq] at hz; subst hz
      obtain ⟨b', hb', hs⟩ := join_right hE .sub q2 (b := _) (by rw [e1]; exact norm_norm _ _)
      obtain ⟨g1, g2, g3⟩ := subInt_place hu s1 ‹Int›
      rw [hb', ← g2]
      exact .inr (.place g1 (by rw [hs, e1, g3]))
    | place s2 e2 =>
      rename_i a b a' b'
      simp only [minus, Option.some.injEq] at hz; subst hz
      simp only [SVal.sub, joinAddr]
      rw [adjust_id hE]
      have hsp : (b.sub E.heap b').spaces = merge .sub (a.norm E.heap) (a'.norm E.heap) := by
        simp only [Addr.sub, Addr.norm, e1, e2, norm_norm]
      have htb : (a.sub E.heap a').bases = [] := by simp only [Addr.sub, s1.1, s2.1]; decide
      have hts : (a.sub E.heap a').spaces = merge .sub (a.norm E.heap) (a'.norm E.heap) := rfl
      have hun := merge_sub_unknown E.heap (a.norm E.heap) (a'.norm E.heap) (norm_unknown _ _) (norm_unknown _ _)
      by_cases hm : merge .sub (a.norm E.heap) (a'.norm E.heap) = []
      · have hpe : (a.sub E.heap a').pending E.heap = false := by unfold Addr.pending; rw [hts, hm]; rfl
        unfold SVal.ofAddr
        rw [if_pos ⟨htb, hpe⟩]
        have hk : (a.sub E.heap a').offset E.heap = aval v a - aval v a' := by
          rw [aval_eq hu a s1.2, aval_eq hu a' s2.2]
          have := wsum_merge_sub v _ _ (ones_agree (ones_norm hu s1.2) (ones_norm hu s2.2))
          unfold Addr.norm at hm
          rw [hm, vsum_ones (ones_norm hu s1.2).1, vsum_ones (ones_norm hu s2.2).1] at this
          unfold Addr.offset
          rw [hts]
          unfold Addr.norm
          rw [hm]
          simp only [Addr.sub, List.map_nil, List.sum_nil, wsum_nil] at this ⊢
          unfold Addr.offset at *
          linarith
        rw [hk]
        exact int32_shape2 _ (by rw [hsp]; exact hm)
      · have hpe : (a.sub E.heap a').pending E.heap = true := by
          unfold Addr.pending
          rw [hts]
          obtain ⟨e, l, hel⟩ := List.exists_cons_of_ne_nil hm
          rw [hel] at hun ⊢
          simp [pending_unknown (hun e (by simp))]
        unfold SVal.ofAddr
        rw [if_neg (by simp [hpe])]
        exact .inr (.pend (by rw [hsp]; exact hm) (by rw [hsp]; exact canonical_merge _ _ _ (canonical_norm _ _) (canonical_norm _ _)) (by rw [hsp]; exact hun))
    | diff e2 => omega
    | pend n2 c2 u2 => omega
  | diff e1 =>
    cases h2 with
    | num q2 =>
      simp only [minus, Option.some.injEq] at hz; subst hz
      obtain ⟨b', hb', hs⟩ := join_right hE .sub q2 (b := _) (by rw [e1]; exact norm_nil _)
      rw [hb']
      exact int32_shape2 _ (by rw [hs, e1])
    | place s2 e2 => omega
    | diff e2 => omega
    | pend n2 c2 u2 => omega
  | pend n1 c1 u1 =>
    cases h2 with
    | num q2 =>
      simp only [minus, Option.some.injEq] at hz; subst hz
      obtain ⟨b', hb', hs⟩ := join_right hE .sub q2 (b := _) (norm_canonical c1 u1)
      rw [hb']
      exact .inr (.pend (by rw [hs]; exact n1) (by rw [hs]; exact c1) (by rw [hs]; exact u1))
    | place s2 e2 => omega
    | diff e2 => omega
    | pend n2 c2 u2 => omega

theorem shape_neg (hE : E.unknown = fun _ => false) {n : Nat} {x z : Val} {xs : SVal} {c : Option Addr}
    (h1 : Shape E.heap v n x xs c) (hz : minus1 x = some z) :
    (xs.neg E.heap = .ub ∧ TooBig z) ∨ Shape E.heap v n z (xs.neg E.heap) (joinAddr E .sub none c) := by
  have hq : Quiet none := fun b hb => by cases hb
  cases h1 with
  | num q1 => simp only [minus1, Option.some.injEq] at hz; subst hz; exact int32_shape _ (quiet_join hE _ hq q1)
  | place s1 e1 => simp [minus1] at hz
  | diff e1 =>
    simp only [minus1, Option.some.injEq] at hz; subst hz
    obtain ⟨b', hb', hs⟩ := join_sub_left hE hq (b := _) (by rw [e1]; exact norm_nil _)
    rw [hb']
    exact int32_shape2 _ (by rw [hs, e1]; rfl)
  | pend n1 c1 u1 =>
    simp only [minus1, Option.some.injEq] at hz; subst hz
    obtain ⟨b', hb', hs⟩ := join_sub_left hE hq (b := _) (norm_canonical c1 u1)
    obtain ⟨g1, g2, g3⟩ := rest_ok n1 c1 u1
    rw [hb']
    exact .inr (.pend (by rw [hs]; exact g1) (by rw [hs]; exact g2) (by rw [hs]; exact g3))

theorem shape_abs {H : Heap} {n : Nat} {x : Int} {xs : SVal} {c : Option Addr} (h : Shape H v n (.abs x) xs c) (hs : spacesOf c = []) :
    xs = .abs x ∧ Quiet c := by
  cases h with
  | num q => exact ⟨rfl, q⟩
  | diff e => exact ⟨rfl, fun b hb => by cases hb; exact e⟩
  | pend n1 => simp [spacesOf] at hs; exact absurd hs n1

theorem add_ub (H : Heap) (x : SVal) : x.add H .ub = .ub := by cases x <;> rfl
theorem sub_ub (H : Heap) (x : SVal) : x.sub H .ub = .ub := by cases x <;> rfl
theorem mul_ub (x : SVal) : x.mul .ub = .ub := by cases x <;> rfl
theorem div_ub (x : SVal) : x.div .ub = .ub := by cases x <;> rfl

/-- An expression of which nothing but the collected address may be unknown: evaluating it overflows only if something does not fit. -/
theorem eval_small (hE : E.unknown = fun _ => false) (hu : Under E.heap v) (hg : Good v F T) {a : Addr} (ha : SimpleA a) {p : Int}
    (hp : aval v a = p) (e : MExpr) :
    ∀ w, value F (.rel p) e = some w → Tidy F e → ((fill a e).collect E T).syms = [] → ((fill a e).collect E T).spaces = [] →
      ((fill a e).eval E.heap T = .ub ∧ ¬ Small F (.rel p) e) ∨ Shape E.heap v (places F e) w ((fill a e).eval E.heap T) ((fill a e).collect E T).addr := by
  induction e with
  | const k => intro w h _ _ _; simp only [value, Option.some.injEq] at h; subst h; exact .inr (.num fun b hb => by cases hb)
  | sym n =>
    intro w h _ hs _
    simp only [value] at h
    simp only [fill, MExpr.collect, MExpr.eval, places] at hs ⊢
    have := hg n
    cases hT : T.value n with
    | undef => rw [hT] at hs; simp [Coll.ofSym] at hs
    | ub => rw [hT] at this; exact (this (by simp)).elim
    | abs k =>
      rw [hT] at this
      have h2 : F n = _ := this (by simp)
      rw [h] at h2; cases h2
      rw [h]
      exact .inr (.num fun b hb => by cases hb)
    | reloc b =>
      rw [hT] at this
      obtain ⟨h1, h2⟩ := this (by simp)
      rw [h] at h2; cases h2
      rw [h]
      exact .inr (.place h1 rfl)
  | attr k n => intro w h; simp [value] at h
  | loc o =>
    intro w h _ _ _; simp only [value, Option.some.injEq] at h; subst h; subst hp
    exact .inr (.place ha rfl)
  | dflt => intro w h; simp [value] at h
  | par e ih => intro w h ht hs hsp; exact ih w h ht hs hsp
  | neg e ih =>
    intro w h ht hs hsp
    have hv := h
    simp only [value] at h
    cases hl : value F (.rel p) e with
    | none => simp [hl] at h
    | some x =>
      rw [hl] at h
      obtain ⟨i1, i2, i3⟩ := collect_ok hE hg ha e x hl
      obtain ⟨j1, j2, j3, j4, j5⟩ := addSub_ok (E := E) (op := .sub) (c := Coll.none) (h := (fill a e).collect E T) rfl i1 rfl i2
      simp only [fill, MExpr.collect, MExpr.eval, places] at hs hsp ⊢
      rw [j3] at hs
      rw [j4] at hsp
      have hs2 := (addAll_eq_nil.1 hs).2
      have hsp2 := (addAll_eq_nil.1 hsp).2
      rw [j5 rfl hs2]
      rcases ih x hl ht hs2 hsp2 with ⟨hub, hb⟩ | hsh
      · rw [hub]; exact .inl ⟨rfl, fun q => hb q.1⟩
      · exact (shape_neg hE hsh h).imp_left fun q => ⟨q.1, fun g => q.2 (hv ▸ g.2)⟩
  | add l r ihl ihr =>
    intro w h ht hs hsp
    have hv := h
    simp only [value] at h
    cases hl : value F (.rel p) l with
    | none => simp [hl] at h
    | some x =>
      cases hr : value F (.rel p) r with
      | none => simp [hl, hr] at h
      | some y =>
        simp only [hl, hr, Option.bind_some] at h
        obtain ⟨i1, i2, i3⟩ := collect_ok hE hg ha l x hl
        obtain ⟨k1, k2, k3⟩ := collect_ok hE hg ha r y hr
        obtain ⟨j1, j2, j3, j4, j5⟩ := addSub_ok (E := E) (op := .add) i1 k1 i2 k2
        simp only [fill, MExpr.collect, MExpr.eval, places] at hs hsp ⊢
        rw [j3] at hs
        rw [j4] at hsp
        obtain ⟨hs1, hs2⟩ := addAll_eq_nil.1 hs
        obtain ⟨hsp1, hsp2⟩ := addAll_eq_nil.1 hsp
        rw [j5 hs1 hs2]
        obtain ⟨t1, t2, t3⟩ := ht
        rcases ihl x hl t1 hs1 hsp1 with ⟨hub, hb⟩ | hsh1
        · rw [hub]; exact .inl ⟨rfl, fun q => hb q.1⟩
        rcases ihr y hr t2 hs2 hsp2 with ⟨hub, hb⟩ | hsh2
        · rw [hub]; exact .inl ⟨add_ub _ _, fun q => hb q.2.1⟩
        exact (shape_add hE hu hsh1 hsh2 h t3).imp_left fun q => ⟨q.1, fun g => q.2 (hv ▸ g.2.2)⟩
  | sub l r ihl ihr =>
    intro w h ht hs hsp
    have hv := h
    simp only [value] at h
    cases hl : value F (.rel p) l with
    | none => simp [hl] at h
    | some x =>
      cases hr : value F (.rel p) r with
      | none => simp [hl, hr] at h
      | some y =>
        simp only [hl, hr, Option.bind_some] at h
        obtain ⟨i1, i2, i3⟩ := collect_ok hE hg ha l x hl
        obtain ⟨k1, k2, k3⟩ := collect_ok hE hg ha r y hr
        obtain ⟨j1, j2, j3, j4, j5⟩ := addSub_ok (E := E) (op := .sub) i1 k1 i2 k2
        simp only [fill, MExpr.collect, MExpr.eval, places] at hs hsp ⊢
        rw [j3] at hs
        rw [j4] at hsp
        obtain ⟨hs1, hs2⟩ := addAll_eq_nil.1 hs
        obtain ⟨hsp1, hsp2⟩ := addAll_eq_nil.1 hsp
        rw [j5 hs1 hs2]
        obtain ⟨t1, t2, t3⟩ := ht
        rcases ihl x hl t1 hs1 hsp1 with ⟨hub, hb⟩ | hsh1
        · rw [hub]; exact .inl ⟨rfl, fun q => hb q.1⟩
        rcases ihr y hr t2 hs2 hsp2 with ⟨hub, hb⟩ | hsh2
        · rw [hub]; exact .inl ⟨sub_ub _ _, fun q => hb q.2.1⟩
        exact (shape_sub hE hu hsh1 hsh2 h t3).imp_left fun q => ⟨q.1, fun g => q.2 (hv ▸ g.2.2)⟩
  | mul l r ihl ihr =>
    intro w h ht hs hsp
    have hv := h
    simp only [value] at h
    cases hl : value F (.rel p) l with
    | none => simp [hl] at h
    | some x =>
      cases hr : value F (.rel p) r with
      | none => simp [hl, hr] at h
      | some y =>
        simp only [hl, hr, Option.bind_some] at h
        cases x <;> cases y <;> simp only [times, Option.some.injEq, reduceCtorEq] at h
        subst h
        obtain ⟨i1, i2, i3⟩ := collect_ok hE hg ha l _ hl
        obtain ⟨k1, k2, k3⟩ := collect_ok hE hg ha r _ hr
        obtain ⟨j1, j2, j3, j4, j5⟩ := divMul_ok i1 k1 i2 k2 i3 k3
        simp only [fill, MExpr.collect, MExpr.eval, places] at hs hsp ⊢
        rw [j3] at hs
        obtain ⟨hs1, hs2⟩ := addAll_eq_nil.1 hs
        rw [j5 hs1 hs2] at hsp
        obtain ⟨hsp, hq2⟩ := addAll_eq_nil.1 hsp
        obtain ⟨hsp, hq1⟩ := addAll_eq_nil.1 hsp
        obtain ⟨hsp1, hsp2⟩ := addAll_eq_nil.1 hsp
        rw [j4]
        rcases ihl _ hl ht.1 hs1 hsp1 with ⟨hub, hb⟩ | hsh1
        · rw [hub]; exact .inl ⟨rfl, fun q => hb q.1⟩
        rcases ihr _ hr ht.2 hs2 hsp2 with ⟨hub, hb⟩ | hsh2
        · rw [hub]; exact .inl ⟨mul_ub _, fun q => hb q.2.1⟩
        obtain ⟨e1, g1⟩ := shape_abs hsh1 hq1
        obtain ⟨e2, g2⟩ := shape_abs hsh2 hq2
        rw [e1, e2]
        exact (int32_shape _ g1).imp_left fun q => ⟨q.1, fun g => q.2 (hv ▸ g.2.2)⟩
  | div l r ihl ihr =>
    intro w h ht hs hsp
    have hv := h
    simp only [value] at h
    cases hl : value F (.rel p) l with
    | none => simp [hl] at h
    | some x =>
      cases hr : value F (.rel p) r with
      | none => simp [hl, hr] at h
      | some y =>
        simp only [hl, hr, Option.bind_some] at h
        cases x <;> cases y <;> simp only [over, Option.some.injEq, reduceCtorEq] at h
        subst h
        obtain ⟨i1, i2, i3⟩ := collect_ok hE hg ha l _ hl
        obtain ⟨k1, k2, k3⟩ := collect_ok hE hg ha r _ hr
        obtain ⟨j1, j2, j3, j4, j5⟩ := divMul_ok i1 k1 i2 k2 i3 k3
        simp only [fill, MExpr.collect, MExpr.eval, places] at hs hsp ⊢
        rw [j3] at hs
        obtain ⟨hs1, hs2⟩ := addAll_eq_nil.1 hs
        rw [j5 hs1 hs2] at hsp
        obtain ⟨hsp, hq2⟩ := addAll_eq_nil.1 hsp
        obtain ⟨hsp, hq1⟩ := addAll_eq_nil.1 hsp
        obtain ⟨hsp1, hsp2⟩ := addAll_eq_nil.1 hsp
        rw [j4]
        rcases ihl _ hl ht.1 hs1 hsp1 with ⟨hub, hb⟩ | hsh1
        · rw [hub]; exact .inl ⟨rfl, fun q => hb q.1⟩
        rcases ihr _ hr ht.2 hs2 hsp2 with ⟨hub, hb⟩ | hsh2
        · rw [hub]; exact .inl ⟨div_ub _, fun q => hb q.2.1⟩
        obtain ⟨e1, g1⟩ := shape_abs hsh1 hq1
        obtain ⟨e2, g2⟩ := shape_abs hsh2 hq2
        rw [e1, e2]
        simp only [SVal.div]
        split
        · rename_i h0; rw [h0, Int.tdiv_zero]; exact .inr (.num g1)
        · exact (int32_shape _ g1).imp_left fun q => ⟨q.1, fun g => q.2 (hv ▸ g.2.2)⟩

/-- An expression of which nothing but the collected address may be unknown. -/
theorem eval_shape (hE : E.unknown = fun _ => false) (hu : Under E.heap v) (hg : Good v F T) {a : Addr} (ha : SimpleA a) {p : Int}
    (hp : aval v a = p) (e : MExpr) (w : Val) (hw : value F (.rel p) e = some w) (ht : Tidy F e) (hs : ((fill a e).collect E T).syms = [])
    (hsp : ((fill a e).collect E T).spaces = []) :
    (fill a e).eval E.heap T = .ub ∨ Shape E.heap v (places F e) w ((fill a e).eval E.heap T) ((fill a e).collect E T).addr :=
  (eval_small hE hu hg ha hp e w hw ht hs hsp).imp_left And.left

/-- An expression that depends on nothing any more is evaluated to its value. -/
theorem eval_closed (hE : E.unknown = fun _ => false) (hu : Under E.heap v) (hg : Good v F T) {a : Addr} (ha : SimpleA a) {p : Int}
    (hp : aval v a = p) {e : MExpr} {w : Val} (hw : value F (.rel p) e = some w) (ht : Tidy F e)
    (hs : ((fill a e).collect E T).syms = []) (hsp : ((fill a e).collect E T).spaces = [])
    (hadr : ∀ b, ((fill a e).collect E T).addr = some b → b.norm E.heap = []) :
    (fill a e).eval E.heap T = .ub ∨ Rep v ((fill a e).eval E.heap T) (some w) := by
  rcases eval_shape hE hu hg ha hp e w hw ht hs hsp with h | h
  · exact .inl h
  · right
    generalize (fill a e).eval E.heap T = x at h ⊢
    generalize ((fill a e).collect E T).addr = o at h hadr
    generalize places F e = n at h
    cases h with
    | num => exact rfl
    | place s => exact ⟨s, rfl⟩
    | diff => exact rfl
    | pend n1 c1 u1 => exact absurd ((norm_canonical c1 u1).symm.trans (hadr _ rfl)) n1

theorem closed_extract {c : Coll} (h : c.extract E = []) : c.syms = [] ∧ c.spaces = [] ∧ ∀ b, c.addr = some b → b.norm E.heap = [] := by
  unfold Coll.extract at h
  split at h
  · rename_i h1; simp at h; exact absurd h h1
  · rename_i h1
    split at h
    · rename_i h2; simp at h; exact absurd h h2
    · rename_i h2
      refine ⟨by simpa using h1, by simpa using h2, ?_⟩
      intro b hb
      rw [hb] at h
      simp at h
      exact h.2

theorem pending_false {H : Heap} {b : Addr} (h : b.pending H = false) : b.norm H = [] := by
  have : ∀ n i, H.rank i < n → H.pending i = false → ∀ c, H.flat (i, c) = [] := by
    intro n
    induction n with
    | zero => intro i h; omega
    | succ n ih =>
      intro i hi hp c
      cases hx : H.info i with
      | none => rw [pending_unknown hx] at hp; cases hp
      | some s =>
        rw [flat_known (e := (i, c)) hx, List.flatMap_eq_nil_iff]
        intro e he
        refine ih e.1 (by have := H.dec i s hx e he; omega) ?_ e.2
        rw [Heap.pending.eq_def] at hp
        split at hp
        · cases hp
        · rename_i s' hs'
          rw [hx] at hs'; cases hs'
          have := List.any_eq_false.1 hp ⟨e, he⟩ (by simp)
          simpa using this
  unfold Addr.norm Heap.norm
  have : b.spaces.flatMap H.flat = [] := by
    rw [List.flatMap_eq_nil_iff]
    intro e he
    refine this _ e.1 (Nat.lt_succ_self _) ?_ e.2
    unfold Addr.pending at h
    have := List.any_eq_false.1 h e he
    simpa using this
  rw [this]; rfl

theorem closed_contains {c : Coll} (h : c.contains E = false) : c.syms = [] ∧ c.spaces = [] ∧ ∀ b, c.addr = some b → b.norm E.heap = [] := by
  unfold Coll.contains at h
  simp only [Bool.or_eq_false_iff, Bool.not_eq_false', List.isEmpty_iff] at h
  obtain ⟨⟨⟨h1, h2⟩, h3⟩, h4⟩ := h
  refine ⟨h1, h3, ?_⟩
  intro b hb
  rw [hb] at h4
  exact pending_false h4

/-- Whether a value is a number does not depend on `*`. -/
def Val.isNum : Val → Bool
  | .abs _ => true
  | .rel _ => false

theorem kind_here (p q : Int) (e : MExpr) : (value F (.rel p) e).map Val.isNum = (value F (.rel q) e).map Val.isNum := by
  have bin : ∀ (f : Val → Val → Option Val), (∀ x y x' y', x.isNum = x'.isNum → y.isNum = y'.isNum → (f x y).map Val.isNum = (f x' y').map Val.isNum) →
      ∀ a a' b b' : Option Val, a.map Val.isNum = a'.map Val.isNum → b.map Val.isNum = b'.map Val.isNum →
      (a.bind fun x => b.bind (f x)).map Val.isNum = (a'.bind fun x => b'.bind (f x)).map Val.isNum := by
    intro f hf a a' b b' h1 h2
    cases a <;> cases a' <;> cases b <;> cases b' <;> simp at h1 h2 ⊢
    exact hf _ _ _ _ h1 h2
  induction e with
  | neg e ih =>
    simp only [value]
    cases h1 : value F (.rel p) e <;> cases h2 : value F (.rel q) e <;> simp [h1, h2] at ih ⊢
    rename_i x y
    cases x <;> cases y <;> simp [Val.isNum, minus1] at ih ⊢
  | add l r ihl ihr => exact bin plus (by intro x y x' y'; cases x <;> cases y <;> cases x' <;> cases y' <;> simp [Val.isNum, plus]) _ _ _ _ ihl ihr
  | sub l r ihl ihr => exact bin minus (by intro x y x' y'; cases x <;> cases y <;> cases x' <;> cases y' <;> simp [Val.isNum, minus]) _ _ _ _ ihl ihr
  | mul l r ihl ihr => exact bin times (by intro x y x' y'; cases x <;> cases y <;> cases x' <;> cases y' <;> simp [Val.isNum, times]) _ _ _ _ ihl ihr
  | div l r ihl ihr => exact bin over (by intro x y x' y'; cases x <;> cases y <;> cases x' <;> cases y' <;> simp [Val.isNum, over]) _ _ _ _ ihl ihr
  | par e ih => exact ih
  | _ => rfl

theorem number_here (p : Int) {e : MExpr} (h : IsNumber F e) : ∃ k, value F (.rel p) e = some (.abs k) := by
  obtain ⟨k, hk⟩ := h
  have := kind_here (F := F) p 0 e
  rw [hk] at this
  cases hv : value F (.rel p) e with
  | none => simp [hv] at this
  | some x => cases x with
    | abs k => exact ⟨k, rfl⟩
    | rel k => simp [hv, Val.isNum] at this

theorem place_here (p : Int) {e : MExpr} (h : IsPlace F e) : ∃ k, value F (.rel p) e = some (.rel k) := by
  obtain ⟨k, hk⟩ := h
  have := kind_here (F := F) p 0 e
  rw [hk] at this
  cases hv : value F (.rel p) e with
  | none => simp [hv] at this
  | some x => cases x with
    | rel k => exact ⟨k, rfl⟩
    | abs k => simp [hv, Val.isNum] at this

end
end Verif.Whole
