import Verif.Ord.AlignProps
import Verif.Ord.AddressProps
import Mathlib.Data.List.Basic
import Mathlib.Data.List.Forall2
/-!
C52: bookkeeping of the location counter.
-/
namespace Verif.Ord

/-! ### Specification: positions when all lengths are known from the start -/

/-- The position after an event; `σ` gives the lengths of the gaps. Defining and settling do not move. -/
def posAfter (σ : Nat → Int) (p : Int) : Ev → Int
  | .reserve len al => alignUp al p + len
  | .gap name _ => p + σ name
  | .define .. => p
  | .settle _ => p

def Ev.isStmt : Ev → Bool
  | .reserve .. => true
  | .gap .. => true
  | _ => false

/-- The positions behind the statements. -/
def layout (σ : Nat → Int) : Int → List Ev → List Int
  | _, [] => []
  | p, ev :: evs => (if ev.isStmt then [posAfter σ p ev] else []) ++ layout σ (posAfter σ p ev) evs

/-! ### Assumptions on a history -/

/-- Boundaries are powers of two. -/
def Pow (al : Al) : Prop := ∃ k, k ≤ 64 ∧ al.boundary = 2 ^ k

/-- What is assumed of one event in state `c` at position `p`:
* boundaries are powers of two; a displacement (`byte`) is used only while no gap is open;
* a gap ends at the boundary declared for it;
* a gap is given its length. -/
def okEv (σ : Nat → Int) (c : LC) (p : Int) : Ev → Prop
  | .reserve _ al => Pow al ∧ al.byte < al.boundary ∧ (al.byte = 0 ∨ c.data.parts = [])
  | .gap name al => Pow al ∧ al.byte = 0 ∧ (p + σ name) % al.boundary = 0
  | .define i len => ∀ s name, c.spaces[i]? = some s → s.kind = .ordinary name → len = σ name
  | .settle _ => True

def OkEvs (σ : Nat → Int) : LC → Int → List Ev → Prop
  | _, _, [] => True
  | c, p, ev :: evs => okEv σ c p ev ∧ OkEvs σ (c.step ev) (posAfter σ p ev) evs

/-! ### Lookups -/

def kindOf (sp : List Sp) (i : SpId) : Option SpKind := sp[i]?.map (·.kind)
def lenOf (sp : List Sp) (i : SpId) : Option Int := sp[i]?.bind (·.len)
def alOf (sp : List Sp) (i : SpId) : Al := match sp[i]? with
  | some s => s.al
  | none => ⟨0, 1⟩

theorem info_eq (c : LC) (i : SpId) : c.heap.info i = (lenOf c.spaces i).map (⟨·, []⟩) := by
  unfold lenOf
  show (match c.spaces[i]? with
    | some s => s.len.map fun l => (⟨l, []⟩ : Filled)
    | none => none) = _
  cases c.spaces[i]? <;> rfl

theorem al_eq (c : LC) (i : SpId) : c.al i = alOf c.spaces i := rfl

theorem lookup_append (sp : List Sp) (s : Sp) (i : SpId) : (sp ++ [s])[i]? = if i = sp.length then some s else sp[i]? := by
  split
  · rename_i h; subst h; simp
  · rename_i h
    rcases Nat.lt_or_ge i sp.length with hl | hl
    · rw [List.getElem?_append_left hl]
    · rw [List.getElem?_append_right hl, List.getElem?_eq_none hl, List.getElem?_eq_none (by
        have h1 : sp.length < i := Nat.lt_of_le_of_ne hl (fun e => h e.symm)
        exact Nat.sub_pos_of_lt h1)]

theorem kindOf_append (sp : List Sp) (s : Sp) (i : SpId) : kindOf (sp ++ [s]) i = if i = sp.length then some s.kind else kindOf sp i := by
  unfold kindOf; rw [lookup_append]; split <;> rfl
theorem lenOf_append (sp : List Sp) (s : Sp) (i : SpId) : lenOf (sp ++ [s]) i = if i = sp.length then s.len else lenOf sp i := by
  unfold lenOf; rw [lookup_append]; split <;> rfl
theorem alOf_append (sp : List Sp) (s : Sp) (i : SpId) : alOf (sp ++ [s]) i = if i = sp.length then s.al else alOf sp i := by
  unfold alOf; rw [lookup_append]; by_cases h : i = sp.length <;> simp [h]

theorem lookup_set {sp : List Sp} {i : SpId} {s : Sp} (h : sp[i]? = some s) (s' : Sp) (j : SpId) :
    (sp.set i s')[j]? = if j = i then some s' else sp[j]? := by
  rw [List.getElem?_set]
  have hi : i < sp.length := (List.getElem?_eq_some_iff.1 h).1
  by_cases hj : j = i
  · subst hj; simp [hi]
  · rw [if_neg (fun h => hj h.symm), if_neg hj]

theorem kindOf_set {sp : List Sp} {i : SpId} {s : Sp} (h : sp[i]? = some s) (l : Option Int) (j : SpId) :
    kindOf (sp.set i { s with len := l }) j = kindOf sp j := by
  unfold kindOf; rw [lookup_set h]; split
  · rename_i hj; subst hj; rw [h]; rfl
  · rfl
theorem alOf_set {sp : List Sp} {i : SpId} {s : Sp} (h : sp[i]? = some s) (l : Option Int) (j : SpId) :
    alOf (sp.set i { s with len := l }) j = alOf sp j := by
  unfold alOf; rw [lookup_set h]; split
  · rename_i hj hx; split at hx
    · rename_i hji; subst hji; cases hx; rw [h]
    · rw [hx]
  · rename_i hx; split at hx
    · cases hx
    · rw [hx]
theorem lenOf_set {sp : List Sp} {i : SpId} {s : Sp} (h : sp[i]? = some s) (l : Option Int) (j : SpId) :
    lenOf (sp.set i { s with len := l }) j = if j = i then l else lenOf sp j := by
  unfold lenOf; rw [lookup_set h]; split <;> rfl

/-! ### The lists of parts -/

def vsum (v : SpId → Int) (l : List (SpId × Int)) : Int := (l.map fun e => v e.1).sum
def asum (l : List (SpId × Int)) : Int := (l.map (·.2)).sum

@[simp] theorem vsum_nil (v) : vsum v [] = 0 := rfl
@[simp] theorem vsum_cons (v e l) : vsum v (e :: l) = v e.1 + vsum v l := by simp [vsum]
theorem vsum_append (v l r) : vsum v (l ++ r) = vsum v l + vsum v r := by simp [vsum]
@[simp] theorem asum_nil : asum [] = 0 := rfl
@[simp] theorem asum_cons (e l) : asum (e :: l) = e.2 + asum l := by simp [asum]
theorem asum_append (l r) : asum (l ++ r) = asum l + asum r := by simp [asum]

/-- Every space ends at its boundary; `start` is the position before the storage `ini`. -/
def partsOk (v : SpId → Int) (A : SpId → Al) : Int → Int → List (SpId × Int) → Prop
  | _, _, [] => True
  | start, ini, e :: l => (start + ini + v e.1) % (A e.1).boundary = (A e.1).byte ∧ partsOk v A (start + ini + v e.1) e.2 l

theorem partsOk_congr {v w : SpId → Int} {A B : SpId → Al} {start ini l} (h : partsOk v A start ini l) (hv : ∀ e ∈ l, v e.1 = w e.1)
    (hA : ∀ e ∈ l, A e.1 = B e.1) : partsOk w B start ini l := by
  induction l generalizing start ini with
  | nil => trivial
  | cons e l ih =>
    unfold partsOk at h ⊢
    rw [← hv e (by simp), ← hA e (by simp)]
    exact ⟨h.1, ih h.2 (fun x hx => hv x (by simp [hx])) (fun x hx => hA x (by simp [hx]))⟩

theorem partsOk_shift {v A} {l : List (SpId × Int)} {s1 i1 s2 i2 : Int} (h : partsOk v A s1 i1 l) (he : s1 + i1 = s2 + i2) : partsOk v A s2 i2 l := by
  cases l with
  | nil => trivial
  | cons e l => unfold partsOk at h ⊢; rw [← he]; exact h

theorem partsOk_fill {v A} (i : SpId) (start ini : Int) (l : List (SpId × Int)) (h : partsOk v A start ini l) :
    partsOk v A start (fillPart i (v i) ini l).1 (fillPart i (v i) ini l).2 := by
  induction l generalizing start ini with
  | nil => trivial
  | cons e l ih =>
    unfold partsOk at h
    unfold fillPart
    split
    · rename_i he
      rw [he] at h
      exact partsOk_shift h.2 (by ring)
    · unfold partsOk
      exact ⟨h.1, ih _ _ h.2⟩

theorem partsOk_snoc {v A} (start ini : Int) (l : List (SpId × Int)) (e : SpId × Int) (h : partsOk v A start ini l)
    (he : (start + ini + vsum v l + asum l + v e.1) % (A e.1).boundary = (A e.1).byte) : partsOk v A start ini (l ++ [e]) := by
  induction l generalizing start ini with
  | nil => simp at he; exact ⟨he, trivial⟩
  | cons x l ih =>
    unfold partsOk at h
    refine ⟨h.1, ih _ _ h.2 ?_⟩
    rw [← he]
    congr 1
    simp; ring

theorem partsOk_addLast {v A} (st start ini : Int) (l : List (SpId × Int)) (h : partsOk v A start ini l) : partsOk v A start ini (addLast st l) := by
  induction l generalizing start ini with
  | nil => exact h
  | cons x l ih =>
    cases l with
    | nil => exact ⟨h.1, trivial⟩
    | cons y l => exact ⟨h.1, ih _ _ h.2⟩

theorem partsOk_last {v A} (start ini : Int) (l : List (SpId × Int)) (s : SpId) (a : Int) (h : partsOk v A start ini l)
    (hl : l.getLast? = some (s, a)) : (start + ini + vsum v l + asum l - a) % (A s).boundary = (A s).byte := by
  induction l generalizing start ini with
  | nil => simp at hl
  | cons x l ih =>
    cases l with
    | nil =>
      simp at hl; subst hl
      have := h.1
      simp only at this
      rw [← this]; congr 1; simp
    | cons y l =>
      rw [List.getLast?_cons_cons] at hl
      have := ih _ _ h.2 hl
      rw [← this]
      congr 1
      simp; ring

theorem keys_addLast (st : Int) (l : List (SpId × Int)) : (addLast st l).map (·.1) = l.map (·.1) := by
  induction l with
  | nil => rfl
  | cons x l ih =>
    cases l with
    | nil => rfl
    | cons y l => simp only [addLast, List.map_cons] at ih ⊢; rw [ih]
theorem vsum_keys {v} {l r : List (SpId × Int)} (h : l.map (·.1) = r.map (·.1)) : vsum v l = vsum v r := by
  have : ∀ l : List (SpId × Int), vsum v l = ((l.map (·.1)).map v).sum := by intro l; simp [vsum, Function.comp_def]
  rw [this, this, h]
theorem asum_addLast (st : Int) (l : List (SpId × Int)) (h : l ≠ []) : asum (addLast st l) = asum l + st := by
  induction l with
  | nil => exact absurd rfl h
  | cons x l ih =>
    cases l with
    | nil => simp [addLast]
    | cons y l =>
      have := ih (by simp)
      simp only [addLast, asum_cons] at this ⊢; omega
theorem keys_fill (i : SpId) (len ini : Int) (l : List (SpId × Int)) : ((fillPart i len ini l).2.map (·.1)) = (l.map (·.1)).erase i := by
  induction l generalizing ini with
  | nil => rfl
  | cons e l ih =>
    unfold fillPart
    by_cases he : e.1 = i
    · rw [if_pos he]; simp [he]
    · rw [if_neg he]
      simp only [List.map_cons]
      rw [List.erase_cons_tail (by simpa using he), ih]
theorem sum_fill (v : SpId → Int) (i : SpId) (ini : Int) (l : List (SpId × Int)) :
    (fillPart i (v i) ini l).1 + asum (fillPart i (v i) ini l).2 = ini + asum l + (if l.any (·.1 = i) then v i else 0) ∧
    vsum v (fillPart i (v i) ini l).2 = vsum v l - (if l.any (·.1 = i) then v i else 0) := by
  induction l generalizing ini with
  | nil => simp [fillPart]
  | cons e l ih =>
    unfold fillPart
    by_cases he : e.1 = i
    · rw [if_pos he]
      simp [he]
      ring
    · rw [if_neg he]
      obtain ⟨h1, h2⟩ := ih e.2
      simp only [asum_cons, vsum_cons, List.any_cons, he, decide_false, Bool.false_or]
      exact ⟨by omega, by omega⟩

/-! ### The invariant -/

/-- `x` before `j` in the counter: if `j` is an alignment, its address contains `x`. -/
def Before (sp : List Sp) (x j : SpId) : Prop := ∀ d, kindOf sp j = some (.alignment d) → x ∈ d.spaces.map (·.1)

def aval (v : SpId → Int) (a : Addr) : Int := a.off + vsum v a.spaces

structure Inv (σ : Nat → Int) (v : SpId → Int) (c : LC) (p : Int) (out : List Int) : Prop where
  sum : c.data.storage = c.data.initial + asum c.data.parts
  pos : c.data.storage + vsum v c.data.parts = p
  lt : ∀ i ∈ c.data.parts.map (·.1), i < c.spaces.length
  unres : ∀ i ∈ c.data.parts.map (·.1), lenOf c.spaces i = none
  nodup : (c.data.parts.map (·.1)).Nodup
  ok : partsOk v (alOf c.spaces) 0 c.data.initial c.data.parts
  ord : ∀ i name, kindOf c.spaces i = some (.ordinary name) → v i = σ name
  res : ∀ i l, lenOf c.spaces i = some l → l = v i
  byte : ∀ i, (alOf c.spaces i).byte = 0
  pow : ∀ i, Pow (alOf c.spaces i)
  dep : ∀ i d, kindOf c.spaces i = some (.alignment d) →
    v i = alignUp (alOf c.spaces i) (aval v d) - aval v d ∧ (∀ x ∈ d.spaces.map (·.1), x < i) ∧ (d.spaces.map (·.1)).Pairwise (Before c.spaces)
  depres : ∀ i d, kindOf c.spaces i = some (.alignment d) → lenOf c.spaces i ≠ none → ∀ x ∈ d.spaces.map (·.1), lenOf c.spaces x ≠ none
  chain : (c.data.parts.map (·.1)).Pairwise (Before c.spaces)
  log : List.Forall₂ (fun a q => aval v a = q ∧ ∀ x ∈ a.spaces.map (·.1), x < c.spaces.length) c.log out

theorem inv_init (σ : Nat → Int) : Inv σ (fun _ => 0) LC.init 0 [] := by
  constructor <;> simp [LC.init, kindOf, lenOf, alOf, partsOk]
  exact ⟨0, by omega, rfl⟩

theorem kind_lt {sp : List Sp} {i k} (h : kindOf sp i = some k) : i < sp.length := by
  unfold kindOf at h
  cases hs : sp[i]? with
  | none => simp [hs] at h
  | some s => exact (List.getElem?_eq_some_iff.1 hs).1

/-- The address of a counter lists exactly its open spaces. -/
theorem current_eq {σ v c p out} (h : Inv σ v c p out) : c.current = ⟨[(owner, 1)], c.data.storage, c.data.parts.map fun e => (e.1, 1)⟩ := by
  have hu : ∀ i ∈ c.data.parts.map (·.1), c.heap.info i = none := by
    intro i hi; rw [info_eq, h.unres i hi]; rfl
  have hn := h.nodup
  unfold LC.current Addr.make
  have h0 : ((c.data.parts.map (·.1)).map c.heap.offset).sum = 0 := by
    generalize c.data.parts.map (·.1) = l at hu
    induction l with
    | nil => rfl
    | cons x l ih => rw [List.map_cons, List.sum_cons, offset_unknown (hu x (by simp)), ih (fun i hi => hu i (by simp [hi]))]; rfl
  have h1 : c.heap.norm ((c.data.parts.map (·.1)).map fun s => (s, (1 : Int))) = (c.data.parts.map (·.1)).map fun s => (s, (1 : Int)) := by
    generalize c.data.parts.map (·.1) = l at hu hn
    have hb : Canonical (l.map fun s => (s, (1 : Int))) := by
      refine ⟨by simpa [Function.comp_def] using hn, ?_⟩
      intro e he; rw [List.mem_map] at he; obtain ⟨x, _, rfl⟩ := he; simp
    have hall : ∀ e ∈ (l.map fun s => (s, (1 : Int))), c.heap.info e.1 = none := by
      intro e he; rw [List.mem_map] at he; obtain ⟨x, hx, rfl⟩ := he; exact hu x hx
    exact norm_canonical hb hall
  rw [h0, h1, List.map_map]
  simp [Function.comp_def]

theorem aval_current {σ v c p out} (h : Inv σ v c p out) : aval v c.current = p := by
  rw [current_eq h]
  unfold aval
  rw [← h.pos]
  congr 1
  exact vsum_keys (by simp [Function.comp_def])

/-- Appending storage. -/
theorem inv_append {σ v c p out} (h : Inv σ v c p out) (st : Int) : Inv σ v { c with data := c.data.appendStorage st } (p + st) out := by
  have hk := keys_addLast st c.data.parts
  have hsum : c.data.storage + st = (if c.data.parts.isEmpty then c.data.initial + st else c.data.initial) + asum (addLast st c.data.parts) := by
    have := h.sum
    cases hp : c.data.parts with
    | nil => simp [hp] at this ⊢; simp [addLast]; omega
    | cons e l =>
      rw [asum_addLast _ _ (by simp), ← hp]
      simp [hp] at this ⊢; omega
  constructor
  · exact hsum
  · show c.data.storage + st + vsum v (addLast st c.data.parts) = p + st
    rw [vsum_keys hk, ← h.pos]; omega
  · show ∀ i ∈ (addLast st c.data.parts).map (·.1), _; rw [hk]; exact h.lt
  · show ∀ i ∈ (addLast st c.data.parts).map (·.1), _; rw [hk]; exact h.unres
  · show ((addLast st c.data.parts).map (·.1)).Nodup; rw [hk]; exact h.nodup
  · show partsOk v (alOf c.spaces) 0 (if c.data.parts.isEmpty then c.data.initial + st else c.data.initial) (addLast st c.data.parts)
    cases hp : c.data.parts with
    | nil => simp [addLast, partsOk]
    | cons e l =>
      simp only [List.isEmpty_cons, Bool.false_eq_true, if_false]
      rw [← hp]
      exact partsOk_addLast _ _ _ _ h.ok
  · exact h.ord
  · exact h.res
  · exact h.byte
  · exact h.pow
  · exact h.dep
  · exact h.depres
  · show ((addLast st c.data.parts).map (·.1)).Pairwise _; rw [hk]; exact h.chain
  · exact h.log

theorem inv_log {σ v c p out} (h : Inv σ v c p out) : Inv σ v { c with log := c.log ++ [c.current] } p (out ++ [p]) := by
  have hc : c.current.spaces.map (·.1) = c.data.parts.map (·.1) := by rw [current_eq h]; simp [Function.comp_def]
  refine ⟨h.sum, h.pos, h.lt, h.unres, h.nodup, h.ok, h.ord, h.res, h.byte, h.pow, h.dep, h.depres, h.chain, ?_⟩
  refine List.rel_append h.log (.cons ⟨aval_current h, ?_⟩ .nil)
  rw [hc]; exact h.lt

theorem before_append {sp : List Sp} {s : Sp} {l : List SpId} (hl : ∀ x ∈ l, x < sp.length) (h : l.Pairwise (Before sp)) : l.Pairwise (Before (sp ++ [s])) := by
  refine h.imp_of_mem ?_
  intro a b ha hb hab d hd
  rw [kindOf_append, if_neg (Nat.ne_of_lt (hl b hb))] at hd
  exact hab d hd

/-- Registering a space that will have the length `x`. -/
theorem inv_register {σ v c p out} (h : Inv σ v c p out) (al : Al) (kind : SpKind) (x : Int) (hpow : Pow al) (hb : al.byte = 0)
    (hend : (p + x) % al.boundary = al.byte) (hord : ∀ name, kind = .ordinary name → x = σ name)
    (hdep : ∀ d, kind = .alignment d → d = c.current ∧ x = alignUp al p - p) :
    Inv σ (fun i => if i = c.spaces.length then x else v i) (c.register al kind) (p + x) out := by
  have hne : ∀ i, i < c.spaces.length → (if i = c.spaces.length then x else v i) = v i := fun i hi => if_neg (Nat.ne_of_lt hi)
  have hv : ∀ l : List (SpId × Int), (∀ i ∈ l.map (·.1), i < c.spaces.length) → vsum (fun i => if i = c.spaces.length then x else v i) l = vsum v l := by
    intro l
    induction l with
    | nil => intro _; rfl
    | cons e l ih =>
      intro hl
      rw [vsum_cons, vsum_cons, ih (fun i hi => hl i (by simp at hi ⊢; exact .inr hi)), hne _ (hl _ (by simp))]
  have hcur : c.current.spaces.map (·.1) = c.data.parts.map (·.1) := by rw [current_eq h]; simp [Function.comp_def]
  have hkeys : (c.data.parts ++ [(c.spaces.length, (0 : Int))]).map (·.1) = c.data.parts.map (·.1) ++ [c.spaces.length] := by simp
  constructor
  · show c.data.storage = c.data.initial + asum (c.data.parts ++ [(c.spaces.length, 0)])
    rw [asum_append, h.sum]; simp
  · show c.data.storage + vsum _ (c.data.parts ++ [(c.spaces.length, 0)]) = p + x
    rw [vsum_append, hv _ h.lt, ← h.pos]
    simp; ring
  · intro i hi
    change i ∈ (c.data.parts ++ [(c.spaces.length, (0 : Int))]).map (·.1) at hi
    show i < (c.spaces ++ [(⟨al, kind, none⟩ : Sp)]).length
    rw [hkeys, List.mem_append] at hi
    rw [List.length_append]
    rcases hi with hi | hi
    · have := h.lt i hi; simp; omega
    · simp at hi; simp [hi]
  · show ∀ i ∈ (c.data.parts ++ [(c.spaces.length, (0 : Int))]).map (·.1), lenOf (c.spaces ++ [_]) i = none
    rw [hkeys]
    intro i hi
    rw [lenOf_append]
    rw [List.mem_append] at hi
    rcases hi with hi | hi
    · rw [if_neg (Nat.ne_of_lt (h.lt i hi))]; exact h.unres i hi
    · simp at hi; rw [if_pos hi]
  · show ((c.data.parts ++ [(c.spaces.length, (0 : Int))]).map (·.1)).Nodup
    rw [hkeys, List.nodup_append]
    refine ⟨h.nodup, by simp, ?_⟩
    intro a ha b hb hab
    simp at hb
    exact Nat.ne_of_lt (h.lt a ha) (hab.trans hb)
  · show partsOk _ (alOf (c.spaces ++ [_])) 0 c.data.initial (c.data.parts ++ [(c.spaces.length, 0)])
    refine partsOk_snoc _ _ _ _ (partsOk_congr h.ok ?_ ?_) ?_
    · intro e he; exact (hne e.1 (h.lt _ (List.mem_map_of_mem he))).symm
    · intro e he; rw [alOf_append, if_neg (Nat.ne_of_lt (h.lt _ (List.mem_map_of_mem he)))]
    · rw [hv _ h.lt, alOf_append, if_pos rfl]
      simp only [if_true]
      rw [← hend]
      congr 1
      have := h.sum; have := h.pos; omega
  · intro i name hk
    change kindOf (c.spaces ++ [_]) i = _ at hk
    rw [kindOf_append] at hk
    split at hk
    · rename_i hi
      simp only at hk
      simp only [hi, if_true]
      exact hord name (by simpa using hk)
    · rename_i hi; simp only [hi, if_false]; exact h.ord i name hk
  · intro i l hl
    change lenOf (c.spaces ++ [_]) i = _ at hl
    rw [lenOf_append] at hl
    split at hl
    · simp at hl
    · rename_i hi; simp only [hi, if_false]; exact h.res i l hl
  · intro i
    show (alOf (c.spaces ++ [_]) i).byte = 0
    rw [alOf_append]; split
    · exact hb
    · exact h.byte i
  · intro i
    show Pow (alOf (c.spaces ++ [_]) i)
    rw [alOf_append]; split
    · exact hpow
    · exact h.pow i
  · intro i d hk
    change kindOf (c.spaces ++ [_]) i = _ at hk
    show _ = alignUp (alOf (c.spaces ++ [_]) i) _ - _ ∧ _ ∧ (d.spaces.map (·.1)).Pairwise (Before (c.spaces ++ [_]))
    rw [kindOf_append] at hk
    rw [alOf_append]
    split at hk
    · rename_i hi
      simp only [hi, if_true]
      obtain ⟨hd, hx⟩ := hdep d (by simpa using hk)
      subst hd
      have hav : aval (fun i => if i = c.spaces.length then x else v i) c.current = p := by
        have := aval_current h
        unfold aval at this ⊢
        rw [hv _ (by rw [hcur]; exact h.lt)]; exact this
      refine ⟨by rw [hav]; exact hx, by rw [hcur]; exact h.lt, ?_⟩
      rw [hcur]
      exact before_append h.lt h.chain
    · rename_i hi
      simp only [hi, if_false]
      obtain ⟨h1, h2, h3⟩ := h.dep i d hk
      have hil := kind_lt hk
      have hav : aval (fun i => if i = c.spaces.length then x else v i) d = aval v d := by
        unfold aval; rw [hv _ (fun j hj => Nat.lt_trans (h2 j hj) hil)]
      rw [hav]
      exact ⟨h1, h2, before_append (fun j hj => Nat.lt_trans (h2 j hj) hil) h3⟩
  · intro i d hk hl j hj
    change kindOf (c.spaces ++ [_]) i = _ at hk
    change lenOf (c.spaces ++ [_]) i ≠ _ at hl
    show lenOf (c.spaces ++ [_]) j ≠ none
    rw [kindOf_append] at hk
    rw [lenOf_append] at hl ⊢
    split at hk
    · rename_i hi; simp [hi] at hl
    · rename_i hi
      rw [if_neg hi] at hl
      rw [if_neg (Nat.ne_of_lt (Nat.lt_trans ((h.dep i d hk).2.1 j hj) (kind_lt hk)))]
      exact h.depres i d hk hl j hj
  · show ((c.data.parts ++ [(c.spaces.length, (0 : Int))]).map (·.1)).Pairwise (Before (c.spaces ++ [_]))
    rw [hkeys, List.pairwise_append]
    refine ⟨before_append h.lt h.chain, by simp, ?_⟩
    intro a ha b hb d hd
    simp at hb; subst hb
    rw [kindOf_append, if_pos rfl] at hd
    rw [(hdep d (by simpa using hd)).1, hcur]
    exact ha
  · refine h.log.imp ?_
    intro a q haq
    refine ⟨?_, fun j hj => ?_⟩
    · rw [← haq.1]; unfold aval; rw [hv _ haq.2]
    · show j < (c.spaces ++ [_]).length
      have := haq.2 j hj
      simp; omega

theorem dvd_of_pow {a b : Al} (ha : Pow a) (hb : Pow b) (h : a.boundary ≤ b.boundary) : (a.boundary : Int) ∣ b.boundary := by
  obtain ⟨k, _, hk⟩ := ha
  obtain ⟨m, _, hm⟩ := hb
  rw [hk, hm] at h ⊢
  have : k ≤ m := (Nat.pow_le_pow_iff_right (by omega)).1 h
  exact_mod_cast Nat.pow_dvd_pow 2 this

theorem sizeOk_pow {al : Al} (h : Pow al) (x : Int) : SizeOk al.boundary x := by
  obtain ⟨k, hk, e⟩ := h
  exact .inl (e ▸ Nat.pow_dvd_pow 2 hk)

theorem alignUp_fix {al : Al} {p : Int} (h : p % al.boundary = al.byte) : alignUp al p = p := by
  unfold alignUp
  have : ((al.byte : Int) - p) = 0 + al.boundary * (-(p / al.boundary)) := by
    have := Int.emod_add_mul_ediv p al.boundary
    rw [Int.mul_neg]; omega
  rw [this, Int.add_mul_emod_self_left]; simp

theorem inv_alignTo {σ v c p out} (h : Inv σ v c p out) (al : Al) (hp : Pow al) (hb : al.byte < al.boundary) (h0 : al.byte = 0 ∨ c.data.parts = []) :
    ∃ w, (∀ i, i < c.spaces.length → w i = v i) ∧ Inv σ w (c.alignTo al) (alignUp al p) out := by
  unfold LC.alignTo
  by_cases hh : c.hasAlignment al
  · rw [if_pos hh]
    refine ⟨v, fun _ _ => rfl, ?_⟩
    rw [alignUp_fix]
    · exact h
    · unfold LC.hasAlignment at hh
      cases hl : c.data.parts.getLast? with
      | none =>
        rw [hl] at hh
        have hnil : c.data.parts = [] := by simpa using hl
        have := sz_mod (sizeOk_pow hp c.data.storage)
        simp at hh
        rw [hh] at this
        rw [← h.pos, hnil]; simp [this]
      | some e =>
        obtain ⟨s, a⟩ := e
        rw [hl] at hh
        simp only at hh
        split at hh
        · simp at hh
        · rename_i hle
          rw [al_eq] at hle hh
          have hm := sz_mod (sizeOk_pow hp (((alOf c.spaces s).boundary : Int) + (alOf c.spaces s).byte + a))
          have hlast := partsOk_last _ _ _ s a h.ok hl
          have hdvd := dvd_of_pow hp (h.pow s) (by omega)
          simp at hh
          rw [hh] at hm
          rw [hm]
          obtain ⟨q, hq⟩ := hdvd
          have hd := Int.emod_add_mul_ediv (0 + c.data.initial + vsum v c.data.parts + asum c.data.parts - a) (alOf c.spaces s).boundary
          rw [hlast] at hd
          have hpe : p = 0 + c.data.initial + vsum v c.data.parts + asum c.data.parts := by have := h.sum; have := h.pos; omega
          generalize (0 + c.data.initial + vsum v c.data.parts + asum c.data.parts - a) / ((alOf c.spaces s).boundary : Int) = t at hd
          have : p = (((alOf c.spaces s).boundary : Int) + (alOf c.spaces s).byte + a) + al.boundary * (q * t - q) := by
            rw [hq] at hd ⊢
            have e1 : (al.boundary : Int) * q * t = al.boundary * (q * t) := by ring
            have e2 : (al.boundary : Int) * (q * t - q) = al.boundary * (q * t) - al.boundary * q := by ring
            rw [e1] at hd
            rw [e2]
            omega
          rw [this, Int.add_mul_emod_self_left]
  · rw [if_neg hh]
    by_cases hn : c.needSpace al
    · rw [if_pos hn]
      have hne : c.data.parts ≠ [] := by intro e; simp [LC.needSpace, e] at hn
      have hb0 : al.byte = 0 := h0.resolve_right hne
      have := inv_register h al (.alignment c.current) (alignUp al p - p) hp hb0 (by
        rw [show p + (alignUp al p - p) = alignUp al p by omega]
        exact (alignUp_next al p hb).2.1) (by intro name e; cases e) (by intro d e; cases e; exact ⟨rfl, rfl⟩)
      rw [show p + (alignUp al p - p) = alignUp al p by omega] at this
      exact ⟨_, fun i hi => if_neg (Nat.ne_of_lt hi), this⟩
    · rw [if_neg hn]
      refine ⟨v, fun _ _ => rfl, ?_⟩
      have := inv_append h (padData al c.data.last)
      have he : p + padData al c.data.last = alignUp al p := by
        rw [padData_eq al _ (by omega) (sizeOk_pow hp _)]
        unfold alignUp LData.last
        cases hl : c.data.parts.getLast? with
        | none =>
          have hnil : c.data.parts = [] := by simpa using hl
          have : c.data.initial = p := by
            have h1 := h.sum; have h2 := h.pos
            rw [hnil] at h1 h2; simp at h1 h2; omega
          simp [this]
        | some e =>
          obtain ⟨s, a⟩ := e
          simp only
          have hlast := partsOk_last _ _ _ s a h.ok hl
          rw [h.byte s] at hlast
          have hle : al.boundary ≤ (alOf c.spaces s).boundary := by
            unfold LC.needSpace at hn
            rw [hl] at hn
            exact Nat.le_of_not_lt fun hlt => hn (decide_eq_true hlt)
          obtain ⟨q, hq⟩ := dvd_of_pow hp (h.pow s) hle
          have hd := Int.emod_add_mul_ediv (0 + c.data.initial + vsum v c.data.parts + asum c.data.parts - a) (alOf c.spaces s).boundary
          rw [hlast] at hd
          have hpe : p = 0 + c.data.initial + vsum v c.data.parts + asum c.data.parts := by have := h.sum; have := h.pos; omega
          generalize (0 + c.data.initial + vsum v c.data.parts + asum c.data.parts - a) / ((alOf c.spaces s).boundary : Int) = t at hd
          have : (al.byte : Int) - a = (al.byte - p) + al.boundary * (q * t) := by
            rw [hq] at hd
            have e1 : (al.boundary : Int) * q * t = al.boundary * (q * t) := by ring
            rw [e1] at hd
            simp only [Nat.cast_zero] at hd
            omega
          rw [this, Int.add_mul_emod_self_left]
      rw [he] at this
      exact this

/-- Giving a space its length. -/
theorem inv_setLen {σ v c p out} (h : Inv σ v c p out) (i : SpId)
    (hdep : ∀ d, kindOf c.spaces i = some (.alignment d) → ∀ x ∈ d.spaces.map (·.1), lenOf c.spaces x ≠ none) : Inv σ v (c.setLen i (v i)) p out := by
  unfold LC.setLen
  cases hs : c.spaces[i]? with
  | none => exact h
  | some s =>
    simp only
    cases hl : s.len with
    | some _ => exact h
    | none =>
      simp only
      have hk := keys_fill i (v i) c.data.initial c.data.parts
      have hsum := sum_fill v i c.data.initial c.data.parts
      have hkind := kindOf_set hs (some (v i))
      have hal := alOf_set hs (some (v i))
      have hlen := lenOf_set hs (some (v i))
      have hbef : Before (c.spaces.set i { s with len := some (v i) }) = Before c.spaces := by
        funext a b; unfold Before; rw [hkind]
      have hmem : ∀ j ∈ (fillPart i (v i) c.data.initial c.data.parts).2.map (·.1), j ∈ c.data.parts.map (·.1) ∧ j ≠ i := by
        intro j hj
        rw [hk] at hj
        rw [h.nodup.mem_erase_iff] at hj
        exact ⟨hj.2, hj.1⟩
      constructor
      · show (if c.data.parts.any (·.1 = i) then c.data.storage + v i else c.data.storage) =
          (fillPart i (v i) c.data.initial c.data.parts).1 + asum (fillPart i (v i) c.data.initial c.data.parts).2
        rw [hsum.1, h.sum]; split <;> omega
      · show (if c.data.parts.any (·.1 = i) then c.data.storage + v i else c.data.storage) +
          vsum v (fillPart i (v i) c.data.initial c.data.parts).2 = p
        rw [hsum.2, ← h.pos]; split <;> omega
      · intro j hj
        show j < (c.spaces.set i _).length
        rw [List.length_set]
        exact h.lt j (hmem j hj).1
      · intro j hj
        show lenOf (c.spaces.set i _) j = none
        rw [hlen, if_neg (hmem j hj).2]
        exact h.unres j (hmem j hj).1
      · show ((fillPart i (v i) c.data.initial c.data.parts).2.map (·.1)).Nodup
        rw [hk]; exact h.nodup.erase i
      · refine partsOk_congr (partsOk_fill i _ _ _ h.ok) (fun _ _ => rfl) (fun e _ => (hal e.1).symm)
      · intro j name hj
        exact h.ord j name (by rw [← hkind]; exact hj)
      · intro j l hj
        change lenOf (c.spaces.set i _) j = _ at hj
        rw [hlen] at hj
        split at hj
        · rename_i e; cases hj; rw [e]
        · exact h.res j l hj
      · intro j; rw [← h.byte j]; exact congrArg Al.byte (hal j)
      · intro j
        show Pow (alOf (c.spaces.set i _) j)
        rw [hal]; exact h.pow j
      · intro j d hj
        show v j = alignUp (alOf (c.spaces.set i _) j) _ - _ ∧ _ ∧ (d.spaces.map (·.1)).Pairwise (Before (c.spaces.set i _))
        rw [hal, hbef]
        exact h.dep j d (by rw [← hkind]; exact hj)
      · intro j d hj hjl x hx
        change lenOf (c.spaces.set i _) j ≠ _ at hjl
        show lenOf (c.spaces.set i _) x ≠ none
        rw [hlen] at hjl ⊢
        have hj' : kindOf c.spaces j = some (.alignment d) := by rw [← hkind]; exact hj
        split
        · simp
        · split at hjl
          · rename_i e; subst e; exact hdep d hj' x hx
          · exact h.depres j d hj' hjl x hx
      · show ((fillPart i (v i) c.data.initial c.data.parts).2.map (·.1)).Pairwise (Before (c.spaces.set i _))
        rw [hbef, hk]
        exact h.chain.sublist List.erase_sublist
      · show List.Forall₂ (fun a q => aval v a = q ∧ ∀ x ∈ a.spaces.map (·.1), x < (c.spaces.set i _).length) c.log out
        rw [List.length_set]
        exact h.log

/-- When the last spaces of an address are resolved, all are. -/
theorem ready_all {σ v c p out} (h : Inv σ v c p out) {i d} (hk : kindOf c.spaces i = some (.alignment d)) (hr : c.ready d) :
    ∀ x ∈ d.spaces.map (·.1), lenOf c.spaces x ≠ none := by
  have hp := (h.dep i d hk).2.2
  unfold LC.ready at hr
  have hrev : ∀ l : List (SpId × Int), (l.map (·.1)).Pairwise (fun a b => Before c.spaces b a) →
      (depTail c l).all (fun e => (c.heap.info e.1).isSome) → ∀ x ∈ l.map (·.1), lenOf c.spaces x ≠ none := by
    intro l
    induction l with
    | nil => intro _ _ x hx; simp at hx
    | cons e l ih =>
      intro hpw hall x hx
      rw [List.map_cons, List.pairwise_cons] at hpw
      unfold depTail at hall
      rw [List.all_cons, Bool.and_eq_true, info_eq] at hall
      have he : lenOf c.spaces e.1 ≠ none := by
        intro hn; rw [hn] at hall; simp at hall
      rw [List.map_cons, List.mem_cons] at hx
      rcases hx with rfl | hx
      · exact he
      · have hall2 := hall.2
        split at hall2
        · rename_i _ d' _ hs
          have hke : kindOf c.spaces e.1 = some (.alignment d') := by unfold kindOf; rw [hs]; rfl
          exact h.depres e.1 d' hke he x (hpw.1 x hx d' hke)
        · exact ih hpw.2 hall2 x hx
  intro x hx
  refine hrev d.spaces.reverse ?_ hr x ?_
  · rw [List.map_reverse, List.pairwise_reverse]; exact hp
  · rw [List.map_reverse]; simpa using hx

theorem offset_eq_len (c : LC) (i : SpId) : c.heap.offset i = (lenOf c.spaces i).getD 0 := by
  cases hl : lenOf c.spaces i with
  | none => rw [offset_unknown (by rw [info_eq, hl]; rfl)]; rfl
  | some l => rw [offset_known (s := ⟨l, []⟩) (by rw [info_eq, hl]; rfl)]; simp

theorem offset_eq_aval {σ v c p out} (h : Inv σ v c p out) (a : Addr) (ha : ∀ x ∈ a.spaces.map (·.1), lenOf c.spaces x ≠ none) :
    a.offset c.heap = aval v a := by
  unfold Addr.offset aval vsum
  congr 2
  refine List.map_congr_left ?_
  intro e he
  rw [offset_eq_len]
  have := ha e.1 (List.mem_map_of_mem he)
  cases hl : lenOf c.spaces e.1 with
  | none => exact absurd hl this
  | some l => rw [← h.res e.1 l hl]; rfl

theorem inv_step_keep {σ v c p out} (h : Inv σ v c p out) (ev : Ev) (hok : okEv σ c p ev) :
    ∃ w, (∀ i, i < c.spaces.length → w i = v i) ∧ Inv σ w (c.step ev) (posAfter σ p ev) (out ++ if ev.isStmt then [posAfter σ p ev] else []) := by
  cases ev with
  | reserve len al =>
    obtain ⟨hp, hb, h0⟩ := hok
    obtain ⟨w, ha, hw⟩ := inv_alignTo h al hp hb h0
    exact ⟨w, ha, inv_log (inv_append hw len)⟩
  | gap name al =>
    obtain ⟨hp, hb, he⟩ := hok
    have := inv_register h al (.ordinary name) (σ name) hp hb (by rw [he, hb]; rfl) (by intro n e; cases e; rfl) (by intro d e; cases e)
    exact ⟨_, fun i hi => if_neg (Nat.ne_of_lt hi), inv_log this⟩
  | define i len =>
    refine ⟨v, fun _ _ => rfl, ?_⟩
    simp only [Ev.isStmt, Bool.false_eq_true, if_false, List.append_nil, posAfter]
    unfold LC.step
    simp only
    split
    · rename_i al name l hs
      have hl : len = σ name := hok _ name hs rfl
      have hk : kindOf c.spaces i = some (.ordinary name) := by unfold kindOf; rw [hs]; rfl
      rw [hl, ← h.ord i name hk]
      exact inv_setLen h i (by intro d hd; rw [hk] at hd; cases hd)
    · exact h
  | settle i =>
    refine ⟨v, fun _ _ => rfl, ?_⟩
    simp only [Ev.isStmt, Bool.false_eq_true, if_false, List.append_nil, posAfter]
    unfold LC.step
    simp only
    split
    · rename_i al d l hs
      split
      · rename_i hr
        have hk : kindOf c.spaces i = some (.alignment d) := by unfold kindOf; rw [hs]; rfl
        have hall := ready_all h hk hr
        have hal : alOf c.spaces i = al := by unfold alOf; rw [hs]
        obtain ⟨h1, _, _⟩ := h.dep i d hk
        have hb := h.byte i
        have hpw := h.pow i
        rw [hal] at h1 hb hpw
        have hpos : al.byte < al.boundary := by
          obtain ⟨k, _, e⟩ := hpw
          rw [hb, e]; exact Nat.two_pow_pos k
        have hv : padSpace al (d.offset c.heap) = v i := by
          rw [offset_eq_aval h d hall, padSpace_eq al _ hpos (sizeOk_pow hpw _), h1]
          unfold alignUp; omega
        rw [hv]
        exact inv_setLen h i (by intro d' hd'; rw [hk] at hd'; cases hd'; exact hall)
      · exact h
    · exact h

theorem inv_step {σ v c p out} (h : Inv σ v c p out) (ev : Ev) (hok : okEv σ c p ev) :
    ∃ w, Inv σ w (c.step ev) (posAfter σ p ev) (out ++ if ev.isStmt then [posAfter σ p ev] else []) := by
  obtain ⟨w, _, hw⟩ := inv_step_keep h ev hok
  exact ⟨w, hw⟩

theorem inv_run (σ : Nat → Int) (evs : List Ev) {v c p out} (h : Inv σ v c p out) (hok : OkEvs σ c p evs) :
    ∃ w, Inv σ w (c.run evs) (evs.foldl (posAfter σ) p) (out ++ layout σ p evs) := by
  induction evs generalizing v c p out with
  | nil => exact ⟨v, by simpa [LC.run, layout] using h⟩
  | cons ev evs ih =>
    obtain ⟨w, hw⟩ := inv_step h ev hok.1
    obtain ⟨w', hq⟩ := ih hw hok.2
    refine ⟨w', ?_⟩
    simp only [LC.run, List.foldl_cons, layout]
    rw [← List.append_assoc]
    exact hq

/-! ### C52 -/

/-- C52 (partial): whatever the order in which gaps are filled, each address handed out ends up where it would be had all lengths been
known: as soon as its spaces are resolved its offset is the position in the layout. Missing: gaps that do not end at the boundary declared
for them (`C52_witness_gap_end`), displacements while a gap is open (`C52_witness_displacement`), `ORG`. -/
theorem C52_layout_partial (σ : Nat → Int) (evs : List Ev) (hok : OkEvs σ LC.init 0 evs) :
    (LC.init.run evs).log.length = (layout σ 0 evs).length ∧
    ∀ (n : Nat) (a : Addr) (q : Int), (LC.init.run evs).log[n]? = some a → (layout σ 0 evs)[n]? = some q →
      (∀ e ∈ a.spaces, (lenOf (LC.init.run evs).spaces e.1).isSome) → a.offset (LC.init.run evs).heap = q := by
  obtain ⟨w, h⟩ := inv_run σ evs (inv_init σ) hok
  rw [List.nil_append] at h
  refine ⟨h.log.length_eq, ?_⟩
  intro n a q' ha hq hres
  have hrel := (List.forall₂_iff_get.1 h.log).2
  have hn : n < (LC.init.run evs).log.length := (List.getElem?_eq_some_iff.1 ha).1
  have hn' : n < (layout σ 0 evs).length := (List.getElem?_eq_some_iff.1 hq).1
  have := hrel n hn hn'
  have ea : (LC.init.run evs).log.get ⟨n, hn⟩ = a := by
    rw [List.getElem?_eq_getElem hn] at ha; simpa using ha
  have eq' : (layout σ 0 evs).get ⟨n, hn'⟩ = q' := by
    rw [List.getElem?_eq_getElem hn'] at hq; simpa using hq
  rw [ea, eq'] at this
  rw [← this.1]
  refine offset_eq_aval h a ?_
  intro x hx
  rw [List.mem_map] at hx
  obtain ⟨e, he, rfl⟩ := hx
  have := hres e he
  intro hn
  rw [hn] at this; simp at this

theorem layout_filter (σ : Nat → Int) (p : Int) (evs : List Ev) : layout σ p evs = layout σ p (evs.filter Ev.isStmt) := by
  induction evs generalizing p with
  | nil => rfl
  | cons ev evs ih =>
    cases ev <;> simp [layout, Ev.isStmt, posAfter, List.filter_cons, ih]

/-- C52 (partial): two histories with the same statements, in which the gaps got their lengths at different moments, give the same
offsets. -/
theorem C52_order_independent_partial (σ : Nat → Int) (evs evs' : List Ev) (hok : OkEvs σ LC.init 0 evs) (hok' : OkEvs σ LC.init 0 evs')
    (hs : evs.filter Ev.isStmt = evs'.filter Ev.isStmt) (n : Nat) (a a' : Addr) (ha : (LC.init.run evs).log[n]? = some a)
    (ha' : (LC.init.run evs').log[n]? = some a') (hr : ∀ e ∈ a.spaces, (lenOf (LC.init.run evs).spaces e.1).isSome)
    (hr' : ∀ e ∈ a'.spaces, (lenOf (LC.init.run evs').spaces e.1).isSome) :
    a.offset (LC.init.run evs).heap = a'.offset (LC.init.run evs').heap := by
  obtain ⟨hl, h⟩ := C52_layout_partial σ evs hok
  obtain ⟨hl', h'⟩ := C52_layout_partial σ evs' hok'
  have hn : n < (layout σ 0 evs).length := hl ▸ (List.getElem?_eq_some_iff.1 ha).1
  have e : layout σ 0 evs = layout σ 0 evs' := by rw [layout_filter σ 0 evs, layout_filter σ 0 evs', hs]
  rw [h n a _ ha (List.getElem?_eq_getElem hn) hr]
  rw [h' n a' _ ha' (by rw [← e]; exact List.getElem?_eq_getElem hn) hr']

/-- C52 (partial): whenever no gap is open, the reported storage is the position after all statements. -/
theorem C52_storage_partial (σ : Nat → Int) (evs : List Ev) (hok : OkEvs σ LC.init 0 evs) (hp : (LC.init.run evs).data.parts = []) :
    (LC.init.run evs).data.storage = evs.foldl (posAfter σ) 0 := by
  obtain ⟨w, h⟩ := inv_run σ evs (inv_init σ) hok
  rw [← h.pos, hp]; simp

/-! The next three hold for all histories. -/

theorem sum_step (c : LC) (ev : Ev) (h : c.data.storage = c.data.initial + asum c.data.parts) :
    (c.step ev).data.storage = (c.step ev).data.initial + asum (c.step ev).data.parts := by
  have happ : ∀ (d : LData) (st : Int), d.storage = d.initial + asum d.parts →
      (d.appendStorage st).storage = (d.appendStorage st).initial + asum (d.appendStorage st).parts := by
    intro d st hd
    unfold LData.appendStorage
    simp only
    cases hp : d.parts with
    | nil => simp [hp] at hd ⊢; simp [addLast]; omega
    | cons e l =>
      rw [asum_addLast _ _ (by simp)]
      rw [hp] at hd
      simp only [List.isEmpty_cons, Bool.false_eq_true, if_false]; omega
  have hreg : ∀ (c : LC) al k, c.data.storage = c.data.initial + asum c.data.parts →
      (c.register al k).data.storage = (c.register al k).data.initial + asum (c.register al k).data.parts := by
    intro c al k hc
    simp only [LC.register, LData.appendSpace]
    rw [asum_append, hc]; simp
  have hset : ∀ (c : LC) i len, c.data.storage = c.data.initial + asum c.data.parts →
      (c.setLen i len).data.storage = (c.setLen i len).data.initial + asum (c.setLen i len).data.parts := by
    intro c i len hc
    unfold LC.setLen
    split
    · exact hc
    · split
      · exact hc
      · have := sum_fill (fun _ => len) i c.data.initial c.data.parts
        simp only [LData.resolve]
        rw [this.1, hc]; split <;> omega
  cases ev with
  | reserve len al =>
    refine happ _ _ ?_
    unfold LC.alignTo
    split
    · exact h
    · split
      · exact hreg _ _ _ h
      · exact happ _ _ h
  | gap name al => exact hreg c al (.ordinary name) h
  | define i len =>
    unfold LC.step
    simp only
    split
    · exact hset _ _ _ h
    · exact h
  | settle i =>
    unfold LC.step
    simp only
    split
    · split
      · exact hset _ _ _ h
      · exact h
    · exact h

/-- C52: the reported storage is the storage before the first open gap plus what follows each open gap. -/
theorem C52_storage_sum (evs : List Ev) :
    (LC.init.run evs).data.storage = (LC.init.run evs).data.initial + ((LC.init.run evs).data.parts.map (·.2)).sum := by
  have : ∀ (evs : List Ev) (c : LC), c.data.storage = c.data.initial + asum c.data.parts → (c.run evs).data.storage = (c.run evs).data.initial + asum (c.run evs).data.parts := by
    intro evs
    induction evs with
    | nil => intro c h; exact h
    | cons ev evs ih => intro c h; exact ih _ (sum_step c ev h)
  exact this evs LC.init rfl

/-- C52: reserving without alignment adds exactly the length to the reported storage, also while gaps are open. -/
theorem C52_reserve_adds (c : LC) (len : Nat) : (c.step (.reserve len ⟨0, 1⟩)).data.storage = c.data.storage + len := by
  have h0 : c.hasAlignment ⟨0, 1⟩ = true ∨ ∃ s a, c.data.parts.getLast? = some (s, a) ∧ (c.al s).boundary = 0 := by
    unfold LC.hasAlignment
    split
    · exact .inl (by simp [Nat.mod_one])
    · rename_i s a hl
      by_cases h : (c.al s).boundary = 0
      · exact .inr ⟨s, a, hl, h⟩
      · rw [if_neg (show ¬ 1 > (c.al s).boundary by omega)]; exact .inl (by simp [Nat.mod_one])
  show ((c.alignTo ⟨0, 1⟩).data.appendStorage len).storage = _
  unfold LC.alignTo
  rcases h0 with h0 | ⟨s, a, hl, hb⟩
  · rw [if_pos h0]; rfl
  · by_cases hh : c.hasAlignment ⟨0, 1⟩
    · rw [if_pos hh]; rfl
    · rw [if_neg hh, if_pos (by unfold LC.needSpace; rw [hl]; simp [hb])]; rfl

/-! ### Everything gets resolved -/

theorem lookup_setLen_kind (c : LC) (i : SpId) (len : Int) (j : SpId) : kindOf (c.setLen i len).spaces j = kindOf c.spaces j := by
  unfold LC.setLen
  split
  · rfl
  · rename_i s hs
    split
    · rfl
    · exact kindOf_set hs _ j
theorem length_setLen (c : LC) (i : SpId) (len : Int) : (c.setLen i len).spaces.length = c.spaces.length := by
  unfold LC.setLen
  split
  · rfl
  · split
    · rfl
    · simp
theorem len_setLen (c : LC) (i : SpId) (len : Int) (j : SpId) (h : lenOf c.spaces j ≠ none) : lenOf (c.setLen i len).spaces j ≠ none := by
  unfold LC.setLen
  split
  · exact h
  · rename_i s hs
    split
    · exact h
    · show lenOf (c.spaces.set i _) j ≠ none
      rw [lenOf_set hs]; split
      · simp
      · exact h
theorem len_setLen_self (c : LC) (i : SpId) (len : Int) (hi : i < c.spaces.length) : lenOf (c.setLen i len).spaces i ≠ none := by
  unfold LC.setLen
  rw [List.getElem?_eq_getElem hi]
  simp only
  split
  · rename_i l hl
    unfold lenOf; rw [List.getElem?_eq_getElem hi]; simp [hl]
  · show lenOf (c.spaces.set i _) i ≠ none
    rw [lenOf_set (List.getElem?_eq_getElem hi), if_pos rfl]; simp

theorem step_settle (c : LC) (i j : SpId) : kindOf (c.step (.settle i)).spaces j = kindOf c.spaces j ∧
    (c.step (.settle i)).spaces.length = c.spaces.length ∧ (lenOf c.spaces j ≠ none → lenOf (c.step (.settle i)).spaces j ≠ none) := by
  unfold LC.step
  simp only
  split
  · split
    · exact ⟨lookup_setLen_kind _ _ _ _, length_setLen _ _ _, len_setLen _ _ _ _⟩
    · exact ⟨rfl, rfl, id⟩
  · exact ⟨rfl, rfl, id⟩

theorem depTail_sub (c : LC) (l : List (SpId × Int)) : ∀ e ∈ depTail c l, e ∈ l := by
  induction l with
  | nil => intro e he; simp [depTail] at he
  | cons x l ih =>
    intro e he
    unfold depTail at he
    rw [List.mem_cons] at he
    rcases he with rfl | he
    · simp
    · split at he
      · simp at he
      · exact List.mem_cons_of_mem _ (ih e he)

/-- C52: once all gaps have their lengths, resolving the alignments in the order of their creation leaves nothing open. -/
theorem C52_all_resolved (σ : Nat → Int) (evs : List Ev) (hok : OkEvs σ LC.init 0 evs)
    (hdef : ∀ i name, kindOf (LC.init.run evs).spaces i = some (.ordinary name) → lenOf (LC.init.run evs).spaces i ≠ none) :
    let c := (LC.init.run evs).run ((List.range (LC.init.run evs).spaces.length).map Ev.settle)
    (∀ i, i < c.spaces.length → lenOf c.spaces i ≠ none) ∧ c.spaces.length = (LC.init.run evs).spaces.length := by
  obtain ⟨w, h⟩ := inv_run σ evs (inv_init σ) hok
  generalize LC.init.run evs = c0 at h hdef
  have key : ∀ n, n ≤ c0.spaces.length → ∀ c, c = c0.run ((List.range n).map Ev.settle) →
      (∀ i, kindOf c.spaces i = kindOf c0.spaces i) ∧ c.spaces.length = c0.spaces.length ∧ (∀ i, lenOf c0.spaces i ≠ none → lenOf c.spaces i ≠ none) ∧
      ∀ i, i < n → lenOf c.spaces i ≠ none := by
    intro n
    induction n with
    | zero => intro _ c hc; subst hc; exact ⟨fun _ => rfl, rfl, fun _ => id, fun i hi => absurd hi (by omega)⟩
    | succ n ih =>
      intro hn c hc
      obtain ⟨k1, k2, k3, k4⟩ := ih (by omega) _ rfl
      have hc' : c = (c0.run ((List.range n).map Ev.settle)).step (.settle n) := by
        rw [hc, List.range_succ, List.map_append]
        simp [LC.run]
      generalize c0.run ((List.range n).map Ev.settle) = c1 at k1 k2 k3 k4 hc'
      subst hc'
      refine ⟨fun i => ((step_settle c1 n i).1).trans (k1 i), ((step_settle c1 n 0).2.1).trans k2, fun i hi => (step_settle c1 n i).2.2 (k3 i hi), ?_⟩
      intro i hi
      rcases Nat.lt_succ_iff_lt_or_eq.1 hi with hi | hi
      · exact (step_settle c1 n i).2.2 (k4 i hi)
      · subst hi
        have hlt : i < c1.spaces.length := by omega
        have hs := List.getElem?_eq_getElem hlt
        cases hk : c1.spaces[i].kind with
        | ordinary name =>
          have : kindOf c0.spaces i = some (.ordinary name) := by rw [← k1]; unfold kindOf; rw [hs]; simp [hk]
          exact (step_settle c1 i i).2.2 (k3 i (hdef i name this))
        | alignment d =>
          have hk0 : kindOf c0.spaces i = some (.alignment d) := by rw [← k1]; unfold kindOf; rw [hs]; simp [hk]
          have hready : c1.ready d := by
            unfold LC.ready
            rw [List.all_eq_true]
            intro e he
            have hm : e ∈ d.spaces := by simpa using depTail_sub c1 _ e he
            have hlt' := (h.dep i d hk0).2.1 e.1 (List.mem_map_of_mem hm)
            have hne := k4 e.1 hlt'
            rw [info_eq]
            cases hl : lenOf c1.spaces e.1 with
            | none => exact absurd hl hne
            | some l => rfl
          have hshape : c1.spaces[i]? = some ⟨c1.spaces[i].al, .alignment d, c1.spaces[i].len⟩ := by
            rw [hs, ← hk]
          unfold LC.step
          simp only [hshape, hready, if_true]
          exact len_setLen_self _ _ _ hlt
  obtain ⟨k1, k2, k3, k4⟩ := key _ (Nat.le_refl _) _ rfl
  exact ⟨fun i hi => k4 i (by simpa only [k2] using hi), k2⟩

/-! ### Violations -/

/-- `DS (X)F,C` followed by `DS F` with `X = 1` (position 0): the gap is declared fullword aligned but is 5 bytes long. -/
def gapEvs : List Ev := [.reserve 0 ⟨0, 4⟩, .gap 0 ⟨0, 4⟩, .reserve 0 ⟨0, 4⟩, .define 0 5]

/-- Violation: the fullword after a gap whose end is not aligned is put at 5 instead of 8. -/
theorem C52_witness_gap_end : (LC.init.run gapEvs).log.map (·.offset (LC.init.run gapEvs).heap) = [0, 5, 5] ∧ layout (fun _ => 5) 0 gapEvs = [0, 5, 8] := by
  constructor <;> decide +kernel

/-- Violation: after an alignment with displacement was deferred, alignment counts from the displaced address as if it were a boundary. -/
def dispEvs : List Ev := [.gap 0 ⟨0, 4⟩, .reserve 0 ⟨4, 8⟩, .reserve 1 ⟨0, 1⟩, .reserve 0 ⟨0, 8⟩, .define 0 4, .settle 1]

theorem C52_witness_displacement : (LC.init.run dispEvs).log.map (·.offset (LC.init.run dispEvs).heap) = [4, 4, 5, 12] ∧
    layout (fun _ => 4) 0 dispEvs = [4, 4, 5, 8] := by
  constructor <;> decide +kernel

/-- Violation: joining the data of a resolved `ORG` loses the storage after its second gap. -/
theorem C52_witness_append_data : ∃ d o r : LData, d.storage = d.initial + asum d.parts ∧ o.storage = o.initial + asum o.parts ∧
    d.appendData o = some r ∧ r.storage = 12 ∧ r.initial + asum r.parts = 19 :=
  ⟨⟨10, [], 10, 10⟩, ⟨9, [(0, 2), (1, 7)], 0, 7⟩, ⟨12, [(1, 7)], 12, 7⟩, by decide, by decide, by decide, rfl, rfl⟩

/-- Non-vacuity: two gaps, a deferred alignment, lengths defined in reverse order. -/
def sampleEvs : List Ev := [.reserve 3 ⟨0, 1⟩, .gap 0 ⟨0, 1⟩, .reserve 8 ⟨0, 8⟩, .gap 1 ⟨0, 1⟩, .reserve 4 ⟨0, 4⟩, .define 2 6, .settle 1, .define 0 2, .settle 1, .settle 3]

example : OkEvs (fun n => if n = 0 then 2 else 6) LC.init 0 sampleEvs ∧
    (LC.init.run sampleEvs).log.map (·.offset (LC.init.run sampleEvs).heap) = [3, 5, 16, 22, 28] ∧
    layout (fun n => if n = 0 then 2 else 6) 0 sampleEvs = [3, 5, 16, 22, 28] := by
  refine ⟨?_, by decide +kernel, by decide +kernel⟩
  have p0 : Pow ⟨0, 1⟩ := ⟨0, by omega, rfl⟩
  have p2 : Pow ⟨0, 4⟩ := ⟨2, by omega, rfl⟩
  have p3 : Pow ⟨0, 8⟩ := ⟨3, by omega, rfl⟩
  refine ⟨⟨p0, by decide, .inl rfl⟩, ⟨p0, rfl, by decide⟩, ⟨p3, by decide, .inl rfl⟩, ⟨p0, rfl, by decide +kernel⟩, ⟨p2, by decide, .inl rfl⟩, ?_, trivial, ?_, trivial, trivial, trivial⟩
  · intro s name hs hk
    have : s = ⟨⟨0, 1⟩, .ordinary 1, none⟩ := by
      have := hs.symm.trans (show _ = some (⟨⟨0, 1⟩, .ordinary 1, none⟩ : Sp) by decide +kernel); simpa using this
    subst this; cases hk; rfl
  · intro s name hs hk
    have : s = ⟨⟨0, 1⟩, .ordinary 0, none⟩ := by
      have := hs.symm.trans (show _ = some (⟨⟨0, 1⟩, .ordinary 0, none⟩ : Sp) by decide +kernel); simpa using this
    subst this; cases hk; rfl

end Verif.Ord
