import Verif.CaEval.Spec
import Verif.Ca.ArithProps
import Verif.Ca.StrProps
/-!
Lemmas about the evaluation of resolved expressions.
-/
namespace Verif.CaEval

open Verif.Ca (A Op)

/-- The value of an evaluation without diagnostics. -/
def fin : Ev → Option SetT
  | .ret v false => some v
  | _ => none

theorem fin_bind (e : Ev) (f : SetT → Ev) : fin (e.bind f) = (fin e).bind fun s => fin (f s) := by
  cases e with
  | ub => rfl
  | ret v d =>
    simp only [Ev.bind]
    cases hf : f v with
    | ub => cases d <;> simp [fin, hf]
    | ret w d' => cases d <;> cases d' <;> simp [fin, hf]

theorem fin_orDiag {α : Type} (mk : α → SetT) (df : SetT) (x : Option α) : fin (Ev.orDiag mk df x) = x.map mk := by cases x <;> rfl

/-- The value of kind `k` in a `SET_t`. -/
def read : Kind → SetT → Option Val
  | .a, s => some (.a s.a)
  | .b, s => if s.ty = .b then some (.b s.b) else truth s.a
  | .c, s => some (.c s.c)
  | .undef, _ => none

/-- The forms of a `SET_t` where kind `k` is expected. -/
def shape : Kind → SetT → Prop
  | .a, s => s.ty = .a
  | .b, s => (s.ty = .b ∧ s.a = if s.b then 1 else 0) ∨ (s.ty = .a ∧ s.b = decide (s.a ≠ 0))
  | .c, s => s.ty = .c
  | .undef, _ => False

/-- The evaluation and the meaning agree. -/
def Agree (k : Kind) (ev : Ev) (d : Option Val) : Prop :=
  d = (fin ev).bind (read k) ∧ ∀ s, fin ev = some s → shape k s

theorem Agree.num {ev d} (h : Agree .a ev d) : Val.num? d = (fin ev).map (·.a) := by
  rw [h.1]; cases fin ev <;> simp [read, Val.num?]

theorem Agree.chars {ev d} (h : Agree .c ev d) : Val.chars? d = (fin ev).map (·.c) := by
  rw [h.1]; cases fin ev <;> simp [read, Val.chars?]

theorem Agree.bool {ev d} (h : Agree .b ev d) (hl : ∀ s, fin ev = some s → s.a = 0 ∨ s.a = 1) : Val.bool? d = (fin ev).map (·.b) := by
  rw [h.1]
  cases hf : fin ev with
  | none => simp [Val.bool?]
  | some s =>
    have h1 := h.2 s hf
    have h2 := hl s hf
    simp only [Option.bind_some, read, Option.map_some]
    rcases h1 with ⟨h3, h4⟩ | ⟨h3, h4⟩
    · simp [h3, Val.bool?]
    · rcases h2 with h2 | h2 <;> simp [h3, h4, h2, truth, Val.bool?]

theorem agree_a {ev d} (f : Option A) (h1 : fin ev = f.map SetT.ofA) (h2 : d = f.map Val.a) : Agree .a ev d := by
  refine ⟨?_, ?_⟩
  · rw [h1, h2]; cases f <;> simp [read, SetT.ofA]
  · intro s hs; rw [h1] at hs; cases f <;> simp_all [shape, SetT.ofA]; rw [← hs]

theorem agree_c {ev d} (f : Option Bytes) (h1 : fin ev = f.map SetT.ofC) (h2 : d = f.map Val.c) : Agree .c ev d := by
  refine ⟨?_, ?_⟩
  · rw [h1, h2]; cases f <;> simp [read, SetT.ofC]
  · intro s hs; rw [h1] at hs; cases f <;> simp_all [shape, SetT.ofC]; rw [← hs]

theorem agree_b {ev d} (f : Option Bool) (h1 : fin ev = f.map SetT.ofB) (h2 : d = f.map Val.b) : Agree .b ev d := by
  refine ⟨?_, ?_⟩
  · rw [h1, h2]; cases f <;> simp [read, SetT.ofB]
  · intro s hs; rw [h1] at hs; cases f <;> simp_all [shape, SetT.ofB]; rw [← hs]; simp

/-- A number where a number or a logical value is expected. -/
theorem agree_number {ev d} (k : Kind) (hk : k = .a ∨ k = .b) (f : Option A) (h1 : fin ev = f.map SetT.ofA) (h2 : d = f.bind (number k)) :
    Agree k ev d := by
  refine ⟨?_, ?_⟩
  · rw [h1, h2]; rcases hk with rfl | rfl <;> cases f <;> simp [read, SetT.ofA, number]
  · intro s hs
    rw [h1] at hs
    cases f with
    | none => simp at hs
    | some v =>
      simp only [Option.map_some, Option.some.injEq] at hs
      subst hs
      rcases hk with rfl | rfl <;> simp [shape, SetT.ofA]

/-! Arithmetic and comparisons -/

theorem inRange_iff (z : Int) : inRange z = true ↔ -2147483648 ≤ z ∧ z ≤ 2147483647 := by simp [inRange]

theorem related_eq (o : Ca.Rel) (x y : Int) : Ca.rel o (x - y) = related o x y := by
  cases o <;> simp only [Ca.rel, related, decide_eq_decide] <;> omega

theorem related_zero (o : Ca.Rel) (x : Int) : Ca.rel o x = related o x 0 := by
  cases o <;> rfl

theorem relA_eq (o : Ca.Rel) (x y : A) : (Ca.relA o x y).map Val.b = compareNum o x y := by
  unfold Ca.relA Ca.compareA compareNum
  by_cases h : inRange (x.toInt - y.toInt) = true
  · have h' := (inRange_iff _).1 h
    rw [if_neg (by omega), if_pos h]
    simp [related_eq]
  · rw [if_neg h]
    rw [inRange_iff] at h
    rw [if_pos (by omega)]
    rfl

theorem relC_eq (env : Env) (o : Ca.Rel) (x y : Bytes) :
    Val.b (Ca.relC env.toE o (x.map (·.toNat)) (y.map (·.toNat))) = compareChars env o x y := by
  unfold Ca.relC Ca.compareString compareChars
  simp only
  rw [related_zero]
  congr 2
  by_cases h : (x.map (·.toNat)).length = (y.map (·.toNat)).length
  · rw [if_neg (by rw [h]; simp), if_pos h]
  · rw [if_pos (by omega), if_neg h]

theorem exact_eq {z : Int} {r : Ca.Res} (h : Ca.ExactOrReported z r) : (if r.diag then none else some (Val.a r.value)) = exact z := by
  unfold exact
  by_cases hz : inRange z = true
  · rw [if_pos hz]
    obtain ⟨h1, h2⟩ := h.1 ((inRange_iff _).1 hz)
    rw [h2, ← h1]
    simp
  · rw [if_neg hz]
    rw [inRange_iff] at hz
    rw [(h.2 (by omega)).2]
    rfl

theorem arith_eq (o : AOp) (x y : A) :
    (if (arithOp o x y).diag then none else some (Val.a (arithOp o x y).value)) = arithVal o x.toInt y.toInt := by
  cases o with
  | add => exact exact_eq (Ca.C41_add x y)
  | sub => exact exact_eq (Ca.C41_sub x y)
  | mul => exact exact_eq (Ca.C41_mul x y)
  | div =>
    simp only [arithOp, arithVal]
    by_cases hy : y.toInt = 0
    · simp [if_pos hy, (Ca.C41_div x y).2 hy]
    · rw [if_neg hy]
      exact exact_eq ((Ca.C41_div x y).1 hy)

theorem minus_eq (x : A) : (Ca.caMinus x).map Val.a = exact (-x.toInt) := by
  have hr := Ca.toInt_range x
  unfold exact
  by_cases h : x.toInt = -2147483648
  · rw [if_neg (by rw [inRange_iff]; omega)]
    simp [Ca.caMinus, h]
  · rw [if_pos (by rw [inRange_iff]; omega)]
    obtain ⟨r, h1, h2⟩ := Ca.C41_minus_partial x h
    rw [h1, ← h2]
    simp

/-! Strings -/

def strVal : Ca.StrRes → Option Bytes
  | .ok s => some s
  | _ => none

theorem fin_ofStr (r : Ca.StrRes) : fin (Ev.ofStr r) = (strVal r).map SetT.ofC := by cases r <;> rfl

theorem copies_eq (s : Bytes) (n : A) : copies s n = (strVal (Ca.duplicate (some n) s)).map Val.c := by
  obtain ⟨h1, h2, h3⟩ := Ca.C46_duplicate n s
  unfold copies
  by_cases hn : n.toInt < 0
  · rw [if_pos (Or.inl hn), h1 hn]; rfl
  · have e : (s.length * n.toInt.toNat : Int) = n.toInt * s.length := by
      rw [Int.toNat_of_nonneg (by omega), Int.mul_comm]
    by_cases hl : n.toInt * s.length > Ca.MAX_STR_SIZE
    · rw [if_pos, h2 (by omega) hl]
      · rfl
      · right
        have : Ca.MAX_STR_SIZE = 4064 := rfl
        rw [this] at hl
        omega
    · rw [if_neg, h3 (by omega) (by omega)]
      · rfl
      · have : Ca.MAX_STR_SIZE = 4064 := rfl
        rw [this] at hl
        omega

theorem substr_eq (s : Bytes) (b : A) (c : Option A) (hs : s.length ≤ 4064) : substr s b c = strVal (Ca.evalString none s (some b) c) := by
  have hb := Ca.toInt_range b
  have hm : Ca.MAX_STR_SIZE = 4064 := rfl
  have hw : Ca.subCount s b c = wanted s b c := by cases c <;> rfl
  have hx : ∀ v : A, v.toInt ≤ 2147483647 := fun v => (Ca.toInt_range v).2
  have he : Ca.evalString none s (some b) c = if wanted s b c > 2147483647 then .ub
      else if b.toInt < 0 ∨ wanted s b c < 0 ∨ (b.toInt = 0 ∧ wanted s b c > 0) then .err .CE008
      else if b.toInt > s.length then .err .CE009
      else .ok (if wanted s b c ≠ 0 then (s.drop (b.toInt.toNat - 1)).take (wanted s b c).toNat else []) := by
    unfold Ca.evalString
    rw [if_neg (by omega)]
    simp only [hw, Ca.duplicate]
  rw [he]
  unfold substr
  have hwu : wanted s b c > 2147483647 → b.toInt < 0 := by
    intro hu
    cases c with
    | some v => simp only [wanted] at hu; have := hx v; omega
    | none => simp only [wanted] at hu; omega
  generalize wanted s b c = w at *
  by_cases hu : w > 2147483647
  · rw [if_pos (Or.inl (hwu hu)), if_pos hu]; rfl
  · by_cases h1 : b.toInt < 0 ∨ w < 0 ∨ (b.toInt = 0 ∧ w > 0)
    · rw [if_pos (by omega), if_neg hu, if_pos h1]; rfl
    · by_cases h2 : b.toInt > s.length
      · rw [if_pos (by omega), if_neg hu, if_neg h1, if_pos h2]; rfl
      · rw [if_neg (by omega), if_neg hu, if_neg h1, if_neg h2]
        by_cases h3 : w = 0 <;> simp [h3, strVal]

end Verif.CaEval
