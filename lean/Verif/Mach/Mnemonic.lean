import Verif.Mach.Statement
import Mathlib.Data.List.InsertIdx

/-!
C93 and C94: extended mnemonics, and the absence of faults.
-/
namespace Verif.Mach

/-- `insertFixed` on parsed operands. -/
def insertSrc (rep : List (Nat × Nat)) (ops : List Src) : List Src := rep.foldl (fun l x => l.insertIdx x.1 (.expr (.abs x.2))) ops

theorem map_insertFixed (rep : List (Nat × Nat)) (ws : List (Option Written)) : (insertFixed rep ws).map slot = insertSrc rep (ws.map slot) := by
  unfold insertFixed insertSrc
  induction rep generalizing ws with
  | nil => rfl
  | cons x rep ih =>
    rw [List.foldl_cons, List.foldl_cons, ih, List.map_insertIdx]
    rfl

/-- Places relative to a later start. -/
def shift (k : Nat) (rep : List (Nat × Nat)) : List (Nat × Nat) := rep.map fun x => (x.1 - k, x.2)

theorem insertIdx_append {α} (X B : List α) (q : Nat) (a : α) (h : X.length ≤ q) : (X ++ B).insertIdx q a = X ++ B.insertIdx (q - X.length) a := by
  induction X generalizing q with
  | nil => simp
  | cons x X ih =>
    obtain ⟨q, rfl⟩ : ∃ r, q = r + 1 := ⟨q - 1, by simp at h; omega⟩
    simp only [List.cons_append, List.insertIdx_succ_cons, List.length_cons]
    rw [ih q (by simpa using h)]
    simp

theorem insertIdx_at {α} (A B : List α) (a : α) : (A ++ B).insertIdx A.length a = A ++ a :: B := by
  rw [insertIdx_append A B _ a (Nat.le_refl _)]; simp

theorem insertSrc_append (X B : List Src) (rep : List (Nat × Nat)) (h : ∀ x ∈ rep, X.length ≤ x.1) :
    insertSrc rep (X ++ B) = X ++ insertSrc (shift X.length rep) B := by
  induction rep generalizing B with
  | nil => rfl
  | cons x rep ih =>
    unfold insertSrc shift
    rw [List.foldl_cons, List.map_cons, List.foldl_cons, insertIdx_append _ _ _ _ (h x List.mem_cons_self)]
    exact ih _ fun y hy => h y (List.mem_cons_of_mem _ hy)

theorem substitute_append (X : List (Option CheckOp)) : ∀ (rep : List (Nat × Nat)) (B : List (Option CheckOp)), (∀ x ∈ rep, X.length ≤ x.1) →
    substitute rep (X ++ B) = (substitute (shift X.length rep) B).map (X ++ ·) := by
  intro rep
  induction rep with
  | nil => intro B _; rfl
  | cons x rep ih =>
    intro B h
    obtain ⟨p, v⟩ := x
    have hp : X.length ≤ p := h _ List.mem_cons_self
    have hs : shift X.length ((p, v) :: rep) = (p - X.length, v) :: shift X.length rep := rfl
    rw [hs]
    simp only [substitute, List.length_append]
    by_cases hl : p < X.length + B.length
    · rw [if_pos hl, if_pos (by omega), List.set_append_right _ _ hp]
      exact ih _ fun y hy => h y (List.mem_cons_of_mem _ hy)
    · rw [if_neg hl, if_neg (by omega)]; rfl

theorem fillFree_some (ins : Instr) (pos : Nat) (c : CheckOp) (v : List (Option CheckOp)) (ops : List Src) :
    fillFree ins pos (some c :: v) ops = (fillFree ins (pos + 1) v ops).map (some c :: ·) := by
  cases ops with
  | nil => cases v <;> simp [fillFree]
  | cons o r => simp [fillFree]

theorem fillFree_none (ins : Instr) (pos : Nat) (v : List (Option CheckOp)) (o : Src) (r : List Src) :
    fillFree ins pos (none :: v) (o :: r) = match convert ins pos o with
      | none => none
      | some c => (fillFree ins (pos + 1) v r).map (some c :: ·) := by
  simp only [fillFree]
  cases convert ins pos o <;> rfl

/-- Filling a run of free places and then the rest is converting one operand after the other. -/
theorem fillFree_run (ins : Instr) (v : List (Option CheckOp)) (B L : List Src) : ∀ (A : List Src) (pos : Nat),
    fillFree ins (pos + A.length) v B = transformDefault ins (pos + A.length) L →
    fillFree ins pos (List.replicate A.length none ++ v) (A ++ B) = transformDefault ins pos (A ++ L) := by
  intro A
  induction A with
  | nil => intro pos h; simpa using h
  | cons a A ih =>
    intro pos h
    simp only [List.length_cons, List.replicate_succ, List.cons_append, fillFree_none, transformDefault]
    have := ih (pos + 1) (by rw [List.length_cons] at h; simpa only [Nat.add_assoc, Nat.add_comm 1] using h)
    rw [this]
    cases convert ins pos a <;> rfl

theorem length_le_of_increasing : ∀ (rep : List (Nat × Nat)) (lo hi : Nat), (rep.map (·.1)).Pairwise (· < ·) → (∀ x ∈ rep, lo ≤ x.1 ∧ x.1 < hi) →
    rep.length ≤ hi - lo := by
  intro rep
  induction rep with
  | nil => intros; simp
  | cons x rep ih =>
    intro lo hi hp hb
    simp only [List.map_cons, List.pairwise_cons] at hp
    have h1 := hb x List.mem_cons_self
    have := ih (x.1 + 1) hi hp.2 fun y hy => ⟨hp.1 y.1 (List.mem_map.2 ⟨y, hy, rfl⟩), (hb y (List.mem_cons_of_mem _ hy)).2⟩
    simp only [List.length_cons]; omega

theorem shift_increasing {k : Nat} {rep : List (Nat × Nat)} (h : (rep.map (·.1)).Pairwise (· < ·)) (hk : ∀ x ∈ rep, k ≤ x.1) :
    ((shift k rep).map (·.1)).Pairwise (· < ·) := by
  unfold shift
  rw [List.map_map, List.pairwise_map]
  rw [List.pairwise_map] at h
  refine h.imp_of_mem fun {a b} ha hb hab => ?_
  have := hk a ha
  show a.1 - k < b.1 - k
  omega

/-- The filled list is the list with the fixed operands inserted. -/
theorem fill_spec (ins : Instr) : ∀ (rep : List (Nat × Nat)) (pos M : Nat) (ops : List Src), (rep.map (·.1)).Pairwise (· < ·) → (∀ x ∈ rep, x.1 < M) →
    ops.length + rep.length = M →
    ∃ v, substitute rep (List.replicate M none) = .ok v ∧ v.length = M ∧ fillFree ins pos v ops = transformDefault ins pos (insertSrc rep ops) := by
  intro rep
  generalize hn : rep.length = n
  induction n generalizing rep with
  | zero =>
    intro pos M ops _ _ hl
    have : rep = [] := List.length_eq_zero_iff.1 hn
    subst this
    refine ⟨_, rfl, by simp, ?_⟩
    have hM : M = ops.length := by omega
    have := fillFree_run ins [] [] [] ops pos (by simp [fillFree, transformDefault])
    simpa [hM, insertSrc] using this
  | succ n ih =>
    intro pos M ops hp hb hl
    obtain ⟨⟨p, x⟩, rep', rfl⟩ : ∃ a l, rep = a :: l := by cases rep with | nil => simp at hn | cons a l => exact ⟨a, l, rfl⟩
    simp only [List.length_cons, Nat.add_right_cancel_iff] at hn
    simp only [List.map_cons, List.pairwise_cons] at hp
    have hge : ∀ y ∈ rep', p + 1 ≤ y.1 := fun y hy => hp.1 y.1 (List.mem_map.2 ⟨y, hy, rfl⟩)
    have hpM : p < M := hb _ List.mem_cons_self
    have hcount := length_le_of_increasing rep' (p + 1) M hp.2 fun y hy => ⟨hge y hy, hb y (List.mem_cons_of_mem _ hy)⟩
    have hple : p ≤ ops.length := by omega
    obtain ⟨A, B, hAB, hA⟩ : ∃ A B, ops = A ++ B ∧ A.length = p := ⟨ops.take p, ops.drop p, (List.take_append_drop p ops).symm, by simp [hple]⟩
    subst hAB
    rw [List.length_append] at hl
    obtain ⟨v, hv, hvl, hf⟩ := ih (shift (p + 1) rep') (by simp [shift, hn]) (pos + p + 1) (M - p - 1) B (shift_increasing hp.2 hge)
      (by
        intro y hy
        obtain ⟨z, hz, rfl⟩ := List.mem_map.1 hy
        have := hb z (List.mem_cons_of_mem _ hz)
        have := hge z hz
        show z.1 - (p + 1) < _
        omega) (by omega)
    have hset : (List.replicate M (none : Option CheckOp)).set p (some (.one x)) =
        (List.replicate p none ++ [some (.one x)]) ++ List.replicate (M - p - 1) none := by
      have : List.replicate M (none : Option CheckOp) = List.replicate p none ++ none :: List.replicate (M - p - 1) none := by
        rw [← List.replicate_succ, List.replicate_append_replicate]; congr 1; omega
      rw [this, List.set_append_right _ _ (by simp)]
      simp
    have hX : (List.replicate p (none : Option CheckOp) ++ [some (CheckOp.one x)]).length = p + 1 := by simp
    refine ⟨(List.replicate p none ++ [some (.one x)]) ++ v, ?_, ?_, ?_⟩
    · rw [substitute, if_pos (by simpa using hpM), hset, substitute_append _ _ _ (by rw [hX]; exact hge), hX, hv]; rfl
    · rw [List.length_append, hX, hvl]; omega
    · have hins : insertSrc ((p, x) :: rep') (A ++ B) = A ++ (.expr (.abs x) :: insertSrc (shift (p + 1) rep') B) := by
        have h1 : insertSrc ((p, x) :: rep') (A ++ B) = insertSrc rep' ((A ++ [.expr (.abs x)]) ++ B) := by
          show insertSrc rep' ((A ++ B).insertIdx p _) = _
          rw [← hA, insertIdx_at]; simp
        rw [h1, insertSrc_append _ _ _ (by simp only [List.length_append, hA, List.length_singleton]; exact hge)]
        simp [hA]
      rw [hins, List.append_assoc, ← hA]
      refine fillFree_run ins _ B _ A pos ?_
      have hc : convert ins (pos + A.length) (.expr (.abs x)) = some (.one x) := convert_eq rfl ins _
      rw [List.singleton_append, fillFree_some, transformDefault, hc, hA]
      exact congrArg _ hf

theorem substitute_length : ∀ (rep : List (Nat × Nat)) (v w : List (Option CheckOp)), substitute rep v = .ok w → w.length = v.length := by
  intro rep
  induction rep with
  | nil => intro v w h; cases h; rfl
  | cons x rep ih =>
    intro v w h
    simp only [substitute] at h
    split at h
    · simpa using ih _ _ h
    · cases h

theorem fillFree_length {ins : Instr} : ∀ (v : List (Option CheckOp)) (pos : Nat) (ops : List Src) (w), fillFree ins pos v ops = some w → w.length = v.length := by
  intro v
  induction v with
  | nil => intro pos ops w h; simp [fillFree] at h; subst h; rfl
  | cons c v ih =>
    intro pos ops w h
    cases c with
    | some c =>
      rw [fillFree_some] at h
      cases hr : fillFree ins (pos + 1) v ops with
      | none => simp [hr] at h
      | some u => simp only [hr, Option.map_some, Option.some.injEq] at h; subst h; simp [ih _ _ _ hr]
    | none =>
      cases ops with
      | nil => simp [fillFree] at h; subst h; rfl
      | cons o r =>
        rw [fillFree_none] at h
        split at h
        · cases h
        · cases hr : fillFree ins (pos + 1) v r with
          | none => simp [hr] at h
          | some u => simp only [hr, Option.map_some, Option.some.injEq] at h; subst h; simp [ih _ _ _ hr]

theorem insert_length_le (rep : List (Nat × Nat)) (ops : List Src) : (insertSrc rep ops).length ≤ ops.length + rep.length := by
  induction rep generalizing ops with
  | nil => simp [insertSrc]
  | cons x rep ih =>
    have := ih (ops.insertIdx x.1 (.expr (.abs x.2)))
    show (insertSrc rep _).length ≤ _
    have h2 : (ops.insertIdx x.1 (Src.expr (.abs x.2))).length ≤ ops.length + 1 := by rw [List.length_insertIdx]; split <;> omega
    simp only [List.length_cons]; omega

theorem insert_beyond (rep : List (Nat × Nat)) (ops : List Src) (h : ∀ x ∈ rep, ops.length < x.1) : insertSrc rep ops = ops := by
  induction rep with
  | nil => rfl
  | cons x rep ih =>
    show insertSrc rep (ops.insertIdx x.1 _) = ops
    rw [List.insertIdx_of_length_lt (h x List.mem_cons_self)]
    exact ih fun y hy => h y (List.mem_cons_of_mem _ hy)

theorem insert_full (rep : List (Nat × Nat)) (N : Nat) : ∀ (ops : List Src), (rep.map (·.1)).Pairwise (· < ·) → (∀ x ∈ rep, x.1 < N) →
    (insertSrc rep ops).length = N → ops.length + rep.length = N := by
  induction rep with
  | nil => intro ops _ _ h; simpa [insertSrc] using h
  | cons x rep ih =>
    intro ops hp hb h
    simp only [List.map_cons, List.pairwise_cons] at hp
    by_cases hx : x.1 ≤ ops.length
    · have := ih (ops.insertIdx x.1 (.expr (.abs x.2))) hp.2 (fun y hy => hb y (List.mem_cons_of_mem _ hy)) h
      rw [List.length_insertIdx_of_le_length hx] at this
      simp only [List.length_cons]; omega
    · have h1 : insertSrc (x :: rep) ops = ops := insert_beyond _ _ fun y hy => by
        rcases List.mem_cons.1 hy with rfl | hy
        · omega
        · have := hp.1 y.1 (List.mem_map.2 ⟨y, hy, rfl⟩); omega
      rw [h1] at h
      have := hb x List.mem_cons_self
      omega

/-- What the table says about a mnemonic whose base instruction has no optional operands. -/
structure Fitting (m : Mnem) (ins : Instr) : Prop where
  increasing : (m.replaced.map (·.1)).Pairwise (· < ·)
  few : m.replaced.length ≤ ins.ops.length
  inside : ∀ x ∈ m.replaced, x.1 < ins.ops.length + ins.opt
  holds : ∀ x ∈ m.replaced, ∀ f, ins.ops[x.1]? = some f → f.second = pEmpty ∧ f.id.Holds x.2

theorem fitting {n : OpName} {m : Mnem} {ins : Instr} (hm : tables.mnem n = some m) (hi : tables.instr m.base = some ins) (hn : n ∉ misplaced) : Fitting m ins := by
  obtain ⟨hname, ins', hi', hf⟩ := mnem_fits hm
  rw [hi] at hi'
  obtain rfl := Option.some.inj hi'
  simp only [Mnem.fits, Bool.and_eq_true, Bool.or_eq_true, decide_eq_true_eq, List.all_eq_true, List.contains_iff_mem] at hf
  obtain ⟨⟨⟨h1, h2⟩, h3⟩, h4⟩ := hf
  refine ⟨h1, h2, h3.resolve_left (hname ▸ hn), fun x hx f hff => ?_⟩
  have := h4 x hx
  rw [hff] at this
  simpa using this

theorem check_mnem {n : OpName} {m : Mnem} {ins : Instr} (hm : tables.mnem n = some m) (hi : tables.instr m.base = some ins) (ops : List Src) :
    tables.check n ops = match transformMnemonic m ins ops with
      | .error e => .error e
      | .ok (.stop d) => .ok [d]
      | .ok (.ops v) => ins.check v := by
  unfold Tables.check
  simp only [hm, hi]
  cases transformMnemonic m ins ops with
  | error e => rfl
  | ok t => cases t <;> rfl

/-- Mnemonic and base instruction have the same verdict. -/
theorem mnem_base {n : OpName} {m : Mnem} {ins : Instr} (hm : tables.mnem n = some m) (hi : tables.instr m.base = some ins) (hn : n ∉ misplaced)
    (ho : ins.opt = 0) (ops : List Src) (hc : ops.length + m.replaced.length = ins.ops.length) :
    tables.check n ops = tables.check m.base (insertSrc m.replaced ops) := by
  have hf := fitting hm hi hn
  rw [check_mnem hm hi]
  have hb : tables.check m.base (insertSrc m.replaced ops) = match transformDefault ins 0 (insertSrc m.replaced ops) with
      | none => .ok [.plain 1010]
      | some v => ins.check v := by
    unfold Tables.check
    simp only [disjoint hi, hi]
    cases transformDefault ins 0 (insertSrc m.replaced ops) <;> rfl
  rw [hb]
  obtain ⟨v, hv, -, hfill⟩ := fill_spec ins m.replaced 0 ins.ops.length ops hf.increasing (by simpa [ho] using hf.inside) hc
  unfold transformMnemonic
  simp only []
  rw [if_neg (by omega), ho, Nat.add_zero, hv]
  simp only [hfill]
  cases transformDefault ins 0 (insertSrc m.replaced ops) <;> rfl

/-- C93, for mnemonics of instructions without optional operands. Missing for the full property: mnemonics of instructions
with optional operands, which are never accepted (`C93_never`, `C93_witness_optional`), and the six mnemonics of
`C94_witness`. -/
theorem C93_accept_partial (n : OpName) (m : Mnem) (ins : Instr) (hm : tables.mnem n = some m) (hi : tables.instr m.base = some ins)
    (hn : n ∉ misplaced) (ho : ins.opt = 0) (ws : List (Option Written)) (hd : AllDefined ws) :
    tables.Accepts n ws ↔ tables.Accepts m.base (insertFixed m.replaced ws) := by
  have hf := fitting hm hi hn
  unfold Tables.Accepts
  rw [map_insertFixed]
  by_cases hc : (ws.map slot).length + m.replaced.length = ins.ops.length
  · rw [mnem_base hm hi hn ho _ hc]
  · have h1 : tables.check n (ws.map slot) ≠ .ok [] := by
      rw [check_mnem hm hi]
      unfold transformMnemonic
      simp only []
      rw [if_pos (by omega)]
      simp
    have hdef : ∀ op ∈ insertSrc m.replaced (ws.map slot), op.hasDeps = false := by
      have : ∀ (rep : List (Nat × Nat)) (l : List Src), (∀ op ∈ l, op.hasDeps = false) → ∀ op ∈ insertSrc rep l, op.hasDeps = false := by
        intro rep
        induction rep with
        | nil => intro l h; exact h
        | cons x rep ih =>
          intro l h
          refine ih _ fun op hop => ?_
          rcases List.eq_or_mem_of_mem_insertIdx hop with rfl | hop
          · rfl
          · exact h op hop
      exact this _ _ (defined_slots hd)
    have h2 : tables.check m.base (insertSrc m.replaced (ws.map slot)) ≠ .ok [] := by
      rw [Ne, check_instr hi _ hdef]
      rintro ⟨ha, hb, -⟩
      exact hc (insert_full _ _ _ hf.increasing (by simpa [ho] using hf.inside) (by omega))
    exact ⟨fun h => absurd h h1, fun h => absurd h h2⟩

/-- C93. The number of operands of such a mnemonic is that of the instruction less the fixed ones, and with that number the
diagnostics are those of the base instruction. -/
theorem C93_diagnostics_partial (n : OpName) (m : Mnem) (ins : Instr) (hm : tables.mnem n = some m) (hi : tables.instr m.base = some ins)
    (hn : n ∉ misplaced) (ho : ins.opt = 0) (ws : List (Option Written)) (hc : ws.length + m.replaced.length = ins.ops.length) :
    tables.check n (ws.map slot) = tables.check m.base ((insertFixed m.replaced ws).map slot) := by
  rw [map_insertFixed]
  exact mnem_base hm hi hn ho _ (by simpa using hc)

/-- C93. With another number of operands the diagnostic names the number that can be written: that of the instruction less the fixed
ones. -/
theorem C93_count (n : OpName) (m : Mnem) (ins : Instr) (hm : tables.mnem n = some m) (hi : tables.instr m.base = some ins)
    (hn : n ∉ misplaced) (ho : ins.opt = 0) (ops : List Src) (hc : ops.length + m.replaced.length ≠ ins.ops.length) :
    tables.check n ops = .ok [.count (ins.ops.length - m.replaced.length : Nat) (ins.ops.length - m.replaced.length : Nat)] := by
  have hf := fitting hm hi hn
  have hle : m.replaced.length ≤ ins.ops.length := by
    have := length_le_of_increasing m.replaced 0 ins.ops.length hf.increasing fun x hx =>
      ⟨Nat.zero_le _, by have := hf.inside x hx; omega⟩
    omega
  rw [check_mnem hm hi]
  unfold transformMnemonic
  simp only [ho]
  rw [if_pos (by omega)]
  simp only [countDiag]
  rw [if_pos (by rfl), Int.ofNat_sub hle]

/-- C93. A fixed operand is never the reason why a mnemonic is refused. -/
theorem C93_fixed (n : OpName) (m : Mnem) (ins : Instr) (hm : tables.mnem n = some m) (hi : tables.instr m.base = some ins) (hn : n ∉ misplaced)
    (p v : Nat) (hx : (p, v) ∈ m.replaced) (f : Fmt) (hf : ins.ops[p]? = some f) : Admissible f.place (.plain (.abs v)) := by
  have := (fitting hm hi hn).holds _ hx f hf
  unfold Fmt.place
  rw [if_pos this.1]
  exact this.2

theorem transform_optional (m : Mnem) (ins : Instr) (ho : 0 < ins.opt) (ops : List Src) :
    (∃ d, transformMnemonic m ins ops = .ok (.stop d)) ∨ (∃ e, transformMnemonic m ins ops = .error e) ∨
      ∃ v, transformMnemonic m ins ops = .ok (.ops v) ∧ ins.ops.length < v.length := by
  unfold transformMnemonic
  simp only []
  split
  · exact .inl ⟨_, rfl⟩
  · cases hs : substitute m.replaced (List.replicate (ins.ops.length + ins.opt) none) with
    | error e => exact .inr (.inl ⟨_, rfl⟩)
    | ok w =>
      simp only []
      cases hf : fillFree ins 0 w ops with
      | none => exact .inl ⟨_, rfl⟩
      | some v =>
        refine .inr (.inr ⟨v, rfl, ?_⟩)
        rw [fillFree_length _ _ _ _ hf, substitute_length _ _ _ hs, List.length_replicate]
        omega

/-- C93 does not hold: a mnemonic of an instruction with optional operands is refused whatever is written. The list filled
with operands has a place for every optional operand more than the instruction has operands. -/
theorem C93_never (n : OpName) (m : Mnem) (ins : Instr) (hm : tables.mnem n = some m) (hi : tables.instr m.base = some ins)
    (ho : 0 < ins.opt) (ops : List Src) : tables.check n ops ≠ .ok [] := by
  rw [check_mnem hm hi]
  rcases transform_optional m ins ho ops with ⟨d, h⟩ | ⟨e, h⟩ | ⟨v, h, hv⟩
  · rw [h]; simp
  · rw [h]; simp
  · rw [h]
    simp only [Instr.check]
    rw [if_pos (by omega)]
    simp

/-- C93: the mnemonics this concerns exist. `XHLR 1,2` is refused although `RXSBG 1,2,0,31,32`, for which it stands, is accepted. -/
theorem C93_witness_optional : tables.mnem n!"XHLR" = some ⟨n!"XHLR", n!"RXSBG", [(2, 0), (3, 31), (4, 32)]⟩ ∧
    tables.Accepts n!"RXSBG" (insertFixed [(2, 0), (3, 31), (4, 32)] [some (.plain (.abs 1)), some (.plain (.abs 2))]) ∧
    ¬ tables.Accepts n!"XHLR" [some (.plain (.abs 1)), some (.plain (.abs 2))] := by
  decide +kernel

/-- C93 is about real mnemonics: `BE` is `BC 8,`. -/
example : tables.mnem n!"BE" = some ⟨n!"BE", n!"BC", [(0, 8)]⟩ ∧ (tables.instr n!"BC").map (·.opt) = some 0 ∧ n!"BE" ∉ misplaced ∧
    tables.Accepts n!"BE" [some (.both (.abs 100) (.abs 2) (.abs 12))] ∧
    ¬ tables.Accepts n!"BE" [some (.plain (.abs 8)), some (.both (.abs 100) (.abs 2) (.abs 12))] := by
  decide +kernel

theorem check_total (ins : Instr) (ops : List Src) (v : List (Option CheckOp)) (h : transformDefault ins 0 ops = some v) : ∃ ds, ins.check v = .ok ds := by
  unfold Instr.check
  simp only []
  split
  · exact ⟨_, rfl⟩
  · next hc =>
    have key : ∀ (ops : List Src) (pos : Nat) (v), transformDefault ins pos ops = some v → ∀ fs : List Fmt, v.length ≤ fs.length → ∃ ds, checkLoop fs v = .ok ds := by
      intro ops
      induction ops with
      | nil => intro pos v h fs _; cases h; exact ⟨[], by cases fs <;> rfl⟩
      | cons op r ih =>
        intro pos v h fs hl
        simp only [transformDefault] at h
        split at h
        · cases h
        · next c _ =>
          cases hr : transformDefault ins (pos + 1) r with
          | none => simp [hr] at h
          | some u =>
            simp only [hr, Option.map_some, Option.some.injEq] at h
            subst h
            cases fs with
            | nil => simp at hl
            | cons f fs =>
              obtain ⟨ds, hds⟩ := ih _ _ hr fs (by simpa using hl)
              exact ⟨_, by simp only [checkLoop, hds]; rfl⟩
    exact key ops 0 v h _ (by omega)

/-- C94, for all instructions and all mnemonics but six. Missing for the full property: those six (`C94_witness`). -/
theorem C94_no_fault_partial (n : OpName) (hn : (tables.instr n).isSome ∨ (tables.mnem n).isSome) (hp : n ∉ misplaced) (ops : List Src) :
    ∃ ds, tables.check n ops = .ok ds := by
  cases hm : tables.mnem n with
  | none =>
    rw [hm] at hn
    obtain ⟨ins, hi⟩ := Option.isSome_iff_exists.1 (hn.resolve_right (by simp))
    unfold Tables.check
    simp only [hm, hi]
    cases h : transformDefault ins 0 ops with
    | none => exact ⟨_, rfl⟩
    | some v => exact check_total ins ops v h
  | some m =>
    obtain ⟨-, ins, hi, -⟩ := mnem_fits hm
    have hf := fitting hm hi hp
    by_cases ho : ins.opt = 0
    · by_cases hc : ops.length + m.replaced.length = ins.ops.length
      · rw [mnem_base hm hi hp ho ops hc]
        unfold Tables.check
        simp only [disjoint hi, hi]
        cases h : transformDefault ins 0 (insertSrc m.replaced ops) with
        | none => exact ⟨_, rfl⟩
        | some v => exact check_total ins _ v h
      · rw [check_mnem hm hi]
        unfold transformMnemonic
        simp only []
        rw [if_pos (by omega)]
        exact ⟨_, rfl⟩
    · rw [check_mnem hm hi]
      rcases transform_optional m ins (by omega) ops with ⟨d, h⟩ | ⟨e, h⟩ | ⟨v, h, hv⟩
      · rw [h]; exact ⟨_, rfl⟩
      · exfalso
        have hsub : ∀ (rep : List (Nat × Nat)) (v : List (Option CheckOp)), (∀ x ∈ rep, x.1 < v.length) → ∃ w, substitute rep v = .ok w := by
          intro rep
          induction rep with
          | nil => intro v _; exact ⟨v, rfl⟩
          | cons x rep ih =>
            intro v hv
            rw [substitute, if_pos (hv x List.mem_cons_self)]
            exact ih _ fun y hy => by simpa using hv y (List.mem_cons_of_mem _ hy)
        obtain ⟨w, hw⟩ := hsub m.replaced (List.replicate (ins.ops.length + ins.opt) none) (by simpa using hf.inside)
        unfold transformMnemonic at h
        simp only [hw] at h
        split at h
        · cases h
        · split at h <;> cases h
      · rw [h]
        simp only [Instr.check]
        rw [if_pos (by omega)]
        exact ⟨_, rfl⟩

/-- C94 does not hold: `WFCSB 1,2` and five more write outside the vector of operands. -/
theorem C94_witness : ∀ n ∈ misplaced, (tables.mnem n).isSome ∧ tables.check n [.expr (.abs 1), .expr (.abs 2)] = .error .outOfRange := by
  decide +kernel

example : (tables.instr n!"MVC").isSome ∧ n!"MVC" ∉ misplaced ∧ (tables.mnem n!"BE").isSome ∧ n!"BE" ∉ misplaced := by decide +kernel

end Verif.Mach
