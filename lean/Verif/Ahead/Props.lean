import Verif.Ahead.Spec
/-!
C108: the attributes of a symbol found by looking ahead are those its definition gives it.
-/
namespace Verif.Ahead
open Verif.Ord
open Verif.Attr (ordAttr)

/-! ### expressions -/

theorem fits_int32 {v w : Int} (h : fits v = some w) : int32 v = .abs w := by
  unfold fits at h
  unfold int32
  split at h
  · cases h; rename_i hh; rw [if_pos hh]
  · cases h

theorem value_of_worth {T T' : Table} (hx : Ext T T') {n : SymId} {s : Sym} {v : Int} (hs : T n = some s) (hv : s.val = .abs v) :
    T'.value n = .abs v := by
  obtain ⟨s', h', h, _⟩ := hx n s hs
  simp only [Table.value, h']
  rw [h (by rw [hv]; simp), hv]

/-- An expression with a known value has that value, no dependencies and no error, now and later, wherever it stands. -/
theorem eval_worth {T T' : Table} (hx : Ext T T') (E : Env) (a : Addr) (e : MExpr) : ∀ v, worth T e = some v →
    e.eval E.heap T' = .abs v ∧ e.collect E T' = Coll.none ∧ fill a e = e := by
  have hz : ∀ op, Coll.none.addSub E op Coll.none = Coll.none := by intro op; cases op <;> rfl
  have hm : Coll.none.divMul Coll.none = Coll.none := rfl
  induction e with
  | const v => intro w h; cases h; exact ⟨rfl, rfl, rfl⟩
  | sym n =>
    intro v h
    simp only [worth] at h
    split at h
    · rename_i s hs
      split at h
      · rename_i w hv
        cases h
        have := value_of_worth hx hs hv
        exact ⟨this, by simp only [MExpr.collect, this], rfl⟩
      · cases h
    · cases h
  | attr k n =>
    intro v h
    simp only [worth] at h
    split at h
    · rename_i s hs
      split at h
      · rename_i hk
        obtain ⟨s', hs', hk', ha, hsi⟩ := hasAttr_ext hx hs hk
        cases h
        refine ⟨?_, ?_, rfl⟩
        · simp only [MExpr.eval, Table.attrValue, hs', hk', ha, hsi, if_true]
        · simp only [MExpr.collect, hs', hk', if_true]
      · cases h
    · cases h
  | loc a => intro v h; simp [worth] at h
  | dflt => intro v h; simp [worth] at h
  | par e ih =>
    intro v h
    obtain ⟨i1, i2, i3⟩ := ih v h
    exact ⟨i1, i2, by simp only [fill, i3]⟩
  | neg e ih =>
    intro v h
    simp only [worth, bind, Option.bind] at h
    split at h
    · cases h
    · rename_i x hx'
      obtain ⟨i1, i2, i3⟩ := ih x hx'
      refine ⟨?_, ?_, by simp only [fill, i3]⟩
      · simp only [MExpr.eval, i1, SVal.neg]; exact fits_int32 h
      · simp only [MExpr.collect, i2]; exact hz _
  | add l r ihl ihr =>
    intro v h
    simp only [worth, bind, Option.bind] at h
    split at h
    · cases h
    · rename_i x hx'
      dsimp only at h
      split at h
      · cases h
      · rename_i y hy
        obtain ⟨i1, i2, i3⟩ := ihl x hx'
        obtain ⟨j1, j2, j3⟩ := ihr y hy
        refine ⟨?_, ?_, by simp only [fill, i3, j3]⟩
        · simp only [MExpr.eval, i1, j1, SVal.add]; exact fits_int32 h
        · simp only [MExpr.collect, i2, j2]; exact hz _
  | sub l r ihl ihr =>
    intro v h
    simp only [worth, bind, Option.bind] at h
    split at h
    · cases h
    · rename_i x hx'
      dsimp only at h
      split at h
      · cases h
      · rename_i y hy
        obtain ⟨i1, i2, i3⟩ := ihl x hx'
        obtain ⟨j1, j2, j3⟩ := ihr y hy
        refine ⟨?_, ?_, by simp only [fill, i3, j3]⟩
        · simp only [MExpr.eval, i1, j1, SVal.sub]; exact fits_int32 h
        · simp only [MExpr.collect, i2, j2]; exact hz _
  | mul l r ihl ihr =>
    intro v h
    simp only [worth, bind, Option.bind] at h
    split at h
    · cases h
    · rename_i x hx'
      dsimp only at h
      split at h
      · cases h
      · rename_i y hy
        obtain ⟨i1, i2, i3⟩ := ihl x hx'
        obtain ⟨j1, j2, j3⟩ := ihr y hy
        refine ⟨?_, ?_, by simp only [fill, i3, j3]⟩
        · simp only [MExpr.eval, i1, j1, SVal.mul]; exact fits_int32 h
        · simp only [MExpr.collect, i2, j2]; exact hm
  | div l r ihl ihr =>
    intro v h
    simp only [worth, bind, Option.bind] at h
    split at h
    · cases h
    · rename_i x hx'
      dsimp only at h
      split at h
      · cases h
      · rename_i y hy
        obtain ⟨i1, i2, i3⟩ := ihl x hx'
        obtain ⟨j1, j2, j3⟩ := ihr y hy
        refine ⟨?_, ?_, by simp only [fill, i3, j3]⟩
        · simp only [MExpr.eval, i1, j1, SVal.div]
          dsimp only at h
          split at h
          · rename_i hy0; cases h; rw [if_pos hy0]
          · rename_i hy0; rw [if_neg hy0]; exact fits_int32 h
        · simp only [MExpr.collect, i2, j2]; exact hm

theorem resolve_worth {T T' : Table} (hx : Ext T T') (E : Env) {e : MExpr} {v : Int} (h : worth T e = some v) :
    e.resolve E.heap T' = .abs v := by
  simp only [MExpr.resolve, (eval_worth hx E ⟨[], 0, []⟩ e v h).1]

theorem leftmost_fill (a : Addr) (e : MExpr) : leftmost (fill a e) = leftmost e := by
  induction e <;> simp_all [fill, leftmost]

theorem begins_leftmost {e : MExpr} {n : SymId} : Begins e n ↔ leftmost e = some n := by
  constructor
  · intro h; induction h <;> simp_all [leftmost]
  · intro h
    induction e with
    | sym m => simp only [leftmost, Option.some.injEq] at h; subst h; exact .sym m
    | par e ih => exact .par _ _ (ih h)
    | neg e ih => exact .neg _ _ (ih h)
    | add l r ih _ => exact .add _ _ _ (ih h)
    | sub l r ih _ => exact .sub _ _ _ (ih h)
    | mul l r ih _ => exact .mul _ _ _ (ih h)
    | div l r ih _ => exact .div _ _ _ (ih h)
    | const v => simp [leftmost] at h
    | attr k m => simp [leftmost] at h
    | loc a => simp [leftmost] at h
    | dflt => simp [leftmost] at h

theorem begins_not {e : MExpr} : (∀ n, ¬ Begins e n) ↔ leftmost e = none := by
  cases h : leftmost e with
  | none => simp [begins_leftmost, h]
  | some n => simp [begins_leftmost, h]

/-- C108: when a statement is processed, every `*` in its operands is the location of the statement, and nothing else is changed. -/
theorem C108_location (a : Addr) (e f : MExpr) : fill a e = f ↔ Located a e f := by
  constructor
  · rintro rfl
    induction e with
    | const v => exact .const v
    | sym n => exact .sym n
    | attr k n => exact .attr k n
    | loc b => exact .star b
    | dflt => exact .dflt
    | par e ih => exact .par _ _ ih
    | neg e ih => exact .neg _ _ ih
    | add l r i j => exact .add _ _ _ _ i j
    | sub l r i j => exact .sub _ _ _ _ i j
    | mul l r i j => exact .mul _ _ _ _ i j
    | div l r i j => exact .div _ _ _ _ i j
  · intro h
    induction h <;> simp_all [fill]

/-! ### EQU -/

theorem lookOperand_worth {T T' : Table} (hx : Ext T T') (E : Env) {e : MExpr} {v m : Int} (h : worth T e = some v) :
    lookOperand E T' m (some (.expr e)) = if 0 ≤ v ∧ v ≤ m then some v else none := by
  have hc := (eval_worth hx E ⟨[], 0, []⟩ e v h).2.1
  have : Coll.none.contains E = false := rfl
  simp only [lookOperand, hc, this, resolve_worth hx E h, bounded]
  rfl

theorem procOperand_worth {T T' : Table} (hx : Ext T T') (E : Env) (a : Addr) {e : MExpr} {v m : Int} (h : worth T e = some v) :
    procOperand E T' m (some (.expr (fill a e))) = if 0 ≤ v ∧ v ≤ m then some v else none := by
  obtain ⟨_, hc, hf⟩ := eval_worth hx E a e v h
  have : Coll.none.contains E = false := rfl
  rw [hf]
  simp only [procOperand, hc, this, resolve_worth hx E h, bounded]
  rfl

theorem operands_agree {T T' : Table} (hx : Ext T T') (E E' : Env) (a : Addr) (m : Int) (o : Option EquOp) (h : ∀ p, o = some p → p.Plain T) :
    lookOperand E T m o = procOperand E' T' m (o.map (EquOp.fill a)) := by
  cases o with
  | none => rfl
  | some p =>
    rcases h p rfl with rfl | rfl | ⟨e, v, rfl, hv⟩
    · rfl
    · rfl
    · rw [lookOperand_worth (Ext.refl T) E hv]
      exact (procOperand_worth hx E' a hv).symm

theorem fill_head (a : Addr) (ops : List EquOp) : (ops.map (EquOp.fill a)).head? = ops.head?.map (EquOp.fill a) := by
  cases ops <;> rfl

theorem symLength_ext {T T' : Table} (hx : Ext T T') {n : SymId} {s : Sym} {l : Int} (hs : T n = some s) (hv : s.val ≠ .undef) (hl : s.len = some l) :
    symLength T n = some (some l) ∧ symLength T' n = some (some l) := by
  obtain ⟨s', hs', h1, h2, _⟩ := hx n s hs
  refine ⟨by simp only [symLength, hs, if_neg hv, hl], ?_⟩
  have : s'.val ≠ .undef := by rw [h1 hv]; exact hv
  simp only [symLength, hs', if_neg this, h2 l hl]

/-- The type and length of an `EQU` symbol are the same when looking ahead and when it is defined. -/
theorem equ_agree {T T' : Table} (hx : Ext T T') (E E' : Env) (a : Addr) {ops : List EquOp} (hs : Settled T (.equ ops)) {s s' : Sym}
    (h : lookEqu E T ops = some s) (h' : procEqu E' T' (ops.map (EquOp.fill a)) = some s') : s.type = s'.type ∧ s.len = s'.len := by
  obtain ⟨hp, hl⟩ := hs
  have h2 := operands_agree hx E E' a 255 ops[2]? (hp 2 (.inr rfl))
  have h1 := operands_agree hx E E' a 65535 ops[1]? (hp 1 (.inl rfl))
  unfold lookEqu at h
  unfold procEqu at h'
  rw [fill_head] at h'
  simp only [List.getElem?_map, ← h2, ← h1] at h h'
  cases hd : ops.head? with
  | none => rw [hd] at h'; simp at h'
  | some o =>
    rw [hd] at h h'
    cases o with
    | empty => simp [EquOp.fill] at h'
    | model => simp [EquOp.fill] at h'
    | other => simp [EquOp.fill] at h'
    | expr e =>
      simp only [Option.map_some, EquOp.fill, leftmost_fill] at h'
      cases hlen : lookOperand E T 65535 ops[1]? with
      | some l =>
        rw [hlen] at h h'
        cases h; cases h'
        exact ⟨rfl, rfl⟩
      | none =>
        rw [hlen] at h h'
        simp only at h h'
        cases hlm : leftmost e with
        | none =>
          rw [hlm] at h h'
          cases h; cases h'
          exact ⟨rfl, rfl⟩
        | some n =>
          rw [hlm] at h h'
          rcases hl with ⟨e', v, he', hv, hlo, hhi⟩ | hl
          · rw [he', lookOperand_worth (Ext.refl T) E hv, if_pos ⟨hlo, hhi⟩] at hlen
            cases hlen
          · obtain ⟨sy, l, hsy, hun, hle⟩ := hl e n hd (begins_leftmost.2 hlm)
            obtain ⟨q1, q2⟩ := symLength_ext hx hsy hun hle
            simp only [q1, q2] at h h'
            cases h; cases h'
            exact ⟨rfl, rfl⟩

/-! ### data definitions -/

theorem argOf_worth {T T' : Table} (hx : Ext T T') (E E' : Env) (a : Addr) {o : Option MExpr} (h : ∀ e, o = some e → ∃ v, worth T e = some v) :
    argOf E T o = argOf E' T' (o.map (fill a)) ∧ argOf E T o ≠ .pending := by
  cases o with
  | none => exact ⟨rfl, by simp [argOf]⟩
  | some e =>
    obtain ⟨v, hv⟩ := h e rfl
    obtain ⟨i1, i2, _⟩ := eval_worth (Ext.refl T) E a e v hv
    obtain ⟨j1, j2, j3⟩ := eval_worth hx E' a e v hv
    have c1 : Coll.none.contains E = false := rfl
    have c2 : Coll.none.contains E' = false := rfl
    simp only [argOf, Option.map_some, j3, i1, i2, j1, j2, c1, c2]
    simp

theorem typeAttr_fill (a : Addr) (d : DataOp) : (d.fill a).typeAttr = d.typeAttr := by
  cases h : d.length <;> simp [DataOp.typeAttr, DataOp.fill, h]

theorem data_agree {T T' : Table} (hx : Ext T T') (E E' : Env) (a : Addr) {d : DataOp} {r : List (Option DataOp)}
    (hs : Settled T (.data (some d :: r))) :
    d.len E T = (d.fill a).len E' T' ∧ d.scl E T = (d.fill a).scl E' T' := by
  obtain ⟨h1, h2⟩ := hs d r rfl
  obtain ⟨a1, _⟩ := argOf_worth hx E E' a h1
  obtain ⟨a2, _⟩ := argOf_worth hx E E' a h2
  have hv : d.value E T = (d.fill a).value E' T' := by
    simp only [DataOp.value, DataOp.fill, a1, a2]
  constructor
  · simp only [DataOp.len, hv]
    rw [a1]; rfl
  · simp only [DataOp.scl, hv]
    rw [a2]; rfl

theorem scl_none (E : Env) (T : Table) {d : DataOp} (h : d.scale = none) : d.scl E T = none := by
  simp [DataOp.scl, h, argOf]

/-! ### what is seen -/

theorem ordAttr_symbol {A : Attr.Env} {name : Bytes} {s : Sym} (h : (A.symbols name).or (A.refs name) = some s) (k : Attr.Kind) :
    ordAttr A k name = ordAttr ⟨fun _ => none, fun _ => some s, fun _ => false, fun _ => none, fun _ => false, fun _ => none, fun _ => none⟩ k name := by
  unfold ordAttr
  simp only [h]
  rfl

/-- C108: when a symbol is found by looking ahead at its definition and the operands of that definition refer to nothing that is still to
be defined, then a reference to an attribute gives the value it gives once the symbol is defined, with the same diagnostics.

Partial: `Promised` leaves out labels of `ORG` (`C108_witness_org`), the integer attribute of data with a scale modifier
(`C108_witness_integer`), and scale and integer of symbols defined by `EQU` (`C108_witness_equ_scale`). -/
theorem C108_forward_partial {T T' : Table} (hx : Ext T T') (E E' : Env) (a : Addr) (st : Stmt) (hs : Settled T st) {s s' : Sym}
    (h : look E T st = .ok (some s)) (h' : define E' T' a st = .ok (some s')) (k : Attr.Kind) (hk : Promised k st)
    (A A' : Attr.Env) (name : Bytes) (hA : A.symbols name = none ∧ A.refs name = some s) (hA' : A'.symbols name = some s') :
    ordAttr A k name = ordAttr A' k name := by
  rw [ordAttr_symbol (s := s) (by rw [hA.1, hA.2]; rfl), ordAttr_symbol (A := A') (s := s') (by rw [hA']; rfl)]
  cases st with
  | equ ops =>
    simp only [look, Except.ok.injEq] at h
    simp only [define, Except.ok.injEq] at h'
    obtain ⟨ht, hl⟩ := equ_agree hx E E' a hs h h'
    rcases hk with rfl | rfl
    · simp only [ordAttr, Attr.typeChar, Option.or, ht]
    · simp only [ordAttr, Option.or, Sym.hasAttr, Sym.attr, Attr.Kind.ord, hl]
      rfl
  | data ops =>
    simp only [look] at h
    simp only [define] at h'
    match ops, h, h', hs, hk with
    | [], h, h', _, _ => simp [lookData] at h
    | none :: r, h, h', _, _ => simp [lookData] at h
    | some d :: r, h, h', hs, hk =>
      obtain ⟨e1, e2⟩ := data_agree hx E E' a hs
      simp only [lookData, bind, Except.bind] at h
      simp only [List.map_cons, Option.map_some, procData, bind, Except.bind, ← e1, ← e2, typeAttr_fill] at h'
      split at h
      · cases h
      · rename_i l hl
        rw [hl] at h'
        simp only at h'
        split at h'
        · cases h'
        · rename_i i hi
          cases h; cases h'
          rcases hk with rfl | rfl | rfl | ⟨rfl, hn⟩
          · rfl
          · rfl
          · rfl
          · rw [scl_none E T (hn d r rfl)]
            rfl
  | sect => cases h; cases h'; rfl
  | machine bits => cases h; cases h'; rfl
  | org => exact absurd hk (by simp [Promised])
  | plain => cases h'
  | ca => cases h'
  | macr => cases h'
  | unknown => cases h'

/-- C108: looking ahead at a statement registers attributes whenever processing it would define its label. -/
theorem C108_registered {E E' : Env} {T T' : Table} {a : Addr} {st : Stmt} {s' : Sym} (h : define E' T' a st = .ok (some s')) :
    ∃ s, look E T st = .ok (some s) := by
  cases st with
  | equ ops =>
    simp only [define, Except.ok.injEq, procEqu, fill_head] at h
    cases hd : ops.head? with
    | none => rw [hd] at h; simp at h
    | some o =>
      rw [hd] at h
      cases o with
      | empty => simp [EquOp.fill] at h
      | model => simp [EquOp.fill] at h
      | other => simp [EquOp.fill] at h
      | expr e =>
        simp only [look, lookEqu, hd]
        split
        · exact ⟨_, rfl⟩
        · split
          · exact ⟨_, rfl⟩
          · exact ⟨_, rfl⟩
  | data ops =>
    match ops, h with
    | [], h => simp [define, procData] at h
    | none :: r, h => simp [define, procData] at h
    | some d :: r, h =>
      simp only [define, List.map_cons, Option.map_some, procData, bind, Except.bind] at h
      split at h
      · cases h
      · split at h
        · cases h
        · rename_i l _ i hi
          suffices ∃ l, d.len E T = .ok l by
            obtain ⟨l, hl⟩ := this
            simp only [look, lookData, bind, Except.bind, hl]
            exact ⟨_, rfl⟩
          simp only [DataOp.len]
          split
          · exact ⟨_, rfl⟩
          · rename_i hp
            suffices ∃ n, opLength (d.value E T) = .ok n by
              obtain ⟨n, hn⟩ := this
              simp only [bind, Except.bind, hn]
              exact ⟨_, rfl⟩
            cases hl : d.length with
            | some e =>
              rw [hl] at hp
              have hpr : (d.value E T).length.present = true := by
                simp only [DataOp.value, DataDef.Definition.operand, hl]
                cases hq : argOf E T (some e) with
                | none => simp only [argOf] at hq; split at hq <;> [cases hq; (split at hq <;> cases hq)]
                | abs v => rfl
                | other => rfl
                | pending => exact absurd hq hp
              simp only [opLength]
              split
              · exact ⟨_, rfl⟩
              · simp only [DataDef.lengthAttr, hpr, if_true]
                exact ⟨_, rfl⟩
            | none =>
              have key : ∀ (E : Env) (T : Table) (d : DataOp), d.length = none → opLength (d.value E T) =
                  match DataDef.accessType d.type d.ext with
                  | none => .ok 0
                  | some td => DataDef.lengthAttr td ⟨false, 0, d.bit⟩ (match d.nominal with
                    | none => DataDef.noNominal
                    | some n => ⟨true, n⟩) := by
                intro E T d hl
                simp only [opLength, DataOp.value, DataDef.Definition.operand, hl, argOf, DataDef.setField]
                rfl
              have hf : (d.fill a).length = none := by simp [DataOp.fill, hl]
              rw [key E T d hl]
              have hi' : ∃ n, opLength ((d.fill a).value E' T') = .ok n := by
                simp only [opInteger] at hi
                simp only [opLength]
                split at hi
                · exact ⟨_, rfl⟩
                · simp only [bind, Except.bind] at hi
                  split at hi
                  · cases hi
                  · rename_i n hn; exact ⟨n, hn⟩
              rw [key E' T' (d.fill a) hf] at hi'
              exact hi'
  | sect => exact ⟨_, rfl⟩
  | machine bits => exact ⟨_, rfl⟩
  | org => exact ⟨_, rfl⟩
  | plain => exact ⟨_, rfl⟩
  | ca => exact ⟨_, rfl⟩
  | macr => exact ⟨_, rfl⟩
  | unknown => exact ⟨_, rfl⟩

/-! ### what the operands of EQU mean -/

/-- C108: the second operand of `EQU` is the length of the symbol, whether it is looked ahead for or defined. -/
theorem C108_equ_length {T T' : Table} (hx : Ext T T') (E : Env) (a : Addr) (e1 : MExpr) (e0 : MExpr) (r : List EquOp) {v : Int}
    (hv : worth T e1 = some v) (hr : 0 ≤ v ∧ v ≤ 65535) :
    (∃ s, look E T' (.equ (.expr e0 :: .expr e1 :: r)) = .ok (some s) ∧ s.len = some v) ∧
    ∃ s, define E T' a (.equ (.expr e0 :: .expr e1 :: r)) = .ok (some s) ∧ s.len = some v := by
  have h1 : lookOperand E T' 65535 (some (.expr e1)) = some v := by rw [lookOperand_worth hx E hv, if_pos hr]
  have h2 : procOperand E T' 65535 (some (.expr (fill a e1))) = some v := by rw [procOperand_worth hx E a hv, if_pos hr]
  constructor
  · simp only [look, lookEqu, List.getElem?_cons_succ, List.getElem?_cons_zero, h1]
    exact ⟨_, rfl, rfl⟩
  · simp only [define, procEqu, List.map_cons, EquOp.fill, List.head?_cons, List.getElem?_cons_succ, List.getElem?_cons_zero, h2]
    exact ⟨_, rfl, rfl⟩

/-- C108: without a second operand the length of an `EQU` symbol is that of the symbol its value begins with. -/
theorem C108_equ_implied {T T' : Table} (hx : Ext T T') (E : Env) (a : Addr) (e0 : MExpr) {n : SymId} {sy : Sym} {l : Int}
    (hb : Begins e0 n) (hs : T n = some sy) (hv : sy.val ≠ .undef) (hl : sy.len = some l) :
    (∃ s, look E T' (.equ [.expr e0]) = .ok (some s) ∧ s.len = some l) ∧
    ∃ s, define E T' a (.equ [.expr e0]) = .ok (some s) ∧ s.len = some l := by
  have hn := begins_leftmost.1 hb
  have h2 := (symLength_ext hx hs hv hl).2
  constructor
  · refine ⟨attrs .dat 0xE4 (some l), ?_, rfl⟩
    simp only [look, lookEqu, lookOperand, List.head?_cons, hn, h2]
    rfl
  · refine ⟨attrs .equ 0xE4 (some l), ?_, rfl⟩
    simp only [define, procEqu, procOperand, List.map_cons, EquOp.fill, List.head?_cons, leftmost_fill, hn, h2]
    rfl

/-- C108: if the value of an `EQU` symbol does not begin with a symbol, the length is 1. -/
theorem C108_equ_one (E : Env) (T : Table) (a : Addr) (e0 : MExpr) (hb : ∀ n, ¬ Begins e0 n) :
    (∃ s, look E T (.equ [.expr e0]) = .ok (some s) ∧ s.len = some 1 ∧ s.type = 0xE4) ∧
    ∃ s, define E T a (.equ [.expr e0]) = .ok (some s) ∧ s.len = some 1 ∧ s.type = 0xE4 := by
  have hn := begins_not.1 hb
  constructor
  · refine ⟨attrs .dat 0xE4 (some 1), ?_, rfl, rfl⟩
    simp only [look, lookEqu, lookOperand, List.head?_cons, hn]
    rfl
  · refine ⟨attrs .equ 0xE4 (some 1), ?_, rfl, rfl⟩
    simp only [define, procEqu, procOperand, List.map_cons, EquOp.fill, List.head?_cons, leftmost_fill, hn]
    rfl

/-- C108: if the value of an `EQU` symbol begins with a symbol that has no value yet, whatever is known of its length, then looking ahead
leaves the length open and the definition makes it 1. -/
theorem C108_equ_open (E : Env) (T : Table) (a : Addr) (e0 : MExpr) {n : SymId} (hb : Begins e0 n) (hs : ∀ s, T n = some s → s.val = .undef) :
    (∃ s, look E T (.equ [.expr e0]) = .ok (some s) ∧ s.len = none ∧ s.type = 0xE4) ∧
    ∃ s, define E T a (.equ [.expr e0]) = .ok (some s) ∧ s.len = some 1 ∧ s.type = 0xE4 := by
  have hn := begins_leftmost.1 hb
  have hl : symLength T n = none := by
    unfold symLength
    cases h : T n with
    | none => rfl
    | some s => simp [hs s h]
  constructor
  · refine ⟨attrs .dat 0xE4 none, ?_, rfl, rfl⟩
    simp only [look, lookEqu, lookOperand, List.head?_cons, hn, hl]
    rfl
  · refine ⟨attrs .equ 0xE4 (some 1), ?_, rfl, rfl⟩
    simp only [define, procEqu, procOperand, List.map_cons, EquOp.fill, List.head?_cons, leftmost_fill, hn, hl]
    rfl

/-- C108: the third operand of `EQU` is the code of the type attribute. -/
theorem C108_equ_type {T T' : Table} (hx : Ext T T') (E : Env) (a : Addr) (e0 : MExpr) (o : EquOp) (e2 : MExpr) (r : List EquOp) {v : Int}
    (hv : worth T e2 = some v) (hr : 0 ≤ v ∧ v ≤ 255) :
    (∃ s, look E T' (.equ (.expr e0 :: o :: .expr e2 :: r)) = .ok (some s) ∧ s.type = v) ∧
    ∃ s, define E T' a (.equ (.expr e0 :: o :: .expr e2 :: r)) = .ok (some s) ∧ s.type = v := by
  have h1 : lookOperand E T' 255 (some (.expr e2)) = some v := by rw [lookOperand_worth hx E hv, if_pos hr]
  have h2 : procOperand E T' 255 (some (.expr (fill a e2))) = some v := by rw [procOperand_worth hx E a hv, if_pos hr]
  constructor
  · simp only [look, lookEqu, List.getElem?_cons_succ, List.getElem?_cons_zero, h1, Option.getD_some, List.head?_cons]
    split
    · exact ⟨_, rfl, rfl⟩
    · split <;> exact ⟨_, rfl, rfl⟩
  · simp only [define, procEqu, List.map_cons, EquOp.fill, List.head?_cons, List.getElem?_cons_succ, List.getElem?_cons_zero, h2,
      Option.getD_some]
    split
    · exact ⟨_, rfl, rfl⟩
    · split <;> exact ⟨_, rfl, rfl⟩

/-! ### what the modifiers of a data definition mean -/

theorem opLength_present {o : DataDef.Operand} {td : DataDef.TypeDef} (ht : DataDef.accessType o.type o.ext = some td) {v : Int}
    (hl : o.length = ⟨true, v, false⟩) (hr : 0 ≤ v ∧ v ≤ 65535) : opLength o = .ok v.toNat := by
  simp only [opLength, ht, DataDef.lengthAttr, hl, if_true]
  rw [Int.emod_eq_of_lt hr.1 (by omega)]
  rfl

/-- C108: the length modifier of a data definition, in bytes, is the length of its label. -/
theorem C108_data_length {T T' : Table} (hx : Ext T T') (E : Env) (a : Addr) (d : DataOp) (r : List (Option DataOp)) {e : MExpr} {v : Int}
    (ht : (DataDef.accessType d.type d.ext).isSome) (hl : d.length = some e) (hb : d.bit = false) (hv : worth T e = some v) (hr : 0 ≤ v ∧ v ≤ 65535) :
    (∃ s, look E T' (.data (some d :: r)) = .ok (some s) ∧ s.len = some v) ∧
    ∃ s, define E T' a (.data (some d :: r)) = .ok (some s) ∧ s.len = some v := by
  obtain ⟨td, ht⟩ := Option.isSome_iff_exists.1 ht
  have harg : argOf E T' (some e) = .abs v ∧ fill a e = e := by
    obtain ⟨i1, i2, i3⟩ := eval_worth hx E a e v hv
    have c : Coll.none.contains E = false := rfl
    refine ⟨?_, i3⟩
    simp only [argOf, i1, i2, c]
    rfl
  have key : ∀ d : DataOp, DataDef.accessType d.type d.ext = some td → d.length = some e → d.bit = false → d.len E T' = .ok (some v) ∧
      ∃ i, opInteger (d.value E T') = .ok i := by
    intro d ht hl hb
    have hlen : (d.value E T').length = ⟨true, v, false⟩ := by
      simp only [DataOp.value, DataDef.Definition.operand, hl, harg.1, hb]; rfl
    have ho := opLength_present (o := d.value E T') (td := td) ht hlen hr
    have hla : DataDef.lengthAttr td (d.value E T').length (d.value E T').nominal = .ok v.toNat := by
      simp only [opLength] at ho
      rw [show DataDef.accessType (d.value E T').type (d.value E T').ext = some td from ht] at ho
      exact ho
    constructor
    · simp only [DataOp.len, hl, harg.1]
      rw [if_neg (by simp), ho]
      simp only [bind, Except.bind, toLen]
      have : ((v.toNat : Int)).bmod 4294967296 = v := by
        rw [Int.toNat_of_nonneg hr.1, Int.bmod_eq_of_le (by omega) (by omega)]
      rw [this, if_neg (by omega)]
    · simp only [opInteger]
      rw [show DataDef.accessType (d.value E T').type (d.value E T').ext = some td from ht]
      simp only [hla, bind, Except.bind]
      exact ⟨_, rfl⟩
  have kd := key d ht hl hb
  have kf := key (d.fill a) ht (by simp [DataOp.fill, hl, harg.2]) hb
  constructor
  · simp only [look, lookData, bind, Except.bind, kd.1]
    exact ⟨_, rfl, rfl⟩
  · obtain ⟨i, hi⟩ := kf.2
    simp only [define, List.map_cons, Option.map_some, procData, bind, Except.bind, kf.1, hi]
    exact ⟨_, rfl, rfl⟩

theorem data_type (E : Env) (T : Table) (a : Addr) (d : DataOp) (r : List (Option DataOp)) :
    (∀ s, look E T (.data (some d :: r)) = .ok (some s) → s.type = ebcdic (typeLetter d.type d.length.isSome)) ∧
    ∀ s, define E T a (.data (some d :: r)) = .ok (some s) → s.type = ebcdic (typeLetter d.type d.length.isSome) := by
  constructor
  · intro s h
    simp only [look, lookData, bind, Except.bind] at h
    split at h
    · cases h
    · cases h; rfl
  · intro s h
    simp only [define, List.map_cons, Option.map_some, procData, bind, Except.bind, typeAttr_fill] at h
    split at h
    · cases h
    · split at h
      · cases h
      · cases h; rfl

/-- C108: the type attribute of the label of a data definition is the one in the table, whether it is looked ahead for or defined. -/
theorem C108_data_type (E : Env) (T : Table) (a : Addr) (d : DataOp) (r : List (Option DataOp)) (x : Char × Char × Char) (hx : x ∈ dataTypes)
    (hd : d.type = x.1) (s : Sym) (h : look E T (.data (some d :: r)) = .ok (some s) ∨ define E T a (.data (some d :: r)) = .ok (some s)) :
    Attr.typeChar s = [UInt8.ofNat (if d.length.isSome then x.2.2 else x.2.1).toNat] := by
  have ht : s.type = ebcdic (typeLetter d.type d.length.isSome) := by
    rcases h with h | h
    · exact (data_type E T a d r).1 s h
    · exact (data_type E T a d r).2 s h
  have key : ∀ x ∈ dataTypes, ∀ b : Bool, [Ca.e2a (UInt8.ofNat (ebcdic (typeLetter x.1 b)).toNat)] = [UInt8.ofNat (if b then x.2.2 else x.2.1).toNat] := by
    decide +kernel
  unfold Attr.typeChar
  rw [ht, hd]
  exact key x hx _

/-- C108: exactly the labels of data definitions whose type is a numeric one can have a scale and an integer attribute. -/
theorem C108_data_numeric (E : Env) (T : Table) (a : Addr) (d : DataOp) (r : List (Option DataOp)) (x : Char × Char × Char) (hx : x ∈ dataTypes)
    (hd : d.type = x.1) (s : Sym) (h : look E T (.data (some d :: r)) = .ok (some s) ∨ define E T a (.data (some d :: r)) = .ok (some s)) :
    s.si = true ↔ (if d.length.isSome then x.2.2 else x.2.1) ∈ numeric := by
  have hs : s.si = decide (ebcdic (typeLetter d.type d.length.isSome) ∈ scaledTypes) := by
    rcases h with h | h
    · simp only [look, lookData, bind, Except.bind] at h
      split at h
      · cases h
      · cases h; rfl
    · simp only [define, List.map_cons, Option.map_some, procData, bind, Except.bind, typeAttr_fill] at h
      split at h
      · cases h
      · split at h
        · cases h
        · cases h; rfl
  have key : ∀ x ∈ dataTypes, ∀ b : Bool, (decide (ebcdic (typeLetter x.1 b) ∈ scaledTypes) = true ↔ (if b then x.2.2 else x.2.1) ∈ numeric) := by
    decide +kernel
  rw [hs, hd]
  exact key x hx _

theorem data_scale (E : Env) (T : Table) (a : Addr) (d : DataOp) (r : List (Option DataOp)) :
    (∀ s, look E T (.data (some d :: r)) = .ok (some s) → s.scale = d.scl E T) ∧
    ∀ s, define E T a (.data (some d :: r)) = .ok (some s) → s.scale = (d.fill a).scl E T := by
  constructor
  · intro s h
    simp only [look, lookData, bind, Except.bind] at h
    split at h
    · cases h
    · cases h; rfl
  · intro s h
    simp only [define, List.map_cons, Option.map_some, procData, bind, Except.bind] at h
    split at h
    · cases h
    · split at h
      · cases h
      · cases h; rfl

/-- C108: the scale of the label of a data definition is its scale modifier; it is not known without one, and when the modifier is a symbol
that has no value yet. -/
theorem C108_data_scale {T T' : Table} (hx : Ext T T') (E : Env) (a : Addr) (d : DataOp) (r : List (Option DataOp)) (s : Sym)
    (h : look E T' (.data (some d :: r)) = .ok (some s) ∨ define E T' a (.data (some d :: r)) = .ok (some s)) :
    (d.scale = none → s.scale = none) ∧
    (∀ n, d.scale = some (.sym n) → (∀ y, T' n = some y → y.val = .undef) → s.scale = none) ∧
    ∀ e v, (DataDef.accessType d.type d.ext).isSome → d.scale = some e → worth T e = some v → -32768 ≤ v ∧ v < 32767 → s.scale = some v := by
  have hs : s.scale = d.scl E T' ∨ s.scale = (d.fill a).scl E T' := by
    rcases h with h | h
    · exact .inl ((data_scale E T' a d r).1 s h)
    · exact .inr ((data_scale E T' a d r).2 s h)
  refine ⟨?_, ?_, ?_⟩
  · intro hn
    rcases hs with hs | hs <;> rw [hs] <;> simp [DataOp.scl, DataOp.fill, hn, argOf]
  · intro n hn hu
    have hv : T'.value n = .undef := by
      unfold Table.value
      cases h : T' n with
      | none => rfl
      | some y => exact hu y h
    rcases hs with hs | hs <;> rw [hs] <;> simp [DataOp.scl, DataOp.fill, hn, argOf, fill, MExpr.collect, hv, Coll.ofSym, Coll.contains]
  · intro e v ht he hv hr
    obtain ⟨td, ht⟩ := Option.isSome_iff_exists.1 ht
    have harg : argOf E T' (some e) = .abs v ∧ fill a e = e := by
      obtain ⟨i1, i2, i3⟩ := eval_worth hx E a e v hv
      have c : Coll.none.contains E = false := rfl
      refine ⟨?_, i3⟩
      simp only [argOf, i1, i2, c]
      rfl
    have key : ∀ d : DataOp, DataDef.accessType d.type d.ext = some td → d.scale = some e → d.scl E T' = some v := by
      intro d ht he
      have hn : DataDef.narrow16 v = v := by unfold DataDef.narrow16; omega
      simp only [DataOp.scl, he, harg.1, opScale]
      rw [show DataDef.accessType (d.value E T').type (d.value E T').ext = some td from ht]
      simp only [DataDef.scaleAttr, DataOp.value, DataDef.Definition.operand, he, harg.1, DataDef.setField, hn, toScale, if_true]
      rw [Int.bmod_eq_of_le (by omega) (by omega)]
      simp; omega
    rcases hs with hs | hs
    · rw [hs]; exact key d ht he
    · rw [hs]; exact key (d.fill a) ht (by simp [DataOp.fill, he, harg.2])

/-- C108: the label of a section has type `J` and length 1; that of a machine instruction has type `I` and the length of the instruction;
neither has a scale or an integer attribute. This is so whether it is looked ahead for or defined. -/
theorem C108_code (E : Env) (T : Table) (a : Addr) (s : Sym) :
    (look E T .sect = .ok (some s) ∨ define E T a .sect = .ok (some s) →
      Attr.typeChar s = [UInt8.ofNat 'J'.toNat] ∧ s.si = false ∧ s.len = some 1) ∧
    ∀ bytes, look E T (.machine (8 * bytes)) = .ok (some s) ∨ define E T a (.machine (8 * bytes)) = .ok (some s) →
      Attr.typeChar s = [UInt8.ofNat 'I'.toNat] ∧ s.si = false ∧ s.len = some (bytes : Int) := by
  constructor
  · intro h
    have : s = sectionAttrs := by rcases h with h | h <;> cases h <;> rfl
    subst this
    decide +kernel
  · intro n h
    have : s = machineAttrs n := by
      rcases h with h | h <;>
      · simp only [look, define, Except.ok.injEq, Option.some.injEq, Nat.mul_div_cancel_left n (by omega : 0 < 8)] at h; exact h.symm
    subst this
    refine ⟨?_, rfl, rfl⟩
    show [Ca.e2a (UInt8.ofNat (0xC9 : Int).toNat)] = _
    decide +kernel

end Verif.Ahead
