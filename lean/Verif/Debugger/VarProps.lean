import Verif.Debugger.Vars
/-! C62: variable references. -/
namespace Verif.Debugger.Vars

open Variable
variable {V : Type} [Variable V]

/-- The references `n`, `n + 1`, … for the given contents. -/
def number (n : Nat) : List (List V) → List (Nat × List V)
  | [] => []
  | c :: cs => (n, c) :: number (n + 1) cs

@[simp] theorem number_length (n : Nat) (cs : List (List V)) : (number n cs).length = cs.length := by
  induction cs generalizing n with
  | nil => rfl
  | cons c cs ih => simp [number, ih]

theorem number_fst (n : Nat) (cs : List (List V)) : (number n cs).map (·.1) = List.range' n cs.length := by
  induction cs generalizing n with
  | nil => rfl
  | cons c cs ih => simp [number, ih, List.range'_succ]

theorem number_mem {n : Nat} {cs : List (List V)} {p} (h : p ∈ number n cs) : n ≤ p.1 ∧ p.1 < n + cs.length := by
  have : p.1 ∈ (number n cs).map (·.1) := List.mem_map_of_mem h
  rw [number_fst, List.mem_range'] at this
  obtain ⟨i, hi, e⟩ := this
  omega

def Good (st : St V) : Prop := ∀ p ∈ st.store, p.1 < st.next

theorem add_eq {st : St V} (h : Good st) (hb : st.next + 1 < refMax) (c : List V) :
    st.add c = (st.next, { st with store := (st.next, c) :: st.store, next := st.next + 1 }) := by
  have h1 : st.store.filter (fun p => p.1 != st.next) = st.store := by
    rw [List.filter_eq_self]
    intro p hp
    have := h p hp
    simp only [bne_iff_ne, ne_eq]; omega
  simp [St.add, h1, Nat.mod_eq_of_lt hb]

theorem good_add {st : St V} (h : Good st) (c : List V) :
    Good { st with store := (st.next, c) :: st.store, next := st.next + 1 } := by
  intro p hp
  rcases List.mem_cons.mp hp with rfl | hp
  · exact Nat.lt_succ_self _
  · exact Nat.lt_succ_of_lt (h p hp)

/-- The contents for which `variables` allocates references. -/
def parts (vs : List V) : List (List V) := (vs.filter fun v => !scalar v).map values

theorem members_eq (vs : List V) {st : St V} (h : Good st) (hb : st.next + (parts vs).length < refMax) :
    (st.members vs).2 = { st with store := (number st.next (parts vs)).reverse ++ st.store, next := st.next + (parts vs).length } ∧
    (st.members vs).1.map (·.1) = vs ∧
    (((st.members vs).1.filter fun p => !scalar p.1).map fun p => (p.2, values p.1)) = number st.next (parts vs) ∧
    ∀ p ∈ (st.members vs).1, scalar p.1 = true → p.2 = 0 := by
  induction vs generalizing st with
  | nil => simp [St.members, parts, number]
  | cons v vs ih =>
    by_cases hs : scalar v = true
    · have hp : parts (v :: vs) = parts vs := by simp [parts, hs]
      rw [hp] at hb ⊢
      obtain ⟨a, b, c, d⟩ := ih h hb
      simp only [St.members, hs, if_true]
      refine ⟨a, by simp [b], by simpa [hs] using c, ?_⟩
      intro p hp
      rcases List.mem_cons.mp hp with rfl | hp
      · simp
      · exact d p hp
    · have hp : parts (v :: vs) = values v :: parts vs := by simp [parts, hs]
      rw [hp] at hb ⊢
      simp only [List.length_cons] at hb
      have hadd := add_eq h (by omega) (values v)
      simp only [St.members, hs, hadd, number, List.length_cons]
      obtain ⟨a, b, c, d⟩ := ih (good_add h (values v)) (by simp only; omega)
      refine ⟨?_, by simp [b], ?_, ?_⟩
      · simp only [Bool.false_eq_true, if_false, a]
        simp
        omega
      · simp only [Bool.false_eq_true, if_false, List.filter_cons, hs, Bool.not_false, if_true, List.map_cons]
        rw [c]
      · simp only [Bool.false_eq_true, if_false]
        intro p hp
        rcases List.mem_cons.mp hp with rfl | hp
        · simp [hs]
        · exact d p hp

theorem find_iff {st : St V} (h : (st.store.map (·.1)).Nodup) (ref : Nat) (vs : List V) :
    st.find ref = some vs ↔ (ref, vs) ∈ st.store := by
  unfold St.find
  generalize st.store = l at *
  induction l with
  | nil => simp
  | cons p l ih =>
    simp only [List.map_cons, List.nodup_cons] at h
    by_cases hp : p.1 = ref
    · subst hp
      simp only [List.find?_cons, beq_self_eq_true, Option.map_some, Option.some.injEq, List.mem_cons]
      constructor
      · rintro rfl; exact Or.inl rfl
      · rintro (e | e)
        · rw [← e]
        · exact (h.1 (List.mem_map.mpr ⟨_, e, rfl⟩)).elim
    · simp only [List.find?_cons, beq_eq_false_iff_ne.mpr hp, List.mem_cons]
      rw [ih h.2]
      constructor
      · exact Or.inr
      · rintro (e | e)
        · exact (hp (by rw [← e])).elim
        · exact e

/-- The invariant of a session. -/
structure Inv (log : List (Op V × Reply V)) (st : St V) : Prop where
  next : st.next = (handedAll log).length + 1
  good : Good st
  nodup : (st.store.map (·.1)).Nodup
  same : ∀ p, p ∈ st.store ↔ p ∈ handedNow log
  refs : ∀ p ∈ handedAll log, 0 < p.1 ∧ p.1 < st.next
  uniq : ((handedAll log).map (·.1)).Nodup
  frames : st.frames = framesOf log
  over : st.over = log.any fun e => match e.1 with | .ended => true | _ => false

theorem inv_grow {log : List (Op V × Reply V)} {st : St V} (h : Inv log st) (cs : List (List V)) (op : Op V) (r : Reply V)
    (hh : handed log (op, r) = number st.next cs) (hop : ∀ f, op ≠ .stop f) (hend : op ≠ .ended) :
    Inv ((op, r) :: log) { st with store := (number st.next cs).reverse ++ st.store, next := st.next + cs.length } := by
  have hall : handedAll ((op, r) :: log) = number st.next cs ++ handedAll log := by simp [handedAll, hh]
  have hnow : handedNow ((op, r) :: log) = number st.next cs ++ handedNow log := by
    cases op <;> simp_all [handedNow]
  constructor
  · simp only [hall, List.length_append, number_length, h.next]; omega
  · intro p hp
    rcases List.mem_append.mp hp with hp | hp
    · exact (number_mem (List.mem_reverse.mp hp)).2
    · have := h.good p hp; show p.1 < st.next + cs.length; omega
  · simp only [List.map_append, List.map_reverse]
    rw [List.nodup_append]
    refine ⟨?_, h.nodup, ?_⟩
    · rw [(List.reverse_perm _).nodup_iff, number_fst]; exact List.nodup_range'
    · intro a ha b hb
      rw [List.mem_reverse, number_fst, List.mem_range'] at ha
      obtain ⟨p, hp, rfl⟩ := List.mem_map.mp hb
      have := h.good p hp
      obtain ⟨i, hi, e⟩ := ha
      omega
  · intro p
    rw [hnow]
    simp [h.same]
  · intro p hp
    rw [hall] at hp
    rcases List.mem_append.mp hp with hp | hp
    · have := number_mem hp
      have := h.next
      show 0 < p.1 ∧ p.1 < st.next + cs.length
      omega
    · have := h.refs p hp
      show 0 < p.1 ∧ p.1 < st.next + cs.length
      omega
  · rw [hall, List.map_append, List.nodup_append]
    refine ⟨by rw [number_fst]; exact List.nodup_range', h.uniq, ?_⟩
    intro a ha b hb
    rw [number_fst, List.mem_range'] at ha
    obtain ⟨p, hp, rfl⟩ := List.mem_map.mp hb
    have := h.refs p hp
    obtain ⟨i, hi, e⟩ := ha
    omega
  · have := h.frames
    cases op <;> simp_all [framesOf]
  · have := h.over
    cases op <;> simp_all

theorem inv_same {log : List (Op V × Reply V)} {st : St V} (h : Inv log st) (op : Op V) (r : Reply V)
    (hh : handed log (op, r) = []) (hop : ∀ f, op ≠ .stop f) (hend : op ≠ .ended) : Inv ((op, r) :: log) st := by
  have := inv_grow h [] op r (by rw [hh]; rfl) hop hend
  simpa [number] using this

/-- What one answer looks like. -/
structure Answer (log : List (Op V × Reply V)) (op : Op V) (r : Reply V) : Prop where
  vars : ∀ ref, op = .variables ref → ∃ l, r = .vars l ∧ (∀ p ∈ l, p.2 = 0 ↔ scalar p.1 = true) ∧
    ((log.any fun e => match e.1 with | .ended => true | _ => false) = false →
      (∀ vs, (ref, vs) ∈ handedNow log → l.map (·.1) = vs) ∧ ((∀ vs, (ref, vs) ∉ handedNow log) → l = []))

theorem members_fst (vs : List V) (st : St V) : (st.members vs).1.map (·.1) = vs := by
  induction vs generalizing st with
  | nil => rfl
  | cons v vs ih => by_cases hs : scalar v = true <;> simp [St.members, hs, ih]

theorem step_inv {rehash} {log : List (Op V × Reply V)} {st st' : St V} {op r} (h : Inv log st)
    (hs : st.step rehash op = some (r, st')) (hb : (handedAll ((op, r) :: log)).length + 1 < refMax) :
    Inv ((op, r) :: log) st' ∧ Answer log op r := by
  have hn := h.next
  cases op with
  | stop fs =>
    simp only [St.step, Option.some.injEq, Prod.mk.injEq] at hs
    obtain ⟨rfl, rfl⟩ := hs
    refine ⟨⟨?_, ?_, ?_, ?_, ?_, ?_, rfl, ?_⟩, ⟨by simp⟩⟩
    · simpa [handedAll, handed] using hn
    · intro p hp; simp at hp
    · simp
    · simp [handedNow]
    · simpa [handedAll, handed] using h.refs
    · simpa [handedAll, handed] using h.uniq
    · simpa using h.over
  | ended =>
    simp only [St.step, Option.some.injEq, Prod.mk.injEq] at hs
    obtain ⟨rfl, rfl⟩ := hs
    refine ⟨⟨?_, h.good, h.nodup, ?_, ?_, ?_, h.frames, by simp⟩, ⟨by simp⟩⟩
    · simpa [handedAll, handed] using hn
    · simpa [handedNow, handed] using h.same
    · simpa [handedAll, handed] using h.refs
    · simpa [handedAll, handed] using h.uniq
  | scopes f =>
    refine ⟨?_, ⟨by simp⟩⟩
    have hfr := h.frames
    simp only [St.step] at hs
    split at hs
    · simp only [Option.some.injEq, Prod.mk.injEq] at hs
      obtain ⟨rfl, rfl⟩ := hs
      exact inv_same h _ _ (by simp only [handed]; split <;> rfl) (by simp) (by simp)
    split at hs
    · simp only [Option.some.injEq, Prod.mk.injEq] at hs
      obtain ⟨rfl, rfl⟩ := hs
      exact inv_same h _ _ (by simp only [handed]; split <;> rfl) (by simp) (by simp)
    · rename_i fr hf
      rw [hfr] at hf
      simp only [Option.some.injEq, Prod.mk.injEq] at hs
      obtain ⟨rfl, rfl⟩ := hs
      have hlen : st.next + 3 < refMax := by
        simp only [handedAll, handed, hf, List.map_cons, List.map_nil, List.length_append, List.length_cons, List.length_nil] at hb
        omega
      have e1 := add_eq h.good (by omega) fr.globals
      have g1 := good_add h.good fr.globals
      simp only [e1]
      have e2 := add_eq g1 (by simp only; omega) fr.locals
      have g2 := good_add g1 fr.locals
      simp only [e2]
      have e3 := add_eq g2 (by simp only; omega) fr.ordinary
      simp only [e3]
      have := inv_grow h [fr.globals, fr.locals, fr.ordinary] (.scopes f)
        (.scopes [("Globals", st.next), ("Locals", st.next + 1), ("Ordinary symbols", st.next + 1 + 1)])
        (by simp [handed, hf, number]) (by simp) (by simp)
      simpa [number] using this
  | variables ref =>
    simp only [St.step] at hs
    split at hs
    · rename_i ho
      simp only [Option.some.injEq, Prod.mk.injEq] at hs
      obtain ⟨rfl, rfl⟩ := hs
      refine ⟨inv_same h _ _ (by simp [handed]) (by simp) (by simp), ⟨?_⟩⟩
      intro ref' _
      refine ⟨[], rfl, by simp, ?_⟩
      rw [← h.over, ho]; simp
    split at hs
    · rename_i hf
      simp only [Option.some.injEq, Prod.mk.injEq] at hs
      obtain ⟨rfl, rfl⟩ := hs
      refine ⟨inv_same h _ _ (by simp [handed]) (by simp) (by simp), ⟨?_⟩⟩
      intro ref' hr
      cases hr
      refine ⟨[], rfl, by simp, fun _ => ⟨?_, by simp⟩⟩
      intro vs hvs
      rw [← h.same, ← find_iff h.nodup, hf] at hvs
      simp at hvs
    · rename_i vs hf
      split at hs
      · simp at hs
      simp only [Option.some.injEq, Prod.mk.injEq] at hs
      obtain ⟨rfl, rfl⟩ := hs
      have hlen : (handed log (.variables ref, .vars (st.members vs).1)).length = (parts vs).length := by
        simp only [handed, List.length_map, parts]
        have e : (vs.filter fun v => !scalar v).length = (((st.members vs).1.map (·.1)).filter fun v => !scalar v).length := by
          rw [members_fst]
        rw [e, List.filter_map, List.length_map]; rfl
      have hb' : st.next + (parts vs).length < refMax := by
        simp only [handedAll, List.length_append, hlen] at hb
        omega
      obtain ⟨a, b, c, d⟩ := members_eq vs h.good hb'
      refine ⟨?_, ⟨?_⟩⟩
      · rw [a]
        exact inv_grow h (parts vs) _ _ c (by simp) (by simp)
      · intro ref' hr
        cases hr
        refine ⟨_, rfl, ?_, fun _ => ⟨?_, ?_⟩⟩
        · intro p hp
          refine ⟨fun h0 => ?_, d p hp⟩
          rcases Bool.eq_false_or_eq_true (scalar p.1) with hsc | hsc
          · exact hsc
          · have : (p.2, values p.1) ∈ number st.next (parts vs) := by
              rw [← c]; exact List.mem_map.mpr ⟨p, List.mem_filter.mpr ⟨hp, by simp [hsc]⟩, rfl⟩
            have := (number_mem this).1
            simp only at this
            omega
        · intro ws hws
          rw [← h.same, ← find_iff h.nodup, hf] at hws
          cases hws
          exact b
        · intro hno
          exact (hno vs (by rw [← h.same, ← find_iff h.nodup, hf])).elim

theorem handedAll_le (e : Op V × Reply V) (log : List (Op V × Reply V)) :
    (handedAll log).length ≤ (handedAll (e :: log)).length := by simp [handedAll]

theorem inv_init : Inv ([] : List (Op V × Reply V)) {} := by
  constructor <;> simp [handedAll, handedNow, framesOf, Good]

theorem run_inv {rehash} : ∀ {ops : List (Op V)} {log st}, run rehash ops = some (log, st) →
    (handedAll log).length + 1 < refMax → Inv log st
  | [], log, st, h, _ => by
    simp only [run, Option.some.injEq, Prod.mk.injEq] at h
    obtain ⟨rfl, rfl⟩ := h
    exact inv_init
  | op :: ops, log, st, h, hb => by
    simp only [run, Option.bind_eq_some_iff, Option.map_eq_some_iff] at h
    obtain ⟨⟨log', st'⟩, h1, ⟨r, s2⟩, h2, e⟩ := h
    simp only [Prod.mk.injEq] at e
    obtain ⟨rfl, rfl⟩ := e
    have := handedAll_le (op, r) log'
    exact (step_inv (run_inv h1 (by omega)) h2 hb).1

/-- **C62.** In every session that hands out fewer than 2⁶⁴ − 1 references, all of them are non-zero and no number is ever
handed out twice, across stops and repeated requests. (The counter is a 64-bit `size_t`; `C62_witness_wrap` shows what
happens after that many.) -/
theorem C62_unique_partial {rehash} {ops : List (Op V)} {log st} (h : run rehash ops = some (log, st))
    (hb : (handedAll log).length + 1 < 2 ^ 64) :
    (∀ p ∈ handedAll log, p.1 ≠ 0) ∧ ((handedAll log).map (·.1)).Nodup := by
  have hi := run_inv h hb
  exact ⟨fun p hp => by have := (hi.refs p hp).1; omega, hi.uniq⟩

/-- **C62.** A reference handed out since the last stop yields exactly what it was handed out for, with reference 0 for the
members that have no members themselves and a non-zero one for the others; every other reference, in particular every
stale one, yields nothing. -/
theorem C62_denotes_partial {rehash} {ops : List (Op V)} {log st ref r st'} (h : run rehash ops = some (log, st))
    (hend : ∀ o ∈ ops, o ≠ .ended) (hs : st.step rehash (.variables ref) = some (r, st'))
    (hb : (handedAll ((.variables ref, r) :: log)).length + 1 < 2 ^ 64) :
    ∃ l, r = .vars l ∧ (∀ p ∈ l, p.2 = 0 ↔ scalar p.1 = true) ∧
      (∀ vs, (ref, vs) ∈ handedNow log → l.map (·.1) = vs) ∧ ((∀ vs, (ref, vs) ∉ handedNow log) → l = []) := by
  have hi := run_inv h (by have := handedAll_le (.variables ref, r) log; show _ < refMax; unfold refMax; omega)
  obtain ⟨l, a, b, c⟩ := (step_inv hi hs hb).2.vars ref rfl
  have hlog : ∀ {ops : List (Op V)} {log st}, run rehash ops = some (log, st) → log.map (·.1) = ops := by
    intro ops
    induction ops with
    | nil => intro log st h; simp only [run, Option.some.injEq, Prod.mk.injEq] at h; simp [← h.1]
    | cons op ops ih =>
      intro log st h
      simp only [run, Option.bind_eq_some_iff, Option.map_eq_some_iff] at h
      obtain ⟨⟨log', st'⟩, h1, ⟨r, s2⟩, h2, e⟩ := h
      simp only [Prod.mk.injEq] at e
      simp [← e.1, ih h1]
  have hne : (log.any fun e => match e.1 with | .ended => true | _ => false) = false := by
    rw [List.any_eq_false]
    intro e he
    have : e.1 ∈ ops := by rw [← hlog h]; exact List.mem_map_of_mem he
    have := hend e.1 this
    cases hh : e.1 <;> simp_all
  exact ⟨l, a, b, (c hne).1, (c hne).2⟩

/-! ### Witnesses and examples -/

/-- Trees as variables. -/
inductive Tree
  | leaf (n : Nat)
  | node (n : Nat) (sub : List Tree)

instance : Variable Tree where
  scalar := fun t => match t with | .leaf _ => true | .node _ _ => false
  values := fun t => match t with | .leaf _ => [] | .node _ l => l

/-- A frame with a list `&L(1)` among the locals. -/
def frame : Frame Tree := ⟨[.leaf 1], [.leaf 2, .node 3 [.leaf 4, .leaf 5]], []⟩

-- C62_unique_partial, C62_denotes_partial: scopes 1-3, the list is 4, asked again it is 5; after a stop 4 is stale, scopes 6-8
example : ∃ log st, run (fun _ => false) [.scopes 0, .variables 4, .stop [frame], .variables 5, .variables 4, .variables 2, .variables 2, .scopes 0,
      .stop [frame]] = some (log, st) ∧ (handedAll log).map (·.1) = [6, 7, 8, 5, 4, 1, 2, 3] ∧ (handedNow log).map (·.1) = [6, 7, 8] :=
  ⟨_, _, rfl, by decide +kernel, by decide +kernel⟩

theorem run_scopes (n : Nat) (fr : Frame V) : ∃ log st, run (fun _ => false) (List.replicate n (.scopes 0) ++ [.stop [fr]]) = some (log, st) ∧
    st.next = (1 + 3 * n) % refMax ∧ st.frames = [fr] ∧ st.over = false := by
  induction n with
  | zero => exact ⟨_, _, rfl, rfl, rfl, rfl⟩
  | succ n ih =>
    obtain ⟨log, st, h1, h2, h3, h4⟩ := ih
    simp only [List.replicate_succ, List.cons_append, run, h1, Option.bind_some, St.step, h4, h3, Option.map_some]
    refine ⟨_, _, rfl, ?_, ?_, ?_⟩
    · simp only [St.add, h2]; unfold refMax; omega
    · simp [St.add, h3]
    · simp [St.add, h4]

/-- **C62 fails after 2⁶⁴ references**: the counter wraps and the reference 0, which tells the client that there is nothing to
expand, is handed out for a scope. -/
theorem C62_witness_wrap (fr : Frame V) : ∃ (ops : List (Op V)) (log : List (Op V × Reply V)) (st : St V),
    run (fun _ => false) ops = some (log, st) ∧ ∃ p ∈ handedAll log, p.1 = 0 := by
  obtain ⟨log, st, h1, h2, h3, h4⟩ := run_scopes (V := V) 6148914691236517205 fr
  have hn : st.next = 0 := by rw [h2]; decide
  have hfr : framesOf log = [fr] := by
    have key : ∀ (n : Nat) (log : List (Op V × Reply V)) (st : St V),
        run (fun _ => false) (List.replicate n (.scopes 0) ++ [.stop [fr]]) = some (log, st) → framesOf log = [fr] := by
      intro n
      induction n with
      | zero =>
        intro log st h
        simp only [List.replicate_zero, List.nil_append, run, Option.bind_some, St.step, Option.map_some, Option.some.injEq,
          Prod.mk.injEq] at h
        simp [← h.1, framesOf]
      | succ n ih =>
        intro log st h
        simp only [List.replicate_succ, List.cons_append, run, Option.bind_eq_some_iff, Option.map_eq_some_iff] at h
        obtain ⟨⟨log', st'⟩, q1, ⟨r, s2⟩, q2, e⟩ := h
        simp only [Prod.mk.injEq] at e
        simp [← e.1, framesOf, ih _ _ q1]
    exact key _ _ _ h1
  refine ⟨.scopes 0 :: (List.replicate 6148914691236517205 (.scopes 0) ++ [.stop [fr]]), ?_⟩
  simp only [run, h1, Option.bind_some, St.step, h4, h3, Option.map_some]
  refine ⟨_, _, rfl, ?_⟩
  simp only [handedAll, handed, hfr]
  refine ⟨(0, fr.globals), ?_, rfl⟩
  simp [St.add, hn]

/-- **C62, undefined behaviour.** If the insertion of the fourth entry rehashes the map, asking for the members of a scope that
contains a list uses an invalidated iterator. -/
theorem C62_witness_rehash (rehash : Nat → Bool) (h : rehash 3 = true) :
    run rehash [.variables 2, .scopes 0, .stop [frame]] = none := by
  simp only [run, Option.bind_some, St.step, Option.map_some, frame, St.add, St.find]
  simp [rehashed, refMax, h, scalar]

theorem members_over (vs : List V) (st : St V) : (st.members vs).2.over = st.over := by
  induction vs generalizing st with
  | nil => rfl
  | cons v vs ih => by_cases hs : scalar v = true <;> simp [St.members, hs, ih, St.add]

theorem run_over {rehash} : ∀ {ops : List (Op V)} {log st}, run rehash ops = some (log, st) → .ended ∈ ops → st.over = true
  | [], _, _, _, h => by simp at h
  | op :: ops, log, st, h, hm => by
    simp only [run, Option.bind_eq_some_iff, Option.map_eq_some_iff] at h
    obtain ⟨⟨log', s1⟩, h1, ⟨r, s2⟩, h2, e⟩ := h
    simp only [Prod.mk.injEq] at e
    obtain ⟨rfl, rfl⟩ := e
    rcases List.mem_cons.mp hm with rfl | hm
    · simp only [St.step, Option.some.injEq, Prod.mk.injEq] at h2
      obtain ⟨rfl, rfl⟩ := h2
      rfl
    · have ho := run_over h1 hm
      cases op <;> simp only [St.step, ho, if_true, Option.some.injEq, Prod.mk.injEq] at h2 <;> obtain ⟨rfl, rfl⟩ := h2 <;>
        first | exact ho | rfl

/-- **C62.** Once the program has ended, no reference yields anything and no scopes are handed out. -/
theorem C62_ended {rehash} {ops : List (Op V)} {log st} (h : run rehash ops = some (log, st)) (he : .ended ∈ ops) (n : Nat) :
    st.step rehash (.variables n) = some (.vars [], st) ∧ st.step rehash (.scopes n) = some (.scopes [], st) := by
  have := run_over h he
  simp [St.step, this]

example : ∃ log st, run (fun _ => false) [.ended, .scopes 0, .stop [frame]] = some (log, st) ∧ st.store.length = 3 := ⟨_, _, rfl, rfl⟩

end Verif.Debugger.Vars
