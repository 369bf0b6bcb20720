import Verif.Mach.TableFacts
import Verif.Ord.AlignProps

/-!
C95: the storage taken by machine instructions and the addresses of their labels.
-/
namespace Verif.Mach
open Verif.Ord

/-- The instruction an opcode stands for (mach_processor.cpp:36-42); `none` is the exception thrown by `at`. -/
def Tables.resolve (T : Tables) (n : OpName) : Option Instr := match T.mnem n with
  | some m => T.instr m.base
  | none => T.instr n

/-- `context::halfword` (alignment.h). -/
def halfword : Al := ⟨0, 2⟩

/-- A label with its address and its length attribute. -/
structure Label where
  name : Nat
  addr : Addr
  len : Nat

/-- The part of the assembly context that machine instructions change. -/
structure Asm where
  lc : LC
  labels : List Label
  /-- how often E031 was reported -/
  redefined : Nat

/-- The definition of the label (mach_processor.cpp:44-62); `align` is `reserve_storage_area` with length 0
(ordinary_assembly_context.cpp 217) and returns the address then reached. -/
def Asm.define (a : Asm) (label : Option Nat) (len : Nat) : Asm := match label with
  | none => a
  | some l =>
    if a.labels.any (·.name == l) then { a with redefined := a.redefined + 1 }
    else { a with lc := a.lc.reserve 0 halfword, labels := a.labels ++ [⟨l, (a.lc.reserve 0 halfword).current, len⟩] }

/-- `mach_processor::process` (mach_processor.cpp:32-85) without the check of the operands, which is `Tables.check` now or
later. `size_for_alloc` (instruction.h:193-206) is `MF.bits`. -/
def Asm.mach (T : Tables) (a : Asm) (label : Option Nat) (n : OpName) : Except Fault Asm := match T.resolve n with
  | none => .error .noInstr
  | some ins =>
    .ok { a.define label (ins.fmt.bits / 8) with lc := (a.define label (ins.fmt.bits / 8)).lc.reserve ((ins.fmt.bits / 8 : Nat) : Int) halfword }

/-- A statement: a machine instruction, or bytes defined without alignment (a `DS` of type `X`; asm_processor.cpp:176-299). -/
inductive Stmt where
  | mach (label : Option Nat) (n : OpName)
  | bytes (len : Nat)

def Asm.step (T : Tables) (a : Asm) : Stmt → Except Fault Asm
  | .mach l n => a.mach T l n
  | .bytes k => .ok { a with lc := a.lc.reserve k ⟨0, 1⟩ }

def Asm.run (T : Tables) : Asm → List Stmt → Except Fault Asm
  | a, [] => .ok a
  | a, s :: r => match a.step T s with
    | .error e => .error e
    | .ok a' => a'.run T r

/-- A fresh section. -/
def Asm.init : Asm := ⟨LC.init, [], 0⟩

/-! ## Specification -/

/-- The size of an instruction in bytes by its format: the formats of two and of four bytes are listed, all others have six
(z/Architecture Principles of Operation, chapter 5, "Instruction Formats"). -/
def MF.bytes : MF → Nat
  | .E | .I | .RR => 2
  | .IE | .RRD | .RRE | .RRF_a | .RRF_b | .RRF_c | .RRF_d | .RRF_e | .RI_a | .RI_b | .RI_c | .RS_a | .RS_b | .RSI | .RX_a | .RX_b | .S | .SI => 4
  | _ => 6

/-- The next even number. -/
def even (x : Nat) : Nat := (x + 1) / 2 * 2

/-- The bytes a statement occupies when the previous one ends at `x`: from where and how many. -/
def occupies (T : Tables) (x : Nat) : Stmt → Option (Nat × Nat)
  | .mach _ n => (T.resolve n).map fun ins => (even x, ins.fmt.bytes)
  | .bytes k => some (x, k)

/-- The bytes all statements occupy. -/
def plan (T : Tables) : Nat → List Stmt → Option (List (Nat × Nat))
  | _, [] => some []
  | x, s :: r => match occupies T x s with
    | none => none
    | some (p, k) => (plan T (p + k) r).map ((p, k) :: ·)

/-- The first statement with the label. -/
def firstWith (l : Nat) : List Stmt → Option Nat
  | [] => none
  | .mach (some m) _ :: r => if m = l then some 0 else (firstWith l r).map (· + 1)
  | _ :: r => (firstWith l r).map (· + 1)

/-- The end of the last statement. -/
def endOf (x : Nat) (p : List (Nat × Nat)) : Nat := match p.getLast? with
  | none => x
  | some (a, k) => a + k

/-! ## Proofs -/

theorem bits_bytes (f : MF) : f.bits / 8 = f.bytes := by cases f <;> rfl

/-- A counter without open gaps that stands at `x`. -/
def At (c : LC) (x : Nat) : Prop := c.data.parts = [] ∧ c.data.storage = x ∧ c.data.initial = x

theorem next_even (x : Nat) (y : Int) (h : IsNext halfword x y) : y = (even x : Nat) := by
  obtain ⟨h1, h2, h3⟩ := h
  simp only [halfword, Nat.cast_ofNat, Nat.cast_zero] at h2 h3
  have := h3 ((even x : Nat) : Int) (by unfold even; omega) (by unfold even; omega)
  unfold even at *
  omega

theorem at_append {c : LC} {x : Nat} (h : At c x) (k : Nat) : At { c with data := c.data.appendStorage k } (x + k) := by
  obtain ⟨h1, h2, h3⟩ := h
  refine ⟨by simp [LData.appendStorage, h1, addLast], by simp [LData.appendStorage, h2], by simp [LData.appendStorage, h1, h3]⟩

theorem at_align {c : LC} {x : Nat} (h : At c x) : At (c.alignTo halfword) (even x) := by
  have hs : SizeOk halfword.boundary c.data.storage := .inl (by decide)
  obtain ⟨h1, h2, h3⟩ := h
  have := C51_counter c halfword (by decide) hs h1 (by rw [h2, h3])
  rw [h2] at this
  have he := next_even x _ this.1
  refine ⟨this.2, he, ?_⟩
  unfold LC.alignTo at he ⊢
  split
  · rename_i hh
    rw [if_pos hh, h2] at he
    rw [h3, he]
  · rename_i hh
    rw [if_neg hh] at he
    rw [if_neg (by simp [LC.needSpace, h1])] at he ⊢
    simp only [LData.appendStorage, h1, List.isEmpty_nil, if_true, h2, h3] at he ⊢
    exact he

theorem at_reserve {c : LC} {x : Nat} (h : At c x) (k : Nat) : At (c.reserve k halfword) (even x + k) := at_append (at_align h) k

theorem at_reserve1 {c : LC} {x : Nat} (h : At c x) (k : Nat) : At (c.reserve k ⟨0, 1⟩) (x + k) := by
  have : c.alignTo ⟨0, 1⟩ = c := by
    unfold LC.alignTo
    rw [if_pos]
    simp [LC.hasAlignment, h.1, Nat.mod_one]
  unfold LC.reserve
  rw [this]
  exact at_append h k

theorem even_even (x : Nat) : even (even x) = even x := by unfold even; omega

theorem current_at {c : LC} {x : Nat} (h : At c x) : c.current = ⟨[(owner, 1)], x, []⟩ := by
  unfold LC.current Addr.make
  rw [h.1, h.2.1]
  simp [Heap.norm]

theorem define_at {a : Asm} {x : Nat} (h : At a.lc x) (label : Option Nat) (len k : Nat) : At ((a.define label len).lc.reserve k halfword) (even x + k) := by
  unfold Asm.define
  split
  · exact at_reserve h k
  · split
    · exact at_reserve h k
    · have := at_reserve (at_reserve h 0) k
      rwa [Nat.add_zero, even_even] at this

/-- What is known after a run that started at `x` with the labels `a.labels`. -/
structure Placed (T : Tables) (a : Asm) (x : Nat) (prog : List Stmt) (p : List (Nat × Nat)) (a' : Asm) : Prop where
  stop : At a'.lc (endOf x p)
  keep : ∀ lab ∈ a.labels, lab ∈ a'.labels
  fresh : ∀ lab ∈ a'.labels, lab ∈ a.labels ∨ (∀ o ∈ a.labels, o.name ≠ lab.name) ∧
    ∃ i q k, firstWith lab.name prog = some i ∧ p[i]? = some (q, k) ∧ lab.addr = ⟨[(owner, 1)], q, []⟩ ∧ lab.len = k
  all : ∀ l i, firstWith l prog = some i → ∃ lab ∈ a'.labels, lab.name = l
  once : (a.labels.map (·.name)).Nodup → (a'.labels.map (·.name)).Nodup

theorem endOf_cons (x : Nat) (e : Nat × Nat) (p : List (Nat × Nat)) : endOf x (e :: p) = endOf (e.1 + e.2) p := by
  unfold endOf
  cases p with
  | nil => rfl
  | cons f r => rw [List.getLast?_cons_cons]; simp [List.getLast?_cons]

theorem firstWith_other {l : Nat} {s : Stmt} {r : List Stmt} (h : ∀ n, s ≠ .mach (some l) n) : firstWith l (s :: r) = (firstWith l r).map (· + 1) := by
  cases s with
  | bytes k => rfl
  | mach lb n =>
    cases lb with
    | none => rfl
    | some m =>
      have : m ≠ l := fun e => h n (e ▸ rfl)
      simp [firstWith, this]

theorem define_labels (a : Asm) (label : Option Nat) (len : Nat) (x : Nat) (hx : At a.lc x) : (a.define label len).labels = a.labels ∧
      (∀ l, label = some l → ∃ o ∈ a.labels, o.name = l) ∨
    ∃ l, label = some l ∧ (∀ o ∈ a.labels, o.name ≠ l) ∧ (a.define label len).labels = a.labels ++ [⟨l, ⟨[(owner, 1)], even x, []⟩, len⟩] := by
  unfold Asm.define
  cases label with
  | none => exact .inl ⟨rfl, fun _ h => by cases h⟩
  | some l =>
    by_cases hl : a.labels.any (·.name == l) = true
    · refine .inl ⟨by simp only [hl, if_true], fun l' h' => ?_⟩
      obtain rfl := Option.some.inj h'
      obtain ⟨o, ho, he⟩ := List.any_eq_true.1 hl
      exact ⟨o, ho, by simpa using he⟩
    · refine .inr ⟨l, rfl, fun o ho e => hl (List.any_eq_true.2 ⟨o, ho, by simpa using e⟩), ?_⟩
      have hl' : (a.labels.any (·.name == l)) = false := by simpa using hl
      simp only [hl', Bool.false_eq_true, if_false]
      have := current_at (at_reserve hx 0)
      rw [Nat.add_zero] at this
      rw [show ((0 : Nat) : Int) = 0 from rfl] at this
      rw [this]

theorem run_placed (T : Tables) : ∀ (prog : List Stmt) (a : Asm) (x : Nat) (p : List (Nat × Nat)), At a.lc x → plan T x prog = some p →
    ∃ a', a.run T prog = .ok a' ∧ Placed T a x prog p a' := by
  intro prog
  induction prog with
  | nil =>
    intro a x p ha hp
    cases hp
    exact ⟨a, rfl, ⟨ha, fun _ h => h, fun _ h => .inl h, fun _ _ h => by simp [firstWith] at h, id⟩⟩
  | cons s r ih =>
    intro a x p ha hp
    simp only [plan] at hp
    cases ho : occupies T x s with
    | none => simp [ho] at hp
    | some e =>
      obtain ⟨q, k⟩ := e
      simp only [ho] at hp
      cases hr : plan T (q + k) r with
      | none => simp [hr] at hp
      | some p' =>
        simp only [hr, Option.map_some, Option.some.injEq] at hp
        subst hp
        cases s with
        | bytes len =>
          simp only [occupies, Option.some.injEq, Prod.mk.injEq] at ho
          obtain ⟨rfl, rfl⟩ := ho
          obtain ⟨a', hrun, hP⟩ := ih { a with lc := a.lc.reserve len ⟨0, 1⟩ } _ _ (at_reserve1 ha len) hr
          refine ⟨a', by simp only [Asm.run, Asm.step, hrun], ⟨by rw [endOf_cons]; exact hP.stop, hP.keep, fun lab hl => ?_, fun l i hi => ?_, hP.once⟩⟩
          · rcases hP.fresh lab hl with h | ⟨h1, i, q', k', h2, h3, h4⟩
            · exact .inl h
            · exact .inr ⟨h1, i + 1, q', k', by rw [firstWith_other (by intros; simp), h2]; rfl, h3, h4⟩
          · rw [firstWith_other (by intros; simp)] at hi
            obtain ⟨j, hj, -⟩ := Option.map_eq_some_iff.1 hi
            exact hP.all l j hj
        | mach label n =>
          simp only [occupies] at ho
          obtain ⟨ins, hins, hqk⟩ := Option.map_eq_some_iff.1 ho
          simp only [Prod.mk.injEq] at hqk
          obtain ⟨rfl, rfl⟩ := hqk
          have hat := define_at ha label (ins.fmt.bits / 8) (ins.fmt.bits / 8)
          rw [bits_bytes] at hat
          obtain ⟨a', hrun, hP⟩ := ih { a.define label ins.fmt.bytes with lc := (a.define label ins.fmt.bytes).lc.reserve ((ins.fmt.bytes : Nat) : Int) halfword } _ _ hat hr
          have hstep : a.step T (.mach label n) = .ok { a.define label ins.fmt.bytes with lc := (a.define label ins.fmt.bytes).lc.reserve ((ins.fmt.bytes : Nat) : Int) halfword } := by
            simp only [Asm.step, Asm.mach, hins, bits_bytes]
          refine ⟨a', by simp only [Asm.run, hstep, hrun], ?_⟩
          rcases define_labels a label ins.fmt.bytes x ha with ⟨hlab, hold⟩ | ⟨l, rfl, hnew, hlab⟩
          · refine ⟨by rw [endOf_cons]; exact hP.stop, fun lab hl => hP.keep lab (by simpa only [hlab] using hl), fun lab hl => ?_, fun l i hi => ?_,
              fun h => hP.once (by simpa only [hlab] using h)⟩
            · rcases hP.fresh lab hl with h | ⟨h1, i, q', k', h2, h3, h4⟩
              · exact .inl (by simpa only [hlab] using h)
              · simp only [hlab] at h1
                refine .inr ⟨h1, i + 1, q', k', ?_, h3, h4⟩
                rw [firstWith_other, h2]; · rfl
                intro m hm
                simp only [Stmt.mach.injEq] at hm
                obtain ⟨o, ho, he⟩ := hold _ hm.1
                exact h1 o ho he
            · by_cases hs : ∃ m, Stmt.mach label n = .mach (some l) m
              · obtain ⟨m, hm⟩ := hs
                simp only [Stmt.mach.injEq] at hm
                obtain ⟨o, ho, he⟩ := hold _ hm.1
                exact ⟨o, hP.keep o (by simpa only [hlab] using ho), he⟩
              · rw [firstWith_other (fun m hm => hs ⟨m, hm⟩)] at hi
                obtain ⟨j, hj, -⟩ := Option.map_eq_some_iff.1 hi
                exact hP.all l j hj
          · have hmine : (⟨l, ⟨[(owner, 1)], even x, []⟩, ins.fmt.bytes⟩ : Label) ∈ a'.labels := hP.keep _ (by simp only [hlab]; simp)
            refine ⟨by rw [endOf_cons]; exact hP.stop, fun lab hl => hP.keep lab (by simp only [hlab]; simp [hl]), fun lab hl => ?_, fun l' i hi => ?_, fun h => hP.once ?_⟩
            · rcases hP.fresh lab hl with h | ⟨h1, i, q', k', h2, h3, h4⟩
              · simp only [hlab, List.mem_append, List.mem_singleton] at h
                rcases h with h | rfl
                · exact .inl h
                · exact .inr ⟨hnew, 0, even x, ins.fmt.bytes, by simp [firstWith], rfl, rfl, rfl⟩
              · simp only [hlab, List.mem_append, List.mem_singleton] at h1
                refine .inr ⟨fun o ho => h1 o (.inl ho), i + 1, q', k', ?_, h3, h4⟩
                rw [firstWith_other, h2]; · rfl
                intro m hm
                simp only [Stmt.mach.injEq, Option.some.injEq] at hm
                exact h1 _ (.inr rfl) hm.1
            · by_cases hs : l = l'
              · subst hs; exact ⟨_, hmine, rfl⟩
              · rw [firstWith_other (fun m hm => hs (by simpa using (Stmt.mach.inj hm).1))] at hi
                obtain ⟨j, hj, -⟩ := Option.map_eq_some_iff.1 hi
                exact hP.all l' j hj
            · simp only [hlab, List.map_append, List.map_cons, List.map_nil]
              refine List.nodup_append.2 ⟨h, by simp, fun y hy z hz e => ?_⟩
              obtain ⟨o, ho, rfl⟩ := List.mem_map.1 hy
              simp only [List.mem_singleton] at hz
              exact hnew o ho (e.trans hz)

theorem plan_total : ∀ (prog : List Stmt) (x : Nat), (∀ l n, Stmt.mach l n ∈ prog → (tables.instr n).isSome ∨ (tables.mnem n).isSome) → ∃ p, plan tables x prog = some p := by
  intro prog
  induction prog with
  | nil => intro x _; exact ⟨[], rfl⟩
  | cons s r ih =>
    intro x h
    have hr := fun y => ih y fun l n hm => h l n (List.mem_cons_of_mem _ hm)
    simp only [plan]
    cases s with
    | bytes k => obtain ⟨p, hp⟩ := hr (x + k); exact ⟨(x, k) :: p, by simp [occupies, hp]⟩
    | mach l n =>
      have : ∃ ins, tables.resolve n = some ins := by
        unfold Tables.resolve
        cases hm : tables.mnem n with
        | some m => obtain ⟨-, ins, hi, -⟩ := mnem_fits hm; exact ⟨ins, hi⟩
        | none =>
          have := h l n List.mem_cons_self
          rw [hm] at this
          exact Option.isSome_iff_exists.1 (this.resolve_right (by simp))
      obtain ⟨ins, hi⟩ := this
      obtain ⟨p, hp⟩ := hr (even x + ins.fmt.bytes)
      exact ⟨(even x, ins.fmt.bytes) :: p, by simp [occupies, hi, hp]⟩

/-- C95. A program of machine instructions and bytes, from the start of a section: every opcode is found; each instruction
starts at the next halfword and has the size of its format; the label of the first statement that has it is the address of
that first byte, its length attribute the size; the section ends behind the last byte. -/
theorem C95_layout (prog : List Stmt) (h : ∀ l n, Stmt.mach l n ∈ prog → (tables.instr n).isSome ∨ (tables.mnem n).isSome) :
    ∃ p a, plan tables 0 prog = some p ∧ Asm.init.run tables prog = .ok a ∧ a.lc.data.storage = endOf 0 p ∧ (a.labels.map (·.name)).Nodup ∧
      (∀ l, (∃ lab ∈ a.labels, lab.name = l) ↔ ∃ i, firstWith l prog = some i) ∧
      ∀ lab ∈ a.labels, ∃ i q k, firstWith lab.name prog = some i ∧ p[i]? = some (q, k) ∧ lab.addr = ⟨[(owner, 1)], q, []⟩ ∧ lab.len = k := by
  obtain ⟨p, hp⟩ := plan_total prog 0 h
  obtain ⟨a, hr, hP⟩ := run_placed tables prog Asm.init 0 p ⟨rfl, rfl, rfl⟩ hp
  have hf : ∀ lab ∈ a.labels, ∃ i q k, firstWith lab.name prog = some i ∧ p[i]? = some (q, k) ∧ lab.addr = ⟨[(owner, 1)], q, []⟩ ∧ lab.len = k :=
    fun lab hl => (hP.fresh lab hl).elim (fun h => by cases h) (·.2)
  refine ⟨p, a, hp, hr, hP.stop.2.1, hP.once (by simp [Asm.init]), fun l => ⟨?_, fun ⟨i, hi⟩ => hP.all l i hi⟩, hf⟩
  rintro ⟨lab, hl, rfl⟩
  obtain ⟨i, _, _, h1, _⟩ := hf lab hl
  exact ⟨i, h1⟩

/-- C95. Consecutive machine instructions are laid out without gaps. -/
theorem C95_no_gaps (x : Nat) (prog : List Stmt) (h : ∀ s ∈ prog, ∃ l n, s = .mach l n) (p : List (Nat × Nat)) (hp : plan tables x prog = some p) :
    ∀ i q k q' k', p[i]? = some (q, k) → p[i + 1]? = some (q', k') → q' = q + k := by
  induction prog generalizing x p with
  | nil => cases hp; intro i _ _ _ _ hi; simp at hi
  | cons s r ih =>
    obtain ⟨l, n, rfl⟩ := h s List.mem_cons_self
    simp only [plan, occupies] at hp
    cases hi : tables.resolve n with
    | none => simp [hi] at hp
    | some ins =>
      simp only [hi, Option.map_some] at hp
      cases hr : plan tables (even x + ins.fmt.bytes) r with
      | none => simp [hr] at hp
      | some p' =>
        simp only [hr, Option.map_some, Option.some.injEq] at hp
        subst hp
        intro i q k q' k' h1 h2
        cases i with
        | zero =>
          simp only [List.getElem?_cons_zero, Option.some.injEq, Prod.mk.injEq] at h1
          obtain ⟨rfl, rfl⟩ := h1
          simp only [List.getElem?_cons_succ] at h2
          cases r with
          | nil => cases hr; simp at h2
          | cons s2 r2 =>
            obtain ⟨l2, n2, rfl⟩ := h s2 (by simp)
            simp only [plan, occupies] at hr
            cases hi2 : tables.resolve n2 with
            | none => simp [hi2] at hr
            | some ins2 =>
              simp only [hi2, Option.map_some] at hr
              cases hr2 : plan tables (even (even x + ins.fmt.bytes) + ins2.fmt.bytes) r2 with
              | none => simp [hr2] at hr
              | some p2 =>
                simp only [hr2, Option.map_some, Option.some.injEq] at hr
                subst hr
                simp only [List.getElem?_cons_zero, Option.some.injEq, Prod.mk.injEq] at h2
                have hb : ins.fmt.bytes % 2 = 0 := by cases ins.fmt <;> rfl
                rw [← h2.1]; unfold even; omega
        | succ i => exact ih _ (fun s hs => h s (List.mem_cons_of_mem _ hs)) p' hr i q k q' k' h1 h2

/-- C95. Mnemonic and base instruction take the same storage (the second half of C93). -/
theorem C93_storage (n : OpName) (m : Mnem) (h : tables.mnem n = some m) (a : Asm) (label : Option Nat) :
    a.mach tables label n = a.mach tables label m.base := by
  obtain ⟨-, ins, hi, -⟩ := mnem_fits h
  have h1 : tables.resolve n = some ins := by simp [Tables.resolve, h, hi]
  have h2 : tables.resolve m.base = some ins := by simp [Tables.resolve, disjoint hi, hi]
  simp only [Asm.mach, h1, h2]

/-- A program: `A LR 1,2`, one byte, `B BE X`, `A MVC X,Y`, `LR 3,4`. -/
def sample : List Stmt := [.mach (some 0) n!"LR", .bytes 1, .mach (some 1) n!"BE", .mach (some 0) n!"MVC", .mach none n!"LR"]

example : plan tables 0 sample = some [(0, 2), (2, 1), (4, 4), (8, 6), (14, 2)] ∧ firstWith 1 sample = some 2 ∧ firstWith 0 sample = some 0 ∧
    (Asm.init.run tables sample).toOption.map (fun a => (a.labels.map (fun l => (l.name, l.addr.off, l.len)), a.redefined, a.lc.data.storage)) =
      some ([(0, 0, 2), (1, 4, 4)], 1, 16) := by decide +kernel

end Verif.Mach
