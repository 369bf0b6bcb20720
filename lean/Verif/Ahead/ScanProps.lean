import Verif.Ahead.Props
/-!
C108: what a whole search registers, and where the attributes found by looking ahead are not those of the definition.
-/
namespace Verif.Ahead
open Verif.Ord
open Verif.Attr (ordAttr)

theorem register_keep {refs : Table} {n m : SymId} {s t : Sym} (h : refs n = some s) : register refs m t n = some s := by
  unfold register
  split
  · rename_i he; subst he; rw [h]; rfl
  · exact h

theorem register_other {refs : Table} {n m : SymId} {t : Sym} (h : n ≠ m) : register refs m t n = refs n := by
  unfold register; rw [if_neg h]

theorem register_new {refs : Table} {n : SymId} {t : Sym} (h : refs n = none) : register refs n t n = some t := by
  unfold register; rw [if_pos rfl, h]; rfl

theorem lookStep_ok {E : Env} {T : Table} {st st' : Table × List SymId} {l : SymId × Stmt} (h : lookStep E T st l = .ok st') :
    st'.2 = st.2.filter (· ≠ l.1) ∧ ((∃ s, look E T l.2 = .ok (some s) ∧ st'.1 = register st.1 l.1 s) ∨ look E T l.2 = .ok none ∧ st'.1 = st.1) := by
  unfold lookStep at h
  simp only [bind, Except.bind] at h
  split at h
  · cases h
  · rename_i v hv
    cases v with
    | none => cases h; exact ⟨rfl, .inr ⟨hv, rfl⟩⟩
    | some s => cases h; exact ⟨rfl, .inl ⟨s, hv, rfl⟩⟩

theorem lookStep_keep {E : Env} {T : Table} {st st' : Table × List SymId} {l : SymId × Stmt} (h : lookStep E T st l = .ok st') {n : SymId} {s : Sym}
    (hn : st.1 n = some s) : st'.1 n = some s := by
  rcases (lookStep_ok h).2 with ⟨t, _, ht⟩ | ⟨_, ht⟩
  · rw [ht]; exact register_keep hn
  · rw [ht]; exact hn

theorem lookStep_other {E : Env} {T : Table} {st st' : Table × List SymId} {l : SymId × Stmt} (h : lookStep E T st l = .ok st') {n : SymId}
    (hn : n ≠ l.1) : st'.1 n = st.1 n ∧ (n ∈ st.2 → n ∈ st'.2) := by
  obtain ⟨h1, h2⟩ := lookStep_ok h
  refine ⟨?_, fun hm => by rw [h1]; simp [hm, hn]⟩
  rcases h2 with ⟨t, _, ht⟩ | ⟨_, ht⟩
  · rw [ht]; exact register_other hn
  · rw [ht]

theorem scan_cons {E : Env} {T : Table} {st R : Table × List SymId} {l : SymId × Stmt} {ls : List (SymId × Stmt)} (h : scan E T st (l :: ls) = .ok R) :
    (st.2 = [] ∧ R = st) ∨ (st.2 ≠ [] ∧ ∃ st', lookStep E T st l = .ok st' ∧ scan E T st' ls = .ok R) := by
  unfold scan at h
  split at h
  · rename_i he; cases h; exact .inl ⟨he, rfl⟩
  · rename_i he
    simp only [bind, Except.bind] at h
    split at h
    · cases h
    · rename_i st' hst; exact .inr ⟨he, st', hst, h⟩

theorem scan_keep {E : Env} {T : Table} (ls : List (SymId × Stmt)) : ∀ {st R : Table × List SymId}, scan E T st ls = .ok R → ∀ {n : SymId} {s : Sym},
    st.1 n = some s → R.1 n = some s := by
  induction ls with
  | nil => intro st R h n s hn; cases h; exact hn
  | cons l ls ih =>
    intro st R h n s hn
    rcases scan_cons h with ⟨_, rfl⟩ | ⟨_, st', h1, h2⟩
    · exact hn
    · exact ih h2 (lookStep_keep h1 hn)

theorem finish_keep {l : List SymId} : ∀ {r : Table} {n : SymId} {s : Sym}, r n = some s →
    (l.foldl (fun r n => register r n (attrs .unknown 0xE4)) r) n = some s := by
  induction l with
  | nil => intro r n s h; exact h
  | cons m l ih => intro r n s h; exact ih (register_keep h)

theorem lookahead_ok {E : Env} {T refs R : Table} {ts : List SymId} {ls : List (SymId × Stmt)} (h : lookahead E T refs ts ls = .ok R) :
    ∃ st, scan E T (refs, ts) ls = .ok st ∧ R = finish st := by
  unfold lookahead at h
  simp only [bind, Except.bind] at h
  split at h
  · cases h
  · rename_i st hst; cases h; exact ⟨st, hst, rfl⟩

/-- C108: what an earlier search has found is not changed by a later one. -/
theorem C108_search_keeps {E : Env} {T refs R : Table} {ts : List SymId} {ls : List (SymId × Stmt)} (h : lookahead E T refs ts ls = .ok R)
    {n : SymId} {s : Sym} (hn : refs n = some s) : R n = some s := by
  obtain ⟨st, h1, rfl⟩ := lookahead_ok h
  exact finish_keep (scan_keep ls h1 hn)

theorem scan_first {E : Env} {T : Table} {n : SymId} {x : Stmt} {s : Sym} (hx : look E T x = .ok (some s)) (post : List (SymId × Stmt)) (pre : List (SymId × Stmt)) :
    ∀ {st R : Table × List SymId}, (∀ l ∈ pre, n ≠ l.1) → n ∈ st.2 → st.1 n = none → scan E T st (pre ++ (n, x) :: post) = .ok R → R.1 n = some s := by
  induction pre with
  | nil =>
    intro st R _ hm hr h
    rcases scan_cons h with ⟨he, _⟩ | ⟨_, st', h1, h2⟩
    · rw [he] at hm; cases hm
    · refine scan_keep post h2 ?_
      rcases (lookStep_ok h1).2 with ⟨t, ht, hst⟩ | ⟨ht, _⟩
      · rw [hx] at ht; cases ht; rw [hst]; exact register_new hr
      · rw [hx] at ht; cases ht
  | cons l pre ih =>
    intro st R hp hm hr h
    rcases scan_cons h with ⟨he, _⟩ | ⟨_, st', h1, h2⟩
    · rw [he] at hm; cases hm
    · obtain ⟨q1, q2⟩ := lookStep_other h1 (hp l (by simp))
      exact ih (fun l' hl' => hp l' (by simp [hl'])) (q2 hm) (by rw [q1]; exact hr) h2

/-- C108: a symbol that is looked for gets the attributes of the first statement it labels. -/
theorem C108_search {E : Env} {T refs R : Table} {ts : List SymId} {pre post : List (SymId × Stmt)} {n : SymId} {x : Stmt} {s : Sym}
    (h : lookahead E T refs ts (pre ++ (n, x) :: post) = .ok R) (hn : n ∈ ts) (hr : refs n = none) (hp : ∀ l ∈ pre, n ≠ l.1)
    (hx : look E T x = .ok (some s)) : R n = some s := by
  obtain ⟨st, h1, rfl⟩ := lookahead_ok h
  exact finish_keep (scan_first hx post pre hp hn hr h1)

theorem scan_missing {E : Env} {T : Table} {n : SymId} (ls : List (SymId × Stmt)) : ∀ {st R : Table × List SymId}, (∀ l ∈ ls, n ≠ l.1) → n ∈ st.2 →
    scan E T st ls = .ok R → R.1 n = st.1 n ∧ n ∈ R.2 := by
  induction ls with
  | nil => intro st R _ hm h; cases h; exact ⟨rfl, hm⟩
  | cons l ls ih =>
    intro st R hp hm h
    rcases scan_cons h with ⟨he, _⟩ | ⟨_, st', h1, h2⟩
    · rw [he] at hm; cases hm
    · obtain ⟨q1, q2⟩ := lookStep_other h1 (hp l (by simp))
      obtain ⟨i1, i2⟩ := ih (fun l' hl' => hp l' (by simp [hl'])) (q2 hm) h2
      exact ⟨i1.trans q1, i2⟩

theorem finish_missing {n : SymId} {l : List SymId} : ∀ {r : Table}, r n = none → n ∈ l →
    (l.foldl (fun r n => register r n (attrs .unknown 0xE4)) r) n = some (attrs .unknown 0xE4) := by
  induction l with
  | nil => intro r _ h; cases h
  | cons m l ih =>
    intro r hr hm
    by_cases he : n = m
    · subst he; exact finish_keep (r := register r n _) (register_new hr)
    · have : n ∈ l := by simpa [he] using hm
      exact ih (r := register r m _) (by rw [register_other he]; exact hr) this

/-- C108: a symbol that labels none of the statements ahead is unknown: its type is `U`, its length 1 with a warning, and it has neither
scale nor integer attribute. -/
theorem C108_search_missing {E : Env} {T refs R : Table} {ts : List SymId} {ls : List (SymId × Stmt)} {n : SymId}
    (h : lookahead E T refs ts ls = .ok R) (hn : n ∈ ts) (hr : refs n = none) (hp : ∀ l ∈ ls, n ≠ l.1)
    (A : Attr.Env) (name : Bytes) (hA : A.symbols name = none ∧ A.refs name = R n) :
    ordAttr A .T name = .val (.c [85]) [] ∧ ordAttr A .L name = .val (.a 1) [.W013] ∧
      ordAttr A .S name = .val (.a 0) [.E066] ∧ ordAttr A .I name = .val (.a 0) [.E066] := by
  obtain ⟨st, h1, rfl⟩ := lookahead_ok h
  obtain ⟨i1, i2⟩ := scan_missing ls hp hn h1
  have hf : finish st n = some (attrs .unknown 0xE4) := finish_missing (i1.trans hr) i2
  have : (A.symbols name).or (A.refs name) = some (attrs .unknown 0xE4) := by rw [hA.1, hA.2, hf]; rfl
  refine ⟨?_, ?_, ?_, ?_⟩ <;> rw [ordAttr_symbol this] <;> rfl

theorem scan_only {E : Env} {T : Table} {n : SymId} {s : Sym} (ls : List (SymId × Stmt)) : ∀ {st R : Table × List SymId}, scan E T st ls = .ok R →
    R.1 n = some s → st.1 n = some s ∨ ∃ x, (n, x) ∈ ls ∧ look E T x = .ok (some s) := by
  induction ls with
  | nil => intro st R h hn; cases h; exact .inl hn
  | cons l ls ih =>
    intro st R h hn
    rcases scan_cons h with ⟨_, rfl⟩ | ⟨_, st', h1, h2⟩
    · exact .inl hn
    · rcases ih h2 hn with h3 | ⟨x, hx, hl⟩
      · by_cases he : n = l.1
        · rcases (lookStep_ok h1).2 with ⟨t, ht, hst⟩ | ⟨_, hst⟩
          · cases hr : st.1 n with
            | none =>
              subst he
              rw [hst, register_new hr] at h3
              cases h3
              exact .inr ⟨l.2, by simp, ht⟩
            | some u =>
              have := lookStep_keep h1 hr
              rw [h3] at this; cases this
              exact .inl rfl
          · rw [hst] at h3; exact .inl h3
        · rw [(lookStep_other h1 he).1] at h3; exact .inl h3
      · exact .inr ⟨x, by simp [hx], hl⟩

theorem finish_only {n : SymId} {s : Sym} {l : List SymId} : ∀ {r : Table}, (l.foldl (fun r n => register r n (attrs .unknown 0xE4)) r) n = some s →
    r n = some s ∨ n ∈ l ∧ s = attrs .unknown 0xE4 := by
  induction l with
  | nil => intro r h; exact .inl h
  | cons m l ih =>
    intro r h
    rcases ih h with h1 | ⟨h1, h2⟩
    · dsimp only at h1
      by_cases he : n = m
      · subst he
        cases hr : r n with
        | none => rw [register_new hr] at h1; cases h1; exact .inr ⟨by simp, rfl⟩
        | some u => rw [register_keep hr] at h1; exact .inl h1
      · rw [register_other he] at h1; exact .inl h1
    · exact .inr ⟨by simp [h1], h2⟩

theorem scan_targets {E : Env} {T : Table} (ls : List (SymId × Stmt)) : ∀ {st R : Table × List SymId}, scan E T st ls = .ok R → ∀ n ∈ R.2, n ∈ st.2 := by
  induction ls with
  | nil => intro st R h n hn; cases h; exact hn
  | cons l ls ih =>
    intro st R h n hn
    rcases scan_cons h with ⟨_, rfl⟩ | ⟨_, st', h1, h2⟩
    · exact hn
    · have := ih h2 n hn
      rw [(lookStep_ok h1).1] at this
      exact (List.mem_filter.1 this).1

/-- C108: nothing is made up: what a search registers are the attributes of a statement ahead with that label, or the symbol was looked for
in vain. -/
theorem C108_search_only {E : Env} {T refs R : Table} {ts : List SymId} {ls : List (SymId × Stmt)} (h : lookahead E T refs ts ls = .ok R)
    {n : SymId} {s : Sym} (hn : R n = some s) :
    refs n = some s ∨ (∃ x, (n, x) ∈ ls ∧ look E T x = .ok (some s)) ∨ n ∈ ts ∧ s = attrs .unknown 0xE4 := by
  obtain ⟨st, h1, rfl⟩ := lookahead_ok h
  rcases finish_only hn with h2 | ⟨h2, h3⟩
  · rcases scan_only ls h1 h2 with h4 | h4
    · exact .inl h4
    · exact .inr (.inl h4)
  · exact .inr (.inr ⟨scan_targets ls h1 n h2, h3⟩)

/-! ### examples and witnesses -/

/-- No symbols. -/
def none' : Table := fun _ => none
/-- `B EQU 8` -/
def absB : Table := fun n => if n = 1 then some { attrs .equ 0xE4 (some 1) with val := .abs 8 } else none
/-- A relocatable symbol of length 8. -/
def relB : Table := fun n => if n = 1 then some { attrs .dat 0xC3 (some 8) with val := .reloc ⟨[(some 0, 1)], 0, []⟩ } else none

/-- What an attribute reference to a symbol gives. -/
def seen (s : Sym) (k : Attr.Kind) : Attr.Out Context.Val :=
  ordAttr ⟨fun _ => none, fun _ => some s, fun _ => false, fun _ => none, fun _ => false, fun _ => none, fun _ => none⟩ k []

/-- `DC FS4'1'` -/
def scaled : DataOp := ⟨'F', '\x00', none, false, some (.const 4), some (.str ['1'])⟩
/-- `DS CL(*-B)` -/
def distance : DataOp := ⟨'C', '\x00', some (.sub (.loc none) (.sym 1)), false, none, none⟩
/-- `DS CL(B)` -/
def sized : DataOp := ⟨'C', '\x00', some (.sym 1), false, none, none⟩

/-- What looking ahead gives, as an option. -/
def ahead (T : Table) (st : Stmt) (k : Attr.Kind) : Option (Attr.Out Context.Val) := match look .plain T st with
  | .ok (some s) => some (seen s k)
  | _ => none
/-- What the definition at location 8 of the section gives. -/
def later (T : Table) (st : Stmt) (k : Attr.Kind) : Option (Attr.Out Context.Val) := match define .plain T ⟨[(some 0, 1)], 8, []⟩ st with
  | .ok (some s) => some (seen s k)
  | _ => none

/-- `B EQU 8` and then `A EQU B*2,B,C'F'`: the statement and the definition agree on a length of 8 and the type `F`. -/
example : Settled absB (.equ [.expr (.mul (.sym 1) (.const 2)), .expr (.sym 1), .expr (.const 0xC6)]) := by
  refine ⟨?_, .inl ⟨.sym 1, 8, rfl, rfl, by decide, by decide⟩⟩
  rintro i (rfl | rfl) o h <;> cases h
  · exact .inr (.inr ⟨_, 8, rfl, rfl⟩)
  · exact .inr (.inr ⟨_, 0xC6, rfl, rfl⟩)
example : ∀ k ∈ [Attr.Kind.T, .L], ahead absB (.equ [.expr (.mul (.sym 1) (.const 2)), .expr (.sym 1), .expr (.const 0xC6)]) k =
    later absB (.equ [.expr (.mul (.sym 1) (.const 2)), .expr (.sym 1), .expr (.const 0xC6)]) k := by decide +kernel
example : ahead absB (.equ [.expr (.mul (.sym 1) (.const 2)), .expr (.sym 1), .expr (.const 0xC6)]) .L = some (.val (.a 8) []) := by decide +kernel
example : ahead absB (.equ [.expr (.mul (.sym 1) (.const 2)), .expr (.sym 1), .expr (.const 0xC6)]) .T = some (.val (.c [70]) []) := by decide +kernel
example : Settled absB (.data [some sized]) := by
  intro d r h
  cases h
  exact ⟨fun e h => by cases h; exact ⟨8, rfl⟩, fun e h => by cases h⟩
example : ahead absB (.data [some sized]) .L = some (.val (.a 8) []) ∧ later absB (.data [some sized]) .L = some (.val (.a 8) []) := by
  decide +kernel
example : ahead none' (.data [some scaled]) .S = some (.val (.a 4) []) ∧ later none' (.data [some scaled]) .S = some (.val (.a 4) []) := by
  decide +kernel
example : ahead relB (.equ [.expr (.add (.sym 1) (.const 4))]) .L = some (.val (.a 8) []) ∧
    later relB (.equ [.expr (.add (.sym 1) (.const 4))]) .L = some (.val (.a 8) []) := by decide +kernel

example : Begins (.sub (.par (.neg (.add (.sym 1) (.const 4)))) (.sym 2)) 1 := .sub _ _ _ (.par _ _ (.neg _ _ (.add _ _ _ (.sym 1))))
example : ∀ n, ¬ Begins (.add (.const 4) (.sym 1)) n := fun n h => by cases h with | add l r n h => cases h
/-- The value begins with a symbol that is still to be defined. -/
example : ∀ s, none' 1 = some s → s.val = .undef := fun s h => by cases h
example : ahead none' (.equ [.expr (.sym 1)]) .L = some (.val (.a 1) [.W013]) ∧ later none' (.equ [.expr (.sym 1)]) .L = some (.val (.a 1) []) := by
  decide +kernel
example : Located ⟨[(some 0, 1)], 8, []⟩ (.sub (.par (.loc none)) (.sym 1)) (.sub (.par (.loc (some ⟨[(some 0, 1)], 8, []⟩))) (.sym 1)) :=
  .sub _ _ _ _ (.par _ _ (.star none)) (.sym 1)
/-- `DC ZS2'1'` has a scale, `DC CL8'1'` has none. -/
example : ahead none' (.data [some ⟨'Z', '\x00', none, false, some (.const 2), some (.str ['1'])⟩]) .S = some (.val (.a 2) []) := by decide +kernel
example : ahead absB (.data [some sized]) .S = some (.val (.a 0) [.E066]) := by decide +kernel
example : ahead none' .sect .L = some (.val (.a 1) []) ∧ later none' (.machine (8 * 4)) .L = some (.val (.a 4) []) := by decide +kernel

/-- `A` is found at its second mention, `B` nowhere. -/
def someLines : List (SymId × Stmt) := [(5, .machine 32), (0, .data [some scaled]), (0, .machine 16)]
example : ((lookahead .plain none' none' [0, 1] someLines).toOption.getD none') 0 = some (attrs .dat 0xC6 (some 4) (some 4)) := by decide +kernel
example : ((lookahead .plain none' none' [0, 1] someLines).toOption.getD none') 1 = some (attrs .unknown 0xE4) := by decide +kernel
example : ((lookahead .plain none' none' [0, 1] someLines).toOption.getD none') 5 = some (attrs .mach 0xC9 (some 4)) := by decide +kernel

/-- C108 fails: the integer attribute of a scaled constant is not known when looking ahead, but -1 is given without a word. -/
theorem C108_witness_integer : ahead none' (.data [some scaled]) .I = some (.val (.a (-1)) []) ∧
    later none' (.data [some scaled]) .I = some (.val (.a 27) []) := by decide +kernel

/-- C108 fails: the label of `ORG` has type `M` when looked ahead for and `U` when it is defined. -/
theorem C108_witness_org : ahead none' .org .T = some (.val (.c [77]) []) ∧ later none' .org .T = some (.val (.c [85]) []) := by decide +kernel

/-- C108 fails: `A EQU 0,4,C'F'` cannot have a scale, but looking ahead only says that the scale is not known. -/
theorem C108_witness_equ_scale : ahead none' (.equ [.expr (.const 0), .expr (.const 4), .expr (.const 0xC6)]) .S = some (.val (.a 0) [.W013]) ∧
    later none' (.equ [.expr (.const 0), .expr (.const 4), .expr (.const 0xC6)]) .S = some (.val (.a 0) [.E066]) := by decide +kernel

/-- Why the operands have to be settled: in `A EQU 0,B` with `B EQU 8` in between, looking ahead takes the length to be 1, silently. -/
theorem C108_witness_length : Ext none' absB ∧ ahead none' (.equ [.expr (.const 0), .expr (.sym 1)]) .L = some (.val (.a 1) []) ∧
    later absB (.equ [.expr (.const 0), .expr (.sym 1)]) .L = some (.val (.a 8) []) :=
  ⟨fun n s h => (by cases h), by decide +kernel, by decide +kernel⟩

/-- Why the operands must not mention the location counter: `A DS CL(*-B)` has length 8 when it is defined; looking ahead gives it
length 0, silently. -/
theorem C108_witness_location : ahead relB (.data [some distance]) .L = some (.val (.a 0) []) ∧
    later relB (.data [some distance]) .L = some (.val (.a 8) []) := by decide +kernel

/-- A symbol whose definition has no operand is neither registered nor unknown afterwards. -/
theorem C108_witness_silent : ((lookahead .plain none' none' [0] [(0, .data [])]).toOption.getD none') 0 = none := by decide +kernel

end Verif.Ahead
