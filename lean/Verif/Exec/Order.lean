import Verif.Exec.Props
import Verif.MacroDef.Spec

/-!
C119: the statements on the whole program, and what goes wrong.
-/
namespace Verif.Exec

/-- The context of open code. -/
def top : Ctx := ⟨[], [], 0⟩

theorem run_finished {p : Prog} {k : Nat} {s : State} {es : List Event} (h : run p k s = (es, .finished)) (m : Nat) :
    run p (k + m) s = (es, .finished) := by
  induction k generalizing s es with
  | zero => simp [run] at h
  | succ k ih =>
    rw [show k + 1 + m = (k + m) + 1 by omega]
    rcases hs : step p s with ⟨e, st⟩
    simp only [run, hs] at h ⊢
    cases st with
    | running s' =>
      simp only [Prod.mk.injEq] at h ⊢
      have := ih (s := s') (es := (run p k s').1) (by rw [← h.2])
      rw [this]
      exact ⟨h.1, rfl⟩
    | undefined => simp at h
    | finished => simpa using h

theorem run_sub {p : Prog} {k m : Nat} {s : State} {e : Event} (h : e ∈ (run p k s).1) : e ∈ (run p (k + m) s).1 := by
  induction k generalizing s with
  | zero => simp [run] at h
  | succ k ih =>
    rw [show k + 1 + m = (k + m) + 1 by omega]
    rcases hs : step p s with ⟨e', st⟩
    simp only [run, hs] at h ⊢
    cases st with
    | running s' =>
      simp only [List.mem_append] at h ⊢
      rcases h with h | h
      · exact Or.inl h
      · exact Or.inr (ih h)
    | undefined => exact h
    | finished => exact h

theorem run_whole {p : Prog} (hp : p.NoCopyInMacros) (text : List Stmt) :
    ∃ k es, run p k (start p text) = (es, .finished) ∧ Shows es (seen p top (opened p.file text)).1 := by
  obtain ⟨k, es, s', hr, hs, hre⟩ := run_seen hp top (opened p.file text) (start p text) (At.opened text ⟨p.file, 0⟩) (fun h => absurd rfl h)
  have : step p s' = ([], .finished) := by
    cases hE : (seen p top (opened p.file text)).2 with
    | through =>
      rw [hE] at hre
      obtain ⟨h1, h2⟩ := hre
      generalize hi : ([] : List Item) = is at h1
      generalize hc : top = c at h1
      cases h1 with
      | opened rest here =>
        cases rest with
        | nil => rfl
        | cons t ts => simp [opened] at hi
      | copied rest here cs n f ts k fs hk hf => simp [top] at hc
      | called rest here cs ms body k fs gs hk hf hg => simp [top] at hc
    | left => rw [hE] at hre; exact absurd rfl hre.1
    | givenUp => rw [hE] at hre; exact absurd rfl hre.1
  refine ⟨k + 1, es ++ [], ?_, by simpa using hs⟩
  exact run_append hr (by simp [run, this])

/-- C119. Every program whose macros execute no `COPY` comes to its end, and what is processed, with which stack and what is said about it is what
the text says: macros and members in place of the statement that calls or copies them, recursion of members not followed, and nesting of macros given
up at the limit. Missing for the full claim: `COPY` statements that macros execute, see `C119_witness_copy`. -/
theorem C119_order_partial {p : Prog} (hp : p.NoCopyInMacros) (text : List Stmt) :
    ∃ k es, (∀ m, run p (k + m) (start p text) = (es, .finished)) ∧
      es.map Event.view = (seen p top (opened p.file text)).1.map some := by
  obtain ⟨k, es, h, hs⟩ := run_whole hp text
  exact ⟨k, es, run_finished h, hs.1⟩

/-- C119. Whatever is said during the run is shown at the statement it is about, and with the statements that led to it, from the inside out. Missing
for the full claim: the diagnostic of the nest limit, see `C119_witness_limit`. -/
theorem C119_related_partial {p : Prog} (hp : p.NoCopyInMacros) (text : List Stmt) (k : Nat) (e : Event)
    (he : e ∈ (run p k (start p text)).1) :
    ∃ z, e.view = some z ∧ ∀ c d, e.said = some (c, d) → c ≠ .E055 → d = some (wanted z c) := by
  obtain ⟨k', es, h, hs⟩ := run_whole hp text
  have hm : e ∈ es := by
    have := run_sub (m := k') he
    rw [Nat.add_comm, run_finished h] at this
    exact this
  have hv : e.view ∈ (seen p top (opened p.file text)).1.map some := by
    rw [← hs.1]
    exact List.mem_map_of_mem hm
  simp only [List.mem_map] at hv
  obtain ⟨z, -, hz⟩ := hv
  exact ⟨z, hz.symm, fun c d h1 h2 => hs.2 e hm z c d hz.symm h1 h2⟩

/-! ## Stacks -/

/-- What leads to statements is part of the stack of each of them. -/
theorem seen_path (p : Prog) (c : Ctx) (is : List Item) : ∀ z ∈ (seen p c is).1, c.path <+: z.stack := by
  induction c, is using seen.induct p with
  | case1 c => simp [seen_nil]
  | case2 c i is hd code he ih =>
    rw [seen_says hd he]
    intro z hz
    rcases List.mem_cons.1 hz with rfl | hz
    · exact List.prefix_append _ _
    · exact ih z hz
  | case3 c i is hd he =>
    rw [seen_leaves hd he]
    intro z hz
    rcases List.mem_singleton.1 hz with rfl
    exact List.prefix_append _ _
  | case4 c i is hd n m he inner hin ih1 ih2 =>
    have hin' : (seen p ⟨c.path ++ i.frames, c.names ++ [n], c.depth⟩ (copied m)).2 = .through := hin
    rw [seen_copies hd he, hin']
    intro z hz
    simp only [List.cons_append, List.mem_cons, List.mem_append] at hz
    rcases hz with rfl | hz | hz
    · exact List.prefix_append _ _
    · exact (List.prefix_append _ _).trans (ih1 z hz)
    · exact ih2 z hz
  | case5 c i is hd n m he inner hin ih1 =>
    have hin' : ¬ (seen p ⟨c.path ++ i.frames, c.names ++ [n], c.depth⟩ (copied m)).2 = .through := hin
    rw [seen_copies hd he]
    intro z hz
    have hz : z ∈ (⟨i.stmt, c.path ++ i.frames, none⟩ :: (seen p ⟨c.path ++ i.frames, c.names ++ [n], c.depth⟩ (copied m)).1 : List Seen) := by
      split at hz
      · contradiction
      · exact hz
    rcases List.mem_cons.1 hz with rfl | hz
    · exact List.prefix_append _ _
    · exact (List.prefix_append _ _).trans (ih1 z hz)
  | case6 c i is hd b he inner hin ih1 =>
    have hin' : (seen p ⟨c.path ++ i.frames, c.names, c.depth + 1⟩ (called b)).2 = .givenUp ∧ c.depth ≠ 0 := hin
    rw [seen_calls hd he, if_pos hin']
    intro z hz
    rcases List.mem_cons.1 hz with rfl | hz
    · exact List.prefix_append _ _
    · exact (List.prefix_append _ _).trans (ih1 z hz)
  | case7 c i is hd b he inner hin ih1 ih2 =>
    have hin' : ¬ ((seen p ⟨c.path ++ i.frames, c.names, c.depth + 1⟩ (called b)).2 = .givenUp ∧ c.depth ≠ 0) := hin
    rw [seen_calls hd he, if_neg hin']
    intro z hz
    simp only [List.cons_append, List.mem_cons, List.mem_append] at hz
    rcases hz with rfl | hz | hz
    · exact List.prefix_append _ _
    · exact (List.prefix_append _ _).trans (ih1 z hz)
    · exact ih2 z hz
  | case8 c i is hd =>
    rw [seen_deep hd]
    intro z hz
    rcases List.mem_singleton.1 hz with rfl
    exact List.prefix_append _ _

/-- The number of macros in a stack. -/
def macros (st : List Frame) : Nat := st.countP (·.kind == .macro)

theorem macros_nest (l : List Loc) : macros (nestFrames l) ≤ 1 := by
  cases l with
  | nil => simp [macros, nestFrames]
  | cons a l =>
    simp only [macros, nestFrames, List.countP_cons]
    rw [List.countP_eq_zero.2]
    · simp
    · simp

theorem seen_macros (p : Prog) (c : Ctx) (is : List Item) :
    (∀ i ∈ is, macros (c.path ++ i.frames) ≤ c.depth) → c.depth ≤ nestLimit → ∀ z ∈ (seen p c is).1, macros z.stack ≤ nestLimit := by
  have inCopy : ∀ (x : List Frame) (m : Member), ∀ i ∈ copied m, macros (x ++ i.frames) = macros x := by
    intro x m i hi
    simp only [copied, List.mem_map] at hi
    obtain ⟨t, -, rfl⟩ := hi
    simp [macros]
  have inMacro : ∀ (x : List Frame) (b : List Placed), ∀ i ∈ called b, macros (x ++ i.frames) ≤ macros x + 1 := by
    intro x b i hi
    simp only [called_eq, List.mem_map] at hi
    obtain ⟨t, -, rfl⟩ := hi
    have := macros_nest t.nest
    simp only [macros, List.countP_append] at this ⊢
    omega
  induction c, is using seen.induct p with
  | case1 c => simp [seen_nil]
  | case2 c i is hd code he ih =>
    intro h1 h2
    rw [seen_says hd he]
    intro z hz
    rcases List.mem_cons.1 hz with rfl | hz
    · exact Nat.le_trans (h1 i (List.mem_cons_self ..)) h2
    · exact ih (fun j hj => h1 j (List.mem_cons_of_mem _ hj)) h2 z hz
  | case3 c i is hd he =>
    intro h1 h2
    rw [seen_leaves hd he]
    intro z hz
    rcases List.mem_singleton.1 hz with rfl
    exact Nat.le_trans (h1 i (List.mem_cons_self ..)) h2
  | case4 c i is hd n m he inner hin ih1 ih2 =>
    intro h1 h2
    have hin' : (seen p ⟨c.path ++ i.frames, c.names ++ [n], c.depth⟩ (copied m)).2 = .through := hin
    rw [seen_copies hd he, hin']
    intro z hz
    simp only [List.cons_append, List.mem_cons, List.mem_append] at hz
    rcases hz with rfl | hz | hz
    · exact Nat.le_trans (h1 i (List.mem_cons_self ..)) h2
    · exact ih1 (fun j hj => by rw [inCopy _ m j hj]; exact h1 i (List.mem_cons_self ..)) h2 z hz
    · exact ih2 (fun j hj => h1 j (List.mem_cons_of_mem _ hj)) h2 z hz
  | case5 c i is hd n m he inner hin ih1 =>
    intro h1 h2
    have hin' : ¬ (seen p ⟨c.path ++ i.frames, c.names ++ [n], c.depth⟩ (copied m)).2 = .through := hin
    rw [seen_copies hd he]
    intro z hz
    have hz : z ∈ (⟨i.stmt, c.path ++ i.frames, none⟩ :: (seen p ⟨c.path ++ i.frames, c.names ++ [n], c.depth⟩ (copied m)).1 : List Seen) := by
      split at hz
      · contradiction
      · exact hz
    rcases List.mem_cons.1 hz with rfl | hz
    · exact Nat.le_trans (h1 i (List.mem_cons_self ..)) h2
    · exact ih1 (fun j hj => by rw [inCopy _ m j hj]; exact h1 i (List.mem_cons_self ..)) h2 z hz
  | case6 c i is hd b he inner hin ih1 =>
    intro h1 h2
    have hin' : (seen p ⟨c.path ++ i.frames, c.names, c.depth + 1⟩ (called b)).2 = .givenUp ∧ c.depth ≠ 0 := hin
    rw [seen_calls hd he, if_pos hin']
    intro z hz
    rcases List.mem_cons.1 hz with rfl | hz
    · exact Nat.le_trans (h1 i (List.mem_cons_self ..)) h2
    · exact ih1 (fun j hj => Nat.le_trans (inMacro _ b j hj) (Nat.add_le_add_right (h1 i (List.mem_cons_self ..)) 1)) hd z hz
  | case7 c i is hd b he inner hin ih1 ih2 =>
    intro h1 h2
    have hin' : ¬ ((seen p ⟨c.path ++ i.frames, c.names, c.depth + 1⟩ (called b)).2 = .givenUp ∧ c.depth ≠ 0) := hin
    rw [seen_calls hd he, if_neg hin']
    intro z hz
    simp only [List.cons_append, List.mem_cons, List.mem_append] at hz
    rcases hz with rfl | hz | hz
    · exact Nat.le_trans (h1 i (List.mem_cons_self ..)) h2
    · exact ih1 (fun j hj => Nat.le_trans (inMacro _ b j hj) (Nat.add_le_add_right (h1 i (List.mem_cons_self ..)) 1)) hd z hz
    · exact ih2 (fun j hj => h1 j (List.mem_cons_of_mem _ hj)) h2 z hz
  | case8 c i is hd =>
    intro h1 h2
    rw [seen_deep hd]
    intro z hz
    rcases List.mem_singleton.1 hz with rfl
    exact Nat.le_trans (h1 i (List.mem_cons_self ..)) h2

/-- C119. No statement is ever processed inside more than a hundred macros. -/
theorem C119_limit {p : Prog} (hp : p.NoCopyInMacros) (text : List Stmt) (k : Nat) (e : Event) (he : e ∈ (run p k (start p text)).1) :
    ∃ st, e.stack = some st ∧ (st.countP (·.kind == .macro)) ≤ 100 := by
  obtain ⟨k', es, h, hs⟩ := run_whole hp text
  have hm : e ∈ es := by
    have := run_sub (m := k') he
    rw [Nat.add_comm, run_finished h] at this
    exact this
  have hv : e.view ∈ (seen p top (opened p.file text)).1.map some := by
    rw [← hs.1]
    exact List.mem_map_of_mem hm
  simp only [List.mem_map] at hv
  obtain ⟨z, hz, hzv⟩ := hv
  have := seen_macros p top (opened p.file text) (by
    intro i hi
    simp only [opened, List.mem_map] at hi
    obtain ⟨t, -, rfl⟩ := hi
    simp [top, macros]) (by simp [top]) z hz
  simp only [Event.view] at hzv
  cases hst : e.stack with
  | none => rw [hst] at hzv; simp at hzv
  | some st =>
    rw [hst] at hzv
    simp only [Option.map_some, Option.some.injEq] at hzv
    subst hzv
    exact ⟨st, rfl, this⟩

/-! ## One statement of open code -/

theorem effect_leaves {p : Prog} {c : Ctx} {op : Op} (h : effect p c op = .leaves) : c.depth ≠ 0 := by
  intro hc
  cases op with
  | mexit => simp [effect, hc] at h
  | mend => simp [effect, hc] at h
  | other x => simp [effect] at h
  | call m => simp only [effect] at h; split at h <;> simp at h
  | copy n =>
    cases n with
    | none => simp [effect] at h
    | some n =>
      simp only [effect] at h
      split at h
      · simp at h
      · split at h <;> simp at h

theorem seen_zero (p : Prog) (c : Ctx) (is : List Item) : c.depth = 0 → (seen p c is).2 = .through := by
  induction c, is using seen.induct p with
  | case1 c => simp [seen_nil]
  | case2 c i is hd code he ih => intro h; rw [seen_says hd he]; exact ih h
  | case3 c i is hd he => intro h; exact absurd h (effect_leaves he)
  | case4 c i is hd n m he inner hin ih1 ih2 =>
    intro h
    have hin' : (seen p ⟨c.path ++ i.frames, c.names ++ [n], c.depth⟩ (copied m)).2 = .through := hin
    rw [seen_copies hd he, hin']
    exact ih2 h
  | case5 c i is hd n m he inner hin ih1 => intro h; exact absurd (ih1 h) hin
  | case6 c i is hd b he inner hin ih1 => intro h; exact absurd h hin.2
  | case7 c i is hd b he inner hin ih1 ih2 =>
    intro h
    have hin' : ¬ ((seen p ⟨c.path ++ i.frames, c.names, c.depth + 1⟩ (called b)).2 = .givenUp ∧ c.depth ≠ 0) := hin
    rw [seen_calls hd he, if_neg hin']
    exact ih2 h
  | case8 c i is hd => intro h; rw [h] at hd; exact absurd (by decide) hd

/-- At the level of open code the statements follow one another, each with what it lets in. -/
theorem seen_cons (p : Prog) (c : Ctx) (hc : c.depth = 0) (i : Item) :
    ∃ code inner, (∀ z ∈ inner, (c.path ++ i.frames) <+: z.stack) ∧
      ∀ is, (seen p c (i :: is)).1 = ⟨i.stmt, c.path ++ i.frames, code⟩ :: inner ++ (seen p c is).1 := by
  have hd : c.depth < nestLimit := by rw [hc]; decide
  cases he : effect p c i.stmt.op with
  | says code => exact ⟨code, [], by simp, fun is => by rw [seen_says hd he]; simp⟩
  | leaves => exact absurd hc (effect_leaves he)
  | copies n m =>
    refine ⟨none, (seen p ⟨c.path ++ i.frames, c.names ++ [n], c.depth⟩ (copied m)).1, seen_path p _ _, fun is => ?_⟩
    rw [seen_copies hd he, seen_zero p ⟨c.path ++ i.frames, c.names ++ [n], c.depth⟩ (copied m) hc]
  | calls b =>
    refine ⟨none, (seen p ⟨c.path ++ i.frames, c.names, c.depth + 1⟩ (called b)).1, seen_path p _ _, fun is => ?_⟩
    rw [seen_calls hd he, if_neg (by rintro ⟨-, h⟩; exact h hc)]

theorem seen_append (p : Prog) (c : Ctx) (hc : c.depth = 0) (a b : List Item) : (seen p c (a ++ b)).1 = (seen p c a).1 ++ (seen p c b).1 := by
  induction a with
  | nil => simp [seen_nil]
  | cons i a ih =>
    obtain ⟨code, inner, -, h⟩ := seen_cons p c hc i
    rw [List.cons_append, h, h, ih]
    simp

theorem map_split {α β : Type} (f : α → β) (l : List α) (a b : List β) (h : l.map f = a ++ b) :
    ∃ x y, l = x ++ y ∧ x.map f = a ∧ y.map f = b := by
  refine ⟨l.take a.length, l.drop a.length, (List.take_append_drop _ _).symm, ?_, ?_⟩
  · rw [List.map_take, h]; simp
  · rw [List.map_drop, h]; simp

/-- C119. The statements of open code are processed one after another: what is processed between a statement and the one behind it has been reached by
way of it, that is, it has this statement at the bottom of its stack. What is in front of a statement does not depend on what follows it. -/
theorem C119_turn {p : Prog} (hp : p.NoCopyInMacros) (before behind : List Stmt) (t : Stmt) :
    ∃ k es1 e inner es2, (∀ m, run p (k + m) (start p (before ++ t :: behind)) = (es1 ++ e :: inner ++ es2, .finished)) ∧
      e.stmt = t ∧ e.stack = some [⟨.opencode, ⟨p.file, t.line⟩⟩] ∧
      (∀ x ∈ inner, ∃ st, x.stack = some (⟨.opencode, ⟨p.file, t.line⟩⟩ :: st)) ∧
      es1.map Event.view = (seen p top (opened p.file before)).1.map some ∧
      es2.map Event.view = (seen p top (opened p.file behind)).1.map some := by
  obtain ⟨k, es, h, hs, -⟩ := run_whole hp (before ++ t :: behind)
  obtain ⟨code, inner, hi, hcons⟩ := seen_cons p top rfl ⟨t, [⟨.opencode, ⟨p.file, t.line⟩⟩]⟩
  have hsp : (seen p top (opened p.file (before ++ t :: behind))).1 =
      (seen p top (opened p.file before)).1 ++ (⟨t, [⟨.opencode, ⟨p.file, t.line⟩⟩], code⟩ :: inner ++ (seen p top (opened p.file behind)).1) := by
    have h1 : opened p.file (before ++ t :: behind) =
        opened p.file before ++ (⟨t, [⟨.opencode, ⟨p.file, t.line⟩⟩]⟩ :: opened p.file behind) := by simp [opened]
    rw [h1, seen_append p top rfl, hcons]
    rfl
  rw [hsp, List.map_append] at hs
  obtain ⟨es1, r, rfl, h1, h2⟩ := map_split _ _ _ _ hs
  rw [List.map_append] at h2
  obtain ⟨y, es2, rfl, h3, h4⟩ := map_split _ _ _ _ h2
  cases y with
  | nil => simp at h3
  | cons e y =>
    simp only [List.map_cons, List.cons.injEq] at h3
    refine ⟨k, es1, e, y, es2, fun m => ?_, ?_, ?_, ?_, h1, h4⟩
    · rw [run_finished h]; simp
    · have := h3.1
      simp only [Event.view, Option.map_eq_some_iff] at this
      obtain ⟨st, -, hst⟩ := this
      injection hst
    · have := h3.1
      simp only [Event.view, Option.map_eq_some_iff] at this
      obtain ⟨st, hst1, hst⟩ := this
      injection hst with _ h5
      rw [hst1, h5]
    · intro x hx
      have : x.view ∈ inner.map some := by rw [← h3.2]; exact List.mem_map_of_mem hx
      simp only [List.mem_map] at this
      obtain ⟨z, hz, hzv⟩ := this
      obtain ⟨st, hst⟩ := hi z hz
      simp only [Event.view] at hzv
      cases hxs : x.stack with
      | none => rw [hxs] at hzv; simp at hzv
      | some w =>
        rw [hxs] at hzv
        simp only [Option.map_some, Option.some.injEq] at hzv
        refine ⟨st, ?_⟩
        subst hzv
        exact congrArg some hst.symm

/-! ## Macros as they are defined -/

/-- The operation of a statement of a definition (C98), with what its text stands for when it is executed. -/
def readOp (dec : Nat → Op) : MacroDef.Op → Op
  | .mbegin | .anop => .other none
  | .mend => .mend
  | .copy n => .copy n
  | .other t => dec t

/-- The statements of a definition (C98) as they are executed. -/
def ofDefinition (dec : Nat → Op) (ps : List MacroDef.Placed) : List Placed :=
  ps.map fun q => ⟨⟨q.stmt.line, readOp dec q.stmt.executed.op⟩, q.path.map fun l => ⟨l.file, l.line⟩⟩

theorem expand_last (lib : MacroDef.Lib) (d : Nat) : ∀ (names : List Name) (path : List MacroDef.Loc) (file : File) (ts : List MacroDef.Stmt),
    ∀ q ∈ MacroDef.expand lib d names path file ts, ∃ l, q.path.getLast? = some l ∧ l.line = q.stmt.line := by
  induction d with
  | zero => intro _ _ _ _ q hq; simp [MacroDef.expand] at hq
  | succ d ih =>
    intro names path file ts q hq
    simp only [MacroDef.expand, List.mem_flatMap] at hq
    obtain ⟨t, -, hq⟩ := hq
    have one : ∀ r : Option MacroDef.Diag, q = ⟨t, path ++ [⟨file, t.line⟩], r⟩ → ∃ l, q.path.getLast? = some l ∧ l.line = q.stmt.line := by
      rintro r rfl
      exact ⟨⟨file, t.line⟩, by simp, rfl⟩
    split at hq
    · exact one _ (List.mem_singleton.1 hq)
    · split at hq
      · exact one _ (List.mem_singleton.1 hq)
      · split at hq
        · exact one _ (List.mem_singleton.1 hq)
        · rcases List.mem_cons.1 hq with h | h
          · exact one _ h
          · exact ih _ _ _ _ q h
    · exact one _ (List.mem_singleton.1 hq)

/-- C119. The macros that are defined as in C98 execute no `COPY` as long as no text of theirs becomes one, and the last place of each statement is the
line of the statement. -/
theorem C119_defined (dec : Nat → Op) (hdec : ∀ t n, dec t ≠ .copy n) (lib : MacroDef.Lib) (file : File) (above : List Name)
    (ts : List MacroDef.Stmt) :
    ∀ b ∈ ofDefinition dec (MacroDef.bodyOf lib file above ts), (∀ n, b.stmt.op ≠ .copy n) ∧ (b.nest.getLast?.map (·.line)) = some b.stmt.line := by
  intro b hb
  simp only [ofDefinition, List.mem_map] at hb
  obtain ⟨q, hq, rfl⟩ := hb
  refine ⟨?_, ?_⟩
  · intro n
    simp only [MacroDef.Stmt.executed]
    split
    · simp [readOp]
    · rename_i hne
      cases hop : q.stmt.op with
      | copy m => exact absurd hop (by simpa using hne m)
      | mbegin => simp [readOp]
      | mend => simp [readOp]
      | anop => simp [readOp]
      | other t => simpa [readOp] using hdec t n
  · obtain ⟨l, hl, hl2⟩ := expand_last lib _ _ _ _ _ q hq
    simp only [List.getLast?_map, hl, Option.map_some, hl2]

/-! ## Witnesses and examples -/

/-- A member that copies itself, a macro that calls another one, and a macro that calls itself. -/
def exProg : Prog where
  file := 0
  members := [(5, ⟨50, [⟨0, .call 1⟩, ⟨1, .copy (some 5)⟩, ⟨2, .copy (some 9)⟩]⟩)]
  macros := [(1, [⟨⟨11, .call 2⟩, [⟨10, 11⟩]⟩, ⟨⟨12, .mend⟩, [⟨10, 12⟩]⟩]),
    (2, [⟨⟨3, .other (some 7)⟩, [⟨10, 21⟩, ⟨60, 3⟩]⟩, ⟨⟨22, .mexit⟩, [⟨10, 22⟩]⟩, ⟨⟨23, .other none⟩, [⟨10, 23⟩]⟩])]

/-- The open code. -/
def exText : List Stmt := [⟨0, .other none⟩, ⟨1, .copy (some 5)⟩, ⟨2, .call 7⟩, ⟨3, .mexit⟩]

example : exProg.NoCopyInMacros := by
  simp [Prog.NoCopyInMacros, exProg]

example : ((run exProg 20 (start exProg exText)).1.map fun e => (e.stmt.line, e.stack.map (·.map (·.loc)), e.said.map (·.1))) =
    [(0, some [⟨0, 0⟩], none), (1, some [⟨0, 1⟩], none), (0, some [⟨0, 1⟩, ⟨50, 0⟩], none), (11, some [⟨0, 1⟩, ⟨50, 0⟩, ⟨10, 11⟩], none),
     (3, some [⟨0, 1⟩, ⟨50, 0⟩, ⟨10, 11⟩, ⟨10, 21⟩, ⟨60, 3⟩], some (.own 7)), (22, some [⟨0, 1⟩, ⟨50, 0⟩, ⟨10, 11⟩, ⟨10, 22⟩], none),
     (12, some [⟨0, 1⟩, ⟨50, 0⟩, ⟨10, 12⟩], none), (1, some [⟨0, 1⟩, ⟨50, 1⟩], some .E062), (2, some [⟨0, 1⟩, ⟨50, 2⟩], some .E058),
     (2, some [⟨0, 2⟩], some .E049), (3, some [⟨0, 3⟩], some .E054)] := by decide +kernel

example : ⟨⟨3, .other (some 7)⟩, some [⟨.opencode, ⟨0, 1⟩⟩, ⟨.copied, ⟨50, 0⟩⟩, ⟨.macro, ⟨10, 11⟩⟩, ⟨.macro, ⟨10, 21⟩⟩, ⟨.copied, ⟨60, 3⟩⟩],
    some (.own 7, some ⟨.own 7, 60, 3, [⟨10, 21⟩, ⟨10, 11⟩, ⟨50, 0⟩, ⟨0, 1⟩]⟩)⟩ ∈ (run exProg 20 (start exProg exText)).1 := by decide +kernel

/-- A macro whose second statement becomes a `COPY` when it is executed, and the member. -/
def copyProg : Prog where
  file := 0
  members := [(5, ⟨50, [⟨0, .other none⟩]⟩)]
  macros := [(1, [⟨⟨11, .copy (some 5)⟩, [⟨10, 11⟩]⟩, ⟨⟨12, .other (some 7)⟩, [⟨10, 12⟩]⟩])]

/-- C119 does not hold for macros that execute a `COPY` statement: the statement behind it is processed before the statements of the member; while it is,
the stack cannot be read, for the member has been entered and has no current statement; and the statement of the member, when its turn has come, is not
shown as part of the macro. -/
theorem C119_witness_copy :
    (run copyProg 20 (start copyProg [⟨0, .call 1⟩])) =
      ([⟨⟨0, .call 1⟩, some [⟨.opencode, ⟨0, 0⟩⟩], none⟩,
        ⟨⟨11, .copy (some 5)⟩, some [⟨.opencode, ⟨0, 0⟩⟩, ⟨.macro, ⟨10, 11⟩⟩], none⟩,
        ⟨⟨12, .other (some 7)⟩, none, some (.own 7, none)⟩,
        ⟨⟨0, .other none⟩, some [⟨.opencode, ⟨0, 0⟩⟩, ⟨.copied, ⟨50, 0⟩⟩], none⟩], .finished) ∧
    (seen copyProg top (opened 0 [⟨0, .call 1⟩])).1 =
      [⟨⟨0, .call 1⟩, [⟨.opencode, ⟨0, 0⟩⟩], none⟩,
       ⟨⟨11, .copy (some 5)⟩, [⟨.opencode, ⟨0, 0⟩⟩, ⟨.macro, ⟨10, 11⟩⟩], none⟩,
       ⟨⟨0, .other none⟩, [⟨.opencode, ⟨0, 0⟩⟩, ⟨.macro, ⟨10, 11⟩⟩, ⟨.copied, ⟨50, 0⟩⟩], none⟩,
       ⟨⟨12, .other (some 7)⟩, [⟨.opencode, ⟨0, 0⟩⟩, ⟨.macro, ⟨10, 12⟩⟩], some (.own 7)⟩] := by
  refine ⟨by decide +kernel, ?_⟩
  have h1 : seen copyProg ⟨[⟨.opencode, ⟨0, 0⟩⟩, ⟨.macro, ⟨10, 11⟩⟩], [5], 1⟩ (copied ⟨50, [⟨0, .other none⟩]⟩) =
      ([⟨⟨0, .other none⟩, [⟨.opencode, ⟨0, 0⟩⟩, ⟨.macro, ⟨10, 11⟩⟩, ⟨.copied, ⟨50, 0⟩⟩], none⟩], .through) := by
    show seen copyProg _ [_] = _
    rw [seen_says (by decide) (code := none) rfl, seen_nil]
    rfl
  have h2 : seen copyProg ⟨[⟨.opencode, ⟨0, 0⟩⟩], [], 1⟩ [⟨⟨12, .other (some 7)⟩, [⟨.macro, ⟨10, 12⟩⟩]⟩] =
      ([⟨⟨12, .other (some 7)⟩, [⟨.opencode, ⟨0, 0⟩⟩, ⟨.macro, ⟨10, 12⟩⟩], some (.own 7)⟩], .through) := by
    rw [seen_says (by decide) (code := some (.own 7)) rfl, seen_nil]
    rfl
  have h3 : seen copyProg ⟨[⟨.opencode, ⟨0, 0⟩⟩], [], 1⟩
      [⟨⟨11, .copy (some 5)⟩, [⟨.macro, ⟨10, 11⟩⟩]⟩, ⟨⟨12, .other (some 7)⟩, [⟨.macro, ⟨10, 12⟩⟩]⟩] =
      ([⟨⟨11, .copy (some 5)⟩, [⟨.opencode, ⟨0, 0⟩⟩, ⟨.macro, ⟨10, 11⟩⟩], none⟩,
        ⟨⟨0, .other none⟩, [⟨.opencode, ⟨0, 0⟩⟩, ⟨.macro, ⟨10, 11⟩⟩, ⟨.copied, ⟨50, 0⟩⟩], none⟩,
        ⟨⟨12, .other (some 7)⟩, [⟨.opencode, ⟨0, 0⟩⟩, ⟨.macro, ⟨10, 12⟩⟩], some (.own 7)⟩], .through) := by
    rw [seen_copies (by decide) (n := 5) (m := ⟨50, [⟨0, .other none⟩]⟩) rfl, h2]
    simp only [List.cons_append, List.nil_append, h1]
  show (seen copyProg top [⟨⟨0, .call 1⟩, [⟨.opencode, ⟨0, 0⟩⟩]⟩]).1 = _
  rw [seen_calls (by decide)
    (b := [⟨⟨11, .copy (some 5)⟩, [⟨10, 11⟩]⟩, ⟨⟨12, .other (some 7)⟩, [⟨10, 12⟩]⟩]) rfl, seen_nil]
  simp only [called_eq, nestFrames, top, List.map_cons, List.map_nil, List.nil_append, Nat.zero_add, h3]
  simp

/-- A macro that calls itself. -/
def deepProg : Prog where
  file := 0
  members := []
  macros := [(1, [⟨⟨11, .call 1⟩, [⟨10, 11⟩]⟩])]

/-- C119 does not hold for the diagnostic of the nest limit: it is shown in the file of the open code, with the line of the statement of the macro, and
without the calls that led there. -/
theorem C119_witness_limit :
    ∃ e ∈ (run deepProg 200 (start deepProg [⟨3, .call 1⟩, ⟨4, .other none⟩])).1,
      e.said = some (.E055, some ⟨.E055, 0, 11, []⟩) ∧
      e.stack = some (⟨.opencode, ⟨0, 3⟩⟩ :: List.replicate 100 ⟨.macro, ⟨10, 11⟩⟩) ∧
      ∀ z, e.view = some z → wanted z .E055 = ⟨.E055, 10, 11, List.replicate 99 ⟨10, 11⟩ ++ [⟨0, 3⟩]⟩ := by
  refine ⟨⟨⟨11, .call 1⟩, some (⟨.opencode, ⟨0, 3⟩⟩ :: List.replicate 100 ⟨.macro, ⟨10, 11⟩⟩), some (.E055, some ⟨.E055, 0, 11, []⟩)⟩, ?_, rfl, rfl, ?_⟩
  · decide +kernel
  · intro z hz
    simp only [Event.view, Option.map_some, Option.some.injEq] at hz
    subst hz
    decide +kernel

end Verif.Exec
