import Verif.LspCtx.Occ
import Mathlib.Data.List.Pairwise
/-!
C81: references and definitions of occurrences.
-/
namespace Verif.LspCtx

open Lexing (Pos Rng)

/-- Specification: `o` is an occurrence in `file` that the analysis found in macro `some m` or in open code (`none`). -/
def Ctx.Has (c : Ctx) (home : Option Nat) (file : String) (o : Occ) : Prop :=
  match home with
  | some m => ∃ mi ∈ c.macros, mi.id = m ∧ ∃ os, (file, os) ∈ mi.occs ∧ o ∈ os
  | none => ∃ os, (file, os) ∈ c.opencode ∧ o ∈ os

/-- Specification: `a` (found in `ha`) and `b` (found in `hb`) name the same thing. -/
def Same (ha hb : Option Nat) (a b : Occ) : Prop :=
  a.kind = b.kind ∧ a.name = b.name ∧ a.opcode = b.opcode ∧ (a.isScoped → ha = hb)

/-- The tables are maps and every file with occurrences is known. -/
structure Ctx.Ok (c : Ctx) : Prop where
  ids : (c.macros.map (·.id)).Nodup
  keys : ∀ mi ∈ c.macros, (mi.occs.map (·.1)).Nodup
  openKeys : (c.opencode.map (·.1)).Nodup
  known : ∀ home file o, c.Has home file o → file ∈ c.files
  forward : ∀ home file o, c.Has home file o → isInRange o.range.start o.range = true

/-- What the code relies on: at a place where an occurrence lies, every occurrence found there names the same thing and, if
it is scoped, the lines of the file tell which macro it was found in. -/
def Ctx.Unambiguous (c : Ctx) : Prop :=
  ∀ home home' file o o' p, c.Has home file o → c.Has home' file o' → isInRange p o.range = true → isInRange p o'.range = true →
    Same home home' o o' ∧ (o.isScoped → c.scope file p = home)

theorem isSimilar_iff (a b : Occ) : a.isSimilar b = true ↔ a.kind = b.kind ∧ a.name = b.name ∧ a.opcode = b.opcode := by
  simp [Occ.isSimilar, and_assoc]

theorem isSimilar_congr {a b : Occ} (h : a.isSimilar b = true) (x : Occ) : a.isSimilar x = b.isSimilar x := by
  rw [isSimilar_iff] at h
  simp [Occ.isSimilar, h]

theorem mem_collect (o : Occ) (fo : FileOccs) (q : Pos) (f : String) :
    (q, f) ∈ collect o fo ↔ ∃ os o', (f, os) ∈ fo ∧ o' ∈ os ∧ o.isSimilar o' = true ∧ o'.range.start = q := by
  simp only [collect, findReferences, List.mem_flatMap, List.mem_map, List.mem_filter, Prod.mk.injEq, Prod.exists]
  constructor
  · rintro ⟨f', os, hm, p, ⟨o', ⟨h1, h2⟩, rfl⟩, rfl, rfl⟩
    exact ⟨os, o', hm, h1, h2, rfl⟩
  · rintro ⟨os, o', hm, h1, h2, rfl⟩
    exact ⟨f, os, hm, _, ⟨o', ⟨h1, h2⟩, rfl⟩, rfl, rfl⟩

/-- The occurrences of a file are those the analysis found in it. -/
theorem mem_at (fo : FileOccs) (hk : (fo.map (·.1)).Nodup) (f : String) (o : Occ) : o ∈ fo.at f ↔ ∃ os, (f, os) ∈ fo ∧ o ∈ os := by
  induction fo with
  | nil => simp [FileOccs.at]
  | cons x fo ih =>
    obtain ⟨g, os⟩ := x
    simp only [List.map_cons, List.nodup_cons] at hk
    by_cases hg : g = f
    · subst hg
      simp only [FileOccs.at, List.find?_cons, beq_self_eq_true, Option.elim, List.mem_cons, Prod.mk.injEq, true_and]
      constructor
      · intro h; exact ⟨os, .inl rfl, h⟩
      · rintro ⟨os', rfl | hm, h⟩
        · exact h
        · exact absurd (List.mem_map_of_mem (f := Prod.fst) hm) hk.1
    · have : FileOccs.at ((g, os) :: fo) f = FileOccs.at fo f := by simp [FileOccs.at, List.find?_cons, hg]
      rw [this, ih hk.2]
      simp [hg, Ne.symm hg]

theorem mem_occs {c : Ctx} (hc : c.Ok) (f : String) (o : Occ) : o ∈ c.occs f ↔ ∃ home, c.Has home f o := by
  simp only [Ctx.occs, List.mem_append, List.mem_flatMap]
  constructor
  · rintro (⟨mi, hm, h⟩ | h)
    · exact ⟨some mi.id, mi, hm, rfl, (mem_at _ (hc.keys mi hm) f o).mp h⟩
    · exact ⟨none, (mem_at _ hc.openKeys f o).mp h⟩
  · rintro ⟨home, h⟩
    cases home with
    | none => exact .inr ((mem_at _ hc.openKeys f o).mpr h)
    | some m =>
      obtain ⟨mi, hm, _, h⟩ := h
      exact .inl ⟨mi, hm, (mem_at _ (hc.keys mi hm) f o).mpr h⟩

theorem find_macro {c : Ctx} (hc : c.Ok) {mi : MacroInfo} (h : mi ∈ c.macros) : c.macros.find? (·.id == mi.id) = some mi := by
  have hn := hc.ids
  generalize c.macros = l at h hn
  induction l with
  | nil => simp at h
  | cons x l ih =>
    simp only [List.map_cons, List.nodup_cons] at hn
    rcases List.mem_cons.mp h with rfl | h
    · simp
    · have : x.id ≠ mi.id := fun e => hn.1 (e ▸ List.mem_map_of_mem (f := MacroInfo.id) h)
      simp [this, ih h hn.2]

/-- The references of an occurrence in a scope are the starts of the occurrences that name the same thing. -/
theorem mem_refsOf {c : Ctx} (hc : c.Ok) (o : Occ) (scope : Option Nat) (q : Pos) (f : String) :
    (q, f) ∈ c.refsOf o scope ↔ ∃ home o', c.Has home f o' ∧ Same scope home o o' ∧ o'.range.start = q := by
  unfold Ctx.refsOf
  by_cases hs : o.isScoped = true
  · rw [if_pos hs]
    cases scope with
    | none =>
      simp only [mem_collect, isSimilar_iff]
      constructor
      · rintro ⟨os, o', h1, h2, ⟨k1, k2, k3⟩, rfl⟩
        exact ⟨none, o', ⟨os, h1, h2⟩, ⟨k1, k2, k3, fun _ => rfl⟩, rfl⟩
      · rintro ⟨home, o', h, ⟨k1, k2, k3, k4⟩, rfl⟩
        obtain rfl := k4 hs
        obtain ⟨os, h1, h2⟩ := h
        exact ⟨os, o', h1, h2, ⟨k1, k2, k3⟩, rfl⟩
    | some m =>
      simp only
      constructor
      · intro h
        cases hf : c.macros.find? (·.id == m) with
        | none => rw [hf] at h; simp at h
        | some mi =>
          rw [hf] at h
          simp only [Option.elim, mem_collect, isSimilar_iff] at h
          obtain ⟨os, o', h1, h2, ⟨k1, k2, k3⟩, rfl⟩ := h
          have hid := List.find?_some hf
          simp only [beq_iff_eq] at hid
          exact ⟨some m, o', ⟨mi, List.mem_of_find?_eq_some hf, hid, os, h1, h2⟩, ⟨k1, k2, k3, fun _ => rfl⟩, rfl⟩
      · rintro ⟨home, o', h, ⟨k1, k2, k3, k4⟩, rfl⟩
        obtain rfl := k4 hs
        obtain ⟨mi, hm, rfl, os, h1, h2⟩ := h
        rw [find_macro hc hm]
        simp only [Option.elim, mem_collect, isSimilar_iff]
        exact ⟨os, o', h1, h2, ⟨k1, k2, k3⟩, rfl⟩
  · rw [if_neg hs]
    simp only [List.mem_append, List.mem_flatMap, mem_collect, isSimilar_iff]
    constructor
    · rintro (⟨mi, hm, os, o', h1, h2, ⟨k1, k2, k3⟩, rfl⟩ | ⟨os, o', h1, h2, ⟨k1, k2, k3⟩, rfl⟩)
      · exact ⟨some mi.id, o', ⟨mi, hm, rfl, os, h1, h2⟩, ⟨k1, k2, k3, fun h => absurd h hs⟩, rfl⟩
      · exact ⟨none, o', ⟨os, h1, h2⟩, ⟨k1, k2, k3, fun h => absurd h hs⟩, rfl⟩
    · rintro ⟨home, o', h, ⟨k1, k2, k3, _⟩, rfl⟩
      cases home with
      | none => obtain ⟨os, h1, h2⟩ := h; exact .inr ⟨os, o', h1, h2, ⟨k1, k2, k3⟩, rfl⟩
      | some m => obtain ⟨mi, hm, _, os, h1, h2⟩ := h; exact .inl ⟨mi, hm, os, o', h1, h2, ⟨k1, k2, k3⟩, rfl⟩

/-- Similar occurrences in the same scope have the same references and the same definition. -/
theorem refsOf_congr (c : Ctx) {a b : Occ} {sa sb : Option Nat} (h : Same sa sb a b) : c.refsOf a sa = c.refsOf b sb := by
  obtain ⟨h1, h2, h3, h4⟩ := h
  have hsim : a.isSimilar = b.isSimilar := by
    funext x; simp [Occ.isSimilar, h1, h2, h3]
  have hsc : a.isScoped = b.isScoped := by simp [Occ.isScoped, h1]
  have hcol : collect a = collect b := by funext fo; simp [collect, findReferences, hsim]
  unfold Ctx.refsOf
  rw [hcol, ← hsc]
  split <;> rename_i hs
  · rw [h4 hs]
  · rfl

/-- If an occurrence lies under the cursor, the one the code finds names the same thing in the same scope. -/
theorem find_of_has {c : Ctx} (hc : c.Ok) (hu : c.Unambiguous) {home : Option Nat} {f : String} {o : Occ} {p : Pos}
    (h : c.Has home f o) (hp : isInRange p o.range = true) :
    ∃ o', c.find f p = some (o', c.scope f p) ∧ Same home (c.scope f p) o o' := by
  rw [Ctx.find, if_pos (hc.known _ _ _ h)]
  have hm := (mem_occs hc f o).mpr ⟨home, h⟩
  cases hf : (c.occs f).find? (fun o => isInRange p o.range) with
  | none => exact absurd hp (by simpa using List.find?_eq_none.mp hf o hm)
  | some o' =>
    obtain ⟨home', h'⟩ := (mem_occs hc f o').mp (List.mem_of_find?_eq_some hf)
    have hp' : isInRange p o'.range = true := List.find?_some (p := fun o : Occ => isInRange p o.range) hf
    obtain ⟨s1, s2⟩ := hu home home' f o o' p h h' hp hp'
    refine ⟨o', rfl, s1.1, s1.2.1, s1.2.2.1, fun hs => (s2 hs).symm⟩

/-- **C81 (references), partial.** If the occurrences in a file do not overlap ambiguously and lines determine scopes, then
for a cursor anywhere on an occurrence, the references are exactly the places where the same thing is named in the same
scope — the occurrence itself among them. What is missing: documents that violate the hypothesis (`C81_witness_touching`,
`C81_witness_copy`). -/
theorem C81_references_partial {c : Ctx} (hc : c.Ok) (hu : c.Unambiguous) {home : Option Nat} {f : String} {o : Occ} {p : Pos}
    (h : c.Has home f o) (hp : isInRange p o.range = true) (q : Pos) (g : String) :
    (q, g) ∈ c.references f p ↔ ∃ home' o', c.Has home' g o' ∧ Same home home' o o' ∧ o'.range.start = q := by
  obtain ⟨o1, hf, hs⟩ := find_of_has hc hu h hp
  rw [Ctx.references, hf]
  simp only
  rw [← refsOf_congr c hs, mem_refsOf hc]

/-- **C81 (equivalence), partial.** Under the same hypotheses, asking at any of the references yields the very same list, and the
same definition if there is one. -/
theorem C81_equivalence_partial {c : Ctx} (hc : c.Ok) (hu : c.Unambiguous) {home : Option Nat} {f : String} {o : Occ} {p : Pos}
    (h : c.Has home f o) (hp : isInRange p o.range = true) :
    (o.range.start, f) ∈ c.references f p ∧
    ∀ q g, (q, g) ∈ c.references f p → c.references g q = c.references f p ∧
      ∀ defs, c.definition defs g q = c.definition defs f p ∨ (c.definition defs g q = (q, g) ∧ c.definition defs f p = (p, f)) := by
  refine ⟨(C81_references_partial hc hu h hp _ _).mpr ⟨home, o, h, ⟨rfl, rfl, rfl, fun _ => rfl⟩, rfl⟩, ?_⟩
  intro q g hq
  obtain ⟨home', o', h', hs, rfl⟩ := (C81_references_partial hc hu h hp _ _).mp hq
  obtain ⟨o1, hf, hs1⟩ := find_of_has hc hu h hp
  obtain ⟨o2, hf', hs2⟩ := find_of_has hc hu h' (hc.forward _ _ _ h')
  have e0 : o.isScoped = o'.isScoped := by simp [Occ.isScoped, hs.1]
  have hs12 : Same (c.scope g o'.range.start) (c.scope f p) o2 o1 := by
    have e : o2.isScoped = o'.isScoped := by simp [Occ.isScoped, hs2.1]
    refine ⟨?_, ?_, ?_, ?_⟩
    · rw [← hs2.1, ← hs.1, hs1.1]
    · rw [← hs2.2.1, ← hs.2.1, hs1.2.1]
    · rw [← hs2.2.2.1, ← hs.2.2.1, hs1.2.2.1]
    · intro hsc
      rw [e] at hsc
      rw [← hs2.2.2.2 hsc, ← hs.2.2.2 (e0 ▸ hsc), hs1.2.2.2 (e0 ▸ hsc)]
  refine ⟨?_, fun defs => ?_⟩
  · simp only [Ctx.references, hf, hf']
    exact refsOf_congr c hs12
  · have esc : o2.isScoped = o1.isScoped := by simp [Occ.isScoped, hs12.1]
    have : defs o2.kind o2.name o2.opcode (if o2.isScoped then c.scope g o'.range.start else none)
        = defs o1.kind o1.name o1.opcode (if o1.isScoped then c.scope f p else none) := by
      rw [hs12.1, hs12.2.1, hs12.2.2.1, esc]
      split <;> rename_i h9
      · rw [hs12.2.2.2 (by rw [esc]; exact h9)]
      · rfl
    simp only [Ctx.definition, hf, hf', this]
    cases defs o1.kind o1.name o1.opcode (if o1.isScoped then c.scope f p else none) with
    | none => right; exact ⟨rfl, rfl⟩
    | some d => left; rfl

/-- **C81 (no occurrence).** Away from every occurrence there are no references, and the definition is the cursor itself. -/
theorem C81_nothing {c : Ctx} (hc : c.Ok) {f : String} {p : Pos} (h : ∀ home o, c.Has home f o → isInRange p o.range = false) :
    c.references f p = [] ∧ ∀ defs, c.definition defs f p = (p, f) := by
  have : c.find f p = none := by
    unfold Ctx.find
    split
    · rw [Option.map_eq_none_iff, List.find?_eq_none]
      intro o ho
      obtain ⟨home, hh⟩ := (mem_occs hc f o).mp ho
      simp [h home o hh]
    · rfl
  simp [Ctx.references, Ctx.definition, this]

/-- **C81 (names without scope), partial.** For symbols, instructions and copy members only the occurrences at the cursor matter: if
they name one thing, the references are all the places in all files that name it. -/
theorem C81_global_partial {c : Ctx} (hc : c.Ok) {home : Option Nat} {f : String} {o : Occ} {p : Pos} (h : c.Has home f o)
    (hp : isInRange p o.range = true) (hg : o.isScoped = false)
    (hu : ∀ home' o', c.Has home' f o' → isInRange p o'.range = true → o.isSimilar o' = true) (q : Pos) (g : String) :
    (q, g) ∈ c.references f p ↔ ∃ home' o', c.Has home' g o' ∧ o.isSimilar o' = true ∧ o'.range.start = q := by
  have hm := (mem_occs hc f o).mpr ⟨home, h⟩
  unfold Ctx.references Ctx.find
  rw [if_pos (hc.known _ _ _ h)]
  cases hf : (c.occs f).find? (fun o => isInRange p o.range) with
  | none => exact absurd hp (by simpa using List.find?_eq_none.mp hf o hm)
  | some o' =>
    obtain ⟨home', h'⟩ := (mem_occs hc f o').mp (List.mem_of_find?_eq_some hf)
    have hp' : isInRange p o'.range = true := List.find?_some (p := fun o : Occ => isInRange p o.range) hf
    have hs := hu home' o' h' hp'
    have hk := (isSimilar_iff _ _).mp hs
    have hg' : o'.isScoped = false := by simpa [Occ.isScoped, hk.1] using hg
    simp only [Option.map_some]
    rw [mem_refsOf hc]
    constructor
    · rintro ⟨hm, x, h1, ⟨k1, k2, k3, _⟩, h3⟩
      refine ⟨hm, x, h1, (isSimilar_iff _ _).mpr ⟨hk.1.trans k1, hk.2.1.trans k2, hk.2.2.trans k3⟩, h3⟩
    · rintro ⟨hm, x, h1, h2, h3⟩
      rw [isSimilar_congr hs, isSimilar_iff] at h2
      exact ⟨hm, x, h1, ⟨h2.1, h2.2.1, h2.2.2, fun e => by simp [hg'] at e⟩, h3⟩

/-! ### The hypotheses hold of real documents -/

/-- A macro on lines 1-3 using `&A` twice, open code using `&A` once. -/
def demo : Ctx where
  files := ["s"]
  macros := [⟨7, [("s", [⟨1, 4, 7⟩])], [("s", [⟨.var, 1, ⟨⟨1, 9⟩, ⟨1, 11⟩⟩, none⟩, ⟨.var, 1, ⟨⟨2, 15⟩, ⟨2, 17⟩⟩, none⟩])]⟩]
  opencode := [("s", [⟨.var, 1, ⟨⟨5, 0⟩, ⟨5, 2⟩⟩, none⟩])]

theorem demo_has {home : Option Nat} {f : String} {o : Occ} (h : demo.Has home f o) : f = "s" ∧
    ((home = some 7 ∧ (o = ⟨.var, 1, ⟨⟨1, 9⟩, ⟨1, 11⟩⟩, none⟩ ∨ o = ⟨.var, 1, ⟨⟨2, 15⟩, ⟨2, 17⟩⟩, none⟩)) ∨
     (home = none ∧ o = ⟨.var, 1, ⟨⟨5, 0⟩, ⟨5, 2⟩⟩, none⟩)) := by
  cases home with
  | none => simp only [Ctx.Has, demo, List.mem_singleton, Prod.mk.injEq] at h; obtain ⟨os, ⟨rfl, rfl⟩, h⟩ := h; simpa using h
  | some m =>
    simp only [Ctx.Has, demo, List.mem_singleton] at h
    obtain ⟨mi, rfl, rfl, os, h1, h2⟩ := h
    simp only [List.mem_singleton, Prod.mk.injEq] at h1
    obtain ⟨rfl, rfl⟩ := h1
    simpa using h2

theorem demo_ok : demo.Ok where
  ids := by decide
  keys := by simp [demo]
  openKeys := by decide
  known := by intro home f o h; obtain ⟨rfl, _⟩ := demo_has h; decide
  forward := by intro home f o h; obtain ⟨rfl, ⟨_, rfl | rfl⟩ | ⟨_, rfl⟩⟩ := demo_has h <;> decide

theorem demo_unambiguous : demo.Unambiguous := by
  intro home home' f o o' p h h' hp hp'
  obtain ⟨rfl, h1⟩ := demo_has h
  have h1' := (demo_has h').2
  clear h h'
  have hsl : demo.slices "s" = [⟨1, 4, 7⟩] := by decide
  simp only [Ctx.scope, hsl, List.find?_cons, List.find?_nil]
  obtain ⟨l, k⟩ := p
  rcases h1 with ⟨rfl, rfl | rfl⟩ | ⟨rfl, rfl⟩ <;> rcases h1' with ⟨rfl, rfl | rfl⟩ | ⟨rfl, rfl⟩ <;>
    simp [isInRange] at hp hp' <;> (try omega) <;> simp [Same, Occ.isScoped] <;> split <;> simp_all <;> omega

example : demo.references "s" ⟨1, 10⟩ = [(⟨1, 9⟩, "s"), (⟨2, 15⟩, "s")] ∧ demo.references "s" ⟨5, 2⟩ = [(⟨5, 0⟩, "s")] := by decide
example := C81_equivalence_partial (o := ⟨.var, 1, ⟨⟨1, 9⟩, ⟨1, 11⟩⟩, none⟩) demo_ok demo_unambiguous
  (show demo.Has (some 7) "s" _ from ⟨_, .head _, rfl, _, .head _, .head _⟩) (p := ⟨1, 10⟩) (by decide)
example : demo.references "s" ⟨3, 0⟩ = [] := by decide

/-- **C81 (witness of touching names).** In `&A&B` the end of the first name is the start of the second: asking at a reference
of `&B` — the start of `&B` — answers with the references of `&A`. -/
theorem C81_witness_touching :
    let c : Ctx := ⟨["s"], [], [("s", [⟨.var, 1, ⟨⟨0, 0⟩, ⟨0, 2⟩⟩, none⟩, ⟨.var, 2, ⟨⟨0, 2⟩, ⟨0, 4⟩⟩, none⟩])]⟩
    (⟨0, 2⟩, "s") ∈ c.references "s" ⟨0, 3⟩ ∧ c.references "s" ⟨0, 2⟩ ≠ c.references "s" ⟨0, 3⟩ := by decide

/-- **C81 (witness of a shared copy member).** A copy member used in a macro definition (whose slice covers its lines) and in open
code: the variable of open code in the main file lists the use in the copy member as a reference, but asked there, the
answer is the macro's use only. -/
theorem C81_witness_copy :
    let c : Ctx := ⟨["main", "copy"],
      [⟨7, [("copy", [⟨0, 1, 7⟩])], [("copy", [⟨.var, 1, ⟨⟨0, 0⟩, ⟨0, 2⟩⟩, none⟩])]⟩],
      [("main", [⟨.var, 1, ⟨⟨9, 0⟩, ⟨9, 2⟩⟩, none⟩]), ("copy", [⟨.var, 1, ⟨⟨0, 0⟩, ⟨0, 2⟩⟩, none⟩])]⟩
    (⟨0, 0⟩, "copy") ∈ c.references "main" ⟨9, 0⟩ ∧ (⟨9, 0⟩, "main") ∉ c.references "copy" ⟨0, 0⟩ := by decide

/-! ### The scope of a line -/

/-- Specification: the slices of the macros in a file. -/
def Ctx.pieces (c : Ctx) (file : String) : List Slice := c.macros.flatMap fun m => (m.slices.find? (·.1 == file)).elim [] (·.2)

/-- Specification: the line belongs to the slice, which ends before its last line. -/
def Slice.Covers (s : Slice) (line : Nat) : Prop := s.first ≤ line ∧ line < s.last

/-- No line of the file belongs to two slices. -/
def Ctx.Apart (c : Ctx) (file : String) : Prop :=
  (∀ s ∈ c.pieces file, ∃ line, s.Covers line) ∧ (c.pieces file).Pairwise fun a b => ∀ line, ¬ (a.Covers line ∧ b.Covers line)

theorem mem_insertSlice (s x : Slice) (l : List Slice) (h : ∀ y ∈ l, ¬ (s.first = y.first ∧ s.last = y.last)) : x ∈ insertSlice s l ↔ x = s ∨ x ∈ l := by
  induction l with
  | nil => simp [insertSlice]
  | cons y l ih =>
    unfold insertSlice
    rw [if_neg (h y List.mem_cons_self)]
    split
    · simp
    · simp only [List.mem_cons, ih fun z hz => h z (List.mem_cons_of_mem _ hz)]
      constructor
      · rintro (h | h | h)
        · exact .inr (.inl h)
        · exact .inl h
        · exact .inr (.inr h)
      · rintro (h | h | h)
        · exact .inr (.inl h)
        · exact .inl h
        · exact .inr (.inr h)

theorem mem_updateSlices (x : Slice) : ∀ (l acc : List Slice), (∀ a ∈ acc, ∀ b ∈ l, ¬ (b.first = a.first ∧ b.last = a.last)) →
    l.Pairwise (fun a b => ¬ (b.first = a.first ∧ b.last = a.last)) → (x ∈ updateSlices acc l ↔ x ∈ acc ∨ x ∈ l) := by
  intro l
  induction l with
  | nil => intro acc _ _; simp [updateSlices]
  | cons s l ih =>
    intro acc h1 h2
    simp only [List.pairwise_cons] at h2
    have hm : ∀ y, y ∈ insertSlice s acc ↔ y = s ∨ y ∈ acc := fun y => mem_insertSlice s y acc fun a ha => h1 a ha s List.mem_cons_self
    show x ∈ updateSlices (insertSlice s acc) l ↔ _
    rw [ih (insertSlice s acc) ?_ h2.2, hm, List.mem_cons]
    · constructor
      · rintro ((h | h) | h)
        · exact .inr (.inl h)
        · exact .inl h
        · exact .inr (.inr h)
      · rintro (h | h | h)
        · exact .inl (.inr h)
        · exact .inl (.inl h)
        · exact .inr h
    · intro a ha b hb
      rcases (hm a).mp ha with rfl | ha
      · exact h2.1 b hb
      · exact h1 a ha b (List.mem_cons_of_mem _ hb)

theorem slices_eq (c : Ctx) (file : String) : c.slices file = updateSlices [] (c.pieces file) := by
  have : ∀ (l : List MacroInfo) (acc : List Slice), l.foldl (fun acc m => updateSlices acc ((m.slices.find? (·.1 == file)).elim [] (·.2))) acc =
      updateSlices acc (l.flatMap fun m => (m.slices.find? (·.1 == file)).elim [] (·.2)) := by
    intro l
    induction l with
    | nil => intro acc; rfl
    | cons m l ih => intro acc; rw [List.foldl_cons, ih, List.flatMap_cons, updateSlices, updateSlices, updateSlices, List.foldl_append]
  exact this _ _

/-- **C81 (scope of a line).** Where the macros of a file lie apart, the scope of a position is the macro to whose lines it
belongs, and open code if there is none. -/
theorem C81_scope {c : Ctx} {file : String} (h : c.Apart file) (p : Pos) (m : Nat) :
    c.scope file p = some m ↔ ∃ s ∈ c.pieces file, s.macroId = m ∧ s.first ≤ p.line ∧ p.line < s.last := by
  have hmem : ∀ x, x ∈ c.slices file ↔ x ∈ c.pieces file := fun x => by
    rw [slices_eq, mem_updateSlices x _ _ (by simp)]
    · simp
    · refine h.2.imp_of_mem fun {a b} ha hb hab he => ?_
      obtain ⟨line, hl⟩ := h.1 a ha
      exact hab line ⟨hl, by unfold Slice.Covers at *; omega⟩
  unfold Ctx.scope
  rw [Option.map_eq_some_iff]
  constructor
  · rintro ⟨s, hs, rfl⟩
    have h1 := List.find?_some (p := fun s : Slice => decide (s.first ≤ p.line) && decide (s.last > p.line)) hs
    simp only [Bool.and_eq_true, decide_eq_true_eq] at h1
    exact ⟨s, (hmem s).mp (List.mem_of_find?_eq_some hs), rfl, h1⟩
  · rintro ⟨s, hs, rfl, h1, h2⟩
    cases hf : (c.slices file).find? (fun s => decide (s.first ≤ p.line) && decide (s.last > p.line)) with
    | none =>
      have := List.find?_eq_none.mp hf s ((hmem s).mpr hs)
      simp [h1, h2] at this
    | some t =>
      have ht := List.find?_some (p := fun s : Slice => decide (s.first ≤ p.line) && decide (s.last > p.line)) hf
      simp only [Bool.and_eq_true, decide_eq_true_eq] at ht
      have htm := (hmem t).mp (List.mem_of_find?_eq_some hf)
      refine ⟨t, rfl, ?_⟩
      by_cases e : t = s
      · rw [e]
      · have : Std.Symm fun a b : Slice => ∀ line, ¬ (a.Covers line ∧ b.Covers line) := ⟨fun a b hab line hh => hab line ⟨hh.2, hh.1⟩⟩
        exact absurd (show t.Covers p.line ∧ s.Covers p.line from ⟨⟨ht.1, ht.2⟩, h1, h2⟩) (h.2.forall htm hs e p.line)

/-- Non-vacuity: a macro in the lines 1 to 3 and one in line 5. -/
example : let c : Ctx := ⟨["s"], [⟨7, [("s", [⟨1, 4, 7⟩])], []⟩, ⟨8, [("s", [⟨5, 6, 8⟩])], []⟩], []⟩
    c.Apart "s" ∧ c.scope "s" ⟨3, 0⟩ = some 7 ∧ c.scope "s" ⟨4, 0⟩ = none ∧ c.scope "s" ⟨5, 0⟩ = some 8 := by
  refine ⟨⟨?_, ?_⟩, by decide⟩
  · intro s hs
    have : s = ⟨1, 4, 7⟩ ∨ s = ⟨5, 6, 8⟩ := by simpa [Ctx.pieces] using hs
    rcases this with rfl | rfl
    · exact ⟨1, by decide, by decide⟩
    · exact ⟨5, by decide, by decide⟩
  · have : Ctx.pieces ⟨["s"], [⟨7, [("s", [⟨1, 4, 7⟩])], []⟩, ⟨8, [("s", [⟨5, 6, 8⟩])], []⟩], []⟩ "s" = [⟨1, 4, 7⟩, ⟨5, 6, 8⟩] := rfl
    rw [this]
    simp only [List.pairwise_cons, List.mem_singleton, forall_eq, Slice.Covers]
    exact ⟨fun line => by omega, by simp⟩

end Verif.LspCtx
