import Verif.TextSync.Model
/-!
Regular expressions on bytes, as far as `std::regex_match` is used by the language features: the whole text has to match.
-/
namespace Verif.LspCtx

/-- A regular expression without captures, anchors and back references. -/
inductive Re where
  | eps
  | cls (f : UInt8 → Bool)
  | seq (a b : Re)
  | alt (a b : Re)
  | star (a : Re)

/-- The texts a regular expression stands for. -/
inductive Re.Matches : Re → Bytes → Prop
  | eps : Matches .eps []
  | cls {f c} : f c = true → Matches (.cls f) [c]
  | seq {a b s t} : Matches a s → Matches b t → Matches (.seq a b) (s ++ t)
  | left {a b s} : Matches a s → Matches (.alt a b) s
  | right {a b s} : Matches b s → Matches (.alt a b) s
  | nil {a} : Matches (.star a) []
  | more {a s t} : Matches a s → Matches (.star a) t → Matches (.star a) (s ++ t)

/-- Nothing matches. -/
def Re.never : Re := .cls fun _ => false

/-- Whether the empty text matches. -/
def Re.nullable : Re → Bool
  | .eps => true
  | .cls _ => false
  | .seq a b => a.nullable && b.nullable
  | .alt a b => a.nullable || b.nullable
  | .star _ => true

/-- What is left to match behind a character. -/
def Re.deriv (c : UInt8) : Re → Re
  | .eps => .never
  | .cls f => if f c then .eps else .never
  | .seq a b => if a.nullable then .alt (.seq (a.deriv c) b) (b.deriv c) else .seq (a.deriv c) b
  | .alt a b => .alt (a.deriv c) (b.deriv c)
  | .star a => .seq (a.deriv c) (.star a)

/-- `std::regex_match`. -/
def Re.test (r : Re) : Bytes → Bool
  | [] => r.nullable
  | c :: t => (r.deriv c).test t

theorem never_iff (s : Bytes) : ¬ Re.never.Matches s := by
  intro h
  cases h with
  | cls h => cases h

theorem eps_iff (s : Bytes) : Re.eps.Matches s ↔ s = [] := ⟨fun h => by cases h; rfl, fun h => h ▸ .eps⟩

theorem cls_iff (f : UInt8 → Bool) (s : Bytes) : (Re.cls f).Matches s ↔ ∃ c, s = [c] ∧ f c = true :=
  ⟨fun h => by cases h with | cls h => exact ⟨_, rfl, h⟩, fun ⟨_, e, h⟩ => e ▸ .cls h⟩

theorem seq_iff (a b : Re) (s : Bytes) : (Re.seq a b).Matches s ↔ ∃ x y, s = x ++ y ∧ a.Matches x ∧ b.Matches y :=
  ⟨fun h => by cases h with | seq h1 h2 => exact ⟨_, _, rfl, h1, h2⟩, fun ⟨_, _, e, h1, h2⟩ => e ▸ .seq h1 h2⟩

theorem alt_iff (a b : Re) (s : Bytes) : (Re.alt a b).Matches s ↔ a.Matches s ∨ b.Matches s :=
  ⟨fun h => by
    cases h with
    | left h => exact .inl h
    | right h => exact .inr h, fun h => h.elim .left .right⟩

theorem nullable_iff (r : Re) : r.nullable = true ↔ r.Matches [] := by
  induction r with
  | eps => simp [Re.nullable, eps_iff]
  | cls f => simp [Re.nullable, cls_iff]
  | seq a b iha ihb => simp [Re.nullable, seq_iff, iha, ihb, and_assoc]
  | alt a b iha ihb => simp [Re.nullable, alt_iff, iha, ihb]
  | star a => simp only [Re.nullable, true_iff]; exact .nil

theorem star_cons {a : Re} {s : Bytes} (h : (Re.star a).Matches s) : ∀ c t, s = c :: t → ∃ x y, t = x ++ y ∧ a.Matches (c :: x) ∧ (Re.star a).Matches y := by
  generalize hr : Re.star a = r at h
  induction h with
  | eps => cases hr
  | cls => cases hr
  | seq => cases hr
  | left => cases hr
  | right => cases hr
  | nil => intro c t e; cases e
  | @more a' s' t' h1 h2 _ ih =>
    cases hr
    intro c t e
    cases s' with
    | nil => exact ih rfl c t e
    | cons d s' =>
      rw [List.cons_append, List.cons.injEq] at e
      obtain ⟨rfl, rfl⟩ := e
      exact ⟨s', t', rfl, h1, h2⟩

theorem deriv_iff (r : Re) (c : UInt8) (s : Bytes) : (r.deriv c).Matches s ↔ r.Matches (c :: s) := by
  induction r generalizing s with
  | eps => simp [Re.deriv, eps_iff, never_iff]
  | cls f =>
    simp only [Re.deriv]
    split
    next h => rw [eps_iff, cls_iff]; constructor
              · rintro rfl; exact ⟨c, rfl, h⟩
              · rintro ⟨d, e, -⟩; simp at e; exact e.2
    next h => refine iff_of_false (never_iff s) ?_
              rw [cls_iff]
              rintro ⟨d, e, hd⟩
              simp at e
              exact h (e.1 ▸ hd)
  | seq a b iha ihb =>
    have key : (Re.seq a b).Matches (c :: s) ↔ (∃ x y, s = x ++ y ∧ a.Matches (c :: x) ∧ b.Matches y) ∨ (a.Matches [] ∧ b.Matches (c :: s)) := by
      rw [seq_iff]
      constructor
      · rintro ⟨x, y, e, h1, h2⟩
        cases x with
        | nil => exact .inr ⟨h1, by rw [List.nil_append] at e; exact e ▸ h2⟩
        | cons d x =>
          rw [List.cons_append, List.cons.injEq] at e
          obtain ⟨rfl, rfl⟩ := e
          exact .inl ⟨x, y, rfl, h1, h2⟩
      · rintro (⟨x, y, rfl, h1, h2⟩ | ⟨h1, h2⟩)
        · exact ⟨c :: x, y, rfl, h1, h2⟩
        · exact ⟨[], c :: s, rfl, h1, h2⟩
    rw [key]
    simp only [Re.deriv]
    split
    next h => rw [alt_iff, seq_iff, ihb]; simp only [iha]; rw [nullable_iff] at h; simp [h]
    next h => rw [seq_iff]; simp only [iha]; rw [nullable_iff] at h; simp [h]
  | alt a b iha ihb => simp [Re.deriv, alt_iff, iha, ihb]
  | star a iha =>
    simp only [Re.deriv]
    rw [seq_iff]
    simp only [iha]
    constructor
    · rintro ⟨x, y, rfl, h1, h2⟩
      exact .more h1 h2
    · intro h
      exact star_cons h c s rfl

/-- The matcher decides whether the text is one of those the expression stands for. -/
theorem test_iff (r : Re) (s : Bytes) : r.test s = true ↔ r.Matches s := by
  induction s generalizing r with
  | nil => exact nullable_iff r
  | cons c s ih => rw [Re.test, ih, deriv_iff]

theorem star_cls_iff (f : UInt8 → Bool) (s : Bytes) : (Re.star (.cls f)).Matches s ↔ ∀ c ∈ s, f c = true := by
  induction s with
  | nil => simp; exact .nil
  | cons c s ih =>
    constructor
    · intro h
      obtain ⟨x, y, rfl, h1, h2⟩ := star_cons h c s rfl
      rw [cls_iff] at h1
      obtain ⟨d, e, hd⟩ := h1
      simp at e
      obtain ⟨rfl, rfl⟩ := e
      simp only [List.nil_append] at ih h2 ⊢
      simp only [List.mem_cons, forall_eq_or_imp]
      exact ⟨hd, ih.1 h2⟩
    · intro h
      simp only [List.mem_cons, forall_eq_or_imp] at h
      exact .more (s := [c]) (.cls h.1) (ih.2 h.2)

/-- One or more. -/
def Re.plus (a : Re) : Re := .seq a (.star a)

theorem plus_cls_iff (f : UInt8 → Bool) (s : Bytes) : (Re.plus (.cls f)).Matches s ↔ s ≠ [] ∧ ∀ c ∈ s, f c = true := by
  rw [Re.plus, seq_iff]
  constructor
  · rintro ⟨x, y, rfl, h1, h2⟩
    rw [cls_iff] at h1
    obtain ⟨d, rfl, hd⟩ := h1
    rw [star_cls_iff] at h2
    simp [hd]; exact h2
  · rintro ⟨h1, h2⟩
    cases s with
    | nil => exact absurd rfl h1
    | cons c s =>
      simp only [List.mem_cons, forall_eq_or_imp] at h2
      exact ⟨[c], s, rfl, .cls h2.1, (star_cls_iff f s).2 h2.2⟩

end Verif.LspCtx
