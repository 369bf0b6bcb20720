import Verif.Workspace.Wildcard
/-! C23: wildcards mean what the documentation says. -/
namespace Verif.Workspace

/-- Specification: the names denoted by a wildcard pattern. -/
inductive Wild : Bytes → Bytes → Prop
  | nil : Wild [] []
  | star {p s1 s2} : Wild p s2 → Wild (42 :: p) (s1 ++ s2)
  | plus {p s1 s2} : s1 ≠ [] → Wild p s2 → Wild (43 :: p) (s1 ++ s2)
  | quest {p c s} : Wild p s → Wild (63 :: p) (c :: s)
  | lit {p c s} : c ≠ 42 → c ≠ 43 → c ≠ 63 → Wild p s → Wild (c :: p) (c :: s)

/-- Regular-expression text of one wildcard character. -/
def piece (c : UInt8) : Bytes :=
  if c = 42 then [46, 42, 63] else if c = 43 then [46, 43, 63] else if c = 63 then [46]
  else if c ∈ escaped then [92, c] else [c]

/-- Meaning of one wildcard character. -/
def pieceItem (c : UInt8) : Item :=
  if c = 42 then .many .any else if c = 43 then .some .any else if c = 63 then .one .any else .one (.lit c)

theorem piece_eq (c : UInt8) : wildcardText [c] = piece c := forall_byte (P := fun c => wildcardText [c] = piece c) (by decide +kernel) c

theorem text_eq (w : Bytes) : wildcardText w = w.flatMap piece := by
  induction w with
  | nil => rfl
  | cons c w ih =>
    have : wildcardText (c :: w) = wildcardText [c] ++ wildcardText w := by simp [wildcardText]
    rw [this, ih, piece_eq]; simp

/-- A text after an atom that does not start with a quantifier. -/
def Calm (t : Bytes) : Prop := ∀ c r, t = c :: r → c ≠ cStar ∧ c ≠ cPlus ∧ c ≠ cQuest ∧ c ≠ 123

theorem calm_text (w : Bytes) : Calm (w.flatMap piece) := by
  intro c r h
  cases w with
  | nil => simp at h
  | cons d w =>
    have hd : ∃ e t, piece d = e :: t ∧ e ≠ cStar ∧ e ≠ cPlus ∧ e ≠ cQuest ∧ e ≠ 123 := by
      have : ((piece d).head?.map fun e => decide (e ≠ cStar ∧ e ≠ cPlus ∧ e ≠ cQuest ∧ e ≠ 123)) = some true :=
        forall_byte (P := fun d => ((piece d).head?.map fun e => decide (e ≠ cStar ∧ e ≠ cPlus ∧ e ≠ cQuest ∧ e ≠ 123)) = some true)
          (by decide +kernel) d
      cases hp : piece d with
      | nil => rw [hp] at this; simp at this
      | cons e t => rw [hp] at this; simp at this; exact ⟨e, t, rfl, by simpa using this⟩
    obtain ⟨e, t, hp, hc⟩ := hd
    rw [List.flatMap_cons, hp] at h
    simp at h
    rw [← h.1]; exact hc

theorem parseQuant_calm (a : Atom) (t : Bytes) (h : Calm t) : parseQuant a t = some (.one a, t) := by
  cases t with
  | nil => rfl
  | cons c r =>
    obtain ⟨h1, h2, h3, h4⟩ := h c r rfl
    simp [parseQuant, h1, h2, h3, h4]

theorem parse_piece (c : UInt8) (t : Bytes) (h : Calm t) :
    ∃ a r, parseAtom (piece c ++ t) = some (a, r) ∧ parseQuant a r = some (pieceItem c, t) := by
  unfold piece pieceItem
  split
  · exact ⟨.any, 42 :: 63 :: t, by rfl, by simp [parseQuant, cStar, cQuest]⟩
  · split
    · exact ⟨.any, 43 :: 63 :: t, by rfl, by simp [parseQuant, cStar, cPlus, cQuest]⟩
    · split
      · exact ⟨.any, t, by rfl, parseQuant_calm _ _ h⟩
      · next h1 h2 h3 =>
        split
        · next hm =>
          refine ⟨.lit c, t, ?_, parseQuant_calm _ _ h⟩
          have hal : c ∈ escaped → isAlnum c = false :=
            forall_byte (P := fun c => c ∈ escaped → isAlnum c = false) (by decide +kernel) c
          simp [parseAtom, cDot, cBslash, hal hm]
        · next hm =>
          refine ⟨.lit c, t, ?_, parseQuant_calm _ _ h⟩
          have hs : c ∉ escaped → c ≠ 42 → c ≠ 43 → c ≠ 63 → c ≠ cDot ∧ c ≠ cBslash ∧ c ∉ syntaxChars :=
            forall_byte (P := fun c => c ∉ escaped → c ≠ 42 → c ≠ 43 → c ≠ 63 → c ≠ cDot ∧ c ≠ cBslash ∧ c ∉ syntaxChars)
              (by decide +kernel) c
          obtain ⟨a1, a2, a3⟩ := hs hm h1 h2 h3
          simp [parseAtom, a1, a2, a3]

theorem parse_text (w : Bytes) : ∀ n, w.length ≤ n → parseRe n (w.flatMap piece) = some (w.map pieceItem) := by
  induction w with
  | nil => intro n _; cases n <;> rfl
  | cons c w ih =>
    intro n hn
    cases n with
    | zero => simp at hn
    | succ n =>
      obtain ⟨a, r, h1, h2⟩ := parse_piece c (w.flatMap piece) (calm_text w)
      have hne : ∃ e t, piece c ++ w.flatMap piece = e :: t := by
        cases hp : piece c ++ w.flatMap piece with
        | nil => rw [hp] at h1; simp [parseAtom] at h1
        | cons e t => exact ⟨e, t, rfl⟩
      obtain ⟨e, t, he⟩ := hne
      rw [List.flatMap_cons, he]
      rw [he] at h1
      simp only [parseRe, h1, h2]
      rw [ih n (by simpa using hn)]
      rfl

/-- A name without line terminators. -/
def NoNewline (s : Bytes) : Prop := ∀ b ∈ s, b ≠ 10 ∧ b ≠ 13

theorem match_iff (w : Bytes) : ∀ s, NoNewline s → (ReMatch (w.map pieceItem) s ↔ Wild w s) := by
  induction w with
  | nil =>
    intro s _
    constructor
    · intro h; cases h; exact .nil
    · intro h; cases h; exact .nil
  | cons c w ih =>
    intro s hs
    simp only [List.map_cons]
    by_cases h1 : c = 42
    · subst h1
      have e : pieceItem 42 = .many .any := by decide
      rw [e]
      constructor
      · intro h
        cases h with
        | many ha h => exact .star ((ih _ (fun b hb => hs b (by simp [hb]))).mp h)
      · intro h
        cases h with
        | star h =>
          exact .many (fun b hb => hs b (by simp [hb])) ((ih _ (fun b hb => hs b (by simp [hb]))).mpr h)
        | lit hc => exact absurd rfl hc
    · by_cases h2 : c = 43
      · subst h2
        have e : pieceItem 43 = .some .any := by decide
        rw [e]
        constructor
        · intro h
          cases h with
          | some hne ha h => exact .plus hne ((ih _ (fun b hb => hs b (by simp [hb]))).mp h)
        · intro h
          cases h with
          | plus hne h =>
            exact .some hne (fun b hb => hs b (by simp [hb])) ((ih _ (fun b hb => hs b (by simp [hb]))).mpr h)
          | lit _ hc => exact absurd rfl hc
      · by_cases h3 : c = 63
        · subst h3
          have e : pieceItem 63 = .one .any := by decide
          rw [e]
          constructor
          · intro h
            cases h with
            | one ha h => exact .quest ((ih _ (fun b hb => hs b (by simp [hb]))).mp h)
          · intro h
            cases h with
            | quest h => exact .one (hs _ (by simp)) ((ih _ (fun b hb => hs b (by simp [hb]))).mpr h)
            | lit _ _ hc => exact absurd rfl hc
        · have e : pieceItem c = .one (.lit c) := by simp [pieceItem, h1, h2, h3]
          rw [e]
          constructor
          · intro h
            cases h with
            | one ha h =>
              simp only [Atom.Ok] at ha; subst ha
              exact .lit h1 h2 h3 ((ih _ (fun b hb => hs b (by simp [hb]))).mp h)
          · intro h
            cases h with
            | star => exact absurd rfl h1
            | plus => exact absurd rfl h2
            | quest => exact absurd rfl h3
            | lit _ _ _ h => exact .one rfl ((ih _ (fun b hb => hs b (by simp [hb]))).mpr h)

/-- C23: the regular expression built for a wildcard is always well-formed, and it matches a name (without line
terminators) exactly when the wildcard denotes the name, one byte of the name being one character. -/
theorem C23_wildcard_partial (w s : Bytes) (hs : NoNewline s) :
    ∃ re, parseRe (wildcardText w).length (wildcardText w) = some re ∧ (ReMatch re s ↔ Wild w s) := by
  refine ⟨w.map pieceItem, ?_, match_iff w s hs⟩
  rw [text_eq]
  apply parse_text
  clear hs
  induction w with
  | nil => simp
  | cons c w ih =>
    have : 1 ≤ (piece c).length := forall_byte (P := fun c => 1 ≤ (piece c).length) (by decide +kernel) c
    simp only [List.flatMap_cons, List.length_append, List.length_cons]
    omega

/-- Violation for names outside ASCII: the regular expression for `?` does not match the one-character name `é` (two bytes
in UTF-8). -/
theorem C23_witness_non_ascii (re : List Item) (h : parseRe 10 (wildcardText "?".toUTF8.toList) = some re) :
    "é".toList.length = 1 ∧ ¬ ReMatch re "é".toUTF8.toList := by
  have e1 : parseRe 10 (wildcardText "?".toUTF8.toList) = some [.one .any] := by decide +kernel
  have e2 : "é".toUTF8.toList = [195, 169] := by decide +kernel
  rw [e1] at h; simp at h; subst h
  rw [e2]
  refine ⟨by decide +kernel, ?_⟩
  intro h
  cases h with
  | one _ h => cases h

/-- Violation for names with line terminators: `*` does not match a name that contains one. -/
theorem C23_witness_newline : ¬ ReMatch [.many .any] [10] ∧ Wild [42] [10] := by
  constructor
  · intro h
    have key : ∀ is s, ReMatch is s → is = [.many .any] → ∀ b ∈ s, b ≠ 10 := by
      intro is s h e
      cases h with
      | many ha h =>
        simp at e; obtain ⟨rfl, rfl⟩ := e
        cases h
        intro b hb
        simp at hb
        exact (ha b hb).1
      | _ => simp at e
    exact key _ _ h rfl 10 (by simp) rfl
  · exact Wild.star (s1 := [10]) .nil

/-- Non-vacuity: `a*.h?m` denotes `ab.ham`, and the dot is not a wildcard. -/
example : Wild [97, 42, 46, 104, 63, 109] [97, 98, 46, 104, 97, 109] :=
  .lit (by decide) (by decide) (by decide) (.star (s1 := [98]) (.lit (by decide) (by decide) (by decide)
    (.lit (by decide) (by decide) (by decide) (.quest (.lit (by decide) (by decide) (by decide) .nil)))))
example : wildcardText [97, 42, 46] = [97, 46, 42, 63, 92, 46] := by decide

end Verif.Workspace
