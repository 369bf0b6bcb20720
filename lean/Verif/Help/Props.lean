import Verif.Help.Spec
import Verif.Mach.Mnemonic

/-!
C118: the help for an instruction shows the operands it takes.
-/
namespace Verif.Help
open Verif.Mach

theorem stream_nil (t : Text) : stream [] t = t := by simp [stream]

theorem stream_blank (t : Text) : stream t!" " t = orBlank t := by
  unfold stream orBlank
  cases t with
  | nil => rfl
  | cons a t => simp

/-! ## Machine instructions -/

theorem comma_succ (i : Nat) : comma (i + 1) = t!"," := rfl

theorem detail_parts (opt : Nat) (ho : opt ≤ 1) (ops : List Fmt) (i n : Nat) (hn : n = i + ops.length) :
    parts (detailPart opt n) i ops = listed [] opt (i == 0) (ops.map Fmt.text) := by
  induction ops generalizing i with
  | nil => rfl
  | cons op ops ih =>
    simp only [List.length_cons] at hn
    have hc : (if (i == 0) = true then ([] : Text) else t!",") = comma i := by cases i <;> rfl
    simp only [parts, List.map_cons, listed, List.length_map, hc]
    rw [ih (i + 1) (by omega), show (i + 1 == 0) = false from rfl]
    unfold detailPart
    by_cases h1 : opt = 1 ∧ n - i = 1
    · have : ops = [] := List.eq_nil_of_length_eq_zero (by omega)
      subst this
      rw [if_pos h1, if_pos (by simp only [List.length_nil]; omega)]
      simp [listed]
    · rw [if_neg h1, if_neg (by omega), if_neg (by omega), if_neg (by omega)]

theorem insert_parts (opt : Nat) (ho : opt ≤ 2) (ops : List Fmt) (i n : Nat) (hn : n = i + ops.length) (hlen : opt ≤ ops.length) :
    parts (insertPart opt n) i ops = listed t!" " opt (i == 0) (ops.map Fmt.text) := by
  induction ops generalizing i with
  | nil => rfl
  | cons op ops ih =>
    simp only [List.length_cons] at hn hlen
    have hc : (if (i == 0) = true then ([] : Text) else t!",") = comma i := by cases i <;> rfl
    by_cases h2 : opt = 2 ∧ n - i = 2
    · obtain ⟨op', rfl⟩ := List.length_eq_one_iff.1 (show ops.length = 1 by omega)
      obtain ⟨rfl, hni⟩ := h2
      simp only [parts, insertPart, hni, show n - (i + 1) = 1 by omega, listed, hc, List.map_cons, List.map_nil, List.length_cons, List.length_nil]
      simp
    · simp only [parts, List.map_cons, listed, List.length_map, hc]
      by_cases h1 : opt = 1 ∧ n - i = 1
      · have : ops = [] := List.eq_nil_of_length_eq_zero (by omega)
        subst this
        rw [insertPart, if_pos h1, if_pos (by simp only [List.length_nil]; omega), if_pos (by simp only [List.length_nil]; omega)]
        simp [listed, parts]
      · rw [insertPart, if_neg h1, if_neg h2, if_neg (by omega), if_neg (by omega)]
        rw [ih (i + 1) (by omega) (by omega), show (i + 1 == 0) = false from rfl]

theorem few_optional : (instrs.all fun i => (decide (i.opt ≤ 1) || Nat.beq i.name n!"IPTE") && decide (i.opt ≤ 2) && decide (i.opt ≤ i.ops.length)) = true := by
  decide +kernel

theorem optional_of {n : OpName} {ins : Instr} (h : tables.instr n = some ins) : (ins.opt ≤ 1 ∨ n = n!"IPTE") ∧ ins.opt ≤ 2 ∧ ins.opt ≤ ins.ops.length := by
  have hm : ins ∈ instrs := List.mem_of_find?_eq_some h
  have hn : ins.name = n := by simpa using List.find?_some h
  have := List.all_eq_true.1 few_optional ins hm
  simp only [Bool.and_eq_true, Bool.or_eq_true, decide_eq_true_eq, Nat.beq_eq] at this
  exact ⟨hn ▸ this.1.1, this.1.2, this.2⟩

theorem find_mach {n : OpName} {ins : Instr} (h : tables.instr n = some ins) : findItem tables n = some (some (machItem ins)) := by
  unfold findItem; rw [h]

/-- C118. Hovering over a machine instruction shows its operands in the notation of manuals, with those that may be left out in
brackets, and its format. Missing for the full property: `IPTE` (`C118_witness_brackets`). -/
theorem C118_machine_partial (n : OpName) (ins : Instr) (h : tables.instr n = some ins) (hn : n ≠ n!"IPTE") :
    hover tables n = some (t!"Operands: " ++ listed [] ins.opt true (ins.ops.map Fmt.text) ++
      t!"  \nMachine instruction \nInstruction format: " ++ formatText ins.fmt) := by
  have ho := (optional_of h).1.resolve_right hn
  unfold hover
  rw [find_mach h]
  simp only [Option.map_some, machItem, stream_nil, detail_parts ins.opt ho ins.ops 0 _ (Nat.zero_add _).symm]
  simp [stream]

/-- C118. Completion inserts the name of a machine instruction and its operands in that notation. -/
theorem C118_inserted (n : OpName) (ins : Instr) (h : tables.instr n = some ins) :
    (findItem tables n).map (Option.map Item.insert) =
      some (some (nameText n ++ t!"   " ++ listed t!" " ins.opt true (ins.ops.map Fmt.text))) := by
  have ho := optional_of h
  have hn : ins.name = n := by simpa using List.find?_some h
  rw [find_mach h]
  simp only [Option.map_some, machItem, stream_nil, insert_parts ins.opt ho.2.1 ins.ops 0 _ (Nat.zero_add _).symm ho.2.2, hn]
  rfl

/-! ## The notation can be read in one way -/

/-- The characters an operand is followed by. -/
def isMark (c : Char) : Bool := c == ',' || c == '[' || c == ']' || c == ' '

/-- Two operands that cannot be taken for each other, whatever follows. -/
def apart : Text → Text → Bool
  | [], [] => false
  | [], c :: _ => !isMark c
  | c :: _, [] => !isMark c
  | c :: t, d :: u => c != d || apart t u

/-- What may follow an operand. -/
def Rest (s : Text) : Prop := s = [] ∨ ∃ c t, s = c :: t ∧ isMark c = true

theorem not_apart (a b s t : Text) (hs : Rest s) (ht : Rest t) (h : a ++ s = b ++ t) (hx : apart a b = true) : False := by
  induction a generalizing b with
  | nil =>
    cases b with
    | nil => cases hx
    | cons c b =>
      simp only [apart, Bool.not_eq_true'] at hx
      rcases hs with rfl | ⟨d, s, rfl, hd⟩
      · simp at h
      · simp only [List.nil_append, List.cons_append, List.cons.injEq] at h
        rw [h.1, hx] at hd; cases hd
  | cons c a ih =>
    cases b with
    | nil =>
      simp only [apart, Bool.not_eq_true'] at hx
      rcases ht with rfl | ⟨d, t, rfl, hd⟩
      · simp at h
      · simp only [List.nil_append, List.cons_append, List.cons.injEq] at h
        rw [← h.1, hx] at hd; cases hd
    | cons d b =>
      simp only [List.cons_append, List.cons.injEq] at h
      simp only [apart, h.1, bne_self_eq_false, Bool.false_or] at hx
      exact ih b h.2 hx

/-- The formats of operands of machine instructions (`instruction.h` 153-175). -/
def formats : List Fmt := [db_12_4_U, db_20_4_S, drb_12_4x4_U, dxb_12_4x4_U, dxb_20_4x4_S, dvb_12_4x4_U, reg_4_U, mask_4_U, imm_4_U, imm_8_S, imm_8_U,
  imm_16_U, imm_12_S, imm_16_S, imm_32_S, vec_reg_4_U, db_12_8x4L_U, db_12_4x4L_U, reg_imm_12_S, reg_imm_16_S, reg_imm_24_S, reg_imm_32_S]

theorem formats_apart : ∀ f ∈ formats, ∀ g ∈ formats, f = g ∨ apart f.text g.text = true := by decide +kernel

theorem formats_begin : ∀ f ∈ formats, f.text ≠ [] ∧ ∀ c, f.text.head? = some c → isMark c = false := by decide +kernel

theorem table_formats : (instrs.all fun i => i.ops.all formats.contains) = true := by decide +kernel

theorem formats_of {n : OpName} {ins : Instr} (h : tables.instr n = some ins) : ∀ f ∈ ins.ops, f ∈ formats := fun f hf => by
  have := List.all_eq_true.1 (List.all_eq_true.1 table_formats ins (List.mem_of_find?_eq_some h)) f hf
  simpa using this

/-- Only closing brackets. -/
def Closers (s : Text) : Prop := ∀ c ∈ s, c = ']'

theorem Closers.rest {s : Text} (h : Closers s) : Rest s := by
  cases s with
  | nil => exact .inl rfl
  | cons c s => exact .inr ⟨c, s, rfl, by rw [h c List.mem_cons_self]; rfl⟩

theorem Closers.cons {s : Text} (h : Closers s) : Closers (']' :: s) := fun c hc => by
  rcases List.mem_cons.1 hc with rfl | hc
  · rfl
  · exact h c hc

/-- The text of a list that is not empty begins with a character that is not a closing bracket. -/
theorem listed_begins (opt : Nat) (first : Bool) (f : Fmt) (hf : f ∈ formats) (fs : List Fmt) (s : Text) :
    ∃ c t, listed [] opt first ((f :: fs).map Fmt.text) ++ s = c :: t ∧ c ≠ ']' ∧ (c = '[' ↔ fs.length < opt) ∧ (first = false → isMark c = true) := by
  obtain ⟨hne, hh⟩ := formats_begin f hf
  simp only [List.map_cons, listed, List.length_map]
  by_cases ho : fs.length < opt
  · simp only [ho, if_true, ite_self, List.nil_append, List.cons_append]
    exact ⟨_, _, rfl, by decide, by simp, fun _ => rfl⟩
  · simp only [ho, if_false]
    cases first with
    | false => exact ⟨_, _, rfl, by decide, by simp, fun _ => rfl⟩
    | true =>
      obtain ⟨c, t, ht⟩ := List.exists_cons_of_ne_nil hne
      rw [ht]
      have hc := hh c (by rw [ht]; rfl)
      refine ⟨_, _, rfl, ?_, ?_, by simp⟩
      · rintro rfl; simp [isMark] at hc
      · simp only [iff_false]; rintro rfl; simp [isMark] at hc

theorem listed_rest (opt : Nat) (fs : List Fmt) (hf : ∀ f ∈ fs, f ∈ formats) (s : Text) (hs : Closers s) : Rest (listed [] opt false (fs.map Fmt.text) ++ s) := by
  cases fs with
  | nil => exact hs.rest
  | cons f fs =>
    obtain ⟨c, t, h, -, -, hm⟩ := listed_begins opt false f (hf f List.mem_cons_self) fs s
    exact .inr ⟨c, t, h, hm rfl⟩

theorem listed_inj (fs : List Fmt) : ∀ (gs : List Fmt) (opt opt' : Nat) (first : Bool) (s t : Text), (∀ f ∈ fs, f ∈ formats) → (∀ f ∈ gs, f ∈ formats) →
    Closers s → Closers t → listed [] opt first (fs.map Fmt.text) ++ s = listed [] opt' first (gs.map Fmt.text) ++ t →
    fs = gs ∧ s = t ∧ min opt fs.length = min opt' gs.length := by
  induction fs with
  | nil =>
    intro gs opt opt' first s t hf hg hs ht h
    cases gs with
    | nil => exact ⟨rfl, h, by simp⟩
    | cons g gs =>
      obtain ⟨c, u, hu, hc, -⟩ := listed_begins opt' first g (hg g List.mem_cons_self) gs t
      rw [hu] at h
      exact absurd (hs c (by rw [show s = c :: u from h]; exact List.mem_cons_self)) hc
  | cons f fs ih =>
    intro gs opt opt' first s t hf hg hs ht h
    obtain ⟨c, u, hu, hc, hb, -⟩ := listed_begins opt first f (hf f List.mem_cons_self) fs s
    cases gs with
    | nil =>
      rw [hu] at h
      exact absurd (ht c (by rw [show t = c :: u from h.symm]; exact List.mem_cons_self)) hc
    | cons g gs =>
      obtain ⟨c', u', hu', -, hb', -⟩ := listed_begins opt' first g (hg g List.mem_cons_self) gs t
      have hcc : c = c' := by rw [hu, hu'] at h; exact (List.cons.inj h).1
      subst hcc
      have hf' : ∀ x ∈ fs, x ∈ formats := fun x hx => hf x (List.mem_cons_of_mem _ hx)
      have hg' : ∀ x ∈ gs, x ∈ formats := fun x hx => hg x (List.mem_cons_of_mem _ hx)
      -- after the beginning
      have key : ∀ s t : Text, Closers s → Closers t → (if first then ([] : Text) else t!",") ++ f.text ++ listed [] opt false (fs.map Fmt.text) ++ s =
          (if first then ([] : Text) else t!",") ++ g.text ++ listed [] opt' false (gs.map Fmt.text) ++ t →
          f = g ∧ fs = gs ∧ s = t ∧ min opt fs.length = min opt' gs.length := by
        intro s t hs ht h
        simp only [List.append_assoc, List.append_cancel_left_eq] at h
        have hfg : f = g := by
          rcases formats_apart f (hf f List.mem_cons_self) g (hg g List.mem_cons_self) with h1 | h1
          · exact h1
          · exact (not_apart _ _ _ _ (listed_rest opt fs hf' s hs) (listed_rest opt' gs hg' t ht) h h1).elim
        subst hfg
        exact ⟨rfl, ih gs opt opt' false s t hf' hg' hs ht (List.append_cancel_left h)⟩
      simp only [List.map_cons, listed, List.length_map] at h
      by_cases ho : fs.length < opt
      · have ho' : gs.length < opt' := hb'.1 (hb.2 ho)
        simp only [ho, ho', if_true, ite_self, List.nil_append, List.append_assoc, List.cons_append, List.cons.injEq, true_and] at h
        obtain ⟨rfl, rfl, hst, -⟩ := key (']' :: s) (']' :: t) hs.cons ht.cons (by simpa only [List.append_assoc] using h)
        refine ⟨rfl, (List.cons.inj hst).2, ?_⟩
        simp only [List.length_cons]; omega
      · have ho' : ¬ gs.length < opt' := fun h' => ho (hb.1 (hb'.2 h'))
        simp only [ho, ho', if_false] at h
        obtain ⟨rfl, rfl, hst, hm⟩ := key s t hs ht h
        refine ⟨rfl, hst, ?_⟩
        simp only [List.length_cons]; omega

/-- C118. The notation can be read in one way only: from the text follow the operands, their formats and which of them may be left
out. -/
theorem C118_readable (fs gs : List Fmt) (hf : ∀ f ∈ fs, f ∈ formats) (hg : ∀ f ∈ gs, f ∈ formats) (opt opt' : Nat) (ho : opt ≤ fs.length)
    (ho' : opt' ≤ gs.length) (h : listed [] opt true (fs.map Fmt.text) = listed [] opt' true (gs.map Fmt.text)) : fs = gs ∧ opt = opt' := by
  obtain ⟨h1, -, h2⟩ := listed_inj fs gs opt opt' true [] [] hf hg (by simp [Closers]) (by simp [Closers]) (by simpa using h)
  exact ⟨h1, by omega⟩

/-- C118. What is shown determines what may be written: two machine instructions with the same help accept the same operands.
`C92_statement` says which. Missing: `IPTE`. -/
theorem C118_determines_partial (n n' : OpName) (ins ins' : Instr) (h : tables.instr n = some ins) (h' : tables.instr n' = some ins') (hn : n ≠ n!"IPTE")
    (hn' : n' ≠ n!"IPTE") (hh : (findItem tables n).map (Option.map Item.detail) = (findItem tables n').map (Option.map Item.detail))
    (ws : List (Option Written)) (hd : AllDefined ws) : tables.Accepts n ws ↔ tables.Accepts n' ws := by
  have ho := optional_of h
  have ho' := optional_of h'
  rw [find_mach h, find_mach h'] at hh
  simp only [Option.map_some, Option.some.injEq, machItem, stream_nil, detail_parts ins.opt (ho.1.resolve_right hn) ins.ops 0 _ (Nat.zero_add _).symm,
    detail_parts ins'.opt (ho'.1.resolve_right hn') ins'.ops 0 _ (Nat.zero_add _).symm, List.append_cancel_left_eq] at hh
  obtain ⟨e1, e2⟩ := C118_readable _ _ (formats_of h) (formats_of h') _ _ ho.2.2 ho'.2.2 hh
  rw [C92_statement n ins h ws hd, C92_statement n' ins' h' ws hd, e1, e2]

/-! ## Mnemonics -/

theorem listed_zero (b : Bool) (o : Text) (os : List Text) : listed [] 0 b (o :: os) = (if b then [] else t!",") ++ o ++ listed [] 0 false os := by
  simp [listed]

/-- Where the loop is in the list of fixed operands: the places before have been passed, the others are still to come. -/
structure At (rep : List (Nat × Nat)) (next i : Nat) : Prop where
  passed : ∀ x ∈ rep.take next, x.1 < i
  ahead : ∀ x ∈ rep.drop next, i ≤ x.1

theorem At.here {rep : List (Nat × Nat)} {next i v : Nat} (h : At rep next i) (hp : (rep.map (·.1)).Pairwise (· < ·)) (hn : rep[next]? = some (i, v)) :
    rep.any (·.1 == i) = true ∧ rep.find? (·.1 == i) = some (i, v) ∧ At rep (next + 1) (i + 1) := by
  obtain ⟨hlt, hget⟩ := List.getElem?_eq_some_iff.1 hn
  have hsplit : rep = rep.take next ++ (i, v) :: rep.drop (next + 1) := by
    conv => lhs; rw [← List.take_append_drop next rep, List.drop_eq_getElem_cons hlt, hget]
  have hmem : (i, v) ∈ rep := List.mem_of_getElem? hn
  refine ⟨List.any_eq_true.2 ⟨_, hmem, by simp⟩, ?_, ?_, ?_⟩
  · rw [hsplit, List.find?_append]
    have : (rep.take next).find? (·.1 == i) = none := by
      rw [List.find?_eq_none]
      intro x hx
      have := h.passed x hx
      simp; omega
    rw [this]
    simp
  · intro x hx
    rw [List.take_succ, hn] at hx
    rcases List.mem_append.1 hx with hx | hx
    · have := h.passed x hx; omega
    · simp at hx; subst hx; simp
  · intro x hx
    have hd : rep.drop next = (i, v) :: rep.drop (next + 1) := by rw [List.drop_eq_getElem_cons hlt, hget]
    have hp' : ((rep.drop next).map (·.1)).Pairwise (· < ·) := by
      rw [List.map_drop]; exact hp.drop
    rw [hd, List.map_cons, List.pairwise_cons] at hp'
    exact hp'.1 _ (List.mem_map.2 ⟨x, hx, rfl⟩)

theorem At.notHere {rep : List (Nat × Nat)} {next i : Nat} (h : At rep next i) (hp : (rep.map (·.1)).Pairwise (· < ·))
    (hn : ∀ v, rep[next]? ≠ some (i, v)) : rep.any (·.1 == i) = false ∧ rep.find? (·.1 == i) = none ∧ At rep next (i + 1) := by
  have hno : ∀ x ∈ rep.drop next, i + 1 ≤ x.1 := by
    by_cases hlt : next < rep.length
    · have hd := List.drop_eq_getElem_cons hlt
      have hp' : ((rep.drop next).map (·.1)).Pairwise (· < ·) := by
        rw [List.map_drop]; exact hp.drop
      have h1 := h.ahead rep[next] (by rw [hd]; exact List.mem_cons_self)
      have h2 : rep[next].1 ≠ i := fun he => hn rep[next].2 (by rw [List.getElem?_eq_getElem hlt, ← he])
      intro x hx
      rw [hd] at hx hp'
      rw [List.map_cons, List.pairwise_cons] at hp'
      rcases List.mem_cons.1 hx with rfl | hx
      · omega
      · have := hp'.1 _ (List.mem_map.2 ⟨x, hx, rfl⟩); omega
    · rw [List.drop_eq_nil_of_le (by omega)]; simp
  have hall : ∀ x ∈ rep, x.1 ≠ i := by
    intro x hx
    rw [← List.take_append_drop next rep] at hx
    rcases List.mem_append.1 hx with hx | hx
    · have := h.passed x hx; omega
    · have := hno x hx; omega
  refine ⟨?_, ?_, fun x hx => ?_, hno⟩
  · rw [List.any_eq_false]; intro x hx; simpa using hall x hx
  · rw [List.find?_eq_none]; intro x hx; simpa using hall x hx
  · have := h.passed x hx; omega

theorem loop_eq (m : Mnem) (ins : Instr) (ho : ins.opt = 0) (hr : m.name ∉ repeating) (hp : (m.replaced.map (·.1)).Pairwise (· < ·)) (ops : List Fmt) :
    ∀ (i : Nat) (s : MnemSt), At m.replaced s.next i → ∃ s', MnemSt.loop m ins i ops s = some s' ∧
      s'.without = s.without ++ listed [] 0 s.first ((freeOps m.replaced i ops).map Fmt.text) ∧
      s'.withFixed = s.withFixed ++ listed [] 0 (i == 0) (substituted m.replaced i ops) := by
  have hr' : repeating.contains m.name = false := by simpa using hr
  have hc : ∀ i : Nat, (if (i == 0) = true then ([] : Text) else t!",") = comma i := by intro i; cases i <;> rfl
  induction ops with
  | nil => intro i s _; exact ⟨s, rfl, by simp [freeOps, listed], by simp [substituted, listed]⟩
  | cons op ops ih =>
    intro i s ha
    have hfree : (∀ v, m.replaced[s.next]? ≠ some (i, v)) → s.step m ins i op = some (s.free ins i op) := by
      intro hno
      unfold MnemSt.step
      cases hx : m.replaced[s.next]? with
      | none => rfl
      | some x =>
        obtain ⟨place, value⟩ := x
        simp only []
        rw [if_neg]
        rintro rfl
        exact hno value hx
    by_cases hx : ∃ v, m.replaced[s.next]? = some (i, v)
    · obtain ⟨v, hv⟩ := hx
      obtain ⟨h1, h2, h3⟩ := ha.here hp hv
      obtain ⟨s', hs', hw, hf⟩ := ih (i + 1) { s with withFixed := s.withFixed ++ comma i ++ numText v, next := s.next + 1 } h3
      refine ⟨s', ?_, ?_, ?_⟩
      · simp only [MnemSt.loop]
        have : s.step m ins i op = some { s with withFixed := s.withFixed ++ comma i ++ numText v, next := s.next + 1 } := by
          unfold MnemSt.step
          rw [hv]
          simp only [if_true]
          rw [if_neg (by omega), hr']
          rfl
        rw [this]
        exact hs'
      · rw [hw]; simp only [freeOps, h1, if_true]
      · rw [hf]
        simp only [substituted, h2, Option.map_some, Option.getD_some]
        rw [listed_zero, hc, show (i + 1 == 0) = false from rfl]
        simp only [List.append_assoc]
    · have hx' : ∀ v, m.replaced[s.next]? ≠ some (i, v) := fun v hv => hx ⟨v, hv⟩
      obtain ⟨h1, h2, h3⟩ := ha.notHere hp hx'
      obtain ⟨s', hs', hw, hf⟩ := ih (i + 1) (s.free ins i op) h3
      refine ⟨s', ?_, ?_, ?_⟩
      · simp only [MnemSt.loop]
        rw [hfree hx']
        exact hs'
      · rw [hw]
        simp only [freeOps, h1, MnemSt.free, freePart, ho, if_true, Bool.false_eq_true, if_false, List.map_cons]
        rw [listed_zero]
        simp
      · rw [hf]
        simp only [substituted, h2, Option.map_none, Option.getD_none]
        rw [listed_zero, hc, show (i + 1 == 0) = false from rfl]
        simp only [MnemSt.free, freePart, ho, if_true, List.append_assoc]

theorem orBlank_cons (c : Char) (t : Text) : orBlank (c :: t) = c :: t := rfl

theorem ne_of_beq {a b : Nat} (h : (!Nat.beq a b) = true) : a ≠ b := by
  rintro rfl
  simp at h

theorem asm_apart : (asmInstrs.all fun e => (findRec e.1 instrs).isNone && mnems.all fun m => !Nat.beq m.name e.1) = true := by decide +kernel

theorem ca_apart : (caInstrs.all fun n => (findRec n instrs).isNone && (asmInstrs.all fun e => !Nat.beq e.1 n) && mnems.all fun m => !Nat.beq m.name n) = true := by
  decide +kernel

theorem asm_mem {n : OpName} {e : OpName × Text} (h : asmInstrs.find? (·.1 == n) = some e) : e.1 = n ∧ tables.instr n = none ∧ tables.mnem n = none := by
  have hn : e.1 = n := by simpa using List.find?_some h
  have := List.all_eq_true.1 asm_apart e (List.mem_of_find?_eq_some h)
  rw [Bool.and_eq_true, findRec_eq, List.all_eq_true, Option.isNone_iff_eq_none, hn] at this
  refine ⟨hn, this.1, ?_⟩
  unfold Tables.mnem
  rw [List.find?_eq_none]
  intro m hm
  simpa using ne_of_beq (this.2 m hm)

theorem ca_mem {n : OpName} (h : n ∈ caInstrs) : tables.instr n = none ∧ tables.mnem n = none ∧ asmInstrs.find? (·.1 == n) = none := by
  have := List.all_eq_true.1 ca_apart n h
  rw [Bool.and_eq_true, Bool.and_eq_true, findRec_eq, List.all_eq_true, List.all_eq_true, Option.isNone_iff_eq_none] at this
  refine ⟨this.1.1, ?_, ?_⟩
  · unfold Tables.mnem
    rw [List.find?_eq_none]
    intro m hm
    simpa using ne_of_beq (this.2 m hm)
  · rw [List.find?_eq_none]
    intro e he
    simpa using ne_of_beq (this.1.2 e he)

theorem find_mnem {n : OpName} {m : Mnem} {ins : Instr} (hm : tables.mnem n = some m) (hi : tables.instr m.base = some ins) :
    findItem tables n = (mnemItem m ins).map some := by
  have h1 : tables.instr n = none := by
    cases h : tables.instr n with
    | none => rfl
    | some ins => rw [disjoint h] at hm; cases hm
  have h2 : asmInstrs.find? (·.1 == n) = none := by
    cases h : asmInstrs.find? (·.1 == n) with
    | none => rfl
    | some e => rw [(asm_mem h).2.2] at hm; cases hm
  unfold findItem
  rw [h1, h2, hm]
  simp only [hi, Option.bind_some]

/-- C118. Hovering over a mnemonic shows the operands it leaves to the user, the operands of the instruction it stands for with its own
values at their places, and the format of the instruction. Missing for the full property: mnemonics of instructions with optional
operands (`C118_witness_lost`). The three mnemonics that repeat an operand are in `C118_repeats`. -/
theorem C118_mnemonic_partial (n : OpName) (m : Mnem) (ins : Instr) (hm : tables.mnem n = some m) (hi : tables.instr m.base = some ins) (ho : ins.opt = 0)
    (hr : n ∉ repeating) :
    hover tables n = some (t!"Operands: " ++ orBlank (listed [] 0 true ((freeOps m.replaced 0 ins.ops).map Fmt.text)) ++
      t!"  \nMnemonic code for " ++ nameText m.base ++ t!" instruction\nSubstituted operands: " ++
      orBlank (listed [] 0 true (substituted m.replaced 0 ins.ops)) ++ t!"\nInstruction format: " ++ formatText ins.fmt) := by
  obtain ⟨hname, ins', hi', hf⟩ := mnem_fits hm
  rw [hi] at hi'
  obtain rfl := Option.some.inj hi'
  have hp : (m.replaced.map (·.1)).Pairwise (· < ·) := by
    simp only [Mnem.fits, Bool.and_eq_true, decide_eq_true_eq] at hf
    exact hf.1.1.1
  have hb : ins.name = m.base := by simpa using List.find?_some hi
  obtain ⟨s, hs, h1, h2⟩ := loop_eq m ins ho (hname ▸ hr) hp ins.ops 0 {} ⟨by simp, by simp⟩
  unfold hover
  rw [find_mnem hm hi]
  unfold mnemItem
  rw [hs]
  simp only [Option.map_some, stream_nil, stream_blank, h1, h2, hb, List.nil_append]
  simp [orBlank_cons]

/-- C118. Completion inserts the name of a mnemonic and the operands it leaves to the user. -/
theorem C118_mnemonic_inserted_partial (n : OpName) (m : Mnem) (ins : Instr) (hm : tables.mnem n = some m) (hi : tables.instr m.base = some ins)
    (ho : ins.opt = 0) (hr : n ∉ repeating) : (findItem tables n).map (Option.map Item.insert) =
      some (some (nameText n ++ t!"   " ++ orBlank (listed [] 0 true ((freeOps m.replaced 0 ins.ops).map Fmt.text)))) := by
  obtain ⟨hname, ins', hi', hf⟩ := mnem_fits hm
  rw [hi] at hi'
  obtain rfl := Option.some.inj hi'
  have hp : (m.replaced.map (·.1)).Pairwise (· < ·) := by
    simp only [Mnem.fits, Bool.and_eq_true, decide_eq_true_eq] at hf
    exact hf.1.1.1
  obtain ⟨s, hs, h1, h2⟩ := loop_eq m ins ho (hname ▸ hr) hp ins.ops 0 {} ⟨by simp, by simp⟩
  rw [find_mnem hm hi]
  unfold mnemItem
  rw [hs]
  simp only [Option.map_some, stream_blank, h1, List.nil_append, hname]

/-- C118. The mnemonics that fill a place with the operand before it show this operand twice. -/
theorem C118_repeats :
    hover tables n!"VNOT" = some t!"Operands: V,V  \nMnemonic code for VNO instruction\nSubstituted operands: V,V,V\nInstruction format: VRR-c" ∧
    hover tables n!"NOTR" = some t!"Operands: R,R  \nMnemonic code for NORK instruction\nSubstituted operands: R,R,R\nInstruction format: RRF-a" ∧
    hover tables n!"NOTGR" = some t!"Operands: R,R  \nMnemonic code for NOGRK instruction\nSubstituted operands: R,R,R\nInstruction format: RRF-a" := by
  decide +kernel

/-! ## What may be written -/

theorem freeOps_cons (x : Nat × Nat) (rep : List (Nat × Nat)) (fs : List Fmt) : ∀ i, (∀ y ∈ rep, x.1 < y.1) → i ≤ x.1 → x.1 < i + fs.length →
    freeOps (x :: rep) i fs = (freeOps rep i fs).eraseIdx (x.1 - i) ∧ (freeOps rep i fs)[x.1 - i]? = fs[x.1 - i]? := by
  induction fs with
  | nil => intro i _ h1 h2; simp at h2; omega
  | cons f fs ih =>
    intro i hy h1 h2
    simp only [List.length_cons] at h2
    have hno : ∀ j, j ≤ x.1 → rep.any (·.1 == j) = false := by
      intro j hj
      rw [List.any_eq_false]
      intro y hy'
      have := hy y hy'
      simp; omega
    have hno' : ∀ (fs : List Fmt) j, x.1 < j → freeOps (x :: rep) j fs = freeOps rep j fs := by
      intro fs
      induction fs with
      | nil => intros; rfl
      | cons f fs ih =>
        intro j hj
        have : (x.1 == j) = false := by simp; omega
        simp only [freeOps, List.any_cons, this, Bool.false_or, ih (j + 1) (by omega)]
    by_cases he : x.1 = i
    · subst he
      simp only [freeOps, List.any_cons, beq_self_eq_true, Bool.true_or, if_true, hno _ (Nat.le_refl _), Bool.false_eq_true, if_false, Nat.sub_self]
      exact ⟨hno' _ _ (by omega), rfl⟩
    · have hne : (x.1 == i) = false := by simpa using he
      obtain ⟨e1, e2⟩ := ih (i + 1) hy (by omega) (by omega)
      have hs : x.1 - i = (x.1 - (i + 1)) + 1 := by omega
      simp only [freeOps, List.any_cons, hne, Bool.false_or, hno i h1, Bool.false_eq_true, if_false, hs, List.eraseIdx_cons_succ, List.getElem?_cons_succ]
      exact ⟨by rw [e1], e2⟩

/-- The statement has an operand that is accepted in every place. -/
def Fits (ws : List (Option Written)) (fs : List Fmt) : Prop :=
  ws.length = fs.length ∧ ∀ (i : Nat) (f : Fmt), fs[i]? = some f → ∃ w, ws[i]? = some (some w) ∧ Accepted f.place w

theorem fits_insert (ws : List (Option Written)) (gs : List Fmt) (p : Nat) (w : Written) (hp : p < gs.length) (hw : Accepted gs[p].place w)
    (hl : ws.length + 1 = gs.length) : Fits (ws.insertIdx p (some w)) gs ↔ Fits ws (gs.eraseIdx p) := by
  unfold Fits
  rw [List.length_insertIdx_of_le_length (by omega), List.length_eraseIdx_of_lt hp]
  refine and_congr (by omega) ⟨fun h i f hf => ?_, fun h i f hf => ?_⟩
  · rw [List.getElem?_eraseIdx] at hf
    split at hf
    · rename_i hi
      have := h i f hf
      rwa [List.getElem?_insertIdx_of_lt hi] at this
    · rename_i hi
      have := h (i + 1) f hf
      rwa [List.getElem?_insertIdx_of_gt (by omega), Nat.add_sub_cancel] at this
  · rcases Nat.lt_trichotomy i p with hi | rfl | hi
    · rw [List.getElem?_insertIdx_of_lt hi]
      exact h i f (by rw [List.getElem?_eraseIdx_of_lt hi]; exact hf)
    · rw [List.getElem?_eq_getElem hp] at hf
      obtain rfl := Option.some.inj hf
      exact ⟨w, by rw [List.getElem?_insertIdx_self, if_pos (by omega)], hw⟩
    · rw [List.getElem?_insertIdx_of_gt hi]
      refine h (i - 1) f ?_
      rw [List.getElem?_eraseIdx_of_ge (by omega), show i - 1 + 1 = i by omega]
      exact hf

theorem freeOps_nil (fs : List Fmt) : ∀ i, freeOps [] i fs = fs := by
  induction fs with
  | nil => intro i; rfl
  | cons f fs ih => intro i; simp [freeOps, ih]

theorem fits_fixed (rep : List (Nat × Nat)) (fs : List Fmt) (hp : (rep.map (·.1)).Pairwise (· < ·))
    (hin : ∀ x ∈ rep, x.1 < fs.length) (hok : ∀ x ∈ rep, ∀ f, fs[x.1]? = some f → Accepted f.place (.plain (.abs x.2))) :
    (freeOps rep 0 fs).length + rep.length = fs.length ∧
    ∀ ws : List (Option Written), ws.length + rep.length = fs.length → (Fits (insertFixed rep ws) fs ↔ Fits ws (freeOps rep 0 fs)) := by
  induction rep with
  | nil => exact ⟨by simp [freeOps_nil], fun ws _ => by simp [insertFixed, freeOps_nil]⟩
  | cons x rep ih =>
    rw [List.map_cons, List.pairwise_cons] at hp
    obtain ⟨hlen, hiff⟩ := ih hp.2 (fun y hy => hin y (List.mem_cons_of_mem _ hy)) (fun y hy => hok y (List.mem_cons_of_mem _ hy))
    have hx := hin x List.mem_cons_self
    obtain ⟨e1, e2⟩ := freeOps_cons x rep fs 0 (fun y hy => hp.1 _ (List.mem_map.2 ⟨y, hy, rfl⟩)) (Nat.zero_le _) (by omega)
    rw [Nat.sub_zero] at e1 e2
    have hlt : x.1 < (freeOps rep 0 fs).length := by
      rw [List.getElem?_eq_getElem hx] at e2
      exact (List.getElem?_eq_some_iff.1 e2).1
    have hacc : Accepted ((freeOps rep 0 fs)[x.1]).place (.plain (.abs x.2)) := by
      rw [List.getElem?_eq_getElem hlt] at e2
      exact hok x List.mem_cons_self _ e2.symm
    refine ⟨?_, fun ws hws => ?_⟩
    · rw [e1, List.length_eraseIdx_of_lt hlt, List.length_cons]; omega
    · simp only [List.length_cons] at hws
      rw [show insertFixed (x :: rep) ws = insertFixed rep (ws.insertIdx x.1 (some (.plain (.abs x.2)))) from rfl]
      rw [hiff _ (by rw [List.length_insertIdx_of_le_length (by omega)]; omega), e1]
      exact fits_insert ws _ x.1 _ hlt hacc (by omega)

theorem fits_statement (n : OpName) (ins : Instr) (hi : tables.instr n = some ins) (ho : ins.opt = 0) (ws : List (Option Written)) (hd : AllDefined ws) :
    tables.Accepts n ws ↔ Fits ws ins.ops := by
  rw [C92_statement n ins hi ws hd, ho, Nat.sub_zero]
  unfold Fits
  constructor
  · rintro ⟨⟨h1, h2⟩, h⟩
    refine ⟨by omega, fun i f hf => ?_⟩
    have hlt : i < ws.length := by have := (List.getElem?_eq_some_iff.1 hf).1; omega
    obtain ⟨x, hx, ha⟩ := h i _ f (List.getElem?_eq_getElem hlt) hf
    exact ⟨x, by rw [List.getElem?_eq_getElem hlt, hx], ha⟩
  · rintro ⟨h1, h⟩
    refine ⟨by omega, fun i w f hw hf => ?_⟩
    obtain ⟨x, hx, ha⟩ := h i f hf
    exact ⟨x, by rw [hw] at hx; exact Option.some.inj hx, ha⟩

theorem insertFixed_defined (rep : List (Nat × Nat)) : ∀ ws, AllDefined ws → AllDefined (insertFixed rep ws) := by
  induction rep with
  | nil => intro ws h; exact h
  | cons x rep ih =>
    intro ws h
    refine ih _ fun w hw => ?_
    rcases List.eq_or_mem_of_mem_insertIdx hw with he | hw
    · rw [Option.some.inj he]; simp [Written.Defined]
    · exact h w hw

/-- C118. The operands shown for a mnemonic are those it takes: a statement is accepted exactly if it has one operand for each of them,
which is accepted in its place. Missing: mnemonics of instructions with optional operands, which are never accepted (`C93_never`), and
the six mnemonics of `C94_witness`. -/
theorem C118_taken_partial (n : OpName) (m : Mnem) (ins : Instr) (hm : tables.mnem n = some m) (hi : tables.instr m.base = some ins) (ho : ins.opt = 0)
    (hn : n ∉ misplaced) (ws : List (Option Written)) (hd : AllDefined ws) :
    tables.Accepts n ws ↔ ws.length = (freeOps m.replaced 0 ins.ops).length ∧
      ∀ (i : Nat) (f : Fmt), (freeOps m.replaced 0 ins.ops)[i]? = some f → ∃ w, ws[i]? = some (some w) ∧ Accepted f.place w := by
  have hf := fitting hm hi hn
  have hin : ∀ x ∈ m.replaced, x.1 < ins.ops.length := fun x hx => by have := hf.inside x hx; omega
  have hok : ∀ x ∈ m.replaced, ∀ f, ins.ops[x.1]? = some f → Accepted f.place (.plain (.abs x.2)) := fun x hx f hff => by
    have hfm := format_ok hi (List.mem_of_getElem? hff)
    rw [← C92_exact f hfm, C92_operand_partial f hfm (.plain (.abs x.2)) trivial (by rintro ⟨-, d, x, h⟩; cases h)]
    exact C93_fixed n m ins hm hi hn x.1 x.2 hx f hff
  obtain ⟨hlen, hiff⟩ := fits_fixed m.replaced ins.ops hf.increasing hin hok
  show _ ↔ Fits ws (freeOps m.replaced 0 ins.ops)
  by_cases hc : ws.length + m.replaced.length = ins.ops.length
  · rw [← hiff ws hc, ← fits_statement m.base ins hi ho _ (insertFixed_defined _ _ hd)]
    exact C93_accept_partial n m ins hm hi hn ho ws hd
  · constructor
    · intro h
      unfold Tables.Accepts at h
      rw [C93_count n m ins hm hi hn ho _ (by simpa using hc)] at h
      simp at h
    · rintro ⟨h, -⟩; omega

/-! ## The other instructions -/

/-- C118. Hovering over an assembler instruction shows its name and its description. -/
theorem C118_assembler (n : OpName) (e : OpName × Text) (h : asmInstrs.find? (·.1 == n) = some e) :
    hover tables n = some (nameText n ++ t!"   " ++ e.2 ++ t!"  \nAssembler instruction") := by
  obtain ⟨hn, h1, -⟩ := asm_mem h
  unfold hover findItem
  rw [h1, h]
  simp [asmItem, stream, hn]

/-- C118. Hovering over a conditional assembly instruction says that it is one. -/
theorem C118_conditional (n : OpName) (h : n ∈ caInstrs) : hover tables n = some t!"  \nConditional Assembly" := by
  obtain ⟨h1, h2, h3⟩ := ca_mem h
  unfold hover findItem
  rw [h1, h3, h2]
  have : caInstrs.find? (· == n) = some n := by
    cases hf : caInstrs.find? (· == n) with
    | none => exact absurd (by simp) (List.find?_eq_none.1 hf n h)
    | some k => rw [show k = n by simpa using List.find?_some hf]
  rw [this]
  rfl

/-- C118. Nothing is shown for a name that is no instruction. -/
theorem C118_unknown (n : OpName) (h1 : tables.instr n = none) (h2 : tables.mnem n = none) (h3 : n ∉ asmInstrs.map (·.1)) (h4 : n ∉ caInstrs) :
    hover tables n = some [] := by
  unfold hover findItem
  have e3 : asmInstrs.find? (·.1 == n) = none := by
    rw [List.find?_eq_none]
    intro e he hn
    exact h3 (List.mem_map.2 ⟨e, he, by simpa using hn⟩)
  have e4 : caInstrs.find? (· == n) = none := by
    rw [List.find?_eq_none]
    intro k hk hn
    exact h4 (by rw [← show k = n by simpa using hn]; exact hk)
  rw [h1, e3, h2, e4]
  rfl

/-- C118. A name is the name of one kind of instruction only, so that what is shown for one does not hide another. -/
theorem C118_one_kind (n : OpName) : ((if (tables.instr n).isSome then 1 else 0) + (if (tables.mnem n).isSome then 1 else 0) +
    (if n ∈ asmInstrs.map (·.1) then 1 else 0) + (if n ∈ caInstrs then 1 else 0)) ≤ 1 := by
  have ha : n ∈ asmInstrs.map (·.1) → tables.instr n = none ∧ tables.mnem n = none ∧ n ∉ caInstrs := by
    intro h
    obtain ⟨e, he, rfl⟩ := List.mem_map.1 h
    cases hf : asmInstrs.find? (·.1 == e.1) with
    | none => exact absurd (by simp) (List.find?_eq_none.1 hf e he)
    | some e' =>
      obtain ⟨-, h1, h2⟩ := asm_mem hf
      exact ⟨h1, h2, fun h => by rw [(ca_mem h).2.2] at hf; cases hf⟩
  by_cases h1 : n ∈ asmInstrs.map (·.1)
  · obtain ⟨e1, e2, e3⟩ := ha h1
    rw [e1, e2, if_pos h1, if_neg e3]
    decide
  · rw [if_neg h1]
    by_cases h2 : n ∈ caInstrs
    · obtain ⟨e1, e2, -⟩ := ca_mem h2
      rw [e1, e2, if_pos h2]
      decide
    · rw [if_neg h2]
      cases hi : tables.instr n with
      | none => cases tables.mnem n <;> simp
      | some ins => rw [disjoint hi]; simp

theorem mnems_shown : (mnems.all fun m => match findRec m.base instrs with
    | some ins => (MnemSt.loop m ins 0 ins.ops {}).isSome
    | none => false) = true := by decide +kernel

/-- C118. The list of items can be made, and there is an answer for every name: no operand is looked for that an instruction does not
have, and every mnemonic stands for an instruction that exists. -/
theorem C118_total (n : OpName) : (hover tables n).isSome = true := by
  unfold hover
  rw [Option.isSome_map]
  unfold findItem
  cases h1 : tables.instr n with
  | some ins => rfl
  | none =>
    simp only []
    cases h2 : asmInstrs.find? (·.1 == n) with
    | some e => rfl
    | none =>
      simp only []
      cases h3 : tables.mnem n with
      | none => rfl
      | some m =>
        obtain ⟨-, ins, hi, -⟩ := mnem_fits h3
        have := List.all_eq_true.1 mnems_shown m (List.mem_of_find?_eq_some h3)
        rw [findRec_eq, show instrs.find? (·.name == m.base) = some ins from hi] at this
        simp only [hi, Option.bind_some, Option.isSome_map, mnemItem]
        exact this

/-! ## The notation of operands and formats -/

theorem formats_written : (formats.all fun f => written.contains (f, f.text)) = true := by decide +kernel

theorem names_right : (instrs.all fun i => formatNames.contains (i.fmt, formatText i.fmt)) = true := by decide +kernel

/-- C118. Every operand of a machine instruction is written as in manuals, and so is the format of the instruction. -/
theorem C118_notation (n : OpName) (ins : Instr) (h : tables.instr n = some ins) :
    (∀ f ∈ ins.ops, (f, f.text) ∈ written) ∧ (ins.fmt, formatText ins.fmt) ∈ formatNames := by
  refine ⟨fun f hf => ?_, ?_⟩
  · have := List.all_eq_true.1 formats_written f (formats_of h f hf)
    simpa using this
  · have := List.all_eq_true.1 names_right ins (List.mem_of_find?_eq_some h)
    simpa using this

/-- C118. An item carries the name of its instruction, and what completion inserts begins with that name; for assembler and conditional
assembly instructions, whose operands are only described, nothing else is inserted. -/
theorem C118_named (n : OpName) (it : Item) (h : findItem tables n = some (some it)) :
    it.label = n ∧ (∃ rest, it.insert = nameText n ++ rest) ∧
      (n ∈ asmInstrs.map (·.1) → it.insert = nameText n ++ t!"   ") ∧ (n ∈ caInstrs → it.insert = nameText n) := by
  have one := C118_one_kind n
  cases h1 : tables.instr n with
  | some ins =>
    rw [find_mach h1] at h
    cases h
    have hn : ins.name = n := by simpa using List.find?_some h1
    rw [h1] at one
    refine ⟨hn, ⟨_, by rw [machItem, hn, List.append_assoc]⟩, fun ha => ?_, fun hc => ?_⟩
    · rw [if_pos ha] at one; simp at one; omega
    · rw [if_pos hc] at one; simp at one
  | none =>
    unfold findItem at h
    rw [h1] at h
    simp only at h
    cases h2 : asmInstrs.find? (·.1 == n) with
    | some e =>
      rw [h2] at h
      cases h
      obtain ⟨hn, -, -⟩ := asm_mem h2
      refine ⟨hn, ⟨_, by rw [asmItem, hn]⟩, fun _ => by rw [asmItem, hn], fun hc => ?_⟩
      rw [(ca_mem hc).2.2] at h2; cases h2
    | none =>
      rw [h2] at h
      have hna : n ∉ asmInstrs.map (·.1) := by
        intro hm
        obtain ⟨e, he, hen⟩ := List.mem_map.1 hm
        exact List.find?_eq_none.1 h2 e he (by simpa using hen)
      simp only at h
      cases h3 : tables.mnem n with
      | some m =>
        rw [h3] at h
        obtain ⟨hname, -⟩ := mnem_fits h3
        simp only at h
        cases hb : (tables.instr m.base).bind (mnemItem m) with
        | none => rw [hb] at h; cases h
        | some it' =>
          rw [hb] at h
          simp only [Option.map_some, Option.some.injEq] at h
          subst h
          cases hi : tables.instr m.base with
          | none => rw [hi] at hb; cases hb
          | some ins =>
            rw [hi, Option.bind_some, mnemItem, Option.map_eq_some_iff] at hb
            obtain ⟨s, -, rfl⟩ := hb
            refine ⟨hname, ⟨t!"   " ++ stream t!" " s.without, by simp [hname]⟩, fun ha => absurd ha hna, fun hc => ?_⟩
            rw [(ca_mem hc).2.1] at h3; cases h3
      | none =>
        rw [h3] at h
        simp only [Option.some.injEq] at h
        cases h4 : caInstrs.find? (· == n) with
        | none => rw [h4] at h; cases h
        | some k =>
          have hk : k = n := by simpa using List.find?_some h4
          subst hk
          rw [h4] at h
          cases h
          exact ⟨rfl, ⟨[], by simp [caItem]⟩, fun ha => absurd ha hna, fun _ => rfl⟩

/-! ## Where the help is wrong -/

/-- C118 does not hold for `IPTE`, whose last two operands may be left out: a comma is missing, and a bracket is closed that was not
opened. -/
theorem C118_witness_brackets : (tables.instr n!"IPTE").map (fun i => (i.ops.length, i.opt)) = some (4, 2) ∧
    hover tables n!"IPTE" = some t!"Operands: R,R[,R]M]]  \nMachine instruction \nInstruction format: RRF-a" ∧
    listed [] 2 true [t!"R", t!"R", t!"R", t!"M"] = t!"R,R[,R[,M]]" := by
  decide +kernel

/-- C118 does not hold for mnemonics of instructions with optional operands: the operands that must be written are not shown. `VFAEB` has
three vector registers and a mask, `XHLR` two registers. -/
theorem C118_witness_lost :
    (tables.mnem n!"VFAEB").map (·.replaced) = some [(3, 0)] ∧
    (tables.instr n!"VFAE").map (fun i => (i.ops, i.opt)) = some ([vec_reg_4_U, vec_reg_4_U, vec_reg_4_U, mask_4_U, mask_4_U], 1) ∧
    hover tables n!"VFAEB" = some t!"Operands: [,M]  \nMnemonic code for VFAE instruction\nSubstituted operands: ,0[,M]\nInstruction format: VRR-b" ∧
    hover tables n!"XHLR" = some t!"Operands:    \nMnemonic code for RXSBG instruction\nSubstituted operands: ,0,31[,32]\nInstruction format: RIE-f" := by
  decide +kernel

/-- C118 is about real instructions. -/
example : hover tables n!"LA" = some t!"Operands: R,D12U(X,B)  \nMachine instruction \nInstruction format: RX-a" ∧
    hover tables n!"VL" = some t!"Operands: V,D12U(X,B)[,M]  \nMachine instruction \nInstruction format: VRX" ∧
    hover tables n!"BE" = some t!"Operands: D12U(X,B)  \nMnemonic code for BC instruction\nSubstituted operands: 8,D12U(X,B)\nInstruction format: RX-b" ∧
    hover tables n!"PR" = some t!"Operands:   \nMachine instruction \nInstruction format: E" ∧
    hover tables n!"ISEQ" = some t!"ISEQ   ?<left,right>  \nAssembler instruction" ∧
    hover tables n!"AIF" = some t!"  \nConditional Assembly" ∧ hover tables n!"ABC" = some [] ∧
    (findItem tables n!"IPTE").map (Option.map Item.insert) = some (some t!"IPTE   R,R [,R[,M]]") := by
  decide +kernel

/-- C118: `LA` and `IC` show the same operands, `LA` and `MVC` do not; the hypotheses of `C118_taken_partial` are met by `BE`. -/
example : (findItem tables n!"LA").map (Option.map Item.detail) = (findItem tables n!"IC").map (Option.map Item.detail) ∧
    (findItem tables n!"LA").map (Option.map Item.detail) ≠ (findItem tables n!"MVC").map (Option.map Item.detail) ∧
    (tables.instr n!"BC").map (·.opt) = some 0 ∧ n!"BE" ∉ misplaced ∧ n!"BE" ∉ repeating ∧ freeOps [(0, 8)] 0 [mask_4_U, dxb_12_4x4_U] = [dxb_12_4x4_U] := by
  decide +kernel

end Verif.Help
