import Verif.Context.Opsyn
/-!
C36: OPSYN behaves like assignment of meanings to names.
-/
namespace Verif.Context.Opsyn

/-- Specification: an environment from names to meanings, changed by assignment. A statement whose source name means nothing
has no effect. -/
abbrev Env := Name → Option Meaning

def specStep (e : Env) : Op → Env
  | .opsyn l o => if (e o).isSome then upd e l (e o) else e
  | .delete l => upd e l none
  | .define n d => upd e n (some (.macro d))

def specRun (e : Env) (ops : List Op) : Env := ops.foldl specStep e

/-- Names an OPSYN statement has been applied to. -/
def St.renamed (s : St) (n : Name) : Bool := (s.mnemo n).isSome

theorem code_step (s : St) (op : Op) (h : ∀ n d, op = .define n d → s.renamed n = false) :
    ∃ s', s.step op = some s' ∧ s'.code = specStep s.code op := by
  cases op with
  | opsyn l o =>
    simp only [St.step, specStep]
    split
    · next ho =>
      unfold St.addMnemonic
      cases hm : s.mnemo o with
      | some m =>
        cases m with
        | none => simp [St.code, hm] at ho
        | some m =>
          refine ⟨_, rfl, ?_⟩
          funext n
          by_cases e : n = l <;> simp [St.code, upd, hm, e, St.builtin]
      | none =>
        cases hb : s.builtin o with
        | none => simp [St.code, hm, hb] at ho
        | some m =>
          refine ⟨_, rfl, ?_⟩
          funext n
          by_cases e : n = l <;> simp [St.code, upd, hm, e, hb] <;> rfl
    · exact ⟨s, rfl, rfl⟩
  | delete l =>
    simp only [St.step, specStep]
    split
    · next hl =>
      unfold St.removeMnemonic
      have : (s.mnemo l).isSome ∨ s.isOpcode l := by
        cases hm : s.mnemo l with
        | some m => simp
        | none => right; simpa [St.code, hm, St.isOpcode] using hl
      rw [if_pos this]
      refine ⟨_, rfl, ?_⟩
      funext n
      by_cases e : n = l <;> simp [St.code, upd, e, St.builtin]
    · next hl =>
      refine ⟨s, rfl, ?_⟩
      funext n
      simp only [upd]
      split
      · next e => subst e; simpa using hl
      · rfl
  | define m d =>
    refine ⟨_, rfl, ?_⟩
    have hr := h m d rfl
    have hr' : s.mnemo m = none := by simpa [St.renamed] using hr
    funext n
    simp only [St.code, specStep, upd, St.builtin]
    by_cases e : n = m
    · subst e; simp [hr']
    · simp [e]

theorem renamed_step (s s' : St) (op : Op) (h : s.step op = some s') (n : Name) :
    s'.renamed n = true → s.renamed n = true ∨ (∃ o, op = .opsyn n o) ∨ op = .delete n := by
  cases op with
  | opsyn l o =>
    simp only [St.step] at h
    split at h
    · unfold St.addMnemonic at h
      have hu : ∀ m, s' = { s with mnemo := upd s.mnemo l (some (some m)) } →
          s'.renamed n = true → s.renamed n = true ∨ (∃ o', Op.opsyn l o = .opsyn n o') ∨ Op.opsyn l o = .delete n := by
        intro m e hr
        subst e
        simp only [St.renamed, upd] at hr
        by_cases en : n = l
        · subst en; right; left; exact ⟨o, rfl⟩
        · left; simpa [en, St.renamed] using hr
      split at h
      · simp at h
      · next m _ => simp at h; exact hu m h.symm
      · split at h
        · next m _ => simp at h; exact hu m h.symm
        · simp at h
    · simp at h; subst h; intro hr; left; exact hr
  | delete l =>
    simp only [St.step] at h
    split at h
    · unfold St.removeMnemonic at h
      split at h
      · simp at h; subst h
        intro hr
        simp only [St.renamed, upd] at hr
        by_cases en : n = l
        · subst en; right; right; rfl
        · left; simpa [en, St.renamed] using hr
      · simp at h
    · simp at h; subst h; intro hr; left; exact hr
  | define m d => simp [St.step] at h; subst h; intro hr; left; exact hr

/-- Every macro definition in the history comes before any OPSYN statement for its name. -/
def DefinedFirst (touched : Name → Bool) : List Op → Prop
  | [] => True
  | .opsyn l _ :: ops => DefinedFirst (upd touched l true) ops
  | .delete l :: ops => DefinedFirst (upd touched l true) ops
  | .define n _ :: ops => touched n = false ∧ DefinedFirst touched ops

/-- C36 (partial: a macro definition must not follow an OPSYN of the same name): OPSYN never fails with an exception, and
after any history every operation name denotes what the specification says. -/
theorem C36_refines_partial (ops : List Op) : ∀ (s : St) (touched : Name → Bool), (∀ n, s.renamed n = true → touched n = true) →
    DefinedFirst touched ops → ∃ s', s.run ops = some s' ∧ s'.code = specRun s.code ops := by
  induction ops with
  | nil => intro s _ _ _; exact ⟨s, rfl, rfl⟩
  | cons op ops ih =>
    intro s touched ht hd
    have hdef : ∀ n d, op = .define n d → s.renamed n = false := by
      rintro n d rfl
      simp only [DefinedFirst] at hd
      cases hr : s.renamed n with
      | false => rfl
      | true => have := ht n hr; rw [hd.1] at this; simp at this
    obtain ⟨s', h1, h2⟩ := code_step s op hdef
    have hren := renamed_step s s' op h1
    have next : ∃ t', (∀ n, s'.renamed n = true → t' n = true) ∧ DefinedFirst t' ops := by
      cases op with
      | opsyn l o =>
        refine ⟨upd touched l true, ?_, hd⟩
        intro n hn
        rcases hren n hn with h | ⟨o', h⟩ | h
        · simp only [upd]; split
          · rfl
          · exact ht n h
        · simp at h; simp [upd, h.1]
        · simp at h
      | delete l =>
        refine ⟨upd touched l true, ?_, hd⟩
        intro n hn
        rcases hren n hn with h | ⟨o', h⟩ | h
        · simp only [upd]; split
          · rfl
          · exact ht n h
        · simp at h
        · simp at h; simp [upd, h]
      | define m d =>
        refine ⟨touched, ?_, hd.2⟩
        intro n hn
        rcases hren n hn with h | ⟨o', h⟩ | h
        · exact ht n h
        · simp at h
        · simp at h
    obtain ⟨t', ht', hd'⟩ := next
    obtain ⟨s'', h3, h4⟩ := ih s' t' ht' hd'
    refine ⟨s'', by simp [St.run, h1, h3], ?_⟩
    rw [h4, h2]; rfl

/-- C36, for pure OPSYN histories there is no side condition. -/
theorem C36_opsyn_only (s : St) (ops : List Op) (h : ∀ op ∈ ops, ∀ n d, op ≠ .define n d) :
    ∃ s', s.run ops = some s' ∧ s'.code = specRun s.code ops := by
  refine C36_refines_partial ops s (fun _ => true) (fun _ _ => rfl) ?_
  have gen : ∀ (ops : List Op) t, (∀ op ∈ ops, ∀ n d, op ≠ .define n d) → DefinedFirst t ops := by
    intro ops
    induction ops with
    | nil => intro t _; trivial
    | cons op ops ih =>
      intro t h
      cases op with
      | opsyn l o => exact ih _ (fun o ho => h o (by simp [ho]))
      | delete l => exact ih _ (fun o ho => h o (by simp [ho]))
      | define n d => exact absurd rfl (h _ (by simp) n d)
  exact gen ops _ h

/-- C36: names no statement mentions as label are unaffected. -/
theorem C36_unmentioned (s s' : St) (ops : List Op) (n : Name) (hr : s.run ops = some s')
    (h : ∀ op ∈ ops, (∀ o, op ≠ .opsyn n o) ∧ op ≠ .delete n ∧ ∀ d, op ≠ .define n d) : s'.code n = s.code n := by
  induction ops generalizing s with
  | nil => simp [St.run] at hr; subst hr; rfl
  | cons op ops ih =>
    obtain ⟨h1, h2, h3⟩ := h op (by simp)
    simp only [St.run] at hr
    cases hs : s.step op with
    | none => rw [hs] at hr; simp at hr
    | some s1 =>
      rw [hs] at hr
      rw [ih s1 hr (fun o ho => h o (by simp [ho]))]
      cases op with
      | opsyn l o =>
        have hl : n ≠ l := fun e => h1 o (by rw [e])
        simp only [St.step] at hs
        split at hs
        · unfold St.addMnemonic at hs
          split at hs
          · simp at hs
          · simp at hs; subst hs; simp [St.code, upd, hl, St.builtin]
          · split at hs
            · simp at hs; subst hs; simp [St.code, upd, hl, St.builtin]
            · simp at hs
        · simp at hs; subst hs; rfl
      | delete l =>
        have hl : n ≠ l := fun e => h2 (by rw [e])
        simp only [St.step] at hs
        split at hs
        · unfold St.removeMnemonic at hs
          split at hs
          · simp at hs; subst hs; simp [St.code, upd, hl, St.builtin]
          · simp at hs
        · simp at hs; subst hs; rfl
      | define m d =>
        have hl : n ≠ m := fun e => h3 d (by rw [e])
        simp [St.step] at hs; subst hs; simp [St.code, upd, hl, St.builtin]

/-- C36: a name that denotes a macro is expanded with exactly that macro definition. -/
theorem C36_call_target (s : St) (n : Name) (d : Nat) (h : s.code n = some (.macro d)) : s.macroOf n = some d := by
  unfold St.code at h
  unfold St.macroOf
  cases hm : s.mnemo n with
  | some m => rw [hm] at h; simp only at h; subst h; rfl
  | none =>
    rw [hm] at h
    simp only [St.builtin] at h ⊢
    cases hb : s.macros n with
    | some d' => rw [hb] at h; simp at h; simp [h]
    | none => rw [hb] at h; simp at h

/-- Violation: a macro defined after its name was deleted stays undefined; defined after a renaming, it is ignored. -/
theorem C36_witness_redefined :
    let s : St := { instrs := fun n => n = 1 ∨ n = 2 }
    ((s.run [.delete 1, .define 1 7]).map fun s => s.code 1) = some none ∧
    ((s.run [.opsyn 1 2, .define 1 7]).map fun s => s.code 1) = some (some (.instr 2)) := by decide

/-- Non-vacuity: a swap through a third name. -/
example : let s : St := { instrs := fun n => n = 1 ∨ n = 2 }
    ((s.run [.opsyn 3 1, .opsyn 1 2, .opsyn 2 3, .delete 3]).map fun s => (s.code 1, s.code 2, s.code 3)) =
      some (some (.instr 2), some (.instr 1), none) := by decide

end Verif.Context.Opsyn
