import Verif.Define.Props

/-!
C117: the answers for open code and for members, and the text over symbols.
-/
namespace Verif.Define

open MacroDef

/-! ## Open code -/

theorem addOpen_find (file : File) (d : Decl) (n : Name) (vars : List OpenVar) :
    (addOpen file vars d).find? (·.name == n) =
      (vars ++ (if d.created = false then [(⟨d.name, d.type, ⟨file, d.line, d.column⟩⟩ : OpenVar)] else [])).find? (·.name == n) := by
  unfold addOpen
  by_cases h2 : d.created = true
  · simp [h2]
  by_cases h3 : vars.any (·.name == d.name) = true
  · rw [if_neg h2, if_pos h3, if_pos (by simpa using h2), List.find?_append]
    cases hf : vars.find? (·.name == n) with
    | some v => rfl
    | none =>
      rw [List.find?_eq_none] at hf
      obtain ⟨v, hv, he⟩ := List.any_eq_true.1 h3
      have := hf v hv
      have hne : d.name ≠ n := by
        intro e
        rw [e] at he
        exact this he
      simp [hne]
  · rw [if_neg h2, if_neg h3, if_pos (by simpa using h2)]

theorem foldl_addOpen_find (file : File) (n : Name) (ds : List Decl) : ∀ vars : List OpenVar,
    (ds.foldl (addOpen file) vars).find? (·.name == n) =
      (vars ++ (ds.filter (!·.created)).map fun d => (⟨d.name, d.type, ⟨file, d.line, d.column⟩⟩ : OpenVar)).find? (·.name == n) := by
  induction ds with
  | nil => intro vars; simp
  | cons d ds ih =>
    intro vars
    rw [List.foldl_cons, ih, List.find?_append, addOpen_find, List.find?_append, List.find?_append]
    by_cases h2 : d.created = true
    · simp [h2]
    · simp only [h2, List.filter_cons, if_true, Bool.not_false, List.map_cons, List.find?_cons]
      cases hf : vars.find? (·.name == n) with
      | some v => simp
      | none => by_cases hn : d.name == n <;> simp [hn]

theorem openVars_find (es : List Exec) (n : Name) : ∀ vars : List OpenVar, (es.foldl openStep vars).find? (·.name == n) =
    (vars ++ (openDeclarations es).map fun d => (⟨d.2.name, d.2.type, ⟨d.1, d.2.line, d.2.column⟩⟩ : OpenVar)).find? (·.name == n) := by
  induction es with
  | nil => intro vars; simp [openDeclarations]
  | cons e es ih =>
    intro vars
    have hc : openDeclarations (e :: es) = (if e.inMacro then [] else (e.decls.filter (!·.created)).map (e.file, ·)) ++ openDeclarations es := by
      simp only [openDeclarations, List.flatMap_cons]
    rw [List.foldl_cons, ih, hc, List.map_append, ← List.append_assoc, List.find?_append, List.find?_append (xs := vars ++ _)]
    congr 1
    unfold openStep
    by_cases h : e.inMacro = true
    · simp [h]
    · simp only [h, Bool.false_eq_true, if_false]
      rw [foldl_addOpen_find, List.map_map]
      rfl

/-- C117. Go to definition on a variable symbol of open code: the first `SETx`, `LCLx` or `GBLx` statement executed outside of macros that names it; without one
the answer is the place asked about. The text over the symbol tells the kind of the same declaration. -/
theorem C117_open (w : World) (es : List Exec) (hw : w.opens = openVars es) (o : LspCtx.Occ) (ho : o.kind = .var) (asked : Place) (mt : Macro → List Char) (it : Name → List Char) :
    (∀ f d, (openDeclarations es).find? (·.2.name == o.name) = some (f, d) →
      definition w (some (o, none)) asked = some ⟨f, d.line, d.column⟩ ∧ hoverOf w mt it o none = some (typeText (some d.type))) ∧
    ((openDeclarations es).find? (·.2.name == o.name) = none → definition w (some (o, none)) asked = some asked ∧ hoverOf w mt it o none = some []) := by
  have hf := openVars_find es o.name []
  rw [List.nil_append, List.find?_map] at hf
  have hf : w.opens.find? (·.name == o.name) = ((openDeclarations es).find? (·.2.name == o.name)).map
    fun d => (⟨d.2.name, d.2.type, ⟨d.1, d.2.line, d.2.column⟩⟩ : OpenVar) := by rw [hw]; exact hf
  constructor
  · intro f d hd
    rw [hd] at hf
    simp [definition, definitionOf, hoverOf, ho, hf, Found.ofOption]
  · intro hd
    rw [hd] at hf
    simp [definition, definitionOf, hoverOf, ho, hf, Found.ofOption]

/-! ## Macros -/

/-- C117. The answers for a macro whose definition was processed as in `C117_variable` and `C117_sequence`: the places found there are the answers, and the place asked
about is the answer if nothing was found. -/
theorem C117_scope (lib : Lib) (decls : Decls) (file : File) (above : List Name) (params : List Param) (ts : List Stmt) (hne : ts ≠ []) :
    ∃ k v, (∀ m, (startV file above params ts).go lib decls (k + m) = some (.done v)) ∧
      ∀ (w : World) (m : Macro) (o : LspCtx.Occ) (asked : Place) (mt : Macro → List Char) (it : Name → List Char),
      m.vars = v.vars → m.seqs = v.seqs → m.nests = v.run.st.nests →
      (o.kind = .var →
        (∀ p, params.find? (·.name == o.name) = some p → definition w (some (o, some m)) asked = some ⟨file, p.line, p.column⟩ ∧
          hoverOf w mt it o (some m) = some text!"MACRO parameter") ∧
        (∀ i d, params.find? (·.name == o.name) = none → (declarations decls (bodyOf lib file above ts)).find? (·.2.name == o.name) = some (i, d) →
          (∃ f, fileAt (bodyOf lib file above ts) i = some f ∧ definition w (some (o, some m)) asked = some ⟨f, d.line, d.column⟩) ∧
            hoverOf w mt it o (some m) = some (typeText (some d.type))) ∧
        (params.find? (·.name == o.name) = none → (declarations decls (bodyOf lib file above ts)).find? (·.2.name == o.name) = none →
          definition w (some (o, some m)) asked = some asked ∧ hoverOf w mt it o (some m) = some [])) ∧
      (o.kind = .seq →
        (∀ i p, declares (bodyOf lib file above ts) i = some o.name → (∀ j, j < i → declares (bodyOf lib file above ts) j ≠ some o.name) →
          (bodyOf lib file above ts)[i]? = some p → ∃ f, fileAt (bodyOf lib file above ts) i = some f ∧
            definition w (some (o, some m)) asked = some ⟨f, p.stmt.line, 0⟩) ∧
        ((∀ i, declares (bodyOf lib file above ts) i ≠ some o.name) → definition w (some (o, some m)) asked = some asked)) := by
  obtain ⟨k, v, hv, h⟩ := C117_variable lib decls file above params ts hne
  obtain ⟨k', v', hv', h'⟩ := C117_sequence lib decls file above params ts
  have e : v = v' := by
    have h1 := hv k'
    have h2 := hv' k
    rw [Nat.add_comm, h2] at h1
    simpa using h1.symm
  subst e
  refine ⟨k, v, hv, fun w m o asked mt it hm1 hm2 hm3 => ⟨fun ho => ?_, fun ho => ?_⟩⟩
  · obtain ⟨a1, a2, a3⟩ := h o.name
    refine ⟨fun p hp => ?_, fun i d hp hd => ?_, fun hp hd => ?_⟩
    · obtain ⟨b1, b2⟩ := a1 p hp
      refine ⟨by simp only [definition, definitionOf, ho, hm1, hm3, b1], ?_⟩
      simp only [hoverOf, ho, hm1]
      cases hf : v.vars.find? (·.name == o.name) with
      | none => rw [hf] at b2; simp at b2
      | some x =>
        rw [hf, Option.map_some, Option.some.injEq] at b2
        simp only [Option.map_some, Option.getD_some, b2, typeText]
    · obtain ⟨f, b0, b1, b2⟩ := a2 i d hp hd
      refine ⟨⟨f, b0, by simp only [definition, definitionOf, ho, hm1, hm3, b1]⟩, ?_⟩
      simp only [hoverOf, ho, hm1]
      cases hf : v.vars.find? (·.name == o.name) with
      | none => rw [hf] at b2; simp at b2
      | some x =>
        rw [hf, Option.map_some, Option.some.injEq] at b2
        simp only [Option.map_some, Option.getD_some, b2]
    · obtain ⟨b1, b2⟩ := a3 hp hd
      refine ⟨by simp only [definition, definitionOf, ho, hm1, hm3, b1], ?_⟩
      simp only [hoverOf, ho, hm1, b2, Option.map_none, Option.getD_none]
  · obtain ⟨a1, a2⟩ := h' o.name
    refine ⟨fun i p hi hj hp => ?_, fun hno => ?_⟩
    · obtain ⟨f, b1, b2⟩ := a1 i p hi hj hp
      exact ⟨f, b1, by simp [definition, definitionOf, ho, hm2, b2, Found.ofOption]⟩
    · simp [definition, definitionOf, ho, hm2, a2 hno, Found.ofOption]

/-! ## The other kinds -/

theorem mem_addFiles (fs : List (File × Owner)) (x : File × Owner) : ∀ acc : List (File × Owner), x ∈ fs.foldl addFile acc → x ∈ acc ∨ x ∈ fs := by
  induction fs with
  | nil => intro acc h; exact .inl h
  | cons f fs ih =>
    intro acc h
    rw [List.foldl_cons] at h
    rcases ih _ h with h | h
    · unfold addFile at h
      split at h
      · exact .inl h
      · rcases List.mem_append.1 h with h | h
        · exact .inl h
        · rw [List.mem_singleton] at h; subst h; exact .inr (by simp)
    · exact .inr (by simp [h])

theorem firstOwner_mem (fs : List (File × Owner)) (f : File) (o : Owner) : ∀ acc : List (File × Owner),
    (acc.any (·.1 == f) = false → firstOwner fs f = some o → (f, o) ∈ fs.foldl addFile acc) ∧ ((f, o) ∈ acc → (f, o) ∈ fs.foldl addFile acc) := by
  induction fs with
  | nil => intro acc; exact ⟨fun _ h => by simp [firstOwner] at h, id⟩
  | cons x fs ih =>
    intro acc
    have hkeep : (f, o) ∈ acc → (f, o) ∈ addFile acc x := by
      intro h; unfold addFile; split
      · exact h
      · exact List.mem_append_left _ h
    refine ⟨fun ha hf => ?_, fun h => by rw [List.foldl_cons]; exact (ih _).2 (hkeep h)⟩
    rw [List.foldl_cons]
    unfold firstOwner at hf
    rw [List.find?_cons] at hf
    by_cases hx : x.1 = f
    · have : x.2 = o := by simpa [hx] using hf
      refine (ih _).2 ?_
      unfold addFile
      rw [hx, ha]
      simp [← hx, ← this]
    · have hx' : (x.1 == f) = false := by simpa using hx
      rw [hx'] at hf
      refine (ih _).1 ?_ hf
      unfold addFile
      split
      · exact ha
      · rw [List.any_append, ha]; simp [hx]

/-- C117. Go to definition on an ordinary symbol gives the place of the symbol, on a macro instruction the place of the name in the prototype, on the operand
of `COPY` the beginning of the member, provided that the file of the member was read first as this member and that the member has one file. Without a definition, and
over anything that is no symbol, the answer is the place asked about. -/
theorem C117_place_partial (w : World) (adds : List (File × Owner)) (hw : w.files = adds.foldl addFile []) (o : LspCtx.Occ) (scope : Option Macro) (asked : Place) :
    (o.kind = .ord → ∀ s, w.symbols.find? (·.name == o.name) = some s → definition w (some (o, scope)) asked = some s.place) ∧
    (o.kind = .ord → (∀ s ∈ w.symbols, s.name ≠ o.name) → definition w (some (o, scope)) asked = some asked) ∧
    (o.kind = .instr → ∀ i m, o.opcode = some i → w.macros.find? (·.id == i) = some m → definition w (some (o, scope)) asked = some m.place) ∧
    (o.kind = .instr → o.opcode = none → definition w (some (o, scope)) asked = some asked) ∧
    (o.kind = .copyOp → ∀ f, firstOwner adds f = some (.copy o.name) → (∀ g, (g, Owner.copy o.name) ∈ adds → g = f) →
      definition w (some (o, scope)) asked = some ⟨f, 0, 0⟩) ∧
    (o.kind = .copyOp → (∀ g, (g, Owner.copy o.name) ∉ adds) → definition w (some (o, scope)) asked = some asked) ∧
    definition w none asked = some asked := by
  refine ⟨fun ho s hs => ?_, fun ho hs => ?_, fun ho i m hi hm => ?_, fun ho hi => ?_, fun ho f hf hu => ?_, fun ho hno => ?_, rfl⟩
  · simp [definition, definitionOf, ho, hs, Found.ofOption]
  · have : w.symbols.find? (·.name == o.name) = none := by
      rw [List.find?_eq_none]; intro s h; simpa using hs s h
    simp [definition, definitionOf, ho, this, Found.ofOption]
  · simp [definition, definitionOf, ho, hi, hm, Found.ofOption]
  · simp [definition, definitionOf, ho, hi]
  · have hm := (firstOwner_mem adds f (.copy o.name) []).1 rfl hf
    rw [← hw] at hm
    cases hfi : w.files.find? (·.2 == .copy o.name) with
    | none =>
      rw [List.find?_eq_none] at hfi
      exact absurd (hfi _ hm) (by simp)
    | some x =>
      have hx1 : x.2 = .copy o.name := by simpa using List.find?_some hfi
      have hx2 := List.mem_of_find?_eq_some hfi
      rw [hw] at hx2
      rcases mem_addFiles adds x [] hx2 with h | h
      · simp at h
      · have := hu x.1 (by rw [← hx1]; exact h)
        simp [definition, definitionOf, ho, hfi, Found.ofOption, this]
  · have : w.files.find? (·.2 == .copy o.name) = none := by
      rw [List.find?_eq_none]
      intro x hx he
      have he : x.2 = .copy o.name := by simpa using he
      rw [hw] at hx
      rcases mem_addFiles adds x [] hx with h | h
      · simp at h
      · exact hno x.1 (by rw [← he]; exact h)
    simp [definition, definitionOf, ho, this, Found.ofOption]

/-- C117. The file of the member is not found if a macro was read from it before: the answer is the place asked about. -/
theorem C117_witness_member : ∃ (adds : List (File × Owner)) (w : World) (o : LspCtx.Occ) (asked : Place), w.files = adds.foldl addFile [] ∧
    o.kind = .copyOp ∧ (5, Owner.copy o.name) ∈ adds ∧ asked.file ≠ 5 ∧ definition w (some (o, none)) asked = some asked :=
  ⟨[(1, .opencode), (5, .macro 0), (5, .copy 7)], ⟨[], [], [], [], [(1, .opencode), (5, .macro 0)]⟩, ⟨.copyOp, 7, ⟨⟨3, 15⟩, ⟨3, 18⟩⟩, none⟩, ⟨1, 3, 16⟩, by decide +kernel⟩

/-- The member of `C117_witness_nested`: one statement, `&V SETA 1`, in the file 2. -/
def nestedLib : Lib := [(9, ⟨2, [⟨0, none, .other 0⟩]⟩)]

/-- The body of the outer macro: an inner definition with its prototype, `COPY` of the member and its `MEND`, in the file 1. -/
def nestedBody : List Stmt := [⟨3, none, .mbegin⟩, ⟨4, none, .other 1⟩, ⟨5, none, .copy (some 9)⟩, ⟨6, none, .mend⟩, ⟨7, none, .mend⟩]

/-- The declaration in the member. -/
def nestedDecls : Decls := fun k => if k = 0 then [⟨20, .A, false, false, 0, 0⟩] else []

/-- C117. In an inner definition, which is processed when the outer macro is expanded, the copied statements have lost their files: the
symbol is written in the file 2, and the answer is the file of the outer macro. -/
theorem C117_witness_nested :
    ((bodyOf nestedLib 1 [] nestedBody)[3]?).map (fun p => (p.stmt.op, p.path.getLast?)) = some (.other 0, some ⟨2, 0⟩) ∧
    ∃ v, (startV 1 [] [] (((bodyOf nestedLib 1 [] nestedBody).map (·.stmt.executed)).drop 2)).go nestedLib nestedDecls 10 = some (.done v) ∧
      findVar v.vars v.run.st.nests 20 = .found ⟨1, 0, 0⟩ := by
  refine ⟨by decide +kernel, _, rfl, by decide +kernel⟩

/-- C117. A macro with a parameter, a symbol declared in a copied member and a sequence symbol: each is found where it is written. -/
example : ∃ v, (startV 1 [] [⟨30, 0, 5⟩] [⟨2, none, .copy (some 9)⟩, ⟨3, some 40, .other 0⟩, ⟨4, none, .mend⟩]).go nestedLib nestedDecls 10 = some (.done v) ∧
    findVar v.vars v.run.st.nests 20 = .found ⟨2, 0, 0⟩ ∧ findVar v.vars v.run.st.nests 30 = .found ⟨1, 0, 5⟩ ∧
    v.seqs.find? (·.1 == 40) = some (40, ⟨1, 3, 0⟩) ∧ findVar v.vars v.run.st.nests 50 = .nothing := by
  refine ⟨_, rfl, by decide +kernel, by decide +kernel, by decide +kernel, by decide +kernel⟩

end Verif.Define
