import Verif.Context.MacroCall
/-!
C34: macro parameters are bound as declared.
-/
namespace Verif.Context.Mac

/-- The positional operands in order. -/
def posArgs (args : List Arg) : List Data := args.filterMap fun a => if a.id.isNone then some a.data else none

/-- The value of the first keyword operand for `n`. -/
def keyArg (args : List Arg) (n : Name) : Option Data := (args.find? (·.id = some n)).map (·.data)

/-- The positional parameters of the prototype in order. -/
def posParams (params : List Param) : List (Option Name) := params.filterMap fun | .pos n => some n | .key _ _ => none

/-- The keyword parameters with their defaults. -/
def keyParams (params : List Param) : List (Name × Data) := params.filterMap fun | .pos _ => none | .key n d => some (n, d)

/-- All declared names, the name field parameter first. -/
def declared (label : Option Name) (params : List Param) : List Name :=
  (label :: posParams params).filterMap id ++ (keyParams params).map (·.1)

theorem get_emplace {α} (m : Map α) (k n : Name) (v : α) :
    Map.get (Map.emplace m k v) n = (Map.get m n).or (if n = k then some v else none) := by
  unfold Map.emplace
  split
  · next h =>
    by_cases e : n = k
    · subst e
      cases hg : Map.get m n with
      | some x => simp
      | none => rw [hg] at h; simp at h
    · simp [e]
  · unfold Map.get
    rw [List.find?_append]
    cases hf : m.find? (fun x => decide (x.1 = n)) with
    | some x => simp
    | none =>
      by_cases e : n = k
      · subst e; simp
      · have e' : ¬ k = n := fun h => e h.symm
        simp [e, e']

theorem build_fold (params : List Param) : ∀ d : Def, (params.foldl Def.add d).positional = d.positional ++ posParams params ∧
    (params.foldl Def.add d).keywords = d.keywords ++ keyParams params ∧
    ∀ n dflt, Map.get (params.foldl Def.add d).named n = some (.key dflt) → Map.get d.named n = some (.key dflt) ∨ (n, dflt) ∈ keyParams params := by
  induction params with
  | nil => intro d; simp [posParams, keyParams]
  | cons p ps ih =>
    intro d
    rw [List.foldl_cons]
    obtain ⟨h1, h2, h3⟩ := ih (d.add p)
    cases p with
    | pos name =>
      refine ⟨?_, ?_, ?_⟩
      · rw [h1]; cases name <;> simp [Def.add, posParams]
      · rw [h2]; cases name <;> simp [Def.add, keyParams]
      · intro n dflt h
        rcases h3 n dflt h with h | h
        · cases name with
          | none => left; exact h
          | some m =>
            simp only [Def.add, get_emplace] at h
            cases hg : Map.get d.named n with
            | some x => left; rw [hg] at h; simpa using h
            | none => rw [hg] at h; simp at h
        · right; simpa [keyParams] using h
    | key m d' =>
      refine ⟨?_, ?_, ?_⟩
      · rw [h1]; simp [Def.add, posParams]
      · rw [h2]; simp [Def.add, keyParams]
      · intro n dflt h
        rcases h3 n dflt h with h | h
        · simp only [Def.add, get_emplace] at h
          cases hg : Map.get d.named n with
          | some x => left; rw [hg] at h; simpa using h
          | none =>
            rw [hg] at h; simp at h
            right; simp [keyParams, h.1, h.2]
        · right; simp only [keyParams, List.filterMap_cons] ; simp; right; simpa [keyParams] using h

/-- The first operand that binds the name `n`, when `k` values are already in the list of positional values. -/
def firstMatch (positional : List (Option Name)) (n : Name) : Nat → List Arg → Option Data
  | _, [] => none
  | k, a :: as =>
    match a.id with
    | some m => if n = m then some a.data else firstMatch positional n k as
    | none => if positional[k]? = some (some n) then some a.data else firstMatch positional n (k + 1) as

theorem operands_spec (d : Def) (args : List Arg) : ∀ st st', d.operands st args = some st' →
    st'.syslist = st.syslist ++ posArgs args ∧
    (∀ a ∈ args, ∀ n, a.id = some n → ∃ dflt, Map.get d.named n = some (.key dflt)) ∧
    ∀ n, Map.get st'.named n = (Map.get st.named n).or ((firstMatch d.positional n st.syslist.length args).map .param) := by
  induction args with
  | nil => intro st st' h; simp [Def.operands] at h; subst h; simp [posArgs, firstMatch]
  | cons a as ih =>
    intro st st' h
    simp only [Def.operands] at h
    cases hs : d.operand st a with
    | none => rw [hs] at h; simp at h
    | some st1 =>
      rw [hs] at h
      obtain ⟨h1, h2, h3⟩ := ih st1 st' h
      unfold Def.operand at hs
      cases hid : a.id with
      | some m =>
        rw [hid] at hs
        simp only at hs
        split at hs
        · next dflt hk =>
          simp at hs
          subst hs
          refine ⟨?_, ?_, ?_⟩
          · rw [h1]; simp [posArgs, hid]
          · intro b hb n hn
            simp at hb
            rcases hb with rfl | hb
            · rw [hid] at hn; simp at hn; subst hn; exact ⟨dflt, hk⟩
            · exact h2 b hb n hn
          · intro n
            rw [h3 n]
            simp only [get_emplace, firstMatch, hid]
            by_cases e : n = m
            · subst e; cases Map.get st.named n <;> simp
            · simp [e]
        · simp at hs
      | none =>
        rw [hid] at hs
        simp only [Option.some.injEq] at hs
        subst hs
        refine ⟨?_, ?_, ?_⟩
        · rw [h1]; simp [posArgs, hid]
        · intro b hb n hn
          simp at hb
          rcases hb with rfl | hb
          · rw [hid] at hn; simp at hn
          · exact h2 b hb n hn
        · intro n
          rw [h3 n]
          simp only [firstMatch, hid, List.length_append, List.length_cons, List.length_nil]
          cases hp : d.positional[st.syslist.length]? with
          | none => simp
          | some o =>
            cases o with
            | none => simp
            | some m =>
              simp only [get_emplace]
              by_cases e : n = m
              · subst e; cases Map.get st.named n <;> simp
              · have e' : ¬ m = n := fun h => e h.symm
                simp [e, e']

theorem get_omitted (l : List (Option Name)) : ∀ (m : Map Inst) n,
    Map.get (omitted m l) n = (Map.get m n).or (if some n ∈ l then some (.param .dummy) else none) := by
  induction l with
  | nil => intro m n; simp [omitted]
  | cons o l ih =>
    intro m n
    have hcons : omitted m (o :: l) = omitted (match o with | some k => m.emplace k (.param .dummy) | none => m) l := rfl
    rw [hcons, ih]
    cases o with
    | none => simp
    | some k =>
      simp only [get_emplace]
      by_cases e : n = k
      · subst e; cases Map.get m n <;> simp
      · simp [e]

theorem get_defaults (l : List (Name × Data)) : ∀ (m : Map Inst) n,
    Map.get (defaults m l) n = (Map.get m n).or ((l.find? (·.1 = n)).map fun p => .param p.2) := by
  induction l with
  | nil => intro m n; simp [defaults]
  | cons p l ih =>
    intro m n
    have hcons : defaults m (p :: l) = defaults (if (Map.get m p.1).isSome then m else m.emplace p.1 (.param p.2)) l := rfl
    rw [hcons, ih]
    by_cases hs : (Map.get m p.1).isSome
    · rw [if_pos hs]
      by_cases e : p.1 = n
      · subst e
        cases hg : Map.get m p.1 with
        | some x => simp
        | none => rw [hg] at hs; simp at hs
      · simp [e]
    · rw [if_neg hs, get_emplace]
      by_cases e : p.1 = n
      · subst e; cases Map.get m p.1 <;> simp
      · have e' : ¬ n = p.1 := fun h => e h.symm
        simp [e, e']

/-- The parameter at position `i` of a list without repetitions gets the operand at position `i`. -/
theorem firstMatch_pos (positional : List (Option Name)) (n : Name) (i : Nat) (hi : positional[i]? = some (some n))
    (huniq : ∀ j, positional[j]? = some (some n) → j = i) (args : List Arg) (hkey : ∀ a ∈ args, a.id ≠ some n) :
    ∀ k, k ≤ i → firstMatch positional n k args = (posArgs args)[i - k]? := by
  induction args with
  | nil => intro k _; simp [firstMatch, posArgs]
  | cons a as ih =>
    have ih := ih (fun b hb => hkey b (by simp [hb]))
    intro k hk
    have ha := hkey a (by simp)
    cases hid : a.id with
    | some m =>
      rw [hid] at ha
      have hne : ¬ n = m := fun h => ha (by rw [h])
      simp only [firstMatch, hid, hne, if_false]
      rw [ih k hk]
      simp [posArgs, hid]
    | none =>
      simp only [firstMatch, hid]
      have hpa : posArgs (a :: as) = a.data :: posArgs as := by simp [posArgs, hid]
      rw [hpa]
      by_cases e : k = i
      · subst e; simp [hi]
      · have hlt : k + 1 ≤ i := by omega
        have hk' : ¬ positional[k]? = some (some n) := fun h => e (huniq k h)
        rw [if_neg hk', ih (k + 1) hlt]
        have : i - k = (i - (k + 1)) + 1 := by omega
        rw [this]; rfl

theorem firstMatch_key (positional : List (Option Name)) (n : Name) (hn : some n ∉ positional) (args : List Arg) :
    ∀ k, firstMatch positional n k args = keyArg args n := by
  induction args with
  | nil => intro k; simp [firstMatch, keyArg]
  | cons a as ih =>
    intro k
    cases hid : a.id with
    | some m =>
      simp only [firstMatch, hid, keyArg, List.find?_cons]
      by_cases e : n = m
      · subst e; simp
      · have e' : ¬ m = n := fun h => e h.symm
        simp only [e, if_false, Option.some.injEq, e', decide_false]
        rw [ih k]; rfl
    | none =>
      have : ¬ positional[k]? = some (some n) := fun h => hn (List.mem_of_getElem? h)
      simp only [firstMatch, hid, this, if_false, keyArg, List.find?_cons, reduceCtorEq, decide_false]
      rw [ih (k + 1)]; rfl

theorem uniq_of_nodup (l : List (Option Name)) (h : (l.filterMap id).Nodup) (n : Name) (i j : Nat) (hi : l[i]? = some (some n))
    (hj : l[j]? = some (some n)) : j = i := by
  induction l generalizing i j with
  | nil => simp at hi
  | cons o l ih =>
    cases o with
    | none =>
      cases i with
      | zero => simp at hi
      | succ i =>
        cases j with
        | zero => simp at hj
        | succ j => simp at hi hj h; rw [ih (by simpa using h) i j hi hj]
    | some m =>
      simp only [List.filterMap_cons, id, List.nodup_cons] at h
      have hmem : ∀ k : Nat, l[k]? = some (some n) → n ∈ l.filterMap id := by
        intro k hk
        rw [List.mem_filterMap]
        exact ⟨some n, List.mem_of_getElem? hk, rfl⟩
      cases i with
      | zero =>
        simp at hi; subst hi
        cases j with
        | zero => rfl
        | succ j => simp at hj; exact absurd (hmem j hj) h.1
      | succ i =>
        simp at hi
        cases j with
        | zero => simp at hj; subst hj; exact absurd (hmem i hi) h.1
        | succ j => simp at hj; rw [ih h.2 i j hi hj]

/-- The prototype declares every name once and does not redefine &SYSLIST. -/
def WellFormed (label : Option Name) (params : List Param) (syslist : Name) : Prop :=
  (declared label params).Nodup ∧ syslist ∉ declared label params

/-- What a successful call of a macro built from its prototype looks like. -/
theorem call_spec (label : Option Name) (params : List Param) (syslist : Name) (wf : WellFormed label params syslist)
    (ld : Option Data) (args : List Arg) (m : Map Inst)
    (h : (Def.build label params).call ld args syslist = some m) :
    Map.get m syslist = some (.sys (.comp (ld.getD .dummy :: posArgs args))) ∧
    (∀ n, label = some n → Map.get m n = some (.param (ld.getD .dummy))) ∧
    (∀ (i : Nat) n, (posParams params)[i]? = some (some n) → Map.get m n = some (.param (((posArgs args)[i]?).getD .dummy))) ∧
    (∀ n dflt, (n, dflt) ∈ keyParams params → Map.get m n = some (.param ((keyArg args n).getD dflt))) := by
  obtain ⟨b1, b2, b3⟩ := build_fold params { positional := [label], keywords := [], named := labelMap label .pos }
  have hpos : (Def.build label params).positional = label :: posParams params := b1
  have hkw : (Def.build label params).keywords = keyParams params := by rw [Def.build, b2]; rfl
  have hnamed : ∀ n dflt, Map.get (Def.build label params).named n = some (.key dflt) → (n, dflt) ∈ keyParams params := by
    intro n dflt hn
    rcases b3 n dflt hn with h | h
    · exfalso
      cases label with
      | none => simp [labelMap, Map.get] at h
      | some l => simp only [labelMap, get_emplace] at h; by_cases e : n = l <;> simp [Map.get, e] at h
    · exact h
  unfold Def.call at h
  rw [hpos] at h
  simp only [List.head?_cons, Option.getD_some, Option.map_eq_some_iff] at h
  obtain ⟨st, hst, hm⟩ := h
  obtain ⟨s1, s2, s3⟩ := operands_spec _ _ _ _ hst
  simp only [List.length_cons, List.length_nil] at s1 s3
  rw [hpos] at s3
  obtain ⟨wf1, wf2⟩ := wf
  unfold declared at wf1 wf2
  rw [List.nodup_append] at wf1
  obtain ⟨wfp, wfk, wfd⟩ := wf1
  have hkeyname : ∀ a ∈ args, ∀ n, a.id = some n → n ∈ (keyParams params).map (·.1) := by
    intro a ha n hn
    obtain ⟨dflt, hd⟩ := s2 a ha n hn
    exact List.mem_map.mpr ⟨_, hnamed n dflt hd, rfl⟩
  have hget : ∀ n, Map.get m n = ((((Map.get (labelMap label (Inst.param (ld.getD .dummy))) n).or
      ((firstMatch (label :: posParams params) n 1 args).map .param)).or
      (if some n ∈ (label :: posParams params).drop st.syslist.length then some (.param .dummy) else none)).or
      (((keyParams params).find? (·.1 = n)).map fun p => .param p.2)).or
      (if n = syslist then some (.sys (.comp st.syslist)) else none) := by
    intro n
    rw [← hm, get_emplace, get_defaults, get_omitted, s3 n, hkw]
  have hlab : ∀ n, Map.get (labelMap label (Inst.param (ld.getD .dummy))) n =
      if label = some n then some (.param (ld.getD .dummy)) else none := by
    intro n
    cases label with
    | none => simp [labelMap, Map.get]
    | some l =>
      simp only [labelMap, get_emplace]
      by_cases e : n = l
      · subst e; simp [Map.get]
      · have e' : ¬ l = n := fun h => e h.symm
        simp [Map.get, e, e']
  have hkeynone : ∀ n, n ∉ (keyParams params).map (·.1) → ((keyParams params).find? (·.1 = n)) = none := by
    intro n hn
    rw [List.find?_eq_none]
    intro p hp
    simp only [decide_eq_true_eq]
    intro e
    exact hn (List.mem_map.mpr ⟨p, hp, e⟩)
  have memdecl : ∀ n, some n ∈ (label :: posParams params) → n ∈ (label :: posParams params).filterMap id := by
    intro n hn; rw [List.mem_filterMap]; exact ⟨some n, hn, rfl⟩
  have hkeyarg : ∀ n, some n ∈ (label :: posParams params) → ∀ a ∈ args, a.id ≠ some n := by
    intro n hn a ha hid
    exact wfd n (memdecl n hn) n (hkeyname a ha n hid) rfl
  refine ⟨?_, ?_, ?_, ?_⟩
  · have hn1 : some syslist ∉ (label :: posParams params) := fun h => wf2 (by simp only [List.mem_append]; exact Or.inl (memdecl _ h))
    have hn2 : syslist ∉ (keyParams params).map (·.1) := fun h => wf2 (by simp only [List.mem_append]; exact Or.inr h)
    have hk : keyArg args syslist = none := by
      unfold keyArg
      rw [Option.map_eq_none_iff, List.find?_eq_none]
      intro a ha hid
      simp at hid
      exact hn2 (hkeyname a ha _ hid)
    rw [hget, hlab, firstMatch_key _ _ hn1, hk, hkeynone _ hn2, s1]
    have h1 : ¬ label = some syslist := fun h => hn1 (by simp [h])
    have h2 : some syslist ∉ (label :: posParams params).drop ([ld.getD .dummy] ++ posArgs args).length :=
      fun h => hn1 (List.mem_of_mem_drop h)
    rw [if_neg h2]
    simp [h1]
  · intro n hn
    rw [hget, hlab]
    simp [hn]
  · intro i n hi
    have hi' : (label :: posParams params)[i + 1]? = some (some n) := by simpa using hi
    have hmem : some n ∈ (label :: posParams params) := List.mem_of_getElem? hi'
    have hfm := firstMatch_pos (label :: posParams params) n (i + 1) hi' (fun j hj => uniq_of_nodup _ wfp n _ _ hi' hj) args
      (hkeyarg n hmem) 1 (by omega)
    have hl : ¬ label = some n := by
      intro e
      have := uniq_of_nodup _ wfp n (i + 1) 0 hi' (by simp [e])
      omega
    have hkn := hkeynone n (fun h => wfd n (memdecl n hmem) n h rfl)
    rw [hget, hlab, hfm, if_neg hl, hkn, s1]
    simp only [Nat.add_sub_cancel]
    cases hp : (posArgs args)[i]? with
    | some d => simp
    | none =>
      have hlen : (posArgs args).length ≤ i := List.getElem?_eq_none_iff.mp hp
      have hin : some n ∈ (label :: posParams params).drop ([ld.getD .dummy] ++ posArgs args).length := by
        rw [List.mem_iff_getElem?]
        refine ⟨i - (posArgs args).length, ?_⟩
        rw [List.getElem?_drop]
        have : ([ld.getD .dummy] ++ posArgs args).length + (i - (posArgs args).length) = i + 1 := by simp; omega
        rw [this]; exact hi'
      rw [if_pos hin]
      simp
  · intro n dflt hk
    have hkm : n ∈ (keyParams params).map (·.1) := List.mem_map.mpr ⟨_, hk, rfl⟩
    have hnp : some n ∉ (label :: posParams params) := fun h => wfd n (memdecl n h) n hkm rfl
    have hl : ¬ label = some n := fun h => hnp (by simp [h])
    have hdr : some n ∉ (label :: posParams params).drop st.syslist.length := fun h => hnp (List.mem_of_mem_drop h)
    rw [hget, hlab, firstMatch_key _ _ hnp, if_neg hl, if_neg hdr]
    cases hka : keyArg args n with
    | some d => simp
    | none =>
      have huniq : ((keyParams params).find? (·.1 = n)) = some (n, dflt) := by
        have gen : ∀ l : List (Name × Data), (l.map (·.1)).Nodup → (n, dflt) ∈ l → l.find? (·.1 = n) = some (n, dflt) := by
          intro l
          induction l with
          | nil => intro _ h; simp at h
          | cons p l ih =>
            intro hnd h
            simp only [List.map_cons, List.nodup_cons] at hnd
            rw [List.find?_cons]
            simp at h
            rcases h with rfl | h
            · simp
            · have hne : ¬ p.1 = n := fun e => hnd.1 (List.mem_map.mpr ⟨_, h, e.symm⟩)
              simp only [hne, decide_false]
              exact ih hnd.2 h
        exact gen _ wfk hk
      rw [huniq]
      simp

/-- C34: the i-th positional parameter has the i-th positional operand as value, or is empty if there is none; keyword operands in
between do not count. -/
theorem C34_positional (label : Option Name) (params : List Param) (syslist : Name) (wf : WellFormed label params syslist)
    (ld : Option Data) (args : List Arg) (m : Map Inst) (h : (Def.build label params).call ld args syslist = some m)
    (i : Nat) (n : Name) (hi : (posParams params)[i]? = some (some n)) :
    Map.get m n = some (.param (((posArgs args)[i]?).getD .dummy)) := (call_spec label params syslist wf ld args m h).2.2.1 i n hi

/-- C34: a keyword parameter has the value of its operand, wherever that stands, and otherwise its default. -/
theorem C34_keyword (label : Option Name) (params : List Param) (syslist : Name) (wf : WellFormed label params syslist)
    (ld : Option Data) (args : List Arg) (m : Map Inst) (h : (Def.build label params).call ld args syslist = some m)
    (n : Name) (dflt : Data) (hk : (n, dflt) ∈ keyParams params) :
    Map.get m n = some (.param ((keyArg args n).getD dflt)) := (call_spec label params syslist wf ld args m h).2.2.2 n dflt hk

/-- C34: the name field parameter. -/
theorem C34_label (label : Option Name) (params : List Param) (syslist : Name) (wf : WellFormed label params syslist)
    (ld : Option Data) (args : List Arg) (m : Map Inst) (h : (Def.build label params).call ld args syslist = some m)
    (n : Name) (hn : label = some n) : Map.get m n = some (.param (ld.getD .dummy)) :=
  (call_spec label params syslist wf ld args m h).2.1 n hn

/-- C34: &SYSLIST(i) with any further subscripts is the i-th positional operand with these subscripts, &SYSLIST(0) is the name
field, beyond the operands it is empty, and N'&SYSLIST is the number of positional operands. -/
theorem C34_syslist (label : Option Name) (params : List Param) (syslist : Name) (wf : WellFormed label params syslist)
    (ld : Option Data) (args : List Arg) (m : Map Inst) (h : (Def.build label params).call ld args syslist = some m) :
    ∃ s, Map.get m syslist = some s ∧ s.number = (posArgs args).length ∧ s.data [0] = ld.getD .dummy ∧
      ∀ i subs, 1 ≤ i → s.data (i :: subs) = (Inst.param (((posArgs args)[i - 1]?).getD .dummy)).data subs := by
  refine ⟨_, (call_spec label params syslist wf ld args m h).1, ?_, ?_, ?_⟩
  · simp [Inst.number, Data.number]
  · simp [Inst.data, Data.ith]
  · intro i subs hi
    simp only [Inst.data, Data.ith]
    obtain ⟨j, rfl⟩ : ∃ j, i = j + 1 := ⟨i - 1, by omega⟩
    simp

/-- C34: a call whose keyword operands are all declared succeeds. -/
theorem C34_total (d : Def) (ld : Option Data) (args : List Arg) (syslist : Name)
    (hk : ∀ a ∈ args, ∀ n, a.id = some n → ∃ dflt, Map.get d.named n = some (.key dflt)) : (d.call ld args syslist).isSome := by
  have gen : ∀ (args : List Arg) st, (∀ a ∈ args, ∀ n, a.id = some n → ∃ dflt, Map.get d.named n = some (.key dflt)) →
      ∃ st', d.operands st args = some st' := by
    intro args
    induction args with
    | nil => intro st _; exact ⟨st, rfl⟩
    | cons a as ih =>
      intro st h
      simp only [Def.operands]
      unfold Def.operand
      cases hid : a.id with
      | none => exact ih _ (fun b hb => h b (by simp [hb]))
      | some n =>
        obtain ⟨dflt, hd⟩ := h a (by simp) n hid
        simp only [hd]
        exact ih _ (fun b hb => h b (by simp [hb]))
  unfold Def.call
  simp only [Option.isSome_map]
  obtain ⟨st', h'⟩ := gen args _ hk
  exact Option.isSome_iff_exists.mpr ⟨st', h'⟩

/-- Non-vacuity: prototype `&L M &P1,&K=D,,&P3`, call `X M A,K=E,B,C,F`. -/
example : let d := Def.build (some 1) [.pos (some 2), .key 3 (.single [68]), .pos none, .pos (some 4)]
    let args : List Arg := [⟨none, .single [65]⟩, ⟨some 3, .single [69]⟩, ⟨none, .single [66]⟩, ⟨none, .single [67]⟩, ⟨none, .single [70]⟩]
    ((d.call (some (.single [88])) args 9).map fun m =>
      [2, 3, 4, 1].map fun n => (Map.get m n).map fun v => (v.data []).value) = some [some [65], some [69], some [67], some [88]] ∧
    WellFormed (some 1) [.pos (some 2), .key 3 (.single [68]), .pos none, .pos (some 4)] 9 := by
  refine ⟨by decide +kernel, ?_, ?_⟩ <;> simp [declared, posParams, keyParams]

end Verif.Context.Mac
