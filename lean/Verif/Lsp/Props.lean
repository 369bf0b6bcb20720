import Verif.Lsp.Model
import Verif.Lsp.UriProps
import Mathlib.Data.List.Nodup
/-! C12 - C16: life cycle, routing, responses, diagnostics, semantic tokens. -/
namespace Verif.Lsp

/-! ### C12 -/

/-- Spec: among the messages there is a well-formed one of that kind. -/
def Received (k : Kind) (ms : List LifeMsg) : Prop := ∃ m ∈ ms, m.kind = k ∧ m.hasParams = true

theorem fold_shutdown (ms : List LifeMsg) : ∀ f : Flags,
    ((ms.foldl Flags.receive f).shutdown = true ↔ f.shutdown = true ∨ Received .shutdown ms) ∧
    ((ms.foldl Flags.receive f).exit = true ↔ f.exit = true ∨ Received .exit ms) := by
  induction ms with
  | nil => intro f; simp [Received]
  | cons m ms ih =>
    intro f
    have := ih (f.receive m)
    simp only [List.foldl_cons, this, Received, List.mem_cons, exists_eq_or_imp]
    rcases m with ⟨k, p⟩
    cases k <;> cases p <;> simp [Flags.receive]

theorem flagsAfter_shutdown (ms : List LifeMsg) (k : Nat) :
    (flagsAfter ms k).shutdown = true ↔ Received .shutdown (ms.take k) := by
  simp [flagsAfter, (fold_shutdown _ _).1]

theorem flagsAfter_exit (ms : List LifeMsg) (k : Nat) : (flagsAfter ms k).exit = true ↔ Received .exit (ms.take k) := by
  simp [flagsAfter, (fold_shutdown _ _).2]

theorem Received.of_take {k : Kind} {ms : List LifeMsg} {n : Nat} (h : Received k (ms.take n)) : Received k ms := by
  obtain ⟨m, hm, h⟩ := h
  exact ⟨m, List.mem_of_mem_take hm, h⟩

/-- Whatever the worker's progress, the loop result 0 implies that both a shutdown request and an exit notification were
received. Partial: it does not give their order (see `C12_witness_order`). -/
theorem C12_zero_partial (ms : List LifeMsg) (done : Nat → Nat) (h : loopResult ms done = 0) :
    Received .shutdown ms ∧ Received .exit ms := by
  have key : ∀ i, serverLoop ms done i = some 0 → Received .shutdown ms ∧ Received .exit ms := by
    intro i
    fun_induction serverLoop ms done i with
    | case1 i hlt f hexit =>
      intro h
      simp at h
      exact ⟨((flagsAfter_shutdown _ _).mp h).of_take, ((flagsAfter_exit _ _).mp hexit).of_take⟩
    | case2 i hlt f hexit ih => exact ih
    | case3 => simp
  unfold loopResult at h
  cases hs : serverLoop ms done 0 with
  | none => simp [hs] at h
  | some r => simp [hs] at h; subst h; exact key 0 hs

/-- The result is always 0 or 1. -/
theorem C12_zero_or_one (ms : List LifeMsg) (done : Nat → Nat) : loopResult ms done = 0 ∨ loopResult ms done = 1 := by
  have key : ∀ i r, serverLoop ms done i = some r → r = 0 ∨ r = 1 := by
    intro i
    fun_induction serverLoop ms done i with
    | case1 i hlt f hexit =>
      intro r h
      simp at h; subst h
      split <;> simp
    | case2 i hlt f hexit ih => exact ih
    | case3 => simp
  unfold loopResult
  cases hs : serverLoop ms done 0 with
  | none => simp
  | some r => simpa using key 0 r hs

/-- When the worker keeps up with the main thread, the result is 0 exactly if the first exit notification comes after a
shutdown request; otherwise (no exit before the end of the stream, or exit first) it is 1. -/
theorem C12_prompt_partial (ms : List LifeMsg) :
    loopResult ms id = 0 ↔
      ∃ pre post m, ms = pre ++ m :: post ∧ m.kind = .exit ∧ m.hasParams = true ∧ ¬ Received .exit pre ∧
        Received .shutdown pre := by
  have key : ∀ i, ¬ Received .exit (ms.take i) → (serverLoop ms id i = some 0 ↔
      ∃ pre post m, ms = pre ++ m :: post ∧ m.kind = .exit ∧ m.hasParams = true ∧ ¬ Received .exit pre ∧
        Received .shutdown pre) := by
    intro i
    fun_induction serverLoop ms id i with
    | case1 i hlt f hexit =>
      intro hno
      have htake : ms.take (i + 1) = ms.take i ++ [ms[i]] := by rw [List.take_succ_eq_append_getElem hlt]
      have hex : Received .exit (ms.take i ++ [ms[i]]) := by
        have := (flagsAfter_exit _ _).mp hexit; simpa only [id, htake] using this
      have hm : ms[i].kind = .exit ∧ ms[i].hasParams = true := by
        obtain ⟨m, hm, h1, h2⟩ := hex
        simp only [List.mem_append, List.mem_singleton] at hm
        rcases hm with hm | hm
        · exact absurd ⟨m, hm, h1, h2⟩ hno
        · subst hm; exact ⟨h1, h2⟩
      have hsplit : ms = ms.take i ++ ms[i] :: ms.drop (i + 1) := by
        rw [List.getElem_cons_drop hlt, List.take_append_drop]
      have hs : f.shutdown = true ↔ Received .shutdown (ms.take i) := by
        rw [show f = flagsAfter ms (i + 1) from rfl, flagsAfter_shutdown, htake]
        constructor
        · rintro ⟨m, hm', h1, h2⟩
          simp only [List.mem_append, List.mem_singleton] at hm'
          rcases hm' with hm' | rfl
          · exact ⟨m, hm', h1, h2⟩
          · rw [hm.1] at h1; simp at h1
        · rintro ⟨m, hm', h⟩
          exact ⟨m, by rw [List.mem_append]; exact Or.inl hm', h⟩
      constructor
      · intro h
        simp at h
        exact ⟨_, _, _, hsplit, hm.1, hm.2, hno, hs.mp h⟩
      · rintro ⟨pre, post, m, he, h1, h2, h3, h4⟩
        have hlen : pre.length = i := by
          rcases Nat.lt_trichotomy pre.length i with hl | hl | hl
          · exfalso
            apply hno
            refine ⟨m, ?_, h1, h2⟩
            rw [he, List.take_append, List.mem_append]
            right
            rw [List.mem_take_iff_getElem]
            exact ⟨0, by simp; omega, rfl⟩
          · exact hl
          · exfalso
            apply h3
            refine ⟨ms[i], ?_, hm⟩
            have : ms[i] = pre[i] := by
              simp only [he]; rw [List.getElem_append_left hl]
            rw [this]; exact List.getElem_mem hl
        have hpre : ms.take i = pre := by rw [he, ← hlen]; simp
        rw [← hpre] at h4
        simp [hs.mpr h4]
    | case2 i hlt f hexit ih =>
      intro _
      exact ih (fun h => hexit ((flagsAfter_exit _ _).mpr h))
    | case3 i hge =>
      intro hno
      simp only [reduceCtorEq, false_iff]
      rintro ⟨pre, post, m, he, h1, h2, -, -⟩
      apply hno
      rw [List.take_of_length_le (by omega)]
      exact ⟨m, by rw [he]; simp, h1, h2⟩
  rw [← key 0 (by simp [Received])]
  unfold loopResult
  cases serverLoop ms id 0 <;> simp

example : loopResult [⟨.other, true⟩, ⟨.shutdown, true⟩, ⟨.exit, true⟩] id = 0 := by decide +kernel
example : loopResult [⟨.exit, true⟩, ⟨.shutdown, true⟩] id = 1 := by decide +kernel

/-- Violation: exit before shutdown can yield 0 when the worker lags behind. -/
theorem C12_witness_order : ∃ done, Progress done ∧ loopResult [⟨.exit, true⟩, ⟨.shutdown, true⟩] done = 0 := by
  refine ⟨fun i => if i < 2 then 0 else i, ⟨?_, ?_⟩, by decide +kernel⟩
  · intro i; dsimp only; split <;> omega
  · intro i j h; dsimp only; split <;> split <;> omega

/-- Violation: shutdown followed by exit yields 1 when the stream ends before the worker gets to the exit notification. -/
theorem C12_witness_lag : ∃ done, Progress done ∧ loopResult [⟨.shutdown, true⟩, ⟨.exit, true⟩] done = 1 :=
  ⟨fun _ => 0, ⟨fun _ => Nat.zero_le _, fun _ _ _ => Nat.le_refl _⟩, by decide +kernel⟩

/-- Violation: an exit notification without `params` (the form the protocol shows) is ignored. -/
theorem C12_witness_params : ∀ done, serverLoop [⟨.shutdown, true⟩, ⟨.exit, false⟩] done 0 = none := by
  intro done
  have : ∀ k, (flagsAfter [⟨.shutdown, true⟩, ⟨.exit, false⟩] k).exit = false := by
    intro k
    cases h : (flagsAfter [⟨.shutdown, true⟩, ⟨.exit, false⟩] k).exit with
    | false => rfl
    | true =>
      obtain ⟨m, hm, h1, h2⟩ := ((flagsAfter_exit _ _).mp h).of_take
      simp at hm
      rcases hm with rfl | rfl <;> simp_all
  rw [serverLoop.eq_def, if_pos (by simp)]
  dsimp only
  rw [this, serverLoop.eq_def]
  simp only [Bool.false_eq_true, if_false]
  rw [if_pos (by simp), this, serverLoop.eq_def]
  simp

/-- Violation: when the input stream ends without any exit notification the process returns 0, not 1, because `ret` is read
before the LSP thread has seen the end of its queue. -/
theorem C12_witness_eof (ms : List LifeMsg) (done : Nat → Nat) (left : Bool) (h : ¬ Received .exit ms) :
    processExit ms done left = 0 := by
  have key : ∀ i, serverLoop ms done i = none := by
    intro i
    fun_induction serverLoop ms done i with
    | case1 i hlt f hexit => exact absurd ((flagsAfter_exit _ _).mp hexit).of_take h
    | case2 i hlt f hexit ih => exact ih
    | case3 => rfl
  simp [processExit, key]

/-- What remains true of the process status: status 1 is returned only after an exit notification. -/
theorem C12_process_one_partial (ms : List LifeMsg) (done : Nat → Nat) (left : Bool) (h : processExit ms done left = 1) :
    Received .exit ms := by
  refine Classical.byContradiction fun hn => ?_
  have := C12_witness_eof ms done left hn
  omega

/-! ### C13 -/

/-- C13: the destination is the first route that accepts the message, and the default route when none does. -/
theorem C13_first_match {M : Type} (routes : List ((M → Bool) × Nat)) (dflt : Option Nat) (m : M) :
    (∃ pre p t post, routes = pre ++ (p, t) :: post ∧ p m = true ∧ (∀ q ∈ pre, q.1 m = false) ∧
        route routes dflt m = some t) ∨
    ((∀ q ∈ routes, q.1 m = false) ∧ route routes dflt m = dflt) := by
  induction routes with
  | nil => right; simp [route]
  | cons r rs ih =>
    obtain ⟨p, t⟩ := r
    by_cases hp : p m = true
    · left; exact ⟨[], p, t, rs, rfl, hp, by simp, by simp [route, hp]⟩
    · simp only [Bool.not_eq_true] at hp
      rcases ih with ⟨pre, p', t', post, he, h1, h2, h3⟩ | ⟨h1, h2⟩
      · left
        refine ⟨(p, t) :: pre, p', t', post, by simp [he], h1, ?_, by simp [route, hp, h3]⟩
        simpa [hp] using h2
      · right
        exact ⟨by simpa [hp] using h1, by simp [route, hp, h2]⟩

/-- C13: after any sequence of messages each sink has received exactly the messages destined for it, in order, so every
message is in exactly one sink (or none if there is no default route). -/
theorem C13_exactly_one_sink {M : Type} (routes : List ((M → Bool) × Nat)) (dflt : Option Nat) (ms : List M) (k : Nat) :
    ms.foldl (deliver routes dflt) (fun _ => []) k = ms.filter (fun m => route routes dflt m = some k) := by
  have key : ∀ (s : Sinks M), ms.foldl (deliver routes dflt) s k =
      s k ++ ms.filter (fun m => route routes dflt m = some k) := by
    induction ms with
    | nil => simp
    | cons m ms ih =>
      intro s
      rw [List.foldl_cons, ih]
      unfold deliver
      cases h : route routes dflt m with
      | none => simp [h]
      | some t =>
        by_cases hk : k = t
        · subst hk; simp [h]
        · have : ¬ t = k := fun e => hk e.symm
          simp [h, hk, this]
  rw [key]; rfl

example : [3, 10, 4, 12].foldl (deliver [((fun n => decide (n > 9)), 1)] (some 0)) (fun _ => []) 0 = [3, 4] := by decide +kernel

/-! ### C14 -/

inductive RpcEvent | send (id : String) | recv (r : Response)
deriving DecidableEq, Repr

/-- Run a sequence of events; the handler of the `n`-th request is `n`. -/
def rpcRun (r : Rpc) (n : Nat) : List RpcEvent → Rpc × Nat
  | [] => (r, n)
  | .send id :: es => rpcRun (r.request id n) (n + 1) es
  | .recv x :: es => rpcRun (r.receive x) n es

/-- Number of requests sent in a sequence of events. -/
def sends (es : List RpcEvent) : List String := es.filterMap fun | .send id => some id | .recv _ => none

/-- The invariant: handlers and calls name requests already sent, none twice. -/
structure RpcInv (r : Rpc) (n : Nat) : Prop where
  nodup : (r.called ++ r.handlers.map (·.2)).Nodup
  lt : ∀ h ∈ r.called ++ r.handlers.map (·.2), h < n
  keys : (r.handlers.map (·.1)).Nodup

theorem RpcInv.send {r : Rpc} {n : Nat} (hi : RpcInv r n) (id : String) : RpcInv (r.request id n) (n + 1) := by
  unfold Rpc.request
  split
  · exact ⟨hi.nodup, fun h hh => Nat.lt_succ_of_lt (hi.lt h hh), hi.keys⟩
  · next hany =>
    refine ⟨?_, ?_, ?_⟩
    · simp only [List.map_append, List.map_cons, List.map_nil, ← List.append_assoc]
      rw [List.nodup_append]
      refine ⟨hi.nodup, by simp, ?_⟩
      intro a ha b hb
      simp at hb; subst hb
      have := hi.lt a ha
      omega
    · intro h hh
      simp only [List.map_append, List.map_cons, List.map_nil, ← List.append_assoc] at hh
      rw [List.mem_append] at hh
      rcases hh with hh | hh
      · exact Nat.lt_succ_of_lt (hi.lt h hh)
      · simp at hh; omega
    · simp only [List.map_append, List.map_cons, List.map_nil]
      rw [List.nodup_append]
      refine ⟨hi.keys, by simp, ?_⟩
      intro a ha b hb
      simp at hb; subst hb
      intro hab; subst hab
      apply hany
      simp only [List.mem_map] at ha
      obtain ⟨x, hx, rfl⟩ := ha
      simp only [List.any_eq_true, decide_eq_true_eq]
      exact ⟨x, hx, rfl⟩

theorem filter_keys_sublist (hs : List (String × Nat)) (id : String) :
    ((hs.filter (·.1 ≠ id)).map (·.2)).Sublist (hs.map (·.2)) := (List.filter_sublist).map _

theorem RpcInv.recv {r : Rpc} {n : Nat} (hi : RpcInv r n) (x : Response) : RpcInv (r.receive x) n := by
  unfold Rpc.receive
  split
  · exact hi
  · next id =>
    split
    · exact hi
    · next k h hf =>
      have hmem := List.mem_of_find?_eq_some hf
      have hk : k = id := by simpa using List.find?_some hf
      subst hk
      have hsub := filter_keys_sublist r.handlers k
      have hnd := hi.nodup
      rw [List.nodup_append] at hnd
      obtain ⟨h1, h2, h3⟩ := hnd
      have hin : h ∈ r.handlers.map (·.2) := List.mem_map.mpr ⟨(k, h), hmem, rfl⟩
      refine ⟨?_, ?_, ?_⟩
      · simp only
        rw [List.nodup_append]
        refine ⟨?_, h2.sublist hsub, ?_⟩
        · rw [List.nodup_append]
          refine ⟨h1, by simp, ?_⟩
          intro a ha b hb; simp at hb; subst hb; exact h3 a ha _ hin
        · intro a ha b hb
          rw [List.mem_append] at ha
          rcases ha with ha | ha
          · exact h3 a ha b (hsub.subset hb)
          · simp at ha; subst ha
            simp only [List.mem_map, List.mem_filter, ne_eq, decide_not, Bool.not_eq_true', decide_eq_false_iff_not] at hb
            obtain ⟨y, ⟨hy, hyk⟩, rfl⟩ := hb
            intro he
            -- two entries with the same handler number are the same entry
            have : (k, a) = y := by
              have hnd2 : (r.handlers.map (·.2)).Nodup := h2
              exact List.inj_on_of_nodup_map hnd2 hmem hy he
            exact hyk (by rw [← this])
      · intro a ha
        apply hi.lt
        simp only [List.mem_append, List.mem_singleton] at ha
        rw [List.mem_append]
        rcases ha with (ha | ha) | ha
        · exact Or.inl ha
        · subst ha; exact Or.inr hin
        · exact Or.inr (hsub.subset ha)
      · exact hi.keys.sublist ((List.filter_sublist).map _)
  · exact hi

theorem rpcRun_inv (es : List RpcEvent) : ∀ (r : Rpc) (n : Nat), RpcInv r n →
    RpcInv (rpcRun r n es).1 (rpcRun r n es).2 := by
  induction es with
  | nil => intro r n h; exact h
  | cons e es ih =>
    intro r n h
    cases e with
    | send id => exact ih _ _ (h.send id)
    | recv x => exact ih _ _ (h.recv x)

theorem rpcInv_init : RpcInv {} 0 := ⟨by simp, by simp, by simp⟩

/-- C14: whatever is sent and received, in whatever order and with whatever ids, no continuation runs twice. -/
theorem C14_at_most_once (es : List RpcEvent) : (rpcRun {} 0 es).1.called.Nodup :=
  (List.nodup_append.mp (rpcRun_inv es {} 0 rpcInv_init).nodup).1

/-- C14: a response with an unknown id, with no id, or an error response, has no effect on any request. -/
theorem C14_unknown_no_effect (r : Rpc) (x : Response) (h : ∀ id, x = .result (some id) → ∀ p ∈ r.handlers, p.1 ≠ id) :
    r.receive x = r := by
  unfold Rpc.receive
  split
  · rfl
  · next id =>
    split
    · rfl
    · next k hh hf =>
      exact absurd (by simpa using List.find?_some hf) (h id rfl _ (List.mem_of_find?_eq_some hf))
  · rfl

theorem called_mono (es : List RpcEvent) : ∀ (r : Rpc) (n h : Nat), h ∈ r.called → h ∈ (rpcRun r n es).1.called := by
  induction es with
  | nil => intro r n h hh; exact hh
  | cons e es ih =>
    intro r n h hh
    cases e with
    | send id =>
      apply ih
      unfold Rpc.request
      split <;> exact hh
    | recv x =>
      apply ih
      unfold Rpc.receive
      split
      · exact hh
      · split
        · exact hh
        · simp [hh]
      · exact hh

theorem live_request (id : String) (h : Nat) (es : List RpcEvent) : ∀ (r : Rpc) (n : Nat), RpcInv r n →
    (id, h) ∈ r.handlers → id ∉ sends es →
    (h ∈ (rpcRun r n es).1.called ↔ RpcEvent.recv (.result (some id)) ∈ es) := by
  induction es with
  | nil =>
    intro r n hi hl _
    simp only [rpcRun, List.not_mem_nil, iff_false]
    intro hc
    exact (List.nodup_append.mp hi.nodup).2.2 h hc h (List.mem_map.mpr ⟨_, hl, rfl⟩) rfl
  | cons e es ih =>
    intro r n hi hl hs
    cases e with
    | send id' =>
      have hs' : id ∉ sends es := fun hm => hs (by simp [sends] at hm ⊢; exact Or.inr hm)
      simp only [rpcRun, List.mem_cons, reduceCtorEq, false_or]
      refine ih _ _ (hi.send id') ?_ hs'
      unfold Rpc.request
      split
      · exact hl
      · simp [hl]
    | recv x =>
      have hs' : id ∉ sends es := fun hm => hs (by simpa [sends] using hm)
      by_cases hx : x = .result (some id)
      · subst hx
        simp only [rpcRun, List.mem_cons, true_or, iff_true]
        apply called_mono
        simp only [Rpc.receive]
        split
        · next hf =>
          rw [List.find?_eq_none] at hf
          exact absurd (hf _ hl) (by simp)
        · next k h' hf =>
          have hk : k = id := by simpa using List.find?_some hf
          subst hk
          have := List.inj_on_of_nodup_map hi.keys (List.mem_of_find?_eq_some hf) hl rfl
          simp only [Prod.mk.injEq, true_and] at this
          simp [this]
      · have hne : RpcEvent.recv (.result (some id)) ≠ RpcEvent.recv x := by
          intro he; injection he with he; exact hx he.symm
        simp only [rpcRun, List.mem_cons, hne, false_or]
        refine ih _ _ (hi.recv x) ?_ hs'
        unfold Rpc.receive
        split
        · exact hl
        · next id' =>
          have hid : id ≠ id' := by rintro rfl; exact hx rfl
          split
          · exact hl
          · simp [hl, hid]
        · exact hl

theorem handlers_subset (es : List RpcEvent) : ∀ (r : Rpc) (n : Nat) (p : String × Nat),
    p ∈ (rpcRun r n es).1.handlers → p ∈ r.handlers ∨ p.1 ∈ sends es := by
  induction es with
  | nil => intro r n p hp; exact Or.inl hp
  | cons e es ih =>
    intro r n p hp
    cases e with
    | send id =>
      rcases ih _ _ p hp with h | h
      · unfold Rpc.request at h
        split at h
        · exact Or.inl h
        · simp at h
          rcases h with h | h
          · exact Or.inl h
          · right; simp [sends, h]
      · right; simp [sends] at h ⊢; exact Or.inr h
    | recv x =>
      rcases ih _ _ p hp with h | h
      · left
        unfold Rpc.receive at h
        split at h
        · exact h
        · split at h
          · exact h
          · exact (List.mem_filter.mp h).1
        · exact h
      · right; simpa [sends] using h

theorem rpcRun_append (a b : List RpcEvent) : ∀ (r : Rpc) (n : Nat),
    rpcRun r n (a ++ b) = rpcRun (rpcRun r n a).1 (rpcRun r n a).2 b := by
  induction a with
  | nil => intro r n; rfl
  | cons e a ih => intro r n; cases e <;> exact ih _ _

theorem rpcRun_count (es : List RpcEvent) : ∀ (r : Rpc) (n : Nat), (rpcRun r n es).2 = n + (sends es).length := by
  induction es with
  | nil => intro r n; rfl
  | cons e es ih =>
    intro r n
    cases e with
    | send id => simp only [rpcRun, ih]; simp [sends]; omega
    | recv x => simp only [rpcRun, ih]; simp [sends]

/-- C14: provided the server never reuses an id (it numbers its configuration requests), the continuation of a request runs
exactly once if a successful response with its id arrives later, and never otherwise. -/
theorem C14_exactly_once (pre post : List RpcEvent) (id : String) (hd : (sends (pre ++ .send id :: post)).Nodup) :
    (rpcRun {} 0 (pre ++ .send id :: post)).1.called.count (sends pre).length =
      if RpcEvent.recv (.result (some id)) ∈ post then 1 else 0 := by
  have hnd := C14_at_most_once (pre ++ .send id :: post)
  have hs : sends (pre ++ .send id :: post) = sends pre ++ id :: sends post := by simp [sends]
  rw [hs, List.nodup_append] at hd
  have hpost : id ∉ sends post := (List.nodup_cons.mp hd.2.1).1
  have hpre : id ∉ sends pre := fun hm => hd.2.2 id hm id (by simp) rfl
  have hi := rpcRun_inv pre {} 0 rpcInv_init
  have hc := rpcRun_count pre {} 0
  have hlive : (id, (sends pre).length) ∈ ((rpcRun {} 0 pre).1.request id (rpcRun {} 0 pre).2).handlers := by
    unfold Rpc.request
    rw [if_neg]
    · simp [hc]
    · simp only [List.any_eq_true, decide_eq_true_eq, not_exists, not_and]
      rintro p hp rfl
      rcases handlers_subset pre {} 0 p hp with h | h
      · simp at h
      · exact hpre h
  have hiff := live_request id (sends pre).length post _ _ (hi.send id) hlive hpost
  have heq : rpcRun {} 0 (pre ++ .send id :: post) =
      rpcRun ((rpcRun {} 0 pre).1.request id (rpcRun {} 0 pre).2) ((rpcRun {} 0 pre).2 + 1) post := by
    rw [rpcRun_append]; rfl
  rw [← heq] at hiff
  by_cases hr : RpcEvent.recv (.result (some id)) ∈ post
  · rw [if_pos hr]; exact List.count_eq_one_of_mem hnd (hiff.mpr hr)
  · rw [if_neg hr]; exact List.count_eq_zero_of_not_mem (fun h => hr (hiff.mp h))

example : (rpcRun {} 0 [.send "a", .send "b", .recv (.result (some "b")), .recv (.result (some "b")),
    .recv (.error (some "a")), .recv (.result (some "a"))]).1.called = [1, 0] := by decide +kernel

/-- If an id were reused while the first request is pending, the second continuation would be dropped. -/
theorem C14_witness_reused_id : (rpcRun {} 0 [.send "a", .send "a", .recv (.result (some "a")),
    .recv (.result (some "a"))]).1.called = [0] := by decide +kernel

/-! ### C15 -/

theorem mem_filesOf {D} (ds : List (Diag D)) (f : String) : f ∈ filesOf ds ↔ ∃ d ∈ ds, d.file = f := by
  induction ds with
  | nil => simp [filesOf]
  | cons d ds ih =>
    unfold filesOf
    split
    · next h =>
      constructor
      · intro hf
        obtain ⟨x, hx, he⟩ := ih.mp hf
        exact ⟨x, by simp [hx], he⟩
      · rintro ⟨x, hx, rfl⟩
        simp at hx
        rcases hx with rfl | hx
        · exact h
        · exact ih.mpr ⟨x, hx, rfl⟩
    · simp [ih, eq_comm]

theorem filesOf_nodup {D} (ds : List (Diag D)) : (filesOf ds).Nodup := by
  induction ds with
  | nil => simp [filesOf]
  | cons d ds ih =>
    unfold filesOf
    split
    · exact ih
    · next h => exact List.nodup_cons.mpr ⟨h, ih⟩

/-- Replaying notifications for files given by `g` on pairwise different files. -/
theorem client_map {D} (uri : String → String) (hinj : ∀ a b, uri a = uri b → a = b) (g : String → List D) (f : String) :
    ∀ (fs : List String) (shown : String → List D),
      client shown (fs.map fun f => ⟨uri f, g f⟩) (uri f) = if f ∈ fs then g f else shown (uri f) := by
  intro fs
  induction fs with
  | nil => intro shown; simp [client]
  | cons a fs ih =>
    intro shown
    simp only [List.map_cons, client, ih]
    by_cases h1 : f ∈ fs
    · simp [h1]
    · by_cases h2 : f = a
      · subst h2; simp
      · have : uri f ≠ uri a := fun h => h2 (hinj _ _ h)
        simp [h1, h2, this]

theorem client_append {D} (a b : List (Publish D)) : ∀ shown, client shown (a ++ b) = client (client shown a) b := by
  induction a with
  | nil => intro shown; rfl
  | cons p a ih => intro shown; exact ih _

/-- After one round the client shows for every file exactly the diagnostics of the round, provided it showed nothing for
files outside `last`. -/
theorem one_round {D} (uri : String → String) (hinj : ∀ a b, uri a = uri b → a = b) (last : List String)
    (ds : List (Diag D)) (shown : String → List D) (hlast : ∀ f, f ∉ last → shown (uri f) = []) (f : String) :
    client shown (consumeDiagnostics uri last ds).2 (uri f) = (ds.filter (·.file = f)).map (·.body) := by
  simp only [consumeDiagnostics, client_append]
  rw [client_map uri hinj (fun _ => [])]
  simp only [List.mem_filter, decide_eq_true_eq]
  rw [client_map uri hinj (fun f => (ds.filter (·.file = f)).map (·.body))]
  by_cases h1 : f ∈ filesOf ds
  · simp [h1]
  · have : ds.filter (·.file = f) = [] := by
      rw [List.filter_eq_nil_iff]
      intro d hd he
      exact h1 ((mem_filesOf ds f).mpr ⟨d, hd, by simpa using he⟩)
    by_cases h2 : f ∈ last
    · simp [h1, h2, this]
    · simp [h1, h2, this, hlast f h2]

/-- C15: after any number of analysis rounds, an editor that replays the notifications shows, for every file, precisely the
diagnostics of the last round (in their order), and nothing for files that have none any more. The file-name-to-URI
conversion is assumed injective. -/
theorem C15_client_shows_last_round {D} (uri : String → String) (hinj : ∀ a b, uri a = uri b → a = b)
    (rs : List (List (Diag D))) (final : List (Diag D)) (f : String) :
    client (fun _ => []) (rounds uri [] (rs ++ [final])) (uri f) = (final.filter (·.file = f)).map (·.body) := by
  have key : ∀ (rs : List (List (Diag D))) (last : List String) (shown : String → List D),
      (∀ f, f ∉ last → shown (uri f) = []) →
      client shown (rounds uri last (rs ++ [final])) (uri f) = (final.filter (·.file = f)).map (·.body) := by
    intro rs
    induction rs with
    | nil =>
      intro last shown hl
      simp only [List.nil_append, rounds, List.append_nil]
      exact one_round uri hinj last final shown hl f
    | cons ds rs ih =>
      intro last shown hl
      simp only [List.cons_append, rounds, client_append]
      apply ih
      intro g hg
      rw [one_round uri hinj last ds shown hl g]
      simp only [consumeDiagnostics] at hg
      have : ds.filter (·.file = g) = [] := by
        rw [List.filter_eq_nil_iff]
        intro d hd he
        exact hg ((mem_filesOf ds g).mpr ⟨d, hd, by simpa using he⟩)
      simp [this]
  exact key rs [] _ (fun _ _ => rfl)

/-- Non-vacuity: a file loses its diagnostics in the second round, another one gains some. -/
example : let sent := rounds (fun f => "file://" ++ f) [] [[⟨"a", 1⟩, ⟨"b", 2⟩, ⟨"a", 3⟩], [⟨"b", 4⟩]]
    (client (fun _ => []) sent "file://a", client (fun _ => []) sent "file://b", sent.length) = ([], [4], 4) := by
  decide +kernel

/-- Without injectivity it fails: two file names with one URI overwrite each other's diagnostics. -/
theorem C15_witness_uri : client (fun _ => []) (rounds (fun _ => "u") [] [[⟨"a", 1⟩, ⟨"b", 2⟩]]) "u" = [2] := by
  decide +kernel

/-! ### C16 -/

/-- How an editor decodes the array (LSP specification): line and start are relative to the previous token. -/
def decodeFrom (line col : Nat) : List Enc → List (Nat × Nat × Nat × Nat)
  | [] => []
  | e :: es =>
    let l := line + e.dLine
    let c := if e.dLine = 0 then col + e.dChar else e.dChar
    (l, c, e.len, e.scope) :: decodeFrom l c es

/-- Position order of tokens. -/
def Token.le (a b : Token) : Prop := a.line < b.line ∨ (a.line = b.line ∧ a.col ≤ b.col)

/-- Keep the first of several tokens that start at the same place. -/
def firstAtEach : List Token → List Token
  | [] => []
  | t :: ts => t :: firstAtEach (ts.dropWhile fun u => u.line = t.line && u.col = t.col)
termination_by ts => ts.length
decreasing_by
  have := (List.dropWhile_suffix (l := ts) (fun u : Token => decide (u.line = t.line) && decide (u.col = t.col))).length_le
  simp only [List.length_cons]; omega

theorem subSize_of_le {a b : Nat} (ha : a < 2 ^ 64) (h : b ≤ a) : subSize a b = a - b := by
  unfold subSize; omega

theorem encodeFrom_some (l : Token) (ts : List Token) (hs : (l :: ts).Pairwise Token.le)
    (hb : ∀ t ∈ l :: ts, t.line < 2 ^ 64 ∧ t.col < 2 ^ 64) :
    decodeFrom l.line l.col (encodeFrom (some l) ts) =
      (firstAtEach (ts.dropWhile fun u => u.line = l.line && u.col = l.col)).map
        fun t => (t.line, t.col, t.length, t.scope) := by
  induction ts generalizing l with
  | nil => simp [encodeFrom, decodeFrom, firstAtEach]
  | cons t ts ih =>
    rw [List.pairwise_cons] at hs
    have hlt := hs.1 t (by simp)
    have hbl := hb l (by simp)
    have hbt := hb t (by simp)
    have hpt := hs.2
    simp only [encodeFrom]
    by_cases hsame : t.line = l.line ∧ t.col = l.col
    · obtain ⟨e1, e2⟩ := hsame
      have hd1 : subSize t.line l.line = 0 := by rw [subSize_of_le hbt.1 (by omega)]; omega
      have hd2 : subSize t.col l.col = 0 := by rw [subSize_of_le hbt.2 (by omega)]; omega
      rw [if_pos ⟨hd1, by rw [if_neg (by simp [e1])]; exact hd2, by simp⟩]
      rw [List.dropWhile_cons_of_pos (by simp [e1, e2])]
      refine ih l ?_ (fun x hx => hb x (by simp at hx ⊢; rcases hx with h | h <;> simp [h]))
      rw [List.pairwise_cons]
      exact ⟨fun x hx => hs.1 x (by simp [hx]), (List.pairwise_cons.mp hs.2).2⟩
    · rw [List.dropWhile_cons_of_neg (by simpa using hsame), firstAtEach]
      have ih' := ih t hpt (fun x hx => hb x (by simp at hx ⊢; rcases hx with h | h <;> simp [h]))
      rcases hlt with hlt | ⟨e1, hle⟩
      · have hd1 : subSize t.line l.line = t.line - l.line := subSize_of_le hbt.1 (by omega)
        rw [if_neg (by rw [hd1]; omega)]
        have hc : (if l.line ≠ t.line then t.col else subSize t.col l.col) = t.col := if_pos (by omega)
        simp only [decodeFrom, List.map_cons]
        rw [hc, hd1, if_neg (by omega), Nat.add_sub_cancel' (by omega), ih']
      · have hd1 : subSize t.line l.line = 0 := by rw [subSize_of_le hbt.1 (by omega)]; omega
        have hd2 : subSize t.col l.col = t.col - l.col := subSize_of_le hbt.2 hle
        have hne : t.col ≠ l.col := fun h => hsame ⟨e1.symm, h⟩
        rw [if_neg (by rw [if_neg (by simp [e1]), hd2]; omega)]
        have hc : (if l.line ≠ t.line then t.col else subSize t.col l.col) = t.col - l.col := by
          rw [if_neg (by simp [e1]), hd2]
        simp only [decodeFrom, List.map_cons]
        rw [hc, hd1, if_pos rfl, Nat.add_zero, Nat.add_sub_cancel' hle, e1, ih']

/-- C16: for tokens sorted by position (the analyser sorts them), decoding what the server sends gives back every token's
absolute line, start column, length and kind; of several tokens starting at the same place the first one is kept. -/
theorem C16_decode_encode (ts : List Token) (hs : ts.Pairwise Token.le)
    (hb : ∀ t ∈ ts, t.line < 2 ^ 64 ∧ t.col < 2 ^ 64) :
    decodeFrom 0 0 (encode ts) = (firstAtEach ts).map fun t => (t.line, t.col, t.length, t.scope) := by
  cases ts with
  | nil => simp [encode, encodeFrom, decodeFrom, firstAtEach]
  | cons t ts =>
    have hbt := hb t (by simp)
    have := encodeFrom_some t ts hs hb
    simp only [encode, encodeFrom, firstAtEach, List.map_cons]
    have hd1 : subSize t.line 0 = t.line := by rw [subSize_of_le hbt.1 (by omega)]; omega
    have hd2 : subSize t.col 0 = t.col := by rw [subSize_of_le hbt.2 (by omega)]; omega
    simp only [hd1, hd2, ite_self, ne_eq, not_true, and_false, if_false, decodeFrom, Nat.zero_add, this]

/-- If starts are pairwise different, every token is kept. -/
theorem C16_nothing_dropped (ts : List Token)
    (hs : ts.Pairwise fun a b => a.line < b.line ∨ (a.line = b.line ∧ a.col < b.col)) : firstAtEach ts = ts := by
  induction ts with
  | nil => simp [firstAtEach]
  | cons t ts ih =>
    rw [List.pairwise_cons] at hs
    rw [firstAtEach]
    have : ts.dropWhile (fun u => decide (u.line = t.line) && decide (u.col = t.col)) = ts := by
      cases ts with
      | nil => rfl
      | cons u us =>
        apply List.dropWhile_cons_of_neg
        have := hs.1 u (by simp)
        simp only [Bool.and_eq_true, decide_eq_true_eq, not_and]
        omega
    rw [this, ih hs.2]

/-- Tokens that lie on one line are decoded with exactly their extent. -/
theorem C16_single_line (ts : List Token)
    (hs : ts.Pairwise fun a b => a.line < b.line ∨ (a.line = b.line ∧ a.col < b.col))
    (hb : ∀ t ∈ ts, t.line < 2 ^ 64 ∧ t.col < 2 ^ 64) (h1 : ∀ t ∈ ts, t.col ≤ t.endCol) :
    decodeFrom 0 0 (encode ts) = ts.map fun t => (t.line, t.col, t.endCol - t.col, t.scope) := by
  rw [C16_decode_encode ts (hs.imp (by intro a b h; unfold Token.le; omega)) hb, C16_nothing_dropped ts hs]
  apply List.map_congr_left
  intro t ht
  have : t.length = t.endCol - t.col := by unfold Token.length; rw [if_neg (by have := h1 t ht; omega)]
  rw [this]

/-- A token that continues on the next line is highlighted up to column 72, where the statement field of the card ends. -/
theorem C16_continued (t : Token) (h : t.endCol < t.col) (h72 : t.col ≤ 72) : t.col + t.length = 72 := by
  unfold Token.length; rw [if_pos h, if_pos h72]; omega

example : decodeFrom 0 0 (encode [⟨0, 0, 3, 1⟩, ⟨0, 0, 5, 2⟩, ⟨0, 9, 12, 3⟩, ⟨2, 70, 15, 4⟩]) =
    [(0, 0, 3, 1), (0, 9, 3, 3), (2, 70, 2, 4)] := by decide +kernel

/-- Unsorted tokens would wrap around. -/
theorem C16_witness_unsorted : (encode [⟨1, 0, 1, 0⟩, ⟨0, 0, 1, 0⟩]).map (·.dLine) = [1, 2 ^ 64 - 1] := by decide +kernel

end Verif.Lsp
