import Verif.Dap.Model
import Mathlib.Data.List.Nodup
/-! C17 - C19: debug adapter. -/
namespace Verif.Dap

/-! ### C17 -/

structure SeqInv {M} (s : SeqState M) : Prop where
  le : ∀ x ∈ s.sent ++ s.inFlight, x.2.1 ≤ s.last
  nodup : ((s.sent ++ s.inFlight).map (·.2.1)).Nodup
  threads : (s.inFlight.map (·.1)).Nodup
  /-- per thread, numbers increase along the output and the message in flight comes after -/
  order : ((s.sent ++ s.inFlight).Pairwise fun a b => a.1 = b.1 → a.2.1 < b.2.1)

theorem seq_step {M} (s s' : SeqState M) (a : SeqAct M) (hi : SeqInv s) (h : s.step a = some s') : SeqInv s' := by
  cases a with
  | number t m =>
    simp only [SeqState.step] at h
    split at h
    · simp at h
    · next hany =>
      simp at h; subst h
      refine ⟨?_, ?_, ?_, ?_⟩
      · intro x hx
        rw [← List.append_assoc, List.mem_append] at hx
        rcases hx with hx | hx
        · exact Nat.le_succ_of_le (hi.le x hx)
        · simp at hx; subst hx; exact Nat.le_refl _
      · rw [← List.append_assoc, List.map_append, List.nodup_append]
        refine ⟨hi.nodup, by simp, ?_⟩
        intro a ha b hb
        simp at hb; subst hb
        rw [List.mem_map] at ha
        obtain ⟨x, hx, rfl⟩ := ha
        have := hi.le x hx
        omega
      · rw [List.map_append, List.nodup_append]
        refine ⟨hi.threads, by simp, ?_⟩
        intro a ha b hb
        simp at hb; subst hb
        rw [List.mem_map] at ha
        obtain ⟨x, hx, rfl⟩ := ha
        intro he
        exact hany (by rw [List.any_eq_true]; exact ⟨x, hx, by simpa using he⟩)
      · rw [← List.append_assoc, List.pairwise_append]
        refine ⟨hi.order, by simp, ?_⟩
        intro a ha b hb _
        simp at hb; subst hb
        have := hi.le a ha
        simp only; omega
  | send t =>
    simp only [SeqState.step] at h
    split at h
    · simp at h
    · next x hf =>
      simp only [Option.some.injEq] at h; subst h
      have hmem := List.mem_of_find?_eq_some hf
      have hxt : x.1 = t := by simpa using List.find?_some hf
      subst hxt
      have hfs : (s.inFlight.filter (fun y => decide (y.1 ≠ x.1))).Sublist s.inFlight := List.filter_sublist
      have hsub : ∀ y ∈ (s.sent ++ [x]) ++ s.inFlight.filter (fun y => decide (y.1 ≠ x.1)), y ∈ s.sent ++ s.inFlight := by
        intro y hy
        simp only [List.mem_append, List.mem_singleton] at hy ⊢
        rcases hy with (hy | rfl) | hy
        · exact Or.inl hy
        · exact Or.inr hmem
        · exact Or.inr (hfs.subset hy)
      have hnd := hi.nodup
      rw [List.map_append, List.nodup_append] at hnd
      have hord := List.pairwise_append.mp hi.order
      refine ⟨fun y hy => hi.le y (hsub y (by simpa [List.filter] using hy)), ?_, ?_, ?_⟩
      · simp only [List.append_assoc, List.map_append, List.map_cons, List.map_nil]
        rw [List.nodup_append]
        refine ⟨hnd.1, ?_, ?_⟩
        · rw [List.singleton_append, List.nodup_cons]
          refine ⟨?_, hnd.2.1.sublist (hfs.map _)⟩
          intro hm
          rw [List.mem_map] at hm
          obtain ⟨y, hy, he⟩ := hm
          have hy' := List.mem_filter.mp hy
          have := List.inj_on_of_nodup_map hnd.2.1 hy'.1 hmem he
          subst this
          simp at hy'
        · intro a ha b hb
          rw [List.singleton_append, List.mem_cons] at hb
          rcases hb with rfl | hb
          · exact hnd.2.2 a ha _ (List.mem_map.mpr ⟨x, hmem, rfl⟩)
          · exact hnd.2.2 a ha b ((hfs.map _).subset hb)
      · exact hi.threads.sublist (hfs.map _)
      · simp only [List.append_assoc]
        rw [List.pairwise_append]
        refine ⟨hord.1, ?_, ?_⟩
        · rw [List.singleton_append, List.pairwise_cons]
          refine ⟨?_, hord.2.1.sublist hfs⟩
          intro y hy he
          have hy' := (List.mem_filter.mp hy).2
          simp at hy'
          exact absurd he.symm hy'
        · intro a ha b hb
          rw [List.singleton_append, List.mem_cons] at hb
          rcases hb with rfl | hb
          · exact hord.2.2 a ha _ hmem
          · exact hord.2.2 a ha b (hfs.subset hb)

theorem seq_run {M} (as : List (SeqAct M)) : ∀ (s s' : SeqState M), SeqInv s → s.run as = some s' → SeqInv s' := by
  induction as with
  | nil => intro s s' hi h; simp [SeqState.run] at h; subst h; exact hi
  | cons a as ih =>
    intro s s' hi h
    simp only [SeqState.run] at h
    cases hs : s.step a with
    | none => simp [hs] at h
    | some s1 => simp [hs] at h; exact ih s1 s' (seq_step s s1 a hi hs) h

/-- C17: under every interleaving of the threads that send, no two sent messages carry the same sequence number, and the
messages of one thread carry strictly increasing numbers. Partial: across threads the order of numbers and the order of
sending may differ, see the witness. -/
theorem C17_unique_increasing_partial {M} (as : List (SeqAct M)) (s : SeqState M) (h : SeqState.run {} as = some s) :
    (s.sent.map (·.2.1)).Nodup ∧ s.sent.Pairwise (fun a b => a.1 = b.1 → a.2.1 < b.2.1) := by
  have hi := seq_run as {} s ⟨by simp, by simp, by simp, by simp⟩ h
  exact ⟨(List.nodup_append.mp (by simpa using hi.nodup)).1, (List.pairwise_append.mp hi.order).1⟩

/-- With a single sending thread the numbers in the output are strictly increasing. -/
theorem C17_single_thread {M} (as : List (SeqAct M)) (s : SeqState M) (h : SeqState.run {} as = some s) (t : Nat)
    (ht : ∀ x ∈ s.sent, x.1 = t) : (s.sent.map (·.2.1)).Pairwise (· < ·) := by
  rw [List.pairwise_map]
  exact (C17_unique_increasing_partial as s h).2.imp_of_mem (fun ha hb hab => hab (by rw [ht _ ha, ht _ hb]))

/-- Violation: the request thread (0) and the debugger thread (1) overtake each other between numbering and sending. -/
theorem C17_witness : ∃ s, SeqState.run ({} : SeqState String)
    [.number 0 "response", .number 1 "stopped", .send 1, .send 0] = some s ∧ s.sent.map (·.2.1) = [2, 1] :=
  ⟨_, rfl, by decide⟩

example : ∃ s, SeqState.run ({} : SeqState String)
    [.number 0 "response", .send 0, .number 1 "stopped", .send 1, .number 0 "x", .send 0] = some s ∧
    s.sent.map (·.2.1) = [1, 2, 3] := ⟨_, rfl, by decide⟩

/-- C17: a response names the request it answers (sequence number and command), and there is at most one. -/
theorem C17_response_names_request (d : Bool) (r : Request) :
    (∀ q c, Out.response q c ∈ (handle d r).2 → q = r.seq ∧ c = r.cmd) ∧
    ((handle d r).2.filter (fun | .response _ _ => true | .event _ => false)).length ≤ 1 := by
  rcases r with ⟨sq, c, ok⟩
  cases c <;> cases d <;> cases ok <;> simp [handle, Cmd.needsDebugger, Cmd.readsArgs]

/-- Once a debugger exists, every request with a known command and readable arguments gets exactly one response. -/
theorem C17_every_request_answered_partial (r : Request) (hc : ∀ n, r.cmd ≠ .unknown n) (ha : r.argsOk = true) :
    Out.response r.seq r.cmd ∈ (handle true r).2 := by
  rcases r with ⟨sq, c, ok⟩
  simp only at ha; subst ha
  cases c <;> simp [handle, Cmd.needsDebugger, Cmd.readsArgs]
  exact absurd rfl (hc _)

/-- C17: exactly which requests are answered: five commands always, the others only during a session, and the four that read
arguments only if these can be read. -/
theorem C17_answered (d : Bool) (r : Request) :
    Out.response r.seq r.cmd ∈ (handle d r).2 ↔
      r.cmd ∈ [Cmd.initialize, .disconnect, .setExceptionBreakpoints, .configurationDone, .threads] ∨
      (d = true ∧ r.cmd ∈ [Cmd.stackTrace, .next, .stepIn, .continue_]) ∨
      (d = true ∧ r.argsOk = true ∧ r.cmd ∈ [Cmd.launch, .setBreakpoints, .scopes, .variables]) := by
  rcases r with ⟨sq, c, ok⟩
  cases c <;> cases d <;> cases ok <;> simp [handle, Cmd.needsDebugger, Cmd.readsArgs]

example : Out.response 7 .threads ∈ (handle false ⟨7, .threads, false⟩).2 :=
  (C17_answered false ⟨7, .threads, false⟩).mpr (Or.inl (by simp))

/-- Violation: before `initialize`, and after `disconnect`, requests such as `next` are never answered; nor are requests
whose arguments cannot be read. -/
theorem C17_witness_unanswered (sq : Nat) :
    (handle false ⟨sq, .next, true⟩).2 = [] ∧ (handle true ⟨sq, .setBreakpoints, false⟩).2 = [] := by
  simp [handle, Cmd.needsDebugger, Cmd.readsArgs]

/-! ### C18 -/

/-- C18: a position sent by the client and reported back is unchanged, for both numberings and all 64-bit values. -/
theorem C18_roundtrip (b : Bool) (l : BitVec 64) : toClient b (fromClient b l) = l ∧ fromClient b (toClient b l) = l := by
  unfold toClient fromClient
  exact ⟨BitVec.sub_add_cancel _ _, BitVec.add_sub_cancel _ _⟩

/-- With numbering from 1, client line 1 is the internal line 0; with numbering from 0, numbers are equal; and away from
the wrap-around the translation is a shift by the base. -/
theorem C18_shift (b : Bool) (l : BitVec 64) (h : (base b).toNat ≤ l.toNat) :
    (fromClient b l).toNat = l.toNat - (if b then 1 else 0) := by
  cases b with
  | false => simp [fromClient, base]
  | true =>
    simp only [base, if_true] at h
    simp only [fromClient, base, if_true]
    rw [BitVec.toNat_sub_of_le (by simpa [BitVec.le_def] using h)]
    rfl

example : fromClient true 1 = 0 ∧ fromClient false 1 = 1 := by decide

/-! ### C19 -/

/-- Keys of the session map are distinct, and so are the creation numbers. -/
structure SessInv (s : Sessions) : Prop where
  keys : (s.map.map (·.1)).Nodup
  uids : ∀ e ∈ s.map, e.2.uid < s.created

theorem map_keys (f : String × Session → String × Session) (hf : ∀ e, (f e).1 = e.1) (l : List (String × Session)) :
    (l.map f).map (·.1) = l.map (·.1) := by
  simp [Function.comp_def, hf]

theorem sess_register (s : Sessions) (id : Nat) (hi : SessInv s) : SessInv (s.register id) := by
  have hsub : (s.map.filter (·.2.running)).Sublist s.map := List.filter_sublist
  unfold Sessions.register
  simp only
  split
  · exact ⟨hi.keys.sublist (hsub.map _), fun e he => Nat.lt_succ_of_lt (hi.uids e (hsub.subset he))⟩
  · next hany =>
    refine ⟨?_, ?_⟩
    · rw [List.map_append, List.nodup_append]
      refine ⟨hi.keys.sublist (hsub.map _), by simp, ?_⟩
      intro a ha b hb
      simp at hb; subst hb
      rw [List.mem_map] at ha
      obtain ⟨e, he, rfl⟩ := ha
      intro h
      exact hany (by rw [List.any_eq_true]; exact ⟨e, he, by simpa using h⟩)
    · intro e he
      rw [List.mem_append] at he
      rcases he with he | he
      · exact Nat.lt_succ_of_lt (hi.uids e (hsub.subset he))
      · simp at he; subst he; exact Nat.lt_succ_self _

theorem sess_step (s : Sessions) (ev : SessEvent) (hi : SessInv s) : SessInv (s.step ev) := by
  cases ev with
  | finish k =>
    refine ⟨?_, ?_⟩
    · simp only [Sessions.step]
      rw [map_keys _ (fun e => by split <;> rfl)]
      exact hi.keys
    · intro e he
      simp only [Sessions.step, List.mem_map] at he ⊢
      obtain ⟨e0, he0, rfl⟩ := he
      have := hi.uids e0 he0
      split <;> exact this
  | write m =>
    simp only [Sessions.step, Sessions.write]
    split
    · refine ⟨?_, ?_⟩
      · rw [map_keys _ (fun e => by split <;> rfl)]
        exact hi.keys
      · intro e he
        simp only [List.mem_map] at he
        obtain ⟨e0, he0, rfl⟩ := he
        have := hi.uids e0 he0
        split <;> exact this
    · split
      · split
        · exact sess_register s _ hi
        · exact hi
      · exact hi

/-- C19: a message reaches exactly the session it names: that session's queue gets the message appended; every other
session is left exactly as it was. -/
theorem C19_delivery (s : Sessions) (m : Msg) (k : String) (x : Session) (hx : (k, x) ∈ s.map)
    (hm : ∃ y, (m.method, y) ∈ s.map) :
    (k, if k = m.method then { x with inbox := x.inbox ++ [m] } else x) ∈ (s.step (.write m)).map := by
  have hany : s.map.any (·.1 = m.method) = true := by
    obtain ⟨y, hy⟩ := hm
    rw [List.any_eq_true]; exact ⟨_, hy, by simp⟩
  simp only [Sessions.step, Sessions.write, hany, if_true, List.mem_map]
  refine ⟨(k, x), hx, ?_⟩
  by_cases h : k = m.method <;> simp [h]

/-- C19: a message that names no session changes no session at all, unless it is a registration. -/
theorem C19_unknown_dropped (s : Sessions) (m : Msg) (hm : ∀ e ∈ s.map, e.1 ≠ m.method) (ht : m.method ≠ tunnelMethod) :
    s.step (.write m) = s := by
  have hany : s.map.any (·.1 = m.method) = false := by
    rw [List.any_eq_false]; intro e he; simpa using hm e he
  simp [Sessions.step, Sessions.write, hany, ht]

/-- C19: no message, and no other session's end, stops or destroys a live session or removes anything from its queue. -/
theorem C19_live_sessions_survive (s : Sessions) (ev : SessEvent) (k : String) (x : Session) (hx : (k, x) ∈ s.map)
    (hr : x.running = true) (hf : ev ≠ .finish k) :
    ∃ y, (k, y) ∈ (s.step ev).map ∧ y.uid = x.uid ∧ y.running = true ∧ x.inbox <+: y.inbox := by
  cases ev with
  | finish k' =>
    have hne : k ≠ k' := by rintro rfl; exact hf rfl
    refine ⟨x, ?_, rfl, hr, List.prefix_refl _⟩
    simp only [Sessions.step, List.mem_map]
    exact ⟨(k, x), hx, by simp [hne]⟩
  | write m =>
    by_cases hm : ∃ y, (m.method, y) ∈ s.map
    · have := C19_delivery s m k x hx hm
      by_cases h : k = m.method
      · rw [if_pos h] at this
        exact ⟨_, this, rfl, hr, by simp⟩
      · rw [if_neg h] at this
        exact ⟨_, this, rfl, hr, List.prefix_refl _⟩
    · have hany : s.map.any (·.1 = m.method) = false := by
        rw [List.any_eq_false]
        intro e he h
        exact hm ⟨e.2, by simp at h; rw [← h]; exact he⟩
      simp only [Sessions.step, Sessions.write, hany]
      refine ⟨x, ?_, rfl, hr, List.prefix_refl _⟩
      simp only [Bool.false_eq_true, if_false]
      have hreg : ∀ id, (k, x) ∈ (s.register id).map := by
        intro id
        have hxm : (k, x) ∈ s.map.filter (·.2.running) := by
          rw [List.mem_filter]; exact ⟨hx, hr⟩
        unfold Sessions.register
        simp only
        split
        · exact hxm
        · rw [List.mem_append]; exact Or.inl hxm
      split
      · split
        · exact hreg _
        · exact hx
      · exact hx

/-- The messages with a given method in a sequence of events. -/
def messagesFor (k : String) (es : List SessEvent) : List Msg :=
  es.filterMap fun | .write m => if m.method = k then some m else none | .finish _ => none

/-- Invariant tying each session's queue to the history: the session was created by some event, and its queue holds exactly
the messages naming it that arrived since. -/
def InboxInv (es : List SessEvent) (s : Sessions) : Prop :=
  ∀ e ∈ s.map, ∃ pre post, es = pre ++ post ∧ e.2.inbox = messagesFor e.1 post

theorem messagesFor_append (k : String) (a b : List SessEvent) :
    messagesFor k (a ++ b) = messagesFor k a ++ messagesFor k b := by simp [messagesFor]

theorem inbox_step (es : List SessEvent) (s : Sessions) (ev : SessEvent) (hi : InboxInv es s) :
    InboxInv (es ++ [ev]) (s.step ev) := by
  have keep : ∀ e : String × Session, (∃ pre post, es = pre ++ post ∧ e.2.inbox = messagesFor e.1 post) →
      messagesFor e.1 [ev] = [] → ∃ pre post, es ++ [ev] = pre ++ post ∧ e.2.inbox = messagesFor e.1 post := by
    rintro e ⟨pre, post, rfl, hin⟩ hm
    exact ⟨pre, post ++ [ev], by simp, by rw [messagesFor_append, hm, hin, List.append_nil]⟩
  cases ev with
  | finish k =>
    intro e he
    simp only [Sessions.step, List.mem_map] at he
    obtain ⟨e0, he0, rfl⟩ := he
    have := keep e0 (hi e0 he0) (by simp [messagesFor])
    split <;> exact this
  | write m =>
    intro e he
    simp only [Sessions.step, Sessions.write] at he
    split at he
    · simp only [List.mem_map] at he
      obtain ⟨e0, he0, rfl⟩ := he
      by_cases h : e0.1 = m.method
      · rw [if_pos h]
        obtain ⟨pre, post, rfl, hin⟩ := hi e0 he0
        refine ⟨pre, post ++ [.write m], by simp, ?_⟩
        simp only [messagesFor_append, hin]
        simp [messagesFor, h]
      · rw [if_neg h]
        exact keep e0 (hi e0 he0) (by simp [messagesFor]; exact fun e => h e.symm)
    · next hany =>
      have hold : ∀ e ∈ s.map, ∃ pre post, es ++ [SessEvent.write m] = pre ++ post ∧ e.2.inbox = messagesFor e.1 post := by
        intro e he
        refine keep e (hi e he) ?_
        have : ¬ m.method = e.1 := fun h => hany (by rw [List.any_eq_true]; exact ⟨e, he, by simp [h]⟩)
        simp [messagesFor, this]
      split at he
      · split at he
        · next id _ =>
          unfold Sessions.register at he
          simp only at he
          split at he
          · exact hold e (List.mem_filter.mp he).1
          · rw [List.mem_append] at he
            rcases he with he | he
            · exact hold e (List.mem_filter.mp he).1
            · simp at he; subst he
              exact ⟨es ++ [.write m], [], by simp, by simp [messagesFor]⟩
        · exact hold e he
      · exact hold e he

/-- C19: after any history, the queue of every session holds exactly the messages that named it since its creation, in
order, and nothing else. -/
theorem C19_queue_is_own_messages (es : List SessEvent) (e : String × Session) (he : e ∈ (es.foldl Sessions.step {}).map) :
    ∃ pre post, es = pre ++ post ∧ e.2.inbox = messagesFor e.1 post := by
  have key : ∀ (es : List SessEvent) (done : List SessEvent) (s : Sessions), InboxInv done s →
      InboxInv (done ++ es) (es.foldl Sessions.step s) := by
    intro es
    induction es with
    | nil => intro d s h; simpa using h
    | cons a es ih =>
      intro d s h
      have := ih (d ++ [a]) (s.step a) (inbox_step d s a h)
      simpa using this
  have := key es [] {} (by intro e he; simp at he)
  exact this e he

/-- The session map never holds two sessions under one key. -/
theorem C19_one_session_per_key (es : List SessEvent) : ((es.foldl Sessions.step {}).map.map (·.1)).Nodup := by
  have key : ∀ (es : List SessEvent) (s : Sessions), SessInv s → SessInv (es.foldl Sessions.step s) := by
    intro es
    induction es with
    | nil => intro s h; exact h
    | cons a es ih => intro s h; exact ih _ (sess_step s a h)
  exact (key es {} ⟨by simp, by simp⟩).keys

/-- Sessions with different numbers are addressed by different methods. -/
theorem C19_methods_distinct (i j : Nat) (h : methodName i = methodName j) : i = j := by
  have h1 : (toString i).toList = (toString j).toList := by
    have := congrArg String.toList h
    simpa [methodName] using this
  have h2 : Nat.toDigits 10 i = Nat.toDigits 10 j := by simpa using h1
  have h3 := congrArg (fun l => Nat.ofDigitChars 10 l 0) h2
  simpa using h3

theorem methodName_ne_tunnel (i : Nat) : methodName i ≠ tunnelMethod := by
  intro h
  have := congrArg String.length h
  simp only [methodName, String.length_append] at this
  have h1 : "hlasm/dap_tunnel/".length = 17 := by decide +kernel
  have h2 : tunnelMethod.length = 16 := by decide +kernel
  omega

theorem keys_are_methods (es : List SessEvent) : ∀ e ∈ (es.foldl Sessions.step {}).map, ∃ i, e.1 = methodName i := by
  have key : ∀ (es : List SessEvent) (s : Sessions), (∀ e ∈ s.map, ∃ i, e.1 = methodName i) →
      ∀ e ∈ (es.foldl Sessions.step s).map, ∃ i, e.1 = methodName i := by
    intro es
    induction es with
    | nil => intro s h; exact h
    | cons a es ih =>
      intro s h
      refine ih _ ?_
      cases a with
      | finish k =>
        intro e he
        simp only [Sessions.step, List.mem_map] at he
        obtain ⟨e0, he0, rfl⟩ := he
        have := h e0 he0
        split <;> exact this
      | write m =>
        intro e he
        simp only [Sessions.step, Sessions.write] at he
        split at he
        · simp only [List.mem_map] at he
          obtain ⟨e0, he0, rfl⟩ := he
          have := h e0 he0
          split <;> exact this
        · split at he
          · split at he
            · next id _ =>
              unfold Sessions.register at he
              simp only at he
              split at he
              · exact h e (List.mem_filter.mp he).1
              · rw [List.mem_append] at he
                rcases he with he | he
                · exact h e (List.mem_filter.mp he).1
                · simp at he; subst he; exact ⟨id, rfl⟩
            · exact h e he
          · exact h e he
  exact key es {} (by simp)

/-- C19: after any history, a registration request for a number whose session does not exist or has finished creates a live
session with an empty queue under that number. -/
theorem C19_registration (es : List SessEvent) (id p : Nat)
    (hfree : ∀ x, (methodName id, x) ∈ (es.foldl Sessions.step {}).map → x.running = false) :
    ∃ x, (methodName id, x) ∈ ((es ++ [SessEvent.write ⟨tunnelMethod, some id, p⟩]).foldl Sessions.step {}).map ∧
      x.running = true ∧ x.inbox = [] ∧
      ∀ e ∈ (es.foldl Sessions.step {}).map, e.2.uid ≠ x.uid := by
  rw [List.foldl_append]
  have hk := keys_are_methods es
  have hinv : SessInv (es.foldl Sessions.step {}) := by
    have key : ∀ (es : List SessEvent) (s : Sessions), SessInv s → SessInv (es.foldl Sessions.step s) := by
      intro es
      induction es with
      | nil => intro s h; exact h
      | cons a es ih => intro s h; exact ih _ (sess_step s a h)
    exact key es {} ⟨by simp, by simp⟩
  generalize es.foldl Sessions.step {} = s at *
  have hany : s.map.any (·.1 = tunnelMethod) = false := by
    rw [List.any_eq_false]
    intro e he
    obtain ⟨i, hi⟩ := hk e he
    simpa [hi] using methodName_ne_tunnel i
  have hany2 : (s.map.filter (·.2.running)).any (·.1 = methodName id) = false := by
    rw [List.any_eq_false]
    intro e he hc
    rw [List.mem_filter] at he
    have he1 : e.1 = methodName id := by simpa using hc
    have := hfree e.2 (by rw [← he1]; exact he.1)
    simp [this] at he
  refine ⟨{ uid := s.created }, ?_, rfl, rfl, fun e he => Nat.ne_of_lt (hinv.uids e he)⟩
  simp only [List.foldl_cons, List.foldl_nil, Sessions.step, Sessions.write, hany, Bool.false_eq_true, if_false, if_true,
    Sessions.register, hany2]
  simp

/-- Non-vacuity: two sessions, one ends, a third registration cleans it up; messages go where they are addressed. -/
example : ((([.write ⟨tunnelMethod, some 1, 0⟩, .write ⟨tunnelMethod, some 2, 0⟩, .write ⟨methodName 2, none, 7⟩,
      .write ⟨methodName 1, none, 8⟩, .finish (methodName 1), .write ⟨methodName 1, none, 9⟩,
      .write ⟨tunnelMethod, some 3, 0⟩] : List SessEvent).foldl Sessions.step {}).map.map
        fun e => (e.2.uid, e.2.inbox.map (·.payload))) = [(1, [7]), (2, [])] := by decide +kernel

end Verif.Dap
