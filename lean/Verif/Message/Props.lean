import Verif.Message.Spec
namespace Verif.Message

theorem Has.found {j : Json} {k : String} {v : Json} (h : Has j k v) : j.find (text k) = some v := by
  obtain ⟨nd, hm⟩ := h
  rename_i m
  simp only [Json.find]
  induction m with
  | nil => cases hm
  | cons e m ih =>
    simp only [List.map_cons, List.nodup_cons] at nd
    rcases List.mem_cons.1 hm with rfl | hm'
    · simp
    · have : (e.1 == text k) = false := by
        rw [beq_eq_false_iff_ne]; intro hk
        exact nd.1 (hk ▸ List.mem_map.2 ⟨_, hm', rfl⟩)
      rw [List.find?_cons, this]
      exact ih nd.2 hm'

theorem has_of_find {j : Json} {k : String} {v : Json} (hd : ∀ l, j = .obj l → (l.map (·.1)).Nodup) (h : j.find (text k) = some v) :
    Has j k v := by
  cases j with
  | obj l =>
    refine .mk (hd l rfl) ?_
    simp only [Json.find, Option.map_eq_some_iff] at h
    obtain ⟨e, he, rfl⟩ := h
    have h1 := List.find?_some he
    have h2 := List.mem_of_find?_eq_some he
    rw [← eq_of_beq h1]; exact h2
  | _ => cases h

theorem Lacks.found {j : Json} {k : String} (h : Lacks j k) : j.find (text k) = none := by
  cases j with
  | obj m =>
    simp only [Json.find, Option.map_eq_none_iff, List.find?_eq_none]
    intro e he hk
    have := eq_of_beq hk
    exact h m rfl e.2 (this ▸ he)
  | _ => rfl

theorem Has.idxC {j : Json} {k : String} {v : Json} (h : Has j k v) : j.idxC (text k) = pure v := by
  have := h.found
  obtain ⟨nd, hm⟩ := h
  simp only [Json.find] at this
  simp only [Json.idxC, this]

theorem Has.idx {j : Json} {k : String} {v : Json} (h : Has j k v) : j.idx (text k) = pure v := by
  have := h.found
  obtain ⟨nd, hm⟩ := h
  simp only [Json.find] at this
  simp only [Json.idx, this]

@[simp] theorem bind_pure' {α β : Type} (a : α) (f : α → M β) : ((pure a : M α) >>= f) = f a := rfl

@[simp] theorem pure_evs {α : Type} (a : α) : (pure a : M α).evs = [] := rfl
@[simp] theorem pure_res {α : Type} (a : α) : (pure a : M α).res = .ok a := rfl
@[simp] theorem emit_evs (e : Ev) : (emit e).evs = [e] := rfl
@[simp] theorem emit_res (e : Ev) : (emit e).res = .ok () := rfl
@[simp] theorem throw_evs {α : Type} : (throw' : M α).evs = [] := rfl
@[simp] theorem throw_res {α : Type} : (throw' : M α).res = .exn := rfl
@[simp] theorem undef_evs {α : Type} : (undefined : M α).evs = [] := rfl
@[simp] theorem undef_res {α : Type} : (undefined : M α).res = .ub := rfl
@[simp] theorem bind_emit {β : Type} (e : Ev) (f : Unit → M β) : (emit e >>= f) = ⟨e :: (f ()).evs, (f ()).res⟩ := rfl

@[simp] theorem getStr_str (s : Bytes) : (Json.str s).getStr = pure s := rfl
@[simp] theorem getBool_bool (b : Bool) : (Json.bool b).getBool = pure b := rfl

theorem getU64_nat {n : Nat} (h : n < 2 ^ 63) : (Json.int n).getU64 = pure n := by
  have : ((n : Int) % 2 ^ 64).toNat = n := by omega
  simp only [Json.getU64, this]

theorem getInt_nat {n : Nat} (h : n < 2 ^ 31) : (Json.int n).getInt = pure (n : Int) := by
  have : (n : Int).bmod (2 ^ 32) = n := by
    rw [Int.bmod_def]
    split <;> omega
  simp only [Json.getInt, this]

theorem toSize_nat {n : Nat} (h : n < 2 ^ 31) : toSize n = n := by
  unfold toSize; omega

/-- The names of the members are different. -/
macro "keys" : tactic => `(tactic| (simp only [List.map_cons, List.map_nil, rangeJson, positionJson, markup]; decide +kernel))

/-! ### what the names of the methods stand for -/

theorem m_open (env caps n id p) : method env caps n (text "textDocument/didOpen") id p = some (didOpen env p) := by
  unfold method; repeat (first | rw [if_pos rfl] | rw [if_neg (by decide +kernel)])
theorem m_change (env caps n id p) : method env caps n (text "textDocument/didChange") id p = some (didChange env p) := by
  unfold method; repeat (first | rw [if_pos rfl] | rw [if_neg (by decide +kernel)])
theorem m_close (env caps n id p) : method env caps n (text "textDocument/didClose") id p = some (didClose env p) := by
  unfold method; repeat (first | rw [if_pos rfl] | rw [if_neg (by decide +kernel)])
theorem m_definition (env caps n id p) : method env caps n (text "textDocument/definition") id p = some (definition env id p) := by
  unfold method; repeat (first | rw [if_pos rfl] | rw [if_neg (by decide +kernel)])
theorem m_references (env caps n id p) : method env caps n (text "textDocument/references") id p = some (references env id p) := by
  unfold method; repeat (first | rw [if_pos rfl] | rw [if_neg (by decide +kernel)])
theorem m_hover (env caps n id p) : method env caps n (text "textDocument/hover") id p = some (hover env id p) := by
  unfold method; repeat (first | rw [if_pos rfl] | rw [if_neg (by decide +kernel)])
theorem m_completion (env caps n id p) : method env caps n (text "textDocument/completion") id p = some (completion env id p) := by
  unfold method; repeat (first | rw [if_pos rfl] | rw [if_neg (by decide +kernel)])
theorem m_tokens (env caps n id p) : method env caps n (text "textDocument/semanticTokens/full") id p = some (semanticTokens env id p) := by
  unfold method; repeat (first | rw [if_pos rfl] | rw [if_neg (by decide +kernel)])
theorem m_folders (env caps n id p) : method env caps n (text "workspace/didChangeWorkspaceFolders") id p = some (didChangeFolders env p) := by
  unfold method; repeat (first | rw [if_pos rfl] | rw [if_neg (by decide +kernel)])
theorem m_watched (env caps n id p) : method env caps n (text "workspace/didChangeWatchedFiles") id p = some (didChangeWatched env p) := by
  unfold method; repeat (first | rw [if_pos rfl] | rw [if_neg (by decide +kernel)])
theorem m_config (env caps n id p) : method env caps n (text "workspace/didChangeConfiguration") id p =
    some (emit (.request (configId n) (text "workspace/configuration"))) := by
  unfold method; repeat (first | rw [if_pos rfl] | rw [if_neg (by decide +kernel)])
theorem m_init (env caps n id p) : method env caps n (text "initialize") id p = some (initialise env caps n id p) := by
  unfold method; repeat (first | rw [if_pos rfl] | rw [if_neg (by decide +kernel)])
theorem m_shutdown (env caps n id p) : method env caps n (text "shutdown") id p = some (do emit .shutdown; emit (.respond id .null)) := by
  unfold method; repeat (first | rw [if_pos rfl] | rw [if_neg (by decide +kernel)])
theorem m_exit (env caps n id p) : method env caps n (text "exit") id p = some (emit .exit) := by
  unfold method; repeat (first | rw [if_pos rfl] | rw [if_neg (by decide +kernel)])

/-- The call reaches its method. -/
theorem Calls.reach {m : Json} {name : String} {p : Json} (h : Calls m name p) {env : Env} {caps : Json} {s : State} {x : M Unit}
    (hm : Message.method env caps s.requests (text name) ((m.find (text "id")).getD (.str [])) p = some x) :
    received env caps s m = (x.caught, x.evs.foldl State.note s) := by
  unfold received
  rw [h.noResult.found, h.noError.found, h.params.found, h.method.found]
  simp only [hm]

/-! ### text synchronisation -/

/-- A document is opened with the text and the version of the message; documents without path are left alone. -/
theorem C113_open {env : Env} {caps m p d : Json} {s : State} {uri path t : Bytes} {v : Nat}
    (hc : Calls m "textDocument/didOpen" p) (hd : Has p "textDocument" d) (hu : Has d "uri" (.str uri))
    (hv : Has d "version" (.int v)) (ht : Has d "text" (.str t)) (hlt : v < 2 ^ 63) (hp : env.toPath uri = some path) :
    received env caps s m = (⟨if path = [] then [] else [.opened path v t], .fine⟩, s) := by
  rw [hc.reach (m_open ..)]
  have : didOpen env p = if path.isEmpty then pure () else emit (.opened path v t) := by
    simp [didOpen, hd.idxC, hu.idx, hv.idx, ht.idx, getU64_nat hlt, Env.path, hp]
  rw [this]
  cases path <;> simp [M.caught, State.note]

theorem IsPosition.parse {j : Json} {x : Nat × Nat} (h : IsPosition j x) : parsePosition j = pure x := by
  have h1 := h.line_lt
  have h2 := h.character_lt
  simp [parsePosition, h.line.idxC, h.character.idxC, getU64_nat (show x.1 < 2 ^ 63 by omega), getU64_nat (show x.2 < 2 ^ 63 by omega)]

theorem IsRange.parse {j : Json} {x} (h : IsRange j x) : parseRange j = pure x := by
  obtain ⟨a, b, ha, pa, hb, pb⟩ := h
  simp [parseRange, ha.idxC, hb.idxC, pa.parse, pb.parse]

theorem IsChange.parse {j : Json} {x} (h : IsChange j x) : parseChange j = pure x := by
  cases h with
  | whole ht hr => simp [parseChange, ht.idx, hr.found]
  | part ht hr hx => simp [parseChange, ht.idx, hr.found, hx.parse]

theorem each_pure {α β : Type} {f : α → M β} {R : α → β → Prop} (hf : ∀ a b, R a b → f a = pure b) {l : List α} {l' : List β}
    (h : List.Forall₂ R l l') : each f l = pure l' := by
  induction h with
  | nil => rfl
  | cons h _ ih => simp [each, hf _ _ h, ih]

/-- The changes of a message are passed on, all of them, in their order, with their ranges and texts. -/
theorem C113_change {env : Env} {caps m p : Json} {s : State} {uri path : Bytes} {v : Nat} {l : List Json} {cs}
    (hc : Calls m "textDocument/didChange" p) (hd : Version p uri v) (hl : Has p "contentChanges" (.arr l))
    (hcs : List.Forall₂ IsChange l cs) (hne : l ≠ []) (hp : env.toPath uri = some path) :
    received env caps s m = (⟨[.changed path v cs], .fine⟩, s) := by
  rw [hc.reach (m_change ..)]
  obtain ⟨d, hd, hu, hv, hlt⟩ := hd
  have hne' : cs.isEmpty = false := by cases hcs <;> simp_all
  have : didChange env p = emit (.changed path v cs) := by
    simp [didChange, hd.idxC, hu.idx, hv.idx, hl.idxC, getU64_nat hlt, Env.path, hp, Json.items,
      each_pure (fun _ _ h => IsChange.parse h) hcs]
    intro h; simp [h] at hne'
  rw [this]
  simp [M.caught, State.note]

/-- A document is closed. -/
theorem C113_close {env : Env} {caps m p : Json} {s : State} {uri path : Bytes}
    (hc : Calls m "textDocument/didClose" p) (hd : Document p uri) (hp : env.toPath uri = some path) :
    received env caps s m = (⟨[.closed path], .fine⟩, s) := by
  rw [hc.reach (m_close ..)]
  obtain ⟨d, hd, hu⟩ := hd
  have : didClose env p = emit (.closed path) := by simp [didClose, hd.idxC, hu.idxC, Env.path, hp]
  rw [this]
  simp [M.caught, State.note]

/-! ### queries -/

theorem Document.query {p : Json} {uri : Bytes} (h : Document p uri) : queryUri p = pure uri := by
  obtain ⟨d, hd, hu⟩ := h
  simp [queryUri, hd.idxC, hu.idxC]

theorem Position.query {p : Json} {x : Nat × Nat} (h : Position p x) : queryPosition p = pure x := by
  obtain ⟨j, hj, hx⟩ := h
  simp [queryPosition, hj.idxC, hx.line.idxC, hx.character.idxC, getInt_nat hx.line_lt, getInt_nat hx.character_lt,
    toSize_nat hx.line_lt, toSize_nat hx.character_lt]

theorem place (l : List (Bytes × Json)) (x : Nat × Nat) (nd : ((text "range", Json.null) :: l |>.map (·.1)).Nodup) :
    Place (.obj (l ++ [(text "range", rangeJson x)])) x := by
  refine ⟨rangeJson x, positionJson x, positionJson x, .mk ?_ (by simp), .mk ?_ (by simp [rangeJson]), .mk ?_ (by simp [rangeJson]),
    ⟨.mk ?_ (by simp [positionJson]), .mk ?_ (by simp [positionJson])⟩, .mk ?_ (by simp [positionJson]), .mk ?_ (by simp [positionJson])⟩
  · simp only [List.map_append, List.map_cons, List.map_nil]
    rw [List.perm_append_comm.nodup_iff]
    simpa using nd
  all_goals keys

/-- The answer to a search for a definition names the file and the position the workspace found; the document itself if no file is named. -/
theorem C113_definition {env : Env} {caps m p id : Json} {s : State} {uri path : Bytes} {x : Nat × Nat}
    (hc : Calls m "textDocument/definition" p) (hi : Has m "id" id) (hd : Document p uri) (hx : Position p x)
    (hp : env.toPath uri = some path) :
    ∃ r, received env caps s m = (⟨[.respond id r], .fine⟩, s) ∧ Place r (env.definition path x).2 ∧
      Has r "uri" (.str (if (env.definition path x).1 = [] then uri else env.toUri (env.definition path x).1)) := by
  refine ⟨.obj [(text "uri", .str (if (env.definition path x).1.isEmpty then uri else env.toUri (env.definition path x).1)),
    (text "range", rangeJson (env.definition path x).2)], ?_, ?_, .mk (by keys) ?_⟩
  · rw [hc.reach (m_definition ..), hi.found]
    simp [definition, hd.query, hx.query, Env.path, hp, M.caught, State.note]
  · exact place [(text "uri", _)] _ (by keys)
  · cases (env.definition path x).1 <;> simp

/-- The answer to a search for references names all of them in their order. -/
theorem C113_references {env : Env} {caps m p id : Json} {s : State} {uri path : Bytes} {x : Nat × Nat}
    (hc : Calls m "textDocument/references" p) (hi : Has m "id" id) (hd : Document p uri) (hx : Position p x)
    (hp : env.toPath uri = some path) :
    ∃ l, received env caps s m = (⟨[.respond id (.arr l)], .fine⟩, s) ∧
      List.Forall₂ (fun r j => Has j "uri" (.str (env.toUri r.1)) ∧ Place j r.2) (env.references path x) l := by
  refine ⟨(env.references path x).map fun r => .obj [(text "uri", .str (env.toUri r.1)), (text "range", rangeJson r.2)], ?_, ?_⟩
  · rw [hc.reach (m_references ..), hi.found]
    simp [references, hd.query, hx.query, Env.path, hp, M.caught, State.note]
  · rw [List.forall₂_map_right_iff, List.forall₂_same]
    intro r _
    exact ⟨.mk (by keys) (by simp), place [(text "uri", _)] _ (by keys)⟩

/-- The answer to hovering holds the text the workspace gives, or null if there is none. -/
theorem C113_hover {env : Env} {caps m p id : Json} {s : State} {uri path : Bytes} {x : Nat × Nat}
    (hc : Calls m "textDocument/hover" p) (hi : Has m "id" id) (hd : Document p uri) (hx : Position p x)
    (hp : env.toPath uri = some path) :
    ∃ r c, received env caps s m = (⟨[.respond id r], .fine⟩, s) ∧ Has r "contents" c ∧
      (env.hover path x = [] → c = .null) ∧ (env.hover path x ≠ [] → IsMarkup c (env.hover path x)) := by
  refine ⟨.obj [(text "contents", if (env.hover path x).isEmpty then .null else markup (env.hover path x))],
    if (env.hover path x).isEmpty then .null else markup (env.hover path x), ?_, .mk (by simp) (by simp), ?_, ?_⟩
  · rw [hc.reach (m_hover ..), hi.found]
    simp [hover, hd.query, hx.query, Env.path, hp, M.caught, State.note]
  · intro h; simp [h]
  · intro h
    rw [if_neg (by simpa using h)]
    exact ⟨.mk (by keys) (by simp [markup]), .mk (by keys) (by simp [markup])⟩

theorem Triggered.query {p : Json} {c : UInt8} {k : Nat} (h : Triggered p c k) : trigger p = pure (c, k) := by
  cases h with
  | invoked h1 h2 => simp [trigger, h1.idxC, h2.idxC, Json.getInt, Int.bmod]
  | character h1 h2 h3 => simp [trigger, h1.idxC, h2.idxC, h3.idxC, Json.getInt, Int.bmod]
  | again h1 h2 => simp [trigger, h1.idxC, h2.idxC, Json.getInt, Int.bmod]

theorem item (i : Item) : IsItem i (itemJson i) := by
  have nd : ∀ a b c d e : Json, (([(text "label", a), (text "kind", b), (text "detail", c), (text "documentation", d),
      (text "insertText", e)] : List (Bytes × Json)).map (·.1)).Nodup := by
    intro a b c d e; simp only [List.map_cons, List.map_nil]; decide +kernel
  refine ⟨.mk (nd ..) (by simp), ⟨i.kind.number, .mk (nd ..) (by simp), ?_⟩, .mk (nd ..) (by simp),
    ⟨markup i.documentation, .mk (nd ..) (by simp), .mk (by keys) (by simp [markup]), .mk (by keys) (by simp [markup])⟩,
    .mk (nd ..) (by simp)⟩
  cases i.kind <;> constructor

/-- The answer to a request for completion holds all the proposals in their order. -/
theorem C113_completion {env : Env} {caps m p id : Json} {s : State} {uri path : Bytes} {x : Nat × Nat} {c : UInt8} {k : Nat}
    (hc : Calls m "textDocument/completion" p) (hi : Has m "id" id) (hd : Document p uri) (hx : Position p x)
    (hk : Triggered p c k) (hp : env.toPath uri = some path) :
    ∃ r l, received env caps s m = (⟨[.respond id r], .fine⟩, s) ∧ Has r "items" (.arr l) ∧ Has r "isIncomplete" (.bool false) ∧
      List.Forall₂ IsItem (env.completion path x c k) l := by
  refine ⟨.obj [(text "isIncomplete", .bool false), (text "items", .arr ((env.completion path x c k).map itemJson))],
    (env.completion path x c k).map itemJson, ?_, .mk (by keys) (by simp), .mk (by keys) (by simp), ?_⟩
  · rw [hc.reach (m_completion ..), hi.found]
    simp [completion, hd.query, hx.query, hk.query, Env.path, hp, M.caught, State.note]
  · rw [List.forall₂_map_right_iff, List.forall₂_same]
    exact fun i _ => item i

/-- The answer to a request for the tokens holds their numbers. -/
theorem C113_tokens {env : Env} {caps m p id : Json} {s : State} {uri path : Bytes}
    (hc : Calls m "textDocument/semanticTokens/full" p) (hi : Has m "id" id) (hd : Document p uri)
    (hp : env.toPath uri = some path) :
    ∃ r, received env caps s m = (⟨[.respond id r], .fine⟩, s) ∧
      Has r "data" (.arr ((env.tokens path).map fun (n : Nat) => .int n)) := by
  refine ⟨.obj [(text "data", .arr ((env.tokens path).map fun (n : Nat) => .int n))], ?_, .mk (by simp) (by simp)⟩
  rw [hc.reach (m_tokens ..), hi.found]
  simp [semanticTokens, hd.query, Env.path, hp, M.caught, State.note]

/-! ### folders and configuration -/

theorem add_all {env : Env} {l : List Json} {fs : List (Bytes × Bytes)} (h : List.Forall₂ (IsFolder env) l fs) :
    addFolders env l = ⟨fs.map fun x => .folderAdded x.1 x.2, .ok ()⟩ := by
  induction h with
  | nil => rfl
  | cons h _ ih =>
    obtain ⟨uri, hn, hu, hp⟩ := h
    simp [addFolders, hn.idxC, hu.idxC, Env.path, hp, ih]

theorem remove_all {env : Env} {l : List Json} {ps : List Bytes} (h : List.Forall₂ (IsAt env) l ps) :
    removeFolders env l = ⟨ps.map .folderRemoved, .ok ()⟩ := by
  induction h with
  | nil => rfl
  | cons h _ ih =>
    obtain ⟨uri, hu, hp⟩ := h
    simp [removeFolders, hu.idx, Env.path, hp, ih]

theorem bind_mk {α β : Type} (e : List Ev) (a : α) (f : α → M β) : ((⟨e, .ok a⟩ : M α) >>= f) = ⟨e ++ (f a).evs, (f a).res⟩ := rfl

theorem note_added (fs : List (Bytes × Bytes)) (s : State) :
    (fs.map fun x => Ev.folderAdded x.1 x.2).foldl State.note s = s := by
  induction fs with
  | nil => rfl
  | cons a l ih => exact ih

theorem note_removed (fs : List Bytes) (s : State) : (fs.map Ev.folderRemoved).foldl State.note s = s := by
  induction fs with
  | nil => rfl
  | cons a l ih => exact ih

/-- Folders that went away are taken away first, then the new ones are added, with their names. -/
theorem C113_folders {env : Env} {caps m p e : Json} {s : State} {a r : List Json} {as : List (Bytes × Bytes)} {rs : List Bytes}
    (hc : Calls m "workspace/didChangeWorkspaceFolders" p) (he : Has p "event" e) (ha : Has e "added" (.arr a))
    (hr : Has e "removed" (.arr r)) (has : List.Forall₂ (IsFolder env) a as) (hrs : List.Forall₂ (IsAt env) r rs) :
    received env caps s m = (⟨rs.map .folderRemoved ++ as.map fun x => .folderAdded x.1 x.2, .fine⟩, s) := by
  rw [hc.reach (m_folders ..)]
  have : didChangeFolders env p = ⟨rs.map .folderRemoved ++ as.map fun x => .folderAdded x.1 x.2, .ok ()⟩ := by
    simp [didChangeFolders, he.idxC, ha.idxC, hr.idxC, Json.items, remove_all hrs, add_all has, bind_mk]
  rw [this]
  simp only [M.caught, List.foldl_append, note_added, note_removed]

theorem watched_all {env : Env} {l : List Json} {us : List Bytes} (h : List.Forall₂ (fun j u => Has j "uri" (.str u)) l us) :
    watched env l = pure (us.filterMap env.toPath) := by
  induction h with
  | nil => rfl
  | @cons j u _ _ h _ ih =>
    simp only [watched, h.idx, bind_pure', getStr_str, ih, List.filterMap_cons]
    cases env.toPath u <;> rfl

/-- Of the files that changed, those whose URIs can be understood are passed on, in their order. -/
theorem C113_watched {env : Env} {caps m p : Json} {s : State} {l : List Json} {us : List Bytes}
    (hc : Calls m "workspace/didChangeWatchedFiles" p) (hl : Has p "changes" (.arr l))
    (hu : List.Forall₂ (fun j u => Has j "uri" (.str u)) l us) :
    received env caps s m = (⟨[.filesChanged (us.filterMap env.toPath)], .fine⟩, s) := by
  rw [hc.reach (m_watched ..)]
  simp [didChangeWatched, hl.idxC, watched_all hu, M.caught, State.note]

/-- When the configuration changed, the server asks for it, with an id it has not used. -/
theorem C113_ask {env : Env} {caps m p : Json} {s : State} (hc : Calls m "workspace/didChangeConfiguration" p)
    (hn : ∀ w ∈ s.waiting, w.1 ≠ configId s.requests) :
    received env caps s m = (⟨[.request (configId s.requests) (text "workspace/configuration")], .fine⟩,
      ⟨s.requests + 1, s.waiting ++ [(configId s.requests, true)]⟩) := by
  rw [hc.reach (m_config ..)]
  have : (s.waiting.any fun x => decide (x.1 = configId s.requests)) = false := by simpa using hn
  simp [M.caught, State.note, this]

/-- The answer to it: the limit is passed on; a negative one is zero; other members, and other elements, are ignored. -/
theorem C113_configured {env : Env} {caps m x : Json} {s : State} {id : Bytes} {l : List Json} {n : Int}
    (hr : Has m "result" (.arr (x :: l))) (hi : Has m "id" (.str id)) (hw : s.waiting.find? (·.1 = id) = some (id, true))
    (hx : Has x "diagnosticsSuppressLimit" (.int n)) (hn : -2 ^ 63 ≤ n ∧ n < 2 ^ 63) :
    received env caps s m = (⟨[.configured (some (max n 0))], .fine⟩, { s with waiting := s.waiting.filter (·.1 ≠ id) }) := by
  have hb : n.bmod (2 ^ 64) = n := by rw [Int.bmod_def]; split <;> omega
  have hm : (if n < 0 then 0 else n) = max n 0 := by split <;> omega
  unfold received
  rw [hr.found, hi.found]
  simp only [hw, if_true]
  simp [configuration, Json.size, limitOf, hx.found, Json.getI64, hb, hm, M.bare]

/-- Without a limit the server is told so. -/
theorem C113_configured_none {env : Env} {caps m x : Json} {s : State} {id : Bytes} {l : List Json}
    (hr : Has m "result" (.arr (x :: l))) (hi : Has m "id" (.str id)) (hw : s.waiting.find? (·.1 = id) = some (id, true))
    (hx : Lacks x "diagnosticsSuppressLimit") :
    received env caps s m = (⟨[.configured none], .fine⟩, { s with waiting := s.waiting.filter (·.1 ≠ id) }) := by
  unfold received
  rw [hr.found, hi.found]
  simp only [hw, if_true]
  simp [configuration, Json.size, limitOf, hx.found, M.bare]

/-- An answer is taken once: a second one with the same id, and one nobody asked for, do nothing. -/
theorem C113_once {env : Env} {caps m m' r r' : Json} {s : State} {id : Bytes}
    (hr : Has m "result" r) (hi : Has m "id" (.str id)) (hr' : Has m' "result" r') (hi' : Has m' "id" (.str id)) :
    (received env caps (received env caps s m).2 m').1 = ⟨[], .fine⟩ := by
  have key : ∀ s : State, s.waiting.find? (·.1 = id) = none → (received env caps s m').1 = ⟨[], .fine⟩ := by
    intro s hs
    unfold received
    rw [hr'.found, hi'.found]
    simp only [hs]
  apply key
  unfold received
  rw [hr.found, hi.found]
  simp only
  cases h : s.waiting.find? (·.1 = id) with
  | none => exact h
  | some w => simp [List.find?_eq_none]

theorem C113_unasked {env : Env} {caps m r : Json} {s : State} {id : Bytes}
    (hr : Has m "result" r) (hi : Has m "id" (.str id)) (hw : ∀ w ∈ s.waiting, w.1 ≠ id) :
    received env caps s m = (⟨[], .fine⟩, s) := by
  unfold received
  rw [hr.found, hi.found]
  have : s.waiting.find? (·.1 = id) = none := by simpa [List.find?_eq_none] using hw
  simp only [this]

/-! ### the beginning -/

/-- The beginning of every answer to `initialize`: the capabilities, the registration, the request for the configuration. -/
def opening (caps id : Json) (n : Nat) : List Ev :=
  [.respond id caps, .request (text "register1") (text "client/registerCapability"),
    .request (configId n) (text "workspace/configuration")]

theorem initialise_evs {env : Env} {caps id p : Json} {n : Nat} {fs : List (Bytes × Bytes)}
    (h : initFolders env n p = ⟨.request (configId n) (text "workspace/configuration") :: fs.map fun x => .folderAdded x.1 x.2, .ok ()⟩) :
    initialise env caps n id p = ⟨opening caps id n ++ fs.map fun x => .folderAdded x.1 x.2, .ok ()⟩ := by
  simp [initialise, h, opening]

/-- An editor with workspace folders: they are added, with their names. -/
theorem C113_initialize {env : Env} {caps m p id c w : Json} {s : State} {l : List Json} {fs : List (Bytes × Bytes)}
    (hc : Calls m "initialize" p) (hi : Has m "id" id) (hcap : Has p "capabilities" c) (hw : Has c "workspace" w)
    (hsup : Has w "workspaceFolders" (.bool true)) (hl : Has p "workspaceFolders" (.arr l))
    (hfs : List.Forall₂ (IsFolder env) l fs) :
    (received env caps s m).1 = ⟨[.respond id caps, .request (text "register1") (text "client/registerCapability"),
      .request (configId s.requests) (text "workspace/configuration")] ++ fs.map fun x => .folderAdded x.1 x.2, .fine⟩ := by
  rw [hc.reach (m_init ..), hi.found]
  have : initFolders env s.requests p = ⟨.request (configId s.requests) (text "workspace/configuration") :: fs.map fun x => .folderAdded x.1 x.2, .ok ()⟩ := by
    simp [initFolders, folderSupport, hcap.idxC, hw.found, hsup.found, hl.idxC, Json.items, add_all hfs]
  simp only [Option.getD_some, initialise_evs this, M.caught, opening]

/-- An editor without: the root is the folder, by its URI or, without URI, by its path; without both there is none. -/
theorem C113_initialize_root {env : Env} {caps m p id c : Json} {s : State} {fs : List (Bytes × Bytes)}
    (hc : Calls m "initialize" p) (hi : Has m "id" id) (hcap : Has p "capabilities" c)
    (hsup : Lacks c "workspace" ∨ ∃ w, Has c "workspace" w ∧ (Lacks w "workspaceFolders" ∨ Has w "workspaceFolders" (.bool false)))
    (hroot : (∃ uri path, Has p "rootUri" (.str uri) ∧ env.toPath uri = some path ∧ fs = [(uri, path)]) ∨
      ((Lacks p "rootUri" ∨ Has p "rootUri" .null) ∧
        ((∃ path, Has p "rootPath" (.str path) ∧ fs = [(env.normal path, env.normal path)]) ∨
          ((Lacks p "rootPath" ∨ Has p "rootPath" .null) ∧ fs = [])))) :
    (received env caps s m).1 = ⟨[.respond id caps, .request (text "register1") (text "client/registerCapability"),
      .request (configId s.requests) (text "workspace/configuration")] ++ fs.map fun x => .folderAdded x.1 x.2, .fine⟩ := by
  rw [hc.reach (m_init ..), hi.found]
  have hs : folderSupport c = (pure false : M Bool) := by
    rcases hsup with h | ⟨w, hw, h | h⟩
    · simp [folderSupport, h.found]
    · simp [folderSupport, hw.found, h.found]
    · simp [folderSupport, hw.found, h.found]
  have : initFolders env s.requests p = ⟨.request (configId s.requests) (text "workspace/configuration") :: fs.map fun x => .folderAdded x.1 x.2, .ok ()⟩ := by
    simp only [initFolders, hcap.idxC, bind_emit, bind_pure', hs]
    rcases hroot with ⟨uri, path, hu, hp, rfl⟩ | ⟨h, ⟨path, hp, rfl⟩ | ⟨h', rfl⟩⟩
    · simp [hu.found, Env.path, hp]
    · rcases h with h | h <;> simp [h.found, hp.found]
    · rcases h with h | h <;> rcases h' with h' | h' <;> simp [h.found, h'.found]
  simp only [Option.getD_some, initialise_evs this, M.caught, opening]

/-- `shutdown` is answered with null and remembered; `exit` is remembered. -/
theorem C113_shutdown {env : Env} {caps m p id : Json} {s : State} (hc : Calls m "shutdown" p) (hi : Has m "id" id) :
    received env caps s m = (⟨[.shutdown, .respond id .null], .fine⟩, s) := by
  rw [hc.reach (m_shutdown ..), hi.found]
  rfl

theorem C113_exit {env : Env} {caps m p : Json} {s : State} (hc : Calls m "exit" p) :
    received env caps s m = (⟨[.exit], .fine⟩, s) := by
  rw [hc.reach (m_exit ..)]
  rfl

/-- A method the server does not have: nothing is done and nothing is answered. -/
theorem C113_unknown {env : Env} {caps m p : Json} {s : State} {name : Bytes} (hm : Has m "method" (.str name)) (hp : Has m "params" p)
    (hr : Lacks m "result") (he : Lacks m "error") (hn : ∀ k ∈ methods, name ≠ text k) :
    received env caps s m = (⟨[], .fine⟩, s) := by
  unfold received
  rw [hr.found, he.found, hp.found, hm.found]
  have : ∀ id, method env caps s.requests name id p = none := by
    intro id
    unfold method
    simp only [methods, List.forall_mem_cons, List.not_mem_nil, IsEmpty.forall_iff, implies_true, and_true] at hn
    obtain ⟨h1, h2, h3, h4, h5, h6, h7, h8, h9, h10, h11, h12, h13, h14⟩ := hn
    simp only [h1, h2, h3, h4, h5, h6, h7, h8, h9, h10, h11, h12, h13, h14, if_false]
  simp only [this]

/-! ### whatever the message is -/

/-- Nothing visible has been done. -/
def M.quiet {α : Type} (m : M α) : Prop := m.evs = []

theorem quiet_bind {α β : Type} {m : M α} {f : α → M β} (h : m.quiet) (hf : ∀ a, (f a).quiet) : (m >>= f).quiet := by
  show (M.bind m f).evs = []
  unfold M.bind
  cases hm : m.res with
  | ok a => simp only [show m.evs = [] from h, show (f a).evs = [] from hf a]; rfl
  | exn => exact h
  | ub => exact h

/-- A computation without effects, then another: its effects are those of the second, or nothing has been done. -/
theorem evs_bind {α β : Type} {m : M α} {f : α → M β} (h : m.quiet) {P : List Ev → Prop} (h0 : P []) (hf : ∀ a, P (f a).evs) :
    P (m >>= f).evs := by
  show P (M.bind m f).evs
  unfold M.bind
  cases hm : m.res with
  | ok a => simp only [show m.evs = [] from h]; exact hf a
  | exn => exact (show m.evs = [] from h).symm ▸ h0
  | ub => exact (show m.evs = [] from h).symm ▸ h0

theorem quiet_idxC (j : Json) (k : Bytes) : (j.idxC k).quiet := by
  unfold Json.idxC; split
  · split <;> rfl
  · rfl
theorem quiet_idx (j : Json) (k : Bytes) : (j.idx k).quiet := by
  unfold Json.idx; split
  · split <;> rfl
  · rfl
  · rfl
theorem quiet_str (j : Json) : j.getStr.quiet := by cases j <;> rfl
theorem quiet_bool (j : Json) : j.getBool.quiet := by cases j <;> rfl
theorem quiet_u64 (j : Json) : j.getU64.quiet := by
  cases j <;> try rfl
  simp only [Json.getU64]; split <;> rfl
theorem quiet_i64 (j : Json) : j.getI64.quiet := by
  cases j <;> try rfl
  simp only [Json.getI64]; split <;> rfl
theorem quiet_int (j : Json) : j.getInt.quiet := by
  cases j <;> try rfl
  simp only [Json.getInt]; split <;> rfl
theorem quiet_path (env : Env) (u : Bytes) : (env.path u).quiet := by unfold Env.path; split <;> rfl
theorem quiet_pure {α : Type} (a : α) : (pure a : M α).quiet := rfl

theorem quiet_position (j : Json) : (parsePosition j).quiet := by
  unfold parsePosition
  repeat' first | exact quiet_idxC _ _ | exact quiet_u64 _ | exact quiet_pure _ | (refine quiet_bind ?_ ?_) | intro _
theorem quiet_range (j : Json) : (parseRange j).quiet := by
  unfold parseRange
  repeat' first | exact quiet_idxC _ _ | exact quiet_position _ | exact quiet_pure _ | (refine quiet_bind ?_ ?_) | intro _
theorem quiet_change (j : Json) : (parseChange j).quiet := by
  unfold parseChange
  refine quiet_bind (quiet_idx _ _) fun _ => quiet_bind (quiet_str _) fun _ => ?_
  split
  · rfl
  · exact quiet_bind (quiet_range _) fun _ => rfl
theorem quiet_each {α β : Type} {f : α → M β} (hf : ∀ a, (f a).quiet) (l : List α) : (each f l).quiet := by
  induction l with
  | nil => rfl
  | cons a l ih => exact quiet_bind (hf a) fun _ => quiet_bind ih fun _ => rfl
theorem quiet_queryUri (p : Json) : (queryUri p).quiet := by
  unfold queryUri
  repeat' first | exact quiet_idxC _ _ | exact quiet_str _ | (refine quiet_bind ?_ ?_) | intro _
theorem quiet_queryPosition (p : Json) : (queryPosition p).quiet := by
  unfold queryPosition
  repeat' first | exact quiet_idxC _ _ | exact quiet_int _ | exact quiet_pure _ | (refine quiet_bind ?_ ?_) | intro _
theorem quiet_trigger (p : Json) : (trigger p).quiet := by
  unfold trigger
  refine quiet_bind (quiet_idxC _ _) fun _ => quiet_bind (quiet_idxC _ _) fun _ => quiet_bind (quiet_int _) fun k => ?_
  dsimp only
  generalize (if 1 ≤ k ∧ k ≤ 3 then k.toNat else 1) = kind
  by_cases h : kind = 2
  · rw [if_pos h]
    exact quiet_bind (quiet_idxC _ _) fun _ => quiet_bind (quiet_idxC _ _) fun _ => quiet_bind (quiet_str _) fun _ => rfl
  · rw [if_neg h]; rfl
theorem quiet_watched (env : Env) (l : List Json) : (watched env l).quiet := by
  induction l with
  | nil => rfl
  | cons a l ih =>
    unfold watched
    refine quiet_bind (quiet_idx _ _) fun _ => quiet_bind (quiet_str _) fun _ => quiet_bind ih fun _ => ?_
    split <;> rfl

/-- Effects that are neither answers nor requests. -/
def Ev.plain : Ev → Bool
  | .respond _ _ => false
  | .request _ _ => false
  | _ => true

theorem plain_bind {α β : Type} {m : M α} {f : α → M β} (h : ∀ e ∈ m.evs, e.plain) (hf : ∀ a, ∀ e ∈ (f a).evs, e.plain) :
    ∀ e ∈ (m >>= f).evs, e.plain := by
  show ∀ e ∈ (M.bind m f).evs, _
  unfold M.bind
  cases hm : m.res with
  | ok a =>
    intro e he
    rcases List.mem_append.1 he with h' | h'
    · exact h e h'
    · exact hf a e h'
  | exn => exact h
  | ub => exact h

theorem plain_quiet {α : Type} {m : M α} (h : m.quiet) : ∀ e ∈ m.evs, e.plain := by
  intro e he; rw [show m.evs = [] from h] at he; cases he

theorem plain_add (env : Env) (l : List Json) : ∀ e ∈ (addFolders env l).evs, e.plain := by
  induction l with
  | nil => intro e he; cases he
  | cons a l ih =>
    unfold addFolders
    refine plain_bind (plain_quiet (quiet_idxC _ _)) fun _ => plain_bind (plain_quiet (quiet_str _)) fun _ =>
      plain_bind (plain_quiet (quiet_idxC _ _)) fun _ => plain_bind (plain_quiet (quiet_str _)) fun _ =>
      plain_bind (plain_quiet (quiet_path _ _)) fun _ => plain_bind ?_ fun _ => ih
    intro e he; simp only [emit_evs, List.mem_singleton] at he; subst he; rfl

theorem plain_remove (env : Env) (l : List Json) : ∀ e ∈ (removeFolders env l).evs, e.plain := by
  induction l with
  | nil => intro e he; cases he
  | cons a l ih =>
    unfold removeFolders
    refine plain_bind (plain_quiet (quiet_idx _ _)) fun _ => plain_bind (plain_quiet (quiet_str _)) fun _ =>
      plain_bind (plain_quiet (quiet_path _ _)) fun _ => plain_bind ?_ fun _ => ih
    intro e he; simp only [emit_evs, List.mem_singleton] at he; subst he; rfl

/-- What the effects of a message can be: the answer with its id, at most once; or a plain effect, at most once; or folders; or the
request for the configuration; or the beginning. -/
inductive Shape (caps id : Json) (n : Nat) : List Ev → Prop where
  | none : Shape caps id n []
  | answer (r : Json) : Shape caps id n [.respond id r]
  | plain {l : List Ev} : (∀ e ∈ l, e.plain) → Shape caps id n l
  | ask : Shape caps id n [.request (configId n) (text "workspace/configuration")]
  | shutdown : Shape caps id n [.shutdown, .respond id .null]
  | start {l : List Ev} : (∀ e ∈ l, e.plain) → Shape caps id n (opening caps id n ++ l)

theorem one_plain (caps id : Json) (n : Nat) {e : Ev} (h : e.plain) : Shape caps id n (emit e).evs := by
  refine .plain fun x hx => ?_
  simp only [emit_evs, List.mem_singleton] at hx
  exact hx ▸ h

theorem plain_initRest (env : Env) (p : Json) {x : M Unit} {n : Nat} (hx : initFolders env n p = (emit (.request (configId n) (text "workspace/configuration")) >>= fun _ => x)) :
    ∀ e ∈ x.evs, e.plain := by
  have : x = (do
      let caps ← p.idxC (text "capabilities")
      let support ← folderSupport caps
      if support then do
        let fs ← p.idxC (text "workspaceFolders")
        addFolders env fs.items
      else match p.find (text "rootUri") with
        | some (.str uri) => do
          let path ← env.path uri
          emit (.folderAdded uri path)
        | none | some .null => match p.find (text "rootPath") with
          | none | some .null => pure ()
          | some (.str r) => emit (.folderAdded (env.normal r) (env.normal r))
          | some _ => throw'
        | some _ => throw') := by
    have h1 := congrArg M.evs hx
    have h2 := congrArg M.res hx
    simp only [initFolders, bind_emit, List.cons.injEq, true_and] at h1 h2
    cases x
    simp only at h1 h2
    subst h1 h2
    rfl
  subst this
  refine plain_bind (plain_quiet (quiet_idxC _ _)) fun c => plain_bind (plain_quiet ?_) fun b => ?_
  · unfold folderSupport; split
    · exact quiet_bool _
    · rfl
  · cases b with
    | true => exact plain_bind (plain_quiet (quiet_idxC _ _)) fun _ => plain_add env _
    | false =>
      simp only [Bool.false_eq_true, if_false]
      split
      · refine plain_bind (plain_quiet (quiet_path _ _)) fun _ e he => ?_
        simp only [emit_evs, List.mem_singleton] at he; subst he; rfl
      all_goals first
        | (split
           · intro e he; cases he
           · intro e he; cases he
           · intro e he; simp only [emit_evs, List.mem_singleton] at he; subst he; rfl
           · intro e he; cases he)
        | (intro e he; cases he)

theorem ite_some {α : Type} {c : Prop} [Decidable c] {a x : α} {b : Option α} (h : (if c then some a else b) = some x) :
    a = x ∨ b = some x := by
  by_cases hc : c
  · rw [if_pos hc] at h; injection h with h; exact Or.inl h
  · rw [if_neg hc] at h; exact Or.inr h

theorem plain_configuration (r : Json) : ∀ e ∈ (configuration r).evs, e.plain := by
  unfold configuration
  split
  · intro e he; cases he
  · split
    · refine plain_bind (plain_quiet ?_) fun _ e he => ?_
      · unfold limitOf; split
        · rfl
        · exact quiet_bind (quiet_i64 _) fun _ => rfl
      · simp only [emit_evs, List.mem_singleton] at he; subst he; rfl
    · intro e he; cases he

theorem shape {env : Env} {caps id p : Json} {n : Nat} {name : Bytes} {x : M Unit} (h : method env caps n name id p = some x) :
    Shape caps id n x.evs := by
  unfold method at h
  rcases ite_some h with h | h
  · subst h
    refine evs_bind (quiet_idxC _ _) .none fun _ => evs_bind (quiet_idx _ _) .none fun _ => evs_bind (quiet_str _) .none fun _ =>
      evs_bind (quiet_idx _ _) .none fun _ => evs_bind (quiet_u64 _) .none fun _ => evs_bind (quiet_idx _ _) .none fun _ =>
      evs_bind (quiet_str _) .none fun _ => evs_bind (quiet_path _ _) .none fun _ => ?_
    split
    · exact .none
    · exact one_plain _ _ _ rfl
  rcases ite_some h with h | h
  · subst h
    refine evs_bind (quiet_idxC _ _) .none fun _ => evs_bind (quiet_idx _ _) .none fun _ => evs_bind (quiet_str _) .none fun _ =>
      evs_bind (quiet_idx _ _) .none fun _ => evs_bind (quiet_u64 _) .none fun _ => evs_bind (quiet_idxC _ _) .none fun _ =>
      evs_bind (quiet_each quiet_change _) .none fun _ => evs_bind (quiet_path _ _) .none fun _ => ?_
    split
    · exact .none
    · exact one_plain _ _ _ rfl
  rcases ite_some h with h | h
  · subst h
    exact evs_bind (quiet_idxC _ _) .none fun _ => evs_bind (quiet_idxC _ _) .none fun _ => evs_bind (quiet_str _) .none fun _ =>
      evs_bind (quiet_path _ _) .none fun _ => one_plain _ _ _ rfl
  rcases ite_some h with h | h
  · subst h
    exact evs_bind (quiet_queryUri _) .none fun _ => evs_bind (quiet_queryPosition _) .none fun _ => evs_bind (quiet_path _ _) .none fun _ =>
      .answer _
  rcases ite_some h with h | h
  · subst h
    exact evs_bind (quiet_queryUri _) .none fun _ => evs_bind (quiet_queryPosition _) .none fun _ => evs_bind (quiet_path _ _) .none fun _ =>
      .answer _
  rcases ite_some h with h | h
  · subst h
    exact evs_bind (quiet_queryUri _) .none fun _ => evs_bind (quiet_queryPosition _) .none fun _ => evs_bind (quiet_path _ _) .none fun _ =>
      .answer _
  rcases ite_some h with h | h
  · subst h
    exact evs_bind (quiet_queryUri _) .none fun _ => evs_bind (quiet_queryPosition _) .none fun _ => evs_bind (quiet_trigger _) .none fun _ =>
      evs_bind (quiet_path _ _) .none fun _ => .answer _
  rcases ite_some h with h | h
  · subst h
    exact evs_bind (quiet_queryUri _) .none fun _ => evs_bind (quiet_path _ _) .none fun _ => .answer _
  rcases ite_some h with h | h
  · subst h
    refine evs_bind (quiet_idxC _ _) .none fun _ => evs_bind (quiet_idxC _ _) .none fun _ => evs_bind (quiet_idxC _ _) .none fun _ =>
      evs_bind (quiet_idxC _ _) .none fun _ => .plain (plain_bind (plain_remove _ _) fun _ => plain_add _ _)
  rcases ite_some h with h | h
  · subst h
    refine evs_bind (quiet_idxC _ _) .none fun c => ?_
    split
    · exact evs_bind (quiet_watched _ _) .none fun _ => one_plain _ _ _ rfl
    · exact .none
  rcases ite_some h with h | h
  · subst h; exact .ask
  rcases ite_some h with h | h
  · subst h
    have := Shape.start (caps := caps) (id := id) (n := n) (plain_initRest env p (n := n) rfl)
    exact this
  rcases ite_some h with h | h
  · subst h; exact .shutdown
  rcases ite_some h with h | h
  · subst h; exact one_plain _ _ _ rfl
  · cases h

/-- What `received` does with the effects of a method. -/
theorem received_shape {env : Env} {caps m : Json} {s : State} :
    Shape caps ((m.find (text "id")).getD (.str [])) s.requests (received env caps s m).1.evs := by
  unfold received
  split
  · split
    · split
      · split
        · unfold M.bare
          split <;> exact .plain (plain_configuration _)
        · exact .none
      · exact .none
    · exact .none
  · split
    · split <;> exact .none
    · split
      · split
        · rename_i h
          unfold M.caught
          split <;> exact shape h
        · exact .none
      · exact .none

/-- At most one answer is given to a message, and it carries the id of the message (an empty text if there is none). -/
theorem C113_answers (env : Env) (caps m : Json) (s : State) (hd : ∀ l, m = .obj l → (l.map (·.1)).Nodup) :
    (received env caps s m).1.evs.filter Ev.isResponse = [] ∨
    ∃ id r, (received env caps s m).1.evs.filter Ev.isResponse = [.respond id r] ∧
      (Has m "id" id ∨ Lacks m "id" ∧ id = .str []) := by
  have key : ∀ id, (m.find (text "id")).getD (.str []) = id → (Has m "id" id ∨ Lacks m "id" ∧ id = .str []) := by
    intro id hid
    cases hf : m.find (text "id") with
    | none =>
      rw [hf] at hid
      refine Or.inr ⟨?_, hid.symm⟩
      rintro l rfl v hv
      have := (Has.mk (hd l rfl) hv).found
      rw [hf] at this; cases this
    | some v =>
      rw [hf] at hid
      simp only [Option.getD_some] at hid
      subst hid
      exact Or.inl (has_of_find hd hf)
  have plain : ∀ l : List Ev, (∀ e ∈ l, e.plain) → l.filter Ev.isResponse = [] := by
    intro l hl
    rw [List.filter_eq_nil_iff]
    intro e he
    have := hl e he
    cases e <;> simp_all [Ev.plain, Ev.isResponse]
  have h := received_shape (env := env) (caps := caps) (m := m) (s := s)
  generalize hid : (m.find (text "id")).getD (.str []) = id at h
  generalize (received env caps s m).1.evs = l at h
  cases h with
  | none => exact Or.inl rfl
  | answer r => exact Or.inr ⟨id, r, rfl, key id hid⟩
  | plain hp => exact Or.inl (plain _ hp)
  | ask => exact Or.inl rfl
  | shutdown => exact Or.inr ⟨id, .null, rfl, key id hid⟩
  | start hp =>
    refine Or.inr ⟨id, caps, ?_, key id hid⟩
    rw [List.filter_append, plain _ hp]
    rfl

/-- At most one effect, and one that leaves the state of the server as it is. -/
inductive AtMost : List Ev → Prop where
  | none : AtMost []
  | one {f : Ev} : f.plain ∨ f.isResponse → AtMost [f]

/-- Messages about texts, and questions, do one thing or nothing at all. -/
theorem C113_atomic (env : Env) (caps m p : Json) (s : State) {name : String} (hc : Calls m name p)
    (hn : name ∈ methods.take 8) : (received env caps s m).1.evs.length ≤ 1 ∧ (received env caps s m).2 = s := by
  have one : ∀ (x : M Unit), (∀ f, x.evs = [f] → f.plain ∨ f.isResponse) → x.evs.length ≤ 1 →
      x.caught.evs.length ≤ 1 ∧ x.evs.foldl State.note s = s := by
    intro x hx hl
    have h1 : x.caught.evs = x.evs := by unfold M.caught; split <;> rfl
    rw [h1]
    refine ⟨hl, ?_⟩
    match he : x.evs with
    | [] => rfl
    | [f] => rcases hx f he with h | h <;> cases f <;> first | rfl | cases h
    | _ :: _ :: _ => rw [he] at hl; simp at hl
  have leaf : ∀ {x : M Unit}, AtMost x.evs →
      x.caught.evs.length ≤ 1 ∧ x.evs.foldl State.note s = s := by
    intro x h'
    generalize h : x.evs = l at h'
    cases h' with
    | none => exact h ▸ one x (by simp [h]) (by simp [h])
    | one hf => exact h ▸ one x (by intro g hg; rw [h] at hg; injection hg with hg; exact hg ▸ hf) (by simp [h])
  simp only [methods, List.take_succ_cons, List.take_zero, List.mem_cons, List.not_mem_nil, or_false] at hn
  rcases hn with rfl | rfl | rfl | rfl | rfl | rfl | rfl | rfl
  · rw [hc.reach (m_open ..)]
    refine leaf (evs_bind (quiet_idxC _ _) .none fun _ => evs_bind (quiet_idx _ _) .none fun _ => evs_bind (quiet_str _) .none fun _ =>
      evs_bind (quiet_idx _ _) .none fun _ => evs_bind (quiet_u64 _) .none fun _ => evs_bind (quiet_idx _ _) .none fun _ =>
      evs_bind (quiet_str _) .none fun _ => evs_bind (quiet_path _ _) .none fun _ => ?_)
    split
    · exact .none
    · exact .one (.inl rfl)
  · rw [hc.reach (m_change ..)]
    refine leaf (evs_bind (quiet_idxC _ _) .none fun _ => evs_bind (quiet_idx _ _) .none fun _ => evs_bind (quiet_str _) .none fun _ =>
      evs_bind (quiet_idx _ _) .none fun _ => evs_bind (quiet_u64 _) .none fun _ => evs_bind (quiet_idxC _ _) .none fun _ =>
      evs_bind (quiet_each quiet_change _) .none fun _ => evs_bind (quiet_path _ _) .none fun _ => ?_)
    split
    · exact .none
    · exact .one (.inl rfl)
  · rw [hc.reach (m_close ..)]
    exact leaf (evs_bind (quiet_idxC _ _) .none fun _ => evs_bind (quiet_idxC _ _) .none fun _ => evs_bind (quiet_str _) .none fun _ =>
      evs_bind (quiet_path _ _) .none fun _ => .one (.inl rfl))
  · rw [hc.reach (m_definition ..)]
    exact leaf (evs_bind (quiet_queryUri _) .none fun _ => evs_bind (quiet_queryPosition _) .none fun _ => evs_bind (quiet_path _ _) .none fun _ =>
      .one (.inr rfl))
  · rw [hc.reach (m_references ..)]
    exact leaf (evs_bind (quiet_queryUri _) .none fun _ => evs_bind (quiet_queryPosition _) .none fun _ => evs_bind (quiet_path _ _) .none fun _ =>
      .one (.inr rfl))
  · rw [hc.reach (m_hover ..)]
    exact leaf (evs_bind (quiet_queryUri _) .none fun _ => evs_bind (quiet_queryPosition _) .none fun _ => evs_bind (quiet_path _ _) .none fun _ =>
      .one (.inr rfl))
  · rw [hc.reach (m_completion ..)]
    exact leaf (evs_bind (quiet_queryUri _) .none fun _ => evs_bind (quiet_queryPosition _) .none fun _ => evs_bind (quiet_trigger _) .none fun _ =>
      evs_bind (quiet_path _ _) .none fun _ => .one (.inr rfl))
  · rw [hc.reach (m_tokens ..)]
    exact leaf (evs_bind (quiet_queryUri _) .none fun _ => evs_bind (quiet_path _ _) .none fun _ => .one (.inr rfl))

/-! ### sessions -/

theorem config_plain (l : List Ev) (h : ∀ e ∈ l, e.plain) : l.filterMap Ev.configRequest = [] := by
  rw [List.filterMap_eq_nil_iff]
  intro e he
  have := h e he
  cases e <;> simp_all [Ev.plain, Ev.configRequest]

theorem note_plain (l : List Ev) (h : ∀ e ∈ l, e.plain) (s : State) : l.foldl State.note s = s := by
  induction l generalizing s with
  | nil => rfl
  | cons e l ih =>
    rw [List.foldl_cons, show s.note e = s from ?_, ih fun x hx => h x (List.mem_cons_of_mem _ hx)]
    have := h e (by simp)
    cases e <;> first | rfl | cases this

theorem shape_count {caps id : Json} {s : State} {l : List Ev} (h : Shape caps id s.requests l) :
    (l.filterMap Ev.configRequest = [] ∧ (l.foldl State.note s).requests = s.requests) ∨
    (l.filterMap Ev.configRequest = [configId s.requests] ∧ (l.foldl State.note s).requests = s.requests + 1) := by
  have hne : text "client/registerCapability" ≠ text "workspace/configuration" := by decide +kernel
  cases h with
  | none => exact .inl ⟨rfl, rfl⟩
  | answer r => exact .inl ⟨rfl, rfl⟩
  | plain hp => exact .inl ⟨config_plain _ hp, by rw [note_plain _ hp]⟩
  | ask => exact .inr ⟨by simp [Ev.configRequest], by simp [State.note]⟩
  | shutdown => exact .inl ⟨rfl, rfl⟩
  | start hp =>
    refine .inr ⟨?_, ?_⟩
    · rw [List.filterMap_append, config_plain _ hp]
      simp [opening, Ev.configRequest, hne, List.filterMap_cons]
    · rw [List.foldl_append, note_plain _ hp]
      simp [opening, State.note, hne]

theorem received_state {env : Env} {caps m : Json} {s : State} :
    (received env caps s m).2.requests = ((received env caps s m).1.evs.foldl State.note s).requests := by
  unfold received
  split
  · split
    · split
      · split
        · show s.requests = _
          rw [note_plain]
          unfold M.bare
          split <;> exact plain_configuration _
        · rfl
      · rfl
    · rfl
  · split
    · split <;> rfl
    · split
      · split
        · unfold M.caught
          split <;> rfl
        · rfl
      · rfl

theorem digits_inj {a b : Nat} (h : configId a = configId b) : a = b := by
  unfold configId digits at h
  have h1 := List.append_cancel_left h
  have h3 : (toString a).toList = (toString b).toList := by
    have inj : ∀ l l' : List Char, (∀ c ∈ l, c.toNat < 256) → (∀ c ∈ l', c.toNat < 256) →
        l.map (fun c => UInt8.ofNat c.toNat) = l'.map (fun c => UInt8.ofNat c.toNat) → l = l' := by
      intro l
      induction l with
      | nil => intro l' _ _ h; cases l' <;> simp_all
      | cons c l ih =>
        intro l' hl hl' h
        cases l' with
        | nil => simp at h
        | cons c' l' =>
          simp only [List.map_cons, List.cons.injEq] at h
          have e1 := congrArg UInt8.toNat h.1
          simp only [UInt8.toNat_ofNat'] at e1
          have a1 := hl c (by simp)
          have a2 := hl' c' (by simp)
          have : c.toNat = c'.toNat := by omega
          have : c = c' := Char.toNat_inj.1 this
          rw [this, ih l' (fun x hx => hl x (List.mem_cons_of_mem _ hx)) (fun x hx => hl' x (List.mem_cons_of_mem _ hx)) h.2]
    have small : ∀ n : Nat, ∀ c ∈ (toString n).toList, c.toNat < 256 := by
      intro n c hc
      have hc' : c ∈ Nat.toDigits 10 n := by simpa using hc
      have := Nat.isDigit_of_mem_toDigits (by decide) (by decide) hc'
      have h57 := (Char.isDigit_iff_toNat.1 this).2
      exact Nat.lt_of_le_of_lt h57 (by decide)
    exact inj _ _ (small a) (small b) h1
  have h2 : Nat.toDigits 10 a = Nat.toDigits 10 b := by simpa using h3
  have h4 := congrArg (fun l => Nat.ofDigitChars 10 l 0) h2
  simpa using h4

/-- In a session the requests for the configuration are numbered, so that no two have the same id. -/
theorem C113_ids (env : Env) (caps : Json) (s : State) (l : List Json) :
    ((session env caps s l).filterMap Ev.configRequest).Nodup := by
  have key : ∀ (l : List Json) (s : State), ∃ k, (session env caps s l).filterMap Ev.configRequest = (List.range' s.requests k).map configId := by
    intro l
    induction l with
    | nil => intro s; exact ⟨0, rfl⟩
    | cons m l ih =>
      intro s
      have h := shape_count (received_shape (env := env) (caps := caps) (m := m) (s := s))
      rw [← received_state] at h
      simp only [session]
      have single : ∃ k, (received env caps s m).1.evs.filterMap Ev.configRequest = (List.range' s.requests k).map configId := by
        rcases h with h | h
        · exact ⟨0, h.1⟩
        · exact ⟨1, h.1⟩
      split
      · obtain ⟨k, hk⟩ := ih (received env caps s m).2
        rw [List.filterMap_append, hk]
        rcases h with h | h
        · exact ⟨k, by rw [h.1, h.2]; rfl⟩
        · exact ⟨k + 1, by rw [h.1, h.2]; rfl⟩
      · exact single
  obtain ⟨k, hk⟩ := key l s
  rw [hk]
  exact List.Pairwise.map _ (fun a b hab h => hab (digits_inj h)) List.nodup_range'

/-- What waits for an answer. -/
def Fresh (s : State) : Prop := ∀ w ∈ s.waiting, w.1 = text "register1" ∨ ∃ k, k < s.requests ∧ w.1 = configId k

theorem fresh_mono {s : State} (h : Fresh s) {w : List (Bytes × Bool)} (hw : ∀ x ∈ w, x ∈ s.waiting) {n : Nat} (hn : s.requests ≤ n) : Fresh ⟨n, w⟩ := by
  intro x hx
  rcases h x (hw x hx) with h | ⟨k, hk, e⟩
  · exact .inl h
  · exact .inr ⟨k, by show k < n; omega, e⟩

theorem fresh_config {s : State} (h : Fresh s) : Fresh (s.note (.request (configId s.requests) (text "workspace/configuration"))) := by
  simp only [State.note, if_true, decide_true]
  split
  · exact fresh_mono h (fun _ h => h) (by omega)
  · intro x hx
    rcases List.mem_append.1 hx with hx | hx
    · exact fresh_mono h (fun _ h => h) (Nat.le_succ _) x hx
    · simp only [List.mem_singleton] at hx
      exact .inr ⟨s.requests, by simp, by rw [hx]⟩

theorem fresh_register {s : State} (h : Fresh s) : Fresh (s.note (.request (text "register1") (text "client/registerCapability"))) := by
  have hne : text "client/registerCapability" ≠ text "workspace/configuration" := by decide +kernel
  simp only [State.note, if_neg hne]
  split
  · exact h
  · intro x hx
    rcases List.mem_append.1 hx with hx | hx
    · exact h x hx
    · simp only [List.mem_singleton] at hx
      exact .inl (by rw [hx])

theorem fresh_shape {caps id : Json} {s : State} {l : List Ev} (hs : Fresh s) (h : Shape caps id s.requests l) : Fresh (l.foldl State.note s) := by
  have hne : text "client/registerCapability" ≠ text "workspace/configuration" := by decide +kernel
  cases h with
  | none => exact hs
  | answer r => exact hs
  | plain hp => rw [note_plain _ hp]; exact hs
  | ask => exact fresh_config hs
  | shutdown => exact hs
  | start hp =>
    rw [List.foldl_append, note_plain _ hp]
    have h1 := fresh_register hs
    have h2 := fresh_config h1
    have h3 : (s.note (.request (text "register1") (text "client/registerCapability"))).requests = s.requests := by
      simp [State.note, hne]
    rw [h3] at h2
    exact h2

theorem fresh_received {env : Env} {caps m : Json} {s : State} (hs : Fresh s) : Fresh (received env caps s m).2 := by
  unfold received
  split
  · split
    · split
      · exact fresh_mono hs (fun _ h => (List.mem_filter.1 h).1) (Nat.le_refl _)
      · exact hs
    · exact hs
  · split
    · split <;> exact hs
    · split
      · split
        · rename_i h
          exact fresh_shape hs (shape h)
        · exact hs
      · exact hs

/-- The next request for the configuration never meets an id that still waits, so its answer is looked at (`C113_ask`). -/
theorem C113_fresh (env : Env) (caps : Json) (l : List Json) :
    ∀ w ∈ (after env caps ⟨0, []⟩ l).waiting, w.1 ≠ configId (after env caps ⟨0, []⟩ l).requests := by
  have key : ∀ (l : List Json) (s : State), Fresh s → Fresh (after env caps s l) := by
    intro l
    induction l with
    | nil => intro s h; exact h
    | cons m l ih => intro s h; exact ih _ (fresh_received h)
  intro w hw
  rcases key l ⟨0, []⟩ (by intro w hw; cases hw) w hw with h | ⟨k, hk, h⟩
  · rw [h]
    intro e
    have := congrArg List.head? e
    have h2 : (configId (after env caps ⟨0, []⟩ l).requests).head? = some 99 := rfl
    rw [h2] at this
    revert this; decide +kernel
  · rw [h]
    intro e
    have := digits_inj e
    omega

/-! ### robustness -/

/-- No undefined behaviour. -/
def M.safe {α : Type} (m : M α) : Prop := m.res ≠ .ub

theorem safe_bind {α β : Type} {m : M α} {f : α → M β} (h : m.safe) (hf : ∀ a, m.res = .ok a → (f a).safe) : (m >>= f).safe := by
  show (M.bind m f).res ≠ .ub
  unfold M.bind
  cases hm : m.res with
  | ok a => exact hf a hm
  | exn => simp
  | ub => exact absurd hm h

theorem safe_pure {α : Type} (a : α) : (pure a : M α).safe := by simp [M.safe]
theorem safe_throw {α : Type} : (throw' : M α).safe := by simp [M.safe]
theorem safe_emit (e : Ev) : (emit e).safe := by simp [M.safe]
theorem safe_str (j : Json) : j.getStr.safe := by cases j <;> first | exact safe_pure _ | exact safe_throw
theorem safe_bool (j : Json) : j.getBool.safe := by cases j <;> first | exact safe_pure _ | exact safe_throw
theorem safe_idx (j : Json) (k : Bytes) : (j.idx k).safe := by
  unfold Json.idx; split
  · split <;> exact safe_pure _
  · exact safe_pure _
  · exact safe_throw
theorem safe_path (env : Env) (u : Bytes) : (env.path u).safe := by
  unfold Env.path; split
  · exact safe_pure _
  · exact safe_throw
theorem safe_u64 {j : Json} (h : WholeNumbers j) : j.getU64.safe := by
  cases j <;> first | exact safe_pure _ | exact safe_throw | skip
  exact absurd .self (h _)
theorem safe_int {j : Json} (h : WholeNumbers j) : j.getInt.safe := by
  cases j <;> first | exact safe_pure _ | exact safe_throw | skip
  exact absurd .self (h _)

theorem Within.trans {a b c : Json} (h : Within a b) (h' : Within b c) : Within a c := by
  induction h' with
  | self => exact h
  | elem hm _ ih => exact .elem hm ih
  | member hm _ ih => exact .member hm ih

theorem WholeNumbers.sub {a b : Json} (hb : WholeNumbers b) (h : Within a b) : WholeNumbers a := fun n hn => hb n (hn.trans h)
theorem Proper.sub {a b : Json} (hb : Proper b) (h : Within a b) : Proper a := fun m hm => hb m (hm.trans h)

theorem Has.within {j : Json} {k : String} {v : Json} (h : Has j k v) : Within v j := by
  obtain ⟨_, hm⟩ := h
  exact .member hm .self

theorem idx_whole {j : Json} {k : Bytes} {v : Json} (h : WholeNumbers j) (hv : (j.idx k).res = .ok v) : WholeNumbers v := by
  have hnull : WholeNumbers .null := by intro n hn; cases hn
  unfold Json.idx at hv
  split at hv
  · split at hv
    · rename_i hf
      simp only [pure_res, Res.ok.injEq] at hv
      subst hv
      simp only [Option.map_eq_some_iff] at hf
      obtain ⟨e, he, rfl⟩ := hf
      exact h.sub (.member (k := e.1) (List.mem_of_find?_eq_some he) .self)
    · simp only [pure_res, Res.ok.injEq] at hv; subst hv; exact hnull
  · simp only [pure_res, Res.ok.injEq] at hv; subst hv; exact hnull
  · cases hv

theorem Is.idxC {j : Json} {k : String} (h : Is j k) : ∃ v, Within v j ∧ j.idxC (text k) = pure v := by
  obtain ⟨v, hv⟩ := h
  exact ⟨v, hv.within, hv.idxC⟩

theorem safe_position {j : Json} (hw : WholeNumbers j) (h1 : Is j "line") (h2 : Is j "character") : (parsePosition j).safe := by
  obtain ⟨a, ha, ea⟩ := h1.idxC
  obtain ⟨b, hb, eb⟩ := h2.idxC
  unfold parsePosition
  rw [ea, eb]
  simp only [bind_pure']
  exact safe_bind (safe_u64 (hw.sub ha)) fun _ _ => safe_bind (safe_u64 (hw.sub hb)) fun _ _ => safe_pure _

theorem Has.unique {j : Json} {k : String} {v w : Json} (h : Has j k v) (h' : Has j k w) : v = w := by
  have := h.found.symm.trans h'.found
  injection this

theorem safe_range {j : Json} (hw : WholeNumbers j) (h : RangeThere j) : (parseRange j).safe := by
  obtain ⟨⟨a, ha, al⟩, ⟨a', ha', ac⟩, ⟨b, hb, bl⟩, ⟨b', hb', bc⟩⟩ := h
  cases ha.unique ha'
  cases hb.unique hb'
  unfold parseRange
  rw [ha.idxC, hb.idxC]
  simp only [bind_pure']
  exact safe_bind (safe_position (hw.sub ha.within) al ac) fun _ _ => safe_bind (safe_position (hw.sub hb.within) bl bc) fun _ _ => safe_pure _

theorem safe_change {j : Json} (hw : WholeNumbers j) (hd : Proper j) (h : ∀ r, Has j "range" r → RangeThere r) : (parseChange j).safe := by
  unfold parseChange
  refine safe_bind (safe_idx _ _) fun _ _ => safe_bind (safe_str _) fun _ _ => ?_
  cases hf : j.find (text "range") with
  | none => exact safe_pure _
  | some r =>
    have hr := has_of_find (k := "range") (fun l e => hd l (e ▸ .self)) hf
    exact safe_bind (safe_range (hw.sub hr.within) (h r hr)) fun _ _ => safe_pure _

theorem safe_each {α β : Type} {f : α → M β} (l : List α) (h : ∀ a ∈ l, (f a).safe) : (each f l).safe := by
  induction l with
  | nil => exact safe_pure _
  | cons a l ih =>
    exact safe_bind (h a (by simp)) fun _ _ => safe_bind (ih fun b hb => h b (List.mem_cons_of_mem _ hb)) fun _ _ => safe_pure _

theorem bind_ok {α β : Type} {m : M α} {f : α → M β} {b : β} (h : (m >>= f).res = .ok b) : ∃ a, m.res = .ok a ∧ (f a).res = .ok b := by
  change (M.bind m f).res = _ at h
  unfold M.bind at h
  cases hm : m.res with
  | ok a => rw [hm] at h; exact ⟨a, rfl, h⟩
  | exn => rw [hm] at h; cases h
  | ub => rw [hm] at h; cases h

theorem each_length {α β : Type} {f : α → M β} (l : List α) {l' : List β} (h : (each f l).res = .ok l') : l'.length = l.length := by
  induction l generalizing l' with
  | nil => simp only [each, pure_res, Res.ok.injEq] at h; rw [← h]; rfl
  | cons a l ih =>
    unfold each at h
    obtain ⟨b, _, h⟩ := bind_ok h
    obtain ⟨bs, hbs, h⟩ := bind_ok h
    simp only [pure_res, Res.ok.injEq] at h
    rw [← h, List.length_cons, List.length_cons, ih hbs]

theorem safe_add (env : Env) (l : List Json) (h : ∀ f ∈ l, Is f "name" ∧ Is f "uri") : (addFolders env l).safe := by
  induction l with
  | nil => exact safe_pure _
  | cons a l ih =>
    obtain ⟨n, _, en⟩ := (h a (by simp)).1.idxC
    obtain ⟨u, _, eu⟩ := (h a (by simp)).2.idxC
    unfold addFolders
    rw [en, eu]
    simp only [bind_pure']
    exact safe_bind (safe_str _) fun _ _ => safe_bind (safe_str _) fun _ _ => safe_bind (safe_path _ _) fun _ _ =>
      safe_bind (safe_emit _) fun _ _ => ih fun f hf => h f (List.mem_cons_of_mem _ hf)

theorem safe_remove (env : Env) (l : List Json) : (removeFolders env l).safe := by
  induction l with
  | nil => exact safe_pure _
  | cons a l ih =>
    unfold removeFolders
    exact safe_bind (safe_idx _ _) fun _ _ => safe_bind (safe_str _) fun _ _ => safe_bind (safe_path _ _) fun _ _ =>
      safe_bind (safe_emit _) fun _ _ => ih

theorem safe_watched (env : Env) (l : List Json) : (watched env l).safe := by
  induction l with
  | nil => exact safe_pure _
  | cons a l ih =>
    unfold watched
    refine safe_bind (safe_idx _ _) fun _ _ => safe_bind (safe_str _) fun _ _ => safe_bind ih fun _ _ => ?_
    split <;> exact safe_pure _

theorem safe_queryUri {p : Json} (h : Is2 p "textDocument" "uri") : (queryUri p).safe := by
  obtain ⟨d, hd, hu⟩ := h
  obtain ⟨u, _, eu⟩ := hu.idxC
  unfold queryUri
  rw [hd.idxC]
  simp only [bind_pure', eu]
  exact safe_str _

theorem safe_queryPosition {p : Json} (hw : WholeNumbers p) (h1 : Is2 p "position" "line") (h2 : Is2 p "position" "character") :
    (queryPosition p).safe := by
  obtain ⟨d, hd, hu⟩ := h1
  obtain ⟨d', hd', hu'⟩ := h2
  cases hd.unique hd'
  obtain ⟨l, hl, el⟩ := hu.idxC
  obtain ⟨c, hc, ec⟩ := hu'.idxC
  unfold queryPosition
  rw [hd.idxC]
  simp only [bind_pure', el, ec]
  exact safe_bind (safe_int (hw.sub (hl.trans hd.within))) fun _ _ => safe_bind (safe_int (hw.sub (hc.trans hd.within))) fun _ _ => safe_pure _

theorem safe_trigger {p : Json} (hw : WholeNumbers p) (h1 : Is2 p "context" "triggerKind") (h2 : Is2 p "context" "triggerCharacter") :
    (trigger p).safe := by
  obtain ⟨d, hd, hu⟩ := h1
  obtain ⟨d', hd', hu'⟩ := h2
  cases hd.unique hd'
  obtain ⟨l, hl, el⟩ := hu.idxC
  obtain ⟨c, hc, ec⟩ := hu'.idxC
  unfold trigger
  rw [hd.idxC]
  simp only [bind_pure', el, ec]
  refine safe_bind (safe_int (hw.sub (hl.trans hd.within))) fun k _ => ?_
  generalize (if 1 ≤ k ∧ k ≤ 3 then k.toNat else 1) = kind
  by_cases h : kind = 2
  · rw [if_pos h]
    exact safe_bind (safe_str _) fun _ _ => safe_pure _
  · rw [if_neg h]; exact safe_pure _

/-- If the members the server looks at are there, a call never ends in undefined behaviour and never ends the server, whatever the
values of the members are. (Without them it may: see the witnesses.) -/
theorem C113_robust_partial {env : Env} {caps m p : Json} {s : State} {name : String} (hc : Calls m name p) (he : Enough name p)
    (hw : WholeNumbers p) (hd : Proper p) : (received env caps s m).1.fate = .fine := by
  have fine : ∀ {x : M Unit}, x.safe → x.caught.fate = .fine := by
    intro x hx
    unfold M.caught
    split
    · rfl
    · rfl
    · exact absurd ‹_› hx
  cases he with
  | opens h =>
    rw [hc.reach (m_open ..)]
    apply fine
    obtain ⟨d, hd', ed⟩ := h.idxC
    unfold didOpen
    rw [ed]
    simp only [bind_pure']
    refine safe_bind (safe_idx _ _) fun _ _ => safe_bind (safe_str _) fun _ _ => safe_bind (safe_idx _ _) fun v hv =>
      safe_bind (safe_u64 (idx_whole (hw.sub hd') hv)) fun _ _ => safe_bind (safe_idx _ _) fun _ _ => safe_bind (safe_str _) fun _ _ =>
      safe_bind (safe_path _ _) fun _ _ => ?_
    split
    · exact safe_pure _
    · exact safe_emit _
  | @changes _ l h hl hne hr =>
    rw [hc.reach (m_change ..)]
    apply fine
    obtain ⟨d, hd', ed⟩ := h.idxC
    unfold didChange
    rw [ed, hl.idxC]
    simp only [bind_pure', Json.items]
    refine safe_bind (safe_idx _ _) fun _ _ => safe_bind (safe_str _) fun _ _ => safe_bind (safe_idx _ _) fun v hv =>
      safe_bind (safe_u64 (idx_whole (hw.sub hd') hv)) fun _ _ => safe_bind (safe_each _ fun c hcl => ?_) fun cs hcs =>
      safe_bind (safe_path _ _) fun _ _ => ?_
    · have hin : Within c p := (Within.elem hcl .self).trans hl.within
      exact safe_change (hw.sub hin) (hd.sub hin) (hr c hcl)
    · have := each_length _ hcs
      split
      · rename_i h0
        simp only [List.isEmpty_iff] at h0
        subst h0
        cases l
        · exact absurd rfl hne
        · simp at this
      · exact safe_emit _
  | closes h =>
    rw [hc.reach (m_close ..)]
    apply fine
    obtain ⟨d, hd', hu⟩ := h
    obtain ⟨u, _, eu⟩ := hu.idxC
    unfold didClose
    rw [hd'.idxC]
    simp only [bind_pure', eu]
    exact safe_bind (safe_str _) fun _ _ => safe_bind (safe_path _ _) fun _ _ => safe_emit _
  | position hn hu hl hch =>
    have key : ∀ f : Bytes → Nat × Nat → Bytes → M Unit, (∀ a b c, (f a b c).safe) →
        (queryUri p >>= fun u => queryPosition p >>= fun x => env.path u >>= fun q => f u x q).safe := fun f hf =>
      safe_bind (safe_queryUri hu) fun _ _ => safe_bind (safe_queryPosition hw hl hch) fun _ _ => safe_bind (safe_path _ _) fun _ _ => hf _ _ _
    simp only [positionMethods, List.mem_cons, List.not_mem_nil, or_false] at hn
    rcases hn with rfl | rfl | rfl
    · rw [hc.reach (m_definition ..)]; exact fine (key _ fun _ _ _ => safe_emit _)
    · rw [hc.reach (m_references ..)]; exact fine (key _ fun _ _ _ => safe_emit _)
    · rw [hc.reach (m_hover ..)]; exact fine (key _ fun _ _ _ => safe_emit _)
  | completion hu hl hch hk hx =>
    rw [hc.reach (m_completion ..)]
    exact fine (safe_bind (safe_queryUri hu) fun _ _ => safe_bind (safe_queryPosition hw hl hch) fun _ _ =>
      safe_bind (safe_trigger hw hk hx) fun _ _ => safe_bind (safe_path _ _) fun _ _ => safe_emit _)
  | tokens hu =>
    rw [hc.reach (m_tokens ..)]
    exact fine (safe_bind (safe_queryUri hu) fun _ _ => safe_bind (safe_path _ _) fun _ _ => safe_emit _)
  | folders he ha hr hf =>
    rw [hc.reach (m_folders ..)]
    apply fine
    unfold didChangeFolders
    rw [he.idxC]
    simp only [bind_pure', ha.idxC, hr.idxC, Json.items]
    exact safe_bind (safe_remove _ _) fun _ _ => safe_add _ _ hf
  | watched h =>
    rw [hc.reach (m_watched ..)]
    apply fine
    obtain ⟨c, _, ec⟩ := h.idxC
    unfold didChangeWatched
    rw [ec]
    simp only [bind_pure']
    split
    · exact safe_bind (safe_watched _ _) fun _ _ => safe_emit _
    · exact safe_throw
  | configuration => rw [hc.reach (m_config ..)]; exact fine (safe_emit _)
  | initialise hcap hf hx =>
    rw [hc.reach (m_init ..)]
    apply fine
    obtain ⟨c, _, ec⟩ := hcap.idxC
    refine safe_bind (safe_emit _) fun _ _ => safe_bind (safe_emit _) fun _ _ => ?_
    unfold initFolders
    refine safe_bind (safe_emit _) fun _ _ => ?_
    rw [ec, hf.idxC]
    simp only [bind_pure', Json.items]
    refine safe_bind ?_ fun b _ => ?_
    · unfold folderSupport; split
      · exact safe_bool _
      · exact safe_pure _
    · cases b with
      | true => exact safe_add _ _ hx
      | false =>
        simp only [Bool.false_eq_true, if_false]
        split
        · exact safe_bind (safe_path _ _) fun _ _ => safe_emit _
        all_goals first
          | (split
             · exact safe_pure _
             · exact safe_pure _
             · exact safe_emit _
             · exact safe_throw)
          | exact safe_throw
  | shutdown =>
    rw [hc.reach (m_shutdown ..)]
    exact fine (safe_bind (safe_emit _) fun _ _ => safe_emit _)
  | exit => rw [hc.reach (m_exit ..)]; exact fine (safe_emit _)

/-! ### cases, and what is not so -/

section Cases

/-- A world: URIs are `u` with the path. -/
def world : Env where
  toPath
    | 117 :: l => some l
    | _ => none
  toUri l := 117 :: l
  normal l := l
  definition _ x := (text "f", (x.1 + 1, 2))
  references _ x := [(text "f", x), (text "g", (0, 0))]
  hover _ _ := text "tip"
  completion _ _ c k := [⟨[c], .macro, text "d", digits k, text "i"⟩]
  tokens _ := [0, 1, 2, 3, 0]

/-- A member. -/
def mem (k : String) (j : Json) : Bytes × Json := (text k, j)

/-- The names of the members are different. -/
macro "keys'" : tactic => `(tactic| (simp only [mem, List.map_cons, List.map_nil]; decide +kernel))

/-- A call of a method. -/
def call (name : String) (p : Json) : Json := .obj [mem "jsonrpc" (.str (text "2.0")), mem "id" (.int 7), mem "method" (.str (text name)), mem "params" p]

theorem calls (name : String) (p : Json) : Calls (call name p) name p := by
  refine ⟨.mk (by keys') (by simp [mem]), .mk (by keys') (by simp [mem]), ?_, ?_⟩
  all_goals
    intro m hm v hv
    injection hm with hm
    subst hm
    simp only [mem, List.mem_cons, Prod.mk.injEq, List.not_mem_nil, or_false] at hv
    rcases hv with ⟨h, _⟩ | ⟨h, _⟩ | ⟨h, _⟩ | ⟨h, _⟩ <;> exact absurd h (by decide +kernel)

/-- A document. -/
def doc : Json := .obj [mem "uri" (.str (text "ux")), mem "languageId" (.str (text "hlasm")), mem "version" (.int 3), mem "text" (.str (text " A"))]

/-- A position. -/
def pos (l c : Int) : Json := .obj [mem "line" (.int l), mem "character" (.int c)]

/-- A question about a position. -/
def ask (l c : Int) : Json :=
  .obj [mem "textDocument" doc, mem "position" (pos l c), mem "context" (.obj [mem "triggerKind" (.int 2), mem "triggerCharacter" (.str (text "&"))])]

example : (received world .null ⟨0, []⟩ (call "textDocument/didOpen" (.obj [mem "textDocument" doc]))).1 = ⟨[.opened (text "x") 3 (text " A")], .fine⟩ := by
  rw [C113_open (d := doc) (uri := text "ux") (path := text "x") (t := text " A") (v := 3) (calls _ _) (.mk (by simp) (by simp [mem]))
    (.mk (by keys') (by simp [mem])) (.mk (by keys') (by simp [mem]))
    (.mk (by keys') (by simp [mem])) (by decide) (by decide +kernel)]
  rfl

example : Document (ask 1 2) (text "ux") :=
  ⟨doc, .mk (by keys') (by simp [mem]), .mk (by keys') (by simp [mem])⟩

example : Position (ask 1 2) (1, 2) :=
  ⟨pos 1 2, .mk (by keys') (by simp [mem]),
    .mk (by keys') (by simp [mem]), .mk (by keys') (by simp [mem]), by decide, by decide⟩

example : Triggered (ask 1 2) 38 2 :=
  .character (l := []) (.mk (by keys') (List.mem_cons_of_mem _ (List.mem_cons_of_mem _ (List.mem_singleton.2 rfl))))
    (.mk (by keys') (by simp [mem])) (.mk (by keys') (by simp [mem]; rfl))

example : IsChange (.obj [mem "range" (.obj [mem "start" (pos 0 1), mem "end" (pos 0 2)]), mem "text" (.str (text "B"))]) (some ((0, 1), (0, 2)), text "B") :=
  .part (.mk (by keys') (by simp [mem])) (.mk (by keys') (List.mem_cons_self ..))
    ⟨pos 0 1, pos 0 2, .mk (by keys') (by simp [mem]),
      ⟨.mk (by keys') (by simp [mem]), .mk (by keys') (by simp [mem]), by decide, by decide⟩,
      .mk (by keys') (by simp [mem]),
      ⟨.mk (by keys') (by simp [mem]), .mk (by keys') (by simp [mem]), by decide, by decide⟩⟩

/-- A message without the document it is about: undefined behaviour instead of an error. -/
theorem C113_missing_witness :
    (received world .null ⟨0, []⟩ (call "textDocument/didOpen" (.obj []))).1.fate = .ub ∧
    (received world .null ⟨0, []⟩ (call "textDocument/hover" (.obj [mem "textDocument" (.obj []), mem "position" (pos 0 0)]))).1.fate = .ub ∧
    (received world .null ⟨0, []⟩ (call "initialize" (.obj []))).1.fate = .ub := by
  refine ⟨?_, ?_, ?_⟩ <;> decide +kernel

/-- A change without changes: undefined behaviour. -/
theorem C113_no_changes_witness :
    (received world .null ⟨0, []⟩ (call "textDocument/didChange" (.obj [mem "textDocument" doc, mem "contentChanges" (.arr [])]))).1.fate = .ub := by
  decide +kernel

/-- An answer with an error that has neither a message nor an id: undefined behaviour. -/
theorem C113_error_witness : (received world .null ⟨0, []⟩ (.obj [mem "error" (.obj [])])).1.fate = .ub := by decide +kernel

/-- A configuration of a wrong type ends the server: the limit is a text, or the answer is not a list. -/
theorem C113_configuration_witness :
    (received world .null ⟨1, [(configId 0, true)]⟩ (.obj [mem "id" (.str (configId 0)),
      mem "result" (.arr [.obj [mem "diagnosticsSuppressLimit" (.str (text "5"))]])])).1.fate = .terminated ∧
    (received world .null ⟨1, [(configId 0, true)]⟩ (.obj [mem "id" (.str (configId 0)), mem "result" (.obj [mem "a" .null])])).1.fate = .terminated := by
  refine ⟨?_, ?_⟩ <;> decide +kernel

/-- A request that cannot be understood gets no answer at all, and neither does one of an unknown method: the editor waits forever. -/
theorem C113_unanswered_witness :
    (received world .null ⟨0, []⟩ (call "textDocument/hover" (.obj [mem "textDocument" doc, mem "position" (.obj [mem "line" (.str []), mem "character" (.int 0)])]))).1.evs.length = 0 ∧
    (received world .null ⟨0, []⟩ (call "textDocument/rename" (.obj []))).1.evs.length = 0 := by
  refine ⟨?_, ?_⟩ <;> decide +kernel

/-- What the answers are, in bytes (for the witness below). -/
def firstId (o : Outcome) : Option Bytes :=
  match o.evs with
  | .respond (.str i) _ :: _ => some i
  | _ => none

/-- A notification of a question is answered, with an empty id. -/
theorem C113_notification_witness :
    firstId (received world .null ⟨0, []⟩ (.obj [mem "method" (.str (text "textDocument/hover")), mem "params" (ask 0 0)])).1 = some [] := by
  decide +kernel

/-- The version of the first document that was opened. -/
def firstVersion (o : Outcome) : Option Nat :=
  match o.evs with
  | .opened _ v _ :: _ => some v
  | _ => none

/-- A negative version becomes a very large one. -/
theorem C113_version_witness :
    firstVersion (received world .null ⟨0, []⟩ (call "textDocument/didOpen" (.obj [mem "textDocument"
      (.obj [mem "uri" (.str (text "ux")), mem "version" (.int (-1)), mem "text" (.str [])])]))).1 = some (2 ^ 64 - 1) := by
  decide +kernel

/-- Folders are treated one by one: after one that cannot be understood the rest is forgotten, what has been done stays. -/
theorem C113_folders_witness :
    (received world .null ⟨0, []⟩ (call "workspace/didChangeWorkspaceFolders" (.obj [mem "event" (.obj
      [mem "removed" (.arr [.obj [mem "uri" (.str (text "ua"))], .obj [mem "uri" (.str (text "?"))]]),
       mem "added" (.arr [.obj [mem "name" (.str (text "n")), mem "uri" (.str (text "ub"))]])])]))).1.evs.length = 1 := by
  decide +kernel

example : Enough "textDocument/hover" (ask 0 0) := by
  refine .position (by simp [positionMethods]) ⟨doc, ?_, .str (text "ux"), ?_⟩ ⟨pos 0 0, ?_, .int 0, ?_⟩ ⟨pos 0 0, ?_, .int 0, ?_⟩
  all_goals first
    | exact .mk (by keys') (List.mem_cons_self ..)
    | exact .mk (by keys') (List.mem_cons_of_mem _ (List.mem_cons_self ..))

end Cases

end Verif.Message
