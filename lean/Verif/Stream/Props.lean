import Verif.Stream.Spec
import Mathlib.Data.List.TakeWhile
import Mathlib.Data.List.Basic
/-!
The parser sees the tokens of the text, in their order, each once.
-/
namespace Verif.Stream

/-- The tokens of the text, fetched or not. -/
def St.all (s : St) : List Tok := s.toks ++ s.rest

structure Good (s : St) : Prop where
  text : Text s.all
  eof : s.eof = decide (s.rest = [])

/-- The same stream with more tokens fetched. -/
structure More (s s' : St) : Prop where
  all : s'.all = s.all
  p : s'.p = s.p
  cont : s'.cont = s.cont
  hid : s'.hid = s.hid
  len : s.toks.length ≤ s'.toks.length

theorem More.refl (s : St) : More s s := ⟨rfl, rfl, rfl, rfl, Nat.le_refl _⟩
theorem More.trans {a b c : St} (h : More a b) (g : More b c) : More a c :=
  ⟨g.all.trans h.all, g.p.trans h.p, g.cont.trans h.cont, g.hid.trans h.hid, Nat.le_trans h.len g.len⟩

theorem text_last {a r : List Tok} {t : Tok} (h : Text (a ++ t :: r)) : t.kind = .eof ↔ r = [] := by
  obtain ⟨body, e, he, hk, hb⟩ := h
  have hd : (a ++ t :: r).dropLast = body := by rw [he]; simp
  constructor
  · intro ht
    refine Classical.byContradiction fun hr => ?_
    have : t ∈ body := by
      rw [← hd, List.dropLast_append_of_ne_nil (by simp), List.dropLast_cons_of_ne_nil hr]
      simp
    exact hb t this ht
  · rintro rfl
    have := congrArg List.getLast? he
    simp at this
    rw [this]; exact hk

theorem fetch_spec : ∀ (n : Nat) (s : St), Good s →
    Good (s.fetch n).1 ∧ More s (s.fetch n).1 ∧ (s.fetch n).2 = min n s.rest.length ∧ (s.fetch n).1.toks.length = s.toks.length + (s.fetch n).2
  | 0, s, h => ⟨h, More.refl s, by simp [St.fetch], by simp [St.fetch]⟩
  | n + 1, s, h => by
    unfold St.fetch
    by_cases he : s.eof = true
    · rw [if_pos he]
      have : s.rest = [] := by simpa [he] using h.eof
      exact ⟨h, More.refl s, by simp [this], by simp⟩
    · rw [if_neg he]
      match hr : s.rest with
      | [] => rw [h.eof, hr] at he; simp at he
      | t :: r =>
        have hall : s.all = s.toks ++ t :: r := by simp [St.all, hr]
        have hg : Good { s with toks := s.toks ++ [t], rest := r, eof := decide (t.kind = .eof) } := by
          refine ⟨by simpa [St.all, hr] using h.text, ?_⟩
          have := text_last (hall ▸ h.text)
          simp [this]
        obtain ⟨h1, h2, h3, h4⟩ := fetch_spec n _ hg
        have hmore : More s { s with toks := s.toks ++ [t], rest := r, eof := decide (t.kind = .eof) } :=
          ⟨by simp [St.all, hr], rfl, rfl, rfl, by simp⟩
        refine ⟨h1, hmore.trans h2, ?_, ?_⟩
        · simp only [h3, List.length_cons]; omega
        · simp only [h4, List.length_append, List.length_cons, List.length_nil]; omega

theorem sync_spec {s : St} (h : Good s) (i : Nat) :
    Good (s.sync i).1 ∧ More s (s.sync i).1 ∧ (s.sync i).2 = decide (i < s.all.length) ∧
      (i < s.all.length → i < (s.sync i).1.toks.length) ∧ (s.all.length ≤ i → (s.sync i).1.toks.length = s.all.length) := by
  unfold St.sync
  have hl : s.all.length = s.toks.length + s.rest.length := by simp [St.all]
  by_cases hn : i + 1 - s.toks.length = 0
  · simp only [hn, if_true]
    exact ⟨h, More.refl s, by simp; omega, fun _ => by omega, fun _ => by omega⟩
  · simp only [hn, if_false]
    obtain ⟨h1, h2, h3, h4⟩ := fetch_spec (i + 1 - s.toks.length) s h
    refine ⟨h1, h2, ?_, fun _ => by rw [h4, h3]; omega, fun _ => by rw [h4, h3]; omega⟩
    rw [h3]
    by_cases hi : i < s.all.length
    · simp only [hi, decide_true, decide_eq_true_eq]; omega
    · simp only [hi, decide_false, decide_eq_false_iff_not]; omega

theorem toks_get {s : St} {i : Nat} (h : i < s.toks.length) : s.toks[i]? = s.all[i]? := by
  simp [St.all, List.getElem?_append_left h]

/-- What the filter lets through from a place on. -/
def St.view (s : St) (i : Nat) : List (Tok × Nat) := (s.all.zipIdx.drop i).filter fun x => onChannel s.cont s.hid x.1

theorem More.view {s s' : St} (h : More s s') (i : Nat) : s'.view i = s.view i := by
  unfold St.view; rw [h.all, h.cont, h.hid]

theorem view_cons {s : St} {i : Nat} {t : Tok} (h : s.all[i]? = some t) :
    s.view i = if s.sees t then (t, i) :: s.view (i + 1) else s.view (i + 1) := by
  have hi : i < s.all.length := (List.getElem?_eq_some_iff.1 h).1
  unfold St.view
  rw [List.drop_eq_getElem_cons (by simpa using hi)]
  have : s.all.zipIdx[i]'(by simpa using hi) = (t, i) := by
    have := (List.getElem?_eq_some_iff.1 h).2
    simp [this]
  rw [this, List.filter_cons]
  rfl

theorem view_nil {s : St} {i : Nat} (h : s.all.length ≤ i) : s.view i = [] := by
  unfold St.view; rw [List.drop_eq_nil_of_le (by simpa using h)]; rfl

theorem view_mem {s : St} {i j : Nat} {t : Tok} (h : (t, j) ∈ s.view i) : i ≤ j ∧ s.all[j]? = some t ∧ s.sees t = true := by
  unfold St.view at h
  obtain ⟨h1, h2⟩ := List.mem_filter.1 h
  obtain ⟨k, hk, he⟩ := List.getElem_of_mem h1
  simp only [List.getElem_drop, List.getElem_zipIdx, Prod.mk.injEq] at he
  refine ⟨by omega, ?_, h2⟩
  have hj : j < s.all.length := by simp at hk; omega
  rw [List.getElem?_eq_getElem hj]
  obtain ⟨he1, he2⟩ := he
  simp only [Nat.zero_add] at he2
  subst he2
  rw [he1]

/-- The loop finds the `c`-th token the filter lets through. -/
theorem scan_spec : ∀ (f : Nat) (s : St) (i c : Nat), Good s → s.all.length - i < f → (i < s.all.length → i < s.toks.length) →
    (match (s.view i)[c]? with
    | none => s.scan f i c = none
    | some x => ∃ s', s.scan f i c = some (s', x.2) ∧ Good s' ∧ More s s' ∧ x.2 < s'.toks.length)
  | 0, s, i, c, _, hf, _ => absurd hf (Nat.not_lt_zero _)
  | f + 1, s, i, c, hg, hf, hi => by
    unfold St.scan
    by_cases hlt : i < s.all.length
    · have ht := toks_get (hi hlt)
      obtain ⟨t, hta⟩ : ∃ t, s.all[i]? = some t := ⟨_, List.getElem?_eq_getElem hlt⟩
      rw [ht, hta]
      obtain ⟨h1, h2, h3, h4, h5⟩ := sync_spec hg (i + 1)
      by_cases hs : s.sees t && c = 0
      · simp only [Bool.and_eq_true, decide_eq_true_eq] at hs
        obtain ⟨hs, rfl⟩ := hs
        rw [view_cons hta, if_pos hs]
        simp only [List.getElem?_cons_zero]
        exact ⟨s, by simp [hs], hg, More.refl s, hi hlt⟩
      · simp only [hs, Bool.false_eq_true, if_false]
        have ih := scan_spec f (s.sync (i + 1)).1 (i + 1) (if s.sees t then c - 1 else c) h1 (by rw [h2.all]; omega)
          (by rw [h2.all]; exact h4)
        rw [h2.view] at ih
        have he : (s.view i)[c]? = (s.view (i + 1))[if s.sees t then c - 1 else c]? := by
          rw [view_cons hta]
          by_cases hv : s.sees t = true
          · simp only [hv, if_true]
            have : c ≠ 0 := by rintro rfl; simp [hv] at hs
            obtain ⟨c, rfl⟩ := Nat.exists_eq_succ_of_ne_zero this
            simp
          · simp [hv]
        rw [he]
        split at ih
        · exact ih
        · rename_i x hv
          obtain ⟨s', a1, a2, a3, a4⟩ := ih
          exact ⟨s', a1, a2, h2.trans a3, a4⟩
    · rw [view_nil (by omega)]
      have : s.toks[i]? = none := List.getElem?_eq_none (by have : s.toks.length ≤ s.all.length := by simp [St.all]
                                                            omega)
      simp [this]

/-- `next_token_on_channel` skips as many tokens as it is places away. -/
theorem next_spec {s : St} (hg : Good s) (hp : s.p < s.toks.length) {i : Nat} (hi : i < s.all.length) :
    match (s.view s.p)[i - s.p]? with
    | none => s.next i = none
    | some x => ∃ s', s.next i = some (s', x.2) ∧ Good s' ∧ More s s' ∧ x.2 < s'.toks.length := by
  obtain ⟨h1, h2, h3, h4, h5⟩ := sync_spec hg i
  have hn : s.next i = (s.sync i).1.scan (s.sync i).1.fuel s.p (i - s.p) := by
    unfold St.next
    rw [← h2.p]
    simp only
    rw [if_neg (by have := h4 hi; omega)]
  have := scan_spec (s.sync i).1.fuel (s.sync i).1 s.p (i - s.p) h1 (by simp [St.fuel, St.all]; omega) (fun _ => by have := h2.len; omega)
  rw [h2.view] at this
  rw [hn]
  split at this
  · exact this
  · rename_i x hv
    obtain ⟨s', a1, a2, a3, a4⟩ := this
    exact ⟨s', a1, a2, h2.trans a3, a4⟩

/-- Something can always be seen: the end of the text, which comes last. -/
theorem view_end {s : St} (hg : Good s) {i : Nat} (hi : i < s.all.length) : ∃ e, (s.view i).getLast? = some (e, s.all.length - 1) ∧ e.kind = .eof := by
  obtain ⟨body, e, he, hk, hb⟩ := hg.text
  refine ⟨e, ?_, hk⟩
  have hz : s.all.zipIdx.drop i = (body.zipIdx.drop i) ++ [(e, body.length)] := by
    rw [he, List.zipIdx_append]
    rw [List.drop_append_of_le_length (by simp; rw [he] at hi; simp at hi; omega)]
    simp
  unfold St.view
  rw [hz, List.filter_append]
  simp [onChannel, hk, he]

theorem view_head {s : St} (hg : Good s) {i : Nat} (hi : i < s.all.length) : ∃ t j l, s.view i = (t, j) :: l := by
  obtain ⟨e, h, _⟩ := view_end hg hi
  match hv : s.view i with
  | [] => rw [hv] at h; simp at h
  | (t, j) :: l => exact ⟨t, j, l, rfl⟩

/-- The token looked at is the end of the text if no other can be seen. -/
theorem head_eof {s : St} (hg : Good s) {i : Nat} {t j l} (h : s.view i = (t, j) :: l) : t.kind = .eof ↔ l = [] := by
  have hm := view_mem (s := s) (i := i) (t := t) (j := j) (by simp [h])
  have hj : j < s.all.length := (List.getElem?_eq_some_iff.1 hm.2.1).1
  obtain ⟨e, he, hek⟩ := view_end hg (i := i) (by omega)
  obtain ⟨body, e', ha, hk, hb⟩ := hg.text
  constructor
  · intro ht
    have hjl : j = s.all.length - 1 := by
      refine Classical.byContradiction fun hne => ?_
      refine hb t ?_ ht
      have h2 := hm.2.1
      rw [ha, List.getElem?_append_left (by rw [ha] at hj hne; simp at hj hne; omega)] at h2
      exact List.mem_of_getElem? h2
    match l, h with
    | [], _ => rfl
    | (t', j') :: l', h =>
      exfalso
      have hs : (s.view i).Pairwise fun a b => a.2 < b.2 := by
        unfold St.view
        refine List.Pairwise.filter _ (List.Pairwise.drop ?_)
        rw [List.pairwise_iff_getElem]
        intro a b ha hb hab
        simpa using hab
      rw [h] at hs
      have hlt := (List.pairwise_cons.1 hs).1 (t', j') (by simp)
      have hm' := view_mem (s := s) (i := i) (t := t') (j := j') (by simp [h])
      have : j' < s.all.length := (List.getElem?_eq_some_iff.1 hm'.2.1).1
      simp only at hlt
      omega
  · rintro rfl
    rw [h] at he
    simp at he
    rw [he.1]; exact hek

/-- Looking at the next token. -/
theorem lt_one {s : St} (hg : Good s) (hp : s.p < s.toks.length) {t j l} (h : s.view s.p = (t, j) :: l) :
    ∃ s', s.lt 1 = some (s', t) ∧ Good s' ∧ More s s' := by
  have hi : s.p < s.all.length := by simp [St.all]; omega
  have hn := next_spec hg hp hi
  simp only [Nat.sub_self, h, List.getElem?_cons_zero] at hn
  obtain ⟨s', h1, h2, h3, h4⟩ := hn
  have ht : s'.toks[j]? = some t := by
    rw [toks_get h4, h3.all]
    exact (view_mem (s := s) (i := s.p) (by simp [h] : (t, j) ∈ s.view s.p)).2.1
  exact ⟨s', by simp [St.lt, St.ahead, h1, ht], h2, h3⟩

theorem go_spec {s : St} (hg : Good s) (hp : s.p < s.toks.length) {t j l} (h : s.view s.p = (t, j) :: l) (hlast : s.p + 1 < s.all.length) :
    match l with
    | [] => (s.sync (s.p + 1)).1.seek ((s.sync (s.p + 1)).1.p + 1) = none
    | x :: _ => ∃ s', (s.sync (s.p + 1)).1.seek ((s.sync (s.p + 1)).1.p + 1) = some { s' with p := x.2 } ∧ Good s' ∧ More s s' ∧
        x.2 < s'.toks.length := by
  obtain ⟨h1, h2, h3, h4, h5⟩ := sync_spec hg (s.p + 1)
  have hn := next_spec h1 (by have := h2.len; rw [h2.p]; omega) (i := s.p + 1) (by rw [h2.all]; exact hlast)
  rw [h2.view, h2.p, h] at hn
  simp only [Nat.add_sub_cancel_left, List.getElem?_cons_succ] at hn
  unfold St.seek
  rw [if_pos rfl, h2.p]
  match l with
  | [] =>
    simp only [List.getElem?_nil] at hn
    simp [hn]
  | x :: l =>
    simp only [List.getElem?_cons_zero] at hn
    obtain ⟨s', a1, a2, a3, a4⟩ := hn
    exact ⟨s', by simp [a1], a2, h2.trans a3, a4⟩

/-- Reading the next token. -/
theorem consume_spec {s : St} (hg : Good s) (hp : s.p < s.toks.length) {t j l} (h : s.view s.p = (t, j) :: l) :
    match l with
    | [] => s.consume = none
    | x :: _ => ∃ s', s.consume = some { s' with p := x.2 } ∧ Good s' ∧ More s s' ∧ x.2 < s'.toks.length := by
  have hlen : s.all.length = s.toks.length + s.rest.length := by simp [St.all]
  have hm := view_mem (s := s) (i := s.p) (by simp [h] : (t, j) ∈ s.view s.p)
  have hjl : j < s.all.length := (List.getElem?_eq_some_iff.1 hm.2.1).1
  have heof := head_eof hg h
  -- the place of the end of the text
  by_cases hlast : s.p + 1 < s.all.length
  · have hgo := go_spec hg hp h hlast
    have hsync := (sync_spec hg (s.p + 1)).2.2.1
    have hskip : (if s.eof then decide (s.p < s.toks.length - 1) else decide (s.p < s.toks.length)) = true := by
      by_cases he : s.eof = true
      · have : s.rest = [] := by simpa [he] using hg.eof
        simp only [he, if_true, decide_eq_true_eq]
        rw [this] at hlen; simp at hlen; omega
      · simp only [he, Bool.false_eq_true, if_false, decide_eq_true_eq]; exact hp
    have hc : s.consume = (s.sync (s.p + 1)).1.seek ((s.sync (s.p + 1)).1.p + 1) := by
      unfold St.consume
      simp only [hskip, if_true, hsync, hlast, decide_true]
    rw [hc]; exact hgo
  · have hpe : s.p = s.all.length - 1 := by omega
    have hl : l = [] := by
      match l, h with
      | [], _ => rfl
      | (t', j') :: l, h =>
        exfalso
        have hta : s.all[s.p]? = some s.all[s.p] := List.getElem?_eq_getElem (by omega)
        have := view_cons hta
        rw [h, view_nil (by omega)] at this
        split at this <;> simp at this
    subst hl
    have hte : t.kind = .eof := heof.2 rfl
    have hrest : s.rest = [] := by
      have : s.rest.length = 0 := by omega
      exact List.eq_nil_of_length_eq_zero this
    have heofs : s.eof = true := by rw [hg.eof, hrest]; rfl
    obtain ⟨s', a1, a2, a3⟩ := lt_one hg hp h
    simp only
    unfold St.consume
    have : ¬ s.p < s.toks.length - 1 := by omega
    simp only [heofs, if_true, this, decide_false, Bool.false_eq_true, if_false, a1, hte]

theorem back_spec {s : St} : ∀ (i n : Nat), i ≤ s.toks.length → 1 ≤ n →
    s.back i n = some (((s.all.take i).filter s.sees).reverse[n - 1]?)
  | 0, n, _, hn => by simp [St.back]
  | i + 1, n, hi, hn => by
    have ht := toks_get (s := s) (i := i) (by omega)
    have hl : i < s.all.length := by simp [St.all]; omega
    have hta : s.all[i]? = some s.all[i] := List.getElem?_eq_getElem hl
    unfold St.back
    rw [ht, hta, List.take_succ, hta]
    simp only [Option.toList_some, List.filter_append, List.reverse_append]
    by_cases hs : s.sees s.all[i] = true
    · simp only [hs, if_true, List.filter_cons_of_pos, List.filter_nil, List.reverse_cons, List.reverse_nil, List.nil_append]
      by_cases h1 : n ≤ 1
      · have : n = 1 := by omega
        subst this
        simp
      · rw [if_neg h1, back_spec i (n - 1) (by omega) (by omega)]
        obtain ⟨m, rfl⟩ : ∃ m, n = m + 2 := ⟨n - 2, by omega⟩
        simp
    · simp only [hs, Bool.false_eq_true, if_false, List.filter_cons_of_neg, List.filter_nil, List.reverse_nil, List.nil_append, not_false_eq_true]
      exact back_spec i n (by omega) hn

/-- The stream `s` does what the reader `r` does; `seen` is the furthest place it was at. -/
structure Rel (s : St) (r : Reader) (seen : Nat) : Prop where
  good : Good s
  all : s.all = r.all
  pos : s.p = r.pos
  cont : s.cont = r.cont
  hid : s.hid = r.hid
  here : s.p < s.toks.length
  seen : seen < s.toks.length

theorem Rel.view {s r seen} (h : Rel s r seen) : s.view s.p = r.ahead := by
  unfold St.view Reader.ahead; rw [h.all, h.pos, h.cont, h.hid]

theorem Rel.sees {s r seen} (h : Rel s r seen) : s.sees = onChannel r.cont r.hid := by
  funext t; unfold St.sees; rw [h.cont, h.hid]

theorem Rel.more {s s' r seen} (h : Rel s r seen) (hm : More s s') (hg : Good s') : Rel s' r seen :=
  ⟨hg, hm.all.trans h.all, hm.p.trans h.pos, hm.cont.trans h.cont, hm.hid.trans h.hid, by rw [hm.p]; have := hm.len; have := h.here; omega,
    by have := hm.len; have := h.seen; omega⟩

/-- Going somewhere in the text. -/
theorem Rel.goto {s s' r seen j} (h : Rel s r seen) (hm : More s s') (hg : Good s') (hj : j < s'.toks.length) :
    Rel { s' with p := j } { r with pos := j } (max seen j) :=
  ⟨⟨hg.text, hg.eof⟩, hm.all.trans h.all, rfl, hm.cont.trans h.cont, hm.hid.trans h.hid, hj,
    by have := hm.len; have := h.seen; show max seen j < s'.toks.length; omega⟩

theorem view_two {s : St} {i : Nat} (hi : i + 1 < s.all.length) (h : ∀ t ∈ (s.all.drop i).take 2, s.sees t = true) :
    ∃ t t' l, s.view i = (t, i) :: (t', i + 1) :: l := by
  have h0 : s.all[i]? = some s.all[i] := List.getElem?_eq_getElem (by omega)
  have h1 : s.all[i + 1]? = some s.all[i + 1] := List.getElem?_eq_getElem (by omega)
  have hd : (s.all.drop i).take 2 = [s.all[i], s.all[i + 1]] := by
    rw [List.drop_eq_getElem_cons (by omega), List.drop_eq_getElem_cons (by omega)]; rfl
  rw [hd] at h
  refine ⟨s.all[i], s.all[i + 1], s.view (i + 2), ?_⟩
  rw [view_cons h0, if_pos (h _ (by simp)), view_cons h1, if_pos (h _ (by simp))]

theorem step_sim {s : St} {r : Reader} {seen : Nat} (h : Rel s r seen) (o : Op)
    (hf : ∀ i, o = .goto i → i ≤ seen ∧ (i = r.pos + 1 → ∀ t ∈ (r.all.drop r.pos).take 2, onChannel r.cont r.hid t = true)) :
    match r.step o with
    | none => s.step o = none
    | some (r', a) => ∃ s', s.step o = some (s', a) ∧ Rel s' r' (max seen r'.pos) := by
  have hlen : s.p < s.all.length := by have := h.here; simp [St.all]; omega
  have hpos : max seen r.pos < s.toks.length := by have := h.seen; have := h.here; have := h.pos; omega
  obtain ⟨t, j, l, hv⟩ := view_head h.good hlen
  have hr : r.ahead = (t, j) :: l := by rw [← h.view, hv]
  match o with
  | .filter c hd =>
    exact ⟨_, rfl, ⟨⟨h.good.text, h.good.eof⟩, h.all, h.pos, rfl, rfl, h.here, hpos⟩⟩
  | .look =>
    simp only [Reader.step, hr, List.head?_cons, Option.map_some]
    obtain ⟨s', h1, h2, h3⟩ := lt_one h.good h.here hv
    have h4 := h.more h3 h2
    exact ⟨s', by simp [St.step, h1], ⟨h4.good, h4.all, h4.pos, h4.cont, h4.hid, h4.here, by have := h3.len; omega⟩⟩
  | .read =>
    have hc := consume_spec h.good h.here hv
    simp only [Reader.step, hr, List.getElem?_cons_succ]
    match l with
    | [] =>
      simp only at hc
      simp [St.step, hc]
    | x :: l =>
      simp only at hc
      obtain ⟨s', h1, h2, h3, h4⟩ := hc
      simp only [List.getElem?_cons_zero, Option.map_some]
      exact ⟨_, by simp [St.step, h1], h.goto h3 h2 h4⟩
  | .before 0 =>
    exact ⟨s, by simp [St.step, St.lb], ⟨h.good, h.all, h.pos, h.cont, h.hid, h.here, hpos⟩⟩
  | .before (k + 1) =>
    have hb : s.lb (k + 1) = some (r.behind.reverse[k]?) := by
      unfold St.lb
      have hbe : (s.all.take s.p).filter s.sees = r.behind := by unfold Reader.behind; rw [h.all, h.pos, h.sees]
      have h0 : s.toks.length ≠ 0 := by have := h.here; omega
      by_cases hk : s.p < k + 1
      · rw [if_pos (Or.inr (Or.inl hk))]
        have : r.behind.reverse.length ≤ k := by
          rw [← hbe, List.length_reverse]
          have := List.length_filter_le s.sees (s.all.take s.p)
          simp at this; omega
        rw [List.getElem?_eq_none this]
      · rw [if_neg (by simp [h0]; omega), back_spec _ _ (by have := h.here; omega) (by omega), hbe]
        rfl
    refine ⟨s, ?_, ⟨h.good, h.all, h.pos, h.cont, h.hid, h.here, hpos⟩⟩
    simp only [St.step, hb, Option.map_some]
    cases r.behind.reverse[k]? <;> rfl
  | .place => exact ⟨s, by simp [St.step, h.pos], ⟨h.good, h.all, h.pos, h.cont, h.hid, h.here, hpos⟩⟩
  | .goto i =>
    obtain ⟨hi, hvis⟩ := hf i rfl
    simp only [Reader.step]
    by_cases hn : i = s.p + 1
    · have hil : s.p + 1 < s.all.length := by have := h.seen; simp [St.all]; omega
      obtain ⟨t, t', l, hv2⟩ := view_two hil (by rw [h.all, h.pos, h.sees]; exact hvis (by rw [hn, h.pos]))
      have hx := next_spec h.good h.here hil
      rw [hv2] at hx
      simp only [Nat.add_sub_cancel_left, List.getElem?_cons_succ, List.getElem?_cons_zero] at hx
      obtain ⟨s', a1, a2, a3, a4⟩ := hx
      refine ⟨{ s' with p := i }, ?_, h.goto a3 a2 (by omega)⟩
      simp only [St.step, St.seek, hn, if_true, a1, Option.map_some]
    · refine ⟨{ s with p := i }, ?_, h.goto (More.refl s) h.good (by have := h.seen; omega)⟩
      simp only [St.step, St.seek, hn, if_false, Option.map_some]

theorem run_sim {s : St} {r : Reader} {seen : Nat} (h : Rel s r seen) (os : List Op) (hf : r.Fair seen os) :
    (s.run os).map (·.2) = (r.run os).map (·.2) := by
  induction os generalizing s r seen with
  | nil => rfl
  | cons o os ih =>
    obtain ⟨hf1, hf2⟩ := hf
    have hs := step_sim h o hf1
    unfold St.run Reader.run
    match hr : r.step o with
    | none =>
      rw [hr] at hs
      simp only at hs
      simp [hs]
    | some (r', a) =>
      rw [hr] at hs
      obtain ⟨s', h1, h2⟩ := hs
      have := ih h2 (hf2 r' a hr)
      simp only [h1, Option.map_map]
      have e1 : ((fun x : St × List Ans => x.2) ∘ fun x : St × List Ans => (x.1, a :: x.2)) = (fun l => a :: l) ∘ fun x => x.2 := rfl
      have e2 : ((fun x : Reader × List Ans => x.2) ∘ fun x : Reader × List Ans => (x.1, a :: x.2)) = (fun l => a :: l) ∘ fun x => x.2 := rfl
      rw [e1, e2, ← Option.map_map, ← Option.map_map, this]

theorem setup_spec {all : List Tok} (ht : Text all) (cont hid : Bool) :
    ∃ s, St.setup all cont hid = some s ∧ Rel s (Reader.start all cont hid) (Reader.start all cont hid).pos := by
  have hne : all ≠ [] := by obtain ⟨b, e, rfl, _⟩ := ht; simp
  have hg0 : Good ⟨[], all, false, 0, cont, hid⟩ := ⟨by simpa [St.all] using ht, by simp [hne]⟩
  have hlen : 0 < all.length := List.length_pos_iff.2 hne
  obtain ⟨h1, h2, h3, h4, h5⟩ := sync_spec hg0 0
  have hall : (St.mk [] all false 0 cont hid).all = all := by simp [St.all]
  rw [hall] at h4
  have hpos := h4 hlen
  have hsc := scan_spec (((⟨[], all, false, 0, cont, hid⟩ : St).sync 0).1).fuel ((⟨[], all, false, 0, cont, hid⟩ : St).sync 0).1 0 0 h1
    (by simp [St.fuel, St.all]) (fun _ => hpos)
  obtain ⟨t, j, l, hv⟩ := view_head h1 (i := 0) (by rw [h2.all, hall]; exact hlen)
  rw [hv] at hsc
  simp only [List.getElem?_cons_zero] at hsc
  obtain ⟨s', a1, a2, a3, a4⟩ := hsc
  have hm := h2.trans a3
  have hst : (Reader.start all cont hid).pos = j := by
    have : (Reader.mk all 0 cont hid).ahead = (t, j) :: l := by
      rw [← hv, h2.view]; unfold St.view Reader.ahead; rw [hall]
    simp [Reader.start, this]
  refine ⟨{ s' with p := j }, ?_, ?_⟩
  · unfold St.setup
    simp only
    rw [if_neg (by omega), a1]
  · refine ⟨⟨a2.text, a2.eof⟩, ?_, hst.symm, hm.cont, hm.hid, a4, by rw [hst]; exact a4⟩
    show s'.all = all
    rw [hm.all, hall]

/-- **C133.** Whatever the parser does - looking at the next token, reading it, looking back, switching the filter, trying something and going
back to where it was - it gets the tokens of the text that pass the filter, in their order, from its place on; how many tokens have been
fetched from the lexer makes no difference. The stream fails exactly if the parser reads the end of the text. -/
theorem C133_tokens {all : List Tok} (ht : Text all) (cont hid : Bool) (ops : List Op)
    (hf : (Reader.start all cont hid).Fair (Reader.start all cont hid).pos ops) :
    ∃ s, St.setup all cont hid = some s ∧ (s.run ops).map (·.2) = ((Reader.start all cont hid).run ops).map (·.2) := by
  obtain ⟨s, h1, h2⟩ := setup_spec ht cont hid
  exact ⟨s, h1, run_sim h2 ops hf⟩

/-- Looking and reading `n` times. -/
def readAll (n : Nat) : List Op := (List.replicate n [Op.look, Op.read]).flatten

theorem fair_readAll (n : Nat) (r : Reader) (seen : Nat) : r.Fair seen (readAll n) := by
  induction n generalizing r seen with
  | zero => trivial
  | succ n ih =>
    have : readAll (n + 1) = .look :: .read :: readAll n := by simp [readAll, List.replicate_succ]
    rw [this]
    exact ⟨fun i h => (by cases h), fun r' _ _ => ⟨fun i h => (by cases h), fun r'' _ _ => ih r'' _⟩⟩

theorem reader_readAll (n : Nat) (r : Reader) (h : n < r.ahead.length) :
    (r.run (readAll n)).map (·.2) = some ((r.ahead.take n).flatMap fun x => [.tok x.1, .nothing]) := by
  induction n generalizing r with
  | zero => rfl
  | succ n ih =>
    have e : readAll (n + 1) = .look :: .read :: readAll n := by simp [readAll, List.replicate_succ]
    match hr : r.ahead, h with
    | [x], h => simp at h
    | x :: y :: l, h =>
      have hy : { r with pos := y.2 : Reader }.ahead = y :: l := by
        have hs : (r.all.zipIdx).Pairwise fun a b => a.2 < b.2 := by
          rw [List.pairwise_iff_getElem]; intro a b _ _ hab; simpa using hab
        -- the tokens from the second one on
        have hm : y ∈ r.ahead := by simp [hr]
        have hmem := (List.mem_filter.1 hm).1
        obtain ⟨k, hk, he⟩ := List.getElem_of_mem hmem
        have hye : y.2 = r.pos + k := by rw [← he]; simp
        have hd : r.all.zipIdx.drop r.pos = ((r.all.zipIdx.drop r.pos).take k) ++ r.all.zipIdx.drop y.2 := by
          rw [hye, ← List.drop_drop, List.take_append_drop]
        have hf : r.ahead = ((r.all.zipIdx.drop r.pos).take k).filter (fun x => onChannel r.cont r.hid x.1) ++ { r with pos := y.2 : Reader }.ahead := by
          unfold Reader.ahead
          conv_lhs => rw [hd, List.filter_append]
        have hh : { r with pos := y.2 : Reader }.ahead.head? = some y := by
          unfold Reader.ahead
          have hkl : y.2 < r.all.zipIdx.length := by rw [hye]; simp at hk ⊢; omega
          have hge : r.all.zipIdx[y.2] = y := by
            have h' := he
            rw [List.getElem_drop] at h'
            simp only [← hye] at h'
            exact h'
          have hsee : onChannel r.cont r.hid y.1 = true := (List.mem_filter.1 hm).2
          show ((r.all.zipIdx.drop y.2).filter _).head? = some y
          rw [List.drop_eq_getElem_cons hkl, hge, List.filter_cons, if_pos hsee]
          rfl
        obtain ⟨l', hl'⟩ : ∃ l', { r with pos := y.2 : Reader }.ahead = y :: l' := by
          cases hc : { r with pos := y.2 : Reader }.ahead with
          | nil => rw [hc] at hh; simp at hh
          | cons a l' => rw [hc] at hh; simp at hh; exact ⟨l', by rw [hh]⟩
        rw [hr, hl'] at hf
        have hsf : r.ahead.Pairwise fun a b => a.2 < b.2 := by
          unfold Reader.ahead; exact List.Pairwise.filter _ (List.Pairwise.drop hs)
        rw [hr] at hsf
        rw [hl']
        -- what comes before the second token is the first one
        match hpre : ((r.all.zipIdx.drop r.pos).take k).filter (fun x => onChannel r.cont r.hid x.1), hf with
        | [], hf =>
          rw [hpre, List.nil_append, List.cons.injEq] at hf
          have hlt := (List.pairwise_cons.1 hsf).1 y (by simp)
          rw [hf.1] at hlt
          exact absurd hlt (Nat.lt_irrefl _)
        | [a], hf => rw [hpre] at hf; simp at hf; rw [hf.2]
        | a :: b :: l2, hf =>
          rw [hpre, List.cons_append, List.cons_append, List.cons.injEq, List.cons.injEq] at hf
          have hp := (List.pairwise_cons.1 (List.pairwise_cons.1 hsf).2).1 y (by rw [hf.2.2]; simp)
          exact absurd hp (Nat.lt_irrefl _)
      have hl : r.step .look = some (r, .tok x.1) := by simp [Reader.step, hr]
      have hrd : r.step .read = some ({ r with pos := y.2 }, .nothing) := by simp [Reader.step, hr]
      rw [e]
      simp only [Reader.run, hl, hrd, Option.map_map]
      have := ih { r with pos := y.2 } (by rw [hy]; simp at h ⊢; omega)
      rw [hy] at this
      obtain ⟨z, hz, hz2⟩ := Option.map_eq_some_iff.1 this
      rw [hz]
      simp [hz2]

/-- **C133**, reading: looking at a token and reading it, again and again, gives the tokens of the text that pass the filter, each once. -/
theorem C133_reading {all : List Tok} (ht : Text all) (cont hid : Bool) (n : Nat) (hn : n < (all.filter (onChannel cont hid)).length) :
    ∃ s, St.setup all cont hid = some s ∧
      (s.run (readAll n)).map (·.2) = some (((all.filter (onChannel cont hid)).take n).flatMap fun t => [.tok t, .nothing]) := by
  obtain ⟨s, h1, h2⟩ := setup_spec ht cont hid
  refine ⟨s, h1, ?_⟩
  rw [run_sim h2 _ (fair_readAll _ _ _)]
  -- what is before the first token does not pass the filter
  have hz : (Reader.start all cont hid).ahead = (Reader.mk all 0 cont hid).ahead := by
    unfold Reader.start
    cases hc : (Reader.mk all 0 cont hid).ahead with
    | nil => simp [hc]
    | cons x l =>
      simp only [List.head?_cons, Option.map_some, Option.getD_some]
      have hm : x ∈ (Reader.mk all 0 cont hid).ahead := by simp [hc]
      have hmem := (List.mem_filter.1 hm).1
      obtain ⟨k, hk, he⟩ := List.getElem_of_mem hmem
      have hxe : x.2 = k := by rw [← he]; simp
      have hd : all.zipIdx = all.zipIdx.take k ++ all.zipIdx.drop x.2 := by rw [hxe, List.take_append_drop]
      have hf : (Reader.mk all 0 cont hid).ahead = (all.zipIdx.take k).filter (fun x => onChannel cont hid x.1) ++ (Reader.mk all x.2 cont hid).ahead := by
        unfold Reader.ahead
        conv_lhs => rw [List.drop_zero, hd, List.filter_append]
      have hsf : (Reader.mk all 0 cont hid).ahead.Pairwise fun a b => a.2 < b.2 := by
        unfold Reader.ahead
        refine List.Pairwise.filter _ (List.Pairwise.drop ?_)
        rw [List.pairwise_iff_getElem]; intro a b _ _ hab; simpa using hab
      match hpre : (all.zipIdx.take k).filter (fun x => onChannel cont hid x.1), hf with
      | [], hf => rw [hpre, List.nil_append, hc] at hf; exact hf.symm
      | a :: l', hf =>
        exfalso
        rw [hc, hpre, List.cons_append, List.cons.injEq] at hf
        have ha : a ∈ all.zipIdx.take k := (List.mem_filter.1 (by rw [hpre]; simp : a ∈ (all.zipIdx.take k).filter (fun x => onChannel cont hid x.1))).1
        obtain ⟨m, hm, hme⟩ := List.getElem_of_mem ha
        have : a.2 = m := by rw [← hme]; simp
        have : m < k := by simp at hm; omega
        rw [← hf.1] at *
        omega
  have hmap : (Reader.mk all 0 cont hid).ahead.map (·.1) = all.filter (onChannel cont hid) := by
    unfold Reader.ahead
    rw [List.drop_zero]
    have : (fun x : Tok × Nat => onChannel cont hid x.1) = onChannel cont hid ∘ Prod.fst := rfl
    show List.map _ (all.zipIdx.filter fun x => onChannel cont hid x.1) = _
    rw [this, ← List.filter_map]
    congr 1
    exact List.zipIdx_map_fst 0 all
  rw [reader_readAll n _ (by rw [hz, ← List.length_map (f := (·.1)), hmap]; exact hn), hz]
  congr 1
  rw [← hmap, ← List.map_take, List.flatMap_map]

/-! ### Looking ahead further than the next token -/

theorem view_straight {s : St} {i : Nat} : ∀ (m : Nat), i + m < s.all.length → (∀ t ∈ (s.all.drop i).take (m + 1), s.sees t = true) →
    (s.view i)[m]?.map (·.2) = some (i + m) := by
  intro m
  induction m generalizing i with
  | zero =>
    intro hi h
    have h0 : s.all[i]? = some s.all[i] := List.getElem?_eq_getElem (by omega)
    rw [view_cons h0, if_pos (h _ (by rw [List.drop_eq_getElem_cons (by omega), List.take_succ_cons]; exact List.mem_cons_self))]
    rfl
  | succ m ih =>
    intro hi h
    have h0 : s.all[i]? = some s.all[i] := List.getElem?_eq_getElem (by omega)
    have hd : s.all.drop i = s.all[i] :: s.all.drop (i + 1) := List.drop_eq_getElem_cons (by omega)
    rw [hd] at h
    rw [view_cons h0, if_pos (h _ (by rw [List.take_succ_cons]; exact List.mem_cons_self)), List.getElem?_cons_succ, ih (i := i + 1) (by omega) (fun t ht => h t (by
      rw [List.take_succ_cons]; exact List.mem_cons_of_mem _ ht))]
    congr 1; omega

theorem ahead_spec {s : St} (hg : Good s) (hp : s.p < s.toks.length) {k : Nat} (h : ∀ t ∈ (s.all.drop s.p).take k, s.sees t = true) :
    ∀ (n m : Nat), m + n + 1 = k → s.p + m < s.all.length →
      ∃ s', s.ahead n (s.p + m) = some (s', min (s.p + k - 1) (s.all.length - 1)) ∧ Good s' ∧ More s s' := by
  intro n
  induction n generalizing s with
  | zero =>
    intro m hm hl
    exact ⟨s, by simp only [St.ahead]; congr 2; omega, hg, More.refl s⟩
  | succ n ih =>
    intro m hm hl
    obtain ⟨h1, h2, h3, h4, h5⟩ := sync_spec hg (s.p + m + 1)
    unfold St.ahead
    simp only [h3]
    have hp1 : (s.sync (s.p + m + 1)).1.p < (s.sync (s.p + m + 1)).1.toks.length := by rw [h2.p]; have := h2.len; omega
    have hsee : (s.sync (s.p + m + 1)).1.sees = s.sees := by funext t; unfold St.sees; rw [h2.cont, h2.hid]
    by_cases hlt : s.p + m + 1 < s.all.length
    · simp only [hlt, decide_true, if_true]
      have hn := next_spec h1 hp1 (i := s.p + m + 1) (by rw [h2.all]; exact hlt)
      rw [h2.view, h2.p] at hn
      have hv := view_straight (s := s) (i := s.p) (m + 1) (by omega) (fun t ht => h t ((List.take_subset_take_left _ (by omega)) ht))
      have e : s.p + m + 1 - s.p = m + 1 := by omega
      rw [e] at hn
      obtain ⟨x, hx, hx2⟩ := Option.map_eq_some_iff.1 hv
      rw [hx] at hn
      obtain ⟨s', a1, a2, a3, a4⟩ := hn
      have hm' := h2.trans a3
      have := ih (s := s') a2 (by rw [hm'.p]; have := hm'.len; omega)
        (by have : s'.sees = s.sees := by funext t; unfold St.sees; rw [hm'.cont, hm'.hid]
            rw [hm'.all, hm'.p, this]; exact h) (m + 1) (by omega) (by rw [hm'.p, hm'.all]; omega)
      rw [hm'.p, hm'.all] at this
      obtain ⟨s'', b1, b2, b3⟩ := this
      refine ⟨s'', ?_, b2, hm'.trans b3⟩
      simp only [a1, hx2]
      exact b1
    · simp only [hlt, decide_false, Bool.false_eq_true, if_false]
      -- nothing more to come
      have hend : ∀ (n : Nat) (s1 : St), Good s1 → More s s1 → ∃ s', s1.ahead n (s.p + m) = some (s', s.p + m) ∧ Good s' ∧ More s s' := by
        intro n
        induction n with
        | zero => intro s1 g1 m1; exact ⟨s1, rfl, g1, m1⟩
        | succ n ih2 =>
          intro s1 g1 m1
          obtain ⟨k1, k2, k3, _, _⟩ := sync_spec g1 (s.p + m + 1)
          unfold St.ahead
          have : ¬ s.p + m + 1 < s1.all.length := by rw [m1.all]; exact hlt
          simp only [k3, this, decide_false, Bool.false_eq_true, if_false]
          exact ih2 _ k1 (m1.trans k2)
      obtain ⟨s', b1, b2, b3⟩ := hend n _ h1 h2
      refine ⟨s', ?_, b2, b3⟩
      rw [b1]; congr 2; omega

/-- **C133**, partial: looking at the `k`-th token ahead shows it, or the end of the text if there are fewer, provided that the `k` tokens all
pass the filter. Missing: tokens in between that do not pass (`C133_witness_ahead`). -/
theorem C133_ahead_partial {s : St} {r : Reader} {seen : Nat} (h : Rel s r seen) {k : Nat} (hk : 1 ≤ k)
    (hv : ∀ t ∈ (r.all.drop r.pos).take k, onChannel r.cont r.hid t = true) :
    ∃ s' t, s.lt k = some (s', t) ∧ Rel s' r seen ∧ r.all[min (r.pos + k - 1) (r.all.length - 1)]? = some t := by
  have hl : s.p < s.all.length := by have := h.here; simp [St.all]; omega
  have hv' : ∀ t ∈ (s.all.drop s.p).take k, s.sees t = true := by rw [h.all, h.pos, h.sees]; exact hv
  obtain ⟨s1, a1, a2, a3⟩ := ahead_spec h.good h.here hv' (k - 1) 0 (by omega) (by omega)
  simp only [Nat.add_zero] at a1
  have hi : min (s.p + k - 1) (s.all.length - 1) < s.all.length := by omega
  have hp1 : s1.p < s1.toks.length := by rw [a3.p]; have := a3.len; have := h.here; omega
  have hn := next_spec a2 hp1 (i := min (s.p + k - 1) (s.all.length - 1)) (by rw [a3.all]; exact hi)
  rw [a3.view, a3.p] at hn
  have hvs := view_straight (s := s) (i := s.p) (min (s.p + k - 1) (s.all.length - 1) - s.p) (by omega)
    (fun t ht => hv' t ((List.take_subset_take_left _ (by omega)) ht))
  obtain ⟨x, hx, hx2⟩ := Option.map_eq_some_iff.1 hvs
  rw [hx] at hn
  obtain ⟨s2, b1, b2, b3, b4⟩ := hn
  have e : x.2 = min (s.p + k - 1) (s.all.length - 1) := by omega
  have hm := a3.trans b3
  have hta : s2.toks[x.2]? = some (s.all[min (s.p + k - 1) (s.all.length - 1)]) := by
    rw [toks_get b4, hm.all, e, List.getElem?_eq_getElem hi]
  refine ⟨s2, _, by simp only [St.lt, a1, b1, hta, Option.map_some]; rfl, h.more hm b2, ?_⟩
  rw [← h.all, ← h.pos, List.getElem?_eq_getElem hi]

/-- The text between two tokens that have been fetched is what the tokens say, whatever the filter. -/
theorem C133_text {s : St} {a b : Nat} (hb : b < s.toks.length) (he : ∀ t ∈ s.toks.take (b + 1), t.kind ≠ .eof) :
    s.getText a b = String.join ((((s.all.take (b + 1)).drop a)).map (·.text)) := by
  have hs : s.sync b = (s, true) := by
    unfold St.sync
    have : b + 1 - s.toks.length = 0 := by omega
    simp [this]
  have hta : s.all.take (b + 1) = s.toks.take (b + 1) := by
    unfold St.all; rw [List.take_append_of_le_length (by omega)]
  unfold St.getText
  rw [if_neg (by omega)]
  simp only [hs, hta]
  congr 2
  rw [List.takeWhile_eq_self_iff.2]
  intro t ht
  simpa using he t (List.mem_of_mem_drop ht)

/-! ### Non-vacuity and violations -/

def nameT : Tok := ⟨.other, false, "LR"⟩
def contT : Tok := ⟨.cont, true, "X"⟩
def ignT : Tok := ⟨.other, true, "00010000"⟩
def opT : Tok := ⟨.other, false, "1"⟩
def eolT : Tok := ⟨.other, false, ""⟩
def eofT : Tok := ⟨.eof, false, ""⟩

def exText : List Tok := [nameT, contT, ignT, opT, eolT, eofT]

theorem exText_text : Text exText := ⟨[nameT, contT, ignT, opT, eolT], eofT, rfl, rfl, by decide⟩

/-- The parser reads, tries something, goes back, and switches the filter. -/
example : ((Reader.start exText true false).run [.look, .read, .look, .place, .read, .look, .goto 1, .look, .filter false false, .look, .read, .before 1]).map (·.2) =
    some [.tok nameT, .nothing, .tok contT, .at 1, .nothing, .tok opT, .nothing, .tok contT, .nothing, .tok opT, .nothing, .tok opT] := by decide +kernel

example : (Reader.start exText true false).Fair 0 [.look, .read, .look, .goto 0] := by
  refine ⟨fun i h => (by cases h), fun r1 a1 h1 => ⟨fun i h => (by cases h), fun r2 a2 h2 => ⟨fun i h => (by cases h), fun r3 a3 h3 => ⟨fun i h => ?_, fun _ _ _ => trivial⟩⟩⟩⟩
  cases h
  refine ⟨Nat.zero_le _, fun h => (by omega)⟩

example : ∃ s, St.setup exText false false = some s ∧ (s.run (readAll 2)).map (·.2) = some [.tok nameT, .nothing, .tok opT, .nothing] :=
  C133_reading exText_text false false 2 (by decide)

/-- C133 fails for looking ahead further: between `LR` and `1` are two tokens that do not pass the filter, and the second token ahead is said
to be the end of the line instead of `1`; with one token less behind, looking is an exception. -/
theorem C133_witness_ahead :
    (∃ s, St.setup [nameT, contT, opT, eolT, eofT] false false = some s ∧ (s.lt 2).map (·.2) = some eolT ∧
      (Reader.start [nameT, contT, opT, eolT, eofT] false false).ahead.map (·.1) = [nameT, opT, eolT, eofT]) ∧
    (∃ s, St.setup [nameT, contT, eofT] false false = some s ∧ s.lt 2 = none ∧
      (Reader.start [nameT, contT, eofT] false false).ahead.map (·.1) = [nameT, eofT]) := by
  refine ⟨⟨_, rfl, ?_, ?_⟩, ⟨_, rfl, ?_, ?_⟩⟩ <;> decide +kernel

end Verif.Stream
