import Verif.Whole.Place
import Verif.Whole.Run
/-!
C132: whole programs of data, labels and `EQU`.
-/
namespace Verif.Whole
open Verif.Ord

section
variable {F : Values} {σ : SpId → Int}

/-! ### Statements as small steps -/

theorem resolves_trs {st : St} {o : Out} (h : Resolves st o) : ∀ st' p, o = .ok st' → Trs F σ st p st' p ∧ st'.lc = st.lc := by
  induction h with
  | stop => intro st' p e; cases e; exact ⟨.refl, rfl⟩
  | step h1 h2 h3 _ ih =>
    intro st' p e
    obtain ⟨i1, i2⟩ := ih st' p e
    exact ⟨.head (.sym h1 (closed_extract h2) h3) i1, i2⟩
  | crash => intro st' p e; cases e

theorem create_ok {st st' : St} {n v} (h : Create st n v (.ok st')) : Resolves { st with tab := st.tab.set n (mkSym v) } (.ok st') := by
  cases h with
  | fine _ h => exact h

theorem equ_trs {st st' : St} {n : SymId} {a : Addr} {e : MExpr} (h : Equ st n (fill a e) (.ok st')) (ha : a ∈ st.lc.log) (ht : Tidy F e)
    (hk : IsNumber F e ∨ IsPlace F e ∧ (st.lc.spaces = [] ∨ Bare e)) (p : Int) : Trs F σ st p st' p ∧ st'.lc = st.lc := by
  have hk' : IsNumber F e ∨ IsPlace F e := hk.imp_right And.left
  cases h with
  | now h1 h2 h3 h4 =>
    obtain ⟨i1, i2⟩ := resolves_trs (F := F) (σ := σ) (create_ok h4) st' p rfl
    exact ⟨.head (.now h1 ha ht hk' (closed_contains h2) h3) i1, i2⟩
  | address h1 h2 h3 h4 h5 =>
    obtain ⟨i1, i2⟩ := resolves_trs (F := F) (σ := σ) (create_ok h5) st' p rfl
    exact ⟨.head (.address h1 ha hk h2 h3 h4) i1, i2⟩
  | later h1 h2 h3 h4 => exact ⟨.one (.later h1 ha ht hk'), rfl⟩

theorem label_trs {st st' : St} {a : Addr} {l : Option SymId} (h : Label st a l (.ok st')) (ha : a ∈ st.lc.log) (p : Int) :
    Trs F σ st p st' p ∧ st'.lc = st.lc := by
  cases h with
  | none => exact ⟨.refl, rfl⟩
  | new h1 h2 =>
    obtain ⟨i1, i2⟩ := resolves_trs (F := F) (σ := σ) (create_ok h2) st' p rfl
    exact ⟨.head (.label h1 ha) i1, i2⟩

theorem log_align (st : St) (al : Al) : (st.align al).lc.log = st.lc.log ++ [lastAddr (st.align al).lc] := by
  have h : (st.align al).lc.log = st.lc.log ++ [(st.align al).lc.current] := log_reserve _ _ _
  unfold lastAddr
  rw [h]
  simp

theorem last_mem (st : St) (al : Al) : lastAddr (st.align al).lc ∈ (st.align al).lc.log := by
  rw [log_align]; simp

theorem alignUp_one (p : Int) : alignUp ⟨0, 1⟩ p = p := by unfold alignUp; simp [Int.emod_one]

theorem pow_one : Pow ⟨0, 1⟩ := ⟨0, by omega, rfl⟩

theorem alignUp_mod {al : Al} (h0 : al.byte = 0) (hp : Pow al) (p : Int) : alignUp al p % (al.boundary : Int) = 0 := by
  have hpos : al.byte < al.boundary := by
    obtain ⟨k, _, e⟩ := hp
    rw [h0, e]; exact Nat.two_pow_pos k
  have := (alignUp_next al p hpos).2.1
  rw [h0] at this
  simpa using this

theorem reserve_none {c : LC} (h : c.spaces = [] ∧ c.data.parts = []) (len : Int) (al : Al) :
    (c.reserve len al).spaces = [] ∧ (c.reserve len al).data.parts = [] := by
  obtain ⟨h1, h2⟩ := h
  unfold LC.reserve LC.alignTo
  simp only
  split
  · exact ⟨h1, by simp [LData.appendStorage, h2, addLast]⟩
  · rw [if_neg (by simp [LC.needSpace, h2])]
    exact ⟨h1, by simp [LData.appendStorage, h2, addLast]⟩

theorem constant_collect {E : Env} {T : Table} {a : Addr} {e : MExpr} (h : Constant e) : (fill a e).collect E T = .none := by
  induction e with
  | const => rfl
  | par e ih => exact ih h
  | neg e ih => simp only [fill, MExpr.collect]; rw [ih h]; rfl
  | add l r ihl ihr => simp only [fill, MExpr.collect]; rw [ihl h.1, ihr h.2]; rfl
  | sub l r ihl ihr => simp only [fill, MExpr.collect]; rw [ihl h.1, ihr h.2]; rfl
  | mul l r ihl ihr => simp only [fill, MExpr.collect]; rw [ihl h.1, ihr h.2]; rfl
  | div l r ihl ihr => simp only [fill, MExpr.collect]; rw [ihl h.1, ihr h.2]; rfl
  | _ => cases h

theorem constant_late {st : St} {a : Addr} {e : MExpr} (h : Constant e) : st.late (fill a e) = false := by
  unfold St.late
  simp only [SpSrc.collect, List.foldl_cons, List.foldl_nil]
  rw [constant_collect h]
  rfl

/-- The position after data. -/
def after (σ : SpId → Int) (st st' : St) (al : Al) (u : Nat) (x : MExpr) (p : Int) : Int :=
  if (st.align al).late x then alignUp al p + σ st'.lc.spaces.length
  else alignUp ⟨0, 1⟩ (alignUp al p) + byteLen u (x.eval st'.env.heap st'.tab)

theorem data_trs {st st' : St} {l : Option SymId} {al : Al} {u : Nat} {e : MExpr} (hp : Pow al) (h0 : al.byte = 0) (hd : al.boundary ∣ u)
    (ht : Tidy F e) (hn : IsNumber F e) (hl : Label (st.align al) (lastAddr (st.align al).lc) l (.ok st')) (p : Int) :
    Trs F σ (st.align al) (alignUp al p) st' (alignUp al p) ∧ st'.lc = (st.align al).lc ∧
    Trs F σ st' (alignUp al p) (st'.reserve ((st.align al).late (fill (lastAddr (st.align al).lc) e)) al u (fill (lastAddr (st.align al).lc) e))
      (after σ st st' al u (fill (lastAddr (st.align al).lc) e) p) := by
  obtain ⟨i1, i2⟩ := label_trs (F := F) (σ := σ) hl (last_mem st al) (alignUp al p)
  refine ⟨i1, i2, ?_⟩
  unfold after St.reserve
  split
  · exact .one (.gap hp h0 hd (alignUp_mod h0 hp p) (by rw [i2]; exact last_mem st al) ht hn)
  · exact .one (.room _)

theorem runs_trs {st : St} {prog : List Stmt} {o : Out} (h : Runs st prog o) : ∀ st1 var p, o = .ok st1 → CarefulFrom F var prog →
    (var = false → st.lc.spaces = [] ∧ st.lc.data.parts = []) → ∃ p1, Trs F σ st p st1 p1 := by
  induction h with
  | nil => intro st1 var p e _ _; cases e; exact ⟨p, .refl⟩
  | @cons st s rest st' o hx hrest ih =>
    intro st1 var p e hc hv
    cases hx with
    | equ hx =>
      obtain ⟨c1, c2, c3⟩ := hc
      have hv' : var = false → (st.align ⟨0, 1⟩).lc.spaces = [] ∧ (st.align ⟨0, 1⟩).lc.data.parts = [] := fun h => reserve_none (hv h) _ _
      obtain ⟨i1, i2⟩ := equ_trs (F := F) (σ := σ) hx (last_mem st _) c1
        (c2.imp_right fun ⟨h1, h2⟩ => ⟨h1, h2.imp_left fun h => (hv' h).1⟩) (alignUp ⟨0, 1⟩ p)
      obtain ⟨p1, hp1⟩ := ih st1 var (alignUp ⟨0, 1⟩ p) e c3 (by rw [i2]; exact hv')
      exact ⟨p1, .head (.align pow_one rfl) (i1.trans hp1)⟩
    | data hxe hl hub =>
      rename_i l al u e0 x st2
      subst hxe
      obtain ⟨⟨k, hk, hal⟩, c2, c3, c4, c5⟩ := hc
      have hp : Pow al := ⟨k, hk, by rw [hal]⟩
      have h0 : al.byte = 0 := by rw [hal]
      obtain ⟨i1, i2, i3⟩ := data_trs (F := F) (σ := σ) hp h0 c2 c3 c4 hl p
      have htr := Trs.head (Tr.align hp h0) (i1.trans i3)
      rcases c5 with ⟨c5, c6⟩ | c6
      · obtain ⟨p1, hp1⟩ := ih st1 var _ e c6 (by
          intro h
          have := reserve_none (hv h) 0 al
          rw [constant_late c5]
          unfold St.reserve
          simp only [Bool.false_eq_true, if_false]
          rw [i2]
          exact reserve_none this _ _)
        exact ⟨p1, htr.trans hp1⟩
      · obtain ⟨p1, hp1⟩ := ih st1 true _ e c6 (by intro h; cases h)
        exact ⟨p1, htr.trans hp1⟩
  | reported => intro st1 var p e; cases e
  | crash => intro st1 var p e; cases e

theorem settles_trs {st : St} {o : Out} (h : Settles st o) : ∀ st1 p, o = .ok st1 → Trs F σ st p st1 p := by
  induction h with
  | stop => intro st1 p e; cases e; exact .refl
  | step hr _ ih =>
    intro st1 p e
    refine Trs.trans ?_ (ih st1 p e)
    cases hr with
    | sym h1 h2 h3 => exact .one (.sym h1 (closed_extract h2) h3)
    | gap h1 h2 h3 => exact .one (.define h1 h2 h3)
    | align h1 h2 => exact .one (.settle _)
  | crash => intro st1 p e; cases e

/-! ### Values -/

/-- The symbols of an expression. -/
def symsOf : MExpr → List SymId
  | .sym n => [n]
  | .par e => symsOf e
  | .neg e => symsOf e
  | .add l r => symsOf l ++ symsOf r
  | .sub l r => symsOf l ++ symsOf r
  | .mul l r => symsOf l ++ symsOf r
  | .div l r => symsOf l ++ symsOf r
  | _ => []

theorem value_rel {H : Heap} {T U : Table} {a : Addr} {e : MExpr} {p : Int} (hv : value F (.rel p) e ≠ none) (h : ∀ n ∈ symsOf e, U.value n = T.value n) :
    (fill a e).eval H U = (fill a e).eval H T := by
  have bin : ∀ {f : Val → Val → Option Val} {l r : MExpr}, ((value F (.rel p) l).bind fun x => (value F (.rel p) r).bind (f x)) ≠ none →
      value F (.rel p) l ≠ none ∧ value F (.rel p) r ≠ none := by
    intro f l r h
    constructor
    · intro hl; rw [hl] at h; exact h rfl
    · intro hr; rw [hr] at h; apply h; cases value F (.rel p) l <;> rfl
  induction e with
  | const => rfl
  | sym n => exact h n (by simp [symsOf])
  | attr => simp [value] at hv
  | loc => rfl
  | dflt => rfl
  | par e ih => exact ih hv h
  | neg e ih =>
    simp only [fill, MExpr.eval]
    rw [ih (by intro hn; simp [value, hn] at hv) h]
  | add l r ihl ihr =>
    simp only [fill, MExpr.eval]
    obtain ⟨h1, h2⟩ := bin hv
    rw [ihl h1 fun n hn => h n (by simp [symsOf, hn]), ihr h2 fun n hn => h n (by simp [symsOf, hn])]
  | sub l r ihl ihr =>
    simp only [fill, MExpr.eval]
    obtain ⟨h1, h2⟩ := bin hv
    rw [ihl h1 fun n hn => h n (by simp [symsOf, hn]), ihr h2 fun n hn => h n (by simp [symsOf, hn])]
  | mul l r ihl ihr =>
    simp only [fill, MExpr.eval]
    obtain ⟨h1, h2⟩ := bin hv
    rw [ihl h1 fun n hn => h n (by simp [symsOf, hn]), ihr h2 fun n hn => h n (by simp [symsOf, hn])]
  | div l r ihl ihr =>
    simp only [fill, MExpr.eval]
    obtain ⟨h1, h2⟩ := bin hv
    rw [ihl h1 fun n hn => h n (by simp [symsOf, hn]), ihr h2 fun n hn => h n (by simp [symsOf, hn])]

theorem syms_defined {E : Env} {T : Table} {v : SpId → Int} (hE : E.unknown = fun _ => false) (hg : Good v F T) {a : Addr} (ha : SimpleA a) {p : Int}
    (e : MExpr) : ∀ w, value F (.rel p) e = some w → ((fill a e).collect E T).syms = [] → ∀ n ∈ symsOf e, T.value n ≠ .undef := by
  have bin : ∀ {f : Val → Val → Option Val} {l r : MExpr} {w : Val}, ((value F (.rel p) l).bind fun x => (value F (.rel p) r).bind (f x)) = some w →
      ∃ x y, value F (.rel p) l = some x ∧ value F (.rel p) r = some y ∧ f x y = some w := by
    intro f l r w h
    obtain ⟨x, hx, h⟩ := Option.bind_eq_some_iff.1 h
    obtain ⟨y, hy, h⟩ := Option.bind_eq_some_iff.1 h
    exact ⟨x, y, hx, hy, h⟩
  induction e with
  | sym m =>
    intro w _ hs n hn
    simp only [symsOf, List.mem_singleton] at hn
    subst hn
    intro hu
    simp only [fill, MExpr.collect, hu] at hs
    simp [Coll.ofSym] at hs
  | par e ih => exact ih
  | neg e ih =>
    intro w hw hs
    simp only [value] at hw
    obtain ⟨x, hx, hw⟩ := Option.bind_eq_some_iff.1 hw
    obtain ⟨i1, i2, i3⟩ := collect_ok hE hg ha e x hx
    obtain ⟨_, _, j3, _, _⟩ := addSub_ok (E := E) (op := .sub) (c := Coll.none) (h := (fill a e).collect E T) rfl i1 rfl i2
    simp only [fill, MExpr.collect] at hs
    rw [j3] at hs
    exact ih x hx (addAll_eq_nil.1 hs).2
  | add l r ihl ihr =>
    intro w hw hs n hn
    obtain ⟨x, y, hx, hy, hf⟩ := bin hw
    obtain ⟨i1, i2, i3⟩ := collect_ok hE hg ha l x hx
    obtain ⟨k1, k2, k3⟩ := collect_ok hE hg ha r y hy
    obtain ⟨_, _, j3, _, _⟩ := addSub_ok (E := E) (op := .add) i1 k1 i2 k2
    simp only [fill, MExpr.collect] at hs
    rw [j3] at hs
    obtain ⟨s1, s2⟩ := addAll_eq_nil.1 hs
    rcases List.mem_append.1 hn with hn | hn
    · exact ihl x hx s1 n hn
    · exact ihr y hy s2 n hn
  | sub l r ihl ihr =>
    intro w hw hs n hn
    obtain ⟨x, y, hx, hy, hf⟩ := bin hw
    obtain ⟨i1, i2, i3⟩ := collect_ok hE hg ha l x hx
    obtain ⟨k1, k2, k3⟩ := collect_ok hE hg ha r y hy
    obtain ⟨_, _, j3, _, _⟩ := addSub_ok (E := E) (op := .sub) i1 k1 i2 k2
    simp only [fill, MExpr.collect] at hs
    rw [j3] at hs
    obtain ⟨s1, s2⟩ := addAll_eq_nil.1 hs
    rcases List.mem_append.1 hn with hn | hn
    · exact ihl x hx s1 n hn
    · exact ihr y hy s2 n hn
  | mul l r ihl ihr =>
    intro w hw hs n hn
    obtain ⟨x, y, hx, hy, hf⟩ := bin hw
    obtain ⟨i1, i2, i3⟩ := collect_ok hE hg ha l x hx
    obtain ⟨k1, k2, k3⟩ := collect_ok hE hg ha r y hy
    cases x <;> cases y <;> simp only [times, reduceCtorEq] at hf
    obtain ⟨_, _, j3, _, _⟩ := divMul_ok i1 k1 i2 k2 i3 k3
    simp only [fill, MExpr.collect] at hs
    rw [j3] at hs
    obtain ⟨s1, s2⟩ := addAll_eq_nil.1 hs
    rcases List.mem_append.1 hn with hn | hn
    · exact ihl _ hx s1 n hn
    · exact ihr _ hy s2 n hn
  | div l r ihl ihr =>
    intro w hw hs n hn
    obtain ⟨x, y, hx, hy, hf⟩ := bin hw
    obtain ⟨i1, i2, i3⟩ := collect_ok hE hg ha l x hx
    obtain ⟨k1, k2, k3⟩ := collect_ok hE hg ha r y hy
    cases x <;> cases y <;> simp only [over, reduceCtorEq] at hf
    obtain ⟨_, _, j3, _, _⟩ := divMul_ok i1 k1 i2 k2 i3 k3
    simp only [fill, MExpr.collect] at hs
    rw [j3] at hs
    obtain ⟨s1, s2⟩ := addAll_eq_nil.1 hs
    rcases List.mem_append.1 hn with hn | hn
    · exact ihl _ hx s1 n hn
    · exact ihr _ hy s2 n hn
  | _ => intro w _ _ n hn; simp [symsOf] at hn

/-- What a data statement collects is what its expression collects. -/
theorem data_collect {E : Env} {T : Table} {x : MExpr} (h1 : (x.collect E T).err = false) (h2 : (x.collect E T).attrs = []) :
    ((SpSrc.data [x]).collect E T).syms = addAll [] (x.collect E T).syms ∧ ((SpSrc.data [x]).collect E T).spaces = addAll [] (x.collect E T).spaces ∧
    ((x.collect E T).syms = [] → ((SpSrc.data [x]).collect E T).addr = (x.collect E T).addr) := by
  obtain ⟨_, _, j3, j4, j5⟩ := addSub_ok (E := E) (op := .add) (c := Coll.none) (h := x.collect E T) rfl h1 rfl h2
  refine ⟨j3, j4, fun h => ?_⟩
  have := j5 rfl h
  simp only [SpSrc.collect, List.foldl_cons, List.foldl_nil]
  rw [this]
  cases (x.collect E T).addr <;> rfl

theorem closed_data {st : St} {x : MExpr} (h1 : (x.collect st.env st.tab).err = false) (h2 : (x.collect st.env st.tab).attrs = [])
    (h : ((SpSrc.data [x]).collect st.env st.tab).syms = [] ∧ ((SpSrc.data [x]).collect st.env st.tab).spaces = [] ∧
      ∀ b, ((SpSrc.data [x]).collect st.env st.tab).addr = some b → b.norm st.env.heap = []) : Closed st x := by
  obtain ⟨d1, d2, d3⟩ := data_collect h1 h2
  rw [d1, d2] at h
  obtain ⟨g1, g2, g3⟩ := h
  have s1 := (addAll_eq_nil.1 g1).2
  exact ⟨s1, (addAll_eq_nil.1 g2).2, by rw [← d3 s1]; exact g3⟩

theorem byteLen_bytes (u : Nat) (k : Int) : ((byteLen u (.abs k) : Nat) : Int) = bytes u k := by
  unfold byteLen bytes
  simp only
  split
  · rename_i h
    push_cast
    rw [Int.toNat_of_nonneg h.1]
  · rfl

end

/-! ### The theorem -/

theorem value_of_rep {fin : St} {n : SymId} {x : SVal} {w : Val} (h : Rep (finLen fin) x (some w)) (hx : fin.tab.value n = x) : fin.value n = some w := by
  unfold St.value
  rw [hx]
  cases x with
  | undef => exact absurd h (by simp [Rep])
  | ub => exact absurd h (by simp [Rep])
  | abs k => exact h.symm
  | reloc a =>
    simp only
    rw [if_pos h.1.1, offset_fin]
    exact h.2.symm

theorem rep_defined {v x w} (h : Rep v x w) : x ≠ .undef := by rintro rfl; exact h

/-- A symbol that got a value on the way. -/
theorem value_kept {fin : St} {q : Int} {st : St} {p : Int} {T : Table} {n : SymId} {x : SVal} {w : Val} (hT : st.tab = T.set n (mkSym x))
    (hr : Rep (finLen fin) x (some w)) (hw : Wf st) (ht : Trs fin.value (finLen fin) st p fin q) : fin.value n = some w := by
  refine value_of_rep hr ?_
  have hv : st.tab.value n = x := by rw [hT]; simp [value_set, mkSym]
  rw [← hv]
  exact (trs_ext ht hw).tab n (by rw [hv]; exact rep_defined hr)

/-- `n EQU e` at a known place. -/
theorem equ_value {fin : St} (hf : fin.Finished) {q : Int} {st st' : St} {p : Int} {n : SymId} {a : Addr} {e : MExpr}
    (hk : Known fin q st p) (hx : Equ st n (fill a e) (.ok st')) (ha : a ∈ st.lc.log) (ht : Tidy fin.value e)
    (hkind : IsNumber fin.value e ∨ IsPlace fin.value e ∧ (st.lc.spaces = [] ∨ Bare e))
    (htr : Trs fin.value (finLen fin) st' p fin q) :
    ∃ x, value fin.value (.rel (aval (finLen fin) a)) e = some x ∧ fin.value n = some x := by
  have hk' : IsNumber fin.value e ∨ IsPlace fin.value e := hkind.imp_right And.left
  obtain ⟨w, hw⟩ := kinds_here (aval (finLen fin) a) hk'
  refine ⟨w, hw, ?_⟩
  have hfit := hk.sane.log a ha
  have hef := trs_ext hk.trs hk.wf
  cases hx with
  | now h1 h2 h3 h4 =>
    have hcl := closed_contains h2
    have tr := Tr.now (F := fin.value) (σ := finLen fin) (p := p) h1 ha ht hk' hcl h3
    have r1 := (resolve_rep hk.sane hef hfit.1 ht hw hcl h3).1
    exact value_kept rfl r1 (tr_wf hk.wf tr) ((resolves_trs (create_ok h4) st' p rfl).1.trans htr)
  | address h1 h2 h3 h4 h5 =>
    have tr := Tr.address (F := fin.value) (σ := finLen fin) (p := p) h1 ha hkind h2 h3 h4
    have r1 := (address_case hk.sane hef hfit hkind h2 h3 h4 hw).1
    exact value_kept rfl r1 (tr_wf hk.wf tr) ((resolves_trs (create_ok h5) st' p rfl).1.trans htr)
  | later h1 h2 h3 h4 =>
    have tr := Tr.later (F := fin.value) (σ := finLen fin) (p := p) h1 ha ht hk'
    have k1 := known_tr hf.2.1 hk tr htr
    obtain ⟨mid, r, t1, t2, d1, d2, d3⟩ := dep_done htr k1.wf (n := n) (x := fill a e) (List.mem_append_right _ (by simp)) hf.1
    have km := known_trs hf.2.1 k1 t1 t2
    have r1 := (resolve_rep km.sane (trs_ext t2 km.wf) hfit.1 ht hw d1 d2).1
    exact value_of_rep r1 (d3 (rep_defined r1))

theorem rep_abs {v x k} (h : Rep v x (some (.abs k))) : x = .abs k := by
  cases x with
  | undef => exact absurd h (by simp [Rep])
  | ub => exact absurd h (by simp [Rep])
  | abs m => have h : some (Val.abs k) = some (.abs m) := h; cases h; rfl
  | reloc a => exact absurd h.2 (by simp)

/-- The rest of a program from a state on the way. -/
theorem solves_rest {fin : St} (hf : fin.Finished) {st1 : St} (hset : ∀ p, Trs fin.value (finLen fin) st1 p fin p)
    {st : St} {prog : List Stmt} {o : Out} (h : Runs st prog o) : ∀ var p, o = .ok st1 → CarefulFrom fin.value var prog →
    (var = false → st.lc.spaces = [] ∧ st.lc.data.parts = []) → (∃ q, Known fin q st p) → SolvesFrom fin.value p prog := by
  induction h with
  | nil => intros; trivial
  | @cons st s rest st' o hx hrest ih =>
    rintro var p e hc hv ⟨q0, hk0⟩
    obtain ⟨w, out, hinv⟩ := hk0.inv
    cases hx with
    | equ hx =>
      obtain ⟨c1, c2, c3⟩ := hc
      have hv' : var = false → (st.align ⟨0, 1⟩).lc.spaces = [] ∧ (st.align ⟨0, 1⟩).lc.data.parts = [] := fun h => reserve_none (hv h) _ _
      have hkind := c2.imp_right fun ⟨h1, h2⟩ => (⟨h1, h2.imp_left fun h => (hv' h).1⟩ : _ ∧ ((st.align ⟨0, 1⟩).lc.spaces = [] ∨ Bare _))
      obtain ⟨i1, i2⟩ := equ_trs (σ := finLen fin) hx (last_mem st _) c1 hkind (alignUp ⟨0, 1⟩ p)
      obtain ⟨p1, hp1⟩ := runs_trs (σ := finLen fin) hrest st1 var (alignUp ⟨0, 1⟩ p) e c3 (by rw [i2]; exact hv')
      have ht := hp1.trans (hset p1)
      have hk : Known fin p1 st p := ⟨hk0.wf, hk0.sane, hk0.inv, .head (.align pow_one rfl) (i1.trans ht)⟩
      have k0 := known_tr hf.2.1 hk (.align pow_one rfl) (i1.trans ht)
      have k1 := known_trs hf.2.1 k0 i1 ht
      obtain ⟨w', hinv'⟩ := inv_align hinv (al := ⟨0, 1⟩) pow_one rfl
      have hpl := place_fin hinv' (log_align st _) k0.wf k0.trs hf
      have hval := equ_value hf k0 hx (last_mem st _) c1 hkind ht
      rw [hpl, alignUp_one] at hval
      refine ⟨hval, ?_⟩
      have := ih var _ e c3 (by rw [i2]; exact hv') ⟨_, k1⟩
      rw [alignUp_one] at this
      exact this
    | data hxe hl hub =>
      rename_i l al u e0 x st2
      subst hxe
      obtain ⟨⟨k, hk, hal⟩, c2, c3, c4, c5⟩ := hc
      have hp : Pow al := ⟨k, hk, by rw [hal]⟩
      have h0 : al.byte = 0 := by rw [hal]
      obtain ⟨i1, i2, i3⟩ := data_trs (F := fin.value) (σ := finLen fin) hp h0 c2 c3 c4 hl p
      have hvar : ∃ var', CarefulFrom fin.value var' rest ∧ (var' = false →
          (st2.reserve ((st.align al).late (fill (lastAddr (st.align al).lc) e0)) al u (fill (lastAddr (st.align al).lc) e0)).lc.spaces = [] ∧
          (st2.reserve ((st.align al).late (fill (lastAddr (st.align al).lc) e0)) al u (fill (lastAddr (st.align al).lc) e0)).lc.data.parts = []) := by
        rcases c5 with ⟨c5, c6⟩ | c6
        · refine ⟨var, c6, ?_⟩
          intro h
          have := reserve_none (hv h) 0 al
          rw [constant_late c5]
          unfold St.reserve
          simp only [Bool.false_eq_true, if_false]
          rw [i2]
          exact reserve_none this _ _
        · exact ⟨true, c6, by intro h; cases h⟩
      obtain ⟨var', c6, hv'⟩ := hvar
      obtain ⟨p1, hp1⟩ := runs_trs (σ := finLen fin) hrest st1 var' (after (finLen fin) st st2 al u (fill (lastAddr (st.align al).lc) e0) p) e c6 hv'
      have ht := hp1.trans (hset p1)
      have hk : Known fin p1 st p := ⟨hk0.wf, hk0.sane, hk0.inv, .head (.align hp h0) (i1.trans (i3.trans ht))⟩
      have k0 := known_tr hf.2.1 hk (.align hp h0) (i1.trans (i3.trans ht))
      have k1 := known_trs hf.2.1 k0 i1 (i3.trans ht)
      have k2 := known_trs hf.2.1 k1 i3 ht
      obtain ⟨w', hinv'⟩ := inv_align hinv hp h0
      have hpl := place_fin hinv' (log_align st _) k0.wf k0.trs hf
      have hfit := k0.sane.log _ (last_mem st al)
      obtain ⟨n, hn⟩ := number_here (alignUp al p) c4
      have hn' := hn
      rw [← hpl] at hn'
      refine ⟨?_, n, hn, ?_⟩
      · intro m hm
        subst hm
        cases hl with
        | new h1 h2 =>
          have tr := Tr.label (F := fin.value) (σ := finLen fin) (p := alignUp al p) h1 (last_mem st al)
          have := value_kept (x := .reloc (lastAddr (st.align al).lc)) (w := .rel (aval (finLen fin) (lastAddr (st.align al).lc))) rfl
            ⟨hfit.1, rfl⟩ (tr_wf k0.wf tr) ((resolves_trs (create_ok h2) st2 _ rfl).1.trans (i3.trans ht))
          rw [hpl] at this
          exact this
      · have hpos : after (finLen fin) st st2 al u (fill (lastAddr (st.align al).lc) e0) p = alignUp al p + bytes u n := by
          unfold after
          split
          · rename_i hlate
            congr 1
            rw [hlate] at k2 ht
            obtain ⟨mid, r, t1, t2, g1, g2, g3⟩ := gap_done ht k2.wf (i := st2.lc.spaces.length) (u := u) (x := fill (lastAddr (st.align al).lc) e0)
              (List.mem_append_right _ (by simp)) hf.2.1
            have km := known_trs hf.2.1 k2 t1 t2
            have hem := trs_ext t2 km.wf
            obtain ⟨j1, j2, _⟩ := collect_ok (env_unknown mid) (good_fin km.sane hem) hfit.1 e0 _ hn'
            have hcl := closed_data j1 j2 (closed_extract g1)
            rcases eval_rep km.sane hem hfit.1 c3 hn' hcl with hb | ⟨hr, _⟩
            · exact absurd hb g2
            · rw [rep_abs hr, byteLen_bytes] at g3
              unfold finLen
              rw [g3]; rfl
          · rename_i hlate
            have hlate' : (st.align al).late (fill (lastAddr (st.align al).lc) e0) = false := by simpa using hlate
            rw [alignUp_one]
            congr 1
            have he0 := trs_ext k0.trs k0.wf
            obtain ⟨j1, j2, _⟩ := collect_ok (env_unknown (st.align al)) (good_fin k0.sane he0) hfit.1 e0 _ hn'
            have hcl := closed_data j1 j2 (closed_contains hlate')
            have hdef := syms_defined (env_unknown (st.align al)) (good_fin k0.sane he0) hfit.1 e0 _ hn' hcl.1
            have hee : (fill (lastAddr (st.align al).lc) e0).eval st2.env.heap st2.tab =
                (fill (lastAddr (st.align al).lc) e0).eval (st.align al).env.heap (st.align al).tab := by
              have hh : st2.env.heap = (st.align al).env.heap := by show st2.lc.heap = _; rw [i2]; rfl
              rw [hh]
              exact value_rel (F := fin.value) (p := alignUp al p) (by rw [hn]; simp) fun m hm => (trs_ext i1 k0.wf).tab m (hdef m hm)
            have hub' := hub.resolve_left hlate
            rw [hee] at hub' ⊢
            rcases eval_rep k0.sane he0 hfit.1 c3 hn' hcl with hb | ⟨hr, _⟩
            · exact absurd hb hub'
            · rw [rep_abs hr, byteLen_bytes]
        have := ih var' _ e c6 hv' ⟨_, k2⟩
        rw [hpos] at this
        exact this
  | reported => intro var p e; cases e
  | crash => intro var p e; cases e

/-- C132 (partial): when a program of data, labels and `EQU` is assembled to the end and nothing is left over, the values of its symbols
satisfy the program: each label is worth its place, with all lengths as the program says, and each `n EQU e` what `e` is worth; however
lengths and definitions wait for each other, and in whatever order they are resolved. Missing: programs that are not `Careful`, see
`C132_witness_offset` and `C132_witness_sign`. -/
theorem C132_values_solve_partial (prog : List Stmt) (fin : St) (h : Assembles prog (.ok fin)) (hf : fin.Finished)
    (hc : Careful fin.value prog) : Solves fin.value prog := by
  cases h with
  | done h1 h2 =>
    rename_i st1
    have hset : ∀ p, Trs fin.value (finLen fin) st1 p fin p := fun p => settles_trs h2 fin p rfl
    obtain ⟨p1, hp1⟩ := runs_trs (σ := finLen fin) h1 st1 false 0 rfl hc (fun _ => ⟨rfl, rfl⟩)
    exact solves_rest hf hset h1 false 0 rfl hc (fun _ => ⟨rfl, rfl⟩) ⟨_, known_init (hp1.trans (hset p1))⟩

/-! ### Non-vacuity

```
A   DS (N)C
B   DS F
N   EQU M+1
M   EQU 4
L   EQU *-A
```
-/

def exProg : List Stmt := [.data (some 0) ⟨0, 1⟩ 1 (.sym 2), .data (some 1) ⟨0, 4⟩ 4 (.const 1), .equ 2 (.add (.sym 3) (.const 1)), .equ 3 (.const 4),
  .equ 4 (.sub (.loc none) (.sym 0))]

def okRun (k : Nat) (prog : List Stmt) (names : List SymId) (vals : List (Option Val)) : Bool := match assemble k prog with
  | none => false
  | some st => decide (st.deps = [] ∧ st.gaps = [] ∧ (∀ s ∈ st.lc.spaces, s.len ≠ none) ∧ names.map st.value = vals)

theorem okRun_spec {k prog names vals} (h : okRun k prog names vals = true) :
    ∃ fin, Assembles prog (.ok fin) ∧ fin.Finished ∧ names.map fin.value = vals := by
  unfold okRun at h
  split at h
  · cases h
  · rename_i st hs
    have h := of_decide_eq_true h
    exact ⟨st, assemble_ok hs, ⟨h.1, h.2.1, h.2.2.1⟩, h.2.2.2⟩

/-- The program is assembled, is careful, and gets its values. -/
example : ∃ fin, Assembles exProg (.ok fin) ∧ fin.Finished ∧ Careful fin.value exProg ∧
    [0, 1, 2, 3, 4].map fin.value = [some (.rel 0), some (.rel 8), some (.abs 5), some (.abs 4), some (.abs 12)] := by
  obtain ⟨fin, h1, h2, h3⟩ := okRun_spec (k := 50) (prog := exProg) (names := [0, 1, 2, 3, 4])
    (vals := [some (.rel 0), some (.rel 8), some (.abs 5), some (.abs 4), some (.abs 12)]) (by decide +kernel)
  refine ⟨fin, h1, h2, ?_, h3⟩
  simp only [List.map_cons, List.map_nil, List.cons.injEq, and_true] at h3
  obtain ⟨e0, e1, e2, e3, e4⟩ := h3
  simp [Careful, CarefulFrom, exProg, Tidy, places, IsNumber, IsPlace, Constant, Bare, value, plus, minus, e0, e1, e2, e3]
  exact ⟨⟨0, by omega, rfl⟩, ⟨2, by omega, rfl⟩⟩

/-! ### Violations

```
A   DS (N)C
B   DS C
X   EQU B+4
N   EQU 5
```
`X` becomes the place of `B`.

```
A   DS (N)C
B   DS C
X   EQU ((B-A)-(A-B))+(B-A)+(B-A)
N   EQU 5
```
`X` becomes 0, not 20. -/

def offsetProg : List Stmt := [.data (some 0) ⟨0, 1⟩ 1 (.sym 2), .data (some 1) ⟨0, 1⟩ 1 (.const 1), .equ 3 (.add (.sym 1) (.const 4)), .equ 2 (.const 5)]

def signProg : List Stmt := [.data (some 0) ⟨0, 1⟩ 1 (.sym 2), .data (some 1) ⟨0, 1⟩ 1 (.const 1),
  .equ 3 (.add (.add (.sub (.sub (.sym 1) (.sym 0)) (.sub (.sym 0) (.sym 1))) (.sub (.sym 1) (.sym 0))) (.sub (.sym 1) (.sym 0))), .equ 2 (.const 5)]

/-- C132 fails for a place that is written as a sum behind data of a length not known yet (asm_processor.cpp 134-146): the number added is
lost, nothing is reported, and the values do not satisfy the program although all its expressions have values. -/
theorem C132_witness_offset : ∃ fin, Assembles offsetProg (.ok fin) ∧ fin.Finished ∧ ¬ Solves fin.value offsetProg ∧
    fin.value 1 = some (.rel 5) ∧ fin.value 3 = some (.rel 5) ∧ value fin.value (.rel 6) (.add (.sym 1) (.const 4)) = some (.rel 9) := by
  obtain ⟨fin, h1, h2, h3⟩ := okRun_spec (k := 50) (prog := offsetProg) (names := [0, 1, 2, 3])
    (vals := [some (.rel 0), some (.rel 5), some (.abs 5), some (.rel 5)]) (by decide +kernel)
  simp only [List.map_cons, List.map_nil, List.cons.injEq, and_true] at h3
  obtain ⟨e0, e1, e2, e3⟩ := h3
  refine ⟨fin, h1, h2, ?_, e1, e3, by simp [value, plus, e1]⟩
  simp [Solves, SolvesFrom, offsetProg, value, plus, e0, e1, e2, e3]

/-- C132 fails for differences of differences (address.cpp 223-268, see `C50_witness_sign`): the expression is taken to depend on nothing
before the lengths are known. -/
theorem C132_witness_sign : ∃ fin, Assembles signProg (.ok fin) ∧ fin.Finished ∧ ¬ Solves fin.value signProg ∧
    fin.value 0 = some (.rel 0) ∧ fin.value 1 = some (.rel 5) ∧ fin.value 3 = some (.abs 0) := by
  obtain ⟨fin, h1, h2, h3⟩ := okRun_spec (k := 50) (prog := signProg) (names := [0, 1, 2, 3])
    (vals := [some (.rel 0), some (.rel 5), some (.abs 5), some (.abs 0)]) (by decide +kernel)
  simp only [List.map_cons, List.map_nil, List.cons.injEq, and_true] at h3
  obtain ⟨e0, e1, e2, e3⟩ := h3
  refine ⟨fin, h1, h2, ?_, e0, e1, e3⟩
  simp [Solves, SolvesFrom, signProg, value, plus, minus, e0, e1, e2, e3]

end Verif.Whole
