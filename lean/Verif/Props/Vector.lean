import Verif.Model.Vector
import Verif.Props.Values
import Verif.Props.Storage
/-!
# C133: a dense vector is the list of its elements
-/
namespace Ublas
open Search Storage VecSpec
namespace DVec
variable {α ρ : Type}

/-- What vector needs of its storage array: `els v` are the elements, `fits n` says that `n` of them can be held. -/
structure ArrLaws (A : ArrImpl ρ α) (WF : ρ → Prop) (els : ρ → List α) (fits : Nat → Prop) : Prop where
  size : ∀ v, WF v → A.size v = (els v).length
  index : ∀ dbg v i x, WF v → (els v)[i]? = some x → A.index dbg v i = .ok x
  deref : ∀ v i x, WF v → (els v)[i]? = some x → A.deref v i = .ok x
  store : ∀ dbg v i t, WF v → i < (els v).length → ∃ v', A.store dbg v i t = .ok v' ∧ WF v' ∧ els v' = (els v).set i t
  put : ∀ v i t, WF v → i < (els v).length → ∃ v', A.put v i t = .ok v' ∧ WF v' ∧ els v' = (els v).set i t
  make : ∀ dbg junk n, fits n → ∃ v, A.make dbg junk n = .ok v ∧ WF v ∧ (els v).length = n
  makeInit : ∀ dbg junk n t, fits n → ∃ v, A.makeInit dbg junk n t = .ok v ∧ WF v ∧ els v = List.replicate n t
  resize : ∀ dbg junk v n, WF v → fits n → ∃ v', A.resize dbg junk v n = .ok v' ∧ WF v' ∧ (els v').length = n
  resizeInit : ∀ dbg junk v n t, WF v → fits n → ∃ v', A.resizeInit dbg junk v n t = .ok v' ∧ WF v' ∧
    els v' = (els v).take n ++ List.replicate (n - (els v).length) t
  copy : ∀ junk v, WF v → ∃ w, A.copy junk v = .ok w ∧ WF w ∧ els w = els v
  assign : ∀ dbg junk v w, WF v → WF w → ∃ v', A.assign dbg junk v w = .ok v' ∧ WF v' ∧ els v' = els w
  swap : ∀ v w, WF v → WF w → ∃ v' w', A.swap v w = .ok (v', w') ∧ WF v' ∧ WF w' ∧ els v' = els w ∧ els w' = els v

theorem unbounded_laws : ArrLaws (unboundedImpl α) (fun _ => True) id (fun _ => True) where
  size _ _ := rfl
  index dbg v i x _ h := rd_eq_ok.2 h
  deref v i x _ h := rd_eq_ok.2 h
  store dbg v i t _ h := ⟨_, wr_ok h, trivial, rfl⟩
  put v i t _ h := ⟨_, wr_ok h, trivial, rfl⟩
  make dbg junk n _ := ⟨_, rfl, trivial, by simp⟩
  makeInit dbg junk n t _ := by
    obtain ⟨d, e1, e2, e3⟩ := BArr.fill_spec ((List.range n).map junk) 0 n t (by omega) (by simp)
    refine ⟨d, e1, trivial, List.ext_getElem? fun i => ?_⟩
    have := e3 i
    simp only [id]
    grind
  resize dbg junk v n _ _ := ⟨_, rfl, trivial, CVec.length_resizeRaw _ _ _⟩
  resizeInit dbg junk v n t _ _ := by
    by_cases h : n = v.length
    · refine ⟨v, by simp [unboundedImpl, h], trivial, ?_⟩
      subst h; simp
    · by_cases h1 : n < v.length
      · obtain ⟨d, e1, e2, e3⟩ := BArr.copy_spec ((List.range n).map junk) v n (by simp) (by omega)
        refine ⟨d, by simp [unboundedImpl, h, h1, e1], trivial, List.ext_getElem? fun i => ?_⟩
        have := e3 i
        simp only [id]
        grind
      · obtain ⟨d, e1, e2, e3⟩ := BArr.copy_spec ((List.range n).map junk) v v.length (by simp; omega) (by omega)
        obtain ⟨d', f1, f2, f3⟩ := BArr.fill_spec d v.length n t (by omega) (by simp at e2; omega)
        refine ⟨d', by simp [unboundedImpl, h, h1, e1, f1], trivial, List.ext_getElem? fun i => ?_⟩
        have := e3 i
        have := f3 i
        simp only [id]
        grind
  copy junk v _ := ⟨v, Values.arrCopy_ok _ _, trivial, rfl⟩
  assign dbg junk v w _ _ := ⟨w, Values.arrAssign_ok _ _ _, trivial, rfl⟩
  swap v w _ _ := ⟨w, v, rfl, trivial, trivial, rfl, rfl⟩

/-- The elements of a `bounded_array`. -/
def bels (a : BArr α) : List α := a.data.take a.size


theorem bels_get (a : BArr α) (i : Nat) : (bels a)[i]? = if i < a.size then a.data[i]? else none := by
  unfold bels; grind

theorem bels_length {N : Nat} {a : BArr α} (h : BArr.WF N a) : (bels a).length = a.size := by
  obtain ⟨h1, h2⟩ := h
  simp only [bels, List.length_take]; omega

theorem bels_lt {N : Nat} {a : BArr α} (h : BArr.WF N a) {i : Nat} {x : α} (hx : (bels a)[i]? = some x) : i < a.size ∧ a.data[i]? = some x := by
  rw [bels_get] at hx
  split at hx
  · exact ⟨by assumption, hx⟩
  · simp at hx

theorem bounded_laws (N : Nat) : ArrLaws (boundedImpl α N) (BArr.WF N) bels (fun n => n ≤ N) where
  size v h := (bels_length h).symm
  index dbg v i x h hx := by
    obtain ⟨h1, h2⟩ := bels_lt h hx
    simp only [boundedImpl, BArr.index, check_true h1, bind_ok, rd_eq_ok, h2]
  deref v i x h hx := by
    obtain ⟨h1, h2⟩ := bels_lt h hx
    simp only [boundedImpl, rd_eq_ok, h2]
  store dbg v i t h hi := by
    rw [bels_length h] at hi
    have hw : BArr.WF N v := h
    obtain ⟨h1, h2⟩ := h
    refine ⟨⟨v.size, v.data.set i t⟩, ?_, ⟨by simpa using h1, h2⟩, ?_⟩
    · simp only [boundedImpl, BArr.store, check_true hi, bind_ok, wr_ok (show i < v.data.length by omega)]
    · simp [bels, List.take_set]
  put v i t h hi := by
    rw [bels_length h] at hi
    obtain ⟨h1, h2⟩ := h
    refine ⟨⟨v.size, v.data.set i t⟩, ?_, ⟨by simpa using h1, h2⟩, ?_⟩
    · simp only [boundedImpl, bind_ok, wr_ok (show i < v.data.length by omega)]
    · simp [bels, List.take_set]
  make dbg junk n h := by
    have hw : BArr.WF N (⟨n, (List.range N).map junk⟩ : BArr α) := ⟨by simp, h⟩
    exact ⟨_, by simp only [boundedImpl, BArr.ctor, check_true h, bind_ok], hw, bels_length hw⟩
  makeInit dbg junk n t h := by
    have h : n ≤ N := h
    obtain ⟨d, e1, e2, e3⟩ := BArr.fill_spec ((List.range N).map junk) 0 n t (by omega) (by simp; omega)
    refine ⟨⟨n, d⟩, by simp only [boundedImpl, BArr.ctorInit, check_true h, bind_ok, e1], ⟨by simp [e2], h⟩, List.ext_getElem? fun i => ?_⟩
    rw [bels_get, e3]
    grind
  resize dbg junk v n h hn := by
    have hn : n ≤ N := hn
    have hw : BArr.WF N (⟨n, v.data⟩ : BArr α) := ⟨h.1, hn⟩
    exact ⟨_, by simp only [boundedImpl, BArr.resize, check_true hn, bind_ok], hw, bels_length hw⟩
  resizeInit dbg junk v n t h hn := by
    have hn : n ≤ N := hn
    have hl := bels_length h
    obtain ⟨h1, h2⟩ := h
    by_cases g : v.size < n
    · obtain ⟨d, e1, e2, e3⟩ := BArr.fill_spec v.data v.size n t (by omega) (by omega)
      refine ⟨⟨n, d⟩, by simp only [boundedImpl, BArr.resizeInit, check_true hn, bind_ok, g, if_true, gt_iff_lt, e1], ⟨by simp [e2, h1], hn⟩, List.ext_getElem? fun i => ?_⟩
      rw [bels_get, e3, hl]
      have := bels_get v i
      grind
    · refine ⟨⟨n, v.data⟩, by simp only [boundedImpl, BArr.resizeInit, check_true hn, bind_ok, gt_iff_lt, g, if_false], ⟨h1, hn⟩, List.ext_getElem? fun i => ?_⟩
      rw [bels_get, hl]
      have := bels_get v i
      grind
  copy junk v h := by
    have hl := bels_length h
    obtain ⟨h1, h2⟩ := h
    obtain ⟨d, e1, e2, e3⟩ := BArr.copy_spec ((List.range N).map junk) v.data v.size (by simp; omega) (by omega)
    refine ⟨⟨v.size, d⟩, by simp only [boundedImpl, BArr.copyCtor, e1, bind_ok], ⟨by simp [e2], h2⟩, List.ext_getElem? fun i => ?_⟩
    rw [bels_get, bels_get, e3]
    grind
  assign dbg junk v w h g := by
    obtain ⟨h1, h2⟩ := h
    obtain ⟨g1, g2⟩ := g
    obtain ⟨d, e1, e2, e3⟩ := BArr.copy_spec v.data w.data w.size (by omega) (by omega)
    refine ⟨⟨w.size, d⟩, by simp only [boundedImpl, BArr.assign, BArr.resize, check_true g2, e1, bind_ok], ⟨by simp [e2, h1], g2⟩, List.ext_getElem? fun i => ?_⟩
    rw [bels_get, bels_get, e3]
    grind
  swap v w h g := by
    cases he : v.data with
    | nil =>
      have n0 : N = 0 := by have := h.1; rw [he] at this; exact this.symm
      subst n0
      have a1 : v.size = 0 := by have := h.2; omega
      have a2 : w.size = 0 := by have := g.2; omega
      have a3 : w.data = [] := List.eq_nil_of_length_eq_zero g.1
      obtain ⟨x, y⟩ := v
      obtain ⟨z, u⟩ := w
      simp only at he a1 a2 a3
      subst he a1 a2 a3
      exact ⟨_, _, rfl, ⟨rfl, by simp⟩, ⟨rfl, by simp⟩, rfl, rfl⟩
    | cons z zs =>
      obtain ⟨x, y, e1, e2, e3, e4, e5, e6, e7⟩ := (C16_bounded_value_semantics false N v w h g (fun _ => z)).2.2.1
      refine ⟨x, y, e1, e2, e3, List.ext_getElem? fun i => ?_, List.ext_getElem? fun i => ?_⟩
      · rw [bels_get, bels_get, e4]
        by_cases hi : i < w.size
        · have := e6 i hi
          have a1 : i < x.data.length := by have := e2.1; have := e2.2; omega
          have a2 : i < w.data.length := by have := g.1; have := g.2; omega
          simp only [BArr.index, check_release, bind_ok, rd_ok a1, rd_ok a2, Except.ok.injEq] at this
          simp [hi, a1, a2, this]
        · simp [hi]
      · rw [bels_get, bels_get, e5]
        by_cases hi : i < v.size
        · have := e7 i hi
          have a1 : i < y.data.length := by have := e3.1; have := e3.2; omega
          have a2 : i < v.data.length := by have := h.1; have := h.2; omega
          simp only [BArr.index, check_release, bind_ok, rd_ok a1, rd_ok a2, Except.ok.injEq] at this
          simp [hi, a1, a2, this]
        · simp [hi]

variable {A : ArrImpl ρ α} {WF : ρ → Prop} {els : ρ → List α} {fits : Nat → Prop}

/-- The elements are `E` up to `k` old, from there on … the state of an element-wise loop: the first `k` elements done. -/
def Done (WF : ρ → Prop) (els : ρ → List α) (E : List α) (h : Nat → α → α) (k : Nat) (v : ρ) : Prop :=
  WF v ∧ (els v).length = E.length ∧ ∀ i, (els v)[i]? = if i < k then E[i]?.map (h i) else E[i]?

/-- `g` computes `h i x` for element `i` with value `x`, in every state of the loop over the elements `E`. -/
def Computes (WF : ρ → Prop) (els : ρ → List α) (E : List α) (g : ρ → Nat → α → M α) (h : Nat → α → α) : Prop :=
  ∀ w i x, WF w → (els w).length = E.length → (els w)[i]? = some x → g w i x = .ok (h i x)

theorem Done.step {E : List α} {h : Nat → α → α} {k : Nat} {v v' : ρ} (d : Done WF els E h k v) (hk : k < E.length) (w : WF v')
    (e : els v' = (els v).set k (h k E[k])) : Done WF els E h (k + 1) v' := by
  obtain ⟨d1, d2, d3⟩ := d
  refine ⟨w, by simp [e, d2], fun i => ?_⟩
  rw [e, List.getElem?_set]
  have := d3 i
  grind

theorem eachIndexed_ok (L : ArrLaws A WF els fits) (dbg : Bool) (g : ρ → Nat → α → M α) (h : Nat → α → α) (v : ρ) (hv : WF v)
    (hg : Computes WF els (els v) g h) : ∃ v', eachIndexed A dbg (els v).length g v = .ok v' ∧ Done WF els (els v) h (els v).length v' := by
  refine loop_inv (Done WF els (els v) h) ⟨hv, rfl, by simp⟩ fun k t hk d => ?_
  have hx : (els t)[k]? = some (els v)[k] := by rw [d.2.2]; simp [hk]
  obtain ⟨t', e1, e2, e3⟩ := L.store dbg t k (h k (els v)[k]) d.1 (by rw [d.2.1]; exact hk)
  refine ⟨t', ?_, d.step hk e2 e3⟩
  simp only [L.index dbg t k _ d.1 hx, bind_ok, hg t k _ d.1 d.2.1 hx, e1]

theorem deref_ok (L : ArrLaws A WF els fits) (dbg : Bool) {v : ρ} (hv : WF v) {k : Nat} {x : α} (hx : (els v)[k]? = some x) :
    deref A dbg v k = .ok x := by
  have hk : k < A.size v := by rw [L.size v hv]; exact (List.getElem?_eq_some_iff.1 hx).1
  simp only [deref, check_true hk, bind_ok, L.deref v k x hv hx]

theorem eachIterated_ok (L : ArrLaws A WF els fits) (dbg : Bool) (g : ρ → Nat → α → M α) (h : Nat → α → α) (v : ρ) (hv : WF v)
    (hg : Computes WF els (els v) g h) : ∃ v', eachIterated A dbg (els v).length g v = .ok v' ∧ Done WF els (els v) h (els v).length v' := by
  have hs : A.size v = (els v).length := L.size v hv
  simp only [eachIterated, check_true hs, bind_ok]
  refine loop_inv (Done WF els (els v) h) ⟨hv, rfl, by simp⟩ fun k t hk d => ?_
  have hx : (els t)[k]? = some (els v)[k] := by rw [d.2.2]; simp [hk]
  have hl : k < (els t).length := by rw [d.2.1]; exact hk
  have hl2 : k < A.size t := by rw [L.size t d.1]; exact hl
  obtain ⟨t', e1, e2, e3⟩ := L.put t k (h k (els v)[k]) d.1 hl
  refine ⟨t', ?_, d.step hk e2 e3⟩
  simp only [deref_ok L dbg d.1 hx, bind_ok, hg t k _ d.1 d.2.1 hx, derefPut, check_true hl2, e1]

theorem each_ok (L : ArrLaws A WF els fits) (dbg : Bool) (mode : ProdFn.Mode) (g : Bool → ρ → Nat → α → M α) (h : Nat → α → α) (v : ρ) (hv : WF v)
    (hg : ∀ it, Computes WF els (els v) (g it) h) :
    ∃ v', each A dbg mode (els v).length g v = .ok v' ∧ WF v' ∧ (els v').length = (els v).length ∧ ∀ i, (els v')[i]? = (els v)[i]?.map (h i) := by
  have fin : ∀ v', Done WF els (els v) h (els v).length v' → WF v' ∧ (els v').length = (els v).length ∧ ∀ i, (els v')[i]? = (els v)[i]?.map (h i) := by
    rintro v' ⟨d1, d2, d3⟩
    refine ⟨d1, d2, fun i => ?_⟩
    rw [d3]; grind
  cases mode with
  | indexing =>
    obtain ⟨v', e1, e2⟩ := eachIndexed_ok L dbg (g false) h v hv (hg false)
    exact ⟨v', e1, fin v' e2⟩
  | iterating =>
    obtain ⟨v', e1, e2⟩ := eachIterated_ok L dbg (g true) h v hv (hg true)
    exact ⟨v', e1, fin v' e2⟩
  | threshold b =>
    by_cases hb : b ≤ (els v).length
    · obtain ⟨v', e1, e2⟩ := eachIterated_ok L dbg (g true) h v hv (hg true)
      exact ⟨v', by simp only [each, hb, if_true, e1], fin v' e2⟩
    · obtain ⟨v', e1, e2⟩ := eachIndexed_ok L dbg (g false) h v hv (hg false)
      exact ⟨v', by simp only [each, hb, if_false, e1], fin v' e2⟩

/-- The vector object `v` stands for `l`. -/
def Rep (WF : ρ → Prop) (els : ρ → List α) (v : ρ) (l : List (Option α)) : Prop := WF v ∧ Shows (els v) l

theorem Rep.size (L : ArrLaws A WF els fits) {v : ρ} {l : List (Option α)} (h : Rep WF els v l) : A.size v = l.length := by
  rw [L.size v h.1, h.2.1]

theorem shows_set {E : List α} {l : List (Option α)} (h : Shows E l) (i : Nat) (t : α) : Shows (E.set i t) (l.set i (some t)) := by
  obtain ⟨h1, h2⟩ := h
  refine ⟨by simp [h1], fun j x hx => ?_⟩
  rw [List.getElem?_set] at hx ⊢
  have := h2 j x
  grind

theorem step_ok (L : ArrLaws A WF els fits) (dbg : Bool) (mode : ProdFn.Mode) (zero : α) (junk : Nat → α) (v : ρ) (l : List (Option α)) (o : VecOp α)
    (h : Rep WF els v l) (hl : legal fits l o) :
    ∃ v', DVec.step A dbg mode zero junk v o = .ok v' ∧ Rep WF els v' (VecSpec.step zero l o) := by
  have hs := h.size L
  have hlen : (els v).length = l.length := h.2.1
  obtain ⟨hv, hsh⟩ := h
  have hstore : ∀ i t, i < l.length → ∃ v', A.store dbg v i t = .ok v' ∧ Rep WF els v' (l.set i (some t)) := by
    intro i t hi
    obtain ⟨v', e1, e2, e3⟩ := L.store dbg v i t hv (by omega)
    exact ⟨v', e1, e2, e3 ▸ shows_set hsh i t⟩
  cases o with
  | set i t => exact hstore i t hl
  | erase i => exact hstore i zero hl
  | put i t =>
    have hl : i < l.length := hl
    have hi : i < (els v).length := by omega
    have hs : i < A.size v := by rw [L.size v hv]; exact hi
    obtain ⟨v', e1, e2, e3⟩ := L.put v i t hv hi
    refine ⟨v', by simp only [DVec.step, derefPut, check_true hs, bind_ok, e1], e2, by simp [VecSpec.step, e3, hlen], fun j x hx => ?_⟩
    rw [e3]
    simp only [VecSpec.step, List.getElem?_set] at hx ⊢
    have := hsh.2 j x
    grind
  | modify i f =>
    obtain ⟨x, hx⟩ := hl
    have hi : i < l.length := (List.getElem?_eq_some_iff.1 hx).1
    obtain ⟨v', e1, e2⟩ := hstore i (f x) hi
    refine ⟨v', by simp only [DVec.step, modify, L.index dbg v i x hv (hsh.2 i x hx), bind_ok, e1], ?_⟩
    have : VecSpec.step zero l (.modify i f) = l.set i (some (f x)) := by
      apply List.ext_getElem?
      intro j
      simp only [VecSpec.step, List.getElem?_modify, List.getElem?_set]
      grind
    rw [this]; exact e2
  | clear =>
    obtain ⟨v', e1, e2, e3, e4⟩ := loop_inv (f := fun k v => A.put v k zero) (n := A.size v) (s := v)
      (fun k t => WF t ∧ (els t).length = l.length ∧ ∀ i, i < k → (els t)[i]? = some zero) ⟨hv, hlen, by simp⟩ (by
        rintro k t hk ⟨g1, g2, g3⟩
        obtain ⟨t', f1, f2, f3⟩ := L.put t k zero g1 (by omega)
        refine ⟨t', f1, f2, by simp [f3, g2], fun i hi => ?_⟩
        rw [f3, List.getElem?_set]
        have := g3 i
        grind)
    refine ⟨v', e1, e2, by simp [VecSpec.step, e3], fun i x hx => ?_⟩
    have : i < l.length := by
      have := (List.getElem?_eq_some_iff.1 hx).1
      simpa [VecSpec.step] using this
    rw [e4 i (by omega)]
    simp [VecSpec.step, this] at hx
    simp [hx]
  | resize n p =>
    cases p with
    | false =>
      obtain ⟨v', e1, e2, e3⟩ := L.resize dbg junk v n hv hl
      refine ⟨v', e1, e2, by simp [VecSpec.step, e3], fun i x hx => ?_⟩
      simp only [VecSpec.step, List.getElem?_replicate] at hx
      split at hx <;> simp at hx
    | true =>
      obtain ⟨v', e1, e2, e3⟩ := L.resizeInit dbg junk v n zero hv hl
      refine ⟨v', e1, e2, by simp [VecSpec.step, e3, hlen], fun i x hx => ?_⟩
      have := hsh.2 i x
      simp only [VecSpec.step] at hx
      rw [e3, hlen]
      grind
  | scale f =>
    obtain ⟨v', e1, e2, e3, e4⟩ := each_ok L dbg mode (fun _ _ _ x => .ok (f x)) (fun _ x => f x) v hv (fun _ _ _ _ _ _ _ => rfl)
    refine ⟨v', by simpa only [DVec.step, scale, L.size v hv] using e1, e2, by simp [VecSpec.step, e3, hlen], fun i x hx => ?_⟩
    have := hsh.2 i
    rw [e4]
    simp only [VecSpec.step, List.getElem?_map, Option.map_eq_some_iff] at hx
    obtain ⟨o, ho, hx⟩ := hx
    obtain ⟨y, rfl, rfl⟩ := hx
    rw [this y ho, Option.map_some]
  | load w =>
    obtain ⟨v1, e1, e2, e3⟩ := L.resize dbg junk v w.length hv hl
    have hc : ∀ it : Bool, Computes WF els (els v1) (fun _ i _ => rd (dbg && !it) w i) (fun i x => (w[i]?).getD x) := by
      intro it u i x _ hu hx
      have hi : i < w.length := by have := (List.getElem?_eq_some_iff.1 hx).1; omega
      show rd (dbg && !it) w i = _
      rw [rd_ok hi]; simp [hi]
    obtain ⟨v', f1, f2, f3, f4⟩ := each_ok L dbg mode (fun it _ i _ => rd (dbg && !it) w i) _ v1 e2 hc
    have hz : A.size v1 = w.length := by rw [L.size v1 e2, e3]
    refine ⟨v', ?_, f2, by simp [VecSpec.step, f3, e3], fun i x hx => ?_⟩
    · simp only [DVec.step, load, e1, bind_ok, same, check_true hz, pure_eq_ok]
      rw [hz, ← e3]; exact f1
    · simp only [VecSpec.step, List.getElem?_map] at hx
      rw [f4]
      have hi : i < (els v1).length := by grind
      simp only [List.getElem?_eq_getElem hi, Option.map_some]
      grind
  | zip f w =>
    obtain ⟨hw, hsp⟩ := hl
    have hc : ∀ it : Bool, Computes WF els (els v) (fun _ i x => do let y ← rd (dbg && !it) w i; .ok (f x y))
        (fun i x => ((w[i]?).map (f x)).getD x) := by
      intro it u i x _ hu hx
      have hi : i < w.length := by have := (List.getElem?_eq_some_iff.1 hx).1; omega
      simp only [rd_ok hi, bind_ok]; simp [hi]
    obtain ⟨v', f1, f2, f3, f4⟩ := each_ok L dbg mode (fun it _ i x => do let y ← rd (dbg && !it) w i; .ok (f x y)) _ v hv hc
    have hz : A.size v = w.length := by omega
    refine ⟨v', ?_, f2, by simp [VecSpec.step, f3, hlen, hw], fun i x hx => ?_⟩
    · simp only [DVec.step, zip, bind_ok, same, check_true hz, pure_eq_ok]
      rw [L.size v hv]; exact f1
    · have hi : i < l.length := by
        have := (List.getElem?_eq_some_iff.1 hx).1
        simp [VecSpec.step] at this; omega
      obtain ⟨y, hy⟩ := hsp i hi
      have := hsh.2 i y hy
      rw [f4, this]
      simp only [VecSpec.step, List.getElem?_zipWith] at hx
      rw [hy] at hx
      have hiw : i < w.length := by omega
      simp only [List.getElem?_eq_getElem hiw, Option.map_some, Option.some.injEq] at hx ⊢
      simpa using hx
  | zipSelf f =>
    let zg : Bool → ρ → Nat → α → M α := fun it u i x => do
      let y ← if it then deref A dbg u i else A.index dbg u i
      .ok (f x y)
    have hc : ∀ it : Bool, Computes WF els (els v) (zg it) (fun _ x => f x x) := by
      intro it u i x hu _ hx
      cases it
      · simp only [zg, Bool.false_eq_true, if_false, L.index dbg u i x hu hx, bind_ok]
      · simp only [zg, if_true, deref_ok L dbg hu hx, bind_ok]
    obtain ⟨v', f1, f2, f3, f4⟩ := each_ok L dbg mode zg _ v hv hc
    refine ⟨v', ?_, f2, by simp [VecSpec.step, f3, hlen], fun i x hx => ?_⟩
    · simp only [DVec.step, zipSelf, bind_ok, same, check_True, pure_eq_ok]
      rw [L.size v hv]; exact f1
    · rw [f4]
      have := hsh.2 i
      simp only [VecSpec.step, List.getElem?_map, Option.map_eq_some_iff] at hx
      obtain ⟨o, ho, hx⟩ := hx
      obtain ⟨y, rfl, rfl⟩ := hx
      rw [this y ho, Option.map_some]

theorem vec_laws (L : ArrLaws A WF els fits) (dbg : Bool) (mode : ProdFn.Mode) (zero : α) :
    Values.Laws True (ops A dbg mode zero) (Rep WF els) (legal fits) (VecSpec.step zero) where
  step j v s o h hl := step_ok L dbg mode zero j v s o h hl
  copy _ j v s h := by
    obtain ⟨w, e1, e2, e3⟩ := L.copy j v h.1
    exact ⟨v, w, by simp only [ops, e1, bind_ok], h, e2, e3 ▸ h.2⟩
  assign j v w s t h1 h2 := by
    obtain ⟨v', e1, e2, e3⟩ := L.assign dbg j v w h1.1 h2.1
    exact ⟨v', e1, e2, e3 ▸ h2.2⟩
  selfAssign v s h := ⟨v, rfl, h⟩
  swap v w s t h1 h2 := by
    obtain ⟨v', w', e1, e2, e3, e4, e5⟩ := L.swap v w h1.1 h2.1
    exact ⟨v', w', e1, ⟨e2, e4 ▸ h2.2⟩, ⟨e3, e5 ▸ h1.2⟩⟩
  selfSwap v s h := ⟨v, rfl, h⟩


theorem ctor_ok (L : ArrLaws A WF els fits) (dbg : Bool) (junk : Nat → α) (c : VecCtor α) (hc : fits (start c).length) :
    ∃ v, ctor A dbg junk c = .ok v ∧ Rep WF els v (start c) := by
  cases c with
  | sized n =>
    simp only [start, List.length_replicate] at hc
    obtain ⟨v, e1, e2, e3⟩ := L.make dbg junk n hc
    refine ⟨v, e1, e2, by simp [start, e3], fun i x hx => ?_⟩
    simp only [start, List.getElem?_replicate] at hx
    split at hx <;> simp at hx
  | filled n t =>
    simp only [start, List.length_replicate] at hc
    obtain ⟨v, e1, e2, e3⟩ := L.makeInit dbg junk n t hc
    refine ⟨v, e1, e2, by simp [start, e3], fun i x hx => ?_⟩
    simp only [start, List.getElem?_replicate] at hx
    rw [e3, List.getElem?_replicate]
    split at hx <;> simp_all

/-- What the caller can see of the object `v`, by size, index and iterator, is `l`. -/
structure Looks (A : ArrImpl ρ α) (dbg : Bool) (v : ρ) (l : List (Option α)) : Prop where
  size : A.size v = l.length
  empty : isEmpty A v = true ↔ l = []
  element : ∀ (i : Nat) (x : α), l[i]? = some (some x) → get A dbg v i = .ok x
  forward : ∃ s, traverse A dbg v = .ok s ∧ Shows s l
  backward : ∃ s, traverseBack A dbg v = .ok s ∧ Shows s.reverse l
  beyond : ∀ i t, l.length ≤ i → get A true v i = .error .badIndex ∧ set A true v i t = .error .badIndex ∧ deref A true v i = .error .badIndex ∧
    derefPut A true v i t = .error .badIndex

theorem traverse_ok (L : ArrLaws A WF els fits) (dbg : Bool) {v : ρ} (hv : WF v) : traverse A dbg v = .ok (els v) := by
  obtain ⟨t, e1, e2⟩ := loop_inv (f := fun k (acc : List α) => (deref A dbg v k >>= fun x => .ok (acc ++ [x]) : M _)) (n := A.size v) (s := [])
    (fun k t => t = (els v).take k) (by simp) (by
      rintro k t hk rfl
      rw [L.size v hv] at hk
      refine ⟨_, by rw [deref_ok L dbg hv (List.getElem?_eq_getElem hk), bind_ok], ?_⟩
      rw [List.take_add_one]; simp [hk])
  rw [L.size v hv, List.take_length] at e2
  rw [← e2]; exact e1

theorem traverseBack_ok (L : ArrLaws A WF els fits) (dbg : Bool) {v : ρ} (hv : WF v) : traverseBack A dbg v = .ok (els v).reverse := by
  obtain ⟨t, e1, e2⟩ := loop_inv (f := fun k (acc : List α) => (deref A dbg v (A.size v - 1 - k) >>= fun x => .ok (acc ++ [x]) : M _)) (n := A.size v) (s := [])
    (fun k t => t = (els v).reverse.take k) (by simp) (by
      rintro k t hk rfl
      have hs := L.size v hv
      have hk2 : A.size v - 1 - k < (els v).length := by omega
      refine ⟨_, by rw [deref_ok L dbg hv (List.getElem?_eq_getElem hk2), bind_ok], ?_⟩
      have hk3 : k < (els v).length := by omega
      rw [List.take_add_one]
      simp [hk3, hs])
  rw [L.size v hv, ← List.length_reverse, List.take_length] at e2
  rw [← e2]; exact e1

theorem Rep.looks (L : ArrLaws A WF els fits) (hb : ∀ v i t, WF v → A.size v ≤ i → A.index true v i = .error .badIndex ∧ A.store true v i t = .error .badIndex)
    (dbg : Bool) {v : ρ} {l : List (Option α)} (h : Rep WF els v l) : Looks A dbg v l where
  size := h.size L
  empty := by
    simp only [isEmpty, h.size L, beq_iff_eq, List.length_eq_zero_iff]
  element i x hx := L.index dbg v i x h.1 (h.2.2 i x hx)
  forward := ⟨_, traverse_ok L dbg h.1, h.2⟩
  backward := ⟨_, traverseBack_ok L dbg h.1, by simpa using h.2⟩
  beyond i t hi := by
    have hs := h.size L
    have hn : ¬ i < A.size v := by omega
    obtain ⟨h1, h2⟩ := hb v i t h.1 (by omega)
    exact ⟨h1, h2, by simp only [deref, check_dbg_false hn, bind_error], by simp only [derefPut, check_dbg_false hn, bind_error]⟩

theorem unbounded_beyond (v : List α) (i : Nat) (t : α) (_ : True) (h : (unboundedImpl α).size v ≤ i) :
    (unboundedImpl α).index true v i = .error .badIndex ∧ (unboundedImpl α).store true v i t = .error .badIndex := by
  have h : v.length ≤ i := h
  simp [unboundedImpl, rd, wr, h]

theorem bounded_beyond (N : Nat) (v : BArr α) (i : Nat) (t : α) (_ : BArr.WF N v) (h : (boundedImpl α N).size v ≤ i) :
    (boundedImpl α N).index true v i = .error .badIndex ∧ (boundedImpl α N).store true v i t = .error .badIndex := by
  have h : ¬ i < v.size := by have h : v.size ≤ i := h; omega
  simp [boundedImpl, BArr.index, BArr.store, check_dbg_false h]

theorem program (L : ArrLaws A WF els fits) (hb : ∀ v i t, WF v → A.size v ≤ i → A.index true v i = .error .badIndex ∧ A.store true v i t = .error .badIndex)
    (dbg : Bool) (mode : ProdFn.Mode) (zero : α) (c : Nat → VecCtor α) (junk : Nat → Nat → α) (os : List (ValOp (VecOp α) × (Nat → α)))
    (hc : ∀ x, fits (start (c x)).length) (hl : ValSpec.legalRun (legal fits) (VecSpec.step zero) (fun x => start (c x)) (os.map (·.1))) :
    ∃ e0 e, (∀ x, ctor A dbg (junk x) (c x) = .ok (e0 x)) ∧ Values.run (ops A dbg mode zero) e0 os = .ok e ∧
      ∀ x, Looks A dbg (e x) (ValSpec.run (VecSpec.step zero) (fun x => start (c x)) (os.map (·.1)) x) := by
  have h0 : ∀ x, ∃ v, ctor A dbg (junk x) (c x) = .ok v ∧ Rep WF els v (start (c x)) := fun x => ctor_ok L dbg _ _ (hc x)
  let e0 := fun x => (h0 x).choose
  obtain ⟨e, e1, e2⟩ := (vec_laws L dbg mode zero).run os (e := e0) (fun x => (h0 x).choose_spec.2) hl (.inl trivial)
  exact ⟨e0, e, fun x => (h0 x).choose_spec.1, e1, fun x => (e2 x).looks L hb dbg⟩

end DVec
open DVec
variable {α : Type}

/-- **C133** (vector<T>).  Any number of vectors, each constructed with a size or with a size and a value; any program of element writes (by index or iterator), `erase_element`, `clear`, `resize`,
`v *= t`, assignments from and additions of other containers, `v += v`, copies, assignments and swaps; in every build and dispatch mode, whatever fresh memory holds: no
fault, and every vector then looks like the list of its elements, by size, index, forward and backward iteration; beyond the end every access is rejected in debug builds.
Not in it: elements that nobody has written are zero, which the documentation says and `C133_zero_initialised_refuted` denies. -/
theorem C133_vector_partial (dbg : Bool) (mode : ProdFn.Mode) (zero : α) (c : Nat → VecCtor α) (junk : Nat → Nat → α)
    (os : List (ValOp (VecOp α) × (Nat → α)))
    (hl : ValSpec.legalRun (legal fun _ => True) (VecSpec.step zero) (fun x => start (c x)) (os.map (·.1))) :
    ∃ e0 e, (∀ x, ctor (unboundedImpl α) dbg (junk x) (c x) = .ok (e0 x)) ∧ Values.run (ops (unboundedImpl α) dbg mode zero) e0 os = .ok e ∧
      ∀ x, Looks (unboundedImpl α) dbg (e x) (ValSpec.run (VecSpec.step zero) (fun x => start (c x)) (os.map (·.1)) x) :=
  program unbounded_laws unbounded_beyond dbg mode zero c junk os (fun _ => trivial) hl

/-- **C133** (vector<T, bounded_array<T, N>>, bounded_vector<T, N>).  The same for sizes up to `N`. -/
theorem C133_bounded_vector_partial (dbg : Bool) (N : Nat) (mode : ProdFn.Mode) (zero : α) (c : Nat → VecCtor α) (junk : Nat → Nat → α)
    (os : List (ValOp (VecOp α) × (Nat → α))) (hc : ∀ x, (start (c x)).length ≤ N)
    (hl : ValSpec.legalRun (legal fun n => n ≤ N) (VecSpec.step zero) (fun x => start (c x)) (os.map (·.1))) :
    ∃ e0 e, (∀ x, ctor (boundedImpl α N) dbg (junk x) (c x) = .ok (e0 x)) ∧ Values.run (ops (boundedImpl α N) dbg mode zero) e0 os = .ok e ∧
      ∀ x, Looks (boundedImpl α N) dbg (e x) (ValSpec.run (VecSpec.step zero) (fun x => start (c x)) (os.map (·.1)) x) :=
  program (bounded_laws N) (bounded_beyond N) dbg mode zero c junk os hc hl

/-- **C133** (rejections).  A bounded vector that would have to hold more than `N` elements is rejected in debug builds: at construction, `resize` and assignment; so is
adding a vector of another size, to either kind of vector, with iteration or indexing. -/
theorem C133_rejects (N : Nat) (mode : ProdFn.Mode) (zero : α) (junk : Nat → α) (v : Storage.BArr α) (u : List α) :
    (∀ c, N < (start c).length → ctor (boundedImpl α N) true junk c = .error .badSize) ∧
    (∀ n p, N < n → DVec.step (boundedImpl α N) true mode zero junk v (.resize n p) = .error .badSize) ∧
    (∀ w, N < w.length → DVec.step (boundedImpl α N) true mode zero junk v (.load w) = .error .badSize) ∧
    (∀ f w, w.length ≠ v.size → DVec.step (boundedImpl α N) true mode zero junk v (.zip f w) = .error .badArgument) ∧
    (∀ f w, w.length ≠ u.length → DVec.step (unboundedImpl α) true mode zero junk u (.zip f w) = .error .badArgument) := by
  refine ⟨?_, ?_, ?_, ?_, ?_⟩
  · intro c hc
    cases c with
    | sized n =>
      have hn : ¬ n ≤ N := by simp [start] at hc; omega
      simp only [DVec.ctor, boundedImpl, Storage.BArr.ctor, check_dbg_false hn, bind_error]
    | filled n t =>
      have hn : ¬ n ≤ N := by simp [start] at hc; omega
      simp only [DVec.ctor, boundedImpl, Storage.BArr.ctorInit, check_dbg_false hn, bind_error]
  · intro n p h
    have hn : ¬ n ≤ N := by omega
    cases p <;> simp [DVec.step, resize, boundedImpl, Storage.BArr.resize, Storage.BArr.resizeInit, check_dbg_false hn]
  · intro w h
    have hn : ¬ w.length ≤ N := by omega
    simp only [DVec.step, load, boundedImpl, Storage.BArr.resize, check_dbg_false hn, bind_error]
  · intro f w h
    have hn : ¬ v.size = w.length := fun e => h e.symm
    have e : same true v.size w.length = .error .badArgument := by simp only [same, check_dbg_false hn, bind_error]
    show (same true v.size w.length >>= _) = _
    rw [e]; rfl
  · intro f w h
    have hn : ¬ u.length = w.length := fun e => h e.symm
    have e : same true u.length w.length = .error .badArgument := by simp only [same, check_dbg_false hn, bind_error]
    show (same true u.length w.length >>= _) = _
    rw [e]; rfl

/-- **C133** (refuted part).  "By default, its elements are initialized to 0" (vector.hpp:80-81) is false for elements with a trivial constructor: `vector<int> v (1)` may hold
something else, in either storage. -/
theorem C133_zero_initialised_refuted :
    (¬ ∀ (junk : Nat → Int) (n : Nat), ∃ v, ctor (unboundedImpl Int) false junk (.sized n) = .ok v ∧ Looks (unboundedImpl Int) false v (documentedStart 0 (.sized n))) ∧
    (¬ ∀ (junk : Nat → Int) (n : Nat), n ≤ 4 → ∃ v, ctor (boundedImpl Int 4) false junk (.sized n) = .ok v ∧
      Looks (boundedImpl Int 4) false v (documentedStart 0 (.sized n))) := by
  constructor
  · intro h
    obtain ⟨v, e1, e2⟩ := h (fun _ => 7) 1
    have := e2.element 0 0 rfl
    have e1 : [(7 : Int)] = v := by injection e1
    subst e1
    exact absurd this (by decide)
  · intro h
    obtain ⟨v, e1, e2⟩ := h (fun _ => 7) 1 (by decide)
    have := e2.element 0 0 rfl
    have e1 : (⟨1, [7, 7, 7, 7]⟩ : Storage.BArr Int) = v := by injection e1
    subst e1
    exact absurd this (by decide)

/-- **C133** (the documented part that holds).  Where the memory is cleared first, as `unbounded_array` does for elements whose constructor is not trivial (storage.hpp:72-79), a
vector constructed with a size is zero. -/
theorem C133_zero_initialised_partial (dbg : Bool) (zero : α) (n : Nat) :
    ∃ v, ctor (unboundedImpl α) dbg (fun _ => zero) (.sized n) = .ok v ∧ Looks (unboundedImpl α) dbg v (documentedStart zero (.sized n)) := by
  refine ⟨List.replicate n zero, ?_, Rep.looks unbounded_laws unbounded_beyond dbg ⟨trivial, ?_, ?_⟩⟩
  · simp only [DVec.ctor, unboundedImpl]
    congr 1
    apply List.ext_getElem? 
    intro i
    simp only [List.getElem?_map, List.getElem?_range, List.getElem?_replicate]
    grind
  · simp [documentedStart]
  · intro i x hx
    simp only [documentedStart, List.getElem?_replicate, id] at hx ⊢
    split at hx <;> simp_all

/-- **C133** (example).  `bounded_vector<int, 4> x (2, 5), y (0); y = {1, 2}; x += y; x += x; y.resize (4); y (3) = 9; z (y); swap (x, y); y.resize (3, false); y (0) = 8` is a legal
program and its outcome is not trivial. -/
theorem C133_demo :
    let os : List (ValOp (VecOp Int)) := [.op 1 (.load [1, 2]), .op 0 (.zip (· + ·) [1, 2]), .op 0 (.zipSelf (· + ·)), .op 1 (.resize 4 true), .op 1 (.set 3 9), .copy 2 1,
      .swap 0 1, .op 1 (.resize 3 false), .op 1 (.set 0 8)]
    let s0 : Nat → List (Option Int) := fun x => start (if x = 0 then .filled 2 5 else .sized 0)
    ValSpec.legalRun (legal fun n => n ≤ 4) (VecSpec.step 0) s0 os ∧
    ValSpec.run (VecSpec.step 0) s0 os 0 = [some 1, some 2, some 0, some 9] ∧
    ValSpec.run (VecSpec.step 0) s0 os 1 = [some 8, none, none] ∧
    ValSpec.run (VecSpec.step 0) s0 (os.take 3) 0 = [some 12, some 14] := by
  have sp : ∀ (a b : Int), Specified [some a, some b] := by
    intro a b i hi
    match i, hi with
    | 0, _ => exact ⟨a, rfl⟩
    | 1, _ => exact ⟨b, rfl⟩
  refine ⟨⟨(by decide : 2 ≤ 4), ⟨rfl, sp 5 5⟩, sp 6 7, (by decide : 4 ≤ 4), (by decide : 3 < 4), (by decide : 2 ≠ 1), trivial, (by decide : 3 ≤ 4), (by decide : 0 < 3), trivial⟩, by decide, by decide, by decide⟩

end Ublas
