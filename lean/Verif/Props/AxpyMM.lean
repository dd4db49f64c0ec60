import Verif.Props.Axpy
import Verif.Model.Banded
/-! # C33 (matrix times matrix), C34 -/
namespace Ublas
open Finset
variable {σ R : Type} [CommRing R] [DecidableEq R]

/-- Reading `m (i, j)` returns the element, for every position of `In`. -/
def MT.ReadsAll (T : MT σ R) (Rep : MRep σ R) : Prop :=
  ∀ s r c w Ls S, Rep s r c w Ls S → ∀ k l, k < r → l < c → T.get s k l = .ok (w k l)

/-- The inner iterators of a target whose lines have no elements visit nothing. -/
def MT.EmptyLines (T : MT σ R) (Rep : MRep σ R) : Prop := ∀ s r w Ls S, Rep s r 0 w Ls S → ∀ k, k < r → T.its s k = []

namespace Axpy

/-- State `s` stands for the matrix `w` with `r` lines of `c` elements. -/
def MHolds (Rep : MRep σ R) (r c : Nat) (s : σ) (w : Nat × Nat → R) : Prop :=
  ∃ w0 Ls S, Rep s r c w0 Ls S ∧ ∀ k l, k < r → l < c → w0 k l = w (k, l)

variable {T : MT σ R} {Rep : MRep σ R} {sc : StorageCat} {r c : Nat}

theorem MHolds.congr {s : σ} {w w' : Nat × Nat → R} (h : MHolds Rep r c s w) (e : ∀ k l, k < r → l < c → w (k, l) = w' (k, l)) : MHolds Rep r c s w' := by
  obtain ⟨w0, Ls, S, h1, h2⟩ := h
  exact ⟨w0, Ls, S, h1, fun k l hk hl => (h2 k l hk hl).trans (e k l hk hl)⟩

theorem mgrows_of (hT : T.Supports sc Rep) (hsc : sc ≠ .packed ∧ sc ≠ .packedProxy) : T.Grows Rep := by
  obtain ⟨hL, hT⟩ := hT
  cases sc with
  | packed => exact absurd rfl hsc.1
  | packedProxy => exact absurd rfl hsc.2
  | dense => exact MT.Full.grows hL hT.1
  | denseProxy => exact MT.Full.grows hL hT.1
  | sparse => exact hT.1
  | sparseProxy => exact hT.1

theorem macc_lawful (hg : T.Grows Rep) (hr : T.ReadsAll Rep) : T.acc.Lawful (fun p => p.1 < r ∧ p.2 < c) (MHolds Rep r c) where
  get s w h p hp := by
    obtain ⟨w0, Ls, S, h1, h2⟩ := h
    rw [← h2 p.1 p.2 hp.1 hp.2]; exact hr s r c w0 Ls S h1 p.1 p.2 hp.1 hp.2
  set s w h p hp t := by
    obtain ⟨w0, Ls, S, h1, h2⟩ := h
    obtain ⟨s', Ls', S', e, h', _⟩ := hg s r c w0 Ls S h1 p.1 p.2 hp.1 hp.2 t
    refine ⟨s', e, _, Ls', S', h', fun k l hk hl => ?_⟩
    rw [Function.update_apply]
    by_cases hkl : (k, l) = p
    · rw [if_pos hkl]; subst hkl; simp [update2]
    · rw [if_neg hkl, ← h2 k l hk hl]
      simp only [update2]
      rw [if_neg]
      rintro ⟨rfl, rfl⟩; exact hkl rfl

theorem mzero_presents (r c : Nat) : (MExp.zero r c : MExp R).Presents r c (fun _ _ => 0) where
  sizes := ⟨rfl, rfl⟩
  at_ _ _ _ _ := rfl
  sorted := List.Pairwise.nil
  lt _ h := by cases h
  inner _ h := by cases h
  skipped _ _ _ _ _ := rfl
  packed h := absurd rfl h
  dense h := by cases h

theorem massign_holds (hT : T.Supports sc Rep) (hsc : sc ≠ .packed ∧ sc ≠ .packedProxy) (dbg : Bool) (mode : ProdFn.Mode) (F : AssignF) {e : MExp R} {a : Nat → Nat → R}
    (he : e.Presents r c a) {s : σ} {w : Nat × Nat → R} (h : MHolds Rep r c s w) :
    ∃ s', MAssign.assign dbg mode sc T F e s = .ok s' ∧ MHolds Rep r c s' (fun p => F.apply (w p) (a p.1 p.2)) := by
  obtain ⟨w0, Ls, S, h1, h2⟩ := h
  obtain ⟨s', w', Ls', S', e1, h3, h4⟩ := C68_matrix_assign dbg mode sc F e r c a s w0 Ls S hT hsc he h1
  exact ⟨s', e1, w', Ls', S', h3, fun k l hk hl => by rw [h4 k l hk hl, h2 k l hk hl]⟩

theorem initMat_holds (hT : T.Supports sc Rep) (hsc : sc ≠ .packed ∧ sc ≠ .packedProxy) (dbg : Bool) (mode : ProdFn.Mode) (init : Bool)
    {s : σ} {w : Nat × Nat → R} (h : MHolds Rep r c s w) :
    ∃ s', initMat dbg mode sc T init r c s = .ok s' ∧ MHolds Rep r c s' (fun p => if init then 0 else w p) := by
  cases init with
  | false => exact ⟨s, rfl, by simpa using h⟩
  | true =>
    obtain ⟨s', e1, h'⟩ := massign_holds hT hsc dbg mode .assign (mzero_presents r c) h
    exact ⟨s', by simpa [initMat] using e1, by simpa [AssignF.apply] using h'⟩

/-- Assigning to one line of a dense matrix. -/
theorem line_assign (hL : T.Lawful Rep) (hf : T.Full Rep) (hc : T.cat = .dense) (he0 : T.EmptyLines Rep) (dbg : Bool) (mode : ProdFn.Mode) (F : AssignF) {e : Seq R} {b : Nat → R}
    (he : e.Presents c b) {k : Nat} (hk : k < r) {s : σ} {w : Nat × Nat → R} (h : MHolds Rep r c s w) :
    ∃ s', VAssign.assign dbg mode .denseProxy (T.line k) F (VExpr.const e) s = .ok s' ∧
      MHolds Rep r c s' (fun p => if p.1 = k then F.apply (w p) (b p.2) else w p) := by
  obtain ⟨w0, Ls, S, h1, h2⟩ := h
  by_cases hc0 : c = 0
  · subst hc0
    have hl : (T.line k).Lawful (fun s n (_ : Nat → R) Sl => n = 0 ∧ Sl = [] ∧ ∃ w0 Ls S, Rep s r 0 w0 Ls S) :=
      { size := by
          rintro s n w S ⟨rfl, rfl, w0, Ls, S, h⟩
          exact (hL.sizes _ _ _ _ _ _ h).2
        its := by
          rintro s n w S ⟨rfl, rfl, w0, Ls, S, h⟩
          exact he0 s r w0 Ls S h k hk
        sorted := by
          rintro s n w S ⟨rfl, rfl, -⟩
          exact List.Pairwise.nil
        lt := by
          rintro s n w S ⟨rfl, rfl, -⟩ i hi
          cases hi
        off := by
          rintro s n w S ⟨rfl, rfl, -⟩ i hi
          cases hi
        get := by
          rintro s n w S ⟨rfl, rfl, -⟩ i hi
          cases hi
        put := by
          rintro s n w S ⟨rfl, rfl, -⟩ i hi
          cases hi
        consec := by
          rintro s n w S ⟨rfl, rfl, -⟩ _
          exact ⟨0, rfl⟩ }
    have hfl : (T.line k).Full (fun s n (_ : Nat → R) Sl => n = 0 ∧ Sl = [] ∧ ∃ w0 Ls S, Rep s r 0 w0 Ls S) :=
      { all := by
          rintro s n w S ⟨rfl, rfl, -⟩
          rfl
        ref := by
          rintro s n w S ⟨rfl, rfl, -⟩ i hi
          cases hi }
    obtain ⟨s', w', S', e1, ⟨_, _, w1, Ls1, S1, h3⟩, _⟩ := C44_assign_every_element dbg mode .denseProxy F e 0 b s (fun _ => 0) []
      (T := T.line k) (Rep := fun s n (_ : Nat → R) Sl => n = 0 ∧ Sl = [] ∧ ∃ w0 Ls S, Rep s r 0 w0 Ls S) ⟨hl, hfl, hc⟩ (by simp) (he.reads _) ⟨rfl, rfl, w0, Ls, S, h1⟩
    exact ⟨s', e1, w1, Ls1, S1, h3, fun k l _ hl => absurd hl (by omega)⟩
  · have hkm : k ∈ Ls := by rw [(hf.all _ _ _ _ _ _ h1).1 hc0]; simpa using hk
    obtain ⟨s', w', S', e1, h3, h4⟩ := C44_assign_every_element dbg mode .denseProxy F e c b s (w0 k) (S k) (T := T.line k) (Rep := MAssign.LRep Rep r w0 Ls S k)
      ⟨MAssign.line_lawful hL hkm w0, MAssign.line_full hL hf hkm w0, hc⟩ (by simp) (he.reads _) (MAssign.lrep_of h1 k)
    refine ⟨s', e1, _, Ls, S, h3.2, fun i l hi hl => ?_⟩
    by_cases hik : i = k
    · subst hik
      simp only [Function.update_self, if_true]
      rw [h4 l hl, h2 i l hi hl]
    · simp only [Function.update_of_ne hik, if_neg hik]
      exact h2 i l hi hl

theorem denseMM_holds (hL : T.Lawful Rep) (hf : T.Full Rep) (hc : T.cat = .dense) (he0 : T.EmptyLines Rep) (dbg : Bool) (mode : ProdFn.Mode) {m : Nat} {coef : Nat → Nat → M R}
    {a : Nat → Nat → R} (ha : ∀ i j, i < r → j < m → coef i j = .ok (a i j)) {line : Nat → Seq R} {b : Nat → Nat → R} (hb : ∀ j, j < m → (line j).Presents c (b j))
    {s : σ} {w : Nat × Nat → R} (h : MHolds Rep r c s w) :
    ∃ s', denseMM dbg mode T r m coef line s = .ok s' ∧ MHolds Rep r c s' (fun p => w p + ∑ i ∈ range r, ∑ j ∈ range m, if p.1 = i then a i j * b j p.2 else 0) := by
  refine loop_add (g := fun i p => ∑ j ∈ range m, if p.1 = i then a i j * b j p.2 else 0) ?_ h
  intro i s w hi hs
  refine loop_add (g := fun j p => if p.1 = i then a i j * b j p.2 else 0) ?_ hs
  intro j s w hj hs
  obtain ⟨s', e1, h'⟩ := line_assign hL hf hc he0 dbg mode .plus (C48_unary (a i j * ·) (hb j hj) (.inr (mul_zero _))) hi hs
  refine ⟨s', by simp only [ha i j hi hj, bind_ok, e1], h'.congr fun k l _ _ => ?_⟩
  simp only [AssignF.apply]
  split <;> simp

theorem sparseMM_holds {V : Acc σ (Nat × Nat) R} {H : σ → (Nat × Nat → R) → Prop} {In : Nat × Nat → Prop} (hV : V.Lawful In H) {m : Nat} {e : MExp R} {a : Nat → Nat → R}
    (he : e.Presents r m a) {line : Nat → Seq R} {b : Nat → Nat → R} (hb : ∀ j, j < m → (line j).Presents c (b j)) (other : Nat → Nat → Bool)
    (hIn : ∀ k l, k < r → l < c → other k l = true → In (k, l)) {s : σ} {w : Nat × Nat → R} (h : H s w) :
    ∃ s', sparseMM other e.lines line V s = .ok s' ∧ H s' (fun p => w p +
      (e.lines.map fun q => (q.2.map fun t => ((line t.1).els.map fun u => if other q.1 u.1 = true ∧ p = (q.1, u.1) then t.2 * u.2 else 0).sum).sum).sum) := by
  refine foldlM_add (Rep := H) (g := fun q p => (q.2.map fun t => ((line t.1).els.map fun u => if other q.1 u.1 = true ∧ p = (q.1, u.1) then t.2 * u.2 else 0).sum).sum) e.lines s w ?_ h
  intro s w q hq hs
  refine foldlM_add (Rep := H) (g := fun t p => ((line t.1).els.map fun u => if other q.1 u.1 = true ∧ p = (q.1, u.1) then t.2 * u.2 else 0).sum) q.2 s w ?_ hs
  intro s w t ht hs
  refine foldlM_add (Rep := H) (g := fun u p => if other q.1 u.1 = true ∧ p = (q.1, u.1) then t.2 * u.2 else 0) (line t.1).els s w ?_ hs
  intro s w u hu hs
  by_cases ho : other q.1 u.1 = true
  · simp only [ho, if_true, true_and]
    exact hV.add hs (hIn _ _ (he.lt q hq) ((hb t.1 ((he.inner q hq).2 t ht).1).vals u hu).1 ho) _
  · simp only [ho]
    exact ⟨s, rfl, by simpa using hs⟩

/-- The sums the sparse loops add, in closed form. -/
theorem sparse_total {m : Nat} {e : MExp R} {a : Nat → Nat → R} (he : e.Presents r m a) {line : Nat → Seq R} {b : Nat → Nat → R}
    (hb : ∀ j, j < m → (line j).Presents c (b j)) (other : Nat → Nat → Bool) {k l : Nat} (hk : k < r) (hl : l < c) :
    (e.lines.map fun q => (q.2.map fun t => ((line t.1).els.map fun u => if other q.1 u.1 = true ∧ (k, l) = (q.1, u.1) then t.2 * u.2 else 0).sum).sum).sum =
      if other k l then ∑ j ∈ range m, a k j * b j l else 0 := by
  have h1 : ∀ q ∈ e.lines, (q.2.map fun t => ((line t.1).els.map fun u => if other q.1 u.1 = true ∧ (k, l) = (q.1, u.1) then t.2 * u.2 else 0).sum).sum =
      (q.2.map fun p => if k = q.1 then p.2 * (if other k l then b p.1 l else 0) else 0).sum := by
    intro q hq
    refine congrArg _ (List.map_congr_left fun t ht => ?_)
    have hb' := hb t.1 ((he.inner q hq).2 t ht).1
    by_cases hkq : k = q.1
    · rw [if_pos hkq]
      rw [show ((line t.1).els.map fun u => if other q.1 u.1 = true ∧ (k, l) = (q.1, u.1) then t.2 * u.2 else 0) =
        (line t.1).els.map fun u => t.2 * ((if u.1 = l then u.2 else 0) * if other k l then 1 else 0) from List.map_congr_left fun u _ => by
          by_cases hul : u.1 = l
          · subst hul hkq; by_cases ho : other q.1 u.1 = true <;> simp [ho]
          · have : ¬ l = u.1 := fun e => hul e.symm
            simp [hul, this]]
      rw [List.sum_map_mul_left, List.sum_map_mul_right]
      have := hb'.val hl
      rw [ProdFn.val] at this
      rw [this]
      split <;> simp
    · rw [if_neg hkq]
      refine List.sum_eq_zero fun y hy => ?_
      obtain ⟨u, _, rfl⟩ := List.mem_map.1 hy
      rw [if_neg]
      rintro ⟨_, e⟩
      exact hkq (Prod.mk.inj e).1
  rw [List.map_congr_left h1, major_sum he (fun j => if other k l then b j l else 0) hk, dot]
  split <;> simp

/-- **C33** (matrix times matrix, unrestricted or with a triangular restriction).  `axpy_prod (A, B, m[, TRI], init)`: every element of a sparse `m` that satisfies the
restriction, and every element of a dense `m` (where the restriction is ignored), becomes (0 or the old value) + (A B)(i, j); the others become 0 or keep their value. -/
theorem C33_matrix_matrix (dbg : Bool) (mode : ProdFn.Mode) (hT : T.Supports sc Rep) (hsc : sc ≠ .packed ∧ sc ≠ .packedProxy) (hr : T.ReadsAll Rep) (he0 : T.EmptyLines Rep)
    (o : Orient) (other : Nat → Nat → Bool) (A B : MSeq R) (p q m : Nat) (a b : Nat → Nat → R) (hA : A.Presents p m a) (hB : B.Presents m q b) (ls : List Nat)
    (hls : match o with | .row => Outer A.cat p m a ls | .col => Outer B.cat q m (fun j i => b i j) ls) (init : Bool) (s : σ) (w : Nat → Nat → R) (Ls : List Nat) (S : Nat → List Nat)
    (h : Rep s (o.sizeM p q) (o.sizem p q) w Ls S) :
    ∃ s' w' Ls' S', matMat dbg mode sc T o other A B ls init s = .ok s' ∧ Rep s' (o.sizeM p q) (o.sizem p q) w' Ls' S' ∧
      ∀ i j, i < p → j < q → w' (o.indexM i j) (o.indexm i j) = (if init then 0 else w (o.indexM i j) (o.indexm i j)) +
        if other i j = true ∨ sc = .dense ∨ sc = .denseProxy then ∑ k ∈ range m, a i k * b k j else 0 := by
  obtain ⟨s1, e1, h1⟩ := initMat_holds hT hsc dbg mode init (r := o.sizeM p q) (c := o.sizem p q) (w := fun p => w p.1 p.2) ⟨w, Ls, S, h, fun _ _ _ _ => rfl⟩
  have hV := macc_lawful (r := o.sizeM p q) (c := o.sizem p q) (mgrows_of hT hsc) hr
  have hs1 : A.size1 = p := hA.size1
  have hs2 : A.size2 = m := hA.size2
  have hs3 : B.size1 = m := hB.size1
  have hs4 : B.size2 = q := hB.size2
  simp only [matMat, hs1, hs2, hs3, hs4, e1, bind_ok]
  have hA' : ∀ i j, i < p → j < m → A.at_ i j = .ok (a i j) := fun i j hi hj => (hA.rows i hi).at_ j hj
  have hB' : ∀ j i, j < q → i < m → B.at_ i j = .ok (b i j) := fun j i hj hi => (hB.rows i hi).at_ j hj
  have hdr : ∀ {r : Nat} {k : Nat} (f : Nat → Nat → R), k < r → (∑ i ∈ range r, ∑ j ∈ range m, if k = i then f i j else 0) = ∑ j ∈ range m, f k j := by
    intro r k f hk
    rw [sum_comm]
    refine sum_congr rfl fun j _ => ?_
    simp [hk]
  -- dense, by orientation
  have hrow : o = .row → T.Full Rep → T.cat = .dense → ∃ s' w' Ls' S', denseMM dbg mode T p m A.at_ B.row s1 = .ok s' ∧ Rep s' p q w' Ls' S' ∧
      ∀ i j, i < p → j < q → w' i j = (if init then 0 else w i j) + ∑ k ∈ range m, a i k * b k j := by
    rintro rfl hf hc
    obtain ⟨s', e2, w', Ls', S', h2, h3⟩ := denseMM_holds hT.1 hf hc he0 dbg mode hA' (fun j hj => hB.rows j hj) h1
    refine ⟨s', w', Ls', S', e2, h2, fun i j hi hj => ?_⟩
    rw [h3 i j hi hj]
    beta_reduce
    exact congrArg _ (hdr (r := p) (fun i k => a i k * b k j) hi)
  have hcol : o = .col → T.Full Rep → T.cat = .dense → ∃ s' w' Ls' S', denseMM dbg mode T q m (fun j i => B.at_ i j) A.col s1 = .ok s' ∧ Rep s' q p w' Ls' S' ∧
      ∀ i j, i < p → j < q → w' j i = (if init then 0 else w j i) + ∑ k ∈ range m, a i k * b k j := by
    rintro rfl hf hc
    obtain ⟨s', e2, w', Ls', S', h2, h3⟩ := denseMM_holds hT.1 hf hc he0 dbg mode (a := fun j i => b i j) hB' (fun j hj => hA.cols j hj) h1
    refine ⟨s', w', Ls', S', e2, h2, fun i j hi hj => ?_⟩
    rw [h3 j i hj hi]
    beta_reduce
    rw [show (∑ k ∈ range m, a i k * b k j) = ∑ k ∈ range m, b k j * a i k from sum_congr rfl fun _ _ => mul_comm _ _]
    exact congrArg _ (hdr (r := q) (fun j k => b k j * a i k) hj)
  -- sparse, by orientation
  have hrow' : o = .row → ∃ s' w' Ls' S', sparseMM other (MExp.byRows A ls).lines B.row T.acc s1 = .ok s' ∧ Rep s' p q w' Ls' S' ∧
      ∀ i j, i < p → j < q → w' i j = (if init then 0 else w i j) + if other i j then ∑ k ∈ range m, a i k * b k j else 0 := by
    rintro rfl
    have he := hA.byRows hls.sorted hls.lt hls.skip hls.packed hls.dense
    obtain ⟨s', e2, w', Ls', S', h2, h3⟩ := sparseMM_holds hV he (fun j hj => hB.rows j hj) other (fun k l hk hl _ => ⟨hk, hl⟩) h1
    refine ⟨s', w', Ls', S', e2, h2, fun i j hi hj => ?_⟩
    rw [h3 i j hi hj]
    beta_reduce
    rw [sparse_total he (fun j hj => hB.rows j hj) other hi hj]
  have hcol' : o = .col → ∃ s' w' Ls' S', sparseMM (fun k l => other l k) (MExp.byCols B ls).lines A.col T.acc s1 = .ok s' ∧ Rep s' q p w' Ls' S' ∧
      ∀ i j, i < p → j < q → w' j i = (if init then 0 else w j i) + if other i j then ∑ k ∈ range m, a i k * b k j else 0 := by
    rintro rfl
    have he := hB.byCols hls.sorted hls.lt hls.skip hls.packed hls.dense
    obtain ⟨s', e2, w', Ls', S', h2, h3⟩ := sparseMM_holds hV he (fun j hj => hA.cols j hj) (fun k l => other l k) (fun k l hk hl _ => ⟨hk, hl⟩) h1
    refine ⟨s', w', Ls', S', e2, h2, fun i j hi hj => ?_⟩
    rw [h3 j i hj hi]
    beta_reduce
    rw [sparse_total he (fun j hj => hA.cols j hj) (fun k l => other l k) hj hi]
    simp only [mul_comm]
  cases sc with
  | packed => exact absurd rfl hsc.1
  | packedProxy => exact absurd rfl hsc.2
  | dense =>
    cases o with
    | row => simpa [Orient.indexM, Orient.indexm, Orient.sizeM, Orient.sizem] using hrow rfl hT.2.1 hT.2.2.2
    | col => simpa [Orient.indexM, Orient.indexm, Orient.sizeM, Orient.sizem] using hcol rfl hT.2.1 hT.2.2.2
  | denseProxy =>
    cases o with
    | row => simpa [Orient.indexM, Orient.indexm, Orient.sizeM, Orient.sizem] using hrow rfl hT.2.1 hT.2.2
    | col => simpa [Orient.indexM, Orient.indexm, Orient.sizeM, Orient.sizem] using hcol rfl hT.2.1 hT.2.2
  | sparse =>
    cases o with
    | row => simpa [Orient.indexM, Orient.indexm, Orient.sizeM, Orient.sizem] using hrow' rfl
    | col => simpa [Orient.indexM, Orient.indexm, Orient.sizeM, Orient.sizem] using hcol' rfl
  | sparseProxy =>
    cases o with
    | row => simpa [Orient.indexM, Orient.indexm, Orient.sizeM, Orient.sizem] using hrow' rfl
    | col => simpa [Orient.indexM, Orient.indexm, Orient.sizeM, Orient.sizem] using hcol' rfl

end Axpy
end Ublas
