import Verif.Model.AxpyCheck
import Verif.Spec.AxpyCheck
import Verif.Props.TypeCheck
import Verif.Props.Opb
import Verif.Props.AxpySparse
/-! # C98: the self-checks of axpy_prod and opb_prod in debug builds -/
namespace Ublas.Axpy
open Finset Norms
variable {σ R K : Type} [CommRing R] [DecidableEq R] [CommRing K] [LinearOrder K] [IsStrictOrderedRing K] {tc : TypeCheck R K}

theorem vnorm1_ok {n : Nat} {f : Nat → M R} {a : Nat → R} (hf : ∀ k, k < n → f k = .ok (a k)) :
    norm1 tc.abs .indexing (TypeCheck.vecByIndex n f) = .ok (∑ i ∈ range n, tc.abs (a i)) := by
  simp only [norm1, evaluate, TypeCheck.vecByIndex, indexed, if_true]
  rw [loop_sum (f := fun i => tc.abs (a i)) (fun i t hi => by rw [hf i hi, bind_ok]), zero_add]

theorem blank_length (junk : Nat → R) (n : Nat) : (blank junk n).length = n := by simp [blank]

theorem initVec_false (dbg : Bool) (mode : ProdFn.Mode) (sc : StorageCat) (T : VT σ R) (n : Nat) (s : σ) : initVec dbg mode sc T false n s = .ok s := rfl
theorem initMat_false (dbg : Bool) (mode : ProdFn.Mode) (sc : StorageCat) (T : MT σ R) (r c : Nat) (s : σ) : initMat dbg mode sc T false r c s = .ok s := rfl

section vec
variable {T : VT σ R} {Rep : σ → Nat → (Nat → R) → List Nat → Prop} {sc : StorageCat}

/-- The guarded vector product compares what the target shows with the old value plus the product. -/
theorem guardVec_ok (hT : T.Lawful Rep) (hr : T.ReadsAll Rep) (mode : ProdFn.Mode) (junk : Nat → R) {A : MSeq R} {x : Seq R} {n : Nat} {pr : Nat → M R} {p : Nat → R}
    (hp : ∀ i, i < n → pr i = .ok (p i)) {b1 b2 : K} (h1 : matNorm1 tc.abs A = .ok b1) (h2 : norm1 tc.abs mode x = .ok b2) {run : σ → M σ} {s s' : σ} {w w' : Nat → R} {S S' : List Nat}
    (h : Rep s n w S) (e : run s = .ok s') (h' : Rep s' n w' S') :
    guardVec tc mode T junk A x n pr run s =
      if ∑ i ∈ range n, tc.abs (w' i - (w i + p i)) ≤ (tc.eps + tc.eps) * (∑ i ∈ range n, tc.abs (w i) + b1 * b2) then .ok s' else .error .internalLogic := by
  obtain ⟨c1, c2, e1, e2, h3⟩ := vcopy_ok (blank_length junk n) (fun k hk => hr s n w S h k hk) .plus (e := ⟨n, .dense, [], pr⟩) (c := p) rfl hp
  simp only [guardVec, hT.size s n w S h, e1, e2, bind_ok, h1, h2, e]
  rw [vnorm1_ok (a := w) (fun k hk => hr s n w S h k hk)]
  simp only [bind_ok]
  rw [vnorm1_ok (a := fun k => w' k - (w k + p k)) (fun k hk => by simp only [hr s' n w' S' h' k hk, h3 k hk, bind_ok]; rfl)]
  simp only [bind_ok]
  split
  · rename_i hd; rw [check_true hd, bind_ok]
  · rename_i hd; rw [check_dbg_false hd, bind_error]

theorem guardVec_passes (hs : tc.Sound) (hT : T.Lawful Rep) (hr : T.ReadsAll Rep) (mode : ProdFn.Mode) (junk : Nat → R) {A : MSeq R} {x : Seq R} {n : Nat} {pr : Nat → M R} {p : Nat → R}
    (hp : ∀ i, i < n → pr i = .ok (p i)) {b1 b2 : K} (h1 : matNorm1 tc.abs A = .ok b1) (h2 : norm1 tc.abs mode x = .ok b2) (hb1 : 0 ≤ b1) (hb2 : 0 ≤ b2)
    {run : σ → M σ} {s s' : σ} {w w' : Nat → R} {S S' : List Nat} (h : Rep s n w S) (e : run s = .ok s') (h' : Rep s' n w' S') (hw : ∀ i, i < n → w' i = w i + p i) :
    guardVec tc mode T junk A x n pr run s = run s := by
  rw [guardVec_ok hT hr mode junk hp h1 h2 h e h', if_pos, e]
  rw [sum_eq_zero fun i hi => by rw [hw i (mem_range.1 hi), sub_self, hs.zero]]
  exact mul_nonneg (add_nonneg hs.eps hs.eps) (add_nonneg (sum_nonneg fun _ _ => hs.nonneg _) (mul_nonneg hb1 hb2))

theorem mnorm_ok (hs : tc.Sound) {A : MSeq R} {r c : Nat} {a : Nat → Nat → R} (h1 : A.size1 = r) (h2 : A.size2 = c) (hA : ∀ i j, i < r → j < c → A.at_ i j = .ok (a i j)) :
    ∃ t, matNorm1 tc.abs A = .ok t ∧ OneNorm tc.abs r c a t ∧ 0 ≤ t := by
  obtain ⟨t, e, h⟩ : ∃ t, matNorm1 tc.abs A = .ok t ∧ OneNorm tc.abs r c a t := by
    simp only [matNorm1, h1, h2]
    refine loop_max (fun j _ => sum_nonneg fun i _ => hs.nonneg _) fun j t hj => ?_
    rw [loop_sum (f := fun i => tc.abs (a i j)) (fun i u hi => by rw [hA i j hi hj, bind_ok]), bind_ok, zero_add]
  exact ⟨t, e, h, IsMax.nonneg (fun _ _ => sum_nonneg fun _ _ => hs.nonneg _) h⟩

theorem xnorm_ok (hs : tc.Sound) (mode : ProdFn.Mode) {x : Seq R} {n : Nat} {v : Nat → R} (hx : x.Presents n v) : ∃ t, norm1 tc.abs mode x = .ok t ∧ 0 ≤ t :=
  ⟨∑ i ∈ range n, tc.abs (v i), C46_norm_1 hs.zero mode hx, sum_nonneg fun _ _ => hs.nonneg _⟩

theorem byIndex_ok {x y : Seq R} {n : Nat} {u v : Nat → R} (h1 : x.size = n) (h2 : y.size = n) (hx : ∀ k, k < n → x.at_ k = .ok (u k)) (hy : ∀ k, k < n → y.at_ k = .ok (v k)) :
    ProdFn.byIndex true x y = .ok (∑ k ∈ range n, u k * v k) := by
  simp only [ProdFn.byIndex, same, h1, h2, check_True, bind_ok, Nat.min_self, pure_eq_ok]
  obtain ⟨t, e, hi⟩ := loop_inv (f := fun k t => (do
    let a ← x.at_ k
    let b ← y.at_ k
    .ok (t + a * b) : M R)) (n := n) (s := (0 : R)) (fun k t => t = ∑ j ∈ range k, u j * v j) (by simp) (fun k t hk ht => by
      subst ht
      exact ⟨_, by simp only [hx k hk, hy k hk, bind_ok], (sum_range_succ _ _).symm⟩)
  rw [e, hi]

/-- **C98** `axpy_prod (A, x, v, init)` of any matrix and vector expressions into any dense or sparse vector or view: the self-check never raises, so a debug build gives the same
result with and without it. -/
theorem C98_matrix_vector (hs : tc.Sound) (mode : ProdFn.Mode) (hT : T.Supports sc Rep) (hsc : sc ≠ .packed ∧ sc ≠ .packedProxy) (hr : T.ReadsAll Rep) (junk : Nat → R) (o : Orient) (A : MSeq R)
    (r c : Nat) (a : Nat → Nat → R) (hA : A.Presents r c a) (ls : List Nat)
    (hls : match o with | .row => Outer A.cat r c a ls | .col => Outer A.cat c r (fun j i => a i j) ls)
    (x : Seq R) (v : Nat → R) (hx : x.Presents c v) (init : Bool) (s : σ) (w : Nat → R) (S : List Nat) (h : Rep s r w S) :
    matVecDbg tc mode sc T junk o A ls x init s = matVec true mode sc T o A ls x init s := by
  obtain ⟨s1, e1, w1, S1, h1, _⟩ := initVec_holds hT hsc true mode init (n := r) ⟨w, S, h, fun _ _ => rfl⟩
  obtain ⟨s2, w2, S2, e2, h2, h3⟩ := C33_matrix_vector true mode hT hsc hr o A r c a hA ls hls x v hx false s1 w1 S1 h1
  obtain ⟨b1, n1, _, z1⟩ := mnorm_ok hs hA.size1 hA.size2 (fun i j hi hj => (hA.rows i hi).at_ j hj)
  obtain ⟨b2, n2, z2⟩ := xnorm_ok hs mode hx
  have hz : A.size1 = r := hA.size1
  have key : matVec true mode sc T o A ls x init s = matVec true mode sc T o A ls x false s1 := by
    simp only [matVec, hz, e1, bind_ok, initVec_false]
  rw [key]
  simp only [matVecDbg, hz, e1, bind_ok]
  exact guardVec_passes hs hT.1 hr mode junk (p := fun i => ∑ j ∈ range c, a i j * v j) (fun i hi => (hA.rows i hi).byIndex hx true)
    n1 n2 z1 z2 h1 e2 h2 (fun i hi => by rw [h3 i hi]; simp)


/-- **C98** `axpy_prod (x, A, v, init)`: the self-check never raises. -/
theorem C98_vector_matrix (hs : tc.Sound) (mode : ProdFn.Mode) (hT : T.Supports sc Rep) (hsc : sc ≠ .packed ∧ sc ≠ .packedProxy) (hr : T.ReadsAll Rep) (junk : Nat → R) (o : Orient) (A : MSeq R)
    (r c : Nat) (a : Nat → Nat → R) (hA : A.Presents r c a) (ls : List Nat)
    (hls : match o with | .row => Outer A.cat r c a ls | .col => Outer A.cat c r (fun j i => a i j) ls)
    (x : Seq R) (v : Nat → R) (hx : x.Presents r v) (init : Bool) (s : σ) (w : Nat → R) (S : List Nat) (h : Rep s c w S) :
    vecMatDbg tc mode sc T junk o A ls x init s = vecMat true mode sc T o A ls x init s := by
  obtain ⟨s1, e1, w1, S1, h1, _⟩ := initVec_holds hT hsc true mode init (n := c) ⟨w, S, h, fun _ _ => rfl⟩
  obtain ⟨s2, w2, S2, e2, h2, h3⟩ := C33_vector_matrix true mode hT hsc hr o A r c a hA ls hls x v hx false s1 w1 S1 h1
  obtain ⟨b1, n1, _, z1⟩ := mnorm_ok hs hA.size1 hA.size2 (fun i j hi hj => (hA.rows i hi).at_ j hj)
  obtain ⟨b2, n2, z2⟩ := xnorm_ok hs mode hx
  have hz : A.size2 = c := hA.size2
  have key : vecMat true mode sc T o A ls x init s = vecMat true mode sc T o A ls x false s1 := by
    simp only [vecMat, hz, e1, bind_ok, initVec_false]
  rw [key]
  simp only [vecMatDbg, hz, e1, bind_ok]
  exact guardVec_passes hs hT.1 hr mode junk (p := fun j => ∑ i ∈ range r, v i * a i j) (fun j hj => hx.byIndex (hA.cols j hj) true)
    n1 n2 z1 z2 h1 e2 h2 (fun i hi => by rw [h3 i hi]; simp)

/-- **C98** `axpy_prod (compressed_matrix, x, v, init)`: the self-check never raises. -/
theorem C98_compressed_vector (hs : tc.Sound) (mode : ProdFn.Mode) (hT : T.Supports sc Rep) (hsc : sc ≠ .packed ∧ sc ≠ .packedProxy) (hr : T.ReadsAll Rep) (junk : Nat → R) (o : Orient) (A : CMat R)
    (sp : SparseSpec.CMatS R) (hA : CMat.Inv o 0 A sp) (x : Seq R) (v : Nat → R) (hx : x.Presents sp.cols v) (init : Bool) (s : σ) (w : Nat → R) (S : List Nat) (h : Rep s sp.rows w S) :
    compressedVecDbg tc mode sc T junk o A x init s = compressedVec true mode sc T o A x init s := by
  obtain ⟨y1, y2, y3, _⟩ := hA.observes true o 0 0
  obtain ⟨s1, e1, w1, S1, h1, _⟩ := initVec_holds hT hsc true mode init (n := sp.rows) ⟨w, S, h, fun _ _ => rfl⟩
  obtain ⟨s2, w2, S2, e2, h2, h3⟩ := C33_compressed_vector true mode hT hsc hr o A sp hA x v hx false s1 w1 S1 h1
  have hat : ∀ i j, i < sp.rows → j < sp.cols → (TypeCheck.byIndex A.size1 A.size2 (A.get true o 0 0)).at_ i j = .ok ((sp.val (i, j)).getD 0) := y3
  obtain ⟨b1, n1, _, z1⟩ := mnorm_ok (A := TypeCheck.byIndex A.size1 A.size2 (A.get true o 0 0)) hs y1 y2 hat
  obtain ⟨b2, n2, z2⟩ := xnorm_ok hs mode hx
  have key : compressedVec true mode sc T o A x init s = compressedVec true mode sc T o A x false s1 := by
    simp only [compressedVec, y1, e1, bind_ok, initVec_false]
  rw [key]
  unfold compressedVecDbg
  rw [show initVec true mode sc T init A.size1 s = .ok s1 by rw [y1]; exact e1, bind_ok]
  have := guardVec_passes hs hT.1 hr mode junk (p := fun i => ∑ j ∈ range sp.cols, (sp.val (i, j)).getD 0 * v j)
    (pr := ProdFn.mv1At true (TypeCheck.byIndex A.size1 A.size2 (A.get true o 0 0)) x) (n := sp.rows)
    (fun i hi => byIndex_ok (x := MSeq.row _ i) y2 hx.size (fun k hk => hat i k hi hk) hx.at_)
    n1 n2 z1 z2 h1 e2 h2 (fun i hi => by rw [h3 i hi]; simp)
  rw [← y1] at this
  exact this

/-- **C98** `axpy_prod (x, compressed_matrix, v, init)`: the self-check never raises. -/
theorem C98_vector_compressed (hs : tc.Sound) (mode : ProdFn.Mode) (hT : T.Supports sc Rep) (hsc : sc ≠ .packed ∧ sc ≠ .packedProxy) (hr : T.ReadsAll Rep) (junk : Nat → R) (o : Orient) (A : CMat R)
    (sp : SparseSpec.CMatS R) (hA : CMat.Inv o 0 A sp) (x : Seq R) (v : Nat → R) (hx : x.Presents sp.rows v) (init : Bool) (s : σ) (w : Nat → R) (S : List Nat) (h : Rep s sp.cols w S) :
    vecCompressedDbg tc mode sc T junk o A x init s = vecCompressed true mode sc T o A x init s := by
  obtain ⟨y1, y2, y3, _⟩ := hA.observes true o 0 0
  obtain ⟨s1, e1, w1, S1, h1, _⟩ := initVec_holds hT hsc true mode init (n := sp.cols) ⟨w, S, h, fun _ _ => rfl⟩
  obtain ⟨s2, w2, S2, e2, h2, h3⟩ := C33_vector_compressed true mode hT hsc hr o A sp hA x v hx false s1 w1 S1 h1
  have hat : ∀ i j, i < sp.rows → j < sp.cols → (TypeCheck.byIndex A.size1 A.size2 (A.get true o 0 0)).at_ i j = .ok ((sp.val (i, j)).getD 0) := y3
  obtain ⟨b1, n1, _, z1⟩ := mnorm_ok (A := TypeCheck.byIndex A.size1 A.size2 (A.get true o 0 0)) hs y1 y2 hat
  obtain ⟨b2, n2, z2⟩ := xnorm_ok hs mode hx
  have key : vecCompressed true mode sc T o A x init s = vecCompressed true mode sc T o A x false s1 := by
    simp only [vecCompressed, y2, e1, bind_ok, initVec_false]
  rw [key]
  unfold vecCompressedDbg
  rw [show initVec true mode sc T init A.size2 s = .ok s1 by rw [y2]; exact e1, bind_ok]
  have := guardVec_passes hs hT.1 hr mode junk (p := fun j => ∑ i ∈ range sp.rows, v i * (sp.val (i, j)).getD 0)
    (pr := ProdFn.mv2At true x (TypeCheck.byIndex A.size1 A.size2 (A.get true o 0 0))) (n := sp.cols)
    (fun j hj => byIndex_ok (y := MSeq.col _ j) hx.size y1 hx.at_ (fun k hk => hat k j hk hj))
    n1 n2 z1 z2 h1 e2 h2 (fun i hi => by rw [h3 i hi]; simp)
  rw [← y2] at this
  exact this

end vec

section mat
variable {T : MT σ R} {Rep : MRep σ R} {sc : StorageCat}

theorem majorNorm1_ok (hs : tc.Sound) (o : Orient) {p q : Nat} {f : Nat → Nat → M R} {a : Nat → Nat → R} (hf : ∀ i j, i < p → j < q → f (o.indexM i j) (o.indexm i j) = .ok (a i j)) :
    ∃ t, majorNorm1 tc o (TypeCheck.byIndex (o.sizeM p q) (o.sizem p q) f) = .ok t ∧ OneNorm tc.abs p q a t ∧ 0 ≤ t := by
  cases o with
  | row => exact mnorm_ok hs rfl rfl hf
  | col =>
    obtain ⟨t, e, h⟩ : ∃ t, majorNorm1 tc .col (TypeCheck.byIndex q p f) = .ok t ∧ OneNorm tc.abs p q a t := by
      simp only [majorNorm1, TypeCheck.byIndex, matNormInf]
      refine loop_max (fun j _ => sum_nonneg fun i _ => hs.nonneg _) fun j t hj => ?_
      rw [loop_sum (f := fun i => tc.abs (a i j)) (fun i u hi => by rw [show f j i = _ from hf i j hi hj, bind_ok]), bind_ok, zero_add]
    exact ⟨t, e, h, IsMax.nonneg (fun _ _ => sum_nonneg fun _ _ => hs.nonneg _) h⟩

theorem indexM_indexM (o : Orient) (i j : Nat) : o.indexM (o.indexM i j) (o.indexm i j) = i ∧ o.indexm (o.indexM i j) (o.indexm i j) = j := by
  cases o <;> exact ⟨rfl, rfl⟩

theorem major_lt (o : Orient) {p q k l : Nat} (hk : k < o.sizeM p q) (hl : l < o.sizem p q) : o.indexM k l < p ∧ o.indexm k l < q := by
  cases o <;> first | exact ⟨hk, hl⟩ | exact ⟨hl, hk⟩

theorem major_lt' (o : Orient) {p q i j : Nat} (hi : i < p) (hj : j < q) : o.indexM i j < o.sizeM p q ∧ o.indexm i j < o.sizem p q := by
  cases o <;> first | exact ⟨hi, hj⟩ | exact ⟨hj, hi⟩

/-- The guarded matrix product compares what the target shows with the old value plus the product. -/
theorem guardMat_ok (hs : tc.Sound) (hT : T.Lawful Rep) (hr : T.ReadsAll Rep) (o : Orient) (junk : Nat → R) {A B : MSeq R} {p q m : Nat} {a b : Nat → Nat → R} (hA : A.Presents p m a)
    (hB : B.Presents m q b) {run : σ → M σ} {s s' : σ} {w w' : Nat → Nat → R} {Ls Ls' : List Nat} {S S' : Nat → List Nat} (h : Rep s (o.sizeM p q) (o.sizem p q) w Ls S) (e : run s = .ok s')
    (h' : Rep s' (o.sizeM p q) (o.sizem p q) w' Ls' S') :
    ∃ d b0 b1 b2, OneNorm tc.abs p q (fun i j => w' (o.indexM i j) (o.indexm i j) - (w (o.indexM i j) (o.indexm i j) + ∑ k ∈ range m, a i k * b k j)) d ∧
      OneNorm tc.abs p q (fun i j => w (o.indexM i j) (o.indexm i j)) b0 ∧ OneNorm tc.abs p m a b1 ∧ OneNorm tc.abs m q b b2 ∧ 0 ≤ b0 + b1 * b2 ∧
      guardMat tc T o junk A B run s = if d ≤ (tc.eps + tc.eps) * (b0 + b1 * b2) then .ok s' else .error .internalLogic := by
  have hz1 : A.size1 = p := hA.size1
  have hz2 : B.size2 = q := hB.size2
  obtain ⟨t1, t2⟩ := hT.sizes _ _ _ _ _ _ h
  obtain ⟨c1, c2, e1, e2, h3⟩ := copy_ok (blank_length junk (o.sizeM p q * o.sizem p q)) (fun k l hk hl => hr _ _ _ _ _ _ h k l hk hl) .plus
    (e := ⟨o.sizeM p q, o.sizem p q, .dense, [], fun k l => ProdFn.mmAt true A B (o.indexM k l) (o.indexm k l)⟩) (a := fun k l => ∑ x ∈ range m, a (o.indexM k l) x * b x (o.indexm k l))
    ⟨rfl, rfl⟩ (fun k l hk hl => (hA.rows _ (major_lt o hk hl).1).byIndex (hB.cols _ (major_lt o hk hl).2) true)
  obtain ⟨b0, n0, m0, z0⟩ := majorNorm1_ok hs o (p := p) (q := q) (f := T.get s) (a := fun i j => w (o.indexM i j) (o.indexm i j))
    (fun i j hi hj => hr _ _ _ _ _ _ h _ _ (major_lt' o hi hj).1 (major_lt' o hi hj).2)
  obtain ⟨b1, n1, m1, z1⟩ := mnorm_ok hs hA.size1 hA.size2 (fun i j hi hj => (hA.rows i hi).at_ j hj)
  obtain ⟨b2, n2, m2, z2⟩ := mnorm_ok hs hB.size1 hB.size2 (fun i j hi hj => (hB.rows i hi).at_ j hj)
  obtain ⟨d, n3, m3, _⟩ := majorNorm1_ok hs o (p := p) (q := q) (f := fun k l => do
      let x ← T.get s' k l
      let y ← (MAssign.copyOf (o.sizeM p q) (o.sizem p q)).get c2 k l
      .ok (x - y)) (a := fun i j => w' (o.indexM i j) (o.indexm i j) - (w (o.indexM i j) (o.indexm i j) + ∑ k ∈ range m, a i k * b k j))
    (fun i j hi hj => by
      have := major_lt' o hi hj
      simp only [hr _ _ _ _ _ _ h' _ _ this.1 this.2, h3 _ _ this.1 this.2, bind_ok, indexM_indexM]
      rfl)
  refine ⟨d, b0, b1, b2, m3, m0, m1, m2, add_nonneg z0 (mul_nonneg z1 z2), ?_⟩
  simp only [guardMat, t1, t2, hz1, hz2, e1, e2, bind_ok, n0, n1, n2, e, n3]
  split
  · rename_i hd; rw [check_true hd, bind_ok]
  · rename_i hd; rw [check_dbg_false hd, bind_error]

theorem OneNorm.zero (hs : tc.Sound) {r c : Nat} {f : Nat → Nat → R} {t : K} (h : OneNorm tc.abs r c f t) (hf : ∀ k l, k < r → l < c → f k l = 0) : t = 0 :=
  IsMax.zero (fun j hj => sum_eq_zero fun i hi => by rw [hf i j (mem_range.1 hi) hj, hs.zero]) h

theorem OneNorm.le (hs : tc.Sound) {r c : Nat} {f : Nat → Nat → R} {t : K} (h : OneNorm tc.abs r c f t) {i j : Nat} (hi : i < r) (hj : j < c) : tc.abs (f i j) ≤ t := by
  rcases h with ⟨h, _⟩ | ⟨_, h⟩
  · omega
  · exact le_trans (single_le_sum (f := fun i => tc.abs (f i j)) (fun _ _ => hs.nonneg _) (mem_range.2 hi)) (h j hj)

theorem OneNorm.congr {abs : R → K} {r c : Nat} {f g : Nat → Nat → R} {t : K} (h : OneNorm abs r c f t) (hf : ∀ k l, k < r → l < c → f k l = g k l) : OneNorm abs r c g t := by
  have : ∀ j, j < c → (∑ i ∈ range r, abs (f i j)) = ∑ i ∈ range r, abs (g i j) := fun j hj => sum_congr rfl fun i hi => by rw [hf i j (mem_range.1 hi) hj]
  rcases h with ⟨h1, h2⟩ | ⟨⟨j, hj, h1⟩, h2⟩
  · exact .inl ⟨h1, h2⟩
  · exact .inr ⟨⟨j, hj, (this j hj).symm.trans h1⟩, fun k hk => (this k hk).symm.trans_le (h2 k hk)⟩

/-- **C98** `axpy_prod (A, B, m, init)`, and with a triangular restriction for dense `m` (which ignores it): the self-check never raises. -/
theorem C98_matrix_matrix (hs : tc.Sound) (mode : ProdFn.Mode) (hT : T.Supports sc Rep) (hsc : sc ≠ .packed ∧ sc ≠ .packedProxy) (hr : T.ReadsAll Rep) (he0 : T.EmptyLines Rep) (junk : Nat → R)
    (o : Orient) (other : Nat → Nat → Bool) (A B : MSeq R) (p q m : Nat) (a b : Nat → Nat → R) (hA : A.Presents p m a) (hB : B.Presents m q b) (ls : List Nat)
    (hls : match o with | .row => Outer A.cat p m a ls | .col => Outer B.cat q m (fun j i => b i j) ls) (init : Bool) (s : σ) (w : Nat → Nat → R) (Ls : List Nat) (S : Nat → List Nat)
    (h : Rep s (o.sizeM p q) (o.sizem p q) w Ls S) (hu : (∀ i j, i < p → j < q → other i j = true) ∨ sc = .dense ∨ sc = .denseProxy) :
    matMatDbg tc mode sc T junk o other A B ls init s = matMat true mode sc T o other A B ls init s := by
  obtain ⟨s1, e1, w1, L1, S1, h1, _⟩ := initMat_holds hT hsc true mode init (r := o.sizeM p q) (c := o.sizem p q) (w := fun p => w p.1 p.2) ⟨w, Ls, S, h, fun _ _ _ _ => rfl⟩
  obtain ⟨s2, w2, L2, S2, e2, h2, h3⟩ := C33_matrix_matrix true mode hT hsc hr he0 o other A B p q m a b hA hB ls hls false s1 w1 L1 S1 h1
  have hz1 : A.size1 = p := hA.size1
  have hz2 : B.size2 = q := hB.size2
  have key : matMat true mode sc T o other A B ls init s = matMat true mode sc T o other A B ls false s1 := by
    simp only [matMat, hz1, hz2, e1, bind_ok, initMat_false]
  rw [key]
  simp only [matMatDbg, hz1, hz2, e1, bind_ok]
  obtain ⟨d, b0, b1, b2, m1, _, _, _, hb, e3⟩ := guardMat_ok hs hT.1 hr o junk hA hB h1 e2 h2
  have hd : d = 0 := OneNorm.zero hs m1 fun i j hi hj => by
    have hc : other i j = true ∨ sc = .dense ∨ sc = .denseProxy := hu.imp (fun hu => hu i j hi hj) id
    rw [h3 i j hi hj]
    simp only [hc, if_true, Bool.false_eq_true, if_false, sub_self]
  rw [e3, e2, hd, if_pos (mul_nonneg (add_nonneg hs.eps hs.eps) hb)]

/-- **C98** `opb_prod (A, B, m, init)`: the self-check never raises. -/
theorem C98_opb (hs : tc.Sound) (hsc : sc = .dense ∨ sc = .denseProxy) (hT : T.Supports sc Rep) (hr : T.ReadsAll Rep) (junk : Nat → R)
    (o : Orient) (A B : MSeq R) (p q m : Nat) (a b : Nat → Nat → R) (hA : A.Presents p m a) (hB : B.Presents m q b) (init : Bool) (s : σ) (w : Nat → Nat → R) (Ls : List Nat) (S : Nat → List Nat)
    (h : Rep s (o.sizeM p q) (o.sizem p q) w Ls S) :
    opbDbg tc .indexing sc T o junk A B init s = opb true .indexing sc T o junk A B init s := by
  have hp : sc ≠ .packed ∧ sc ≠ .packedProxy := by rcases hsc with rfl | rfl <;> simp
  obtain ⟨s1, e1, w1, L1, S1, h1, _⟩ := initMat_holds hT hp true .indexing init (r := o.sizeM p q) (c := o.sizem p q) (w := fun p => w p.1 p.2) ⟨w, Ls, S, h, fun _ _ _ _ => rfl⟩
  obtain ⟨s2, w2, L2, S2, e2, h2, h3⟩ := C34_opb_prod_partial true sc hsc hT o junk A B p q m a b hA hB false s1 w1 L1 S1 h1
  have hz1 : A.size1 = p := hA.size1
  have hz2 : B.size2 = q := hB.size2
  have key : opb true .indexing sc T o junk A B init s = opb true .indexing sc T o junk A B false s1 := by
    simp only [opb, hz1, hz2, e1, bind_ok, initMat_false]
  rw [key]
  simp only [opbDbg, hz1, hz2, e1, bind_ok]
  obtain ⟨d, b0, b1, b2, m1, _, _, _, hb, e3⟩ := guardMat_ok hs hT.1 hr o junk hA hB h1 e2 h2
  have hd : d = 0 := OneNorm.zero hs m1 fun i j hi hj => by rw [h3 i j hi hj]; simp
  rw [e3, e2, hd, if_pos (mul_nonneg (add_nonneg hs.eps hs.eps) hb)]

/-- What the self-check does with a triangular restriction and a sparse target: it measures the part of the product the restriction excludes. -/
theorem restricted (hs : tc.Sound) (mode : ProdFn.Mode) (hT : T.Supports sc Rep) (hsc : sc = .sparse ∨ sc = .sparseProxy) (hr : T.ReadsAll Rep) (he0 : T.EmptyLines Rep) (junk : Nat → R)
    (o : Orient) (other : Nat → Nat → Bool) (A B : MSeq R) (p q m : Nat) (a b : Nat → Nat → R) (hA : A.Presents p m a) (hB : B.Presents m q b) (ls : List Nat)
    (hls : match o with | .row => Outer A.cat p m a ls | .col => Outer B.cat q m (fun j i => b i j) ls) (init : Bool) (s : σ) (w : Nat → Nat → R) (Ls : List Nat) (S : Nat → List Nat)
    (h : Rep s (o.sizeM p q) (o.sizem p q) w Ls S) :
    ∃ d b0 b1 b2, OneNorm tc.abs p q (fun i j => if other i j then 0 else -∑ k ∈ range m, a i k * b k j) d ∧
      OneNorm tc.abs p q (fun i j => if init then 0 else w (o.indexM i j) (o.indexm i j)) b0 ∧ OneNorm tc.abs p m a b1 ∧ OneNorm tc.abs m q b b2 ∧
      matMatDbg tc mode sc T junk o other A B ls init s =
        if d ≤ (tc.eps + tc.eps) * (b0 + b1 * b2) then matMat true mode sc T o other A B ls init s else .error .internalLogic := by
  have hp : sc ≠ .packed ∧ sc ≠ .packedProxy := by rcases hsc with rfl | rfl <;> simp
  obtain ⟨s1, e1, w1, L1, S1, h1, hw1⟩ := initMat_holds hT hp true mode init (r := o.sizeM p q) (c := o.sizem p q) (w := fun p => w p.1 p.2) ⟨w, Ls, S, h, fun _ _ _ _ => rfl⟩
  obtain ⟨s2, w2, L2, S2, e2, h2, h3⟩ := C33_matrix_matrix true mode hT hp hr he0 o other A B p q m a b hA hB ls hls false s1 w1 L1 S1 h1
  have hz1 : A.size1 = p := hA.size1
  have hz2 : B.size2 = q := hB.size2
  have key : matMat true mode sc T o other A B ls init s = matMat true mode sc T o other A B ls false s1 := by
    simp only [matMat, hz1, hz2, e1, bind_ok, initMat_false]
  obtain ⟨d, b0, b1, b2, m1, m0, m2, m3, _, e3⟩ := guardMat_ok hs hT.1 hr o junk hA hB h1 e2 h2
  refine ⟨d, b0, b1, b2, OneNorm.congr m1 fun i j hi hj => ?_, OneNorm.congr m0 fun i j hi hj => ?_, m2, m3, ?_⟩
  · have hnd : ¬ (sc = .dense ∨ sc = .denseProxy) := by rcases hsc with rfl | rfl <;> simp
    rw [h3 i j hi hj]
    by_cases ho : other i j = true
    · simp [ho]
    · simp [ho, hnd]
  · exact hw1 _ _ (major_lt' o hi hj).1 (major_lt' o hi hj).2
  · rw [key, e2]
    simp only [matMatDbg, hz1, hz2, e1, bind_ok]
    exact e3

/-- **C98**, restricted products into sparse targets, what does hold: if the product is zero outside the restriction, the self-check passes. -/
theorem C98_restricted_partial (hs : tc.Sound) (mode : ProdFn.Mode) (hT : T.Supports sc Rep) (hsc : sc = .sparse ∨ sc = .sparseProxy) (hr : T.ReadsAll Rep) (he0 : T.EmptyLines Rep)
    (junk : Nat → R) (o : Orient) (other : Nat → Nat → Bool) (A B : MSeq R) (p q m : Nat) (a b : Nat → Nat → R) (hA : A.Presents p m a) (hB : B.Presents m q b) (ls : List Nat)
    (hls : match o with | .row => Outer A.cat p m a ls | .col => Outer B.cat q m (fun j i => b i j) ls) (init : Bool) (s : σ) (w : Nat → Nat → R) (Ls : List Nat) (S : Nat → List Nat)
    (h : Rep s (o.sizeM p q) (o.sizem p q) w Ls S) (hz : ∀ i j, i < p → j < q → other i j = false → ∑ k ∈ range m, a i k * b k j = 0) :
    matMatDbg tc mode sc T junk o other A B ls init s = matMat true mode sc T o other A B ls init s := by
  obtain ⟨d, b0, b1, b2, h1, h2, h3, h4, e⟩ := restricted hs mode hT hsc hr he0 junk o other A B p q m a b hA hB ls hls init s w Ls S h
  have hd : d = 0 := OneNorm.zero hs h1 fun i j hi hj => by
    by_cases ho : other i j = true
    · rw [if_pos ho]
    · rw [if_neg ho, hz i j hi hj (by simpa using ho), neg_zero]
  have hn : ∀ {r c : Nat} {f : Nat → Nat → R} {t : K}, OneNorm tc.abs r c f t → 0 ≤ t := fun h => IsMax.nonneg (fun _ _ => sum_nonneg fun _ _ => hs.nonneg _) h
  rw [e, hd, if_pos (mul_nonneg (add_nonneg hs.eps hs.eps) (add_nonneg (hn h2) (mul_nonneg (hn h3) (hn h4))))]

/-- **C98** refuted for restricted products into sparse targets.  The self-check compares with the whole product: with exact element types (ε = 0) it raises internal_logic for every pair
of operands whose product has a non-zero element outside the restriction — although the algorithm computed what it should (C33_matrix_matrix). -/
theorem C98_restricted_refuted (hs : tc.Sound) (hdef : ∀ x, tc.abs x = 0 → x = 0) (heps : tc.eps = 0) (mode : ProdFn.Mode) (hT : T.Supports sc Rep) (hsc : sc = .sparse ∨ sc = .sparseProxy)
    (hr : T.ReadsAll Rep) (he0 : T.EmptyLines Rep) (junk : Nat → R) (o : Orient) (other : Nat → Nat → Bool) (A B : MSeq R) (p q m : Nat) (a b : Nat → Nat → R) (hA : A.Presents p m a)
    (hB : B.Presents m q b) (ls : List Nat) (hls : match o with | .row => Outer A.cat p m a ls | .col => Outer B.cat q m (fun j i => b i j) ls) (init : Bool) (s : σ) (w : Nat → Nat → R)
    (Ls : List Nat) (S : Nat → List Nat) (h : Rep s (o.sizeM p q) (o.sizem p q) w Ls S) (i j : Nat) (hi : i < p) (hj : j < q) (ho : other i j = false)
    (hz : ∑ k ∈ range m, a i k * b k j ≠ 0) :
    matMatDbg tc mode sc T junk o other A B ls init s = .error .internalLogic := by
  obtain ⟨d, b0, b1, b2, h1, h2, h3, h4, e⟩ := restricted hs mode hT hsc hr he0 junk o other A B p q m a b hA hB ls hls init s w Ls S h
  rw [e, if_neg]
  rw [heps, add_zero, zero_mul, not_le]
  have h5 := OneNorm.le hs h1 hi hj
  refine lt_of_lt_of_le (lt_of_le_of_ne (hs.nonneg _) fun h6 => ?_) h5
  have := hdef _ h6.symm
  simp [ho] at this
  exact hz this

end mat

/-! ## The hypotheses are met -/

/-- A compressed result matrix: unrestricted products pass, restricted ones raise. -/
theorem C98_compressed_matrix (hs : tc.Sound) (mode : ProdFn.Mode) (o : Orient) (IB : Nat) (cj : CMat.Junk R) (junk : Nat → R) (A B : MSeq R) (p q m : Nat)
    (a b : Nat → Nat → R) (hA : A.Presents p m a) (hB : B.Presents m q b) (ls : List Nat)
    (hls : match o with | .row => Outer A.cat p m a ls | .col => Outer B.cat q m (fun j i => b i j) ls) (init : Bool)
    (t : CMat R) (st : SparseSpec.CMatS R) (ht : CMat.Inv o IB t st) (hp : st.rows = p) (hq : st.cols = q) :
    matMatDbg tc mode .sparse (MT.compressed true o IB cj) junk o (fun _ _ => true) A B ls init t = matMat true mode .sparse (MT.compressed true o IB cj) o (fun _ _ => true) A B ls init t ∧
    ∀ other i j, tc.eps = 0 → (∀ x, tc.abs x = 0 → x = 0) → i < p → j < q → other i j = false → ∑ k ∈ range m, a i k * b k j ≠ 0 →
      matMatDbg tc mode .sparse (MT.compressed true o IB cj) junk o other A B ls init t = .error .internalLogic := by
  subst hp hq
  refine ⟨C98_matrix_matrix hs mode (compressedMatrix_supports true o IB cj) (by simp) (compressedMatrix_readsAll true o IB cj) (compressedMatrix_emptyLines true o IB cj) junk o _ A B _ _ m a b
    hA hB ls hls init t _ _ _ ⟨st, ht, rfl, rfl, rfl, rfl, rfl⟩ (.inl fun _ _ _ _ => rfl), fun other i j he hd hi hj ho hz => ?_⟩
  exact C98_restricted_refuted hs hd he mode (compressedMatrix_supports true o IB cj) (.inl rfl) (compressedMatrix_readsAll true o IB cj) (compressedMatrix_emptyLines true o IB cj) junk o other
    A B _ _ m a b hA hB ls hls init t _ _ _ ⟨st, ht, rfl, rfl, rfl, rfl, rfl⟩ i j hi hj ho hz

/-- A compressed 2 × 2 matrix receives (1 2; 3 4)²: without restriction the check passes, restricted to the lower triangle it raises, though the release build stores 7, 15, 22. -/
example : (let A : MSeq Int := ⟨2, 2, .dense, fun i => [(0, 2 * i + 1), (1, 2 * i + 2)], fun j => [(0, j + 1), (1, j + 3)], fun i j => .ok (2 * i + j + 1 : Nat)⟩
    ∃ t : CMat Int, CMat.ctor true .row 0 cmJunk 2 2 0 = .ok t ∧
      (do
        let t ← matMatDbg exactInt .indexing .sparse (MT.compressed true .row 0 cmJunk) (fun _ => 9) .row (fun _ _ => true) A A [0, 1] true t
        t.get true .row 0 0 0 1 : M Int) = .ok 10 ∧
      matMatDbg exactInt .indexing .sparse (MT.compressed true .row 0 cmJunk) (fun _ => 9) .row (fun i j => decide (j ≤ i)) A A [0, 1] true t = .error .internalLogic ∧
      (do
        let t ← matMat false .indexing .sparse (MT.compressed false .row 0 cmJunk) .row (fun i j => decide (j ≤ i)) A A [0, 1] true t
        let x ← t.get false .row 0 0 1 0
        let y ← t.get false .row 0 0 0 1
        .ok (x, y) : M (Int × Int)) = .ok (15, 0)) := by
  refine ⟨_, rfl, ?_, ?_, ?_⟩ <;> decide +kernel

end Ublas.Axpy
