import Verif.Lemmas.Operation
import Verif.Props.VectorAssign
import Verif.Props.MatrixAssign
import Verif.Props.Expr
import Verif.Props.Coo
import Mathlib.Tactic.Ring
/-! # C33: axpy_prod with a vector -/
namespace Ublas
open Finset
variable {σ R : Type} [CommRing R] [DecidableEq R]

/-- Reading `v (i)` returns element `i`, for every index. -/
def VT.ReadsAll (T : VT σ R) (Rep : σ → Nat → (Nat → R) → List Nat → Prop) : Prop :=
  ∀ s n w S, Rep s n w S → ∀ i, i < n → T.get s i = .ok (w i)

namespace Axpy

/-- State `s` stands for the vector `w` of size `n`. -/
def Holds (Rep : σ → Nat → (Nat → R) → List Nat → Prop) (n : Nat) (s : σ) (w : Nat → R) : Prop :=
  ∃ w0 S, Rep s n w0 S ∧ ∀ i, i < n → w0 i = w i

section vec
variable {T : VT σ R} {Rep : σ → Nat → (Nat → R) → List Nat → Prop} {sc : StorageCat} {n : Nat}

theorem Holds.congr {s : σ} {w w' : Nat → R} (h : Holds Rep n s w) (e : ∀ i, i < n → w i = w' i) : Holds Rep n s w' := by
  obtain ⟨w0, S, h1, h2⟩ := h
  exact ⟨w0, S, h1, fun i hi => (h2 i hi).trans (e i hi)⟩

theorem grows_of (hT : T.Supports sc Rep) (hsc : sc ≠ .packed ∧ sc ≠ .packedProxy) : T.Grows Rep := by
  obtain ⟨hL, hT⟩ := hT
  cases sc with
  | packed => exact absurd rfl hsc.1
  | packedProxy => exact absurd rfl hsc.2
  | dense => exact VT.Full.grows hL hT.1
  | denseProxy => exact VT.Full.grows hL hT.1
  | sparse => exact hT.1
  | sparseProxy => exact hT.1

theorem acc_lawful (hg : T.Grows Rep) (hr : T.ReadsAll Rep) : T.acc.Lawful (· < n) (Holds Rep n) where
  get s w h i hi := by
    obtain ⟨w0, S, h1, h2⟩ := h
    rw [← h2 i hi]; exact hr s n w0 S h1 i hi
  set s w h i hi t := by
    obtain ⟨w0, S, h1, h2⟩ := h
    obtain ⟨s', S', e, h', _⟩ := hg s n w0 S h1 i hi t
    refine ⟨s', e, _, S', h', fun k hk => ?_⟩
    simp only [Function.update_apply]
    split
    · rfl
    · exact h2 k hk

theorem zero_presents (n : Nat) : (Seq.zero n : Seq R).Presents n (fun _ => 0) where
  size := rfl
  at_ _ _ := rfl
  vals _ h := by cases h
  sorted := List.Pairwise.nil
  skipped _ _ _ := rfl
  packed h := absurd rfl h
  dense h := by cases h

theorem assign_holds (hT : T.Supports sc Rep) (hsc : sc ≠ .packed ∧ sc ≠ .packedProxy) (dbg : Bool) (mode : ProdFn.Mode) (F : AssignF) {e : Seq R} {c : Nat → R}
    (he : e.Presents n c) {s : σ} {w : Nat → R} (h : Holds Rep n s w) :
    ∃ s', VAssign.assign dbg mode sc T F (VExpr.const e) s = .ok s' ∧ Holds Rep n s' (fun i => F.apply (w i) (c i)) := by
  obtain ⟨w0, S, h1, h2⟩ := h
  obtain ⟨s', w', S', e1, h3, h4⟩ := C44_assign_every_element dbg mode sc F e n c s w0 S hT hsc (he.reads Rep) h1
  exact ⟨s', e1, w', S', h3, fun i hi => by rw [h4 i hi, h2 i hi]⟩

theorem initVec_holds (hT : T.Supports sc Rep) (hsc : sc ≠ .packed ∧ sc ≠ .packedProxy) (dbg : Bool) (mode : ProdFn.Mode) (init : Bool)
    {s : σ} {w : Nat → R} (h : Holds Rep n s w) :
    ∃ s', initVec dbg mode sc T init n s = .ok s' ∧ Holds Rep n s' (fun i => if init then 0 else w i) := by
  cases init with
  | false => exact ⟨s, rfl, by simpa using h⟩
  | true =>
    obtain ⟨s', e1, h'⟩ := assign_holds hT hsc dbg mode .assign (zero_presents n) h
    exact ⟨s', by simpa [initVec] using e1, by simpa [AssignF.apply] using h'⟩

/-! ## Nested iterators -/

theorem nestedMajor_holds {V : Acc σ Nat R} {H : σ → (Nat → R) → Prop} (hV : V.Lawful (· < n) H) {m : Nat} {e : MExp R} {a : Nat → Nat → R} (he : e.Presents n m a) {x : Seq R}
    {v : Nat → R} (hx : x.Presents m v) {s : σ} {w : Nat → R} (h : H s w) :
    ∃ s', nestedMajor e.lines x V s = .ok s' ∧ H s' (fun i => w i + (e.lines.map fun q => (q.2.map fun p => if i = q.1 then p.2 * v p.1 else 0).sum).sum) := by
  refine foldlM_add (Rep := H) (g := fun q i => (q.2.map fun p => if i = q.1 then p.2 * v p.1 else 0).sum) e.lines s w ?_ h
  intro s w q hq hs
  refine foldlM_add (Rep := H) (g := fun p i => if i = q.1 then p.2 * v p.1 else 0) q.2 s w ?_ hs
  intro s w p hp hs
  rw [hx.at_ p.1 ((he.inner q hq).2 p hp).1]
  exact hV.add hs (he.lt q hq) _

theorem nestedMinor_holds {V : Acc σ Nat R} {H : σ → (Nat → R) → Prop} (hV : V.Lawful (· < n) H) {m : Nat} {e : MExp R} {a : Nat → Nat → R} (he : e.Presents m n a) {x : Seq R}
    {v : Nat → R} (hx : x.Presents m v) {s : σ} {w : Nat → R} (h : H s w) :
    ∃ s', nestedMinor e.lines x V s = .ok s' ∧ H s' (fun i => w i + (e.lines.map fun q => (q.2.map fun p => if i = p.1 then p.2 * v q.1 else 0).sum).sum) := by
  refine foldlM_add (Rep := H) (g := fun q i => (q.2.map fun p => if i = p.1 then p.2 * v q.1 else 0).sum) e.lines s w ?_ h
  intro s w q hq hs
  refine foldlM_add (Rep := H) (g := fun p i => if i = p.1 then p.2 * v q.1 else 0) q.2 s w ?_ hs
  intro s w p hp hs
  rw [hx.at_ q.1 (he.lt q hq)]
  exact hV.add hs ((he.inner q hq).2 p hp).1 _

/-- Line `k` of the expression, zero where the iterators do not go. -/
theorem line_val {r c : Nat} {e : MExp R} {a : Nat → Nat → R} (he : e.Presents r c a) {q : Nat × List (Nat × R)} (hq : q ∈ e.lines) {l : Nat} (hl : l < c) :
    ProdFn.val q.2 l = a q.1 l := by
  by_cases hm : l ∈ q.2.map (·.1)
  · obtain ⟨p, hp, rfl⟩ := List.mem_map.1 hm
    rw [ProdFn.val_mem (he.inner q hq).1 hp, ((he.inner q hq).2 p hp).2]
  · rw [ProdFn.val_zero hm]
    refine (he.skipped q.1 l (he.lt q hq) hl fun q' hq' e' hm' => hm ?_).symm
    have hnd := he.sorted
    have : q' = q := by
      obtain ⟨i, hi⟩ := List.mem_iff_getElem?.1 hq'
      obtain ⟨j, hj⟩ := List.mem_iff_getElem?.1 hq
      have hpw := List.pairwise_iff_getElem.1 hnd
      obtain ⟨hi1, hi2⟩ := List.getElem?_eq_some_iff.1 hi
      obtain ⟨hj1, hj2⟩ := List.getElem?_eq_some_iff.1 hj
      rcases Nat.lt_trichotomy i j with c | c | c
      · have := hpw i j (by simpa using hi1) (by simpa using hj1) c
        simp only [List.getElem_map, hi2, hj2] at this; omega
      · subst c; rw [hi] at hj; exact Option.some.inj hj
      · have := hpw j i (by simpa using hj1) (by simpa using hi1) c
        simp only [List.getElem_map, hi2, hj2] at this; omega
    rw [← this]; exact hm'

theorem sum_lines {r c : Nat} {e : MExp R} {a : Nat → Nat → R} (he : e.Presents r c a) (f : Nat → R) (hf : ∀ k, k < r → k ∉ e.lines.map (·.1) → f k = 0) :
    (e.lines.map fun q => f q.1).sum = ∑ k ∈ range r, f k := by
  have := sum_map_lines he.sorted (fun i hi => by obtain ⟨q, hq, rfl⟩ := List.mem_map.1 hi; exact he.lt q hq) f hf
  rw [← this, List.map_map]; rfl

theorem zero_line {r c : Nat} {e : MExp R} {a : Nat → Nat → R} (he : e.Presents r c a) {k : Nat} (hk : k < r) (hm : k ∉ e.lines.map (·.1)) {l : Nat} (hl : l < c) : a k l = 0 :=
  he.skipped k l hk hl fun q hq e' _ => hm (e' ▸ List.mem_map_of_mem hq)

theorem major_sum {r c : Nat} {e : MExp R} {a : Nat → Nat → R} (he : e.Presents r c a) (v : Nat → R) {i : Nat} (hi : i < r) :
    (e.lines.map fun q => (q.2.map fun p => if i = q.1 then p.2 * v p.1 else 0).sum).sum = dot c (a i) v := by
  have h1 : ∀ q ∈ e.lines, (q.2.map fun p => if i = q.1 then p.2 * v p.1 else 0).sum = if i = q.1 then dot c (a q.1) v else 0 := by
    intro q hq
    by_cases h : i = q.1
    · simp only [if_pos h]
      rw [sum_map_eq_dot v q.2 fun p hp => ((he.inner q hq).2 p hp).1]
      exact ProdFn.dot_congr (fun l hl => line_val he hq hl) fun _ _ => rfl
    · simp [if_neg h]
  rw [List.map_congr_left h1, sum_lines he (fun k => if i = k then dot c (a k) v else 0)]
  · simp [hi]
  · intro k hk hm
    split
    · unfold dot; exact sum_eq_zero fun l hl => by rw [zero_line he hk hm (by simpa using hl), zero_mul]
    · rfl

theorem minor_sum {r c : Nat} {e : MExp R} {a : Nat → Nat → R} (he : e.Presents r c a) (v : Nat → R) {i : Nat} (hi : i < c) :
    (e.lines.map fun q => (q.2.map fun p => if i = p.1 then p.2 * v q.1 else 0).sum).sum = dot r (fun k => a k i) v := by
  have h1 : ∀ q ∈ e.lines, (q.2.map fun p => if i = p.1 then p.2 * v q.1 else 0).sum = a q.1 i * v q.1 := by
    intro q hq
    rw [← line_val he hq hi, ProdFn.val, ← List.sum_map_mul_right]
    refine congrArg _ (List.map_congr_left fun p _ => ?_)
    by_cases h : i = p.1
    · simp [h]
    · have h' : ¬ p.1 = i := fun h' => h h'.symm
      simp [h, h']
  rw [List.map_congr_left h1, sum_lines he (fun k => a k i * v k)]
  · rfl
  · intro k hk hm
    rw [zero_line he hk hm hi, zero_mul]

theorem sparseX_holds (hT : T.Supports sc Rep) (hsc : sc ≠ .packed ∧ sc ≠ .packedProxy) (dbg : Bool) (mode : ProdFn.Mode) {m : Nat} {line : Nat → Seq R} {b : Nat → Nat → R}
    (hl : ∀ j, j < m → (line j).Presents n (b j)) {x : Seq R} {v : Nat → R} (hx : x.Presents m v) {s : σ} {w : Nat → R} (h : Holds Rep n s w) :
    ∃ s', sparseX dbg mode sc T line x s = .ok s' ∧ Holds Rep n s' (fun i => w i + dot m (fun j => b j i) v) := by
  obtain ⟨s', e, h'⟩ := foldlM_add (Rep := Holds Rep n) (g := fun p i => b p.1 i * p.2)
    (f := fun s p => VAssign.assign dbg mode sc T .plus (VExpr.const (Expr.unary (· * p.2) (line p.1))) s) x.els s w (by
      intro s w p hp hs
      exact assign_holds hT hsc dbg mode .plus (C48_unary (· * p.2) (hl p.1 (hx.vals p hp).1) (.inr (zero_mul _))) hs) h
  refine ⟨s', e, h'.congr fun i _ => ?_⟩
  rw [show (x.els.map fun p => b p.1 i * p.2) = x.els.map fun p => p.2 * b p.1 i from List.map_congr_left fun p _ => mul_comm _ _, hx.sum_map (fun j => b j i)]
  simp only [dot, mul_comm]

end vec

/-- What the outer iterators of an operand visit: increasing line numbers, skipping only zero lines, without gaps unless sparse, all of them when dense. -/
structure Outer (cat : Cat) (r c : Nat) (a : Nat → Nat → R) (ls : List Nat) : Prop where
  sorted : ls.Pairwise (· < ·)
  lt : ∀ i ∈ ls, i < r
  skip : ∀ i, i < r → i ∉ ls → ∀ j, j < c → a i j = 0
  packed : cat ≠ .sparse → ∃ off, ls = List.range' off ls.length
  dense : cat = .dense → c ≠ 0 → ls = List.range r

theorem Outer.all (cat : Cat) (r c : Nat) (a : Nat → Nat → R) : Outer cat r c a (List.range r) where
  sorted := List.pairwise_lt_range
  lt i hi := by simpa using hi
  skip i hi hn := absurd (by simpa using hi) hn
  packed _ := ⟨0, by rw [List.length_range, List.range_eq_range']⟩
  dense _ _ := rfl

variable {T : VT σ R} {Rep : σ → Nat → (Nat → R) → List Nat → Prop} {sc : StorageCat}

/-- **C33** (matrix times vector, any matrix expression).  `axpy_prod (A, x, v, init)` leaves `v = A x` when `init`, `v_old + A x` otherwise, for dense, packed
and sparse operands of either orientation, dense or sparse `x`, and any dense or sparse target; without fault in both build modes. -/
theorem C33_matrix_vector (dbg : Bool) (mode : ProdFn.Mode) (hT : T.Supports sc Rep) (hsc : sc ≠ .packed ∧ sc ≠ .packedProxy) (hr : T.ReadsAll Rep) (o : Orient) (A : MSeq R)
    (r c : Nat) (a : Nat → Nat → R) (hA : A.Presents r c a) (ls : List Nat)
    (hls : match o with | .row => Outer A.cat r c a ls | .col => Outer A.cat c r (fun j i => a i j) ls)
    (x : Seq R) (v : Nat → R) (hx : x.Presents c v) (init : Bool) (s : σ) (w : Nat → R) (S : List Nat) (h : Rep s r w S) :
    ∃ s' w' S', matVec dbg mode sc T o A ls x init s = .ok s' ∧ Rep s' r w' S' ∧ ∀ i, i < r → w' i = (if init then 0 else w i) + ∑ j ∈ range c, a i j * v j := by
  have hs : A.size1 = r := hA.size1
  obtain ⟨s1, e1, h1⟩ := initVec_holds hT hsc dbg mode init (n := r) ⟨w, S, h, fun _ _ => rfl⟩
  have hV := acc_lawful (n := r) (grows_of hT hsc) hr
  suffices hgoal : ∃ s', matVec dbg mode sc T o A ls x init s = .ok s' ∧ Holds Rep r s' (fun i => (if init then 0 else w i) + dot c (a i) v) by
    obtain ⟨s', e, w', S', h2, h3⟩ := hgoal
    exact ⟨s', w', S', e, h2, h3⟩
  simp only [matVec, hs, e1, bind_ok]
  have hsp : ∃ s', sparseX dbg mode sc T A.col x s1 = .ok s' ∧ Holds Rep r s' (fun i => (if init then 0 else w i) + dot c (a i) v) :=
    sparseX_holds hT hsc dbg mode (b := fun j i => a i j) (fun j hj => hA.cols j hj) hx h1
  have hrow : o = .row → ∃ s', nestedMajor (MExp.byRows A ls).lines x T.acc s1 = .ok s' ∧ Holds Rep r s' (fun i => (if init then 0 else w i) + dot c (a i) v) := by
    rintro rfl
    have he := hA.byRows hls.sorted hls.lt hls.skip hls.packed hls.dense
    obtain ⟨s', e, h'⟩ := nestedMajor_holds hV he hx h1
    exact ⟨s', e, h'.congr fun i hi => by rw [major_sum he v hi]⟩
  have hcol : o = .col → ∃ s', nestedMinor (MExp.byCols A ls).lines x T.acc s1 = .ok s' ∧ Holds Rep r s' (fun i => (if init then 0 else w i) + dot c (a i) v) := by
    rintro rfl
    have he := hA.byCols hls.sorted hls.lt hls.skip hls.packed hls.dense
    obtain ⟨s', e, h'⟩ := nestedMinor_holds hV he hx h1
    exact ⟨s', e, h'.congr fun i hi => by rw [minor_sum he v hi]⟩
  cases hc : x.cat <;> cases o <;> first | exact hsp | exact hrow rfl | exact hcol rfl

/-- **C33** (vector times matrix, any matrix expression). -/
theorem C33_vector_matrix (dbg : Bool) (mode : ProdFn.Mode) (hT : T.Supports sc Rep) (hsc : sc ≠ .packed ∧ sc ≠ .packedProxy) (hr : T.ReadsAll Rep) (o : Orient) (A : MSeq R)
    (r c : Nat) (a : Nat → Nat → R) (hA : A.Presents r c a) (ls : List Nat)
    (hls : match o with | .row => Outer A.cat r c a ls | .col => Outer A.cat c r (fun j i => a i j) ls)
    (x : Seq R) (v : Nat → R) (hx : x.Presents r v) (init : Bool) (s : σ) (w : Nat → R) (S : List Nat) (h : Rep s c w S) :
    ∃ s' w' S', vecMat dbg mode sc T o A ls x init s = .ok s' ∧ Rep s' c w' S' ∧ ∀ j, j < c → w' j = (if init then 0 else w j) + ∑ i ∈ range r, v i * a i j := by
  have hs : A.size2 = c := hA.size2
  obtain ⟨s1, e1, h1⟩ := initVec_holds hT hsc dbg mode init (n := c) ⟨w, S, h, fun _ _ => rfl⟩
  have hV := acc_lawful (n := c) (grows_of hT hsc) hr
  suffices hgoal : ∃ s', vecMat dbg mode sc T o A ls x init s = .ok s' ∧ Holds Rep c s' (fun j => (if init then 0 else w j) + dot r (fun i => a i j) v) by
    obtain ⟨s', e, w', S', h2, h3⟩ := hgoal
    exact ⟨s', w', S', e, h2, fun j hj => by rw [h3 j hj]; simp only [dot, mul_comm]⟩
  simp only [vecMat, hs, e1, bind_ok]
  have hsp : ∃ s', sparseX dbg mode sc T A.row x s1 = .ok s' ∧ Holds Rep c s' (fun j => (if init then 0 else w j) + dot r (fun i => a i j) v) :=
    sparseX_holds hT hsc dbg mode (b := fun i j => a i j) (fun i hi => hA.rows i hi) hx h1
  have hcol : o = .col → ∃ s', nestedMajor (MExp.byCols A ls).lines x T.acc s1 = .ok s' ∧ Holds Rep c s' (fun j => (if init then 0 else w j) + dot r (fun i => a i j) v) := by
    rintro rfl
    have he := hA.byCols hls.sorted hls.lt hls.skip hls.packed hls.dense
    obtain ⟨s', e, h'⟩ := nestedMajor_holds hV he hx h1
    exact ⟨s', e, h'.congr fun i hi => by rw [major_sum he v hi]⟩
  have hrow : o = .row → ∃ s', nestedMinor (MExp.byRows A ls).lines x T.acc s1 = .ok s' ∧ Holds Rep c s' (fun j => (if init then 0 else w j) + dot r (fun i => a i j) v) := by
    rintro rfl
    have he := hA.byRows hls.sorted hls.lt hls.skip hls.packed hls.dense
    obtain ⟨s', e, h'⟩ := nestedMinor_holds hV he hx h1
    exact ⟨s', e, h'.congr fun i hi => by rw [minor_sum he v hi]⟩
  cases hc : x.cat <;> cases o <;> first | exact hsp | exact hrow rfl | exact hcol rfl

end Axpy
end Ublas
