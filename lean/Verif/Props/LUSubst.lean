import Verif.Props.LU
import Verif.Lemmas.Blocked
import Mathlib.LinearAlgebra.Matrix.Block
import Mathlib.LinearAlgebra.Matrix.Determinant.Basic
/-! # C39, C41, C69: permutations, substitution and determinants -/
namespace Ublas.LU
open Finset
variable {σ τ R K : Type}

/-! ## C41: swap_rows -/

/-- The entries that exchange something stay below `n`. -/
def InRange (n : Nat) (pm : List Nat) : Prop := ∀ i, i < pm.length → pmFn pm i ≠ i → i < n ∧ pmFn pm i < n

theorem rd_pm (dbg : Bool) {pm : List Nat} {i : Nat} (hi : i < pm.length) : rd dbg pm i = .ok (pmFn pm i) := by
  rw [rd_ok hi, pmFn, List.getD_eq_getElem?_getD, List.getElem?_eq_getElem hi]; rfl

/-- **C41**, vectors: element `i` of the result is element `permTo pm _ i` of the argument. -/
theorem C41_vector {V : Acc σ Nat R} {n : Nat} {H : σ → (Nat → R) → Prop} (hV : V.Lawful (· < n) H) (dbg : Bool) {pm : List Nat} (hpm : InRange n pm) {s : σ} {w : Nat → R} (hs : H s w) :
    ∃ s', swapRowsVec dbg pm V s = .ok s' ∧ H s' (fun i => w (permTo (pmFn pm) pm.length i)) := by
  refine loop_inv (n := pm.length) (s := s) (fun k s => H s (fun i => w (permTo (pmFn pm) k i))) (by simpa [permTo] using hs) ?_
  intro k t hk ht
  rw [rd_pm dbg hk, bind_ok]
  by_cases h : k ≠ pmFn pm k
  · obtain ⟨h1, h2⟩ := hpm k hk h.symm
    obtain ⟨t', e, h'⟩ := swapCells_ok hV h1 h2 ht
    exact ⟨t', by rw [if_pos h, e], h'⟩
  · refine ⟨t, by rw [if_neg h], ?_⟩
    have h := not_not.1 h
    rw [permTo, ← h, Equiv.swap_self]
    exact ht

/-- **C41**, matrices: row `i` of the result is row `permTo pm _ i` of the argument. -/
theorem C41_matrix {V : Acc σ (Nat × Nat) R} {n q : Nat} {H : σ → (Nat × Nat → R) → Prop} (hV : V.Lawful (fun p => p.1 < n ∧ p.2 < q) H) (dbg : Bool) {pm : List Nat} (hpm : InRange n pm)
    {s : σ} {w : Nat × Nat → R} (hs : H s w) :
    ∃ s' w', swapRowsMat dbg pm V q s = .ok s' ∧ H s' w' ∧ ∀ i j, j < q → w' (i, j) = w (permTo (pmFn pm) pm.length i, j) := by
  obtain ⟨s', e, w', h1, h2⟩ := loop_inv (f := fun i s => (do
      let p ← rd dbg pm i
      if i ≠ p then swapRow V i p 0 q s else .ok s : M σ)) (n := pm.length) (s := s) (fun k s => ∃ w', H s w' ∧ ∀ i j, j < q → w' (i, j) = w (permTo (pmFn pm) k i, j))
    ⟨w, hs, fun _ _ _ => rfl⟩ (by
      rintro k t hk ⟨w1, ht, h1⟩
      rw [rd_pm dbg hk, bind_ok]
      by_cases h : k ≠ pmFn pm k
      · obtain ⟨g1, g2⟩ := hpm k hk h.symm
        obtain ⟨t', e, h'⟩ := swapRow_ok hV g1 g2 (lo := 0) le_rfl ht
        refine ⟨t', by rw [if_pos h, e], _, h', fun i j hj => ?_⟩
        simp only [Nat.zero_le, hj, and_self, if_true]
        rw [h1 _ j hj]; rfl
      · refine ⟨t, by rw [if_neg h], w1, ht, fun i j hj => ?_⟩
        have h := not_not.1 h
        rw [h1 i j hj, permTo, ← h, Equiv.swap_self]
        rfl)
  exact ⟨s', w', e, h1, h2⟩

/-- The recorded permutation maps the rows to the rows. -/
theorem permTo_lt {n : Nat} {pm : Nat → Nat} : ∀ {k : Nat}, (∀ i, i < k → pm i ≠ i → i < n ∧ pm i < n) → ∀ i, permTo pm k i < n ↔ i < n
  | 0, _, i => by simp [permTo]
  | k + 1, h, i => by
    rw [permTo, Equiv.Perm.mul_apply, permTo_lt fun i hi => h i (by omega)]
    by_cases hk : pm k = k
    · rw [hk, Equiv.swap_self]; rfl
    · have := h k (by omega) hk
      rw [Equiv.swap_apply_def]
      split
      · omega
      · split <;> omega

theorem permTo_ext {pm : Nat → Nat} {k m : Nat} (hkm : k ≤ m) (h : ∀ i, k ≤ i → i < m → pm i = i) : permTo pm m = permTo pm k := by
  induction m with
  | zero => rw [show k = 0 by omega]
  | succ m ih =>
    rcases Nat.lt_or_ge k (m + 1) with h1 | h1
    · rw [permTo, h m (by omega) (by omega), Equiv.swap_self, ih (by omega) fun i a b => h i a (by omega)]; rfl
    · rw [show k = m + 1 by omega]

/-- **C41**, `vector`: nothing is lost; the result is a permutation of the argument. -/
theorem C41_permutation [Field R] [DecidableEq R] (dbg : Bool) {pm : List Nat} (v : List R) (hpm : InRange v.length pm) :
    ∃ v' : List R, swapRowsVec dbg pm (VT.view dbg v.length id).acc v = .ok v' ∧ v'.Perm v ∧ ∀ i, i < v.length → v'[i]? = v[permTo (pmFn pm) pm.length i]? := by
  have hw : Ublas.Holds v v.length (fun i => v.getD i 0) := ⟨rfl, fun i hi => by simp [List.getD_eq_getElem?_getD, hi]⟩
  have hL : (VT.view dbg v.length id : VT (List R) R).acc.Lawful (· < v.length) (fun u w => Ublas.Holds u v.length w) := Solve.vector_lawful dbg v.length
  obtain ⟨v', e, h1, h2⟩ := C41_vector hL dbg hpm hw
  have hlt := permTo_lt (n := v.length) (pm := pmFn pm) (k := pm.length) hpm
  have hget : ∀ i, i < v.length → v'[i]? = v[permTo (pmFn pm) pm.length i]? := fun i hi => by
    have := (hlt i).2 hi
    rw [h2 i hi]
    simp [List.getD_eq_getElem?_getD, this]
  refine ⟨v', e, ?_, hget⟩
  have e1 : v' = ((List.range v.length).map (permTo (pmFn pm) pm.length)).map fun i => v.getD i 0 := by
    refine List.ext_getElem? fun i => ?_
    rcases Nat.lt_or_ge i v.length with hi | hi
    · rw [h2 i hi]; simp [hi]
    · rw [List.getElem?_eq_none (by omega), List.getElem?_eq_none (by simpa using hi)]
  have e2 : v = (List.range v.length).map fun i => v.getD i 0 := by
    refine List.ext_getElem? fun i => ?_
    rcases Nat.lt_or_ge i v.length with hi | hi
    · rw [List.getElem?_map, List.getElem?_range hi]; simp [List.getD_eq_getElem?_getD, hi]
    · rw [List.getElem?_eq_none hi, List.getElem?_eq_none (by simpa using hi)]
  rw [e1]
  conv_rhs => rw [e2]
  refine List.Perm.map _ ?_
  refine (List.perm_ext_iff_of_nodup ((List.nodup_map_iff (permTo (pmFn pm) pm.length).injective).2 List.nodup_range) List.nodup_range).2 fun i => ?_
  rw [List.mem_map, List.mem_range]
  constructor
  · rintro ⟨j, hj, rfl⟩; exact (hlt j).2 (List.mem_range.1 hj)
  · intro hi
    refine ⟨(permTo (pmFn pm) pm.length).symm i, List.mem_range.2 ?_, Equiv.apply_symm_apply _ _⟩
    rw [← hlt, Equiv.apply_symm_apply]; exact hi

/-! ## C39 -/
variable [Field R] [DecidableEq R]

omit [DecidableEq R] in
theorem tri_lower (w : Nat × Nat → R) (i j : Nat) : Solve.tri false true (fun i j => w (i, j)) i j = lower w i j := by
  unfold Solve.tri lower Solve.Strict
  by_cases h : i = j
  · subst h; simp
  · by_cases h' : j < i
    · simp [h, h']
    · simp [h, h', Ne.symm h]

omit [DecidableEq R] in
theorem tri_upper (w : Nat × Nat → R) (i j : Nat) : Solve.tri true false (fun i j => w (i, j)) i j = upper w i j := by
  unfold Solve.tri upper Solve.Strict
  by_cases h : i = j
  · subst h; simp
  · by_cases h' : i < j
    · simp [h, h', h'.le]
    · simp [h, h', show ¬ i ≤ j by omega]

omit [DecidableEq R] in
theorem Singular.diag {n : Nat} {w : Nat × Nat → R} (h : Singular n w 0) : ∀ i, i < n → w (i, i) ≠ 0 := by
  rcases h with h | h
  · exact h.2
  · omega

omit [DecidableEq R] in
/-- Two triangular systems are one system with the product. -/
theorem solve_product {n : Nat} {w : Nat × Nat → R} {a : Nat → Nat → R} {P : Equiv.Perm Nat} (hf : Factors n n a P w) {x y b : Nat → R}
    (h1 : ∀ m, m < n → ∑ j ∈ range n, lower w m j * y j = b m) (h2 : ∀ m, m < n → ∑ j ∈ range n, upper w m j * x j = y m) :
    ∀ m, m < n → ∑ j ∈ range n, a (P m) j * x j = b m := by
  intro m hm
  rw [← h1 m hm]
  have e : ∀ j ∈ range n, a (P m) j * x j = ∑ l ∈ range n, lower w m l * (upper w l j * x j) := fun j hj => by
    have := hf m j hm (mem_range.1 hj)
    rw [Nat.min_self] at this
    rw [← this, sum_mul]
    exact sum_congr rfl fun l _ => by ring
  rw [sum_congr rfl e, sum_comm]
  refine sum_congr rfl fun l hl => ?_
  rw [← mul_sum, h2 l (mem_range.1 hl)]

/-- `lu_substitute (m, e)` for a vector, given factors. -/
theorem substVec_ok {A : MSeq R} {n : Nat} {w : Nat × Nat → R} (hA : A.Presents n n (fun i j => w (i, j))) {a : Nat → Nat → R} {P : Equiv.Perm Nat} (hf : Factors n n a P w)
    (hd : ∀ i, i < n → w (i, i) ≠ 0) {T : Acc τ Nat R} {G : τ → (Nat → R) → Prop} (hT : T.Lawful (· < n) G) (dbg : Bool) (o : Orient) {t : τ} {b : Nat → R} (ht : G t b) :
    ∃ t' x, substVec dbg o A T n t = .ok t' ∧ G t' x ∧ ∀ m, m < n → ∑ j ∈ range n, a (P m) j * x j = b m := by
  obtain ⟨t1, y, e1, h1, h2⟩ := Solve.C37_vector hT hA dbg false true o (fun h => by simp at h) ht
  obtain ⟨t2, x, e2, h3, h4⟩ := Solve.C37_vector hT hA dbg true false o (fun _ => hd) h1
  refine ⟨t2, x, by rw [substVec, e1, bind_ok, e2], h3, solve_product hf (y := y) (fun m hm => ?_) fun m hm => ?_⟩
  · rw [← h2 m hm]; exact sum_congr rfl fun j _ => by rw [tri_lower]
  · rw [← h4 m hm]; exact sum_congr rfl fun j _ => by rw [tri_upper]

theorem substMat_ok {A : MSeq R} {n q : Nat} {w : Nat × Nat → R} (hA : A.Presents n n (fun i j => w (i, j))) {a : Nat → Nat → R} {P : Equiv.Perm Nat} (hf : Factors n n a P w)
    (hd : ∀ i, i < n → w (i, i) ≠ 0) {T : Acc τ (Nat × Nat) R} {G : τ → (Nat × Nat → R) → Prop} (hT : T.Lawful (fun p => p.1 < n ∧ p.2 < q) G) (dbg : Bool) {t : τ} {b : Nat × Nat → R}
    (ht : G t b) :
    ∃ t' x, substMat dbg A T n q t = .ok t' ∧ G t' x ∧ ∀ m l, m < n → l < q → ∑ j ∈ range n, a (P m) j * x (j, l) = b (m, l) := by
  obtain ⟨t1, y, e1, h1, h2⟩ := Solve.C37_matrix hT hA dbg false true (fun h => by simp at h) ht
  obtain ⟨t2, x, e2, h3, h4⟩ := Solve.C37_matrix hT hA dbg true false (fun _ => hd) h1
  refine ⟨t2, x, by rw [substMat, e1, bind_ok, e2], h3, fun m l hm hl => solve_product hf (b := fun m => b (m, l)) (x := fun j => x (j, l)) (y := fun j => y (j, l)) (fun m hm => ?_) (fun m hm => ?_) m hm⟩
  · rw [← h2 m l hm hl]; exact sum_congr rfl fun j _ => by rw [tri_lower]
  · rw [← h4 m l hm hl]; exact sum_congr rfl fun j _ => by rw [tri_upper]

/-- `lu_substitute (e, m)` for a vector, given factors without a permutation. -/
theorem substLeft_ok {A : MSeq R} {n : Nat} {w : Nat × Nat → R} (hA : A.Presents n n (fun i j => w (i, j))) {a : Nat → Nat → R} {P : Equiv.Perm Nat} (hf : Factors n n a P w)
    (hd : ∀ i, i < n → w (i, i) ≠ 0) {T : Acc τ Nat R} {G : τ → (Nat → R) → Prop} (hT : T.Lawful (· < n) G) (dbg : Bool) (o : Orient) {t : τ} {b : Nat → R} (ht : G t b) :
    ∃ t' x, substLeft dbg o A T n t = .ok t' ∧ G t' x ∧ ∀ j, j < n → ∑ i ∈ range n, x i * a (P i) j = b j := by
  obtain ⟨t1, y, e1, h1, h2⟩ := Solve.C37_left hT hA dbg true false o (fun _ => hd) ht
  obtain ⟨t2, x, e2, h3, h4⟩ := Solve.C37_left hT hA dbg false true o (fun h => by simp at h) h1
  refine ⟨t2, x, by rw [substLeft, e1, bind_ok, e2], h3, fun j hj => ?_⟩
  rw [← h2 j hj]
  have e : ∀ i ∈ range n, x i * a (P i) j = ∑ l ∈ range n, x i * lower w i l * upper w l j := fun i hi => by
    have := hf i j (mem_range.1 hi) hj
    rw [Nat.min_self] at this
    rw [← this, mul_sum]
    exact sum_congr rfl fun l _ => by ring
  rw [sum_congr rfl e, sum_comm]
  refine sum_congr rfl fun l hl => ?_
  rw [← sum_mul, tri_upper]
  congr 1
  rw [← h4 l (mem_range.1 hl)]; exact sum_congr rfl fun i _ => by rw [tri_lower]

section mat
variable {V : Acc σ (Nat × Nat) R} {n : Nat} {H : σ → (Nat × Nat → R) → Prop} (hV : V.Lawful (fun p => p.1 < n ∧ p.2 < n) H)
include hV

/-- **C39** without pivoting: if `lu_factorize (m)` returns 0, `lu_substitute (m, b)` leaves `A x = b` and `lu_substitute (b, m)` leaves `x A = b`. -/
theorem C39_no_pivoting (o : Orient) {s : σ} {w : Nat × Nat → R} (hs : H s w) :
    ∃ s' v w', factorize o V n n s = .ok (s', v) ∧ H s' w' ∧ (v = 0 → ∀ (A : MSeq R), A.Presents n n (fun i j => w' (i, j)) →
      ∀ (τ : Type) (T : Acc τ Nat R) (G : τ → (Nat → R) → Prop), T.Lawful (· < n) G → ∀ (dbg : Bool) (t : τ) (b : Nat → R), G t b →
        (∃ t' x, substVec dbg o A T n t = .ok t' ∧ G t' x ∧ ∀ i, i < n → ∑ j ∈ range n, w (i, j) * x j = b i) ∧
        (∃ t' x, substLeft dbg o A T n t = .ok t' ∧ G t' x ∧ ∀ j, j < n → ∑ i ∈ range n, x i * w (i, j) = b j)) := by
  obtain ⟨s', v, w', e, h1, h2, h3⟩ := C38_no_pivoting hV o hs
  refine ⟨s', v, w', e, h1, fun hv A hA τ T G hT dbg t b ht => ?_⟩
  subst hv
  rw [Nat.min_self] at h2
  exact ⟨substVec_ok hA (h3 rfl) h2.diag hT dbg o ht, substLeft_ok hA (h3 rfl) h2.diag hT dbg o ht⟩

variable [Field K] [LinearOrder K] [IsStrictOrderedRing K] {abs : R → K} (habs : ∀ x, abs x = 0 ↔ x = 0) (hpos : ∀ x, 0 ≤ abs x)

omit [Field R] [DecidableEq R] hV in
theorem inRange_of {n p : Nat} {pm : List Nat} (hl : pm.length = p) (h1 : ∀ i, i < n → i ≤ pmFn pm i ∧ pmFn pm i < n) (h2 : ∀ i, n ≤ i → i < p → pm[i]? = some i) : InRange n pm := by
  intro i hi hne
  rcases Nat.lt_or_ge i n with h | h
  · exact ⟨h, (h1 i h).2⟩
  · exact absurd (by rw [pmFn, List.getD_eq_getElem?_getD, h2 i h (by omega)]; rfl) hne

include habs hpos in
/-- **C39** with pivoting: if `lu_factorize (m, pm)` returns 0, `lu_substitute (m, pm, b)` leaves `A x = b`; for a vector and for a matrix of right-hand sides. -/
theorem C39_pivoting (dbg : Bool) (o : Orient) {s : σ} {w : Nat × Nat → R} (hs : H s w) {p : Nat} (hp : n ≤ p) :
    ∃ st w', factorizePivot abs dbg o V n n s (identity p) = .ok st ∧ H st.m w' ∧ (st.singular = 0 → ∀ (A : MSeq R), A.Presents n n (fun i j => w' (i, j)) →
      (∀ (τ : Type) (T : Acc τ Nat R) (G : τ → (Nat → R) → Prop), T.Lawful (· < n) G → ∀ (t : τ) (b : Nat → R), G t b →
        ∃ t' x, substPivotVec dbg o A st.pm T n t = .ok t' ∧ G t' x ∧ ∀ i, i < n → ∑ j ∈ range n, w (i, j) * x j = b i) ∧
      (∀ (q : Nat) (τ : Type) (T : Acc τ (Nat × Nat) R) (G : τ → (Nat × Nat → R) → Prop), T.Lawful (fun p => p.1 < n ∧ p.2 < q) G → ∀ (t : τ) (b : Nat × Nat → R), G t b →
        ∃ t' x, substPivotMat dbg A st.pm T n q t = .ok t' ∧ G t' x ∧ ∀ i l, i < n → l < q → ∑ j ∈ range n, w (i, j) * x (j, l) = b (i, l))) := by
  obtain ⟨st, w', e, h1, h2, h3, h4, h5, h6, _⟩ := C38_pivoting hV habs hpos dbg o hs (p := p) (by omega)
  rw [Nat.min_self] at h2 h4 h5 h6
  refine ⟨st, w', e, h1, fun hv A hA => ?_⟩
  rw [hv] at h2
  have hin := inRange_of h3 h4 h5
  have hP : permTo (pmFn st.pm) st.pm.length = permTo (pmFn st.pm) n := permTo_ext (by omega) fun i a b => by
    rw [pmFn, List.getD_eq_getElem?_getD, h5 i a (by omega)]; rfl
  have hlt := permTo_lt (n := n) (pm := pmFn st.pm) (k := n) fun i hi _ => ⟨hi, (h4 i hi).2⟩
  -- equation `P⁻¹ i` of the permuted system is equation `i`
  have back : ∀ (f : Nat → R) (b : Nat → R), (∀ m, m < n → f (permTo (pmFn st.pm) n m) = b (permTo (pmFn st.pm) n m)) → ∀ i, i < n → f i = b i := fun f b h i hi => by
    have := h ((permTo (pmFn st.pm) n).symm i) (by rw [← hlt, Equiv.apply_symm_apply]; exact hi)
    rwa [Equiv.apply_symm_apply] at this
  constructor
  · intro τ T G hT t b ht
    obtain ⟨t1, e1, g1⟩ := C41_vector hT dbg hin ht
    obtain ⟨t2, x, e2, g2, g3⟩ := substVec_ok hA h6 h2.diag hT dbg o g1
    refine ⟨t2, x, by rw [substPivotVec, e1, bind_ok, e2], g2, back (fun i => ∑ j ∈ range n, w (i, j) * x j) b fun m hm => ?_⟩
    rw [g3 m hm, hP]
  · intro q τ T G hT t b ht
    obtain ⟨t1, b1, e1, g1, g1'⟩ := C41_matrix hT dbg hin ht
    obtain ⟨t2, x, e2, g2, g3⟩ := substMat_ok hA h6 h2.diag hT dbg g1
    refine ⟨t2, x, by rw [substPivotMat, e1, bind_ok, e2], g2, fun i l hi hl => back (fun i => ∑ j ∈ range n, w (i, j) * x (j, l)) (fun i => b (i, l)) (fun m hm => ?_) i hi⟩
    rw [g3 m l hm hl, g1' m l hl, hP]

include habs hpos in
/-- What the left variant `lu_substitute (b, m, pm)` really solves: Σ_i x_i (P A)_ij = (P b)_j. -/
theorem substPivotLeft_solves (dbg : Bool) (o : Orient) {s : σ} {w : Nat × Nat → R} (hs : H s w) {p : Nat} (hp : n ≤ p) :
    ∃ st w', factorizePivot abs dbg o V n n s (identity p) = .ok st ∧ H st.m w' ∧ (st.singular = 0 → ∀ (A : MSeq R), A.Presents n n (fun i j => w' (i, j)) →
      (∀ (τ : Type) (T : Acc τ Nat R) (G : τ → (Nat → R) → Prop), T.Lawful (· < n) G → ∀ (t : τ) (b : Nat → R), G t b →
        ∃ t' x, substPivotLeft dbg o A st.pm T n t = .ok t' ∧ G t' x ∧
          ∀ j, j < n → ∑ i ∈ range n, x i * w (permTo (pmFn st.pm) n i, j) = b (permTo (pmFn st.pm) n j))) := by
  obtain ⟨st, w', e, h1, h2, h3, h4, h5, h6, _⟩ := C38_pivoting hV habs hpos dbg o hs (p := p) (by omega)
  rw [Nat.min_self] at h2 h4 h5 h6
  refine ⟨st, w', e, h1, fun hv A hA τ T G hT t b ht => ?_⟩
  rw [hv] at h2
  have hin := inRange_of h3 h4 h5
  have hP : permTo (pmFn st.pm) st.pm.length = permTo (pmFn st.pm) n := permTo_ext (by omega) fun i a b => by
    rw [pmFn, List.getD_eq_getElem?_getD, h5 i a (by omega)]; rfl
  obtain ⟨t1, e1, g1⟩ := C41_vector hT dbg hin ht
  obtain ⟨t2, x, e2, g2, g3⟩ := substLeft_ok hA h6 h2.diag hT dbg o g1
  refine ⟨t2, x, by rw [substPivotLeft, e1, bind_ok, e2], g2, fun j hj => ?_⟩
  rw [g3 j hj, hP]

include habs hpos in
/-- **C39**, left variant with `pm`, when no rows were exchanged: `x A = b`. -/
theorem C39_left_pivot_partial (dbg : Bool) (o : Orient) {s : σ} {w : Nat × Nat → R} (hs : H s w) {p : Nat} (hp : n ≤ p) :
    ∃ st w', factorizePivot abs dbg o V n n s (identity p) = .ok st ∧ H st.m w' ∧ (st.singular = 0 → st.pm = identity p → ∀ (A : MSeq R), A.Presents n n (fun i j => w' (i, j)) →
      (∀ (τ : Type) (T : Acc τ Nat R) (G : τ → (Nat → R) → Prop), T.Lawful (· < n) G → ∀ (t : τ) (b : Nat → R), G t b →
        ∃ t' x, substPivotLeft dbg o A st.pm T n t = .ok t' ∧ G t' x ∧ ∀ j, j < n → ∑ i ∈ range n, x i * w (i, j) = b j)) := by
  obtain ⟨st, w', e, h1, h2⟩ := substPivotLeft_solves hV habs hpos dbg o hs hp
  refine ⟨st, w', e, h1, fun hv hpm A hA τ T G hT t b ht => ?_⟩
  obtain ⟨t', x, e', g1, g2⟩ := h2 hv A hA τ T G hT t b ht
  refine ⟨t', x, e', g1, fun j hj => ?_⟩
  have hP : permTo (pmFn st.pm) n = 1 := by
    rw [permTo_ext (Nat.zero_le n) fun i _ hi => by rw [pmFn, List.getD_eq_getElem?_getD, hpm, identity, List.getElem?_range (by omega)]; rfl]
    rfl
  have := g2 j hj
  rw [hP] at this
  exact this

/-! ## C69: determinants -/

omit [Field R] [DecidableEq R] hV in
/-- The recorded permutation as a permutation of the `n` rows. -/
theorem exists_finPerm {n : Nat} {pm : Nat → Nat} : ∀ {k : Nat}, k ≤ n → (∀ i, i < k → i ≤ pm i ∧ pm i < n) →
    ∃ e : Equiv.Perm (Fin n), (∀ i, (e i : Nat) = permTo pm k i) ∧ ((Equiv.Perm.sign e : ℤˣ) : ℤ) = ∏ i ∈ range k, if pm i = i then 1 else -1
  | 0, _, _ => ⟨1, fun i => by simp [permTo], by simp⟩
  | k + 1, hk, h => by
    obtain ⟨e, h1, h2⟩ := exists_finPerm (pm := pm) (k := k) (by omega) fun i hi => h i (by omega)
    have hp := (h k (by omega)).2
    refine ⟨e * Equiv.swap ⟨k, by omega⟩ ⟨pm k, hp⟩, fun i => ?_, ?_⟩
    · rw [Equiv.Perm.mul_apply, h1, permTo, Equiv.Perm.mul_apply]
      congr 1
      simp only [Equiv.swap_apply_def, Fin.ext_iff]
      split
      · rfl
      · split <;> rfl
    · rw [prod_range_succ, ← h2, Equiv.Perm.sign_mul, Units.val_mul]
      congr 1
      by_cases hpk : pm k = k
      · rw [if_pos hpk]
        have : (⟨pm k, hp⟩ : Fin n) = ⟨k, by omega⟩ := Fin.ext hpk
        rw [this, Equiv.swap_self, Equiv.Perm.sign_refl]; rfl
      · rw [if_neg hpk, Equiv.Perm.sign_swap fun h => hpk (Fin.ext_iff.1 h).symm]; rfl

omit [DecidableEq R] hV in
theorem det_factors {n : Nat} {a : Nat → Nat → R} {w : Nat × Nat → R} {pm : Nat → Nat} (hpm : ∀ i, i < n → i ≤ pm i ∧ pm i < n) (hf : Factors n n a (permTo pm n) w) :
    (Matrix.of fun i j : Fin n => a i j).det = ∏ i ∈ range n, if pm i = i then w (i, i) else - w (i, i) := by
  obtain ⟨e, h1, h2⟩ := exists_finPerm le_rfl hpm
  let A : Matrix (Fin n) (Fin n) R := Matrix.of fun i j => a i j
  let L : Matrix (Fin n) (Fin n) R := Matrix.of fun i j => lower w i j
  let U : Matrix (Fin n) (Fin n) R := Matrix.of fun i j => upper w i j
  have hLU : A.submatrix e id = L * U := by
    ext i j
    rw [Matrix.mul_apply, Matrix.submatrix_apply]
    show a (e i) j = ∑ l : Fin n, lower w i l * upper w l j
    rw [h1, ← hf i j i.2 j.2, Nat.min_self, sum_range]
  have hL : L.det = 1 := by
    rw [Matrix.det_of_isLowerTriangular L fun i j hij => ?_]
    · exact prod_eq_one fun i _ => by simp [L, lower]
    · have : (i : Nat) < j := hij
      show lower w i j = 0
      rw [lower, if_neg (by omega), if_neg (by omega)]
  have hU : U.det = ∏ i ∈ range n, w (i, i) := by
    rw [Matrix.det_of_isUpperTriangular (M := U) fun i j hij => ?_]
    · rw [prod_range]
      exact prod_congr rfl fun i _ => by simp [U, upper]
    · have : (j : Nat) < i := hij
      show upper w i j = 0
      rw [upper, if_neg (by omega)]
  have hd := congrArg Matrix.det hLU
  rw [Matrix.det_mul, hL, hU, one_mul, Matrix.det_permute] at hd
  have hsq : (((Equiv.Perm.sign e : ℤˣ) : ℤ) : R) * (((Equiv.Perm.sign e : ℤˣ) : ℤ) : R) = 1 := by
    rw [← Int.cast_mul, ← Units.val_mul, Int.units_mul_self]; simp
  show A.det = _
  have e3 : A.det = (((Equiv.Perm.sign e : ℤˣ) : ℤ) : R) * ∏ i ∈ range n, w (i, i) := by
    rw [← hd, ← mul_assoc, hsq, one_mul]
  rw [e3, h2, Int.cast_prod, ← prod_mul_distrib]
  refine prod_congr rfl fun i _ => ?_
  split <;> simp

include habs hpos in
/-- **C69**: for a square matrix the determinant is the product of the diagonal of the factored matrix, with one sign change per recorded exchange, and `lu_factorize (m, pm)` returns 0
exactly when the matrix is not singular. -/
theorem C69_determinant (dbg : Bool) (o : Orient) {s : σ} {w : Nat × Nat → R} (hs : H s w) {p : Nat} (hp : n ≤ p) :
    ∃ st w', factorizePivot abs dbg o V n n s (identity p) = .ok st ∧ H st.m w' ∧
      (Matrix.of fun i j : Fin n => w ((i : Nat), (j : Nat))).det = ∏ i ∈ range n, (if pmFn st.pm i = i then w' (i, i) else - w' (i, i)) ∧
      (st.singular = 0 ↔ (Matrix.of fun i j : Fin n => w ((i : Nat), (j : Nat))).det ≠ 0) := by
  obtain ⟨st, w', e, h1, h2, h3, h4, h5, h6, _⟩ := C38_pivoting hV habs hpos dbg o hs (p := p) (by omega)
  rw [Nat.min_self] at h2 h4 h5 h6
  have hdet := det_factors h4 h6
  refine ⟨st, w', e, h1, hdet, ?_⟩
  rw [hdet, prod_ne_zero_iff]
  have hne : ∀ i, (if pmFn st.pm i = i then w' (i, i) else - w' (i, i)) ≠ 0 ↔ w' (i, i) ≠ 0 := fun i => by split <;> simp
  simp only [hne, mem_range]
  rcases h2 with ⟨a, b⟩ | ⟨a, b, c, d⟩
  · exact ⟨fun _ => b, fun _ => a⟩
  · exact ⟨fun h => by omega, fun h => absurd c (h _ (by omega))⟩

end mat

/-! ## Dense matrices and concrete cases -/

section dense
variable [Field K] [LinearOrder K] [IsStrictOrderedRing K] {abs : R → K} (habs : ∀ x, abs x = 0 ↔ x = 0) (hpos : ∀ x, 0 ≤ abs x)
include habs hpos

/-- **C38**, **C39** for `matrix` and `vector`: factor with pivoting, then substitute. -/
theorem C39_dense (dbg : Bool) (o : Orient) (A : Dense R) (hw : A.WF) (hsq : A.size2 = A.size1) (b : List R) (hb : b.length = A.size1) :
    ∃ st, factorizePivot abs dbg o (Dense.acc dbg o) A.size1 A.size1 A (identity A.size1) = .ok st ∧ st.m.WF ∧ st.m.size1 = A.size1 ∧ st.m.size2 = A.size1 ∧
      (st.singular = 0 → ∃ x, substPivotVec dbg o (st.m.toMSeq dbg o) st.pm (VT.view dbg A.size1 id).acc A.size1 b = .ok x ∧ x.length = A.size1 ∧
        ∀ i, i < A.size1 → ∑ j ∈ range A.size1, elem (A.get dbg o) i j * x.getD j 0 = b.getD i 0) := by
  obtain ⟨q, ⟨q1, q2, q3, q4, q5, q6⟩, hq⟩ := dense_operand dbg o A hw
  have hs : Solve.DHolds dbg o A.size1 A.size1 A (fun p => elem (A.get dbg o) p.1 p.2) := ⟨hw, rfl, hsq, fun i j hi hj => by
    have := (hq.rows i hi).at_ j (by omega)
    simp only [MSeq.row, q6] at this
    exact this⟩
  obtain ⟨st, w', e, h1, h2⟩ := C39_pivoting (Solve.dense_lawful dbg o A.size1 A.size1) habs hpos dbg o hs (p := A.size1) le_rfl
  obtain ⟨g1, g2, g3, g4⟩ := h1
  refine ⟨st, e, g1, g2, g3, fun hv => ?_⟩
  have hP := toMSeq_presents dbg o g1 (a := fun i j => w' (i, j)) fun i j hi hj => g4 i j (by omega) (by omega)
  rw [g2, g3] at hP
  obtain ⟨x, c, e2, k1, k2⟩ := (h2 hv _ hP).1 _ _ _ (Solve.vector_lawful dbg A.size1) b (fun i => b.getD i 0) ⟨hb, fun i hi => by simp [List.getD_eq_getElem?_getD, hb, hi]⟩
  refine ⟨x, e2, k1.1, fun i hi => ?_⟩
  rw [← k2 i hi]
  refine sum_congr rfl fun j hj => ?_
  rw [List.getD_eq_getElem?_getD, k1.2 j (mem_range.1 hj)]; rfl

end dense

/-- A 3×3 matrix that needs row exchanges. -/
def exM : Dense ℚ := ⟨3, 3, [0, 2, 1, 4, 1, 3, 2, 5, 7]⟩
/-- The fault-free part of a result. -/
def okD {α : Type} (d : α) (x : M α) : α := x.toOption.getD d

example : factorizePivot (fun x : ℚ => |x|) true .row (Dense.acc true .row) 3 3 exM (identity 3) =
    .ok ⟨⟨3, 3, [4, 1, 3, 1/2, 9/2, 11/2, 0, 4/9, -13/9]⟩, [1, 2, 2], 0⟩ := by decide +kernel
/-- The same matrix stored by columns. -/
example : factorizePivot (fun x : ℚ => |x|) true .col (Dense.acc true .col) 3 3 ⟨3, 3, [0, 4, 2, 2, 1, 5, 1, 3, 7]⟩ (identity 3) =
    .ok ⟨⟨3, 3, [4, 1/2, 0, 1, 9/2, 4/9, 3, 11/2, -13/9]⟩, [1, 2, 2], 0⟩ := by decide +kernel
/-- A singular one: the column is skipped. -/
example : factorizePivot (fun x : ℚ => |x|) true .row (Dense.acc true .row) 2 2 ⟨2, 2, [1, 2, 2, 4]⟩ (identity 2) = .ok ⟨⟨2, 2, [2, 4, 1/2, 0]⟩, [1, 1], 2⟩ := by decide +kernel
/-- A wide one. -/
example : factorize .row (Dense.acc true .row) 2 3 (⟨2, 3, [2, 4, 6, 1, 3, 5]⟩ : Dense ℚ) = .ok (⟨2, 3, [2, 4, 6, 1/2, 1, 2]⟩, 0) := by decide +kernel
example : swapRowsVec true [1, 2, 2] (VT.view true 3 id).acc [(10 : ℚ), 20, 30] = .ok [20, 30, 10] := by decide +kernel
example : InRange 3 [1, 2, 2] := by unfold InRange; decide
example : substPivotVec true .row ((⟨3, 3, [4, 1, 3, 1/2, 9/2, 11/2, 0, 4/9, -13/9]⟩ : Dense ℚ).toMSeq true .row) [1, 2, 2] (VT.view true 3 id).acc 3 [3, 8, 14] = .ok [1, 1, 1] := by
  decide +kernel

/-- **C39** refuted for the left variant with a permutation: for A = [[0, 2], [3, 0]] and b = (6, 6), the factorisation succeeds without a singularity, but `lu_substitute (b, m, pm)`
leaves x = (2, 3), for which x A = (9, 4). -/
theorem C39_left_pivot_refuted :
    factorizePivot (fun x : ℚ => |x|) true .row (Dense.acc true .row) 2 2 ⟨2, 2, [0, 2, 3, 0]⟩ (identity 2) = .ok ⟨⟨2, 2, [3, 0, 0, 2]⟩, [1, 1], 0⟩ ∧
    substPivotLeft true .row ((⟨2, 2, [3, 0, 0, 2]⟩ : Dense ℚ).toMSeq true .row) [1, 1] (VT.view true 2 id).acc 2 [6, 6] = .ok [2, 3] ∧
    ¬ ∀ j, j < 2 → ∑ i ∈ range 2, ([2, 3] : List ℚ).getD i 0 * ((([[0, 2], [3, 0]] : List (List ℚ)).getD i []).getD j 0) = ([6, 6] : List ℚ).getD j 0 := by
  refine ⟨by decide +kernel, by decide +kernel, fun h => ?_⟩
  have := h 0 (by omega)
  norm_num [sum_range_succ] at this

end Ublas.LU
