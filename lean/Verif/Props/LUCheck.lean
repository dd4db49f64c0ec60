import Verif.Model.LUCheck
import Verif.Props.TypeCheck
import Verif.Props.LUAxpy
import Verif.Props.LUSubst
/-! # C97: the self-checks of LU in debug builds -/
namespace Ublas.LU
open Finset Norms
variable {σ τ R K : Type} [Field R] [DecidableEq R]

theorem loop_error {α : Type} {f : Nat → α → M α} {x : Fault} {s : α} : ∀ {n : Nat}, 0 < n → f 0 s = .error x → loop f n s = .error x
  | 0, h, _ => absurd h (by omega)
  | 1, _, h => by rw [loop, loop, bind_ok, h]
  | n + 2, _, h => by rw [loop, loop_error (Nat.succ_pos n) h, bind_error]

section elements
variable {A : MSeq R} {n1 n2 : Nat} {w : Nat × Nat → R}

theorem triAdaptor_at (hA1 : A.size1 = n1) (hA2 : A.size2 = n2) (hA : ∀ i j, i < n1 → j < n2 → A.at_ i j = .ok (w (i, j))) (i j : Nat) (hi : i < n1) (hj : j < n2) :
    (A.triAdaptor true ⟨.unit, false⟩).at_ i j = .ok (lower w i j) ∧ (A.triAdaptor true ⟨.lower, true⟩).at_ i j = .ok (upper w i j) := by
  simp only [MSeq.triAdaptor, hA1, hA2, check_true hi, check_true hj, bind_ok, Packed.other, Packed.one, Packed.lother, Packed.lone, lower, upper]
  constructor
  · by_cases h : j < i
    · simp [h, hA i j hi hj]
    · by_cases h' : i = j
      · subst h'; simp
      · simp [h, h', Ne.symm h']
  · by_cases h : i ≤ j
    · simp [h, hA i j hi hj]
    · simp [h]

omit [DecidableEq R] in
theorem byIndex_at {a b : Seq R} {n : Nat} {u v : Nat → R} (ha : a.size = n) (hb : b.size = n) (hu : ∀ k, k < n → a.at_ k = .ok (u k)) (hv : ∀ k, k < n → b.at_ k = .ok (v k)) :
    ProdFn.byIndex true a b = .ok (∑ k ∈ range n, u k * v k) := by
  simp only [ProdFn.byIndex, same, ha, hb, check_True, bind_ok, pure_eq_ok, Nat.min_self]
  obtain ⟨t, e, h⟩ := loop_inv (f := fun k t => do
    let x ← a.at_ k
    let y ← b.at_ k
    .ok (t + x * y)) (n := n) (s := 0) (fun k t => t = ∑ l ∈ range k, u l * v l) (by simp) (by
      rintro k t hk rfl
      exact ⟨_, by simp only [hu k hk, hv k hk, bind_ok]; rfl, by rw [sum_range_succ]⟩)
  rw [e, h]

end elements

variable [Field K] [LinearOrder K] [IsStrictOrderedRing K] {tc : TypeCheck R K}

theorem equalsM_same (hs : tc.Sound) (o : Orient) {r c : Nat} {f g : Nat → Nat → M R} {a : Nat → Nat → R} (hf : ∀ k l, k < r → l < c → f k l = .ok (a k l))
    (hg : ∀ k l, k < r → l < c → g k l = .ok (a k l)) : tc.equalsM o r c f g = .ok true := by
  obtain ⟨d, n1, n2, h1, h2, h3, e⟩ := equalsM_ok hs o hf hg
  rw [e, h1.zero hs fun k l _ _ => sub_self _]
  simp only [decide_eq_true_eq, Except.ok.injEq]
  exact mul_nonneg hs.eps (le_trans (h2.nonneg hs) (le_trans (le_max_left _ _) (le_max_left _ _)))

theorem equalsV_same (hs : tc.Sound) {n : Nat} {f g : Nat → M R} {a : Nat → R} (hf : ∀ k, k < n → f k = .ok (a k)) (hg : ∀ k, k < n → g k = .ok (a k)) : tc.equalsV n f g = .ok true := by
  obtain ⟨d, n1, n2, h1, h2, h3, e⟩ := equalsV_ok hs hf hg
  rw [e, IsMax.zero (fun k _ => by rw [sub_self, hs.zero]) h1]
  simp only [decide_eq_true_eq, Except.ok.injEq]
  exact mul_nonneg hs.eps (le_trans (IsMax.nonneg (fun _ _ => hs.nonneg _) h2) (le_trans (le_max_left _ _) (le_max_left _ _)))

section mat
variable {V : Acc σ (Nat × Nat) R} {n1 n2 : Nat} {H : σ → (Nat × Nat → R) → Prop} (hV : V.Lawful (fun p => p.1 < n1 ∧ p.2 < n2) H)
include hV

/-- The product of the two triangular factors of a rectangular matrix is refused. -/
theorem checkBack_rect (h1 : 0 < n1) (h2 : 0 < n2) (hne : n1 ≠ n2) (m cm : σ) : checkBack tc V n1 n2 m cm 0 = .error .badArgument := by
  have e : backProduct V n1 n2 m 0 0 = .error .badArgument := by
    simp only [backProduct, ProdFn.mmAt, ProdFn.byIndex, same, MSeq.row, MSeq.col, MSeq.triAdaptor, blockSeq]
    rw [check_dbg_false (fun h => hne h.symm)]; rfl
  simp only [checkBack, TypeCheck.equalsM, TypeCheck.norm, TypeCheck.byIndex, matNormInf]
  rw [if_neg (by simp), loop_error h1 (x := .badArgument)]
  · rfl
  · rw [loop_error h2 (x := .badArgument)]
    · rfl
    · rw [e]; rfl

end mat

section square
variable {V : Acc σ (Nat × Nat) R} {n : Nat} {H : σ → (Nat × Nat → R) → Prop} (hV : V.Lawful (fun p => p.1 < n ∧ p.2 < n) H)
include hV

theorem checkBack_square (hs : tc.Sound) {m cm : σ} {w wc : Nat × Nat → R} (hm : H m w) (hc : H cm wc) {a : Nat → Nat → R} {P : Equiv.Perm Nat} {singular : Nat}
    (hf : singular = 0 → Factors n n a P w) (hP : ∀ i j, i < n → j < n → wc (i, j) = a (P i) j) : checkBack tc V n n m cm singular = .ok () := by
  unfold checkBack
  by_cases h0 : singular = 0
  · rw [if_neg (by simpa using h0)]
    rw [equalsM_same hs .row (a := fun i j => a (P i) j) (fun i j hi hj => ?_) fun i j hi hj => by rw [hV.get _ _ hc (i, j) ⟨hi, hj⟩, hP i j hi hj]]
    · rfl
    · have hA : ∀ i j, i < n → j < n → (blockSeq V m 0 0 n n).at_ i j = .ok (w (i, j)) := fun i j hi hj => by
        simp only [blockSeq, Nat.zero_add]
        exact hV.get _ _ hm (i, j) ⟨hi, hj⟩
      have := hf h0 i j hi hj
      rw [Nat.min_self] at this
      simp only [← this]
      exact byIndex_at rfl rfl (fun k hk => (triAdaptor_at rfl rfl hA i k hi hk).1) fun k hk => (triAdaptor_at rfl rfl hA k j hk hj).2
  · rw [if_pos h0]

/-- **C97** `lu_factorize (m)` of a square matrix in a debug build does what it does without the self-check (C38), which always passes in exact arithmetic. -/
theorem C97_factorize (hs : tc.Sound) (o : Orient) {s : σ} {w : Nat × Nat → R} (hm : H s w) :
    ∃ s' v w', factorizeDbg tc o V n n s = .ok (s', v) ∧ factorize o V n n s = .ok (s', v) ∧ H s' w' ∧ Singular n w' v ∧ (v = 0 → Factors n n (fun i j => w (i, j)) 1 w') := by
  obtain ⟨s', v, w', e, h1, h2, h3⟩ := C38_no_pivoting hV o hm
  rw [Nat.min_self] at h2
  refine ⟨s', v, w', ?_, e, h1, h2, h3⟩
  simp only [factorizeDbg, e, bind_ok, checkBack_square hV hs h1 hm h3 fun _ _ _ _ => rfl]

variable {abs : R → K} (habs : ∀ x, abs x = 0 ↔ x = 0) (hpos : ∀ x, 0 ≤ abs x)
include habs hpos

/-- **C97** `lu_factorize (m, pm)` of a square matrix. -/
theorem C97_factorize_pivot (hs : tc.Sound) (o : Orient) {s : σ} {w : Nat × Nat → R} (hm : H s w) {p : Nat} (hp : n ≤ p) :
    ∃ st w', factorizePivotDbg tc abs o V n n s (identity p) = .ok st ∧ factorizePivot abs true o V n n s (identity p) = .ok st ∧ H st.m w' ∧ Singular n w' st.singular ∧
      Factors n n (fun i j => w (i, j)) (permTo (pmFn st.pm) n) w' := by
  obtain ⟨st, w', e, h1, h2, h3, h4, h5, h6, _⟩ := C38_pivoting hV habs hpos true o hm (p := p) (by omega)
  rw [Nat.min_self] at h2 h4 h5 h6
  have hin := inRange_of h3 h4 h5
  have hP : permTo (pmFn st.pm) st.pm.length = permTo (pmFn st.pm) n := permTo_ext (by omega) fun i a b => by
    rw [pmFn, List.getD_eq_getElem?_getD, h5 i a (by omega)]; rfl
  obtain ⟨cm, wc, e1, g1, g2⟩ := C41_matrix hV true hin hm
  refine ⟨st, w', ?_, e, h1, h2, h6⟩
  simp only [factorizePivotDbg, e, e1, bind_ok, checkBack_square hV hs h1 g1 (fun _ => h6) fun i j hi hj => by rw [g2 i j hj, hP]]

/-- **C97** `axpy_lu_factorize (m, pm)` of a square matrix. -/
theorem C97_axpy (hs : tc.Sound) (o : Orient) (junk : Nat → R) {s : σ} {w : Nat × Nat → R} (hm : H s w) {p : Nat} (hp : n ≤ p) :
    ∃ st w', axpyFactorizeDbg tc abs o V junk n n s (identity p) = .ok st ∧ axpyFactorize abs true o V junk n n s (identity p) = .ok st ∧ H st.m w' ∧ Singular n w' st.singular ∧
      Factors n n (fun i j => w (i, j)) (permTo (pmFn st.pm) n) w' := by
  obtain ⟨st, w', e, h1, h2, h3, h4, h5, h6⟩ := C40_tall_partial hV habs hpos true o junk le_rfl hm hp
  have hin := inRange_of h3 h4 h5
  have hP : permTo (pmFn st.pm) st.pm.length = permTo (pmFn st.pm) n := permTo_ext (by omega) fun i a b => by
    rw [pmFn, List.getD_eq_getElem?_getD, h5 i a (by omega)]; rfl
  obtain ⟨cm, wc, e1, g1, g2⟩ := C41_matrix hV true hin hm
  refine ⟨st, w', ?_, e, h1, h2, h6⟩
  simp only [axpyFactorizeDbg, e, e1, bind_ok, checkBack_square hV hs h1 g1 (fun _ => h6) fun i j hi hj => by rw [g2 i j hj, hP]]

end square

section rect
variable {V : Acc σ (Nat × Nat) R} {n1 n2 : Nat} {H : σ → (Nat × Nat → R) → Prop} (hV : V.Lawful (fun p => p.1 < n1 ∧ p.2 < n2) H)
include hV

/-- **C97** refuted for rectangular matrices: `lu_factorize (m)` of *every* non-square matrix it can factorise (result 0 without the self-check, with `A = L U` by C38) raises
bad_argument in a debug build, because the self-check multiplies two n1 × n2 matrices. -/
theorem C97_rectangular_refuted (o : Orient) (h1 : 0 < n1) (h2 : 0 < n2) (hne : n1 ≠ n2) {s s' : σ} (e : factorize o V n1 n2 s = .ok (s', 0)) :
    factorizeDbg tc o V n1 n2 s = .error .badArgument := by
  simp only [factorizeDbg, e, bind_ok, checkBack_rect hV h1 h2 hne, bind_error]

/-- **C97** refuted for rectangular matrices, with pivoting. -/
theorem C97_rectangular_pivot_refuted {abs : R → K} (habs : ∀ x, abs x = 0 ↔ x = 0) (hpos : ∀ x, 0 ≤ abs x) (o : Orient) (h1 : 0 < n1) (h2 : 0 < n2) (hne : n1 ≠ n2) {s : σ}
    {w : Nat × Nat → R} (hm : H s w) {p : Nat} (hp : min n1 n2 ≤ p) :
    ∃ st w', factorizePivot abs true o V n1 n2 s (identity p) = .ok st ∧ H st.m w' ∧ Factors n1 n2 (fun i j => w (i, j)) (permTo (pmFn st.pm) (min n1 n2)) w' ∧
      (st.singular = 0 → factorizePivotDbg tc abs o V n1 n2 s (identity p) = .error .badArgument) := by
  obtain ⟨st, w', e, g1, _, g3, g4, g5, g6, _⟩ := C38_pivoting hV habs hpos true o hm hp
  refine ⟨st, w', e, g1, g6, fun h0 => ?_⟩
  have hin : InRange n1 st.pm := by
    intro i hi hne
    rcases Nat.lt_or_ge i (min n1 n2) with h | h
    · exact ⟨by omega, (g4 i h).2⟩
    · exact absurd (by rw [pmFn, List.getD_eq_getElem?_getD, g5 i h (by omega)]; rfl) hne
  obtain ⟨cm, wc, e1, _, _⟩ := C41_matrix hV true hin hm
  simp only [factorizePivotDbg, e, e1, h0, bind_ok, checkBack_rect hV h1 h2 hne, bind_error]

end rect

/-- **C97** `lu_substitute (m, e)` for a vector in a debug build: both self-checks pass and the result is that of C39. -/
theorem C97_substitute (hs : tc.Sound) {A : MSeq R} {n : Nat} {w : Nat × Nat → R} (hA : A.Presents n n (fun i j => w (i, j))) (hd : ∀ i, i < n → w (i, i) ≠ 0) {T : Acc τ Nat R}
    {G : τ → (Nat → R) → Prop} (hT : T.Lawful (· < n) G) (o : Orient) {t : τ} {b : Nat → R} (ht : G t b) :
    ∃ t' x, substVecDbg tc o A T n t = .ok t' ∧ substVec true o A T n t = .ok t' ∧ G t' x ∧
      ∀ i, i < n → ∑ l ∈ range n, lower w i l * ∑ j ∈ range n, upper w l j * x j = b i := by
  obtain ⟨t1, y, e1, h1, h2⟩ := Solve.C37_vector hT hA true false true o (fun h => by simp at h) ht
  obtain ⟨t2, x, e2, h3, h4⟩ := Solve.C37_vector hT hA true true false o (fun _ => hd) h1
  simp only [tri_lower] at h2
  simp only [tri_upper] at h4
  have hel := triAdaptor_at hA.size1 hA.size2 (fun i j hi hj => (hA.rows i hi).at_ j hj)
  have c1 : checkSolved tc ⟨.unit, false⟩ A T n t1 t = .ok () := by
    unfold checkSolved
    rw [equalsV_same hs (a := b) (fun i hi => ?_) fun i hi => hT.get _ _ ht i hi]
    · rfl
    · rw [← h2 i hi]
      exact byIndex_at hA.size2 rfl (fun k hk => (hel i k hi hk).1) fun k hk => hT.get _ _ h1 k hk
  have c2 : checkSolved tc ⟨.lower, true⟩ A T n t2 t1 = .ok () := by
    unfold checkSolved
    rw [equalsV_same hs (a := y) (fun i hi => ?_) fun i hi => hT.get _ _ h1 i hi]
    · rfl
    · rw [← h4 i hi]
      exact byIndex_at hA.size2 rfl (fun k hk => (hel i k hi hk).2) fun k hk => hT.get _ _ h3 k hk
  refine ⟨t2, x, ?_, by rw [substVec, e1, bind_ok, e2], h3, fun i hi => ?_⟩
  · simp only [substVecDbg, e1, e2, c1, c2, bind_ok]
  · rw [← h2 i hi]
    exact sum_congr rfl fun l hl => by rw [h4 l (mem_range.1 hl)]

/-! ## Non-vacuity -/

/-- A 3 × 2 matrix that factorises (release) but is refused in a debug build; a square one that passes. -/
example : factorize .row (Dense.acc true .row) 2 3 (⟨2, 3, [2, 4, 6, 1, 3, 5]⟩ : Dense ℚ) = .ok (⟨2, 3, [2, 4, 6, 1/2, 1, 2]⟩, 0) ∧
    factorizeDbg doubleRat .row (Dense.acc true .row) 2 3 (⟨2, 3, [2, 4, 6, 1, 3, 5]⟩ : Dense ℚ) = .error .badArgument ∧
    factorizeDbg doubleRat .row (Dense.acc true .row) 2 2 (⟨2, 2, [2, 4, 1, 3]⟩ : Dense ℚ) = .ok (⟨2, 2, [2, 4, 1/2, 1]⟩, 0) := by
  refine ⟨by decide +kernel, by decide +kernel, by decide +kernel⟩

end Ublas.LU
