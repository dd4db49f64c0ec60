import Verif.Lemmas.Solve
import Verif.Props.AxpyMM
import Verif.Props.AssignOps
import Verif.Props.Expr
import Verif.Props.Opb
import Mathlib.Algebra.Field.Rat
/-! # C37: triangular solvers -/
namespace Ublas.Solve
open Finset
variable {σ R : Type} [Field R] [DecidableEq R]

/-! ## Matrices as triangular operands -/

/-- Any matrix operand, read through a non-unit tag. -/
theorem side_of {A : MSeq R} {n : Nat} {a : Nat → Nat → R} (h : A.Presents n n a) (upper : Bool) : Side upper A n (tri upper false a) where
  size1 := h.size1
  size2 := h.size2
  at_ i j hi hj hs := by
    rw [show A.at_ i j = (A.row i).at_ j from rfl, (h.rows i hi).at_ j hj]
    congr 1
    unfold tri
    rcases hs with rfl | hs
    · simp
    · by_cases e : i = j
      · subst e; simp
      · rw [if_neg e, if_pos hs]
  rows i hi := ⟨(h.rows i hi).sorted, fun p hp hs => by
      have h1 := (h.rows i hi).vals p hp
      have hne : i ≠ p.1 := by rintro e; rw [← e] at hs; cases upper <;> simp [Strict] at hs
      exact ⟨h1.1, by rw [tri, if_neg hne, if_pos hs]; exact h1.2⟩, fun j hj hs hm => by
      have hne : i ≠ j := by rintro rfl; cases upper <;> simp [Strict] at hs
      rw [tri, if_neg hne, if_pos hs]; exact (h.rows i hi).skipped j hj hm⟩
  cols j hj := ⟨(h.cols j hj).sorted, fun p hp hs => by
      have h1 := (h.cols j hj).vals p hp
      have hne : p.1 ≠ j := by rintro e; rw [e] at hs; cases upper <;> simp [Strict] at hs
      exact ⟨h1.1, by rw [tri, if_neg hne, if_pos hs]; exact h1.2⟩, fun i hi hs hm => by
      have hne : i ≠ j := by rintro rfl; cases upper <;> simp [Strict] at hs
      rw [tri, if_neg hne, if_pos hs]; exact (h.cols j hj).skipped i hi hm⟩
  zero i j _ _ hne hs := by rw [tri, if_neg hne, if_neg hs]

theorem other_unit (upper : Bool) (i j : Nat) : Packed.other ⟨.unit, upper⟩ i j = true ↔ Strict upper i j := by
  cases upper <;> simp [Packed.other, Packed.lother, Strict]

theorem one_unit (upper : Bool) (i j : Nat) : Packed.one ⟨.unit, upper⟩ i j = true ↔ i = j := by
  cases upper <;> simp [Packed.one, Packed.lone] <;> omega

theorem sorted_filter_map {L : List (Nat × R)} (h : (L.map (·.1)).Pairwise (· < ·)) (P : Nat × R → Bool) (f : Nat × R → R) :
    (((L.filter P).map fun p => (p.1, f p)).map (·.1)).Pairwise (· < ·) := by
  rw [List.map_map]
  show ((L.filter P).map (·.1)).Pairwise (· < ·)
  rw [List.pairwise_map] at h ⊢
  exact h.filter _

/-- Any matrix operand, read through a unit tag: what `triangular_adaptor` delivers. -/
theorem side_unit {A : MSeq R} {n : Nat} {a : Nat → Nat → R} (h : A.Presents n n a) (upper dbg : Bool) : Side upper (A.triAdaptor dbg ⟨.unit, upper⟩) n (tri upper true a) where
  size1 := h.size1
  size2 := h.size2
  at_ i j hi hj hs := by
    have e1 : A.at_ i j = .ok (a i j) := (h.rows i hi).at_ j hj
    simp only [MSeq.triAdaptor, h.size1, h.size2, check_true hi, check_true hj, bind_ok, e1]
    by_cases e : i = j
    · subst e
      have h1 : ¬ Packed.other ⟨.unit, upper⟩ i i = true := by rw [other_unit]; cases upper <;> simp [Strict]
      have h2 : Packed.one ⟨.unit, upper⟩ i i = true := (one_unit upper i i).2 rfl
      rw [if_neg h1, if_pos h2, tri, if_pos rfl, if_pos rfl]
    · have hs' := hs.resolve_left e
      rw [if_pos ((other_unit upper i j).2 hs'), tri, if_neg e, if_pos hs']
  rows i hi := by
    have H := h.rows i hi
    have hmem : ∀ p, p ∈ A.rowEls i → Strict upper i p.1 → Packed.restrict2 .const ⟨.unit, upper⟩ i 0 A.size1 A.size2 ≤ p.1 ∧ p.1 < Packed.restrict2 .const ⟨.unit, upper⟩ i A.size2 A.size1 A.size2 := by
      intro p hp hs
      have := (H.vals p hp).1
      rw [h.size1, h.size2]
      cases upper <;> simp [Packed.restrict2, Packed.lrestrict1, Packed.lrestrict2, Strict] at hs ⊢ <;> omega
    refine ⟨sorted_filter_map H.sorted _ _, ?_, ?_⟩
    · intro p hp hs
      obtain ⟨q, hq, rfl⟩ := List.mem_map.1 hp
      have hq' := (List.mem_filter.1 hq).1
      have h1 := H.vals q hq'
      have hne : i ≠ q.1 := by rintro e; simp only [← e] at hs; cases upper <;> simp [Strict] at hs
      refine ⟨h1.1, ?_⟩
      simp only [if_pos ((other_unit upper i q.1).2 hs)]
      rw [tri, if_neg hne, if_pos hs, h1.2]
    · intro j hj hs hm
      have hne : i ≠ j := by rintro rfl; cases upper <;> simp [Strict] at hs
      rw [tri, if_neg hne, if_pos hs]
      refine H.skipped j hj fun hc => hm ?_
      obtain ⟨p, hp, rfl⟩ := List.mem_map.1 hc
      exact List.mem_map.2 ⟨_, List.mem_map_of_mem (List.mem_filter.2 ⟨hp, by simpa using hmem p hp hs⟩), rfl⟩
  cols j hj := by
    have H := h.cols j hj
    have hmem : ∀ p, p ∈ A.colEls j → Strict upper p.1 j → Packed.restrict1 .const ⟨.unit, upper⟩ 0 j A.size1 A.size2 ≤ p.1 ∧ p.1 < Packed.restrict1 .const ⟨.unit, upper⟩ A.size1 j A.size1 A.size2 := by
      intro p hp hs
      have := (H.vals p hp).1
      rw [h.size1, h.size2]
      cases upper <;> simp [Packed.restrict1, Packed.lrestrict1, Packed.lrestrict2, Strict] at hs ⊢ <;> omega
    refine ⟨sorted_filter_map H.sorted _ _, ?_, ?_⟩
    · intro p hp hs
      obtain ⟨q, hq, rfl⟩ := List.mem_map.1 hp
      have hq' := (List.mem_filter.1 hq).1
      have h1 := H.vals q hq'
      have hne : q.1 ≠ j := by rintro e; simp only [e] at hs; cases upper <;> simp [Strict] at hs
      refine ⟨h1.1, ?_⟩
      simp only [if_pos ((other_unit upper q.1 j).2 hs)]
      rw [tri, if_neg hne, if_pos hs, h1.2]
    · intro i hi hs hm
      have hne : i ≠ j := by rintro rfl; cases upper <;> simp [Strict] at hs
      rw [tri, if_neg hne, if_pos hs]
      refine H.skipped i hi fun hc => hm ?_
      obtain ⟨p, hp, rfl⟩ := List.mem_map.1 hc
      exact List.mem_map.2 ⟨_, List.mem_map_of_mem (List.mem_filter.2 ⟨hp, by simpa using hmem p hp hs⟩), rfl⟩
  zero i j _ _ hne hs := by rw [tri, if_neg hne, if_neg hs]

theorem side_wrap {A : MSeq R} {n : Nat} {a : Nat → Nat → R} (h : A.Presents n n a) (upper unit dbg : Bool) : Side upper (wrap dbg upper unit A) n (tri upper unit a) := by
  cases unit with
  | false => exact side_of h upper
  | true => exact side_unit h upper dbg

theorem strict_not (upper : Bool) (i j : Nat) : Strict (!upper) i j ↔ Strict upper j i := by
  cases upper <;> simp [Strict]

theorem Side.trans {upper : Bool} {W : MSeq R} {n : Nat} {t : Nat → Nat → R} (h : Side upper W n t) : Side (!upper) (Expr.mtrans id W) n (fun i j => t j i) where
  size1 := h.size2
  size2 := h.size1
  at_ i j hi hj hs := by
    simp only [Expr.mtrans, h.at_ j i hj hi (by rw [strict_not] at hs; exact hs.imp Eq.symm id), bind_ok, id]
  rows i hi := by
    have e : (Expr.mtrans id W).rowEls i = W.colEls i := by simp [Expr.mtrans, Expr.unary, MSeq.col]
    rw [e]
    simp only [strict_not]
    exact h.cols i hi
  cols j hj := by
    have e : (Expr.mtrans id W).colEls j = W.rowEls j := by simp [Expr.mtrans, Expr.unary, MSeq.row]
    rw [e]
    simp only [strict_not]
    exact h.rows j hj
  zero i j hi hj hne hs := h.zero j i hj hi (Ne.symm hne) (by rwa [← strict_not])

/-! ## The vector solvers -/
section vec
variable {V : Acc σ Nat R} {H : σ → (Nat → R) → Prop} {n : Nat} {upper : Bool} {W : MSeq R} {t : Nat → Nat → R}

theorem vec_ok (hV : V.Lawful (· < n) H) (hW : Side upper W n t) (dbg : Bool) (o : Orient) (hd : ∀ i, i < n → t i i ≠ 0) {s : σ} {b : Nat → R} (hs : H s b) :
    ∃ s' x, vec dbg upper o W V n s = .ok s' ∧ H s' x ∧ ∀ m, m < n → ∑ j ∈ range n, t m j * x j = b m := by
  have hd' : ∀ j, j < n → t (ord upper n j) (ord upper n j) ≠ 0 := fun j hj => hd _ (ord_lt hj)
  have C : ∀ upd, Upd H upper n t upd → ∃ s' x, colSolve dbg upper W V upd n s = .ok s' ∧ H s' x ∧ ∀ m, m < n → ∑ j ∈ range n, t m j * x j = b m := by
    intro upd hu
    obtain ⟨s', e, x, h1, h2⟩ := colSolve_upto hV hW hu dbg (Nat.le_refl n) hd' hs
    exact ⟨s', x, e, h1, h2.1.solved hW.zero⟩
  have D : ∀ red, Red H upper n t red → ∃ s' x, rowSolve dbg upper W V red n s = .ok s' ∧ H s' x ∧ ∀ m, m < n → ∑ j ∈ range n, t m j * x j = b m := by
    intro red hr
    obtain ⟨s', e, x, h1, h2⟩ := rowSolve_upto hV hW hr dbg (Nat.le_refl n) hd' hs
    exact ⟨s', x, e, h1, h2.1.solved hW.zero⟩
  simp only [vec, hW.size1, hW.size2, check_true, bind_ok]
  have d1 := C _ (colDense_upd hV hW)
  have d2 := C _ (colIter_upd hV hW)
  have d3 := D _ (rowIter_red hV hW)
  cases upper with
  | false => cases W.cat <;> cases o <;> simp only <;> assumption
  | true =>
    have d4 := D _ (rowDense_red hV hW)
    cases W.cat <;> cases o <;> simp only <;> assumption

theorem vec_singular (hV : V.Lawful (· < n) H) (hW : Side upper W n t) (o : Orient) (hd : ∃ i, i < n ∧ t i i = 0) {s : σ} {b : Nat → R} (hs : H s b) :
    vec true upper o W V n s = .error .singular := by
  have hex : ∃ k, k < n ∧ t (ord upper n k) (ord upper n k) = 0 := by
    obtain ⟨i, hi, h0⟩ := hd
    exact ⟨ord upper n i, ord_lt hi, by rw [ord_ord hi]; exact h0⟩
  obtain ⟨hk, h0⟩ := Nat.find_spec hex
  have hmin : ∀ j, j < Nat.find hex → t (ord upper n j) (ord upper n j) ≠ 0 := fun j hj h => Nat.find_min hex hj ⟨by omega, h⟩
  have C : ∀ upd, Upd H upper n t upd → colSolve true upper W V upd n s = .error .singular := by
    intro upd hu
    obtain ⟨s', e, _⟩ := colSolve_upto hV hW hu true (by omega : Nat.find hex ≤ n) hmin hs
    refine loop_error hk e ?_
    simp only [checkDiag_error hW (ord_lt hk) h0, bind_error]
  have D : ∀ red, Red H upper n t red → rowSolve true upper W V red n s = .error .singular := by
    intro red hr
    obtain ⟨s', e, _⟩ := rowSolve_upto hV hW hr true (by omega : Nat.find hex ≤ n) hmin hs
    refine loop_error hk e ?_
    simp only [checkDiag_error hW (ord_lt hk) h0, bind_error]
  simp only [vec, hW.size1, hW.size2, check_true, bind_ok]
  have d1 := C _ (colDense_upd hV hW)
  have d2 := C _ (colIter_upd hV hW)
  have d3 := D _ (rowIter_red hV hW)
  cases upper with
  | false => cases W.cat <;> cases o <;> simp only <;> assumption
  | true =>
    have d4 := D _ (rowDense_red hV hW)
    cases W.cat <;> cases o <;> simp only <;> assumption

theorem tri_diag {unit : Bool} {a : Nat → Nat → R} (hd : unit = false → ∀ i, i < n → a i i ≠ 0) : ∀ i, i < n → tri upper unit a i i ≠ 0 := by
  intro i hi
  cases unit with
  | false => simpa [tri] using hd rfl i hi
  | true => simp [tri]

/-- **C37**, `inplace_solve (A, v, tag)`: for every storage category and orientation of `A`, every tag and every vector `v` with element access, the result `x` satisfies
`T x = b` where `T` is the named triangle of `A` (with a unit diagonal for the unit tags) and `b` the old value of `v`. -/
theorem C37_vector {A : MSeq R} {a : Nat → Nat → R} (hV : V.Lawful (· < n) H) (hA : A.Presents n n a) (dbg : Bool) (upper unit : Bool) (o : Orient)
    (hd : unit = false → ∀ i, i < n → a i i ≠ 0) {s : σ} {b : Nat → R} (hs : H s b) :
    ∃ s' x, inplace dbg upper unit o A V n s = .ok s' ∧ H s' x ∧ ∀ m, m < n → ∑ j ∈ range n, tri upper unit a m j * x j = b m :=
  vec_ok hV (side_wrap hA upper unit dbg) dbg o (tri_diag hd) hs

/-- **C37**, `inplace_solve (v, A, tag)`: `x T = b`. -/
theorem C37_left {A : MSeq R} {a : Nat → Nat → R} (hV : V.Lawful (· < n) H) (hA : A.Presents n n a) (dbg : Bool) (upper unit : Bool) (o : Orient)
    (hd : unit = false → ∀ i, i < n → a i i ≠ 0) {s : σ} {b : Nat → R} (hs : H s b) :
    ∃ s' x, inplaceLeft dbg upper unit o A V n s = .ok s' ∧ H s' x ∧ ∀ j, j < n → ∑ i ∈ range n, x i * tri upper unit a i j = b j := by
  obtain ⟨s', x, e, h1, h2⟩ := vec_ok hV (side_wrap hA upper unit dbg).trans dbg o.transposed (tri_diag hd) hs
  exact ⟨s', x, e, h1, fun j hj => by rw [← h2 j hj]; exact sum_congr rfl fun i _ => mul_comm _ _⟩

/-- **C37**, singular: with the debug checks on, a zero on the diagonal is reported. -/
theorem C37_singular {A : MSeq R} {a : Nat → Nat → R} (hV : V.Lawful (· < n) H) (hA : A.Presents n n a) (upper : Bool) (o : Orient)
    (hd : ∃ i, i < n ∧ a i i = 0) {s : σ} {b : Nat → R} (hs : H s b) :
    inplace true upper false o A V n s = .error .singular ∧ inplaceLeft true upper false o A V n s = .error .singular := by
  have hd' : ∀ u, ∃ i, i < n ∧ tri u false a i i = 0 := fun u => by
    obtain ⟨i, hi, h0⟩ := hd
    exact ⟨i, hi, by simpa [tri] using h0⟩
  exact ⟨vec_singular hV (side_wrap hA upper false true) o (hd' _) hs, vec_singular hV (side_wrap hA upper false true).trans o.transposed (hd' _) hs⟩

/-- The equation determines the result: no other vector satisfies it. -/
theorem C37_unique (upper unit : Bool) (a : Nat → Nat → R) (hd : unit = false → ∀ i, i < n → a i i ≠ 0) (x y : Nat → R)
    (h : ∀ m, m < n → ∑ j ∈ range n, tri upper unit a m j * x j = ∑ j ∈ range n, tri upper unit a m j * y j) : ∀ i, i < n → x i = y i := by
  have hz : ∀ i j, i < n → j < n → i ≠ j → ¬ Strict upper i j → tri upper unit a i j = 0 := fun i j _ _ h1 h2 => by rw [tri, if_neg h1, if_neg h2]
  have key : ∀ k, k < n → x (ord upper n k) = y (ord upper n k) := by
    intro k
    induction k using Nat.strong_induction_on with
    | _ k ih =>
      intro hk
      have h1 := h (ord upper n k) (ord_lt hk)
      rw [sum_ord upper, sum_ord upper n fun j => tri upper unit a (ord upper n k) j * y j] at h1
      have split : ∀ z : Nat → R, ∑ i ∈ range n, tri upper unit a (ord upper n k) (ord upper n i) * z (ord upper n i) =
          ∑ i ∈ range (k + 1), tri upper unit a (ord upper n k) (ord upper n i) * z (ord upper n i) := by
        intro z
        symm
        refine sum_subset (fun i hi => by simp at hi ⊢; omega) fun i hi hn => ?_
        have hi' : i < n := by simpa using hi
        have hn' : k < i := by simp at hn; omega
        rw [hz _ _ (ord_lt hk) (ord_lt hi'), zero_mul]
        · intro e; rw [ord_inj hk hi'] at e; omega
        · rw [strict_ord hk hi']; omega
      rw [split x, split y, sum_range_succ, sum_range_succ, sum_congr rfl fun i hi => by
        have hi' : i < k := by simpa using hi
        rw [ih i hi' (by omega)]] at h1
      exact mul_left_cancel₀ (tri_diag hd _ (ord_lt hk)) (add_left_cancel h1)
  intro i hi
  have := key (ord upper n i) (ord_lt hi)
  rwa [ord_ord hi] at this

end vec

/-! ## The matrix solver -/

theorem column_lawful {V : Acc σ (Nat × Nat) R} {n q : Nat} {H : σ → (Nat × Nat → R) → Prop} (hV : V.Lawful (fun p => p.1 < n ∧ p.2 < q) H) {l : Nat} (hl : l < q) (w : Nat × Nat → R) :
    (column V l).Lawful (· < n) (fun s v => H s (fun p => if p.2 = l then v p.1 else w p)) where
  get s v hs i hi := by
    have := hV.get s _ hs (i, l) ⟨hi, hl⟩
    simpa [column] using this
  set s v hs i hi t := by
    obtain ⟨s', e, h⟩ := hV.set s _ hs (i, l) ⟨hi, hl⟩ t
    refine ⟨s', e, ?_⟩
    convert h using 2 with p
    obtain ⟨p1, p2⟩ := p
    simp only [Function.update_apply, Prod.mk.injEq]
    by_cases h2 : p2 = l <;> simp [h2]

theorem mat_upto {V : Acc σ (Nat × Nat) R} {n q : Nat} {H : σ → (Nat × Nat → R) → Prop} (hV : V.Lawful (fun p => p.1 < n ∧ p.2 < q) H) {A : MSeq R} {a : Nat → Nat → R}
    (hA : A.Presents n n a) (dbg upper unit : Bool) {k : Nat} (hk : k ≤ n) (hd : ∀ j, j < k → tri upper unit a (ord upper n j) (ord upper n j) ≠ 0) {s : σ} {b : Nat × Nat → R} (hs : H s b) :
    ∃ s', loop (fun k s => (do
      let m := ord upper n k
      checkDiag dbg (wrap dbg upper unit A) m
      loop (fun j s => (do
        let l := ord upper q j
        let C := column V l
        colStep (wrap dbg upper unit A) C (if A.cat = .dense then colDense upper (wrap dbg upper unit A) C n else colIter upper (wrap dbg upper unit A) C (wrap dbg upper unit A).size1) m s : M σ)) q s : M σ)) k s = .ok s' ∧
      ∃ x, H s' x ∧ ∀ l, l < q → ColInv upper n (tri upper unit a) (fun m => b (m, l)) k (fun m => x (m, l)) := by
  have hW := side_wrap hA upper unit dbg
  refine loop_inv (fun k s => ∃ x, H s x ∧ ∀ l, l < q → ColInv upper n (tri upper unit a) (fun m => b (m, l)) k (fun m => x (m, l)))
    ⟨b, hs, fun l hl => ⟨fun j hj => by omega, fun j _ _ => by simp⟩⟩ ?_
  rintro m s hm ⟨w, h1, h2⟩
  simp only [checkDiag_ok hW dbg (ord_lt (by omega)) (hd m hm), bind_ok]
  have hin := loop_inv (n := q) (s := s) (f := fun j s => (do
        let l := ord upper q j
        let C := column V l
        colStep (wrap dbg upper unit A) C (if A.cat = .dense then colDense upper (wrap dbg upper unit A) C n else colIter upper (wrap dbg upper unit A) C (wrap dbg upper unit A).size1) (ord upper n m) s : M σ))
    (fun j s => ∃ x, H s x ∧ ∀ l, l < q → ColInv upper n (tri upper unit a) (fun m => b (m, l)) (if ord upper q l < j then m + 1 else m) (fun m => x (m, l)))
    ⟨w, h1, fun l hl => by simpa using h2 l hl⟩ (by
      rintro j s hj ⟨x, h3, h4⟩
      have hl := ord_lt (upper := upper) hj
      have hC := column_lawful hV hl x
      have hI := h4 _ hl
      rw [if_neg (by rw [ord_ord hj]; omega)] at hI
      have hu : Upd (fun s v => H s (fun p => if p.2 = ord upper q j then v p.1 else x p)) upper n (tri upper unit a)
          (if A.cat = .dense then colDense upper (wrap dbg upper unit A) (column V (ord upper q j)) n else colIter upper (wrap dbg upper unit A) (column V (ord upper q j)) (wrap dbg upper unit A).size1) := by
        split
        · exact colDense_upd hC hW
        · rw [hW.size1]; exact colIter_upd hC hW
      have h3' : H s (fun p => if p.2 = ord upper q j then (fun m => x (m, ord upper q j)) p.1 else x p) := by
        convert h3 using 2 with p
        obtain ⟨p1, p2⟩ := p
        simp only
        split
        · next h => rw [h]
        · rfl
      obtain ⟨s', w', e, h5, h6⟩ := colStep_ok hC hW hu (by omega : m < n) (hd m hm) (w := fun m => x (m, ord upper q j)) h3' hI
      refine ⟨s', e, _, h5, fun l hlq => ?_⟩
      by_cases hlj : l = ord upper q j
      · subst hlj
        simp only [ord_ord hj, Nat.lt_succ_self, if_true]
        exact h6
      · simp only [hlj, if_false]
        have := h4 l hlq
        have hne : ord upper q l ≠ j := fun e => hlj (by rw [← e, ord_ord hlq])
        have hiff : (ord upper q l < j + 1) ↔ ord upper q l < j := by omega
        simp only [hiff]
        exact this)
  obtain ⟨s', e, x, h3, h4⟩ := hin
  exact ⟨s', e, x, h3, fun l hl => by simpa [ord_lt hl] using h4 l hl⟩

/-- **C37**, `inplace_solve (A, B, tag)`: every column of the result `X` satisfies `T X = B`. -/
theorem C37_matrix {V : Acc σ (Nat × Nat) R} {n q : Nat} {H : σ → (Nat × Nat → R) → Prop} (hV : V.Lawful (fun p => p.1 < n ∧ p.2 < q) H) {A : MSeq R} {a : Nat → Nat → R}
    (hA : A.Presents n n a) (dbg upper unit : Bool) (hd : unit = false → ∀ i, i < n → a i i ≠ 0) {s : σ} {b : Nat × Nat → R} (hs : H s b) :
    ∃ s' x, inplaceMat dbg upper unit A V n q s = .ok s' ∧ H s' x ∧ ∀ m l, m < n → l < q → ∑ j ∈ range n, tri upper unit a m j * x (j, l) = b (m, l) := by
  have hW := side_wrap hA upper unit dbg
  obtain ⟨s', e, x, h1, h2⟩ := mat_upto hV hA dbg upper unit (Nat.le_refl n) (fun j hj => tri_diag hd _ (ord_lt hj)) hs
  refine ⟨s', x, ?_, h1, fun m l hm hl => (h2 l hl).1.solved hW.zero m hm⟩
  have c1 : (wrap dbg upper unit A).size1 = (wrap dbg upper unit A).size2 := by rw [hW.size1, hW.size2]
  simp only [inplaceMat, check_true c1, check_true hW.size2, bind_ok]
  exact e

/-- **C37**, singular matrix systems: reported in debug builds. -/
theorem C37_matrix_singular {V : Acc σ (Nat × Nat) R} {n q : Nat} {H : σ → (Nat × Nat → R) → Prop} (hV : V.Lawful (fun p => p.1 < n ∧ p.2 < q) H) {A : MSeq R} {a : Nat → Nat → R}
    (hA : A.Presents n n a) (upper : Bool) (hd : ∃ i, i < n ∧ a i i = 0) {s : σ} {b : Nat × Nat → R} (hs : H s b) :
    inplaceMat true upper false A V n q s = .error .singular := by
  have hW := side_wrap hA upper false true
  have hex : ∃ k, k < n ∧ tri upper false a (ord upper n k) (ord upper n k) = 0 := by
    obtain ⟨i, hi, h0⟩ := hd
    exact ⟨ord upper n i, ord_lt hi, by rw [ord_ord hi]; simpa [tri] using h0⟩
  obtain ⟨hk, h0⟩ := Nat.find_spec hex
  have hmin : ∀ j, j < Nat.find hex → tri upper false a (ord upper n j) (ord upper n j) ≠ 0 := fun j hj h => Nat.find_min hex hj ⟨by omega, h⟩
  obtain ⟨s', e, _⟩ := mat_upto hV hA true upper false (by omega : Nat.find hex ≤ n) hmin hs
  have c1 : (wrap true upper false A).size1 = (wrap true upper false A).size2 := by rw [hW.size1, hW.size2]
  simp only [inplaceMat, check_true c1, check_true hW.size2, bind_ok]
  refine loop_error hk e ?_
  simp only [checkDiag_error hW (ord_lt hk) h0, bind_error]

/-! ## Containers as right-hand sides -/

/-- A dense vector. -/
theorem vector_lawful (dbg : Bool) (n : Nat) : (VT.view dbg n id : VT (List R) R).acc.Lawful (· < n) (fun v w => Ublas.Holds v n w) where
  get v w h i hi := by
    show (do check dbg (i < n) .badIndex; rd dbg v (id i)) = _
    rw [check_true hi, bind_ok]
    exact rd_eq_ok.2 (h.2 i hi)
  set v w h i hi t := by
    refine ⟨v.set i t, ?_, by simpa using h.1, fun k hk => ?_⟩
    · show (do check dbg (i < n) .badIndex; wr dbg v (id i) t) = _
      rw [check_true hi, bind_ok]
      exact wr_ok (by rw [h.1]; exact hi)
    · rw [List.getElem?_set, Function.update_apply]
      by_cases e : i = k
      · subst e; simp [h.1, hk]
      · have e' : ¬ k = i := fun h => e h.symm
        simp [e, e', h.2 k hk]

/-- A dense matrix of shape `r` x `c` with the elements `w`. -/
def DHolds (dbg : Bool) (o : Orient) (r c : Nat) (m : Dense R) (w : Nat × Nat → R) : Prop :=
  m.WF ∧ m.size1 = r ∧ m.size2 = c ∧ ∀ i j, i < r → j < c → m.get dbg o i j = .ok (w (i, j))

omit [Field R] [DecidableEq R] in
theorem dense_lawful (dbg : Bool) (o : Orient) (r c : Nat) : (Dense.acc dbg o : Acc (Dense R) _ R).Lawful (fun p => p.1 < r ∧ p.2 < c) (DHolds dbg o r c) where
  get m w h p hp := h.2.2.2 p.1 p.2 hp.1 hp.2
  set m w h p hp t := by
    obtain ⟨h1, h2, h3, h4⟩ := h
    subst h2 h3
    have e := Dense.set_eq dbg o m h1 t hp.1 hp.2
    obtain ⟨a1, a2, a3, a4⟩ := Dense.get_set dbg o m _ h1 t hp.1 hp.2 e
    refine ⟨_, e, a1, a2, a3, fun i j hi hj => ?_⟩
    rw [a4 i j hi hj, Function.update_apply]
    by_cases hp' : (i, j) = p
    · subst hp'; simp
    · rw [if_neg hp', if_neg, h4 i j hi hj]
      rintro ⟨rfl, rfl⟩; exact hp' rfl

/-- A compressed matrix of shape `r` x `c` whose elements (zero where none is stored) are `w`. -/
def CHolds (o : Orient) (IB : Nat) (r c : Nat) (m : CMat R) (w : Nat × Nat → R) : Prop :=
  ∃ st, CMat.Inv o IB m st ∧ st.rows = r ∧ st.cols = c ∧ ∀ i j, i < r → j < c → (st.val (i, j)).getD 0 = w (i, j)

omit [DecidableEq R] in
theorem compressed_lawful (dbg : Bool) (o : Orient) (IB : Nat) (junk : CMat.Junk R) (r c : Nat) :
    (CMat.acc dbg o IB junk).Lawful (fun p => p.1 < r ∧ p.2 < c) (CHolds (R := R) o IB r c) where
  get m w h p hp := by
    obtain ⟨st, h1, rfl, rfl, h4⟩ := h
    rw [← h4 p.1 p.2 hp.1 hp.2]
    exact (h1.observes dbg o IB 0).2.2.1 p.1 p.2 hp.1 hp.2
  set m w h p hp t := by
    obtain ⟨st, h1, rfl, rfl, h4⟩ := h
    obtain ⟨m', e, h'⟩ := CMat.step_inv dbg o IB 0 junk m st (.modify p.1 p.2 fun _ => t) h1 hp
    refine ⟨m', e, _, h', rfl, rfl, fun i j hi hj => ?_⟩
    rw [Function.update_apply, ← h4 i j hi hj]
    simp only [SparseSpec.cmstep]
    by_cases hp' : (i, j) = p
    · subst hp'; simp
    · simp [hp']

/-- **C37**, into a `vector`: the whole contents. -/
theorem C37_into_vector {A : MSeq R} {n : Nat} {a : Nat → Nat → R} (hA : A.Presents n n a) (dbg upper unit : Bool) (o : Orient)
    (hd : unit = false → ∀ i, i < n → a i i ≠ 0) (v : List R) (hv : v.length = n) :
    ∃ x : List R, inplace dbg upper unit o A (VT.view dbg n id).acc n v = .ok x ∧ x.length = n ∧
      ∀ m (hm : m < n), ∑ j ∈ range n, tri upper unit a m j * x.getD j 0 = v[m] := by
  obtain ⟨s', x, e, h1, h2⟩ := C37_vector (vector_lawful dbg n) hA dbg upper unit o hd (s := v) (b := fun i => v.getD i 0) ⟨hv, fun i hi => by simp [List.getD, hv, hi]⟩
  refine ⟨s', e, h1.1, fun m hm => ?_⟩
  have := h2 m hm
  rw [show v.getD m 0 = v[m] by simp [List.getD, hv, hm]] at this
  rw [← this]
  refine sum_congr rfl fun j hj => ?_
  rw [List.getD, h1.2 j (by simpa using hj)]; rfl

/-- **C37**, into a dense matrix. -/
theorem C37_into_matrix {A : MSeq R} {n q : Nat} {a : Nat → Nat → R} (hA : A.Presents n n a) (dbg upper unit : Bool) (o : Orient)
    (hd : unit = false → ∀ i, i < n → a i i ≠ 0) (B : Dense R) (b : Nat × Nat → R) (hB : DHolds dbg o n q B b) :
    ∃ X x, inplaceMat dbg upper unit A (Dense.acc dbg o) n q B = .ok X ∧ DHolds dbg o n q X x ∧
      ∀ m l, m < n → l < q → ∑ j ∈ range n, tri upper unit a m j * x (j, l) = b (m, l) :=
  C37_matrix (dense_lawful dbg o n q) hA dbg upper unit hd hB

/-- **C37**, into a compressed matrix. -/
theorem C37_into_compressed_matrix {A : MSeq R} {n q : Nat} {a : Nat → Nat → R} (hA : A.Presents n n a) (dbg upper unit : Bool) (o : Orient) (IB : Nat) (junk : CMat.Junk R)
    (hd : unit = false → ∀ i, i < n → a i i ≠ 0) (B : CMat R) (b : Nat × Nat → R) (hB : CHolds o IB n q B b) :
    ∃ X x, inplaceMat dbg upper unit A (CMat.acc dbg o IB junk) n q B = .ok X ∧ CHolds o IB n q X x ∧
      ∀ m l, m < n → l < q → ∑ j ∈ range n, tri upper unit a m j * x (j, l) = b (m, l) :=
  C37_matrix (compressed_lawful dbg o IB junk n q) hA dbg upper unit hd hB

/-- **C37**, into a compressed vector. -/
theorem C37_into_compressed_vector {A : MSeq R} {n : Nat} {a : Nat → Nat → R} (hA : A.Presents n n a) (dbg upper unit : Bool) (o : Orient) (IB : Nat) (junk : CVec.Junk R)
    (hd : unit = false → ∀ i, i < n → a i i ≠ 0) (v : CVec R) (b : Nat → R) (hv : Axpy.Holds (CVecRep IB) n v b) :
    ∃ v' x, inplace dbg upper unit o A (VT.compressed dbg IB junk).acc n v = .ok v' ∧ Axpy.Holds (CVecRep IB) n v' x ∧
      ∀ m, m < n → ∑ j ∈ range n, tri upper unit a m j * x j = b m :=
  C37_vector (Axpy.acc_lawful (Axpy.grows_of (compressed_supports dbg IB junk) (by simp)) (Axpy.compressed_readsAll dbg IB junk)) hA dbg upper unit o hd hv

/-- **C37**, `solve (A, b, tag)` and `solve (b, A, tag)`: a fresh vector with the solution; any vector expression as the right-hand side. -/
theorem C37_solve {A : MSeq R} {n : Nat} {a : Nat → Nat → R} (hA : A.Presents n n a) (dbg upper unit : Bool) (mode : ProdFn.Mode) (junk : Nat → R) (o : Orient)
    (hd : unit = false → ∀ i, i < n → a i i ≠ 0) (e : Seq R) (b : Nat → R) (he : e.Presents n b) :
    (∃ r x, solveVec dbg mode junk upper unit o A e = .ok r ∧ Ublas.Holds r n x ∧ ∀ m, m < n → ∑ j ∈ range n, tri upper unit a m j * x j = b m) ∧
    (∃ r x, solveLeft dbg mode junk upper unit o A e = .ok r ∧ Ublas.Holds r n x ∧ ∀ j, j < n → ∑ i ∈ range n, x i * tri upper unit a i j = b j) := by
  obtain ⟨v, e1, h1⟩ := vectorFrom_ok dbg mode junk e n b he
  have h1' := h1.1
  constructor
  · obtain ⟨s', x, e2, h2, h3⟩ := C37_vector (vector_lawful dbg n) hA dbg upper unit o hd h1
    exact ⟨s', x, by simp only [solveVec, e1, bind_ok, h1']; exact e2, h2, h3⟩
  · obtain ⟨s', x, e2, h2, h3⟩ := C37_left (vector_lawful dbg n) hA dbg upper unit o hd h1
    exact ⟨s', x, by simp only [solveLeft, e1, bind_ok, h1']; exact e2, h2, h3⟩

/-! ## Concrete cases -/

/-- A full 3 x 3 dense matrix: both triangles hold something. -/
def exA : MSeq ℚ :=
  let a := fun i j => ([[2, 1, 3], [4, 5, -1], [1, -2, 4]] : List (List ℚ)).getD i [] |>.getD j 0
  ⟨3, 3, .dense, fun i => (List.range 3).map fun j => (j, a i j), fun j => (List.range 3).map fun i => (i, a i j), fun i j => .ok (a i j)⟩
/-- The same with sparse iterators. -/
def exS : MSeq ℚ := { exA with cat := .sparse }

example : inplace true false false .row exA (VT.view true 3 id).acc 3 [2, 9, 3] = .ok [1, 1, 1] := by decide +kernel
example : inplace true true true .col exS (VT.view true 3 id).acc 3 [2, 9, 3] = .ok [-19, 12, 3] := by decide +kernel
example : inplace false true false .row exA (VT.view false 3 id).acc 3 [6, 4, 4] = inplace true true false .col exS (VT.view true 3 id).acc 3 [6, 4, 4] := by decide +kernel
example : inplaceLeft true true false .row exS (VT.view true 3 id).acc 3 [2, 6, 6] = .ok [1, 1, 1] := by decide +kernel
example : inplace true false false .row { exA with at_ := fun i j => .ok (if i = j then 0 else 1) } (VT.view true 3 id).acc 3 [6, 4, 4] = .error .singular := by decide +kernel
example : (do
    let X ← inplaceMat true false true exA (Dense.acc true .row) 3 2 ⟨3, 2, [1, 0, 4, 1, 1, 5]⟩
    .ok X.data : M (List ℚ)) = .ok [1, 0, 0, 1, 0, 7] := by decide +kernel

/-- **C37** with a dense matrix on the left and a dense vector on the right, in the containers' own terms. -/
theorem C37_dense (dbg upper unit : Bool) (o : Orient) (A : Dense R) (hw : A.WF) (hsq : A.size2 = A.size1)
    (hd : unit = false → ∀ i, i < A.size1 → A.get dbg o i i ≠ .ok 0) (v : List R) (hv : v.length = A.size1) :
    ∃ (q : MSeq R) (x : List R), q.Of A.size1 A.size2 .dense (A.rowEls dbg o) (A.colEls dbg o) (A.get dbg o) ∧
      inplace dbg upper unit o q (VT.view dbg A.size1 id).acc A.size1 v = .ok x ∧ x.length = A.size1 ∧
      ∀ m (hm : m < A.size1), ∑ j ∈ range A.size1, tri upper unit (elem (A.get dbg o)) m j * x.getD j 0 = v[m] := by
  obtain ⟨q, h1, h2⟩ := dense_operand dbg o A hw
  rw [hsq] at h2
  obtain ⟨x, e, h3, h4⟩ := C37_into_vector h2 dbg upper unit o (fun hu i hi h0 => by
    refine hd hu i hi ?_
    have e1 : q.at_ i i = .ok (elem (A.get dbg o) i i) := (h2.rows i hi).at_ i hi
    rw [h1.2.2.2.2.2] at e1
    rw [e1, h0]) v hv
  exact ⟨q, x, h1, e, h3, h4⟩

end Ublas.Solve
