import Verif.Props.TensorVec
/-! # C54: tensor times matrix -/
namespace Ublas.Tens
variable {R : Type}

/-- The loop over a mode other than `m`. -/
def ttmLvl (m : Nat) (wc na wa : List Nat) (j : Nat) : Nat × Ptrs := (na.getD (up m j) 0, ⟨wc.getD (up m j) 0, wa.getD (up m j) 0, 0⟩)
/-- The loop over mode `m` of the result. -/
def ttmRow (m : Nat) (nc wc wb : List Nat) : Nat × Ptrs := (nc.getD m 0, ⟨wc.getD m 0, 0, wb.getD 0 0⟩)
/-- The contracted loop. -/
def ttmIn (m : Nat) (wa nb wb : List Nat) : Nat × Ptrs := (nb.getD 1 0, ⟨0, wa.getD m 0, wb.getD 1 0⟩)

theorem ttmRec_eq [Add R] [Mul R] {m : Nat} {nc wc na wa nb wb : List Nat} {a b : List R} (hm0 : 0 < m) (hm : m < na.length) (hnc : nc.length = na.length) (h0 : nc.getD 0 0 = na.getD 0 0) (hwa : wa.length = na.length)
    (hwc : wc.length = na.length) (hnb : 2 ≤ nb.length) (hwb : 2 ≤ wb.length) {r : Nat} (hr : r < na.length) :
    ttmRec m nc wc na wa nb wb a b r = nest (desc (ttmLvl m wc na wa) (if r < m then r else r - 1) ++ [ttmRow m nc wc wb] ++ [ttmIn m wa nb wb]) (mac a b) := by
  induction r with
  | zero =>
    funext p c
    rw [if_pos hm0, ttmRec.eq_def]
    simp only
    rw [if_neg (by omega), rd_getD (by omega), rd_getD (by omega), rd_getD (by omega), rd_getD (show m < nc.length by omega), rd_getD (show m < wc.length by omega), rd_getD (show 0 < wb.length by omega),
      rd_getD (show 1 < nb.length by omega), rd_getD (show m < wa.length by omega), rd_getD (show 1 < wb.length by omega)]
    simp only [bind_ok]
    have hu : up m 0 = 0 := by unfold up; rw [if_pos hm0]
    simp only [desc_zero, List.singleton_append, List.cons_append, nest, ttmLvl, ttmRow, ttmIn, hu, h0, List.nil_append]
  | succ r ih =>
    have ih := ih (by omega)
    funext p c
    rw [ttmRec.eq_def]
    simp only
    by_cases h1 : r + 1 = m
    · rw [if_pos h1, if_neg (by omega), show r + 1 - 1 = r by omega]
      rw [if_pos (by omega)] at ih
      rw [ih]
    · rw [if_neg h1, rd_getD hr, rd_getD (by omega), rd_getD (by omega)]
      simp only [bind_ok]
      by_cases h2 : r + 1 < m
      · rw [if_pos h2]
        rw [if_pos (by omega)] at ih
        have hu : up m (r + 1) = r + 1 := by unfold up; rw [if_pos h2]
        rw [ih, desc_succ]
        simp only [List.cons_append, nest, ttmLvl, hu]
      · rw [if_neg h2]
        rw [if_neg (by omega)] at ih
        rw [ih]
        obtain ⟨t, rfl⟩ : ∃ t, r = t + 1 := ⟨r - 1, by omega⟩
        rw [show t + 1 + 1 - 1 = t + 1 by omega, show t + 1 - 1 = t by omega, desc_succ]
        have hu : up m (t + 1) = t + 2 := by unfold up; rw [if_neg (by omega)]
        simp only [List.cons_append, nest, ttmLvl, hu]

theorem ttm0Rec_eq [Add R] [Mul R] {nc wc na wa nb wb : List Nat} {a b : List R} (hnc : nc.length = na.length) (h1 : nc.getD 1 0 = na.getD 1 0) (hwa : wa.length = na.length)
    (hwc : wc.length = na.length) (hnb : 2 ≤ nb.length) (hs : ∀ k ∈ nb, k < 2 ^ 32) (hwb : 2 ≤ wb.length) {r : Nat} (hr : r + 1 < na.length) :
    ttm0Rec nc wc na wa nb wb a b r = nest (desc (ttmLvl 0 wc na wa) r ++ [ttmRow 0 nc wc wb] ++ [ttmIn 0 wa nb wb]) (mac a b) := by
  induction r with
  | zero =>
    funext p c
    rw [ttm0Rec, rd_getD (by omega), rd_getD (by omega), rd_getD (by omega), rd_getD (show 0 < nc.length by omega), rd_getD (show 0 < wc.length by omega), rd_getD (show 0 < wb.length by omega),
      rd_getD (show 1 < nb.length by omega), rd_getD (show 0 < wa.length by omega), rd_getD (show 1 < wb.length by omega)]
    simp only [bind_ok]
    rw [sweep32_eq (hs _ (getD_mem (by omega))), desc_zero, h1]
    rfl
  | succ r ih =>
    funext p c
    rw [ttm0Rec, rd_getD hr, rd_getD (by omega), rd_getD (by omega)]
    simp only [bind_ok]
    rw [ih (by omega), desc_succ]
    rfl

theorem insert_erase_getD {i : List Nat} {m : Nat} (h : m < i.length) : (i.eraseIdx m).insertIdx m (i.getD m 0) = i := by
  rw [getD_lt h, List.insertIdx_eraseIdx_getElem h]

theorem insert_erase_set {i : List Nat} {m k : Nat} (h : m < i.length) : (i.eraseIdx m).insertIdx m k = i.set m k := by
  induction m generalizing i with
  | zero =>
    cases i with
    | nil => simp at h
    | cons x i => rfl
  | succ m ih =>
    cases i with
    | nil => simp at h
    | cons x i => simp only [List.eraseIdx_cons_succ, List.insertIdx_succ_cons, List.set_cons_succ]; rw [ih (by simpa using h)]

theorem erase_insert {i : List Nat} {m k : Nat} (h : m ≤ i.length) : (i.insertIdx m k).eraseIdx m = i ∧ (i.insertIdx m k).getD m 0 = k := by
  induction m generalizing i with
  | zero => exact ⟨rfl, rfl⟩
  | succ m ih =>
    cases i with
    | nil => simp at h
    | cons x i =>
      obtain ⟨h1, h2⟩ := ih (i := i) (by simpa using h)
      exact ⟨by rw [List.insertIdx_succ_cons, List.eraseIdx_cons_succ, h1], by rw [List.insertIdx_succ_cons, List.getD_cons_succ, h2]⟩

theorem getD_erase_set (e : List Nat) (m k : Nat) : (e.set m k).eraseIdx m = e.eraseIdx m := by
  induction m generalizing e with
  | zero => cases e <;> rfl
  | succ m ih =>
    cases e with
    | nil => rfl
    | cons x e => rw [List.set_cons_succ, List.eraseIdx_cons_succ, List.eraseIdx_cons_succ, ih]

theorem getD_set_self {e : List Nat} {m k : Nat} (h : m < e.length) : (e.set m k).getD m 0 = k := by
  rw [getD_lt (by simpa using h)]; simp

/-- What the loops compute. -/
theorem ttm_core [NonUnitalNonAssocSemiring R] {m q n1 n2 : Nat} {na wa wc nb wb : List Nat} {a b c : List R} {f old : List Nat → R} {g : List Nat → R} (hp : na.length = q + 2) (hm : m < na.length)
    (hwa : wa.length = na.length) (hwc : wc.length = na.length) (hnb : ∃ t, nb = n1 :: n2 :: t) (hwb : wb.length = 2) (hn2 : na.getD m 0 = n2) (ha : Lay a na wa f) (hb : Lay b [n1, n2] wb g)
    (hd : Distinct (na.set m n1) wc) (hc : Lay c (na.set m n1) wc old) :
    ∃ c', nest (desc (ttmLvl m wc na wa) q ++ [ttmRow m (na.set m n1) wc wb] ++ [ttmIn m wa nb wb]) (mac a b) ⟨0, 0, 0⟩ c = .ok c' ∧ c'.length = c.length ∧
      Lay c' (na.set m n1) wc (fun i => old i + ∑ k ∈ Finset.range n2, f (i.set m k) * g [i.getD m 0, k]) ∧
      ∀ k, (∀ i, Valid (na.set m n1) i → dotW wc i ≠ k) → c'[k]? = c[k]? := by
  obtain ⟨t, rfl⟩ := hnb
  obtain ⟨w0, w1, rfl⟩ := List.length_eq_two.1 hwb
  have he : ((List.range (q + 1)).map fun k => (ttmLvl m wc na wa k).1) = na.eraseIdx m := map_up (p := q + 1) (by omega) (by omega)
  have hwe : ((List.range (q + 1)).map fun k => (ttmLvl m wc na wa k).2.a) = wa.eraseIdx m := map_up (p := q + 1) (by omega) (by omega)
  have hwce : ((List.range (q + 1)).map fun k => (ttmLvl m wc na wa k).2.c) = wc.eraseIdx m := map_up (p := q + 1) (by omega) (by omega)
  have hwbe : ((List.range (q + 1)).map fun k => (ttmLvl m wc na wa k).2.b) = List.replicate (q + 1) 0 := by
    rw [List.eq_replicate_iff]; simp [ttmLvl]
  have hel : (na.eraseIdx m).length = q + 1 := by rw [List.length_eraseIdx_of_lt hm]; omega
  have hael : (wa.eraseIdx m).length = q + 1 := by rw [List.length_eraseIdx_of_lt (by omega)]; omega
  have hcel : (wc.eraseIdx m).length = q + 1 := by rw [List.length_eraseIdx_of_lt (by omega)]; omega
  have hrow : (na.set m n1).getD m 0 = n1 := getD_set_self hm
  have hvl : ∀ y, Valid ((desc (ttmLvl m wc na wa) q ++ [ttmRow m (na.set m n1) wc [w0, w1]]).map (·.1)) y →
      ∃ i x, y = i.reverse ++ [x] ∧ Valid (na.eraseIdx m) i ∧ x < n1 := fun y hy => by
    rw [List.map_append, desc_fst, he] at hy
    obtain ⟨u, v, rfl, hu, hv⟩ := valid_append hy
    rcases hv with _ | ⟨hx, _ | _⟩
    refine ⟨u.reverse, _, by rw [List.reverse_reverse], hu.of_reverse, ?_⟩
    have hx : _ < (na.set m n1).getD m 0 := hx
    rwa [hrow] at hx
  have hψφ : ∀ i x, Valid (na.eraseIdx m) i → ((i.insertIdx m x).eraseIdx m).reverse ++ [(i.insertIdx m x).getD m 0] = i.reverse ++ [x] := fun i x hi => by
    obtain ⟨h1, h2⟩ := erase_insert (i := i) (m := m) (k := x) (by rw [hi.length, hel]; omega)
    rw [h1, h2]
  have htk : ∀ i x, Valid (na.eraseIdx m) i → (i.reverse ++ [x]).take (q + 1) = i.reverse ∧ (i.reverse ++ [x]).getD (q + 1) 0 = x := fun i x hi => by
    have hl : i.reverse.length = q + 1 := by rw [List.length_reverse, hi.length, hel]
    exact ⟨by rw [← hl, List.take_left], by rw [getD_lt (by simp; rw [hi.length, hel]; omega), List.getElem_append_right (by omega)]; simp⟩
  set φ : List Nat → List Nat := fun y => (y.take (q + 1)).reverse.insertIdx m (y.getD (q + 1) 0) with hφdef
  have hφ : ∀ i x, Valid (na.eraseIdx m) i → φ (i.reverse ++ [x]) = i.insertIdx m x := fun i x hi => by
    rw [hφdef]; beta_reduce; rw [(htk i x hi).1, (htk i x hi).2, List.reverse_reverse]
  obtain ⟨c', e1, e2, e3, e4⟩ := mac_index (free := desc (ttmLvl m wc na wa) q ++ [ttmRow m (na.set m n1) wc [w0, w1]]) (contr := [ttmIn m wa (n1 :: n2 :: t) [w0, w1]]) (a := a) (b := b) (c := c) (e := na.set m n1)
    (wc := wc) (old := old) (fa := fun i z => f (i.set m (z.getD 0 0))) (fb := fun i z => g [i.getD m 0, z.getD 0 0]) φ (fun i => (i.eraseIdx m).reverse ++ [i.getD m 0])
    (fun y hy => by
      obtain ⟨i, x, rfl, hi, hx⟩ := hvl y hy
      rw [hφ i x hi]
      refine ⟨valid_insert (by simpa using hm) (by rw [getD_erase_set]; exact hi) (by rw [hrow]; exact hx), hψφ i x hi, ?_⟩
      rw [dotW_insert (by omega) (by rw [hi.length, hel]; omega), List.map_append, desc_c, hwce, dotW_append (by rw [List.length_reverse, List.length_reverse, hi.length, hel, hcel]),
        dotW_reverse (by rw [hi.length, hel, hcel])]
      rfl)
    (fun i hi => by
      obtain ⟨h1, h2, h3⟩ := valid_erase (by simpa using hm) hi
      rw [getD_erase_set] at h1
      rw [hφ _ _ h1, h3]
      refine ⟨?_, rfl⟩
      rw [List.map_append, desc_fst, he]
      exact List.rel_append h1.reverse (.cons h2 .nil))
    (by simp [ttmIn]) hd hc
    (fun y z hy hz => by
      obtain ⟨i, x, rfl, hi, hx⟩ := hvl y hy
      rcases hz with _ | ⟨hk, _ | _⟩
      rename_i k
      have hk : k < n2 := hk
      rw [hφ i x hi]
      have hl : m < (i.insertIdx m x).length := by rw [List.length_insertIdx_of_le_length (by rw [hi.length, hel]; omega), hi.length, hel]; omega
      have hins : (i.insertIdx m x).set m k = i.insertIdx m k := by
        rw [← insert_erase_set hl, (erase_insert (by rw [hi.length, hel]; omega)).1]
      have := ha _ (valid_insert hm hi (show k < na.getD m 0 by rw [hn2]; exact hk))
      rw [dotW_insert (by omega) (by rw [hi.length, hel]; omega)] at this
      simp only [List.getD_cons_zero]
      rw [hins, List.map_append, desc_a, hwe, dotW_append (by rw [List.length_reverse, List.length_reverse, hi.length, hel, hael]), dotW_reverse (by rw [hi.length, hel, hael]), ← this]
      simp [ttmRow, ttmIn, dotW])
    (fun y z hy hz => by
      obtain ⟨i, x, rfl, hi, hx⟩ := hvl y hy
      rcases hz with _ | ⟨hk, _ | _⟩
      rename_i k
      have hk : k < n2 := hk
      rw [hφ i x hi, (erase_insert (by rw [hi.length, hel]; omega)).2]
      have := hb [x, k] (.cons hx (.cons hk .nil))
      rw [List.map_append, desc_b, hwbe, dotW_append (by rw [List.length_reverse, List.length_reverse, hi.length, hel, List.length_replicate]), dotW_zero (by intro x hx; simpa using hx)]
      simp only [List.getD_cons_zero]
      rw [← this]
      simp [ttmRow, ttmIn, dotW])
  refine ⟨c', e1, e2, ?_, e4⟩
  intro i hi
  rw [e3 i hi]
  rfl

/-- **C54**, `ttm` on raw memory for tensors of order two or more: for every layout given by strides, element `i` of the target grows by `∑ k, A (i with mode m replaced by k) * B (i_m, k)`, and
cells that are not elements of the target keep their values. -/
theorem C54_ttm [NonUnitalNonAssocSemiring R] {m n1 n2 : Nat} {wc na wa wb : List Nat} {a b c : List R} {f old : List Nat → R} {g : List Nat → R} (hp : 2 ≤ na.length) (hm0 : 1 ≤ m) (hm : m ≤ na.length)
    (hs : n1 < 2 ^ 32 ∧ n2 < 2 ^ 32) (hwa : wa.length = na.length) (hwc : wc.length = na.length) (hwb : wb.length = 2) (hn2 : na.getD (m - 1) 0 = n2) (ha : Lay a na wa f) (hb : Lay b [n1, n2] wb g)
    (hd : Distinct (na.set (m - 1) n1) wc) (hc : Lay c (na.set (m - 1) n1) wc old) :
    ∃ c', ttm m na.length c (na.set (m - 1) n1) wc a na wa b [n1, n2] wb = .ok c' ∧ c'.length = c.length ∧
      Lay c' (na.set (m - 1) n1) wc (fun i => old i + ∑ k ∈ Finset.range n2, f (i.set (m - 1) k) * g [i.getD (m - 1) 0, k]) ∧
      ∀ k, (∀ i, Valid (na.set (m - 1) n1) i → dotW wc i ≠ k) → c'[k]? = c[k]? := by
  obtain ⟨q, hq⟩ : ∃ q, na.length = q + 2 := ⟨na.length - 2, by omega⟩
  obtain ⟨c', e1, e2, e3, e4⟩ := ttm_core (nb := [n1, n2]) hq (show m - 1 < na.length by omega) hwa hwc ⟨[], rfl⟩ hwb hn2 ha hb hd hc
  refine ⟨c', ?_, e2, e3, e4⟩
  have hl : (na.set (m - 1) n1).length = na.length := by simp
  have hget : ∀ i, i ≠ m - 1 → (na.set (m - 1) n1).getD i 0 = na.getD i 0 := fun i hi => by
    rw [List.getD_eq_getElem?_getD, List.getD_eq_getElem?_getD, List.getElem?_set_ne (by omega)]
  have x1 : expectEqual (fun i => rd false na i) (fun i => rd false (na.set (m - 1) n1) i) (m - 1) = .ok () :=
    expectEqual_of (x := fun i => na.getD i 0) (fun i hi => rd_getD (by omega)) (fun i hi => by
      show rd false _ i = _
      rw [rd_getD (by omega), hget i (by omega)])
  have x2 : expectEqual (fun i => rd false na (m + i)) (fun i => rd false (na.set (m - 1) n1) (m + i)) (na.length - m) = .ok () :=
    expectEqual_of (x := fun i => na.getD (m + i) 0) (fun i hi => rd_getD (by omega)) (fun i hi => by
      show rd false _ _ = _
      rw [rd_getD (by omega), hget _ (by omega)])
  rw [ttm, if_neg (by omega), x1, x2]
  simp only [bind_ok]
  rw [rd_getD (l := [n1, n2]) (k := 0) (by simp), rd_getD (l := [n1, n2]) (k := 1) (by simp), rd_getD (show m - 1 < na.length by omega), rd_getD (show m - 1 < (na.set (m - 1) n1).length by omega)]
  simp only [bind_ok, List.getD_cons_zero, List.getD_cons_succ, ne_eq]
  rw [if_neg (by rw [hn2, getD_set_self (by omega)]; simp)]
  by_cases hm1 : m = 1
  · subst hm1
    rw [if_neg (by simp), ttm0Rec_eq hl (hget 1 (by omega)) hwa hwc (by simp) (by simp; exact hs) (by omega) (by omega), show na.length - 2 = q by omega]
    exact e1
  · rw [if_pos hm1, ttmRec_eq (by omega) (by omega) hl (hget 0 (by omega)) hwa hwc (by simp) (by omega) (by omega), if_neg (by omega), show na.length - 1 - 1 = q by omega]
    exact e1

theorem set_positive {e : List Nat} {m n : Nat} (h : ∀ k ∈ e, 0 < k) (hn : 0 < n) : ∀ k ∈ e.set m n, 0 < k := fun k hk => by
  rcases List.mem_or_eq_of_mem_set hk with h1 | h1
  · exact h k h1
  · omega

/-- **C54**, `prod (A, B, m)` for tensors of rank two or more and a matrix stored in the layout of the tensor: extent `m` becomes the number of rows of `B`, and
`C (i) = ∑ k, A (i with mode m replaced by k) * B (i_m, k)` for every multi-index. -/
theorem C54_prodMat_partial [NonUnitalNonAssocSemiring R] {L : Layout} {a : Tensor R} {e : List Nat} {f : List Nat → R} (h : Holds L a e f) (hr : 2 ≤ e.length) {m : Nat} (hm0 : 1 ≤ m) (hm : m ≤ e.length)
    {n1 n2 : Nat} (hs : n1 < 2 ^ 32 ∧ n2 < 2 ^ 32) (hn1 : 0 < n1) (hn2 : e.getD (m - 1) 0 = n2) {b : List R} {g : List Nat → R} (hb : ∀ i, Valid [n1, n2] i → b[pos L [n1, n2] i]? = some (g i)) :
    ∃ c, prodMat L 0 a n1 n2 b m = .ok c ∧ Holds L c (e.set (m - 1) n1) (fun i => ∑ k ∈ Finset.range n2, f (i.set (m - 1) k) * g [i.getD (m - 1) 0, k]) := by
  have hn2p : 0 < n2 := by rw [← hn2]; exact h.positive _ (getD_mem (by omega))
  have hpos := set_positive (m := m - 1) h.positive hn1
  have hne : e.set (m - 1) n1 ≠ [] := fun hc => by have := congrArg List.length hc; rw [List.length_set, List.length_nil] at this; omega
  obtain ⟨c, hc1, hc2⟩ := create_holds L hpos hne (0 : R)
  obtain ⟨wb, hwb1, hwb2, hwb3⟩ := toStrides_ok L [n1, n2]
  obtain ⟨d, e1, e2, e3, _⟩ := C54_ttm (wb := wb) (b := b) (g := g) hr hm0 hm hs (strides_length h) (by rw [strides_length hc2, List.length_set]) hwb2 hn2 (lay_of_holds h)
    (fun i hi => by rw [hwb3 i hi]; exact hb i hi) (distinct_of_holds hc2) (lay_of_holds hc2)
  refine ⟨{ c with data := d }, ?_, hc2.extents, hpos, hne, hc2.strides, by rw [← hc2.size]; exact e2, fun i hi => ?_⟩
  · rw [prodMat, mkExtents_ok (e := [n1, n2]) (by simp; omega), bind_ok, h.extents, if_neg (by omega), rd_getD (by omega), bind_ok, hn2, if_neg (by simp), hwb1, bind_ok, hc1, bind_ok, hc2.extents, e1,
      bind_ok]
  · have := e3 i hi
    beta_reduce at this
    rw [zero_add, (toIndex_pos hc2.strides hi).2.1] at this
    exact this

/-- **C54** refuted for rank one: every `prod (A, B, 1)` of a tensor of rank one and a matrix with matching columns reads past the end of its extents. -/
theorem C54_prodMat_rank1_refuted [Add R] [Mul R] {L : Layout} {a : Tensor R} {n n1 : Nat} {f : List Nat → R} (h : Holds L a [n] f) (hn1 : 0 < n1) (b : List R) (zero : R) :
    prodMat L zero a n1 n b 1 = .error .ub := by
  have hn : 0 < n := h.positive n (by simp)
  obtain ⟨c, hc1, hc2⟩ := create_holds L (e := [n1]) (by simpa using hn1) (by simp) zero
  obtain ⟨wb, hwb1, hwb2, hwb3⟩ := toStrides_ok L [n1, n]
  rw [prodMat, mkExtents_ok (e := [n1, n]) (by simp; omega), bind_ok, h.extents, if_neg (by simp), rd_getD (l := [n]) (k := 1 - 1) (by simp), bind_ok, if_neg (by simp), hwb1, bind_ok]
  show (create L [n1] zero >>= _) = _
  rw [hc1, bind_ok, hc2.extents]
  have : ttm 1 [n].length c.data [n1] c.strides a.data [n] a.strides b [n1, n] wb = .error .ub := by
    rw [ttm, if_neg (by simp)]
    simp only [List.length_singleton, show 1 - 1 = 0 from rfl, expectEqual, loop, bind_ok]
    rw [rd_getD (l := [n1, n]) (k := 0) (by simp), rd_getD (l := [n1, n]) (k := 1) (by simp), rd_getD (l := [n]) (k := 0) (by simp), rd_getD (l := [n1]) (k := 0) (by simp)]
    simp only [bind_ok, List.getD_cons_zero, List.getD_cons_succ]
    rw [if_neg (by simp), if_neg (by simp), ttm0Rec]
    rfl
  rw [this]
  rfl

/-- **C54**: a mode outside `1 .. rank`, or a matrix whose number of columns is not the extent of the mode, is refused. -/
theorem C54_prodMat_refused [Add R] [Mul R] {L : Layout} {a : Tensor R} {m n1 n2 : Nat} (hn : 0 < n1 ∧ 0 < n2) (h : m = 0 ∨ a.extents.length < m ∨ a.extents.getD (m - 1) 0 ≠ n2) (b : List R) (zero : R) :
    prodMat L zero a n1 n2 b m = .error .stdException := by
  rw [prodMat, mkExtents_ok (e := [n1, n2]) (by simp; omega), bind_ok]
  by_cases h0 : m = 0 ∨ a.extents.length < m
  · rw [if_pos h0]
  · rw [if_neg h0, rd_getD (by omega), bind_ok, if_pos (by omega)]

/-- A 2 x 2 x 2 tensor times a 3 x 2 matrix along its second mode. -/
example : (do
    let a ← createFrom .last [2, 2, 2] [1, 2, 3, 4, 5, 6, 7, 8]
    let c ← prodMat .last 0 a 3 2 [1, 0, 0, 1, 1, 10] 2
    .ok (c.extents, c.data) : M (List Nat × List Int)) = .ok ([2, 3, 2], [1, 2, 3, 4, 31, 42, 5, 6, 7, 8, 75, 86]) := by decide

end Ublas.Tens
