import Verif.Lemmas.TensorMul
import Mathlib.Tactic.Ring
/-! # C54: tensor times vector -/
namespace Ublas.Tens
variable {R : Type}

/-- The loop over component `j` of the result. -/
def ttvLvl (m : Nat) (wc na wa : List Nat) (j : Nat) : Nat × Ptrs := (na.getD (up m j) 0, ⟨wc.getD j 0, wa.getD (up m j) 0, 0⟩)
/-- The contracted loop. -/
def ttvIn (m : Nat) (na wa : List Nat) : Nat × Ptrs := (na.getD m 0, ⟨0, wa.getD m 0, 1⟩)

theorem ttvRec_eq [Add R] [Mul R] {m : Nat} {wc na wa : List Nat} {a b : List R} (hm0 : 0 < m) (hm : m < na.length) (hs : ∀ k ∈ na, k < 2 ^ 32) (hwa : wa.length = na.length)
    (hwc : na.length ≤ wc.length + 1) {r : Nat} (hr : r < na.length) :
    ttvRec m wc na wa a b r (if r < m then r else r - 1) = nest (desc (ttvLvl m wc na wa) (if r < m then r else r - 1) ++ [ttvIn m na wa]) (mac a b) := by
  induction r with
  | zero =>
    funext p c
    rw [if_pos hm0, ttvRec.eq_def]
    simp only
    rw [if_neg (by omega), rd_getD (by omega), rd_getD (by omega), rd_getD (by omega), rd_getD hm, rd_getD (by omega)]
    simp only [bind_ok]
    rw [sweep32_eq (hs _ (getD_mem (by omega))), sweep32_eq (hs _ (getD_mem hm)), desc_zero]
    have hu : up m 0 = 0 := by unfold up; rw [if_pos hm0]
    simp only [List.singleton_append, nest, ttvLvl, ttvIn, hu]
  | succ r ih =>
    have ih := ih (by omega)
    funext p c
    rw [ttvRec.eq_def]
    simp only
    by_cases h1 : r + 1 = m
    · rw [if_pos h1, if_neg (by omega), show r + 1 - 1 = r by omega]
      rw [if_pos (by omega)] at ih
      rw [ih]
    · rw [if_neg h1]
      by_cases h2 : r + 1 < m
      · rw [if_pos h2]
        rw [if_pos (by omega)] at ih
        rw [rd_getD hr, rd_getD (by omega), rd_getD (by omega)]
        simp only [bind_ok]
        rw [show r + 1 - 1 = r by omega, ih, sweep32_eq (hs _ (getD_mem hr)), desc_succ]
        have hu : up m (r + 1) = r + 1 := by unfold up; rw [if_pos h2]
        simp only [List.cons_append, nest, ttvLvl, hu]
      · rw [if_neg h2]
        rw [if_neg (by omega)] at ih
        rw [rd_getD hr, show r + 1 - 1 = r by omega, rd_getD (show r < wc.length by omega), rd_getD (by omega)]
        simp only [bind_ok]
        rw [ih, sweep32_eq (hs _ (getD_mem hr))]
        obtain ⟨t, rfl⟩ : ∃ t, r = t + 1 := ⟨r - 1, by omega⟩
        rw [show t + 1 - 1 = t by omega, desc_succ]
        have hu : up m (t + 1) = t + 2 := by unfold up; rw [if_neg (by omega)]
        simp only [List.cons_append, nest, ttvLvl, hu]

theorem ttv0Rec_eq [Add R] [Mul R] {wc na wa : List Nat} {a b : List R} (hs : ∀ k ∈ na, k < 2 ^ 32) (hwa : wa.length = na.length)
    (hwc : na.length ≤ wc.length + 1) {r : Nat} (hr : r + 1 < na.length) :
    ttv0Rec wc na wa a b r = nest (desc (ttvLvl 0 wc na wa) r ++ [ttvIn 0 na wa]) (mac a b) := by
  induction r with
  | zero =>
    funext p c
    rw [ttv0Rec, rd_getD hr, rd_getD (by omega), rd_getD (by omega), rd_getD (by omega), rd_getD (by omega)]
    simp only [bind_ok]
    rw [sweep32_eq (hs _ (getD_mem (by omega))), sweep32_eq (hs _ (getD_mem (by omega))), desc_zero]
    rfl
  | succ r ih =>
    funext p c
    rw [ttv0Rec, rd_getD hr, rd_getD (by omega), rd_getD (by omega)]
    simp only [bind_ok]
    rw [ih (by omega), sweep32_eq (hs _ (getD_mem hr)), desc_succ]
    rfl

/-- What the loops compute. -/
theorem ttv_core [NonUnitalNonAssocSemiring R] {m q : Nat} {na wa wc : List Nat} {a b c : List R} {f old : List Nat → R} {g : Nat → R} (hp : na.length = q + 2) (hm : m < na.length)
    (hwa : wa.length = na.length) (hwc : na.length ≤ wc.length + 1) (ha : Lay a na wa f) (hb : ∀ k, k < na.getD m 0 → b[k]? = some (g k))
    (hd : Distinct (na.eraseIdx m) (wc.take (q + 1))) (hc : Lay c (na.eraseIdx m) (wc.take (q + 1)) old) :
    ∃ c', nest (desc (ttvLvl m wc na wa) q ++ [ttvIn m na wa]) (mac a b) ⟨0, 0, 0⟩ c = .ok c' ∧ c'.length = c.length ∧
      Lay c' (na.eraseIdx m) (wc.take (q + 1)) (fun i => old i + ∑ k ∈ Finset.range (na.getD m 0), f (i.insertIdx m k) * g k) ∧
      ∀ k, (∀ i, Valid (na.eraseIdx m) i → dotW (wc.take (q + 1)) i ≠ k) → c'[k]? = c[k]? := by
  have he : ((List.range (q + 1)).map fun k => (ttvLvl m wc na wa k).1) = na.eraseIdx m := map_up (p := q + 1) (by omega) (by omega)
  have hwe : ((List.range (q + 1)).map fun k => (ttvLvl m wc na wa k).2.a) = wa.eraseIdx m := map_up (p := q + 1) (by omega) (by omega)
  have hwc' : ((List.range (q + 1)).map fun k => (ttvLvl m wc na wa k).2.c) = wc.take (q + 1) := by
    refine ext_getD (by simp; omega) fun k hk => ?_
    simp only [List.length_map, List.length_range] at hk
    rw [getD_lt (by simpa using hk), getD_lt (by rw [List.length_take]; omega), List.getElem_map, List.getElem_range, List.getElem_take]
    exact getD_lt (by omega)
  have hwb : ((List.range (q + 1)).map fun k => (ttvLvl m wc na wa k).2.b) = List.replicate (q + 1) 0 := by
    rw [List.eq_replicate_iff]; simp [ttvLvl]
  have hel : (na.eraseIdx m).length = q + 1 := by rw [List.length_eraseIdx_of_lt hm]; omega
  have hvl : ∀ y, Valid ((desc (ttvLvl m wc na wa) q).map (·.1)) y → Valid (na.eraseIdx m) y.reverse ∧ y.length = q + 1 := fun y hy => by
    rw [desc_fst, he] at hy
    have := hy.of_reverse
    exact ⟨this, by rw [← List.length_reverse, this.length, hel]⟩
  obtain ⟨c', e1, e2, e3, e4⟩ := mac_index (free := desc (ttvLvl m wc na wa) q) (contr := [ttvIn m na wa]) (a := a) (b := b) (c := c) (e := na.eraseIdx m) (wc := wc.take (q + 1)) (old := old)
    (fa := fun i z => f (i.insertIdx m (z.getD 0 0))) (fb := fun _ z => g (z.getD 0 0)) List.reverse List.reverse
    (fun y hy => by
      obtain ⟨h1, h2⟩ := hvl y hy
      refine ⟨h1, List.reverse_reverse y, ?_⟩
      rw [desc_c, hwc', ← dotW_reverse (w := wc.take (q + 1)) (i := y.reverse) (by rw [h1.length, hel, List.length_take]; omega), List.reverse_reverse])
    (fun i hi => ⟨by rw [desc_fst, he]; exact hi.reverse, List.reverse_reverse i⟩)
    (by simp [ttvIn]) hd hc
    (fun y z hy hz => by
      obtain ⟨h1, h2⟩ := hvl y hy
      rcases hz with _ | ⟨hk, _ | _⟩
      rename_i k
      have hk : k < na.getD m 0 := hk
      have := ha _ (valid_insert hm h1 hk)
      rw [dotW_insert (by omega) (by rw [h1.length, hel]; omega)] at this
      rw [desc_a, hwe, ← List.reverse_reverse y, dotW_reverse (by rw [h1.length, List.length_eraseIdx_of_lt (by omega), List.length_eraseIdx_of_lt (by omega), hwa]), List.reverse_reverse y]
      exact this)
    (fun y z hy hz => by
      rcases hz with _ | ⟨hk, _ | _⟩
      rename_i k
      have hk : k < na.getD m 0 := hk
      rw [desc_b, hwb, dotW_zero (by intro x hx; simpa using hx)]
      have := hb k hk
      simpa [ttvIn, dotW] using this)
  refine ⟨c', e1, e2, ?_, e4⟩
  intro i hi
  rw [e3 i hi]
  rfl

theorem expectEqual_of {lhs rhs : Nat → M Nat} {x : Nat → Nat} {n : Nat} (h1 : ∀ i, i < n → lhs i = .ok (x i)) (h2 : ∀ i, i < n → rhs i = .ok (x i)) : expectEqual lhs rhs n = .ok () :=
  expectEqual_ok fun i hi => ⟨x i, h1 i hi, h2 i hi⟩

theorem getD_append_left {x y : List Nat} {k : Nat} (h : k < x.length) : (x ++ y).getD k 0 = x.getD k 0 := by
  rw [getD_lt (by rw [List.length_append]; omega), getD_lt h, List.getElem_append_left h]

theorem toStrides_vec (L : Layout) {n : Nat} (h : 0 < n) : toStrides L [n, 1] = .ok [1, 1] := by
  unfold toStrides
  simp only
  rw [if_pos (Or.inr (Or.inl (by simp [isVector])))]; rfl

/-- The extents of the result without mode `m`. -/
theorem erase_getD {na : List Nat} {m i : Nat} (hi : i + 1 < na.length) (hm : m < na.length) : (na.eraseIdx m).getD i 0 = na.getD (up m i) 0 := by
  have := map_up (l := na) (m := m) (p := na.length - 1) (by omega) (by omega)
  rw [← this, getD_lt (by simp; omega)]
  simp

/-- **C54**, `ttv` on raw memory for tensors of order two or more and mode `m` (one-based): for every layout of the operands given by strides, element `i` of the target grows by
`∑ k, A (i with k inserted as mode m) * b (k)`, and cells that are not elements of the target keep their values. (For a matrix and `m = 1` the function reads the second stride of the target instead
of the first; `hv` says that they agree, as they do in every vector-shaped tensor.) -/
theorem C54_ttv [NonUnitalNonAssocSemiring R] {m : Nat} {nc wc na wa nb wb : List Nat} {a b c : List R} {f old : List Nat → R} {g : Nat → R} (hp : 2 ≤ na.length) (hm0 : 1 ≤ m) (hm : m ≤ na.length)
    (hs : ∀ k ∈ na, k < 2 ^ 32) (hwa : wa.length = na.length) (hnc : ∃ t, nc = na.eraseIdx (m - 1) ++ t) (hwc : na.length ≤ wc.length + 1) (hnb : ∃ x y t, nb = x :: y :: t ∧ max x y = na.getD (m - 1) 0)
    (hv : na.length = 2 → m = 1 → ∃ x t, wc = x :: x :: t) (ha : Lay a na wa f) (hb : ∀ k, k < na.getD (m - 1) 0 → b[k]? = some (g k))
    (hd : Distinct (na.eraseIdx (m - 1)) (wc.take (na.length - 1))) (hc : Lay c (na.eraseIdx (m - 1)) (wc.take (na.length - 1)) old) (zero : R) :
    ∃ c', ttv zero m na.length c nc wc a na wa b nb wb = .ok c' ∧ c'.length = c.length ∧
      Lay c' (na.eraseIdx (m - 1)) (wc.take (na.length - 1)) (fun i => old i + ∑ k ∈ Finset.range (na.getD (m - 1) 0), f (i.insertIdx (m - 1) k) * g k) ∧
      ∀ k, (∀ i, Valid (na.eraseIdx (m - 1)) i → dotW (wc.take (na.length - 1)) i ≠ k) → c'[k]? = c[k]? := by
  obtain ⟨q, hq⟩ : ∃ q, na.length = q + 2 := ⟨na.length - 2, by omega⟩
  rw [show na.length - 1 = q + 1 by omega] at hd hc ⊢
  obtain ⟨c', e1, e2, e3, e4⟩ := ttv_core hq (show m - 1 < na.length by omega) hwa hwc ha hb hd hc
  refine ⟨c', ?_, e2, e3, e4⟩
  obtain ⟨t, rfl⟩ := hnc
  obtain ⟨x, y, t', rfl, hxy⟩ := hnb
  have hel : (na.eraseIdx (m - 1)).length = q + 1 := by rw [List.length_eraseIdx_of_lt (by omega)]; omega
  have hget : ∀ i, i < q + 1 → rd false (na.eraseIdx (m - 1) ++ t) i = .ok (na.getD (up (m - 1) i) 0) := fun i hi => by
    rw [rd_getD (by rw [List.length_append]; omega), getD_append_left (by omega), erase_getD (by omega) (by omega)]
  have x1 : expectEqual (fun i => rd false na i) (fun i => rd false (na.eraseIdx (m - 1) ++ t) i) (m - 1) = .ok () :=
    expectEqual_of (x := fun i => na.getD i 0) (fun i hi => rd_getD (by omega)) (fun i hi => by
      show rd false _ i = _
      rw [hget i (by omega), up, if_pos hi])
  have x2 : expectEqual (fun i => rd false na (m + i)) (fun i => rd false (na.eraseIdx (m - 1) ++ t) (m + i - 1)) (na.length - m) = .ok () :=
    expectEqual_of (x := fun i => na.getD (m + i) 0) (fun i hi => rd_getD (by omega)) (fun i hi => by
      show rd false _ _ = _
      rw [hget _ (by omega), up, if_neg (by omega), show m + i - 1 + 1 = m + i by omega])
  have hrec : ∀ h : m - 1 ≠ 0, ttvRec (m - 1) wc na wa a b (na.length - 1) (na.length - 2) = nest (desc (ttvLvl (m - 1) wc na wa) q ++ [ttvIn (m - 1) na wa]) (mac a b) := fun h => by
    have := ttvRec_eq (a := a) (b := b) (m := m - 1) (by omega) (by omega) hs hwa hwc (show na.length - 1 < na.length by omega)
    rw [if_neg (by omega), show na.length - 1 - 1 = na.length - 2 by omega, show na.length - 2 = q by omega] at this
    rw [show na.length - 2 = q by omega]; exact this
  rw [ttv, if_neg (by omega), x1, x2]
  simp only [bind_ok]
  rw [rd_getD (by simp), rd_getD (by simp), rd_getD (show m - 1 < na.length by omega)]
  simp only [bind_ok, List.getD_cons_zero, List.getD_cons_succ, ne_eq]
  rw [if_neg (by rw [hxy]; simp)]
  by_cases hp2 : 2 < na.length
  · by_cases hm1 : m = 1
    · rw [if_neg (by omega), if_pos (by omega), ttv0Rec_eq hs hwa hwc (by omega), show na.length - 2 = q by omega, ← e1, hm1]
    · rw [if_pos (by omega), hrec (by omega), e1]
  · have hq0 : q = 0 := by omega
    subst hq0
    rw [if_neg (by omega), if_neg (by omega), if_pos (by omega), ← e1, mtv]
    by_cases hm1 : m = 1
    · obtain ⟨u, v, rfl⟩ := hv (by omega) hm1
      subst hm1
      simp only [show 1 - 1 = 0 from rfl, if_true]
      rw [rd_getD (show 1 < na.length by omega), rd_getD (show 1 < (u :: u :: v).length by simp), rd_getD (show 1 < wa.length by omega), rd_getD (show 0 < na.length by omega), rd_getD (show 0 < wa.length by omega)]
      simp only [bind_ok]
      rw [sweep32_eq (hs _ (getD_mem (by omega))), sweep32_eq (hs _ (getD_mem (by omega)))]
      rfl
    · have hm2 : m = 2 := by omega
      subst hm2
      simp only [show 2 - 1 = 1 from rfl, one_ne_zero, if_false]
      rw [rd_getD (show 0 < na.length by omega), rd_getD (show 0 < wc.length by omega), rd_getD (show 0 < wa.length by omega), rd_getD (show 1 < na.length by omega), rd_getD (show 1 < wa.length by omega)]
      simp only [bind_ok]
      rw [sweep32_eq (hs _ (getD_mem (by omega))), sweep32_eq (hs _ (getD_mem (by omega)))]
      rfl

/-! ## `prod (a, b, m)` -/

theorem dotW_zeros {w i : List Nat} (k : Nat) : dotW w (i ++ List.replicate k 0) = dotW w i := by
  induction w generalizing i with
  | nil => cases i <;> cases k <;> rfl
  | cons x w ih =>
    cases i with
    | nil =>
      cases k with
      | zero => rfl
      | succ k =>
        rw [List.nil_append, List.replicate_succ, dotW, dotW_nil_right]
        have := ih (i := [])
        rw [List.nil_append, dotW_nil_right] at this
        have h2 : dotW w (List.replicate k 0) = 0 := by
          clear this ih
          induction k generalizing w with
          | zero => exact dotW_nil_right _
          | succ k ih =>
            cases w with
            | nil => rfl
            | cons y w => rw [List.replicate_succ, dotW, ih]; simp
        rw [h2]; simp
    | cons y i => rw [List.cons_append, dotW, dotW, ih]

theorem dotW_take {w i : List Nat} {n : Nat} (h : i.length ≤ n) : dotW (w.take n) i = dotW w i := by
  induction w generalizing i n with
  | nil => simp
  | cons x w ih =>
    cases i with
    | nil => rw [dotW_nil_right, dotW_nil_right]
    | cons y i =>
      cases n with
      | zero => simp at h
      | succ n => rw [List.take_succ_cons, dotW, dotW, ih (by simpa using h)]

theorem valid_ones {e j : List Nat} {k : Nat} (h : Valid (e ++ List.replicate k 1) j) : j = j.take e.length ++ List.replicate k 0 ∧ Valid e (j.take e.length) := by
  obtain ⟨y, z, rfl, hy, hz⟩ := valid_append h
  rw [← hy.length, List.take_left]
  refine ⟨?_, hy⟩
  have hl := hz.length
  rw [List.length_replicate] at hl
  congr 1
  rw [List.eq_replicate_iff]
  refine ⟨hl, fun x hx => ?_⟩
  obtain ⟨i, hi, rfl⟩ := List.getElem_of_mem hx
  have := (valid_iff.1 hz).2 i (by rw [List.length_replicate]; omega)
  rw [getD_lt hi, getD_lt (by rw [List.length_replicate]; omega), List.getElem_replicate] at this
  omega

theorem valid_pad {e i : List Nat} {k : Nat} (h : Valid e i) : Valid (e ++ List.replicate k 1) (i ++ List.replicate k 0) := by
  refine List.rel_append h ?_
  induction k with
  | zero => exact .nil
  | succ k ih => exact .cons (by omega) ih

/-- A freshly made target whose extents end in ones is laid out like one without them. -/
theorem pad_target {L : Layout} {c : Tensor R} {e : List Nat} {k : Nat} {f : List Nat → R} (h : Holds L c (e ++ List.replicate k 1) f) :
    Distinct e (c.strides.take e.length) ∧ Lay c.data e (c.strides.take e.length) (fun i => f (i ++ List.replicate k 0)) ∧
    ∀ d : List R, d.length = c.data.length → ∀ g, Lay d e (c.strides.take e.length) g → Holds L { c with data := d } (e ++ List.replicate k 1) (fun j => g (j.take e.length)) := by
  have hdot : ∀ i, Valid e i → dotW (c.strides.take e.length) i = dotW c.strides (i ++ List.replicate k 0) := fun i hi => by rw [dotW_take (by rw [hi.length]), dotW_zeros]
  refine ⟨fun i j hi hj hij => ?_, fun i hi => ?_, fun d hd g hg => ⟨h.extents, h.positive, h.rank, h.strides, by rw [← h.size]; exact hd, fun j hj => ?_⟩⟩
  · rw [hdot i hi, hdot j hj] at hij
    exact List.append_cancel_right (distinct_of_holds h _ _ (valid_pad hi) (valid_pad hj) hij)
  · rw [hdot i hi]
    exact lay_of_holds h _ (valid_pad hi)
  · obtain ⟨h1, h2⟩ := valid_ones hj
    have := hg _ h2
    rw [hdot _ h2, ← h1, (toIndex_pos h.strides hj).2.1] at this
    exact this

theorem erase_positive {e : List Nat} {m : Nat} (h : ∀ n ∈ e, 0 < n) : ∀ n ∈ e.eraseIdx m, 0 < n := fun n hn => h n (List.mem_of_mem_eraseIdx hn)

theorem data_ne {L : Layout} {t : Tensor R} {e : List Nat} {f : List Nat → R} (h : Holds L t e f) : t.data ≠ [] := fun hc => by
  have := count_pos h.positive
  rw [← h.size, hc] at this; simp at this

theorem max_one {n : Nat} (h : 0 < n) : max n 1 = n := by omega

theorem Lay.congr {d : List R} {n w : List Nat} {f g : List Nat → R} (h : Lay d n w f) (hfg : ∀ i, Valid n i → f i = g i) : Lay d n w g := fun i hi => by rw [h i hi, hfg i hi]

/-- **C54**, `prod (A, b, m)`: for a tensor of any rank, every mode `m` (one-based) and both layouts, the result has the extents of `A` without mode `m` (padded with ones to rank two), and
`C (i) = ∑ k, A (i with k inserted as mode m) * b (k)` for every multi-index. -/
theorem C54_prodVec [NonUnitalNonAssocSemiring R] {L : Layout} {a : Tensor R} {e : List Nat} {f : List Nat → R} (h : Holds L a e f) (hs : ∀ k ∈ e, k < 2 ^ 32) {m : Nat} (hm0 : 1 ≤ m) (hm : m ≤ e.length)
    (b : List R) (hb : b.length = e.getD (m - 1) 0) :
    ∃ c, prodVec L 0 a b m = .ok c ∧ Holds L c (e.eraseIdx (m - 1) ++ List.replicate (max (e.length - 1) 2 - (e.length - 1)) 1)
      (fun j => ∑ k ∈ Finset.range b.length, f ((j.take (e.length - 1)).insertIdx (m - 1) k) * b.getD k 0) := by
  have hel : (e.eraseIdx (m - 1)).length = e.length - 1 := List.length_eraseIdx_of_lt (by omega)
  have hbp : 0 < b.length := by rw [hb]; exact h.positive _ (getD_mem (by omega))
  set k := max (e.length - 1) 2 - (e.length - 1) with hk
  have hext : ttvExtents e m = e.eraseIdx (m - 1) ++ List.replicate k 1 := by rw [ttvExtents, hel]
  have hpos : ∀ n ∈ e.eraseIdx (m - 1) ++ List.replicate k 1, 0 < n := fun n hn => by
    rcases List.mem_append.1 hn with hn | hn
    · exact erase_positive h.positive n hn
    · rw [List.eq_of_mem_replicate hn]; omega
  have hne : e.eraseIdx (m - 1) ++ List.replicate k 1 ≠ [] := fun hc => by have := congrArg List.length hc; simp [hel] at this; omega
  obtain ⟨c, hc1, hc2⟩ := create_holds L hpos hne (0 : R)
  obtain ⟨p1, p2, p3⟩ := pad_target hc2
  rw [hel] at p1 p2 p3
  obtain ⟨wb, hwb1, hwb2, _⟩ := toStrides_ok L [b.length, 1]
  have hnb : mkExtents [b.length, 1] = .ok [b.length, 1] := mkExtents_ok (by simp; omega)
  have hbb : ∀ k, k < e.getD (m - 1) 0 → b[k]? = some (b.getD k 0) := fun k hk => by rw [List.getD_eq_getElem?_getD, List.getElem?_eq_getElem (by omega)]; rfl
  have hcl := strides_length hc2
  rw [List.length_append, List.length_replicate, hel] at hcl
  suffices hmain : ∃ d, ttv 0 m e.length c.data (e.eraseIdx (m - 1) ++ List.replicate k 1) c.strides a.data e a.strides b [b.length, 1] wb = .ok d ∧ d.length = c.data.length ∧
      Lay d (e.eraseIdx (m - 1)) (c.strides.take (e.length - 1)) (fun i => ∑ k ∈ Finset.range b.length, f (i.insertIdx (m - 1) k) * b.getD k 0) by
    obtain ⟨d, e1, e2, e3⟩ := hmain
    refine ⟨{ c with data := d }, ?_, p3 d e2 _ e3⟩
    rw [prodVec, h.extents, if_neg (by
      rintro (hc | hc | hc | hc)
      · omega
      · omega
      · exact data_ne h hc
      · rw [hc] at hbp; simp at hbp), hnb, bind_ok, hwb1, bind_ok, hext, hc1, bind_ok, hc2.extents, e1, bind_ok]
  by_cases hp : 2 ≤ e.length
  · obtain ⟨d, e1, e2, e3, _⟩ := C54_ttv (nc := e.eraseIdx (m - 1) ++ List.replicate k 1) (wc := c.strides) (nb := [b.length, 1]) (wb := wb) hp hm0 hm hs (strides_length h) ⟨_, rfl⟩ (by omega)
      ⟨b.length, 1, [], rfl, by rw [max_one hbp, hb]⟩ (fun h2 h1 => by
        obtain ⟨n, hn⟩ : ∃ n, e.eraseIdx (m - 1) = [n] := List.length_eq_one_iff.1 (by omega)
        have hk1 : k = 1 := by omega
        have hn0 : 0 < n := erase_positive (m := m - 1) h.positive n (by rw [hn]; simp)
        have := hc2.strides
        rw [hn, hk1] at this
        have := (toStrides_vec L hn0).symm.trans this
        exact ⟨1, [], (Except.ok.inj this).symm⟩) (lay_of_holds h) hbb p1 p2 0
    refine ⟨d, e1, e2, e3.congr fun i hi => ?_⟩
    rw [zero_add, hb]
  · have hm1 : m = 1 := by omega
    subst hm1
    obtain ⟨n, rfl⟩ : ∃ n, e = [n] := List.length_eq_one_iff.1 (by have := List.length_pos_of_ne_nil h.rank; omega)
    have hbn : b.length = n := hb
    have h0 : c.data[0]? = some 0 := by
      have := p2 [] .nil
      rwa [dotW_nil_right] at this
    obtain ⟨x, hx⟩ : ∃ x, a.strides = [x] := List.length_eq_one_iff.1 (by rw [strides_length h]; rfl)
    obtain ⟨y, z, hyz⟩ : ∃ y z, wb = [y, z] := List.length_eq_two.1 hwb2
    have hy : y = 1 := by
      have := Except.ok.inj (hwb1.symm.trans (toStrides_vec L hbp))
      rw [hyz] at this
      simpa using congrArg List.head? this
    have hin : innerRec [n] a.strides wb a.data b 0 ⟨0, 0, 0⟩ 0 = .ok (∑ k ∈ Finset.range b.length, f [k] * b.getD k 0) := by
      rw [innerRec, hx, hyz, hy]
      have hn : n < 2 ^ 32 := hs n (by simp)
      rw [rd_getD (l := [n]) (k := 0) (by simp), rd_getD (l := [x]) (k := 0) (by simp), rd_getD (l := [1, z]) (k := 0) (by simp)]
      simp only [bind_ok, List.getD_cons_zero]
      rw [sweep32_eq hn]
      obtain ⟨e1, _⟩ := sweep_ok (body := fun p v => (do
          let s ← rd false a.data p.a
          let t ← rd false b p.b
          .ok (v + s * t) : M R)) (w := ⟨0, x, 1⟩) (n := n) (p := ⟨0, 0, 0⟩) (s := 0) (fun _ => True) (fun k v => v + f [k] * b.getD k 0) trivial (by
        intro k s hk _
        have h1 := lay_of_holds h [k] (.cons hk .nil)
        rw [hx] at h1
        simp only [dotW, Nat.add_zero] at h1
        simp only [Nat.zero_add, Nat.mul_one]
        rw [rd_eq_ok.2 h1, rd_eq_ok.2 (hbb k hk)]
        exact ⟨rfl, trivial⟩)
      rw [e1, foldl_add (fun k => f [k] * b.getD k 0), zero_add, hbn]
      rfl
    refine ⟨c.data.set 0 (∑ k ∈ Finset.range b.length, f [k] * b.getD k 0), ?_, by simp, ?_⟩
    · rw [ttv, if_neg (by simp)]
      simp only [List.length_singleton, show 1 - 1 = 0 from rfl, expectEqual, loop, bind_ok]
      rw [rd_getD (l := [b.length, 1]) (k := 0) (by simp), rd_getD (l := [b.length, 1]) (k := 1) (by simp), rd_getD (l := [n]) (k := 0) (by simp)]
      simp only [bind_ok, List.getD_cons_zero, List.getD_cons_succ]
      rw [if_neg (by rw [max_one hbp, hbn]; simp), if_neg (by omega), if_neg (by omega), if_neg (by omega), hin, bind_ok, wr_ok (List.getElem?_eq_some_iff.1 h0).1]
    · intro i hi
      rcases hi with _ | _
      rw [dotW_nil_right, List.getElem?_set_self (List.getElem?_eq_some_iff.1 h0).1]
      rfl

/-- **C54**: a mode outside `1 .. rank`, or a vector whose length is not the extent of the mode, is refused. -/
theorem C54_prodVec_refused [Add R] [Mul R] {L : Layout} {a : Tensor R} {e : List Nat} {f : List Nat → R} (h : Holds L a e f) {m : Nat} {b : List R} (zero : R) (hp : m = 0 ∨ e.length < m ∨
    b.length ≠ e.getD (m - 1) 0) : prodVec L zero a b m = .error .stdException := by
  rw [prodVec, h.extents]
  by_cases h0 : m = 0 ∨ e.length < m ∨ a.data = [] ∨ b = []
  · rw [if_pos h0]
  · rw [if_neg h0]
    have hm : 1 ≤ m ∧ m ≤ e.length := by omega
    have hb : b.length ≠ e.getD (m - 1) 0 := by omega
    have hbp : 0 < b.length := List.length_pos_of_ne_nil fun hc => h0 (Or.inr (Or.inr (Or.inr hc)))
    have hel : (e.eraseIdx (m - 1)).length = e.length - 1 := List.length_eraseIdx_of_lt (by omega)
    have hext : ttvExtents e m = e.eraseIdx (m - 1) ++ List.replicate (max (e.length - 1) 2 - (e.length - 1)) 1 := by rw [ttvExtents, hel]
    have hpos : ∀ n ∈ ttvExtents e m, 0 < n := fun n hn => by
      rw [hext] at hn
      rcases List.mem_append.1 hn with hn | hn
      · exact erase_positive h.positive n hn
      · rw [List.eq_of_mem_replicate hn]; omega
    have hne : ttvExtents e m ≠ [] := fun hc => by rw [hext] at hc; have := congrArg List.length hc; simp only [List.length_append, List.length_replicate, hel, List.length_nil] at this; omega
    obtain ⟨c, hc1, hc2⟩ := create_holds L hpos hne zero
    obtain ⟨wb, hwb1, _, _⟩ := toStrides_ok L [b.length, 1]
    rw [mkExtents_ok (e := [b.length, 1]) (by simp; omega), bind_ok, hwb1, bind_ok, hc1, bind_ok, hc2.extents, ttv, if_neg (by omega)]
    have hget : ∀ i, i < e.length - 1 → rd false (ttvExtents e m) i = .ok (e.getD (up (m - 1) i) 0) := fun i hi => by
      rw [hext, rd_getD (by rw [List.length_append]; omega), getD_append_left (by omega), erase_getD (by omega) (by omega)]
    have x1 : expectEqual (fun i => rd false e i) (fun i => rd false (ttvExtents e m) i) (m - 1) = .ok () :=
      expectEqual_of (x := fun i => e.getD i 0) (fun i hi => rd_getD (by omega)) (fun i hi => by
        show rd false _ i = _
        rw [hget i (by omega), up, if_pos hi])
    have x2 : expectEqual (fun i => rd false e (m + i)) (fun i => rd false (ttvExtents e m) (m + i - 1)) (e.length - m) = .ok () :=
      expectEqual_of (x := fun i => e.getD (m + i) 0) (fun i hi => rd_getD (by omega)) (fun i hi => by
        show rd false _ _ = _
        rw [hget _ (by omega), up, if_neg (by omega), show m + i - 1 + 1 = m + i by omega])
    rw [x1, x2]
    simp only [bind_ok]
    rw [rd_getD (l := [b.length, 1]) (k := 0) (by simp), rd_getD (l := [b.length, 1]) (k := 1) (by simp), rd_getD (show m - 1 < e.length by omega)]
    simp only [bind_ok, List.getD_cons_zero, List.getD_cons_succ]
    rw [if_pos (by rw [max_one hbp]; exact fun hc => hb hc.symm)]
    rfl

/-- A 2 x 3 x 2 tensor times a vector along its second mode. -/
example : (do
    let a ← createFrom .first [2, 3, 2] ((List.range 12).map fun x => (x : Int))
    let c ← prodVec .first 0 a [1, 10, 100] 2
    .ok (c.extents, c.data) : M (List Nat × List Int)) = .ok ([2, 2], [420, 531, 1086, 1197]) := by decide
example : (do
    let a ← createFrom .last [2, 3] [1, 2, 3, 4, 5, 6]
    let c ← prodVec .last 0 a [1, 10] 1
    .ok (c.extents, c.data) : M (List Nat × List Int)) = .ok ([3, 1], [41, 52, 63]) := by decide

end Ublas.Tens
