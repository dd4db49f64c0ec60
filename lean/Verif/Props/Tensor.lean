import Verif.Lemmas.Tensor
import Verif.Model.TensorExpr
import Mathlib.Data.List.Range
import Mathlib.Tactic.Tauto
/-! # C51, C56, C70, C71, C72: strides, reshape, element access, comparison, element-wise expressions of tensors -/
namespace Ublas.Tens
variable {R : Type}

/-- **C51**: for any extents with positive entries the strides of either layout map the multi-indices one to one onto the memory positions `0 .. product (e) - 1`,
the first (last) index varying fastest. -/
theorem C51_bijection (L : Layout) {e : List Nat} (h : ∀ n ∈ e, 0 < n) (hr : e ≠ []) :
    ∃ w, toStrides L e = .ok w ∧ w.length = e.length ∧ product e = count e ∧ (∀ i, Valid e i → toIndex w i = .ok (pos L e i) ∧ pos L e i < product e) ∧
      (∀ i j, Valid e i → Valid e j → toIndex w i = toIndex w j → i = j) ∧ ∀ k, k < product e → ∃ i, Valid e i ∧ toIndex w i = .ok k := by
  obtain ⟨w, h1, h2, h3⟩ := toStrides_ok L e
  refine ⟨w, h1, h2, product_eq hr, fun i hi => ⟨(toIndex_pos h1 hi).1, by rw [product_eq hr]; exact pos_lt hi⟩, fun i j hi hj hij => ?_, fun k hk => ?_⟩
  · rw [(toIndex_pos h1 hi).1, (toIndex_pos h1 hj).1] at hij
    exact pos_inj hi hj (Except.ok.inj hij)
  · rw [product_eq hr] at hk
    obtain ⟨i, hi, e1⟩ := pos_surj (L := L) hk
    exact ⟨i, hi, by rw [(toIndex_pos h1 hi).1, e1]⟩

example : toStrides .first [4, 2, 3] = .ok [1, 4, 8] ∧ toStrides .last [4, 2, 3] = .ok [6, 3, 1] ∧ toStrides .first [1, 5] = .ok [1, 1] ∧ toIndex [6, 3, 1] [3, 1, 2] = .ok 23 := by decide
/-- The formulas of the positions. -/
example (i j k : Nat) : pos .first [4, 2, 3] [i, j, k] = i + 4 * (j + 2 * (k + 3 * 0)) ∧ pos .last [4, 2, 3] [i, j, k] = i * 6 + (j * 3 + (k * 1 + 0)) := ⟨rfl, rfl⟩

/-! ## Construction and element access -/

theorem create_holds (L : Layout) {e : List Nat} (h : ∀ n ∈ e, 0 < n) (hr : e ≠ []) (v : R) : ∃ t, create L e v = .ok t ∧ Holds L t e fun _ => v := by
  obtain ⟨w, h1, _⟩ := toStrides_ok L e
  refine ⟨⟨e, w, List.replicate (product e) v⟩, by simp only [create, mkExtents_ok h, bind_ok, h1], rfl, h, hr, h1, by simp [product_eq hr], fun i hi => ?_⟩
  rw [List.getElem?_replicate, product_eq hr, if_pos (pos_lt hi)]

theorem create_invalid (L : Layout) {e : List Nat} (h : ¬ ∀ n ∈ e, 0 < n) (v : R) : create L e v = .error .stdException := by
  have : mkExtents e = .error .stdException := by rw [mkExtents, if_neg (by rwa [isValid_iff])]
  simp only [create, this, bind_error]

theorem createFrom_holds (L : Layout) {e : List Nat} (h : ∀ n ∈ e, 0 < n) (hr : e ≠ []) {a : List R} {f : List Nat → R} (ha : a.length = count e)
    (hf : ∀ i, Valid e i → a[pos L e i]? = some (f i)) : ∃ t, createFrom L e a = .ok t ∧ Holds L t e f := by
  obtain ⟨w, h1, _⟩ := toStrides_ok L e
  exact ⟨⟨e, w, a⟩, by simp only [createFrom, mkExtents_ok h, bind_ok, h1]; rw [if_neg (by rw [product_eq hr]; simp [ha])], rfl, h, hr, h1, ha, hf⟩

/-- **C70** A tensor is built from an array of elements exactly when every extent is positive and the array has one element per multi-index; otherwise the constructor
throws.  The elements are those of the array. -/
theorem C70_from_array (L : Layout) (e : List Nat) (hr : e ≠ []) (a : List R) :
    (((∀ n ∈ e, 0 < n) ∧ a.length = count e) → ∃ t, createFrom L e a = .ok t ∧ t.extents = e ∧ t.data = a) ∧
    (¬ ((∀ n ∈ e, 0 < n) ∧ a.length = count e) → createFrom L e a = .error .stdException) := by
  obtain ⟨w, h1, _⟩ := toStrides_ok L e
  constructor
  · rintro ⟨h, ha⟩
    exact ⟨⟨e, w, a⟩, by simp only [createFrom, mkExtents_ok h, bind_ok, h1]; rw [if_neg (by rw [product_eq hr]; simp [ha])], rfl, rfl⟩
  · intro hn
    by_cases h : ∀ n ∈ e, 0 < n
    · simp only [createFrom, mkExtents_ok h, bind_ok, h1]
      rw [if_pos (by rw [product_eq hr]; exact fun c => hn ⟨h, c⟩)]
    · have : mkExtents e = .error .stdException := by rw [mkExtents, if_neg (by rwa [isValid_iff])]
      simp only [createFrom, this, bind_error]

example : (∀ n ∈ [3, 2], 0 < n) ∧ count [3, 2] = 6 ∧ createFrom .first [3, 2] [1, 2, 3, 4, 5, 6, (7 : Int)] = .error .stdException := by decide

/-- Every tensor with the right number of elements holds some function of its multi-indices. -/
theorem Holds.exists {L : Layout} {t : Tensor R} (hp : ∀ n ∈ t.extents, 0 < n) (hr : t.extents ≠ []) (hs : toStrides L t.extents = .ok t.strides) (hd : t.data.length = count t.extents) :
    ∃ f, Holds L t t.extents f := by
  have hc : 0 < t.data.length := by rw [hd]; exact count_pos hp
  refine ⟨fun i => t.data.getD (pos L t.extents i) t.data[0], rfl, hp, hr, hs, hd, fun i hi => ?_⟩
  have := pos_lt (L := L) hi
  rw [List.getD_eq_getElem?_getD, List.getElem?_eq_getElem (by omega)]; rfl

theorem vectorAt_ok {l : List R} {i : Nat} {x : R} : vectorAt l i = .ok x ↔ l[i]? = some x := by unfold vectorAt; split <;> simp_all

theorem Holds.lt {L : Layout} {t : Tensor R} {e : List Nat} {f : List Nat → R} (h : Holds L t e f) {i : List Nat} (hi : Valid e i) : pos L e i < t.data.length := by
  rw [h.size]; exact pos_lt hi

/-- **C70** for valid multi-indices: `t (i)` is the element at `i`, and `t (i) = x` changes that element only. -/
theorem C70_access {L : Layout} {t : Tensor R} {e : List Nat} {f : List Nat → R} (h : Holds L t e f) {i : List Nat} (hi : Valid e i) (x : R) :
    t.at_ i = .ok (f i) ∧ ∃ t', t.put i x = .ok t' ∧ Holds L t' e (Function.update f i x) := by
  have hidx : t.flat i = .ok (pos L e i) := by
    have h1 := (toIndex_pos h.strides hi).1
    have h2 := hi.length
    match i, h1, h2, hi with
    | [], h1, h2, hi => simp only [Tensor.flat, h.extents, h2, ne_eq, not_true, if_false]; exact h1
    | a :: b :: t, h1, h2, hi => simp only [Tensor.flat, h.extents, h2, ne_eq, not_true, if_false]; exact h1
    | [k], h1, h2, hi =>
      rcases e with _ | ⟨n, _ | ⟨m, e⟩⟩
      · simp at h2
      · cases L <;> simp [Tensor.flat, pos, firstPos, lastPos, count]
      · simp at h2
  have hlt := h.lt hi
  constructor
  · rw [Tensor.at_, hidx, bind_ok]; exact vectorAt_ok.2 (h.elem i hi)
  · refine ⟨{ t with data := t.data.set (pos L e i) x }, ?_, h.extents, h.positive, h.rank, h.strides, by rw [List.length_set]; exact h.size, fun j hj => ?_⟩
    · unfold Tensor.put
      rw [hidx, bind_ok, if_pos hlt]
    · by_cases hij : j = i
      · subst hij; rw [Function.update_self, List.getElem?_set_self hlt]
      · rw [Function.update_of_ne hij, List.getElem?_set_ne fun hc => hij (pos_inj hj hi hc.symm)]; exact h.elem j hj

/-- **C70** refuted for invalid ones: `t (i)` and `t.at (i)` throw for a wrong number of indices, but an index beyond its own extent is not noticed as long as the position is inside the
container: in a first-order tensor `t (n0, 0, ...)` is the element `t (0, 1, ...)`. -/
theorem C70_range_refuted {t : Tensor R} {n m : Nat} {e : List Nat} {f : List Nat → R} (h : Holds .first t (n :: m :: e) f) (hv : isVector (n :: m :: e) = false) (hm : 2 ≤ m) :
    ¬ Valid (n :: m :: e) (n :: 0 :: List.replicate e.length 0) ∧ Valid (n :: m :: e) (0 :: 1 :: List.replicate e.length 0) ∧
      t.at_ (n :: 0 :: List.replicate e.length 0) = .ok (f (0 :: 1 :: List.replicate e.length 0)) := by
  have hz : ∀ l : List Nat, (∀ n ∈ l, 0 < n) → Valid l (List.replicate l.length 0) := fun l => by
    induction l with
    | nil => exact fun _ => .nil
    | cons a l ih => exact fun hl => .cons (hl a (by simp)) (ih fun n hn => hl n (by simp [hn]))
  have hv2 : Valid (n :: m :: e) (0 :: 1 :: List.replicate e.length 0) := .cons (h.positive n (by simp)) (.cons (by omega) (hz e fun k hk => h.positive k (by simp [hk])))
  refine ⟨fun hv => ?_, hv2, ?_⟩
  · rcases hv with _ | ⟨h1, _⟩
    omega
  · have hns : isScalar (n :: m :: e) = false := by
      simp only [isScalar, List.all_cons, Bool.and_eq_false_iff, beq_eq_false_iff_ne]
      exact .inr (.inr (.inl (by omega)))
    have hw : toStrides .first (n :: m :: e) = .ok (pref 1 (n :: m :: e)) := by
      rw [toStrides]
      simp only [hv, hns, reduceCtorEq, Bool.false_eq_true, or_self, if_false]
      exact cumulate_ok _
    have hw2 : t.strides = pref 1 (n :: m :: e) := Except.ok.inj (h.strides.symm.trans hw)
    rw [Tensor.at_, Tensor.flat.eq_def]
    simp only
    rw [if_neg (by rw [h.extents]; simp), toIndex_ok (by rw [hw2, pref_length]; simp), bind_ok, hw2, dotW_pref]
    have := h.elem _ hv2
    rw [vectorAt_ok, ← this]
    congr 1
    simp only [pos, firstPos]
    ring

theorem C70_wrong_rank {t : Tensor R} {i : List Nat} (h : i.length ≠ t.extents.length) (h1 : i.length ≠ 1) : t.at_ i = .error .stdException := by
  match i, h, h1 with
  | [], h, _ => simp only [Tensor.at_, Tensor.flat, if_pos h, bind_error]
  | a :: b :: l, h, _ => simp only [Tensor.at_, Tensor.flat, if_pos h, bind_error]

/-- A 3 x 2 tensor; `t (3, 0)` gives `t (0, 1)`, `t (1, 2)` throws. -/
example : (createFrom .first [3, 2] [10, 11, 12, 20, 21, 22] >>= fun t => t.at_ [3, 0]) = .ok 20 ∧
    (createFrom .first [3, 2] [10, 11, 12, 20, 21, 22] >>= fun t => t.at_ [1, 2]) = .error .stdException ∧
    (createFrom .first [3, 2] [10, 11, 12, 20, 21, 22] >>= fun t => t.at_ [2, 1]) = .ok 22 := by decide

/-! ## Reshape -/

/-- **C56**: `reshape (t, e, v)` keeps the elements in memory order, appends `v`, and takes the new extents; invalid extents are refused. -/
theorem C56_reshape {L : Layout} {t : Tensor R} {e₀ : List Nat} {f : List Nat → R} (h : Holds L t e₀ f) {e : List Nat} (hp : ∀ n ∈ e, 0 < n) (hr : e ≠ []) (zero v : R) :
    ∃ t' f', reshape L t e zero v = .ok t' ∧ Holds L t' e f' ∧ (∀ i j, Valid e i → Valid e₀ j → pos L e i = pos L e₀ j → f' i = f j) ∧
      ∀ i, Valid e i → count e₀ ≤ pos L e i → f' i = v := by
  simp only [reshape, mkExtents_ok hp, bind_ok]
  by_cases heq : t.extents = e
  · rw [if_pos heq]
    have he : e₀ = e := h.extents.symm.trans heq
    subst he
    exact ⟨t, f, rfl, h, fun i j hi hj hij => by rw [pos_inj hi hj hij], fun i hi hc => absurd (pos_lt (L := L) hi) (by omega)⟩
  · rw [if_neg heq]
    obtain ⟨r, h1, h2⟩ := create_holds L hp hr zero
    have hm : min (product e) (product t.extents) = min (count e) (count e₀) := by rw [product_eq hr, h.extents, product_eq h.rank]
    obtain ⟨d, e1, hd, hd'⟩ := loop_inv (f := fun k d => (do
        let x ← rd false t.data k
        wr false d k x : M (List R))) (n := min (count e) (count e₀)) (s := r.data) (fun k d => d.length = count e ∧ ∀ j, j < k → d[j]? = t.data[j]?) ⟨h2.size, fun j hj => by omega⟩
      (by
        rintro k d hk ⟨a1, a2⟩
        have hk' : k < t.data.length := by rw [h.size]; omega
        refine ⟨d.set k t.data[k], by rw [rd_ok hk', bind_ok, wr_ok (by omega)], by rw [List.length_set, a1], fun j hj => ?_⟩
        by_cases hjk : j = k
        · subst hjk; rw [List.getElem?_set_self (by omega), List.getElem?_eq_getElem hk']
        · rw [List.getElem?_set_ne (by omega)]; exact a2 j (by omega))
    obtain ⟨d', e2, hd2, hd3, hd4⟩ := loop_inv (f := fun k d => wr false d (min (count e) (count e₀) + k) v) (n := count e - min (count e) (count e₀)) (s := d)
      (fun k d => d.length = count e ∧ (∀ j, j < min (count e) (count e₀) → d[j]? = t.data[j]?) ∧ ∀ j, min (count e) (count e₀) ≤ j → j < min (count e) (count e₀) + k → d[j]? = some v)
      ⟨hd, hd', fun j hj => by omega⟩
      (by
        rintro k d hk ⟨a1, a2, a3⟩
        refine ⟨_, wr_ok (by omega), by rw [List.length_set, a1], fun j hj => ?_, fun j hj hj2 => ?_⟩
        · rw [List.getElem?_set_ne (by omega)]; exact a2 j hj
        · by_cases hjk : j = min (count e) (count e₀) + k
          · subst hjk; rw [List.getElem?_set_self (by omega)]
          · rw [List.getElem?_set_ne (by omega)]; exact a3 j hj (by omega))
    have hfin : ∀ i, Valid e i → ∃ x, d'[pos L e i]? = some x := fun i hi => ⟨_, List.getElem?_eq_getElem (by rw [hd2]; exact pos_lt hi)⟩
    refine ⟨{ r with data := d' }, fun i => d'.getD (pos L e i) v, ?_, ⟨h2.extents, hp, hr, h2.strides, hd2, fun i hi => ?_⟩, fun i j hi hj hij => ?_, fun i hi hc => ?_⟩
    · rw [h1, bind_ok, hm, product_eq hr]; simp only [e1, bind_ok, e2]
    · obtain ⟨x, hx⟩ := hfin i hi
      rw [List.getD_eq_getElem?_getD, hx]; rfl
    · have a1 := pos_lt (L := L) hi
      have a2 := pos_lt (L := L) hj
      show d'.getD (pos L e i) v = _
      rw [List.getD_eq_getElem?_getD, hd3 _ (by omega), hij, h.elem j hj]; rfl
    · have a1 := pos_lt (L := L) hi
      show d'.getD (pos L e i) v = _
      rw [List.getD_eq_getElem?_getD, hd4 _ (by omega) (by omega)]; rfl

theorem C56_invalid {L : Layout} {t : Tensor R} {e : List Nat} (hp : ¬ ∀ n ∈ e, 0 < n) (zero v : R) : reshape L t e zero v = .error .stdException := by
  have : mkExtents e = .error .stdException := by rw [mkExtents, if_neg (by rwa [isValid_iff])]
  simp only [reshape, this, bind_error]

example : (createFrom .first [3, 2] [10, 11, 12, 20, 21, 22] >>= fun t => reshape .first t [2, 2, 2] 0 7) = .ok ⟨[2, 2, 2], [1, 2, 4], [10, 11, 12, 20, 21, 22, 7, 7]⟩ := by decide

/-! ## Comparison -/

theorem compareFrom_ok {p : R → R → Bool} {a b : List R} {n i : Nat} (ha : i + n ≤ a.length) (hb : i + n ≤ b.length) :
    ∃ r, compareFrom p a b n i = .ok r ∧ (r = true ↔ ∀ k x y, i ≤ k → k < i + n → a[k]? = some x → b[k]? = some y → p x y = true) := by
  induction n generalizing i with
  | zero => exact ⟨true, rfl, by simp; intro k; omega⟩
  | succ n ih =>
    have h1 : a[i]? = some a[i] := List.getElem?_eq_getElem (by omega)
    have h2 : b[i]? = some b[i] := List.getElem?_eq_getElem (by omega)
    obtain ⟨r, e, hr⟩ := ih (i := i + 1) (by omega) (by omega)
    rw [compareFrom, vectorAt_ok.2 h1, vectorAt_ok.2 h2, bind_ok, bind_ok]
    by_cases hp : p a[i] b[i] = true
    · rw [if_pos hp]
      refine ⟨r, e, hr.trans ⟨fun h k x y hk hk2 hx hy => ?_, fun h k x y hk hk2 => h k x y (by omega) (by omega)⟩⟩
      by_cases hki : k = i
      · subst hki; rw [h1] at hx; rw [h2] at hy; cases hx; cases hy; exact hp
      · exact h k x y (by omega) (by omega) hx hy
    · rw [if_neg hp]
      refine ⟨false, rfl, by simp only [Bool.false_eq_true, false_iff]; exact fun h => hp (h i _ _ le_rfl (by omega) h1 h2)⟩

/-- All comparisons of two tensors of the same layout and extents: every pair of elements is compared. -/
theorem compare_same [LinearOrder R] (c : Cmp) {L : Layout} {a b : Tensor R} {e : List Nat} {f g : List Nat → R} (ha : Holds L a e f) (hb : Holds L b e g) (hs : count e < 2 ^ 32) :
    ∃ r, compare c a b = .ok r ∧ (r = true ↔ ∀ i, Valid e i → c.pred (f i) (g i) = true) := by
  have hne : a.data ≠ [] := fun h => by
    have := ha.size
    rw [h] at this
    have : 0 < count e := count_pos ha.positive
    simp_all
  unfold compare
  rw [if_neg (by rw [ha.extents, hb.extents]; simp), if_neg (by tauto)]
  obtain ⟨r, e1, hr⟩ := compareFrom_ok (p := c.pred) (a := a.data) (b := b.data) (n := min a.data.length (2 ^ 32)) (i := 0) (by omega) (by rw [ha.size, hb.size]; omega)
  have hlen : min a.data.length (2 ^ 32) = count e := by rw [ha.size]; omega
  refine ⟨r, by rw [e1, bind_ok, if_neg (by rw [ha.size]; omega)], hr.trans ⟨fun h i hi => ?_, fun h k x y _ hk hx hy => ?_⟩⟩
  · exact h (pos L e i) _ _ (by omega) (by rw [hlen, Nat.zero_add]; exact pos_lt hi) (ha.elem i hi) (hb.elem i hi)
  · rw [hlen, Nat.zero_add] at hk
    obtain ⟨i, hi, rfl⟩ := pos_surj (L := L) hk
    have e1 := ha.elem i hi
    have e2 := hb.elem i hi
    rw [hx] at e1; rw [hy] at e2
    cases e1; cases e2
    exact h i hi

/-- **C71** for tensors of one layout: `a == b` is true exactly for equal extents and elements, the order comparisons hold exactly when they hold for every pair of elements,
and refuse tensors of different extents. -/
theorem C71_same_layout_partial [LinearOrder R] {L : Layout} {a b : Tensor R} {e e' : List Nat} {f g : List Nat → R} (ha : Holds L a e f) (hb : Holds L b e' g) (hs : count e < 2 ^ 32) :
    (∃ r, compare .eq a b = .ok r ∧ (r = true ↔ e = e' ∧ ∀ i, Valid e i → f i = g i)) ∧
    (e = e' → (∃ r, compare .lt a b = .ok r ∧ (r = true ↔ ∀ i, Valid e i → f i < g i)) ∧ (∃ r, compare .le a b = .ok r ∧ (r = true ↔ ∀ i, Valid e i → f i ≤ g i)) ∧
      (∃ r, compare .gt a b = .ok r ∧ (r = true ↔ ∀ i, Valid e i → g i < f i)) ∧ ∃ r, compare .ge a b = .ok r ∧ (r = true ↔ ∀ i, Valid e i → g i ≤ f i)) ∧
    (e ≠ e' → ∀ c, c ≠ .eq → c ≠ .ne → compare c a b = .error .stdException) := by
  refine ⟨?_, fun h => ?_, fun h c h1 h2 => ?_⟩
  · by_cases h : e = e'
    · subst h
      obtain ⟨r, e1, hr⟩ := compare_same .eq ha hb hs
      exact ⟨r, e1, by simpa [Cmp.pred] using hr⟩
    · refine ⟨false, ?_, by simp [h]⟩
      unfold compare
      rw [if_pos (by rw [ha.extents, hb.extents]; exact h), if_neg (by simp)]
  · subst h
    refine ⟨?_, ?_, ?_, ?_⟩
    · obtain ⟨r, e1, hr⟩ := compare_same .lt ha hb hs; exact ⟨r, e1, by simpa [Cmp.pred] using hr⟩
    · obtain ⟨r, e1, hr⟩ := compare_same .le ha hb hs; exact ⟨r, e1, by simpa [Cmp.pred] using hr⟩
    · obtain ⟨r, e1, hr⟩ := compare_same .gt ha hb hs; exact ⟨r, e1, by simpa [Cmp.pred] using hr⟩
    · obtain ⟨r, e1, hr⟩ := compare_same .ge ha hb hs; exact ⟨r, e1, by simpa [Cmp.pred] using hr⟩
  · unfold compare
    rw [if_pos (by rw [ha.extents, hb.extents]; exact h), if_pos ⟨h1, h2⟩]

/-- **C71** refuted for `!=`: it is true only if *every* pair of elements differs, and false for tensors of different extents; so two tensors that agree in one element and differ in another
(or that have different shapes) are neither equal nor unequal. -/
theorem C71_ne_refuted [LinearOrder R] {L : Layout} {a b : Tensor R} {e e' : List Nat} {f g : List Nat → R} (ha : Holds L a e f) (hb : Holds L b e' g) (hs : count e < 2 ^ 32) :
    (e ≠ e' → compare .eq a b = .ok false ∧ compare .ne a b = .ok false) ∧
    (e = e' → ∀ i j, Valid e i → Valid e j → f i = g i → f j ≠ g j → compare .eq a b = .ok false ∧ compare .ne a b = .ok false) := by
  constructor
  · intro h
    constructor <;>
    · unfold compare
      rw [if_pos (by rw [ha.extents, hb.extents]; exact h), if_neg (by simp)]
  · rintro rfl i j hi hj hij hne
    obtain ⟨r, e1, hr⟩ := compare_same .eq ha hb hs
    obtain ⟨r', e1', hr'⟩ := compare_same .ne ha hb hs
    refine ⟨?_, ?_⟩
    · cases r with
      | false => exact e1
      | true => have := (hr.1 rfl) j hj; simp [Cmp.pred, hne] at this
    · cases r' with
      | false => exact e1'
      | true => have := (hr'.1 rfl) i hi; simp [Cmp.pred, hij] at this

/-- **C71** refuted for two layouts: elements are compared in memory order. -/
theorem C71_layout_refuted : ∃ (a b c : Tensor ℤ) (f g : List Nat → ℤ), Holds .first a [2, 2] f ∧ Holds .last b [2, 2] f ∧ compare .eq a b = .ok false ∧
    Holds .last c [2, 2] g ∧ compare .eq a c = .ok true ∧ f [0, 1] ≠ g [0, 1] := by
  have hv : ∀ i, Valid [2, 2] i → i = [0, 0] ∨ i = [0, 1] ∨ i = [1, 0] ∨ i = [1, 1] := fun i hi => by
    rcases hi with _ | ⟨h1, _ | ⟨h2, ⟨⟩⟩⟩
    rename_i a b
    have : a = 0 ∨ a = 1 := by omega
    have : b = 0 ∨ b = 1 := by omega
    simp; omega
  refine ⟨⟨[2, 2], [1, 2], [1, 2, 3, 4]⟩, ⟨[2, 2], [2, 1], [1, 3, 2, 4]⟩, ⟨[2, 2], [2, 1], [1, 2, 3, 4]⟩, fun i => 1 + i.getD 0 0 + 2 * i.getD 1 0, fun i => 1 + 2 * i.getD 0 0 + i.getD 1 0,
    ⟨rfl, by decide, by decide, by decide, rfl, fun i hi => ?_⟩, ⟨rfl, by decide, by decide, by decide, rfl, fun i hi => ?_⟩, by decide, ⟨rfl, by decide, by decide, by decide, rfl, fun i hi => ?_⟩, by decide,
    by decide⟩
  all_goals
    rcases hv i hi with rfl | rfl | rfl | rfl <;> rfl

/-! ## Element-wise expressions -/

/-- What a tensor expression means at a multi-index. `own`: the assigned tensor. -/
inductive TExp.Means (L : Layout) (e : List Nat) (own : List Nat → R) : TExp R → (List Nat → R) → Prop
  | leaf {t f} (h : Holds L t e f) : Means L e own (.leaf L t) f
  | self : Means L e own (.self L) own
  | unary {x f} (op : R → R) (h : Means L e own x f) : Means L e own (.unary op x) fun i => op (f i)
  | binary {x y f g} (op : R → R → R) (h : Means L e own x f) (h' : Means L e own y g) : Means L e own (.binary op x y) fun i => op (f i) (g i)
  | vecLeft {x f get} {g : List Nat → R} (op : R → R → R) (hg : ∀ i, Valid e i → get (pos L e i) = .ok (g i)) (h : Means L e own x f) :
      Means L e own (.vec op true get x) fun i => op (g i) (f i)
  | vecRight {x f get} {g : List Nat → R} (op : R → R → R) (hg : ∀ i, Valid e i → get (pos L e i) = .ok (g i)) (h : Means L e own x f) :
      Means L e own (.vec op false get x) fun i => op (f i) (g i)

theorem TExp.Means.layout {L : Layout} {e : List Nat} {own f : List Nat → R} {x : TExp R} (h : x.Means L e own f) : x.layout = L := by
  induction h <;> simp_all [TExp.layout]

theorem TExp.Means.extents {L : Layout} {e : List Nat} {own f : List Nat → R} {x : TExp R} (h : x.Means L e own f) : x.extents e = e := by
  induction h with
  | leaf h => exact h.extents
  | self => rfl
  | unary _ _ ih => exact ih
  | binary _ _ _ ih ih' => simp only [TExp.extents]; split <;> assumption
  | vecLeft _ _ _ ih => exact ih
  | vecRight _ _ _ ih => exact ih

theorem TExp.Means.allEqual {L : Layout} {e : List Nat} {own f : List Nat → R} {x : TExp R} (h : x.Means L e own f) : x.allEqual e e = true := by
  induction h with
  | leaf h => simp [TExp.allEqual, h.extents]
  | self => simp [TExp.allEqual]
  | unary _ _ ih => exact ih
  | binary _ h1 h2 ih1 ih2 => simp [TExp.allEqual, ih1, ih2]
  | vecLeft _ _ _ ih => exact ih
  | vecRight _ _ _ ih => exact ih

/-- `lhs op rhs` of matching operands is formed. -/
theorem TExp.Means.combine {L : Layout} {e : List Nat} {own f g : List Nat → R} {x y : TExp R} (hx : x.Means L e own f) (hy : y.Means L e own g) (op : R → R → R) :
    ∃ z, TExp.combine e op x y = .ok z ∧ z.Means L e own fun i => op (f i) (g i) :=
  ⟨_, by rw [TExp.combine, if_neg (by rw [hx.layout, hy.layout]; simp)], .binary op hx hy⟩

/-- An operand read at a position that still holds its old value. -/
theorem TExp.Means.at_ {L : Layout} {e : List Nat} {own f : List Nat → R} {x : TExp R} (h : x.Means L e own f) {d : List R} {i : List Nat} (hi : Valid e i) (hd : d[pos L e i]? = some (own i)) :
    x.at_ d (pos L e i) = .ok (f i) := by
  induction h with
  | leaf h => exact vectorAt_ok.2 (h.elem i hi)
  | self => exact vectorAt_ok.2 hd
  | unary _ _ ih => simp only [TExp.at_, ih, bind_ok]
  | binary _ _ _ ih1 ih2 => simp only [TExp.at_, ih1, ih2, bind_ok]
  | vecLeft _ hg _ ih => simp only [TExp.at_, ih, hg i hi, bind_ok]
  | vecRight _ hg _ ih => simp only [TExp.at_, ih, hg i hi, bind_ok]

theorem evalLoop_ok {L : Layout} {e : List Nat} {own f : List Nat → R} {x : TExp R} (fn : R → R → R) (hx : x.Means L e own f) {order : List Nat} (hn : order.Nodup)
    (ho : ∀ k ∈ order, k < count e) {d : List R} (hl : d.length = count e) (hd : ∀ i, Valid e i → pos L e i ∈ order → d[pos L e i]? = some (own i)) :
    ∃ d', order.foldlM (evalStep fn x) d = .ok d' ∧ d'.length = count e ∧ ∀ i, Valid e i → d'[pos L e i]? = if pos L e i ∈ order then some (fn (own i) (f i)) else d[pos L e i]? := by
  induction order generalizing d with
  | nil => exact ⟨d, rfl, hl, fun i _ => by simp⟩
  | cons k order ih =>
    obtain ⟨i, hi, rfl⟩ := pos_surj (L := L) (ho k (by simp))
    have hnk : pos L e i ∉ order := (List.nodup_cons.1 hn).1
    have hdi := hd i hi (by simp)
    obtain ⟨d', e1, hl', hd'⟩ := ih (List.nodup_cons.1 hn).2 (fun k hk => ho k (by simp [hk])) (d := d.set (pos L e i) (fn (own i) (f i))) (by rw [List.length_set, hl])
      (fun j hj hjm => by rw [List.getElem?_set_ne fun hc => hnk (by rw [hc]; exact hjm)]; exact hd j hj (by simp [hjm]))
    refine ⟨d', ?_, hl', fun j hj => ?_⟩
    · rw [List.foldlM_cons]
      simp only [evalStep, hx.at_ hi hdi, vectorAt_ok.2 hdi, bind_ok]
      exact e1
    · rw [hd' j hj]
      by_cases hj1 : pos L e j ∈ order
      · simp [hj1]
      · rw [if_neg hj1]
        by_cases hji : pos L e j = pos L e i
        · have := pos_inj hj hi hji
          subst this
          rw [if_pos (by simp), List.getElem?_set_self (by rw [hl]; exact pos_lt hj)]
        · rw [if_neg (by simp [hj1, hji]), List.getElem?_set_ne (Ne.symm hji)]

/-- **C72** for operands of one layout: `t op= expr` and `t = expr` store at every multi-index the value of the expression there, in whatever order the iterations of the parallel loop run,
also when the expression reads `t` itself. -/
theorem C72_eval_same_layout_partial {L : Layout} {t : Tensor R} {e : List Nat} {own f : List Nat → R} (ht : Holds L t e own) {x : TExp R} (hx : x.Means L e own f) (hs : count e < 2 ^ 32) (fn : R → R → R)
    {order : List Nat} (ho : order.Perm (List.range (count e))) : ∃ t', eval fn t x order = .ok t' ∧ Holds L t' e fun i => fn (own i) (f i) := by
  obtain ⟨d, e1, hl, hd⟩ := evalLoop_ok fn hx (order := order) (ho.nodup_iff.2 List.nodup_range) (fun k hk => List.mem_range.1 (ho.mem_iff.1 hk)) ht.size (fun i hi _ => ht.elem i hi)
  refine ⟨{ t with data := d }, ?_, ht.extents, ht.positive, ht.rank, ht.strides, hl, fun i hi => ?_⟩
  · unfold eval
    rw [ht.extents, if_neg (by rw [hx.allEqual]; simp), if_pos (by rw [ht.size]; exact hs), e1, bind_ok]
  · rw [hd i hi, if_pos (ho.mem_iff.2 (List.mem_range.2 (pos_lt hi)))]

/-- **C72**, construction of a tensor from an expression. -/
theorem C72_construct_same_layout_partial {L : Layout} {e : List Nat} {f : List Nat → R} {x : TExp R} (zero : R) (hx : x.Means L e (fun _ => zero) f) (hp : ∀ n ∈ e, 0 < n) (hr : e ≠ []) (hq : x.extents [] = e)
    (hs : count e < 2 ^ 32) {order : List Nat} (ho : order.Perm (List.range (count e))) : ∃ t, construct L zero x order = .ok t ∧ Holds L t e f := by
  obtain ⟨t, h1, h2⟩ := create_holds L hp hr zero
  obtain ⟨t', h3, h4⟩ := C72_eval_same_layout_partial h2 hx hs (fun _ y => y) ho
  exact ⟨t', by simp only [construct, hq, h1, bind_ok, h3], h4⟩

/-- **C72**: operands of another shape are refused (operands of one layout). -/
inductive TExp.Mismatch (L : Layout) (e : List Nat) : TExp R → Prop
  | leaf {t : Tensor R} (h : t.extents ≠ e) : Mismatch L e (.leaf L t)
  | unary {x} (op : R → R) (h : Mismatch L e x) : Mismatch L e (.unary op x)
  | vec {x} (op : R → R → R) (left : Bool) (get : Nat → M R) (h : Mismatch L e x) : Mismatch L e (.vec op left get x)
  | left {x y} (op : R → R → R) (h : Mismatch L e x) : Mismatch L e (.binary op x y)
  | right {x y} (op : R → R → R) (hx : x.layout = L) (hy : y.layout = L) (h : Mismatch L e y) : Mismatch L e (.binary op x y)

theorem C72_shapes {L : Layout} {t : Tensor R} {x : TExp R} (h : x.Mismatch L t.extents) (fn : R → R → R) (order : List Nat) : eval fn t x order = .error .stdException := by
  unfold eval
  rw [if_pos]
  induction h with
  | leaf h => simpa [TExp.allEqual] using h
  | unary _ _ ih => exact ih
  | vec _ _ _ _ ih => exact ih
  | left _ _ ih => simp [TExp.allEqual, ih]
  | right _ h1 h2 _ ih => simp [TExp.allEqual, ih, h1, h2]

/-- **C72**: `t += s` etc. with a scalar. -/
theorem C72_scalar {L : Layout} {t : Tensor R} {e : List Nat} {own : List Nat → R} (ht : Holds L t e own) (hs : count e < 2 ^ 32) (fn : R → R) {order : List Nat}
    (ho : order.Perm (List.range (count e))) : ∃ t', evalScalar fn t order = .ok t' ∧ Holds L t' e fun i => fn (own i) := by
  obtain ⟨t', h1, h2⟩ := C72_eval_same_layout_partial ht (.self (L := L) (own := own)) hs (fun x _ => fn x) ho
  refine ⟨t', ?_, h2⟩
  rw [← h1]
  unfold eval
  rw [if_neg (by simp [TExp.allEqual])]
  unfold evalScalar
  have : (fun (d : List R) i => (do
      let l ← vectorAt d i
      .ok (d.set i (fn l)) : M (List R))) = evalStep (fun x _ => fn x) (.self L) := by
    funext d i
    unfold evalStep TExp.at_
    cases vectorAt d i <;> rfl
  rw [this]

/-- **C72** (checking): an operation on two tensors of different layouts is accepted exactly when they have the same extents, and otherwise throws at once. -/
theorem C72_mixed_checked (own : List Nat) (op : R → R → R) {La Lb : Layout} (hL : La ≠ Lb) (a b : Tensor R) :
    (TExp.combine own op (.leaf La a) (.leaf Lb b) = .error .stdException ↔ a.extents ≠ b.extents) ∧
    (a.extents = b.extents → TExp.combine own op (.leaf La a) (.leaf Lb b) = .ok (.binary op (.leaf La a) (.leaf Lb b))) := by
  unfold TExp.combine
  by_cases h : a.extents = b.extents
  · rw [if_neg (by simp [TExp.layout, TExp.allEqual, TExp.extents, h])]
    exact ⟨⟨fun e => (nomatch e), fun e => absurd h e⟩, fun _ => rfl⟩
  · rw [if_pos ⟨by simpa [TExp.layout] using hL, by simp [TExp.allEqual, TExp.extents, h]⟩]
    exact ⟨⟨fun _ => h, fun _ => rfl⟩, fun e => absurd e h⟩

/-- **C72** refuted for operands of different layouts: they are combined in memory order. Assigning a last-order tensor (or an expression of such) to a first-order one gives at multi-index `i`
the element of the source whose position *in the other layout* is the position of `i`. -/
theorem C72_mixed_refuted : ∃ (t s : Tensor ℤ) (f g : List Nat → ℤ), Holds .last s [2, 2] f ∧ construct .first 0 (.unary (fun x => x) (.leaf .last s)) (List.range 4) = .ok t ∧ Holds .first t [2, 2] g ∧ f [0, 1] ≠ g [0, 1] := by
  have hv : ∀ i, Valid [2, 2] i → i = [0, 0] ∨ i = [0, 1] ∨ i = [1, 0] ∨ i = [1, 1] := fun i hi => by
    rcases hi with _ | ⟨h1, _ | ⟨h2, ⟨⟩⟩⟩
    rename_i a b
    have : a = 0 ∨ a = 1 := by omega
    have : b = 0 ∨ b = 1 := by omega
    simp; omega
  refine ⟨⟨[2, 2], [1, 2], [1, 2, 3, 4]⟩, ⟨[2, 2], [2, 1], [1, 2, 3, 4]⟩, fun i => 1 + 2 * i.getD 0 0 + i.getD 1 0, fun i => 1 + i.getD 0 0 + 2 * i.getD 1 0,
    ⟨rfl, by decide, by decide, by decide, rfl, fun i hi => ?_⟩, by decide, ⟨rfl, by decide, by decide, by decide, rfl, fun i hi => ?_⟩, by decide⟩
  all_goals
    rcases hv i hi with rfl | rfl | rfl | rfl <;> rfl

/-- **C72** fails for 2^32 elements or more: the `unsigned int` counter never reaches the size. -/
theorem C72_large_refuted (fn : R → R → R) {t : Tensor R} {x : TExp R} (h : 2 ^ 32 ≤ t.data.length) (hx : x.allEqual t.extents t.extents = true) (order : List Nat) : eval fn t x order = .error .diverge := by
  unfold eval
  rw [if_neg (by rw [hx]; simp), if_neg (by omega)]

/-- `c = a + 2 * c` on 2 x 2 tensors. -/
example : (do
    let a ← createFrom .first [2, 2] ([1, 2, 3, 4] : List ℤ)
    let c ← createFrom .first [2, 2] ([10, 20, 30, 40] : List ℤ)
    let x ← TExp.combine c.extents (fun x y => x + y) (.leaf .first a) (.unary (fun y => 2 * y) (.self .first))
    eval (fun _ y => y) c x [2, 0, 3, 1]) = .ok ⟨[2, 2], [1, 2], [21, 42, 63, 84]⟩ := by decide

end Ublas.Tens
