import Verif.Model.TensorStatic
import Verif.Props.Tensor
/-! # C90: metafunctions on static extents -/
namespace Ublas.Tens

/-! ## Access, concatenation, selection, replacement, reversal -/

theorem getImpl_ok {j k n : Nat} {e : List Nat} (hn : k + e.length = n) (hk : k ≤ j) (hj : j < n) : getImpl j k n e = some (e.getD (j - k) 0) := by
  induction e generalizing k with
  | nil => simp at hn; omega
  | cons e1 es ih =>
    cases es with
    | nil =>
      simp at hn
      rw [getImpl, if_pos ⟨hj, by omega⟩, show j - k = 0 by omega]; rfl
    | cons e2 es =>
      simp at hn
      rw [getImpl, if_pos ⟨by omega, hj⟩]
      by_cases h : j = k
      · have : ∃ x, getImpl j (k + 1) n (e2 :: es) = some x := by
          clear ih
          subst h
          have : ∀ (l : List Nat) (m : Nat), l ≠ [] → m + l.length = n → ∃ x, getImpl j m n l = some x := by
            intro l
            induction l with
            | nil => intro m h; exact absurd rfl h
            | cons a l ih =>
              intro m _ hm
              simp at hm
              cases l with
              | nil => exact ⟨a, by rw [getImpl, if_pos ⟨hj, by omega⟩]⟩
              | cons b l =>
                obtain ⟨x, hx⟩ := ih (m + 1) (by simp) (by simp only [List.length_cons] at hm ⊢; omega)
                exact ⟨_, by rw [getImpl, if_pos ⟨by simp at hm; omega, hj⟩, hx]; rfl⟩
          exact this _ _ (by simp) (by simp; omega)
        obtain ⟨x, hx⟩ := this
        rw [hx, Option.bind_some, if_pos h, show j - k = 0 by omega]; rfl
      · rw [ih (k := k + 1) (by simp; omega) (by omega), Option.bind_some, if_neg h, show j - k = (j - (k + 1)) + 1 by omega]; rfl

/-- **C90** `get_v<E, j>` is the `j`-th extent; an index that is too large is rejected at compile time. -/
theorem C90_get (e : List Nat) (j : Nat) : (∀ h : j < e.length, getV e j = some e[j]) ∧ (e ≠ [] → e.length ≤ j → getV e j = none) := by
  constructor
  · intro h
    rw [getV, getImpl_ok (by omega) (by omega) h]
    simp [h]
  · intro he h
    unfold getV
    match e, he, h with
    | [a], _, h => rw [getImpl, if_neg (by omega)]
    | a :: b :: t, _, h => rw [getImpl, if_neg (by omega)]

theorem mapM_some {α β : Type} {g : α → Option β} {f : α → β} {l : List α} (h : ∀ x ∈ l, g x = some (f x)) : l.mapM g = some (l.map f) := by
  induction l with
  | nil => rfl
  | cons a l ih =>
    rw [List.mapM_cons, h a (by simp), ih fun x hx => h x (by simp [hx])]
    rfl

theorem mapM_getV {e is : List Nat} (h : ∀ i ∈ is, i < e.length) : is.mapM (getV e) = some (is.map fun i => e.getD i 0) :=
  mapM_some fun i hi => by rw [(C90_get e i).1 (h i hi)]; simp [h i hi]

theorem map_getD_self (e : List Nat) : ((List.range e.length).map fun i => e.getD i 0) = e := by
  apply List.ext_getElem
  · simp
  · intro i h1 h2; simp [h2]

/-- **C90** `cat_t` concatenates. -/
theorem C90_cat (l r : List Nat) : catT l r = some (l ++ r) := by
  rw [catT, mapM_getV (by simp), mapM_getV (by simp), map_getD_self, map_getD_self]
  rfl

/-- **C90** `select_t` picks the extents at the given positions (not more positions than extents). -/
theorem C90_select {e is : List Nat} (hl : is.length ≤ e.length) (h : ∀ i ∈ is, i < e.length) : selectT e is = some (is.map fun i => e.getD i 0) := by
  rw [selectT, if_pos hl, mapM_getV h]

theorem select_take {e : List Nat} {j : Nat} (h : j ≤ e.length) : selectT e (List.range j) = some (e.take j) := by
  rw [C90_select (by simpa using h) (by simp; omega)]
  congr 1
  apply List.ext_getElem
  · simp; omega
  · intro i h1 h2
    simp at h1 h2
    simp [show i < e.length by omega]

/-- **C90** `set_t<j, v, E>` replaces the `j`-th extent by `v`. -/
theorem C90_set {e : List Nat} {j : Nat} (h : j < e.length) (v : Nat) : setT j v e = some (e.set j v) := by
  rw [setT, if_neg (by omega), select_take (by omega), forEachT, C90_select (by simp; omega) (by simp; omega)]
  simp only [Option.bind_eq_bind, Option.bind_some, C90_cat]
  congr 1
  apply List.ext_getElem
  · simp; omega
  · intro i h1 h2
    simp at h2
    rw [List.getElem_append]
    split
    · rename_i h3
      simp at h3
      rw [List.getElem_append]
      split
      · rename_i h4
        simp at h4
        rw [List.getElem_set_ne (by omega)]; simp
      · rename_i h4
        simp at h4
        have : i = j := by omega
        subst this
        simp
    · rename_i h3
      simp at h3
      rw [List.getElem_set_ne (by omega)]
      simp only [List.length_append, List.length_take, List.length_cons, List.length_nil, List.map_map, List.getElem_map, List.getElem_range, Function.comp]
      have : i - (min j e.length + (0 + 1)) + (j + 1) = i := by omega
      rw [this]; simp [h2]

/-- **C90** `reverse_t` reverses. -/
theorem C90_reverse (e : List Nat) : reverseT e = some e.reverse := by
  rw [reverseT, mapM_some (f := fun j => e.getD (e.length - j - 1) 0) fun j hj => by
    simp at hj
    rw [(C90_get e _).1 (by omega)]; simp [show e.length - j - 1 < e.length by omega]]
  congr 1
  apply List.ext_getElem
  · simp
  · intro i h1 h2
    simp at h1 h2
    simp only [List.getElem_map, List.getElem_range, List.getElem_reverse]
    rw [show e.length - i - 1 = e.length - 1 - i by omega]
    simp [show e.length - 1 - i < e.length by omega]

theorem accumulateImpl_eq (op : Nat → Nat → Nat) (i : Nat) (e : List Nat) : accumulateImpl op i e = e.foldr op i := by
  induction e with
  | nil => rfl
  | cons a e ih => cases e with
    | nil => rfl
    | cons b e => rw [accumulateImpl, ih]; simp; simp

/-- **C90** `accumulate_v<E, i, op>` folds from the first extent on: `op (e_n, ... op (e_1, op (e_0, i)))`, as `std::accumulate` does for run-time extents. -/
theorem C90_accumulate (op : Nat → Nat → Nat) (i : Nat) (e : List Nat) : accumulateV op i e = some (e.foldl (fun a x => op x a) i) := by
  rw [accumulateV, C90_reverse]
  simp [accumulateImpl_eq]

/-- **C90** `product_v` is the number of elements and what `product` computes at run time. -/
theorem C90_product (e : List Nat) : productV e = some (product e) ∧ (e ≠ [] → productV e = some (count e)) := by
  have : productV e = some (product e) := by
    unfold productV product
    split_ifs
    · rfl
    · rw [C90_accumulate]
      congr 1
      have : ∀ a, e.foldl (fun a x => x * a) a = e.foldl (· * ·) a := by
        induction e with
        | nil => exact fun a => rfl
        | cons b e ih => intro a; simp [Nat.mul_comm]
      exact this 1
  exact ⟨this, fun h => by rw [this, product_eq h]⟩

example : getV [4, 3, 2] 2 = some 2 ∧ catT [4, 3, 2] [7, 6] = some [4, 3, 2, 7, 6] ∧ selectT [4, 3, 2] [0, 2] = some [4, 2] ∧ setT 2 5 [4, 3, 2] = some [4, 3, 5] ∧
    reverseT [4, 3, 2] = some [2, 3, 4] ∧ productV [4, 3, 2] = some 24 ∧ setT 3 5 [4, 3, 2] = none ∧ getV [4, 3, 2] 3 = none ∧ productV [] = some 0 := by decide

/-! ## Predicates -/

/-- **C90** `all_of_v` is true exactly when every extent satisfies the predicate. -/
theorem C90_all_of (p : Nat → Bool) (e : List Nat) : allOfV p e = true ↔ ∀ n ∈ e, p n = true := by
  have : ∀ bs : List Bool, bs.foldr (· && ·) true = true ↔ ∀ b ∈ bs, b = true := by
    intro bs
    induction bs with
    | nil => simp
    | cons b bs ih => simp only [List.foldr_cons, Bool.and_eq_true, ih]; simp
  cases e with
  | nil => simp [allOfV]
  | cons a e => simp only [allOfV, List.map_cons, Bool.and_eq_true, this]; simp

/-- **C90** `any_of_v` is true exactly when some extent satisfies the predicate, for a non-empty pack. -/
theorem C90_any_of_partial (p : Nat → Bool) {e : List Nat} (h : e ≠ []) : anyOfV p e = true ↔ ∃ n ∈ e, p n = true := by
  have : ∀ bs : List Bool, bs.foldr (· || ·) false = true ↔ ∃ b ∈ bs, b = true := by
    intro bs
    induction bs with
    | nil => simp
    | cons b bs ih => simp only [List.foldr_cons, Bool.or_eq_true, ih]; simp
  cases e with
  | nil => exact absurd rfl h
  | cons a e => simp only [anyOfV, List.map_cons, Bool.or_eq_true, this]; simp

/-- **C90** refuted: `any_of_v` of an empty pack is true, whatever the predicate. -/
theorem C90_any_of_refuted (p : Nat → Bool) : anyOfV p [] = true ∧ ¬ ∃ n ∈ ([] : List Nat), p n = true := ⟨rfl, by simp⟩

theorem isValidV_iff (e : List Nat) : isValidV e = true ↔ ∀ n ∈ e, 0 < n := by
  cases e with
  | nil => simp [isValidV]
  | cons a e => simp only [isValidV]; rw [C90_all_of]; simp

/-- **C90** The shapes of extents with positive entries: a scalar has ones only; a vector has at most one extent other than one, among the first two; a matrix has ones from the third
extent on; everything else is a tensor. The compile-time and the run-time predicates agree. -/
theorem C90_shapes_partial {e : List Nat} (he : e ≠ []) (h : ∀ n ∈ e, 0 < n) :
    (isValidV e = true ∧ isValid e = true) ∧
    (isScalarV e = isScalar e ∧ (isScalar e = true ↔ ∀ n ∈ e, n = 1)) ∧
    (isVectorV e = isVector e ∧ (isVector e = true ↔ ∃ k, k < 2 ∧ ∀ i, i ≠ k → e.getD i 1 = 1)) ∧
    (isMatrixV e = isMatrix e ∧ (isMatrix e = true ↔ ∀ i, 2 ≤ i → e.getD i 1 = 1)) ∧
    (isTensorV e = isTensor e ∧ (isTensor e = true ↔ isMatrix e = false)) := by
  have hv : isValidV e = true := (isValidV_iff e).2 h
  have hrest : ∀ es : List Nat, (∀ n ∈ es, n = 1) ↔ ∀ i, es.getD i 1 = 1 := by
    intro es
    constructor
    · intro h i
      rw [List.getD_eq_getElem?_getD]
      by_cases hi : i < es.length
      · rw [List.getElem?_eq_getElem hi]; exact h _ (List.getElem_mem hi)
      · rw [List.getElem?_eq_none (by omega)]; rfl
    · intro h n hn
      obtain ⟨i, hi, rfl⟩ := List.getElem_of_mem hn
      have := h i
      rwa [List.getD_eq_getElem?_getD, List.getElem?_eq_getElem hi] at this
  refine ⟨⟨hv, isValid_iff.2 h⟩, ?_, ?_, ?_, ?_⟩
  · have h2 : isScalar e = true ↔ ∀ n ∈ e, n = 1 := by
      have : 0 < e.length := List.length_pos_of_ne_nil he
      simp [isScalar, this]
    refine ⟨?_, h2⟩
    rw [Bool.eq_iff_iff, h2, isScalarV, hv, Bool.and_eq_true, C90_all_of]
    simp [he]
  · match e, he, h, hv with
    | [a], _, h, hv =>
      refine ⟨rfl, ?_⟩
      have := h a (by simp)
      refine ⟨fun _ => ⟨0, by omega, fun i hi => ?_⟩, fun _ => by simp [isVector]; omega⟩
      obtain ⟨i, rfl⟩ := Nat.exists_eq_succ_of_ne_zero hi
      rfl
    | a :: b :: es, _, h, hv =>
      have ha := h a (by simp)
      have hb := h b (by simp)
      have h2 : isVector (a :: b :: es) = true ↔ (a = 1 ∨ b = 1) ∧ ∀ n ∈ es, n = 1 := by
        simp [isVector]; omega
      refine ⟨?_, h2.trans ?_⟩
      · rw [Bool.eq_iff_iff, h2, isVectorV, hv, Bool.and_eq_true, Bool.and_eq_true, Bool.and_eq_true, C90_all_of, C90_any_of_partial _ (by simp), C90_any_of_partial _ (by simp)]
        simp; omega
      · rw [hrest]
        constructor
        · rintro ⟨h1 | h1, h3⟩
          · refine ⟨1, by omega, fun i hi => ?_⟩
            match i, hi with
            | 0, _ => exact h1
            | 1, hi => exact absurd rfl hi
            | i + 2, _ => exact h3 i
          · refine ⟨0, by omega, fun i hi => ?_⟩
            match i, hi with
            | 0, hi => exact absurd rfl hi
            | 1, _ => exact h1
            | i + 2, _ => exact h3 i
        · rintro ⟨k, hk, h3⟩
          refine ⟨?_, fun i => h3 (i + 2) (by omega)⟩
          by_cases hk0 : k = 0
          · exact Or.inr (h3 1 (by omega))
          · exact Or.inl (h3 0 (by omega))
  · match e, he, h, hv with
    | [a], _, h, hv =>
      have := h a (by simp)
      refine ⟨by simp [isMatrixV, isMatrix]; omega, ⟨fun _ i hi => ?_, fun _ => by simp [isMatrix]; omega⟩⟩
      obtain ⟨i, rfl⟩ : ∃ j, i = j + 1 := ⟨i - 1, by omega⟩
      rfl
    | a :: b :: es, _, h, hv =>
      have ha := h a (by simp)
      have hb := h b (by simp)
      have h2 : isMatrix (a :: b :: es) = true ↔ ∀ n ∈ es, n = 1 := by
        simp [isMatrix]; omega
      refine ⟨?_, h2.trans ?_⟩
      · rw [Bool.eq_iff_iff, h2, isMatrixV, hv, Bool.and_eq_true, Bool.and_eq_true, C90_all_of, C90_all_of]
        simp; omega
      · rw [hrest]
        constructor
        · intro h3 i hi
          obtain ⟨i, rfl⟩ : ∃ j, i = j + 2 := ⟨i - 2, by omega⟩
          exact h3 i
        · exact fun h3 i => h3 (i + 2) (by omega)
  · match e, he, h, hv with
    | [a], _, h, hv =>
      have := h a (by simp)
      refine ⟨rfl, by simp [isTensor, isMatrix]; omega⟩
    | a :: b :: es, _, h, hv =>
      have ha := h a (by simp)
      have hb := h b (by simp)
      have h2 : isTensor (a :: b :: es) = true ↔ ∃ n ∈ es, 1 < n := by
        simp [isTensor]
        exact fun n hn _ => ⟨List.length_pos_of_mem hn, ha, hb⟩
      refine ⟨?_, ?_⟩
      · rw [Bool.eq_iff_iff, h2, isTensorV, hv, Bool.and_eq_true, Bool.and_eq_true]
        cases es with
        | nil => simp
        | cons c es => rw [C90_any_of_partial _ (by simp)]; simp
      · rw [h2, ← Bool.not_eq_true]
        have h3 : isMatrix (a :: b :: es) = true ↔ ∀ n ∈ es, n = 1 := by
          simp [isMatrix]; omega
        rw [h3]
        push Not
        constructor
        · rintro ⟨n, hn, h1⟩; exact ⟨n, hn, by omega⟩
        · rintro ⟨n, hn, h1⟩; exact ⟨n, hn, by have := h n (by simp [hn]); omega⟩

/-- **C90** for empty extents: they are valid, and neither a scalar, a vector, a matrix nor a tensor, at compile time as at run time. -/
theorem C90_shapes_empty : (isValidV [] = true ∧ isValid [] = true) ∧ (isScalarV [] = false ∧ isScalar [] = false) ∧ (isVectorV [] = false ∧ isVector [] = false) ∧
    (isMatrixV [] = false ∧ isMatrix [] = false) ∧ (isTensorV [] = false ∧ isTensor [] = false) := by decide

/-- **C90** refuted for extents with a zero: the compile-time and the run-time predicates disagree. -/
theorem C90_shapes_refuted : (isMatrixV [0] = true ∧ isMatrix [0] = false) ∧ (isVectorV [0, 1] = false ∧ isVector [0, 1] = true) ∧ (isMatrixV [0, 4] = false ∧ isMatrix [0, 4] = true) ∧
    (isTensorV [4, 3, 0, 2] = false ∧ isTensor [4, 3, 0, 2] = true) := by decide

example : isVectorV [1, 5, 1] = true ∧ isMatrixV [4, 5, 1] = true ∧ isVectorV [4, 5, 1] = false ∧ isTensorV [4, 5, 1, 3] = true ∧ isMatrixV [4, 5, 1, 3] = false ∧ isScalarV [1, 1] = true := by decide

/-! ## Strides -/

theorem pref_getD {acc : Nat} {e : List Nat} {k : Nat} (h : k < e.length) : (pref acc e)[k]? = some (acc * (e.take k).prod) := by
  induction e generalizing acc k with
  | nil => simp at h
  | cons a e ih =>
    cases k with
    | zero => simp [pref]
    | succ k =>
      simp at h
      rw [pref, List.getElem?_cons_succ, ih h]
      simp [Nat.mul_assoc, Nat.mul_comm, Nat.mul_left_comm]

theorem toStridesV_first {e : List Nat} (he : e ≠ []) :
    (1 :: (List.range (e.length - 1)).map fun i => (e.take (i + 1)).prod) = pref 1 e := by
  have hl := List.length_pos_of_ne_nil he
  apply List.ext_getElem?
  intro k
  by_cases hk : k < e.length
  · rw [pref_getD hk]
    cases k with
    | zero => simp
    | succ k => simp [show k < e.length - 1 by omega]
  · rw [List.getElem?_eq_none (by simp; omega), List.getElem?_eq_none (by rw [pref_length]; omega)]

/-- **C90** `to_strides_v` of extents with positive entries: one stride per extent, and `to_index` puts every multi-index at the position the layout prescribes - the same position as with the
run-time strides, although the strides themselves may differ. -/
theorem C90_strides (L : Layout) {e : List Nat} (he : e ≠ []) (h : ∀ n ∈ e, 0 < n) :
    ∃ w, toStridesV L e = some w ∧ w.length = e.length ∧ (∀ i, Valid e i → toIndex w i = .ok (pos L e i)) ∧
      ∀ w', toStrides L e = .ok w' → ∀ i, Valid e i → toIndex w i = toIndex w' i := by
  have hl := List.length_pos_of_ne_nil he
  have hinner : ∀ d : List Nat, d ≠ [] → d.length = e.length → ((List.range (e.length - 1)).mapM fun i => do
      let s ← selectT d (List.range (i + 1))
      productV s) = some ((List.range (e.length - 1)).map fun i => (d.take (i + 1)).prod) := by
    intro d hd hde
    refine mapM_some fun i hi => ?_
    simp at hi
    rw [select_take (by omega)]
    show productV _ = _
    rw [(C90_product _).2 (by
      intro hc
      have := congrArg List.length hc
      rw [List.length_take] at this
      simp only [List.length_nil] at this
      omega), count]
  have hno : ¬ (isValidV e = false ∨ e.length = 0) := by
    rw [(isValidV_iff e).2 h]; simp; exact he
  have key : ∃ w, toStridesV L e = some w ∧ w.length = e.length ∧ ∀ i, Valid e i → dotW w i = pos L e i := by
    cases L with
    | first =>
      refine ⟨pref 1 e, ?_, pref_length _ _, fun i hi => by rw [dotW_pref]; simp [pos]⟩
      rw [toStridesV, if_neg hno]
      simp only [Option.bind_eq_bind, Option.bind_some]
      have := hinner e he rfl
      simp only [Option.bind_eq_bind] at this
      rw [this, Option.bind_some, toStridesV_first he]
    | last =>
      refine ⟨suff e, ?_, suff_length _, fun i hi => by rw [dotW_suff]; rfl⟩
      rw [toStridesV, if_neg hno]
      simp only [Option.bind_eq_bind, C90_reverse, Option.bind_some]
      have := hinner e.reverse (by simpa using he) (by simp)
      simp only [Option.bind_eq_bind] at this
      rw [this, Option.bind_some, ← pref_reverse, ← toStridesV_first (e := e.reverse) (by simpa using he)]
      simp
  obtain ⟨w, h1, h2, h3⟩ := key
  have h4 : ∀ i, Valid e i → toIndex w i = .ok (pos L e i) := fun i hi => by rw [toIndex_ok (by rw [hi.length, h2]), h3 i hi]
  exact ⟨w, h1, h2, h4, fun w' hw' i hi => by rw [h4 i hi, (toIndex_pos hw' hi).1]⟩

/-- The strides differ for vectors, the positions do not. -/
example : toStridesV .first [4, 2, 3] = some [1, 4, 8] ∧ toStridesV .last [4, 2, 3] = some [6, 3, 1] ∧ toStridesV .first [5, 1] = some [1, 5] ∧ toStrides .first [5, 1] = .ok [1, 1] ∧
    toIndex [1, 5] [3, 0] = .ok 3 ∧ toIndex [1, 1] [3, 0] = .ok 3 := by decide

/-- **C90** extents with a zero, and the empty pack, are rejected at compile time. -/
theorem C90_strides_rejected (L : Layout) {e : List Nat} (h : e = [] ∨ 0 ∈ e) : toStridesV L e = none := by
  rw [toStridesV.eq_def, if_pos]
  rcases h with rfl | h
  · exact Or.inr rfl
  · left
    rw [← Bool.not_eq_true, isValidV_iff]
    exact fun hc => absurd (hc 0 h) (by omega)

end Ublas.Tens
