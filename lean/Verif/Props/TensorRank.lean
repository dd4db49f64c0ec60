import Verif.Model.TensorStatic
import Verif.Props.TensorInner
import Verif.Props.Tensor
/-! # C89: comparison of extents and of tensors across the three kinds of extents (dynamic, static rank, static) -/
namespace Ublas.Tens
variable {R : Type}

/-- **C89**: two extents objects compare equal exactly when they list the same extents. -/
theorem C89_equal (l r : Ext) : l.eq r = true ↔ l.dims = r.dims := by
  obtain ⟨kl, l⟩ := l
  obtain ⟨kr, r⟩ := r
  have key : l = r → r.length = l.length := fun h => by rw [h]
  cases kl <;> cases kr <;> simp only [Ext.eq]
  case ranked.ranked =>
    split_ifs with h
    · exact ⟨fun hc => by simp at hc, fun hc => absurd (key hc) h⟩
    · exact beq_iff_eq
  all_goals first
    | exact beq_iff_eq
    | (rw [Bool.and_eq_true, beq_iff_eq, beq_iff_eq]; exact ⟨fun h => h.2, fun h => ⟨(key h).symm, h⟩⟩)

/-- **C89** `l != r` is true exactly when the extents differ, unless both objects have the same static rank. -/
theorem C89_unequal_partial (l r : Ext) (h : ¬ (l.kind = .ranked ∧ r.kind = .ranked ∧ l.dims.length = r.dims.length)) : l.ne r = true ↔ l.dims ≠ r.dims := by
  have key : (!(l.eq r)) = true ↔ l.dims ≠ r.dims := by
    rw [Bool.not_eq_true', ← Bool.not_eq_true, C89_equal]
  unfold Ext.ne
  split
  · rename_i h1 h2
    rw [if_neg (fun hc => h ⟨h1, h2, hc.symm⟩), key]
  · exact key

/-- **C89** refuted: two extents objects of the same static rank never compare unequal, whatever their extents; so `l == r` and `l != r` are both false when they differ. -/
theorem C89_unequal_refuted (l r : List Nat) (h : l.length = r.length) : Ext.ne ⟨.ranked, l⟩ ⟨.ranked, r⟩ = false := by
  simp only [Ext.ne]
  rw [if_pos h.symm]

example : Ext.ne ⟨.ranked, [2, 3]⟩ ⟨.ranked, [4, 5]⟩ = false ∧ Ext.eq ⟨.ranked, [2, 3]⟩ ⟨.ranked, [4, 5]⟩ = false ∧ Ext.ne ⟨.dynamic, [2, 3]⟩ ⟨.ranked, [4, 5]⟩ = true ∧
    Ext.ne ⟨.ranked, [2, 3]⟩ ⟨.ranked, [2, 3, 1]⟩ = true ∧ Ext.ne ⟨.fixed, [2, 3]⟩ ⟨.fixed, [2, 3]⟩ = false := by decide

theorem compareK_eq [LinearOrder R] (ka kb : ExtKind) (c : Cmp) (a b : Tensor R) (h : ¬ (ka = .ranked ∧ kb = .ranked ∧ a.extents.length = b.extents.length) ∨ a.extents = b.extents) :
    compareK ka kb c a b = compare c a b := by
  have : Ext.ne ⟨ka, a.extents⟩ ⟨kb, b.extents⟩ = true ↔ a.extents ≠ b.extents := by
    by_cases hk : ka = .ranked ∧ kb = .ranked ∧ a.extents.length = b.extents.length
    · have he := h.resolve_left (fun hc => hc hk)
      obtain ⟨rfl, rfl, hl⟩ := hk
      rw [C89_unequal_refuted _ _ hl]
      simp [he]
    · exact C89_unequal_partial ⟨ka, a.extents⟩ ⟨kb, b.extents⟩ hk
  unfold compareK compare
  by_cases he : a.extents ≠ b.extents
  · rw [if_pos (this.2 he), if_pos he]
  · rw [if_neg (fun hc => he (this.1 hc)), if_neg he]

/-- **C89**, comparison of tensors of one layout: `==` is true exactly when the extents and all elements agree; `<`, `<=`, `>`, `>=` compare element-wise on equal extents and throw on different
ones. Proved for every combination of kinds of extents, except two different extents of the same static rank. -/
theorem C89_compare_partial [LinearOrder R] (ka kb : ExtKind) {L : Layout} {a b : Tensor R} {e e' : List Nat} {f g : List Nat → R} (ha : Holds L a e f) (hb : Holds L b e' g) (hs : count e < 2 ^ 32)
    (h : ¬ (ka = .ranked ∧ kb = .ranked ∧ e.length = e'.length) ∨ e = e') :
    (∃ r, compareK ka kb .eq a b = .ok r ∧ (r = true ↔ e = e' ∧ ∀ i, Valid e i → f i = g i)) ∧
    (e = e' → (∃ r, compareK ka kb .lt a b = .ok r ∧ (r = true ↔ ∀ i, Valid e i → f i < g i)) ∧ (∃ r, compareK ka kb .le a b = .ok r ∧ (r = true ↔ ∀ i, Valid e i → f i ≤ g i)) ∧
      (∃ r, compareK ka kb .gt a b = .ok r ∧ (r = true ↔ ∀ i, Valid e i → g i < f i)) ∧ ∃ r, compareK ka kb .ge a b = .ok r ∧ (r = true ↔ ∀ i, Valid e i → g i ≤ f i)) ∧
    (e ≠ e' → ∀ c, c ≠ .eq → c ≠ .ne → compareK ka kb c a b = .error .stdException) := by
  have := C71_same_layout_partial ha hb hs
  simp only [compareK_eq ka kb _ a b (by rw [ha.extents, hb.extents]; exact h)]
  exact this

/-- **C89** refuted for tensors of the same static rank and different extents: `a == b` is true as soon as the memory of `a` begins the memory of `b`; when it is the other way round `a == b` throws;
and the order comparisons do not throw when `b` has at least as many elements. -/
theorem C89_compare_refuted [LinearOrder R] {L : Layout} {a b : Tensor R} {e e' : List Nat} {f g : List Nat → R} (ha : Holds L a e f) (hb : Holds L b e' g) (hs : count e < 2 ^ 32)
    (hl : e.length = e'.length) (_ : e ≠ e') :
    (a.data <+: b.data → compareK .ranked .ranked .eq a b = .ok true) ∧
    (b.data <+: a.data → count e' < count e → compareK .ranked .ranked .eq a b = .error .stdException) ∧
    (count e ≤ count e' → ∀ c, ∃ r, compareK .ranked .ranked c a b = .ok r) := by
  have hn : ¬ Ext.ne ⟨.ranked, a.extents⟩ ⟨.ranked, b.extents⟩ = true := by
    rw [C89_unequal_refuted _ _ (by rw [ha.extents, hb.extents, hl])]; simp
  have hmin : min a.data.length (2 ^ 32) = a.data.length := by rw [ha.size]; omega
  have hbig : ¬ 2 ^ 32 ≤ a.data.length := by rw [ha.size]; omega
  refine ⟨fun hp => ?_, fun hp hc => ?_, fun hc c => ?_⟩
  · obtain ⟨t, ht⟩ := hp
    obtain ⟨r, e1, hr⟩ := compareFrom_ok (p := Cmp.pred .eq) (a := a.data) (b := b.data) (n := a.data.length) (i := 0) (by omega) (by rw [← ht]; simp)
    have : r = true := hr.2 (by
      intro k x y _ _ hx hy
      have hk : k < a.data.length := by omega
      rw [← ht, List.getElem?_append_left hk, hx] at hy
      simp [Cmp.pred, Option.some.inj hy])
    unfold compareK
    rw [if_neg hn, if_neg (by simp), hmin, e1, bind_ok, if_neg (fun h => hbig h.2), this]
  · have : ∀ n i, i ≤ b.data.length → b.data.length < i + n → i + n ≤ a.data.length → compareFrom (Cmp.pred .eq) a.data b.data n i = .error .stdException := by
      intro n
      induction n with
      | zero => intro i h1 h2; omega
      | succ n ih =>
        intro i h1 h2 h3
        have ha' : a.data[i]? = some a.data[i] := List.getElem?_eq_getElem (by omega)
        rw [compareFrom, vectorAt_ok.2 ha', bind_ok]
        by_cases hi : i < b.data.length
        · have hb' : b.data[i]? = some b.data[i] := List.getElem?_eq_getElem hi
          rw [vectorAt_ok.2 hb', bind_ok, if_pos, ih (i + 1) (by omega) (by omega) (by omega)]
          obtain ⟨t, ht⟩ := hp
          have : a.data[i]? = b.data[i]? := by rw [← ht, List.getElem?_append_left hi]
          rw [ha', hb'] at this
          simp [Cmp.pred, Option.some.inj this]
        · have : vectorAt b.data i = .error .stdException := by
            unfold vectorAt; rw [List.getElem?_eq_none (by omega)]
          rw [this]; rfl
    unfold compareK
    rw [if_neg hn, if_neg (by simp), hmin, this _ 0 (by omega) (by rw [ha.size, hb.size]; omega) (by omega)]
    rfl
  · unfold compareK
    rw [if_neg hn]
    split_ifs with h1
    · exact ⟨false, rfl⟩
    · obtain ⟨r, e1, _⟩ := compareFrom_ok (p := c.pred) (a := a.data) (b := b.data) (n := a.data.length) (i := 0) (by omega) (by rw [ha.size, hb.size]; omega)
      exact ⟨r, by rw [hmin, e1, bind_ok, if_neg (fun h => hbig h.2)]⟩

/-- Two tensors of static rank two, `2 × 1` and `2 × 2`, compare equal; `2 × 2` against `2 × 1` throws. -/
example : (do
    let a ← createFrom .first [2, 1] [1, 2]
    let b ← createFrom .first [2, 2] [1, 2, 3, 4]
    compareK .ranked .ranked .eq a b : M Bool) = .ok true ∧ (do
    let a ← createFrom .first [2, 1] [1, 2]
    let b ← createFrom .first [2, 2] [1, 2, 3, (4 : Int)]
    compareK .ranked .ranked .eq b a : M Bool) = .error .stdException ∧ (do
    let a ← createFrom .first [2, 1] [1, 2]
    let b ← createFrom .first [2, 2] [1, 2, 3, (4 : Int)]
    compareK .ranked .dynamic .eq a b : M Bool) = .ok false := by decide

/-- **C89**, inner product: tensors of equal extents (rank two or more) are multiplied, different extents are refused. Proved for every combination of kinds of extents, except two different extents of
the same static rank. -/
theorem C89_inner_partial [NonUnitalNonAssocSemiring R] (ka kb : ExtKind) {La Lb : Layout} {a b : Tensor R} {e e' : List Nat} {f g : List Nat → R} (ha : Holds La a e f) (hb : Holds Lb b e' g)
    (hr : 2 ≤ e.length) (hs : ∀ n ∈ e, n < 2 ^ 32) (h : ¬ (ka = .ranked ∧ kb = .ranked ∧ e.length = e'.length) ∨ e = e') :
    (e = e' → innerProdK ka kb 0 a b = .ok (sumBox e fun i => f i * g i)) ∧ (e ≠ e' → innerProdK ka kb 0 a b = .error .stdException) := by
  constructor
  · rintro rfl
    have : ¬ Ext.ne ⟨ka, a.extents⟩ ⟨kb, b.extents⟩ = true := by
      by_cases hk : ka = .ranked ∧ kb = .ranked ∧ a.extents.length = b.extents.length
      · obtain ⟨rfl, rfl, hl⟩ := hk
        rw [C89_unequal_refuted _ _ hl]; simp
      · rw [C89_unequal_partial ⟨ka, a.extents⟩ ⟨kb, b.extents⟩ hk, ha.extents, hb.extents]; simp
    have e1 := C55_inner_partial ha hb hr hs
    rw [innerProd, if_neg (by rw [ha.extents, hb.extents]; simp), if_neg (by simp [data_ne ha, data_ne hb]), if_neg (by rw [ha.extents, hb.extents]; simp)] at e1
    rw [innerProdK, if_neg (by rw [ha.extents, hb.extents]; simp), if_neg (by simp [data_ne ha, data_ne hb]), if_neg this, e1]
  · intro he
    have h := h.resolve_right he
    rw [innerProdK, ha.extents, hb.extents, (C89_unequal_partial ⟨ka, e⟩ ⟨kb, e'⟩ h).2 he, if_pos rfl]
    split_ifs <;> rfl

theorem Valid.mono {e e' i : List Nat} (h : List.Forall₂ (· ≤ ·) e e') (hi : Valid e i) : Valid e' i := by
  induction h generalizing i with
  | nil => exact hi
  | cons h _ ih =>
    cases hi with
    | cons h1 h2 => exact .cons (Nat.lt_of_lt_of_le h1 h) (ih h2)

/-- **C89** refuted for the inner product of two tensors of the same static rank: when no extent of `a` exceeds the one of `b`, the product over the index range of `a` is returned, although the extents
differ. -/
theorem C89_inner_refuted [NonUnitalNonAssocSemiring R] {La Lb : Layout} {a b : Tensor R} {e e' : List Nat} {f g : List Nat → R} (ha : Holds La a e f) (hb : Holds Lb b e' g)
    (hr : 2 ≤ e.length) (hs : ∀ n ∈ e, n < 2 ^ 32) (hle : List.Forall₂ (· ≤ ·) e e') : innerProdK .ranked .ranked 0 a b = .ok (sumBox e fun i => f i * g i) := by
  have hl := hle.length_eq
  rw [innerProdK, ha.extents, hb.extents, C89_unequal_refuted _ _ hl, if_neg (by simp [hl]), if_neg (by simp [data_ne ha, data_ne hb]), if_neg (by simp), inner, if_neg (by omega),
    innerRec_ok ha.rank hs (strides_length ha) (by rw [strides_length hb, hl]) (lay_of_holds ha) (fun i hi => lay_of_holds hb i (hi.mono hle)), zero_add]

/-- A `2 × 2` and a `2 × 3` tensor of static rank two are multiplied; the product of the `2 × 3` and the `2 × 2` tensor reads past the memory of the second. -/
example : (do
    let a ← createFrom .first [2, 2] [1, 2, 3, 4]
    let b ← createFrom .first [2, 3] [1, 1, 1, 1, 7, (7 : Int)]
    innerProdK .ranked .ranked 0 a b : M Int) = .ok 10 ∧ (do
    let a ← createFrom .first [2, 2] [1, 2, 3, 4]
    let b ← createFrom .first [2, 3] [1, 1, 1, 1, 7, (7 : Int)]
    innerProdK .ranked .ranked 0 b a : M Int) = .error .ub ∧ (do
    let a ← createFrom .first [2, 2] [1, 2, 3, 4]
    let b ← createFrom .first [2, 3] [1, 1, 1, 1, 7, (7 : Int)]
    innerProdK .dynamic .ranked 0 b a : M Int) = .error .stdException := by decide

end Ublas.Tens
