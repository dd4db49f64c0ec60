import Verif.Props.ExtentsStatic
import Verif.Props.TensorAlg
/-! # C91: static tensors (all extents in the type): element access and construction; `ones`, `zeros` -/
namespace Ublas.Tens
variable {R : Type}

/-- The array `d` of a static tensor with extents `e` and layout `L`: element `i` is `f i`. -/
structure HoldsFixed (L : Layout) (e : List Nat) (d : List R) (f : List Nat → R) : Prop where
  size : d.length = count e
  elem : ∀ i, Valid e i → d[pos L e i]? = some (f i)

theorem fixedAt_two {L : Layout} {e w : List Nat} (d : List R) {i : List Nat} (hw : toStridesV L e = some w) (hi : i.length ≠ 1) : fixedAt L e d i = (do
    let k ← toIndex w i
    rd false d k) := by
  unfold fixedAt
  split
  · simp at hi
  · rw [hw]

theorem fixedPut_two {L : Layout} {e w : List Nat} (d : List R) {i : List Nat} (x : R) (hw : toStridesV L e = some w) (hi : i.length ≠ 1) : fixedPut L e d i x = (do
    let k ← toIndex w i
    wr false d k x) := by
  unfold fixedPut
  split
  · simp at hi
  · rw [hw]

/-- **C91** `t (i1, i2, ...)` with every index below its extent is the element, and writing changes this element only. -/
theorem C91_access {L : Layout} {e : List Nat} {d : List R} {f : List Nat → R} (hp : ∀ n ∈ e, 0 < n) (hr : 2 ≤ e.length) (h : HoldsFixed L e d f) {i : List Nat} (hi : Valid e i) (x : R) :
    fixedAt L e d i = .ok (f i) ∧ ∃ d', fixedPut L e d i x = .ok d' ∧ HoldsFixed L e d' (fun j => if j = i then x else f j) := by
  obtain ⟨w, h1, h2, h3, _⟩ := C90_strides L (e := e) (by rintro rfl; simp at hr) hp
  have hl : i.length ≠ 1 := by rw [hi.length]; omega
  have hk : pos L e i < d.length := by rw [h.size]; exact pos_lt hi
  refine ⟨by rw [fixedAt_two d h1 hl, h3 i hi, bind_ok]; exact rd_eq_ok.2 (h.elem i hi), d.set (pos L e i) x, by rw [fixedPut_two d x h1 hl, h3 i hi, bind_ok, wr_ok hk], by simp [h.size], fun j hj => ?_⟩
  by_cases hij : j = i
  · subst hij
    rw [List.getElem?_set_self hk, if_pos rfl]
  · rw [List.getElem?_set_ne (fun hc => hij (pos_inj hi hj hc).symm), if_neg hij]; exact h.elem j hj

/-- **C91** `t (k)` and `t.at (k)`: the `k`-th element in memory, or an exception. -/
theorem C91_single (L : Layout) (e : List Nat) (d : List R) (k : Nat) (x : R) :
    (∀ h : k < d.length, fixedAt L e d [k] = .ok d[k] ∧ fixedPut L e d [k] x = .ok (d.set k x)) ∧ (d.length ≤ k → fixedAt L e d [k] = .error .stdException ∧ fixedPut L e d [k] x = .error .stdException) := by
  simp only [fixedAt, fixedPut, vectorAt]
  constructor
  · intro h
    rw [List.getElem?_eq_getElem h, if_pos h]; exact ⟨rfl, rfl⟩
  · intro h
    rw [List.getElem?_eq_none h, if_neg (by omega)]; exact ⟨rfl, rfl⟩

theorem toStridesV_offset {L : Layout} {e w : List Nat} (he : e ≠ []) (hp : ∀ n ∈ e, 0 < n) (hw : toStridesV L e = some w) (i : List Nat) (hi : i.length = e.length) : toIndex w i = .ok (pos L e i) := by
  -- the strides are the full products, also for vectors
  have hl := List.length_pos_of_ne_nil he
  have key : w = (match L with | .first => pref 1 e | .last => suff e) := by
    have hinner : ∀ d : List Nat, d ≠ [] → d.length = e.length → ((List.range (e.length - 1)).mapM fun i => do
        let s ← selectT d (List.range (i + 1))
        productV s) = some ((List.range (e.length - 1)).map fun i => (d.take (i + 1)).prod) := by
      intro d hd hde
      refine mapM_some fun i hi => ?_
      simp at hi
      rw [select_take (by omega)]
      show productV _ = _
      rw [(C90_product _).2 (by
        intro hc
        have := congrArg List.length hc
        rw [List.length_take] at this
        simp only [List.length_nil] at this
        omega), count]
    have hno : ¬ (isValidV e = false ∨ e.length = 0) := by
      rw [(isValidV_iff e).2 hp]; simp; exact he
    cases L with
    | first =>
      rw [toStridesV, if_neg hno] at hw
      simp only [Option.bind_eq_bind, Option.bind_some] at hw
      have := hinner e he rfl
      simp only [Option.bind_eq_bind] at this
      rw [this, Option.bind_some, toStridesV_first he] at hw
      exact (Option.some.inj hw).symm
    | last =>
      rw [toStridesV, if_neg hno] at hw
      simp only [Option.bind_eq_bind, C90_reverse, Option.bind_some] at hw
      have := hinner e.reverse (by simpa using he) (by simp)
      simp only [Option.bind_eq_bind] at this
      have h2 := toStridesV_first (e := e.reverse) (by simpa using he)
      simp only [List.length_reverse] at h2
      rw [this, Option.bind_some, h2, pref_reverse] at hw
      exact (Option.some.inj hw).symm
  cases L with
  | first =>
    replace key : w = pref 1 e := key
    rw [key, toIndex_ok (by rw [pref_length, hi]), dotW_pref]; simp [pos]
  | last =>
    replace key : w = suff e := key
    rw [key, toIndex_ok (by rw [suff_length, hi]), dotW_suff]; rfl

/-- **C91** refuted: `t.at (i1, i2, ...)` is documented to check its indices; an index that is too large makes it read and write past the array. (Any rank from two, either layout: the first index is the
number of elements, the others are zero.) -/
theorem C91_range_refuted (L : Layout) {e : List Nat} (hp : ∀ n ∈ e, 0 < n) (hr : 2 ≤ e.length) {d : List R} (hd : d.length = count e) (x : R) :
    fixedAt L e d (count e :: List.replicate (e.length - 1) 0) = .error .ub ∧ fixedPut L e d (count e :: List.replicate (e.length - 1) 0) x = .error .ub := by
  have he : e ≠ [] := by rintro rfl; simp at hr
  obtain ⟨w, h1, h2, _, _⟩ := C90_strides L he hp
  have hl : (count e :: List.replicate (e.length - 1) 0).length = e.length := by simp; omega
  have hk : d.length ≤ pos L e (count e :: List.replicate (e.length - 1) 0) := by
    rw [hd]
    cases e with
    | nil => simp at hr
    | cons n e =>
      cases L with
      | first => simp only [pos, firstPos]; omega
      | last =>
        simp only [pos, lastPos]
        have : 0 < count e := count_pos fun m hm => hp m (by simp [hm])
        calc count (n :: e) ≤ count (n :: e) * count e := Nat.le_mul_of_pos_right _ this
          _ ≤ _ := Nat.le_add_right _ _
  rw [fixedAt_two d h1 (by omega), fixedPut_two d x h1 (by omega), toStridesV_offset he hp h1 _ hl, bind_ok, bind_ok]
  constructor
  · unfold rd; rw [List.getElem?_eq_none hk]; rfl
  · unfold wr; rw [if_neg (by omega)]; rfl

example : HoldsFixed .first [2, 3] [1, 2, 3, 4, 5, 6] (fun i => (1 + i.getD 0 0 + 2 * i.getD 1 0 : Nat)) ∧ fixedAt .first [2, 3] [1, 2, 3, 4, 5, 6] [1, 2] = .ok 6 ∧
    fixedAt .first [2, 3] [1, 2, 3, 4, 5, 6] [2, 2] = .error .ub ∧ fixedAt .first [2, 3] [1, 2, 3, 4, 5, 6] [6] = .error .stdException ∧ fixedAt .first [2, 3] [1, 2, 3, 4, 5, 6] [2, 0] = .ok 3 := by
  refine ⟨⟨rfl, fun i hi => ?_⟩, by decide, by decide, by decide, by decide⟩
  match i, hi with
  | [a, b], .cons h1 (.cons h2 .nil) =>
    have ha : a = 0 ∨ a = 1 := by omega
    have hb : b = 0 ∨ b = 1 ∨ b = 2 := by omega
    rcases ha with rfl | rfl <;> rcases hb with rfl | rfl | rfl <;> rfl

/-! ## Construction -/

theorem copyInto_ok {junk src : List R} (h : src.length ≤ junk.length) : copyInto junk src = .ok (src ++ junk.drop src.length) := by
  obtain ⟨d, e1, h1, h2, h3⟩ := loop_inv (f := fun k d => (do
      let x ← rd false src k
      wr false d k x : M (List R))) (n := src.length) (s := junk) (fun k d => d.length = junk.length ∧ (∀ j, j < k → d[j]? = src[j]?) ∧ ∀ j, k ≤ j → d[j]? = junk[j]?)
    ⟨rfl, fun j hj => by omega, fun j _ => rfl⟩ (by
      rintro k d hk ⟨a1, a2, a3⟩
      refine ⟨d.set k src[k], by rw [rd_ok hk, bind_ok, wr_ok (by omega)], by rw [List.length_set, a1], fun j hj => ?_, fun j hj => ?_⟩
      · by_cases hjk : j = k
        · subst hjk; rw [List.getElem?_set_self (by omega), List.getElem?_eq_getElem hk]
        · rw [List.getElem?_set_ne (by omega)]; exact a2 j (by omega)
      · rw [List.getElem?_set_ne (by omega)]; exact a3 j (by omega))
  rw [copyInto, e1]
  congr 1
  apply List.ext_getElem?
  intro j
  by_cases hj : j < src.length
  · rw [List.getElem?_append_left hj, h2 j hj]
  · rw [List.getElem?_append_right (by omega), List.getElem?_drop, h3 j (by omega)]
    congr 1; omega

/-- The storage `d` of a dense matrix of size `s1 × s2` in the storage order that belongs to the layout (first order: column_major, last order: row_major; tensor/layout.hpp) with elements `m`. -/
def Stores (L : Layout) (s1 s2 : Nat) (d : List R) (m : Nat → Nat → R) : Prop :=
  d.length = s1 * s2 ∧ ∀ i j, i < s1 → j < s2 → d[match L with | .first => i + s1 * j | .last => i * s2 + j]? = some (m i j)

theorem count_ones {e : List Nat} (h : ∀ n ∈ e, n = 1) : count e = 1 := List.prod_eq_one h

/-- **C91** A static tensor of matrix shape (ones from the third extent on) built from a matrix of these sizes holds its elements; other sizes are refused. -/
theorem C91_from_matrix (L : Layout) {e0 e1 : Nat} {es : List Nat} (ho : ∀ n ∈ es, n = 1) {junk d : List R} (hj : junk.length = count (e0 :: e1 :: es)) {s1 s2 : Nat} {m : Nat → Nat → R}
    (hd : Stores L s1 s2 d m) :
    (s1 = e0 ∧ s2 = e1 → fixedFromMatrix (e0 :: e1 :: es) junk s1 s2 d = .ok d ∧ HoldsFixed L (e0 :: e1 :: es) d fun i => m (i.getD 0 0) (i.getD 1 0)) ∧
    (¬ (s1 = e0 ∧ s2 = e1) → fixedFromMatrix (e0 :: e1 :: es) junk s1 s2 d = .error .stdException) := by
  have hc : count (e0 :: e1 :: es) = e0 * e1 := by
    have := count_ones ho
    unfold count at this ⊢
    simp [this]
  constructor
  · rintro ⟨rfl, rfl⟩
    refine ⟨?_, by rw [hd.1, hc], fun i hi => ?_⟩
    · rw [fixedFromMatrix, if_neg (by simp), copyInto_ok (by rw [hd.1, hj, hc]), List.drop_eq_nil_of_le (by rw [hd.1, hj, hc]), List.append_nil]
    · match i, hi with
      | a :: b :: is, .cons h1 (.cons h2 h3) =>
        have hz := ones_zero h3 ho []
        have := hd.2 a b h1 h2
        cases L with
        | first =>
          simp only [pos, firstPos, hz.2.1]
          simpa using this
        | last =>
          have hce := count_ones ho
          simp only [pos, lastPos, hz.2.2, hce]
          have hc1 : count (s2 :: es) = s2 := by unfold count at hce ⊢; simp [hce]
          rw [hc1]
          simpa using this
  · intro h
    rw [fixedFromMatrix, if_pos (by tauto)]

example : Stores .last 2 3 [1, 2, 3, 4, 5, (6 : Nat)] (fun i j => 1 + 3 * i + j) ∧ fixedFromMatrix [2, 3, 1] [0, 0, 0, 0, 0, 0] 2 3 [1, 2, 3, 4, 5, (6 : Nat)] = .ok [1, 2, 3, 4, 5, 6] ∧
    fixedFromMatrix [2, 3, 1] [0, 0, 0, 0, 0, 0] 3 2 [1, 2, 3, 4, 5, (6 : Nat)] = .error .stdException := by
  refine ⟨⟨rfl, fun i j hi hj => ?_⟩, by decide, by decide⟩
  have ha : i = 0 ∨ i = 1 := by omega
  have hb : j = 0 ∨ j = 1 ∨ j = 2 := by omega
  rcases ha with rfl | rfl <;> rcases hb with rfl | rfl | rfl <;> rfl

/-- **C91** A static tensor of vector shape built from a vector with as many elements holds these elements; a vector whose length is neither extent is refused.
Missing: a vector of length one, see `C91_from_vector_refuted`. -/
theorem C91_from_vector_partial {e0 e1 : Nat} {es : List Nat} (hs : isVector (e0 :: e1 :: es) = true) {junk v : List R} (hj : junk.length = count (e0 :: e1 :: es)) :
    (v.length = count (e0 :: e1 :: es) → fixedFromVector (e0 :: e1 :: es) junk v = .ok v) ∧
    (v.length ≠ count (e0 :: e1 :: es) → v.length ≠ 1 → fixedFromVector (e0 :: e1 :: es) junk v = .error .stdException) := by
  simp only [isVector, Bool.and_eq_true, Bool.or_eq_true, beq_iff_eq, List.all_eq_true] at hs
  obtain ⟨⟨_, h1⟩, h2⟩ := hs
  have hc : count (e0 :: e1 :: es) = e0 * e1 := by
    have := count_ones h2
    unfold count at this ⊢
    simp [this]
  have hcv : count (e0 :: e1 :: es) = e0 ∨ count (e0 :: e1 :: es) = e1 := by
    rcases h1 with rfl | rfl <;> simp [hc]
  constructor
  · intro hv
    rw [fixedFromVector, if_neg (by rcases hcv with h | h <;> omega), copyInto_ok (by omega), List.drop_eq_nil_of_le (by omega), List.append_nil]
  · intro hv hv1
    rw [fixedFromVector, if_pos]
    rcases h1 with rfl | rfl
    · exact ⟨hv1, by rw [hc, Nat.one_mul] at hv; exact hv⟩
    · exact ⟨by rw [hc, Nat.mul_one] at hv; exact hv, hv1⟩

/-- **C91** refuted for a vector of length one and a static tensor with more elements: it is accepted, and all elements but the first keep their indeterminate values. -/
theorem C91_from_vector_refuted {e0 e1 : Nat} {es : List Nat} (hs : isVector (e0 :: e1 :: es) = true) {junk : List R} (hj : junk.length = count (e0 :: e1 :: es)) (h0 : 0 < junk.length) (x : R) :
    fixedFromVector (e0 :: e1 :: es) junk [x] = .ok (x :: junk.drop 1) := by
  simp only [isVector, Bool.and_eq_true, Bool.or_eq_true, beq_iff_eq, List.all_eq_true] at hs
  rw [fixedFromVector, if_neg (by rcases hs.1.2 with rfl | rfl <;> simp), copyInto_ok (by simp; omega)]
  rfl

example : isVector [1, 4] = true ∧ fixedFromVector [1, 4] [7, 8, 9, 10] [1, 2, 3, 4] = .ok [1, 2, 3, 4] ∧ fixedFromVector [1, 4] [7, 8, 9, 10] [5] = .ok [5, 8, 9, 10] ∧
    fixedFromVector [1, 4] [7, 8, 9, 10] [5, 5] = .error .stdException := by decide

/-- **C91** A static tensor built from another tensor (of the other layout, of dynamic extents, ...: memory `d` walked with strides `wo`) holds the same elements; other extents are refused. -/
theorem C91_from_tensor (L : Layout) {e eo wo : List Nat} {d : List R} {f : List Nat → R} (he : e ≠ []) (hp : ∀ n ∈ e, 0 < n) (hs : ∀ n ∈ e, n < 2 ^ 32) (hl : wo.length = eo.length) (hd : Lay d eo wo f)
    (zero : R) :
    (e = eo → ∃ d', fixedFromTensor L e zero eo wo d = .ok d' ∧ HoldsFixed L e d' f) ∧ (e ≠ eo → fixedFromTensor L e zero eo wo d = .error .stdException) := by
  constructor
  · rintro rfl
    obtain ⟨w, h1, h2, h3, _⟩ := C90_strides L he hp
    have hdot : ∀ i, Valid e i → dotW w i = pos L e i := fun i hi => by
      have := h3 i hi
      rw [toIndex_ok (by rw [hi.length, h2])] at this
      exact Except.ok.inj this
    obtain ⟨d', e1, c1, c2, _⟩ := C52_copy (c := List.replicate (product e) zero) he hs h2 hl hd (fun i hi => by rw [hdot i hi]; simp [product_eq he]; exact pos_lt hi)
      (fun i j hi hj hij => by rw [hdot i hi, hdot j hj] at hij; exact pos_inj hi hj hij)
    refine ⟨d', by rw [fixedFromTensor, if_neg (by simp), h1]; exact e1, by rw [c1]; simp [product_eq he], fun i hi => by rw [← hdot i hi]; exact c2 i hi⟩
  · intro h
    rw [fixedFromTensor, if_pos h]

/-- A first-order static tensor from a last-order one. -/
example : fixedFromTensor .first [2, 3] 0 [2, 3] [3, 1] [1, 2, 3, 4, 5, 6] = .ok [1, 4, 2, 5, 3, 6] := by decide

/-- **C91** `tensor (v)`: all elements are `v`. -/
theorem C91_fill (L : Layout) {e : List Nat} (he : e ≠ []) {junk : List R} (hj : junk.length = count e) (v : R) : ∃ d, fixedFill e junk v = .ok d ∧ HoldsFixed L e d fun _ => v := by
  obtain ⟨d, e1, h1, h2⟩ := loop_inv (f := fun k d => wr false d k v) (n := product e) (s := junk) (fun k d => d.length = count e ∧ ∀ j, j < k → d[j]? = some v) ⟨hj, fun j hj => by omega⟩ (by
    rintro k d hk ⟨a1, a2⟩
    rw [product_eq he] at hk
    refine ⟨_, wr_ok (by omega), by rw [List.length_set, a1], fun j hj => ?_⟩
    by_cases hjk : j = k
    · subst hjk; rw [List.getElem?_set_self (by omega)]
    · rw [List.getElem?_set_ne (by omega)]; exact a2 j (by omega))
  exact ⟨d, e1, h1, fun i hi => h2 _ (by rw [product_eq he]; exact pos_lt hi)⟩

/-- **C91** `ones`, `zeros` (dynamic and static rank, from extents or from a list of sizes): every element has the given value; a zero extent is refused. -/
theorem C91_init (L : Layout) {e : List Nat} (he : e ≠ []) (n : R) :
    ((∀ k ∈ e, 0 < k) → (∃ t, initE L n e = .ok t ∧ Holds L t e fun _ => n) ∧ ∃ t, initN L n e = .ok t ∧ Holds L t e fun _ => n) ∧
    (¬ (∀ k ∈ e, 0 < k) → initE L n e = .error .stdException ∧ initN L n e = .error .stdException) := by
  have hN : initN L n e = initE L n e := by rw [initN, initE, product, if_neg he]
  rw [hN]
  constructor
  · intro h
    have := createFrom_holds L h he (a := List.replicate (product e) n) (f := fun _ => n) (by simp [product_eq he]) (fun i hi => by rw [List.getElem?_replicate, product_eq he, if_pos (pos_lt hi)])
    exact ⟨this, this⟩
  · intro h
    have : mkExtents e = .error .stdException := by rw [mkExtents, if_neg (by rwa [isValid_iff])]
    simp only [initE, createFrom, this, bind_error, and_self]

/-- **C91** `ones_static`, `zeros_static`: every element has the given value. -/
theorem C91_init_static (L : Layout) {e : List Nat} (he : e ≠ []) (k : Nat) : ∃ d, initFixed k e = some d ∧ HoldsFixed L e d fun _ => k := by
  refine ⟨List.replicate (count e) k, ?_, by simp, fun i hi => by rw [List.getElem?_replicate, if_pos (pos_lt hi)]⟩
  rw [initFixed, (C90_product e).2 he]
  simp only [Option.bind_eq_bind, Option.bind_some]
  congr 1
  apply List.ext_getElem
  · simp
  · intro i h1 h2
    simp

example : (∀ k ∈ [2, 3], 0 < k) ∧ initFixed 1 [2, 2] = some [1, 1, 1, 1] ∧ initN .first (1 : Int) [2, 0] = .error .stdException := by decide

end Ublas.Tens
