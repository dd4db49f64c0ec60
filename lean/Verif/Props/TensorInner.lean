import Verif.Props.TensorProd
/-! # C55: `inner_prod`, `outer_prod` -/
namespace Ublas.Tens
variable {R : Type}

/-! ## Inner product -/

/-- The innermost statement: multiplication.hpp:445. -/
def innerLeaf [Add R] [Mul R] (a b : List R) (p : Ptrs) (v : R) : M R := do
  let s ← rd false a p.a
  let t ← rd false b p.b
  .ok (v + s * t)

theorem innerRec_eq [Add R] [Mul R] {n wa wb : List Nat} {a b : List R} (hs : ∀ k ∈ n, k < 2 ^ 32) (ha : wa.length = n.length) (hb : wb.length = n.length) {r : Nat} (hr : r < n.length) :
    innerRec n wa wb a b r = nest (desc (fun k => (n.getD k 0, ⟨0, wa.getD k 0, wb.getD k 0⟩)) r) (innerLeaf a b) := by
  induction r with
  | zero =>
    funext p c
    rw [innerRec, rd_getD hr, rd_getD (by omega), rd_getD (by omega)]
    simp only [bind_ok]
    rw [sweep32_eq (hs _ (getD_mem hr))]; rfl
  | succ r ih =>
    funext p c
    rw [innerRec, rd_getD hr, rd_getD (by omega), rd_getD (by omega)]
    simp only [bind_ok]
    rw [sweep32_eq (hs _ (getD_mem hr)), ih (by omega), desc_succ]; rfl

/-- The raw recursion for arbitrary strides. -/
theorem innerRec_ok [NonUnitalNonAssocSemiring R] {n wa wb : List Nat} {a b : List R} {f g : List Nat → R} (hr : n ≠ []) (hs : ∀ k ∈ n, k < 2 ^ 32) (hwa : wa.length = n.length) (hwb : wb.length = n.length)
    (ha : Lay a n wa f) (hb : Lay b n wb g) (v : R) : innerRec n wa wb a b (n.length - 1) ⟨0, 0, 0⟩ v = .ok (v + sumBox n fun i => f i * g i) := by
  have hp : 0 < n.length := List.length_pos_of_ne_nil hr
  obtain ⟨r, hr⟩ : ∃ r, n.length = r + 1 := ⟨n.length - 1, by omega⟩
  have m1 := map_getD_range hr
  have m2 := map_getD_range (hwa.trans hr)
  have m3 := map_getD_range (hwb.trans hr)
  set l : Nat → Nat × Ptrs := fun k => (n.getD k 0, ⟨0, wa.getD k 0, wb.getD k 0⟩) with hl
  have hfst : (desc l r).map (·.1) = n.reverse := by rw [desc_fst]; exact congrArg List.reverse m1
  rw [show n.length - 1 = r by omega, innerRec_eq hs hwa hwb (by omega)]
  obtain ⟨e1, _⟩ := nest_ok (ls := desc l r) (leaf := innerLeaf a b) (p := ⟨0, 0, 0⟩) (s := v) (fun _ => True) (fun x v => v + f x.reverse * g x.reverse) trivial (by
    intro x s hx _
    rw [hfst] at hx
    have h1 := hx.of_reverse
    have a1 := addr_desc_a (g := l) (h1.length.trans hr)
    have a2 := addr_desc_b (g := l) (h1.length.trans hr)
    rw [List.reverse_reverse] at a1 a2
    simp only [hl, m2] at a1
    simp only [hl, m3] at a2
    refine ⟨?_, trivial⟩
    rw [innerLeaf]
    simp only [hl, a1, a2, rd_eq_ok.2 (ha _ h1), rd_eq_ok.2 (hb _ h1), bind_ok])
  rw [e1, hfst, foldl_add (fun x : List Nat => f x.reverse * g x.reverse), ← boxList_sum]
  have hperm : ((boxList n.reverse).map List.reverse).Perm (boxList n) := by
    rw [List.perm_ext_iff_of_nodup ((nodup_boxList _).map (fun a b h => List.reverse_injective h)) (nodup_boxList n)]
    intro i
    simp only [List.mem_map, mem_boxList]
    constructor
    · rintro ⟨j, hj, rfl⟩; exact hj.of_reverse
    · exact fun hi => ⟨i.reverse, hi.reverse, List.reverse_reverse i⟩
  have := (hperm.map fun i => f i * g i).sum_eq
  rw [List.map_map] at this
  rw [← this]
  rfl

/-- **C55**, `inner_prod (A, B)` for tensors of equal extents and rank two or more, in the same or in different layouts: the sum over all multi-indices. -/
theorem C55_inner_partial [NonUnitalNonAssocSemiring R] {La Lb : Layout} {a b : Tensor R} {e : List Nat} {f g : List Nat → R} (ha : Holds La a e f) (hb : Holds Lb b e g) (hr : 2 ≤ e.length)
    (hs : ∀ n ∈ e, n < 2 ^ 32) : innerProd 0 a b = .ok (sumBox e fun i => f i * g i) := by
  rw [innerProd, ha.extents, hb.extents, if_neg (by simp), if_neg (by simp [data_ne ha, data_ne hb]), if_neg (by simp), inner, if_neg (by omega),
    innerRec_ok ha.rank hs (strides_length ha) (strides_length hb) (lay_of_holds ha) (lay_of_holds hb), zero_add]

/-- **C55** refuted for vectors: the inner product of two tensors of rank one always throws. -/
theorem C55_inner_rank1_refuted [Add R] [Mul R] {La Lb : Layout} {a b : Tensor R} {n : Nat} {f g : List Nat → R} (ha : Holds La a [n] f) (hb : Holds Lb b [n] g) (zero : R) :
    innerProd zero a b = .error .stdException := by
  rw [innerProd, ha.extents, hb.extents, if_neg (by simp), if_neg (by simp [data_ne ha, data_ne hb]), if_neg (by simp), inner, if_pos (by simp)]

/-- **C55**: different extents are refused. -/
theorem C55_inner_refused [Add R] [Mul R] {a b : Tensor R} (h : a.extents ≠ b.extents) (zero : R) : innerProd zero a b = .error .stdException := by
  rw [innerProd]
  split_ifs <;> first | rfl | contradiction

/-! ## Outer product -/

/-- The innermost statement of `outer_2x2`: multiplication.hpp:465-471. -/
def outLeaf [Mul R] (a b : List R) (p : Ptrs) (c : List R) : M (List R) := do
  let v ← rd false b p.b
  let u ← rd false a p.a
  wr false c p.c (u * v)

theorem sweep_congr_b {σ : Type} {f g : Ptrs → σ → M σ} {w : Ptrs} {k : Nat} (hw : w.b = 0) (h : ∀ p s, p.b = k → f p s = g p s) (n : Nat) {p : Ptrs} (hp : p.b = k) (s : σ) : sweep f w n p s = sweep g w n p s := by
  induction n generalizing p s with
  | zero => rfl
  | succ n ih =>
    rw [sweep, sweep, h p s hp]
    congr 1
    funext t
    exact ih (by rw [Ptrs.add, hp, hw]; rfl) t

theorem sweep_first_error {σ : Type} {f : Ptrs → σ → M σ} {w : Ptrs} {n : Nat} (hn : 0 < n) {p : Ptrs} {s : σ} {x : Fault} (h : f p s = .error x) : sweep f w n p s = .error x := by
  obtain ⟨m, rfl⟩ : ∃ m, n = m + 1 := ⟨n - 1, by omega⟩
  rw [sweep, h, bind_error]

/-- Loop over mode `j` of `a`. -/
def outA (na wc wa : List Nat) (j : Nat) : Nat × Ptrs := (na.getD j 0, ⟨wc.getD j 0, wa.getD j 0, 0⟩)
/-- Loop over mode `j` of `b`. -/
def outB (pa : Nat) (nb wc wb : List Nat) (j : Nat) : Nat × Ptrs := (nb.getD j 0, ⟨wc.getD (pa + j) 0, 0, wb.getD j 0⟩)

variable [Mul R] {na wc wa nb wb : List Nat} {a b : List R} {pa : Nat}

theorem outer2x2_eq (hna : 2 ≤ na.length) (hnb : 2 ≤ nb.length) (hpa : pa = na.length) (hwa : wa.length = na.length) (hwb : wb.length = nb.length) (hwc : wc.length = na.length + nb.length)
    (hsa : ∀ k ∈ na, 0 < k ∧ k < 2 ^ 32) (hsb : ∀ k ∈ nb, k < 2 ^ 32) :
    outer2x2 pa wc na wa nb wb a b = nest [outB pa nb wc wb 1, outB pa nb wc wb 0, outA na wc wa 1, outA na wc wa 0] (outLeaf a b) := by
  have key : (fun p c => (do
      let v ← rd false b p.b
      outerInner na wc wa a v p c : M (List R))) = nest [outA na wc wa 1, outA na wc wa 0] (outLeaf a b) := by
    funext p c
    have h0 := hsa _ (getD_mem (show 0 < na.length by omega))
    have h1 := hsa _ (getD_mem (show 1 < na.length by omega))
    cases hv : rd false b p.b with
    | error x =>
      rw [bind_error]
      simp only [nest, outA]
      rw [sweep_first_error h1.1 (sweep_first_error h0.1 (x := x) (by rw [outLeaf, hv, bind_error]))]
    | ok v =>
      rw [bind_ok, outerInner, rd_getD (by omega), rd_getD (by omega), rd_getD (by omega), rd_getD (show 0 < na.length by omega), rd_getD (show 0 < wc.length by omega), rd_getD (show 0 < wa.length by omega)]
      simp only [bind_ok]
      rw [sweep32_eq h1.2]
      simp only [nest, outA]
      refine sweep_congr_b rfl (fun p' s hp' => ?_) _ rfl _
      refine sweep_congr_b rfl (fun p'' s' hp'' => ?_) _ hp' _
      rw [outLeaf, hp'', hv, bind_ok]
  funext p c
  rw [outer2x2, rd_getD (by omega), rd_getD (by omega), rd_getD (by omega), rd_getD (show 0 < nb.length by omega), rd_getD (show pa < wc.length by omega), rd_getD (show 0 < wb.length by omega)]
  simp only [bind_ok]
  rw [key, sweep32_eq (hsb _ (getD_mem (by omega))), sweep32_eq (hsb _ (getD_mem (by omega)))]
  rfl

theorem outerA_eq (hna : 2 ≤ na.length) (hnb : 2 ≤ nb.length) (hpa : pa = na.length) (hwa : wa.length = na.length) (hwb : wb.length = nb.length) (hwc : wc.length = na.length + nb.length)
    (hsa : ∀ k ∈ na, 0 < k ∧ k < 2 ^ 32) (hsb : ∀ k ∈ nb, k < 2 ^ 32) {r : Nat} (hr : r + 2 ≤ na.length) :
    outerA pa wc na wa nb wb a b r = nest (((List.range r).map fun t => outA na wc wa (t + 2)).reverse ++ [outB pa nb wc wb 1, outB pa nb wc wb 0, outA na wc wa 1, outA na wc wa 0]) (outLeaf a b) := by
  induction r with
  | zero =>
    funext p c
    rw [outerA, outer2x2_eq hna hnb hpa hwa hwb hwc hsa hsb]; rfl
  | succ r ih =>
    funext p c
    rw [outerA, rd_getD (by omega), rd_getD (by omega), rd_getD (by omega)]
    simp only [bind_ok]
    rw [ih (by omega), sweep32_eq (hsa _ (getD_mem (by omega))).2, List.range_succ, List.map_append, List.reverse_append]
    rfl

theorem outerB_eq (hna : 2 ≤ na.length) (hnb : 2 ≤ nb.length) (hpa : pa = na.length) (hwa : wa.length = na.length) (hwb : wb.length = nb.length) (hwc : wc.length = na.length + nb.length)
    (hsa : ∀ k ∈ na, 0 < k ∧ k < 2 ^ 32) (hsb : ∀ k ∈ nb, k < 2 ^ 32) {r : Nat} (hr : r + 2 ≤ nb.length) :
    outerB pa (na.length - 2) wc na wa nb wb a b r (pa + r + 1) = nest (((List.range r).map fun t => outB pa nb wc wb (t + 2)).reverse ++ (((List.range (na.length - 2)).map fun t => outA na wc wa (t + 2)).reverse ++
      [outB pa nb wc wb 1, outB pa nb wc wb 0, outA na wc wa 1, outA na wc wa 0])) (outLeaf a b) := by
  induction r with
  | zero =>
    funext p c
    rw [outerB, outerA_eq hna hnb hpa hwa hwb hwc hsa hsb (by omega)]; rfl
  | succ r ih =>
    funext p c
    rw [outerB, rd_getD (by omega), rd_getD (by omega), rd_getD (by omega)]
    simp only [bind_ok]
    rw [show pa + (r + 1) + 1 - 1 = pa + r + 1 by omega, ih (by omega), sweep32_eq (hsb _ (getD_mem (by omega))), List.range_succ, List.map_append, List.reverse_append, show pa + (r + 1) + 1 = pa + (r + 2) by omega]
    rfl

/-- The raw `outer`, for arbitrary strides. -/
theorem outer_ok {c : List R} {f g old : List Nat → R} (hna : 2 ≤ na.length) (hnb : 2 ≤ nb.length) (hwa : wa.length = na.length) (hwb : wb.length = nb.length) (hwc : wc.length = na.length + nb.length)
    (hsa : ∀ k ∈ na, 0 < k ∧ k < 2 ^ 32) (hsb : ∀ k ∈ nb, k < 2 ^ 32) (ha : Lay a na wa f) (hb : Lay b nb wb g) (hd : Distinct (na ++ nb) wc) (hc : Lay c (na ++ nb) wc old) :
    ∃ c', outer c (na.length + nb.length) wc a na.length na wa b nb.length nb wb = .ok c' ∧ c'.length = c.length ∧ Lay c' (na ++ nb) wc (fun i => f (i.take na.length) * g (i.drop na.length)) := by
  have heq := outerB_eq (a := a) (b := b) hna hnb rfl hwa hwb hwc hsa hsb (r := nb.length - 2) (by omega)
  rw [show na.length + (nb.length - 2) + 1 = na.length + nb.length - 1 by omega] at heq
  obtain ⟨n0, n1, na', rfl⟩ : ∃ n0 n1 na', na = n0 :: n1 :: na' := by
    match na, hna with
    | n0 :: n1 :: na', _ => exact ⟨n0, n1, na', rfl⟩
  obtain ⟨m0, m1, nb', rfl⟩ : ∃ n0 n1 na', nb = n0 :: n1 :: na' := by
    match nb, hnb with
    | n0 :: n1 :: na', _ => exact ⟨n0, n1, na', rfl⟩
  obtain ⟨u0, u1, wa', rfl⟩ : ∃ n0 n1 na', wa = n0 :: n1 :: na' := by
    match wa, hwa with
    | n0 :: n1 :: na', _ => exact ⟨n0, n1, na', rfl⟩
  obtain ⟨v0, v1, wb', rfl⟩ : ∃ n0 n1 na', wb = n0 :: n1 :: na' := by
    match wb, hwb with
    | n0 :: n1 :: na', _ => exact ⟨n0, n1, na', rfl⟩
  obtain ⟨x0, x1, xa, z0, z1, xb, rfl, hxa, hxb⟩ : ∃ x0 x1 xa z0 z1 xb, wc = (x0 :: x1 :: xa) ++ (z0 :: z1 :: xb) ∧ xa.length = na'.length ∧ xb.length = nb'.length := by
    have h1 : wc = wc.take (na'.length + 2) ++ wc.drop (na'.length + 2) := (List.take_append_drop _ _).symm
    have h2 : (wc.take (na'.length + 2)).length = na'.length + 2 := by rw [List.length_take]; simp at hwc; omega
    have h3 : (wc.drop (na'.length + 2)).length = nb'.length + 2 := by rw [List.length_drop]; simp at hwc; omega
    match hA : wc.take (na'.length + 2), hB : wc.drop (na'.length + 2) with
    | x0 :: x1 :: xa, z0 :: z1 :: xb =>
      rw [hA, hB] at h1
      rw [hA] at h2
      rw [hB] at h3
      exact ⟨x0, x1, xa, z0, z1, xb, h1, by simpa using h2, by simpa using h3⟩
    | [], _ => rw [hA] at h2; simp at h2
    | [_], _ => rw [hA] at h2; simp at h2
    | _ :: _ :: _, [] => rw [hB] at h3; simp at h3
    | _ :: _ :: _, [_] => rw [hB] at h3; simp at h3
  simp only [List.length_cons, Nat.add_left_inj] at hwa hwb
  have hLA : ((List.range (na'.length)).map fun t => outA (n0 :: n1 :: na') ((x0 :: x1 :: xa) ++ (z0 :: z1 :: xb)) (u0 :: u1 :: wa') (t + 2)) =
      (List.range (na'.length)).map fun t => (na'.getD t 0, (⟨xa.getD t 0, wa'.getD t 0, 0⟩ : Ptrs)) := List.map_congr_left fun t ht => by
    rw [List.mem_range] at ht
    simp only [outA, List.getD_cons_succ, List.cons_append]
    rw [getD_append_left (by omega)]
  have hLB : ((List.range (nb'.length)).map fun t => outB (na'.length + 2) (m0 :: m1 :: nb') ((x0 :: x1 :: xa) ++ (z0 :: z1 :: xb)) (v0 :: v1 :: wb') (t + 2)) =
      (List.range (nb'.length)).map fun t => (nb'.getD t 0, (⟨xb.getD t 0, 0, wb'.getD t 0⟩ : Ptrs)) := List.map_congr_left fun t ht => by
    rw [List.mem_range] at ht
    have : ((x0 :: x1 :: xa) ++ (z0 :: z1 :: xb)).getD (na'.length + 2 + (t + 2)) 0 = xb.getD t 0 := by
      rw [List.getD_eq_getElem?_getD, List.getD_eq_getElem?_getD, List.getElem?_append_right (by simp; omega)]
      rw [show na'.length + 2 + (t + 2) - (x0 :: x1 :: xa).length = t + 2 by simp; omega]
      rfl
    simp only [outB, List.getD_cons_succ, this]
  have hB1 : outB (na'.length + 2) (m0 :: m1 :: nb') ((x0 :: x1 :: xa) ++ (z0 :: z1 :: xb)) (v0 :: v1 :: wb') 1 = (m1, ⟨z1, 0, v1⟩) := by
    have : ((x0 :: x1 :: xa) ++ (z0 :: z1 :: xb)).getD (na'.length + 2 + 1) 0 = z1 := by
      rw [List.getD_eq_getElem?_getD, List.getElem?_append_right (by simp; omega), show na'.length + 2 + 1 - (x0 :: x1 :: xa).length = 1 by simp; omega]
      rfl
    rw [outB, this]; rfl
  have hB0 : outB (na'.length + 2) (m0 :: m1 :: nb') ((x0 :: x1 :: xa) ++ (z0 :: z1 :: xb)) (v0 :: v1 :: wb') 0 = (m0, ⟨z0, 0, v0⟩) := by
    have : ((x0 :: x1 :: xa) ++ (z0 :: z1 :: xb)).getD (na'.length + 2 + 0) 0 = z0 := by
      rw [List.getD_eq_getElem?_getD, List.getElem?_append_right (by simp; omega), show na'.length + 2 + 0 - (x0 :: x1 :: xa).length = 0 by simp; omega]
      rfl
    rw [outB, this]; rfl
  have hA1 : outA (n0 :: n1 :: na') ((x0 :: x1 :: xa) ++ (z0 :: z1 :: xb)) (u0 :: u1 :: wa') 1 = (n1, ⟨x1, u1, 0⟩) := rfl
  have hA0 : outA (n0 :: n1 :: na') ((x0 :: x1 :: xa) ++ (z0 :: z1 :: xb)) (u0 :: u1 :: wa') 0 = (n0, ⟨x0, u0, 0⟩) := rfl
  simp only [List.length_cons, show na'.length + 1 + 1 - 2 = na'.length by omega, show nb'.length + 1 + 1 - 2 = nb'.length by omega, show na'.length + 1 + 1 = na'.length + 2 by omega] at heq
  rw [hLA, hLB, hB1, hB0, hA1, hA0] at heq
  set free : List (Nat × Ptrs) := ((List.range (nb'.length)).map fun t => (nb'.getD t 0, (⟨xb.getD t 0, 0, wb'.getD t 0⟩ : Ptrs))).reverse ++
    (((List.range (na'.length)).map fun t => (na'.getD t 0, (⟨xa.getD t 0, wa'.getD t 0, 0⟩ : Ptrs))).reverse ++ [(m1, ⟨z1, 0, v1⟩), (m0, ⟨z0, 0, v0⟩), (n1, ⟨x1, u1, 0⟩), (n0, ⟨x0, u0, 0⟩)]) with hfree
  have ffst : free.map (·.1) = nb'.reverse ++ (na'.reverse ++ [m1, m0, n1, n0]) := by
    rw [hfree, List.map_append, List.map_append, List.map_reverse, List.map_reverse, List.map_map, List.map_map]
    have h1 := map_getD_range (l := nb') rfl
    have h2 := map_getD_range (l := na') rfl
    show ((List.range nb'.length).map fun k => nb'.getD k 0).reverse ++ (((List.range na'.length).map fun k => na'.getD k 0).reverse ++ _) = _
    rw [h1, h2]; rfl
  have fc : free.map (fun l => l.2.c) = xb.reverse ++ (xa.reverse ++ [z1, z0, x1, x0]) := by
    rw [hfree, List.map_append, List.map_append, List.map_reverse, List.map_reverse, List.map_map, List.map_map]
    have h1 := map_getD_range (l := xb) hxb
    have h2 := map_getD_range (l := xa) hxa
    show ((List.range nb'.length).map fun k => xb.getD k 0).reverse ++ (((List.range na'.length).map fun k => xa.getD k 0).reverse ++ _) = _
    rw [h1, h2]; rfl
  have fa : free.map (fun l => l.2.a) = List.replicate nb'.length 0 ++ (wa'.reverse ++ [0, 0, u1, u0]) := by
    rw [hfree, List.map_append, List.map_append, List.map_reverse, List.map_reverse, List.map_map, List.map_map]
    have h2 := map_getD_range (l := wa') hwa
    show ((List.range nb'.length).map fun k => 0).reverse ++ (((List.range na'.length).map fun k => wa'.getD k 0).reverse ++ _) = _
    rw [h2]
    congr 1
    rw [List.eq_replicate_iff]; simp
  have fb : free.map (fun l => l.2.b) = wb'.reverse ++ (List.replicate na'.length 0 ++ [v1, v0, 0, 0]) := by
    rw [hfree, List.map_append, List.map_append, List.map_reverse, List.map_reverse, List.map_map, List.map_map]
    have h2 := map_getD_range (l := wb') hwb
    show ((List.range nb'.length).map fun k => wb'.getD k 0).reverse ++ (((List.range na'.length).map fun k => 0).reverse ++ _) = _
    rw [h2]
    congr 2
    rw [List.eq_replicate_iff]; simp
  have hvl : ∀ y, Valid (free.map (·.1)) y → ∃ yb ya i1 i0 j1 j0, y = yb.reverse ++ (ya.reverse ++ [j1, j0, i1, i0]) ∧ Valid nb' yb ∧ Valid na' ya ∧ j1 < m1 ∧ j0 < m0 ∧ i1 < n1 ∧ i0 < n0 := fun y hy => by
    rw [ffst] at hy
    obtain ⟨yb, t, rfl, hyb, ht⟩ := valid_append hy
    obtain ⟨ya, t, rfl, hya, ht⟩ := valid_append ht
    rcases ht with _ | ⟨k1, _ | ⟨k2, _ | ⟨k3, _ | ⟨k4, _ | _⟩⟩⟩⟩
    exact ⟨yb.reverse, ya.reverse, _, _, _, _, by rw [List.reverse_reverse, List.reverse_reverse], hyb.of_reverse, hya.of_reverse, k1, k2, k3, k4⟩
  set φ : List Nat → List Nat := fun y =>
    let t := y.drop (nb'.length + na'.length)
    (t.getD 3 0 :: t.getD 2 0 :: ((y.drop nb'.length).take na'.length).reverse) ++ (t.getD 1 0 :: t.getD 0 0 :: (y.take nb'.length).reverse) with hφ
  set ψ : List Nat → List Nat := fun i =>
    let t := i.drop (na'.length + 2)
    (t.drop 2).reverse ++ (((i.take (na'.length + 2)).drop 2).reverse ++ [t.getD 1 0, t.getD 0 0, i.getD 1 0, i.getD 0 0]) with hψ
  have eφ : ∀ yb ya : List Nat, ∀ i1 i0 j1 j0, yb.length = nb'.length → ya.length = na'.length → φ (yb.reverse ++ (ya.reverse ++ [j1, j0, i1, i0])) = (i0 :: i1 :: ya) ++ (j0 :: j1 :: yb) := by
    intro yb ya i1 i0 j1 j0 h1 h2
    have d1 : (yb.reverse ++ (ya.reverse ++ [j1, j0, i1, i0])).drop (nb'.length + na'.length) = [j1, j0, i1, i0] := by
      rw [← List.append_assoc, List.drop_left' (by simp [h1, h2])]
    have d2 : (yb.reverse ++ (ya.reverse ++ [j1, j0, i1, i0])).drop nb'.length = ya.reverse ++ [j1, j0, i1, i0] := List.drop_left' (by simp [h1])
    have d3 : (yb.reverse ++ (ya.reverse ++ [j1, j0, i1, i0])).take nb'.length = yb.reverse := List.take_left' (by simp [h1])
    have d4 : (ya.reverse ++ [j1, j0, i1, i0]).take na'.length = ya.reverse := List.take_left' (by simp [h2])
    rw [hφ]
    simp only [d1, d2, d3, d4, List.reverse_reverse]
    rfl
  have eψ : ∀ yb ya : List Nat, ∀ i1 i0 j1 j0, ya.length = na'.length → ψ ((i0 :: i1 :: ya) ++ (j0 :: j1 :: yb)) = yb.reverse ++ (ya.reverse ++ [j1, j0, i1, i0]) := by
    intro yb ya i1 i0 j1 j0 h2
    have d1 : ((i0 :: i1 :: ya) ++ (j0 :: j1 :: yb)).drop (na'.length + 2) = j0 :: j1 :: yb := List.drop_left' (by simp [h2])
    have d2 : ((i0 :: i1 :: ya) ++ (j0 :: j1 :: yb)).take (na'.length + 2) = i0 :: i1 :: ya := List.take_left' (by simp [h2])
    rw [hψ]
    simp only [d1, d2]
    rfl
  have hvi : ∀ i, Valid ((n0 :: n1 :: na') ++ (m0 :: m1 :: nb')) i → ∃ yb ya i1 i0 j1 j0, i = (i0 :: i1 :: ya) ++ (j0 :: j1 :: yb) ∧ Valid nb' yb ∧ Valid na' ya ∧ j1 < m1 ∧ j0 < m0 ∧ i1 < n1 ∧ i0 < n0 := fun i hi => by
    obtain ⟨t, t', rfl, ht, ht'⟩ := valid_append hi
    rcases ht with _ | ⟨k1, _ | ⟨k2, h1⟩⟩
    rcases ht' with _ | ⟨k3, _ | ⟨k4, h2⟩⟩
    exact ⟨_, _, _, _, _, _, rfl, h2, h1, k4, k3, k2, k1⟩
  have hmem : ∀ yb ya i1 i0 j1 j0, Valid nb' yb → Valid na' ya → j1 < m1 → j0 < m0 → i1 < n1 → i0 < n0 →
      Valid (n0 :: n1 :: na') (i0 :: i1 :: ya) ∧ Valid (m0 :: m1 :: nb') (j0 :: j1 :: yb) ∧ Valid (free.map (·.1)) (yb.reverse ++ (ya.reverse ++ [j1, j0, i1, i0])) := by
    intro yb ya i1 i0 j1 j0 h1 h2 k1 k2 k3 k4
    refine ⟨.cons k4 (.cons k3 h2), .cons k2 (.cons k1 h1), ?_⟩
    rw [ffst]
    exact List.rel_append h1.reverse (List.rel_append h2.reverse (.cons k1 (.cons k2 (.cons k3 (.cons k4 .nil)))))
  have hrep : ∀ (n : Nat) (i : List Nat), dotW (List.replicate n 0) i = 0 := fun n i => dotW_zero (fun x hx => List.eq_of_mem_replicate hx) i
  obtain ⟨c', e1, e2, e3, _⟩ := upd_index (free := free) (contr := []) (leaf := outLeaf a b) (c := c) (e := (n0 :: n1 :: na') ++ (m0 :: m1 :: nb')) (wc := (x0 :: x1 :: xa) ++ (z0 :: z1 :: xb)) (old := old)
    (fun i _ _ => f (i.take (na'.length + 2)) * g (i.drop (na'.length + 2))) φ ψ
    (fun y hy => by
      obtain ⟨yb, ya, i1, i0, j1, j0, rfl, hyb, hya, k1, k2, k3, k4⟩ := hvl y hy
      obtain ⟨va, vb, _⟩ := hmem _ _ _ _ _ _ hyb hya k1 k2 k3 k4
      rw [eφ _ _ _ _ _ _ hyb.length hya.length, eψ _ _ _ _ _ _ hya.length]
      refine ⟨List.rel_append va vb, rfl, ?_⟩
      have l1 := hyb.length
      have l2 := hya.length
      rw [fc, dotW_append (by simp; omega), dotW_append (by simp; omega), dotW_reverse (by omega), dotW_reverse (by omega), dotW_append (by simp; omega)]
      simp only [dotW]
      omega)
    (fun i hi => by
      obtain ⟨yb, ya, i1, i0, j1, j0, rfl, hyb, hya, k1, k2, k3, k4⟩ := hvi i hi
      rw [eψ _ _ _ _ _ _ hya.length, eφ _ _ _ _ _ _ hyb.length hya.length]
      exact ⟨(hmem _ _ _ _ _ _ hyb hya k1 k2 k3 k4).2.2, rfl⟩)
    (by simp) hd hc
    (fun y z d v hy hz hlen hv => by
      rcases hz with _ | _
      obtain ⟨yb, ya, i1, i0, j1, j0, rfl, hyb, hya, k1, k2, k3, k4⟩ := hvl y hy
      obtain ⟨va, vb, _⟩ := hmem _ _ _ _ _ _ hyb hya k1 k2 k3 k4
      have l1 := hyb.length
      have l2 := hya.length
      rw [eφ _ _ _ _ _ _ hyb.length hya.length] at hv ⊢
      have t1 : ((i0 :: i1 :: ya) ++ (j0 :: j1 :: yb)).drop (na'.length + 2) = j0 :: j1 :: yb := List.drop_left' (by simp [l2])
      have t2 : ((i0 :: i1 :: ya) ++ (j0 :: j1 :: yb)).take (na'.length + 2) = i0 :: i1 :: ya := List.take_left' (by simp [l2])
      rw [t1, t2, List.append_nil, List.append_nil, outLeaf, addr_a, addr_b, addr_c]
      simp only [Nat.zero_add]
      have ea : dotW (free.map fun l => l.2.a) (yb.reverse ++ (ya.reverse ++ [j1, j0, i1, i0])) = dotW (u0 :: u1 :: wa') (i0 :: i1 :: ya) := by
        rw [fa, dotW_append (by simp; omega), dotW_append (by simp; omega), hrep, dotW_reverse (by omega)]
        simp only [dotW]; omega
      have eb : dotW (free.map fun l => l.2.b) (yb.reverse ++ (ya.reverse ++ [j1, j0, i1, i0])) = dotW (v0 :: v1 :: wb') (j0 :: j1 :: yb) := by
        rw [fb, dotW_append (by simp; omega), dotW_append (by simp; omega), hrep, dotW_reverse (by omega)]
        simp only [dotW]; omega
      have ec : dotW (free.map fun l => l.2.c) (yb.reverse ++ (ya.reverse ++ [j1, j0, i1, i0])) = dotW ((x0 :: x1 :: xa) ++ (z0 :: z1 :: xb)) ((i0 :: i1 :: ya) ++ (j0 :: j1 :: yb)) := by
        rw [fc, dotW_append (by simp; omega), dotW_append (by simp; omega), dotW_reverse (by omega), dotW_reverse (by omega), dotW_append (by simp; omega)]
        simp only [dotW]
        omega
      rw [ea, eb, ec, rd_eq_ok.2 (ha _ va), rd_eq_ok.2 (hb _ vb)]
      simp only [bind_ok]
      rw [wr_ok (List.getElem?_eq_some_iff.1 hv).1])
  rw [List.append_nil] at e1
  refine ⟨c', ?_, e2, e3⟩
  rw [outer, if_neg (by simp), if_neg (by simp)]
  simp only [List.length_cons, show na'.length + 1 + 1 - 2 = na'.length by omega, show nb'.length + 1 + 1 - 2 = nb'.length by omega, show na'.length + 1 + 1 = na'.length + 2 by omega]
  rw [heq]
  exact e1

/-- **C55**, `outer_prod (A, B)` for tensors of rank two or more, in any layouts: the extents of `A` followed by those of `B`, and `C (i, j) = A (i) * B (j)`. -/
theorem C55_outer_partial {L La Lb : Layout} {a b : Tensor R} {ea eb : List Nat} {f g : List Nat → R} (ha : Holds La a ea f) (hb : Holds Lb b eb g) (hra : 2 ≤ ea.length) (hrb : 2 ≤ eb.length)
    (hsa : ∀ n ∈ ea, n < 2 ^ 32) (hsb : ∀ n ∈ eb, n < 2 ^ 32) (zero : R) :
    ∃ c, outerProd L zero a b = .ok c ∧ Holds L c (ea ++ eb) (fun i => f (i.take ea.length) * g (i.drop ea.length)) := by
  have hpos : ∀ n ∈ ea ++ eb, 0 < n := fun n hn => (List.mem_append.1 hn).elim (ha.positive n) (hb.positive n)
  have hne : ea ++ eb ≠ [] := fun hc => by have := congrArg List.length hc; rw [List.length_append, List.length_nil] at this; omega
  obtain ⟨c, hc1, hc2⟩ := create_holds L hpos hne zero
  obtain ⟨d, e1, e2, e3⟩ := outer_ok (c := c.data) (wc := c.strides) hra hrb (strides_length ha) (strides_length hb) (by rw [strides_length hc2, List.length_append]) (fun k hk => ⟨ha.positive k hk, hsa k hk⟩) hsb
    (lay_of_holds ha) (lay_of_holds hb) (distinct_of_holds hc2) (lay_of_holds hc2)
  refine ⟨{ c with data := d }, ?_, hc2.extents, hpos, hne, hc2.strides, by rw [← hc2.size]; exact e2, fun i hi => ?_⟩
  · rw [outerProd, if_neg (by simp [data_ne ha, data_ne hb]), ha.extents, hb.extents, hc1, bind_ok, hc2.extents, List.length_append, e1, bind_ok]
  · have := e3 i hi
    rwa [(toIndex_pos hc2.strides hi).2.1] at this

/-- **C55** refuted when one of the tensors has rank one: the outer product throws. -/
theorem C55_outer_rank1_refuted {L La Lb : Layout} {a b : Tensor R} {ea eb : List Nat} {f g : List Nat → R} (ha : Holds La a ea f) (hb : Holds Lb b eb g) (hr : ea.length = 1 ∨ eb.length = 1) (zero : R) :
    outerProd L zero a b = .error .stdException := by
  have hpos : ∀ n ∈ ea ++ eb, 0 < n := fun n hn => (List.mem_append.1 hn).elim (ha.positive n) (hb.positive n)
  have hne : ea ++ eb ≠ [] := fun hc => by have := congrArg List.length hc; rw [List.length_append, List.length_nil] at this; omega
  obtain ⟨c, hc1, hc2⟩ := create_holds L hpos hne zero
  rw [outerProd, if_neg (by simp [data_ne ha, data_ne hb]), ha.extents, hb.extents, hc1, bind_ok, outer, if_pos (by omega)]
  rfl

/-- Inner and outer products of concrete tensors, of different layouts. -/
example : (do
    let a ← createFrom .first [2, 3] [1, 2, 3, 4, 5, 6]
    let b ← createFrom .last [2, 3] [1, 2, 3, 4, 5, 6]
    innerProd 0 a b : M Int) = .ok 86 := by decide
example : (do
    let a ← createFrom .first [2, 1] [1, 2]
    let b ← createFrom .last [1, 2, 2] [1, 10, 100, 1000]
    let c ← outerProd .last 0 a b
    .ok (c.extents, c.data) : M (List Nat × List Int)) = .ok ([2, 1, 1, 2, 2], [1, 10, 100, 1000, 2, 20, 200, 2000]) := by decide
example : (do
    let a ← createFrom .first [2] [1, 2]
    innerProd 0 a a : M Int) = .error .stdException := by decide

end Ublas.Tens
