import Verif.Props.TensorMat
/-! # C55: tensor times tensor -/
namespace Ublas.Tens
variable {R : Type}

theorem range'_cons (k f : Nat) : List.range' k (f + 1) = k :: List.range' (k + 1) f := rfl

/-- Loop number `k` of `ttt`. -/
def tttLvl (r s : Nat) (phia phib nc wc na wa wb : List Nat) (k : Nat) : Nat × Ptrs :=
  if k < r then (nc.getD k 0, ⟨wc.getD k 0, wa.getD (phia.getD k 0 - 1) 0, 0⟩)
  else if k < r + s then (nc.getD k 0, ⟨wc.getD k 0, 0, wb.getD (phib.getD (k - r) 0 - 1) 0⟩)
  else (na.getD (phia.getD (k - s) 0 - 1) 0, ⟨0, wa.getD (phia.getD (k - s) 0 - 1) 0, wb.getD (phib.getD (k - r) 0 - 1) 0⟩)

theorem tttRec_eq [Add R] [Mul R] {r s q : Nat} {phia phib nc wc na wa wb : List Nat} {a b : List R} (hq : 0 < q) (hnc : r + s ≤ nc.length) (hwc : r + s ≤ wc.length) (ha : phia.length = r + q)
    (hb : phib.length = s + q) (hwa : wa.length = na.length) (hpa : ∀ k, k < r + q → 1 ≤ phia.getD k 0 ∧ phia.getD k 0 ≤ na.length) (hpb : ∀ k, k < s + q → 1 ≤ phib.getD k 0 ∧ phib.getD k 0 ≤ wb.length)
    {f k : Nat} (hf : f + 1 + k = r + s + q) :
    tttRec r s q phia phib nc wc na wa wb a b (f + 1) k = nest ((List.range' k (f + 1)).map (tttLvl r s phia phib nc wc na wa wb)) (mac a b) := by
  have hA : ∀ w : List Nat, w.length = na.length → ∀ k, k < r + q → rdPerm w phia k = .ok (w.getD (phia.getD k 0 - 1) 0) := fun w hw k hk => by
    have := hpa k hk
    exact rdPerm_getD (by omega) (by omega) (by omega)
  have hB : ∀ k, k < s + q → rdPerm wb phib k = .ok (wb.getD (phib.getD k 0 - 1) 0) := fun k hk => by
    have := hpb k hk
    exact rdPerm_getD (by omega) (by omega) (by omega)
  induction f generalizing k with
  | zero =>
    funext p c
    rw [tttRec, if_neg (by omega), if_neg (by omega), if_neg (by omega), hA na rfl _ (by omega), hA wa hwa _ (by omega), hB _ (by omega)]
    simp only [bind_ok, range'_cons, List.range'_zero, List.map_cons, List.map_nil, nest, tttLvl]
    rw [if_neg (by omega), if_neg (by omega)]
  | succ f ih =>
    have ih := ih (k := k + 1) (by omega)
    funext p c
    rw [range'_cons, List.map_cons]
    generalize hl : tttLvl r s phia phib nc wc na wa wb k = l
    unfold tttLvl at hl
    rw [tttRec, ih]
    by_cases h1 : k < r
    · rw [if_pos h1] at hl ⊢
      rw [rd_getD (by omega), rd_getD (by omega), hA wa hwa _ (by omega), ← hl]
      rfl
    · rw [if_neg h1] at hl ⊢
      by_cases h2 : k < r + s
      · rw [if_pos h2] at hl ⊢
        rw [rd_getD (by omega), rd_getD (by omega), hB _ (by omega), ← hl]
        rfl
      · rw [if_neg h2] at hl ⊢
        rw [if_pos (by omega), hA na rfl _ (by omega), hA wa hwa _ (by omega), hB _ (by omega), ← hl]
        rfl

/-- The innermost statement of the outer product: multiplication.hpp:576. -/
def mulLeaf [Mul R] (a b : List R) (p : Ptrs) (c : List R) : M (List R) := do
  let u ← rd false a p.a
  let v ← rd false b p.b
  wr false c p.c (u * v)

theorem outerPermRec_eq [Mul R] {r s : Nat} {phia phib nc wc na wa wb : List Nat} {a b : List R} (hs : 0 < s) (hnc : r + s ≤ nc.length) (hwc : r + s ≤ wc.length) (ha : phia.length = r)
    (hb : phib.length = s) (h32 : nc.getD (r + s - 1) 0 < 2 ^ 32) (hpa : ∀ k, k < r → 1 ≤ phia.getD k 0 ∧ phia.getD k 0 ≤ wa.length)
    (hpb : ∀ k, k < s → 1 ≤ phib.getD k 0 ∧ phib.getD k 0 ≤ wb.length) {f k : Nat} (hf : f + 1 + k = r + s) :
    outerPermRec r s phia phib nc wc wa wb a b (f + 1) k = nest ((List.range' k (f + 1)).map (tttLvl r s phia phib nc wc na wa wb)) (mulLeaf a b) := by
  have hA : ∀ k, k < r → rdPerm wa phia k = .ok (wa.getD (phia.getD k 0 - 1) 0) := fun k hk => by
    have := hpa k hk
    exact rdPerm_getD (by omega) (by omega) (by omega)
  have hB : ∀ k, k < s → rdPerm wb phib k = .ok (wb.getD (phib.getD k 0 - 1) 0) := fun k hk => by
    have := hpb k hk
    exact rdPerm_getD (by omega) (by omega) (by omega)
  induction f generalizing k with
  | zero =>
    funext p c
    rw [outerPermRec, if_neg (by omega), if_neg (by omega), rd_getD (by omega), rd_getD (by omega), hB _ (by omega)]
    simp only [bind_ok, range'_cons, List.range'_zero, List.map_cons, List.map_nil, nest, tttLvl]
    rw [if_neg (by omega), if_pos (by omega), sweep32_eq (by rw [show k = r + s - 1 by omega]; exact h32)]
    rfl
  | succ f ih =>
    have ih := ih (k := k + 1) (by omega)
    funext p c
    rw [range'_cons, List.map_cons]
    generalize hl : tttLvl r s phia phib nc wc na wa wb k = l
    unfold tttLvl at hl
    rw [outerPermRec, ih]
    by_cases h1 : k < r
    · rw [if_pos h1] at hl ⊢
      rw [rd_getD (by omega), rd_getD (by omega), hA _ (by omega), ← hl]
      rfl
    · rw [if_neg h1] at hl ⊢
      rw [if_pos (by omega)] at hl
      rw [if_pos (by omega), rd_getD (by omega), rd_getD (by omega), hB _ (by omega), ← hl]
      rfl

/-! ## The loops as free and contracted ones -/

theorem range'_split (r s q : Nat) : List.range' 0 (r + s + q) = List.range r ++ (List.range s).map (r + ·) ++ (List.range q).map (r + s + ·) := by
  rw [← List.range_eq_range', List.range_add, List.range_add]

/-- The loops over the free indices of both tensors. -/
def tttFree (r s : Nat) (e wc WA WB : List Nat) : List (Nat × Ptrs) :=
  (List.range r).map (fun k => (e.getD k 0, ⟨wc.getD k 0, WA.getD k 0, 0⟩)) ++ (List.range s).map fun k => (e.getD (r + k) 0, ⟨wc.getD (r + k) 0, 0, WB.getD k 0⟩)

/-- The loops over the contracted indices. -/
def tttContr (q r s : Nat) (NA WA WB : List Nat) : List (Nat × Ptrs) := (List.range q).map fun k => (NA.getD (r + k) 0, ⟨0, WA.getD (r + k) 0, WB.getD (s + k) 0⟩)

theorem ttt_split {r s q : Nat} {phia phib nc wc na wa wb : List Nat} (ha : phia.length = r + q) (hb : phib.length = s + q) :
    (List.range' 0 (r + s + q)).map (tttLvl r s phia phib nc wc na wa wb) = tttFree r s nc wc (pick phia wa) (pick phib wb) ++ tttContr q r s (pick phia na) (pick phia wa) (pick phib wb) := by
  rw [range'_split, List.map_append, List.map_append, tttFree, tttContr, List.map_map, List.map_map]
  congr 1
  · congr 1
    · refine List.map_congr_left fun k hk => ?_
      rw [List.mem_range] at hk
      rw [tttLvl, if_pos hk, pick_getD (by omega)]
    · refine List.map_congr_left fun k hk => ?_
      rw [List.mem_range] at hk
      rw [Function.comp, tttLvl, if_neg (by omega), if_pos (by omega), pick_getD (by omega), show r + k - r = k by omega]
  · refine List.map_congr_left fun k hk => ?_
    rw [List.mem_range] at hk
    rw [Function.comp, tttLvl, if_neg (by omega), if_neg (by omega), pick_getD (by omega), pick_getD (by omega), pick_getD (by omega), show r + s + k - s = r + k by omega,
      show r + s + k - r = s + k by omega]

theorem map_getD_take {l : List Nat} {n : Nat} (h : n ≤ l.length) : ((List.range n).map fun k => l.getD k 0) = l.take n := by
  refine ext_getD (by simp; omega) fun k hk => ?_
  simp only [List.length_map, List.length_range] at hk
  rw [getD_lt (by simpa using hk), getD_lt (by rw [List.length_take]; omega), List.getElem_map, List.getElem_range, List.getElem_take, getD_lt]

theorem map_getD_drop {l : List Nat} {n r : Nat} (h : r + n = l.length) : ((List.range n).map fun k => l.getD (r + k) 0) = l.drop r := by
  refine ext_getD (by simp; omega) fun k hk => ?_
  simp only [List.length_map, List.length_range] at hk
  rw [getD_lt (by simpa using hk), getD_lt (by rw [List.length_drop]; omega), List.getElem_map, List.getElem_range, List.getElem_drop, getD_lt]

variable {r s q : Nat} {e wc NA WA WB : List Nat}

theorem free_fst (he : r + s ≤ e.length) : (tttFree r s e wc WA WB).map (·.1) = e.take (r + s) := by
  rw [tttFree, List.map_append, List.map_map, List.map_map]
  show ((List.range r).map fun k => e.getD k 0) ++ ((List.range s).map fun k => e.getD (r + k) 0) = _
  have := map_getD_take he
  rw [List.range_add, List.map_append, List.map_map] at this
  exact this

theorem free_c (he : r + s ≤ wc.length) : (tttFree r s e wc WA WB).map (fun l => l.2.c) = wc.take (r + s) := by
  rw [tttFree, List.map_append, List.map_map, List.map_map]
  show ((List.range r).map fun k => wc.getD k 0) ++ ((List.range s).map fun k => wc.getD (r + k) 0) = _
  have := map_getD_take he
  rw [List.range_add, List.map_append, List.map_map] at this
  exact this

theorem free_a (he : r ≤ WA.length) : (tttFree r s e wc WA WB).map (fun l => l.2.a) = WA.take r ++ List.replicate s 0 := by
  rw [tttFree, List.map_append, List.map_map, List.map_map]
  show ((List.range r).map fun k => WA.getD k 0) ++ ((List.range s).map fun k => 0) = _
  rw [map_getD_take he]
  congr 1
  rw [List.eq_replicate_iff]; simp

theorem free_b (he : s ≤ WB.length) : (tttFree r s e wc WA WB).map (fun l => l.2.b) = List.replicate r 0 ++ WB.take s := by
  rw [tttFree, List.map_append, List.map_map, List.map_map]
  show ((List.range r).map fun k => 0) ++ ((List.range s).map fun k => WB.getD k 0) = _
  rw [map_getD_take he]
  congr 1
  rw [List.eq_replicate_iff]; simp

theorem contr_fst (h : r + q = NA.length) : (tttContr q r s NA WA WB).map (·.1) = NA.drop r := by rw [tttContr, List.map_map]; exact map_getD_drop h
theorem contr_a (h : r + q = WA.length) : (tttContr q r s NA WA WB).map (fun l => l.2.a) = WA.drop r := by rw [tttContr, List.map_map]; exact map_getD_drop h
theorem contr_b (h : s + q = WB.length) : (tttContr q r s NA WA WB).map (fun l => l.2.b) = WB.drop s := by rw [tttContr, List.map_map]; exact map_getD_drop h
theorem contr_c : ∀ l ∈ tttContr q r s NA WA WB, l.2.c = 0 := by simp [tttContr]

/-- The memory positions of both operands. -/
theorem ttt_addr {phia phib na nb wa wb : List Nat} {a b : List R} {f g : List Nat → R} (hpa : IsPerm na.length phia) (hpb : IsPerm nb.length phib) (hr : r + q = na.length) (hs : s + q = nb.length)
    (hwa : wa.length = na.length) (hwb : wb.length = nb.length) (ha : Lay a na wa f) (hb : Lay b nb wb g) (hext : (pick phia na).drop r = (pick phib nb).drop s) (hea : e.take r = (pick phia na).take r)
    (heb : (e.take (r + s)).drop r = (pick phib nb).take s) {y z : List Nat} (hy : Valid (e.take (r + s)) y) (hz : Valid ((pick phia na).drop r) z) :
    a[dotW ((pick phia wa).take r ++ List.replicate s 0) y + dotW ((pick phia wa).drop r) z]? = some (f (place phia (y.take r ++ z))) ∧
    b[dotW (List.replicate r 0 ++ (pick phib wb).take s) y + dotW ((pick phib wb).drop s) z]? = some (g (place phib (y.drop r ++ z))) := by
  have hla := hpa.length
  have hlb := hpb.length
  have hpl : (pick phia na).length = na.length := by rw [pick_length, hla]
  have hpl' : (pick phib nb).length = nb.length := by rw [pick_length, hlb]
  have hsplit : e.take (r + s) = (pick phia na).take r ++ (pick phib nb).take s := by
    rw [← heb, ← hea]
    conv_lhs => rw [← List.take_append_drop r (e.take (r + s))]
    rw [List.take_take, Nat.min_eq_left (by omega)]
  rw [hsplit] at hy
  obtain ⟨ya, yb, rfl, hya, hyb⟩ := valid_append hy
  have hyal : ya.length = r := by rw [hya.length, List.length_take]; omega
  have hybl : yb.length = s := by rw [hyb.length, List.length_take]; omega
  have hzl : z.length = q := by rw [hz.length, List.length_drop]; omega
  have hVA : Valid (pick phia na) (ya ++ z) := by
    have : Valid (List.take r (pick phia na) ++ List.drop r (pick phia na)) (ya ++ z) := List.rel_append hya hz
    rwa [List.take_append_drop] at this
  have hVB : Valid (pick phib nb) (yb ++ z) := by
    rw [hext] at hz
    have : Valid (List.take s (pick phib nb) ++ List.drop s (pick phib nb)) (yb ++ z) := List.rel_append hyb hz
    rwa [List.take_append_drop] at this
  have hA := valid_place hpa (by omega) hVA
  have hB := valid_place hpb (by omega) hVB
  rw [place_pick hpa rfl] at hA
  rw [place_pick hpb rfl] at hB
  have e1 := ha _ hA
  have e2 := hb _ hB
  rw [dotW_place hpa hwa (by rw [List.length_append]; omega)] at e1
  rw [dotW_place hpb hwb (by rw [List.length_append]; omega)] at e2
  have t1 : (ya ++ yb).take r = ya := by rw [← hyal, List.take_left]
  have t2 : (ya ++ yb).drop r = yb := by rw [← hyal, List.drop_left]
  rw [t1, t2]
  refine ⟨?_, ?_⟩
  · rw [dotW_append (by rw [List.length_take, pick_length]; omega), dotW_zero (w := List.replicate s 0) (fun x hx => List.eq_of_mem_replicate hx), Nat.add_zero,
      ← dotW_append (by rw [List.length_take, pick_length]; omega), List.take_append_drop]
    exact e1
  · rw [dotW_append (by rw [List.length_replicate]; omega), dotW_zero (w := List.replicate r 0) (fun x hx => List.eq_of_mem_replicate hx), Nat.zero_add,
      ← dotW_append (by rw [List.length_take, pick_length]; omega), List.take_append_drop]
    exact e2

/-- The offsets and extents of the raw `ttt`: `e` are the extents of the target, of which the first `r + s` are used. -/
structure TttArgs (r s q : Nat) (e wc phia na wa phib nb wb : List Nat) : Prop where
  permA : IsPerm na.length phia
  permB : IsPerm nb.length phib
  orderA : r + q = na.length
  orderB : s + q = nb.length
  lenA : wa.length = na.length
  lenB : wb.length = nb.length
  lenC : r + s ≤ e.length ∧ r + s ≤ wc.length
  contracted : (pick phia na).drop r = (pick phib nb).drop s
  freeA : e.take r = (pick phia na).take r
  freeB : (e.take (r + s)).drop r = (pick phib nb).take s

theorem ttt_checks {phia phib na nb wa wb : List Nat} (h : TttArgs r s q e wc phia na wa phib nb wb) :
    expectEqual (fun i => rdPerm na phia i) (fun i => rd false e i) r = .ok () ∧ expectEqual (fun i => rdPerm nb phib i) (fun i => rd false e (r + i)) s = .ok () ∧
    expectEqual (fun i => rdPerm nb phib (s + i)) (fun i => rdPerm na phia (r + i)) q = .ok () := by
  have h1 := h.orderA
  have h2 := h.orderB
  have h3 := h.lenC.1
  have hla := h.permA.length
  have hlb := h.permB.length
  have hA : ∀ i, i < na.length → rdPerm na phia i = .ok ((pick phia na).getD i 0) := fun i hi => by
    have := h.permA.get hi
    rw [rdPerm_getD (by omega) (by omega) (by omega), pick_getD (by omega)]
  have hB : ∀ i, i < nb.length → rdPerm nb phib i = .ok ((pick phib nb).getD i 0) := fun i hi => by
    have := h.permB.get hi
    rw [rdPerm_getD (by omega) (by omega) (by omega), pick_getD (by omega)]
  have gt : ∀ (l : List Nat) n i, i < n → (l.take n).getD i 0 = l.getD i 0 := fun l n i hi => by rw [List.getD_eq_getElem?_getD, List.getD_eq_getElem?_getD, List.getElem?_take_of_lt hi]
  have gd : ∀ (l : List Nat) n i, (l.drop n).getD i 0 = l.getD (n + i) 0 := fun l n i => by rw [List.getD_eq_getElem?_getD, List.getD_eq_getElem?_getD, List.getElem?_drop]
  refine ⟨expectEqual_of (x := fun i => (pick phia na).getD i 0) (fun i hi => hA i (by omega)) (fun i hi => ?_), expectEqual_of (x := fun i => (pick phib nb).getD i 0) (fun i hi => hB i (by omega)) (fun i hi => ?_),
    expectEqual_of (x := fun i => (pick phib nb).getD (s + i) 0) (fun i hi => hB _ (by omega)) (fun i hi => ?_)⟩
  · show rd false e i = _
    rw [rd_getD (by omega), ← gt _ r i hi, h.freeA, gt _ r i hi]
  · show rd false e (r + i) = _
    rw [rd_getD (by omega), ← gt _ (r + s) (r + i) (by omega), ← gd, h.freeB, gt _ s i hi]
  · show rdPerm na phia (r + i) = _
    rw [hA _ (by omega), ← gd, h.contracted, gd]

/-- **C55**, `ttt` on raw memory with at least one contracted mode: element `ya ++ yb` of the target grows by the sum over all values `z` of the contracted modes of
`A (free modes = ya, contracted modes = z) * B (free modes = yb, contracted modes = z)`. -/
theorem C55_ttt [NonUnitalNonAssocSemiring R] {phia phib na nb wa wb : List Nat} {a b c : List R} {f g old : List Nat → R} (h : TttArgs r s q e wc phia na wa phib nb wb) (hq : 0 < q)
    (ha : Lay a na wa f) (hb : Lay b nb wb g) (hd : Distinct (e.take (r + s)) (wc.take (r + s))) (hc : Lay c (e.take (r + s)) (wc.take (r + s)) old) :
    ∃ c', ttt na.length nb.length q phia phib c e wc a na wa b nb wb = .ok c' ∧ c'.length = c.length ∧
      Lay c' (e.take (r + s)) (wc.take (r + s)) (fun i => old i + sumBox ((pick phia na).drop r) fun z => f (place phia (i.take r ++ z)) * g (place phib (i.drop r ++ z))) ∧
      ∀ k, (∀ i, Valid (e.take (r + s)) i → dotW (wc.take (r + s)) i ≠ k) → c'[k]? = c[k]? := by
  have h1 := h.orderA
  have h2 := h.orderB
  have h3 := h.lenC
  have h4 := h.lenA
  have h5 := h.lenB
  have hla := h.permA.length
  have hlb := h.permB.length
  obtain ⟨x1, x2, x3⟩ := ttt_checks h
  obtain ⟨c', e1, e2, e3, e4⟩ := mac_index (free := tttFree r s e wc (pick phia wa) (pick phib wb)) (contr := tttContr q r s (pick phia na) (pick phia wa) (pick phib wb)) (a := a) (b := b) (c := c)
    (e := e.take (r + s)) (wc := wc.take (r + s)) (old := old) (fa := fun i z => f (place phia (i.take r ++ z))) (fb := fun i z => g (place phib (i.drop r ++ z))) id id
    (fun y hy => by rw [free_fst h3.1] at hy; exact ⟨hy, rfl, by rw [free_c h3.2]; rfl⟩) (fun i hi => ⟨by rw [free_fst h3.1]; exact hi, rfl⟩) contr_c hd hc
    (fun y z hy hz => by
      rw [free_fst h3.1] at hy
      rw [contr_fst (by rw [pick_length]; omega)] at hz
      rw [free_a (by rw [pick_length]; omega), contr_a (by rw [pick_length]; omega)]
      exact (ttt_addr h.permA h.permB h1 h2 h4 h5 ha hb h.contracted h.freeA h.freeB hy hz).1)
    (fun y z hy hz => by
      rw [free_fst h3.1] at hy
      rw [contr_fst (by rw [pick_length]; omega)] at hz
      rw [free_b (by rw [pick_length]; omega), contr_b (by rw [pick_length]; omega)]
      exact (ttt_addr h.permA h.permB h1 h2 h4 h5 ha hb h.contracted h.freeA h.freeB hy hz).2)
  rw [contr_fst (by rw [pick_length]; omega)] at e3
  refine ⟨c', ?_, e2, e3, e4⟩
  rw [ttt, if_neg (by omega), if_neg (by omega), if_neg (by omega)]
  simp only [show na.length - q = r by omega, show nb.length - q = s by omega]
  rw [x1, x2, x3]
  simp only [bind_ok]
  rw [if_neg (by omega)]
  obtain ⟨t, ht⟩ : ∃ t, r + s + q = t + 1 := ⟨r + s + q - 1, by omega⟩
  rw [ht, tttRec_eq hq h3.1 h3.2 (by omega) (by omega) h4 (fun k hk => h.permA.get (by omega)) (fun k hk => by have := h.permB.get (k := k) (by omega); omega) (by omega), ← ht,
    ttt_split (by omega) (by omega)]
  exact e1

/-- **C55**, `ttt` on raw memory without contracted modes: the outer product is stored. -/
theorem C55_ttt_outer [Mul R] {phia phib na nb wa wb : List Nat} {a b c : List R} {f g old : List Nat → R} (h : TttArgs r s 0 e wc phia na wa phib nb wb) (hpa : na ≠ []) (hpb : nb ≠ [])
    (h32 : ∀ n ∈ e, n < 2 ^ 32)
    (ha : Lay a na wa f) (hb : Lay b nb wb g) (hd : Distinct (e.take (r + s)) (wc.take (r + s))) (hc : Lay c (e.take (r + s)) (wc.take (r + s)) old) [Add R] :
    ∃ c', ttt na.length nb.length 0 phia phib c e wc a na wa b nb wb = .ok c' ∧ c'.length = c.length ∧
      Lay c' (e.take (r + s)) (wc.take (r + s)) (fun i => f (place phia (i.take r)) * g (place phib (i.drop r))) ∧
      ∀ k, (∀ i, Valid (e.take (r + s)) i → dotW (wc.take (r + s)) i ≠ k) → c'[k]? = c[k]? := by
  have h1 := h.orderA
  have h2 := h.orderB
  have h3 := h.lenC
  have h4 := h.lenA
  have h5 := h.lenB
  have hla := h.permA.length
  have hlb := h.permB.length
  have hr0 := List.length_pos_of_ne_nil hpa
  have hs0 := List.length_pos_of_ne_nil hpb
  obtain ⟨x1, x2, x3⟩ := ttt_checks h
  have hcn : tttContr 0 r s (pick phia na) (pick phia wa) (pick phib wb) = [] := rfl
  obtain ⟨c', e1, e2, e3, e4⟩ := upd_index (free := tttFree r s e wc (pick phia wa) (pick phib wb)) (contr := []) (leaf := mulLeaf a b) (c := c)
    (e := e.take (r + s)) (wc := wc.take (r + s)) (old := old) (fun i _ _ => f (place phia (i.take r)) * g (place phib (i.drop r))) id id
    (fun y hy => by rw [free_fst h3.1] at hy; exact ⟨hy, rfl, by rw [free_c h3.2]; rfl⟩) (fun i hi => ⟨by rw [free_fst h3.1]; exact hi, rfl⟩) (by simp) hd hc
    (fun y z d v hy hz hlen hv => by
      rw [free_fst h3.1] at hy
      rcases hz with _ | _
      obtain ⟨k1, k2⟩ := ttt_addr (z := []) h.permA h.permB h1 h2 h4 h5 ha hb h.contracted h.freeA h.freeB hy (by
        have : (pick phia na).drop r = [] := by rw [List.drop_eq_nil_iff, pick_length]; omega
        rw [this]; exact .nil)
      rw [dotW_nil_right, Nat.add_zero, List.append_nil] at k1 k2
      rw [← free_a (r := r) (s := s) (e := e) (wc := wc) (WB := pick phib wb) (by rw [pick_length]; omega)] at k1
      rw [← free_b (r := r) (s := s) (e := e) (wc := wc) (WA := pick phia wa) (by rw [pick_length]; omega)] at k2
      have k3 : wc.take (r + s) = (tttFree r s e wc (pick phia wa) (pick phib wb)).map (fun l => l.2.c) := (free_c h3.2).symm
      rw [List.append_nil, List.append_nil, mulLeaf, addr_a, addr_b, addr_c]
      simp only [Nat.zero_add]
      rw [rd_eq_ok.2 k1, rd_eq_ok.2 k2]
      simp only [bind_ok]
      rw [k3] at hv ⊢
      rw [id] at hv ⊢
      rw [wr_ok (List.getElem?_eq_some_iff.1 hv).1])
  refine ⟨c', ?_, e2, e3, e4⟩
  rw [ttt, if_neg (by omega), if_neg (by omega), if_neg (by omega)]
  simp only [show na.length - 0 = r by omega, show nb.length - 0 = s by omega]
  rw [x1, x2, x3]
  simp only [bind_ok, if_true]
  obtain ⟨t, ht⟩ : ∃ t, r + s = t + 1 := ⟨r + s - 1, by omega⟩
  have hsp := ttt_split (r := r) (s := s) (q := 0) (phia := phia) (phib := phib) (nc := e) (wc := wc) (na := na) (wa := wa) (wb := wb) (by omega) (by omega)
  rw [Nat.add_zero, hcn] at hsp
  rw [ht, outerPermRec_eq (na := na) (by omega) h3.1 h3.2 (by omega) (by omega) (h32 _ (getD_mem (by omega))) (fun k hk => by have := h.permA.get (k := k) (by omega); omega)
    (fun k hk => by have := h.permB.get (k := k) (by omega); omega) (by omega), ← ht, hsp]
  exact e1

end Ublas.Tens
