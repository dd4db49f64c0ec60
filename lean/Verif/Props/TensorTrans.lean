import Verif.Props.TensorAlg
import Verif.Lemmas.TensorPerm
/-! # C53: transposition of tensors -/
namespace Ublas.Tens
variable {R : Type}

theorem permuteExtents_ok {na π : List Nat} (h : IsPerm na.length π) : permuteExtents na π = .ok (place π na) := by
  obtain ⟨nc, e1, h1, h2⟩ := loop_inv (f := fun i nc => (do
      let t ← vectorAt π i
      let x ← vectorAt na i
      if t = 0 ∨ nc.length < t then .error .stdException else .ok (nc.set (t - 1) x) : M (List Nat))) (n := na.length) (s := List.replicate na.length 0)
    (fun k nc => nc.length = na.length ∧ ∀ t, t < k → nc[π.getD t 0 - 1]? = na[t]?) ⟨by simp, fun t ht => by omega⟩
    (by
      rintro k nc hk ⟨a1, a2⟩
      have hg := h.get hk
      have hk' : k < π.length := by rw [h.length]; exact hk
      refine ⟨nc.set (π.getD k 0 - 1) na[k], ?_, by rw [List.length_set, a1], fun t ht => ?_⟩
      · rw [vectorAt_ok.2 (List.getElem?_eq_getElem hk'), vectorAt_ok.2 (List.getElem?_eq_getElem hk), bind_ok, bind_ok, ← getD_lt hk', if_neg (by omega)]
      · by_cases htk : t = k
        · subst htk; rw [List.getElem?_set_self (by omega), List.getElem?_eq_getElem hk]
        · rw [List.getElem?_set_ne, a2 t (by omega)]
          intro hc
          have h3 := h.idx_get hk
          have h4 := h.idx_get (k := t) (by omega)
          rw [hc, h4] at h3
          exact htk h3)
  rw [permuteExtents, e1]
  congr 1
  refine ext_getD (by rw [h1, place_length]) fun m hm => ?_
  have hi := h.idx (m := m) (by omega)
  rw [place_getD (by omega)]
  have := h2 _ hi.1
  rw [hi.2] at this
  rw [List.getD_eq_getElem?_getD, List.getD_eq_getElem?_getD]
  simp only [Nat.add_sub_cancel] at this
  rw [this]

/-- **C53** for tensors of rank two or more: `trans (a, π)` has extent `n_k` in position `π_k`, and `C (j) = A (j[π_1], j[π_2], ...)` for every multi-index `j`; i.e. `C (i permuted by π) = A (i)`. -/
theorem C53_trans_partial {L : Layout} {t : Tensor R} {e π : List Nat} {f : List Nat → R} (h : Holds L t e f) (hr : 2 ≤ e.length) (hs : ∀ n ∈ e, n < 2 ^ 32) (hπ : IsPerm e.length π) (zero : R) :
    ∃ t', trans L zero t π = .ok t' ∧ Holds L t' (place π e) (fun j => f (pick π j)) ∧ ∀ i, Valid e i → Valid (place π e) (place π i) ∧ pick π (place π i) = i := by
  have hpe := place_positive hπ rfl h.positive
  have hne : place π e ≠ [] := fun hc => by have := congrArg List.length hc; rw [place_length, List.length_nil] at this; omega
  obtain ⟨c, hc1, hc2⟩ := create_holds L hpe hne zero
  have hdata : t.data ≠ [] := fun hc => by
    have := count_pos h.positive
    rw [← h.size, hc] at this; simp at this
  obtain ⟨r, hr'⟩ : ∃ r, e.length = r + 1 := ⟨e.length - 1, by omega⟩
  have m1 := map_getD_range hr'
  have m3 := map_getD_range ((strides_length h).trans hr')
  have hsl := strides_length hc2
  rw [place_length] at hsl
  have m2 : ((List.range (r + 1)).map fun k => c.strides.getD (π.getD k 0 - 1) 0) = π.map fun t => c.strides.getD (t - 1) 0 :=
    map_range_getD (hπ.length.trans hr') (fun t => c.strides.getD (t - 1) 0)
  have hdot : ∀ i, Valid e i → dotW (π.map fun t => c.strides.getD (t - 1) 0) i = dotW c.strides (place π i) := fun i hi => (dotW_place hπ hsl hi.length).symm
  obtain ⟨c', e1, e2, e3, _⟩ := assign_nest (op := fun x : R => x) (g := fun k => (e.getD k 0, ⟨c.strides.getD (π.getD k 0 - 1) 0, t.strides.getD k 0, 0⟩)) (r := r) (a := t.data) (c := c.data) (f := f)
    (by simp only [m1, m3]; exact lay_of_holds h)
    (by
      simp only [m1, m2]
      intro i hi
      have := lay_of_holds hc2 _ (valid_place hπ rfl hi)
      rw [hdot i hi]
      exact (List.getElem?_eq_some_iff.1 this).1)
    (by
      simp only [m1, m2]
      intro i j hi hj hij
      rw [hdot i hi, hdot j hj] at hij
      have := distinct_of_holds hc2 _ _ (valid_place hπ rfl hi) (valid_place hπ rfl hj) hij
      rw [← pick_place hπ hi.length, ← pick_place hπ hj.length, this])
  simp only [m1, m2] at e3
  refine ⟨{ c with data := c' }, ?_, ⟨hc2.extents, hpe, hne, hc2.strides, by rw [← hc2.size]; exact e2, fun j hj => ?_⟩, fun i hi => ⟨valid_place hπ rfl hi, pick_place hπ hi.length⟩⟩
  · unfold trans
    rw [h.extents, permuteExtents_ok hπ]
    simp only [bind_ok, hc1]
    rw [if_neg hdata, transRaw, if_neg (by omega), show e.length - 1 = r by omega,
      transRec_eq hs (by omega) (by rw [hπ.length]; omega) (by rw [strides_length h]; omega) (fun t ht => by have := hπ.mem.1 ht; omega), e1]
    rfl
  · have hv := valid_pick hπ rfl hj
    have := e3 _ hv
    have hjl : j.length = e.length := by rw [hj.length, place_length]
    rw [hdot _ hv, place_pick hπ hjl, (toIndex_pos hc2.strides hj).2.1] at this
    exact this

/-- **C53**: transposing by `π` and then by its inverse `π'` (`π[π'_u] = u` for all `u`) gives the elements of `a` back. -/
theorem C53_inverse_partial {L : Layout} {t : Tensor R} {e π π' : List Nat} {f : List Nat → R} (h : Holds L t e f) (hr : 2 ≤ e.length) (hs : ∀ n ∈ e, n < 2 ^ 32) (hπ : IsPerm e.length π)
    (hπ' : IsPerm e.length π') (hinv : pick π' π = List.range' 1 e.length) (zero : R) :
    ∃ t' t'', trans L zero t π = .ok t' ∧ trans L zero t' π' = .ok t'' ∧ Holds L t'' e f := by
  obtain ⟨t', h1, h2, _⟩ := C53_trans_partial h hr hs hπ zero
  have hl : (place π e).length = e.length := place_length _ _
  have hs' : ∀ n ∈ place π e, n < 2 ^ 32 := by
    intro n hn
    obtain ⟨m, hm, rfl⟩ := List.mem_map.1 hn
    rw [List.mem_range] at hm
    have := (hπ.idx (m := m) (by omega)).1
    rw [getD_lt (by omega)]
    exact hs _ (List.getElem_mem _)
  obtain ⟨t'', h3, h4, _⟩ := C53_trans_partial h2 (by omega) hs' (by rw [hl]; exact hπ') zero
  have key : ∀ u, u < e.length → π.getD (π'.getD u 0 - 1) 0 = u + 1 := fun u hu => by
    have := congrArg (fun l : List Nat => l.getD u 0) hinv
    rw [pick_getD (by rw [hπ'.length]; exact hu), getD_lt (l := List.range' 1 e.length) (by simpa using hu)] at this
    rw [this]; simp [List.getElem_range']; omega
  have hpp : ∀ j : List Nat, j.length = e.length → pick π (pick π' j) = j := fun j hj => by
    refine ext_getD (by rw [pick_length, hπ.length, hj]) fun k hk => ?_
    rw [pick_length, hπ.length] at hk
    have hg := hπ.get hk
    rw [pick_getD (by rw [hπ.length]; exact hk), pick_getD (by rw [hπ'.length]; omega)]
    have hk2 := key (π.getD k 0 - 1) (by omega)
    have hg' := hπ'.get (k := π.getD k 0 - 1) (by omega)
    have e1 := hπ.idx_get hk
    have e2 := hπ.idx_get (k := π'.getD (π.getD k 0 - 1) 0 - 1) (by omega)
    rw [hk2] at e2
    have : π'.getD (π.getD k 0 - 1) 0 - 1 = k := by rw [← e2]; exact e1
    rw [this]
  have he : place π' (place π e) = e := by
    have := hpp (place π' (place π e)) (by rw [place_length, hl])
    rw [pick_place hπ' hl, pick_place hπ rfl] at this
    exact this.symm
  rw [he] at h4
  exact ⟨t', t'', h1, h3, h4.extents, h4.positive, h4.rank, h4.strides, h4.size, fun j hj => by rw [h4.elem j hj, hpp j hj.length]⟩

/-- **C53** refuted for rank one: the only transposition of a vector, which should be the vector itself, is a tensor full of zeros (the recursive function returns without copying). -/
theorem C53_rank1_refuted {L : Layout} {t : Tensor R} {n : Nat} {f : List Nat → R} (h : Holds L t [n] f) (zero : R) :
    IsPerm 1 [1] ∧ ∃ t', trans L zero t [1] = .ok t' ∧ Holds L t' [n] fun _ => zero := by
  have hp : IsPerm 1 [1] := List.Perm.refl _
  obtain ⟨c, hc1, hc2⟩ := create_holds L h.positive h.rank zero
  refine ⟨hp, c, ?_, hc2⟩
  have hpe : permuteExtents t.extents [1] = .ok [n] := by rw [h.extents, permuteExtents_ok (na := [n]) hp]; rfl
  unfold trans
  rw [hpe, bind_ok, hc1, bind_ok, transRaw, h.extents, if_pos (show [n].length < 2 from Nat.one_lt_two), bind_ok]
  split <;> rfl

/-- **C53**: a tuple that is not a permutation of `1 .. p` is refused. -/
theorem C53_invalid {L : Layout} {t : Tensor R} {π : List Nat} (h : ¬ IsPerm t.extents.length (π.take t.extents.length)) (zero : R) : trans L zero t π = .error .stdException := by
  set na := t.extents with hna
  have hstep : ∀ i (nc : List Nat), (do
      let t ← vectorAt π i
      let x ← vectorAt na i
      if t = 0 ∨ nc.length < t then .error .stdException else .ok (nc.set (t - 1) x) : M (List Nat)) = .error .stdException ∨
      ∃ t x, π[i]? = some t ∧ 0 < t ∧ t ≤ nc.length ∧ (do
      let t ← vectorAt π i
      let x ← vectorAt na i
      if t = 0 ∨ nc.length < t then .error .stdException else .ok (nc.set (t - 1) x) : M (List Nat)) = .ok (nc.set (t - 1) x) := by
    intro i nc
    cases h1 : π[i]? with
    | none => left; simp [vectorAt, h1]
    | some a =>
      cases h2 : na[i]? with
      | none => left; simp [vectorAt, h1, h2]
      | some b =>
        by_cases hc : a = 0 ∨ nc.length < a
        · left; simp [vectorAt, h1, h2, hc]
        · right; exact ⟨a, b, rfl, by omega, by omega, by simp [vectorAt, h1, h2, hc]⟩
  have key : ∀ k (nc : List Nat), nc.length = na.length →
      (loop (fun i nc => (do
        let t ← vectorAt π i
        let x ← vectorAt na i
        if t = 0 ∨ nc.length < t then .error .stdException else .ok (nc.set (t - 1) x) : M (List Nat))) k nc = .error .stdException) ∨
      ∃ nc', loop (fun i nc => (do
        let t ← vectorAt π i
        let x ← vectorAt na i
        if t = 0 ∨ nc.length < t then .error .stdException else .ok (nc.set (t - 1) x) : M (List Nat))) k nc = .ok nc' ∧ nc'.length = na.length ∧
        ∀ m, m < na.length → nc'[m]? = nc[m]? ∨ ∃ i, i < k ∧ π[i]? = some (m + 1) := by
    intro k nc hl
    induction k with
    | zero => exact .inr ⟨nc, rfl, hl, fun m _ => .inl rfl⟩
    | succ k ih =>
      rw [loop]
      rcases ih with ih | ⟨nc', e1, l1, h1⟩
      · left; rw [ih, bind_error]
      · rw [e1, bind_ok]
        rcases hstep k nc' with hs | ⟨a, x, ha, ha0, hal, hs⟩
        · left; exact hs
        · right
          refine ⟨nc'.set (a - 1) x, hs, by rw [List.length_set, l1], fun m hm => ?_⟩
          by_cases hma : a - 1 = m
          · exact .inr ⟨k, by omega, by rw [ha]; congr 1; omega⟩
          · rw [List.getElem?_set_ne hma]
            rcases h1 m hm with h2 | ⟨i, hi, h2⟩
            · exact .inl h2
            · exact .inr ⟨i, by omega, h2⟩
  unfold trans permuteExtents
  rw [← hna]
  rcases key na.length (List.replicate na.length 0) (by simp) with hk | ⟨nc, e1, l1, h1⟩
  · rw [hk, bind_error]
  · rw [e1, bind_ok, create_invalid, bind_error]
    intro hpos
    apply h
    have hsub : List.range' 1 na.length ⊆ π.take na.length := by
      intro u hu
      obtain ⟨m, hm, rfl⟩ := List.mem_range'.1 hu
      rcases h1 m hm with h2 | ⟨i, hi, h2⟩
      · exfalso
        rw [List.getElem?_eq_getElem (by omega), List.getElem?_replicate, if_pos hm] at h2
        have := hpos nc[m] (List.getElem_mem _)
        simp at h2; omega
      · rw [show 1 + 1 * m = m + 1 by omega, List.mem_iff_getElem?]
        exact ⟨i, by rw [List.getElem?_take_of_lt hi, h2]⟩
    exact ((List.subperm_of_subset List.nodup_range' hsub).perm_of_length_le (by simp)).symm

/-- A 2 x 3 x 2 tensor transposed by (2, 3, 1). -/
example : (createFrom .first [2, 3, 2] [0, 1, 10, 11, 20, 21, 100, 101, 110, 111, 120, 121] >>= fun t => trans .first 0 t [2, 3, 1]) =
    .ok ⟨[2, 2, 3], [1, 2, 4], [0, 100, 1, 101, 10, 110, 11, 111, 20, 120, 21, 121]⟩ := by decide
example : IsPerm 3 [2, 3, 1] := by unfold IsPerm; decide
example : pick [3, 1, 2] [2, 3, 1] = List.range' 1 3 := by decide
example : (createFrom .last [3] [7, 8, 9] >>= fun t => trans .last 0 t [1]) = .ok ⟨[3], [1], [0, 0, 0]⟩ := by decide
example : (createFrom .last [2, 1] [7, 8] >>= fun t => trans .last 0 t [1, 1]) = .error .stdException := by decide

end Ublas.Tens
