import Verif.Props.LUSubst
/-! # C40: axpy_lu_factorize -/
namespace Ublas.LU
open Finset
variable {σ R K : Type} [Field R] [DecidableEq R]

omit [DecidableEq R] in
/-- A dense operand given by its elements. -/
theorem seq_presents {n : Nat} {v : Nat → R} {s : Seq R} (hs : s.size = n) (he : s.els = (List.range n).map fun k => (k, v k)) (ha : ∀ k, k < n → s.at_ k = .ok (v k)) : s.Presents n v := by
  have e1 : s.els.map (·.1) = List.range n := by rw [he, List.map_map]; simp [Function.comp_def]
  refine { size := hs, at_ := ha, vals := fun p hp => ?_, sorted := ?_, skipped := fun i hi hn => ?_, packed := fun _ => ⟨0, ?_⟩, dense := fun _ => e1 }
  · rw [he] at hp
    obtain ⟨k, hk, rfl⟩ := List.mem_map.1 hp
    exact ⟨List.mem_range.1 hk, rfl⟩
  · rw [e1]; exact List.pairwise_lt_range
  · rw [e1] at hn; exact absurd (List.mem_range.2 hi) hn
  · rw [e1, List.range_eq_range', he]; simp

omit [DecidableEq R] in
theorem blockSeq_presents {V : Acc σ (Nat × Nat) R} {s : σ} {r0 c0 r c : Nat} {a : Nat → Nat → R} (h : ∀ i j, i < r → j < c → V.get s (r0 + i, c0 + j) = .ok (a i j)) :
    (blockSeq V s r0 c0 r c).Presents r c a where
  size1 := rfl
  size2 := rfl
  rows i hi := seq_presents rfl (List.map_congr_left fun j hj => by rw [h i j hi (List.mem_range.1 hj)]; rfl) fun j hj => h i j hi hj
  cols j hj := seq_presents rfl (List.map_congr_left fun i hi => by rw [h i j (List.mem_range.1 hi) hj]; rfl) fun i hi => h i j hi hj

omit [Field R] [DecidableEq R] in
theorem assignRange_ok (dbg : Bool) {lo n : Nat} {t : Nat → M R} {f : Nat → R} (ht : ∀ k, k < n → t k = .ok (f k)) {v : List R} (hl : lo + n ≤ v.length) :
    ∃ v', assignRange dbg lo n t v = .ok v' ∧ v'.length = v.length ∧ ∀ k, k < n → v'[lo + k]? = some (f k) := by
  refine loop_inv (n := n) (s := v) (fun k v' => v'.length = v.length ∧ ∀ j, j < k → v'[lo + j]? = some (f j)) ⟨rfl, fun j hj => by omega⟩ ?_
  rintro k v' hk ⟨h1, h2⟩
  refine ⟨v'.set (lo + k) (f k), by rw [ht k hk, bind_ok, wr_ok (by omega)], by rw [List.length_set, h1], fun j hj => ?_⟩
  rcases Nat.lt_or_ge j k with h | h
  · rw [List.getElem?_set_ne (by omega)]; exact h2 j h
  · rw [show j = k by omega, List.getElem?_set_self (by omega)]

omit [DecidableEq R] in
/-- The dense vector under `rd`, `wr`. -/
theorem list_lawful (dbg : Bool) (n : Nat) : (⟨fun l p => rd dbg l p, fun l p x => wr dbg l p x⟩ : Acc (List R) Nat R).Lawful (· < n) (fun v w => v.length = n ∧ ∀ i, i < n → v[i]? = some (w i)) where
  get v w h i hi := rd_eq_ok.2 (h.2 i hi)
  set v w h i hi t := by
    refine ⟨v.set i t, wr_ok (by omega), by rw [List.length_set]; exact h.1, fun j hj => ?_⟩
    by_cases e : j = i
    · subst e; rw [Function.update_self, List.getElem?_set_self (by omega)]
    · rw [Function.update_of_ne e, List.getElem?_set_ne (Ne.symm e)]; exact h.2 j hj

section mat
variable {V : Acc σ (Nat × Nat) R} {n1 n2 : Nat} {H : σ → (Nat × Nat → R) → Prop} (hV : V.Lawful (fun p => p.1 < n1 ∧ p.2 < n2) H)
include hV

omit [Field R] [DecidableEq R] in
theorem assignColumn_ok {lo n c : Nat} (hn : lo + n ≤ n1) (hc : c < n2) {t : Nat → M R} {f : Nat → R} (ht : ∀ k, k < n → t k = .ok (f k)) {s : σ} {w : Nat × Nat → R} (hs : H s w) :
    ∃ s', assignColumn V lo n c t s = .ok s' ∧ H s' (fun p => if lo ≤ p.1 ∧ p.1 < lo + n ∧ p.2 = c then f (p.1 - lo) else w p) := by
  unfold assignColumn
  refine loop_cells hV (idx := fun k => (lo + k, c)) w _ (fun k hk => ⟨by show lo + k < n1; omega, hc⟩) (fun p hp => if_neg ?_) (fun k t w' hk _ _ => ?_) hs
  · rintro ⟨h1, h2, h3⟩
    exact hp (p.1 - lo) (by omega) (by ext <;> simp only <;> omega)
  · rw [ht k hk, bind_ok, if_pos ⟨by simp only; omega, by simp only; omega, rfl⟩, Nat.add_sub_cancel_left]

omit [Field R] [DecidableEq R] in
theorem assignAll_ok (o : Orient) {t : Nat → Nat → M R} {f : Nat × Nat → R} (ht : ∀ r c, r < n1 → c < n2 → t r c = .ok (f (r, c))) {s : σ} {w : Nat × Nat → R} (hs : H s w) :
    ∃ s', assignAll o V n1 n2 t s = .ok s' ∧ H s' (fun p => if p.1 < n1 ∧ p.2 < n2 then f p else w p) := by
  unfold assignAll
  refine loop_block hV o (r0 := 0) (c0 := 0) (by omega) (by omega) (body := fun r c s => (do
    let x ← t r c
    V.set s (r, c) x)) w _ (fun p hp => if_neg fun h => hp ⟨by omega, by omega, by omega, by omega⟩) (fun i j s w' hi hj _ _ _ => ?_) hs
  simp only [Nat.zero_add, ht i j hi hj, bind_ok, hi, hj, and_self, if_true]

/-- What is known after `k` steps: the columns from `k` on of `m` are those of `P A`, the columns below `k` of `mr` are factored, the others zero. -/
structure AInv (H : σ → (Nat × Nat → R) → Prop) (n1 n2 p : Nat) (a : Nat → Nat → R) (k : Nat) (st : AState σ R) : Prop where
  pm : PmInv n1 (identity p) st.pm k
  v : st.v.length = n1
  m : ∃ w, H st.m w ∧ ∀ r c, r < n1 → k ≤ c → c < n2 → w (r, c) = a (permTo (pmFn st.pm) k r) c
  mr : ∃ w, H st.mr w ∧ Singular k w st.singular ∧ (∀ r c, r < n1 → k ≤ c → c < n2 → w (r, c) = 0) ∧
    ∀ r c, r < n1 → c < k → a (permTo (pmFn st.pm) k r) c = ∑ l ∈ range k, lower w r l * upper w l c

variable [Field K] [LinearOrder K] [IsStrictOrderedRing K] {abs : R → K} (habs : ∀ x, abs x = 0 ↔ x = 0) (hpos : ∀ x, 0 ≤ abs x)

omit [DecidableEq R] hV in
/-- The algebra of one step. -/
theorem axpy_algebra {k p : Nat} {a : Nat → Nat → R} {P : Equiv.Perm Nat} {w w' : Nat × Nat → R} {u v : Nat → R} (hk1 : k < n1) (hkp : k ≤ p) (hp : p < n1)
    (hfac : ∀ r c, r < n1 → c < k → a (P r) c = ∑ l ∈ range k, lower w r l * upper w l c)
    (hu : ∀ r, r < k → ∑ l ∈ range k, lower w r l * u l = a (P r) k)
    (hv : ∀ r, k ≤ r → r < n1 → v r = a (P r) k - ∑ l ∈ range k, w (r, l) * u l)
    (h1 : ∀ r c, r < n1 → c < k → w' (r, c) = w (Equiv.swap k p r, c))
    (h2 : ∀ r, r < k → w' (r, k) = u r) (h3 : w' (k, k) = v p)
    (h4 : ∀ r, k < r → r < n1 → w' (r, k) * v p = v (Equiv.swap k p r)) :
    ∀ r c, r < n1 → c < k + 1 → a ((P * Equiv.swap k p) r) c = ∑ l ∈ range (k + 1), lower w' r l * upper w' l c := by
  intro r c hr hc
  have hsw : ∀ r, r < n1 → Equiv.swap k p r < n1 ∧ (k ≤ Equiv.swap k p r ↔ k ≤ r) := fun r hr => by
    rw [Equiv.swap_apply_def]; split <;> [omega; split <;> omega]
  have hfix : ∀ r, r < k → Equiv.swap k p r = r := fun r hr => Equiv.swap_apply_of_ne_of_ne (by omega) (by omega)
  have hlow : ∀ l, l < k → lower w' r l = lower w (Equiv.swap k p r) l := fun l hl => by
    rcases Nat.lt_or_ge r k with h | h
    · rw [hfix r h]; unfold lower; rw [h1 r l hr hl, hfix r h]
    · have := (hsw r hr).2.2 h
      unfold lower
      rw [if_pos (by omega), if_pos (by omega), h1 r l hr hl]
  rw [Equiv.Perm.mul_apply, sum_range_succ]
  rcases Nat.lt_or_ge c k with hck | hck
  · rw [hfac _ c (hsw r hr).1 hck]
    have : upper w' k c = 0 := by rw [upper, if_neg (by omega)]
    rw [this, mul_zero, add_zero]
    refine sum_congr rfl fun l hl => ?_
    have hl := mem_range.1 hl
    rw [hlow l hl]
    congr 1
    unfold upper
    rw [h1 l c (by omega) hck, hfix l hl]
  · have : c = k := by omega
    subst this
    have hup : ∀ l ∈ range c, lower w' r l * upper w' l c = lower w (Equiv.swap c p r) l * u l := fun l hl => by
      have hl := mem_range.1 hl
      rw [hlow l hl, upper, if_pos (by omega), h2 l hl]
    rw [sum_congr rfl hup]
    have hkk : upper w' c c = v p := by rw [upper, if_pos le_rfl, h3]
    rcases Nat.lt_or_ge r c with hrc | hrc
    · have : lower w' r c = 0 := by rw [lower, if_neg (by omega), if_neg (by omega)]
      rw [this, zero_mul, add_zero, hfix r hrc, hu r hrc]
    · have hs := hsw r hr
      have e1 : ∑ l ∈ range c, lower w (Equiv.swap c p r) l * u l = ∑ l ∈ range c, w (Equiv.swap c p r, l) * u l :=
        sum_congr rfl fun l hl => by
          have hl := mem_range.1 hl
          have := hs.2.2 hrc
          rw [lower, if_pos (by omega)]
      have e2 := hv _ (hs.2.2 hrc) hs.1
      have e3 : lower w' r c * upper w' c c = v (Equiv.swap c p r) := by
        rw [hkk]
        rcases Nat.lt_or_ge c r with h | h
        · rw [lower, if_pos h, h4 r h hr]
        · have : r = c := by omega
          subst this
          rw [lower, if_neg (by omega), if_pos rfl, one_mul, Equiv.swap_apply_left]
      rw [e1, e3, e2]; ring

include habs hpos in
theorem axpyStep_ok (dbg : Bool) (o : Orient) (junk : Nat → R) {p : Nat} {a : Nat → Nat → R} (hp : min n1 n2 ≤ p) {k : Nat} (hk : k < min n1 n2) {st : AState σ R}
    (hst : AInv H n1 n2 p a k st) : ∃ st', axpyStep abs dbg o V junk n1 n2 k st = .ok st' ∧ AInv H n1 n2 p a (k + 1) st' := by
  obtain ⟨m, mr, v, pm, sing⟩ := st
  obtain ⟨h3, hvl, ⟨wm, hm, hm'⟩, ⟨w, hmr, hsing, hzero, hfac⟩⟩ := hst
  simp only at h3 hvl hm hm' hmr hsing hzero hfac
  have hk1 : k < n1 := by omega
  have hk2 : k < n2 := by omega
  have hid : ∀ i, i < p → (identity p)[i]? = some i := fun i hi => by simp [identity, hi]
  have hlen : pm.length = p := by rw [h3.length]; simp [identity]
  have hpk : pm[k]? = some k := by rw [h3.later k le_rfl, hid k (by omega)]
  set P := permTo (pmFn pm) k with hP
  -- the triangular solve
  have hA : (blockSeq V mr 0 0 k k).Presents k k (fun i j => w (i, j)) := blockSeq_presents fun i j hi hj => by
    rw [Nat.zero_add, Nat.zero_add]; exact hV.get mr w hmr (i, j) ⟨by show i < n1; omega, by show j < n2; omega⟩
  have hb : (colSeq V m 0 k k).Presents k (fun r => wm (r, k)) := colSeq_presents fun r hr => by
    rw [Nat.zero_add]; exact hV.get m wm hm (r, k) ⟨by show r < n1; omega, hk2⟩
  obtain ⟨⟨ul, u, eu, hul, hu⟩, _⟩ := Solve.C37_solve hA dbg false true .indexing junk o (fun h => by simp at h) _ _ hb
  have hu' : ∀ r, r < k → ∑ l ∈ range k, lower w r l * u l = a (P r) k := fun r hr => by
    rw [← hm' r k (by omega) le_rfl hk2, ← hu r hr]
    exact sum_congr rfl fun l _ => by rw [tri_lower]
  obtain ⟨mr1, e1, hmr1⟩ := assignColumn_ok hV (lo := 0) (n := k) (c := k) (by omega) hk2 (t := fun k => rd dbg ul k) (f := u) (fun r hr => rd_eq_ok.2 (hul.2 r hr)) hmr
  set w1 : Nat × Nat → R := fun p => if 0 ≤ p.1 ∧ p.1 < 0 + k ∧ p.2 = k then u (p.1 - 0) else w p with hw1
  -- v
  have hB : (blockSeq V mr1 k 0 (n1 - k) k).Presents (n1 - k) k (fun i j => w (k + i, j)) := blockSeq_presents fun i j hi hj => by
    rw [Nat.zero_add, hV.get mr1 _ hmr1 (k + i, j) ⟨by show k + i < n1; omega, by show j < n2; omega⟩]
    simp only [hw1]
    rw [if_neg (by omega)]
  have hx : (colSeq V mr1 0 k k).Presents k u := colSeq_presents fun r hr => by
    rw [Nat.zero_add, hV.get mr1 _ hmr1 (r, k) ⟨by show r < n1; omega, hk2⟩]
    show Except.ok (if 0 ≤ r ∧ r < 0 + k ∧ k = k then u (r - 0) else w (r, k)) = _
    rw [if_pos ⟨by omega, by omega, rfl⟩]; rfl
  have hrep := view_id_rep ((List.range (n1 - k)).map junk)
  simp only [List.length_map, List.length_range] at hrep
  obtain ⟨t, wt, St, e2, ⟨_, _, _, ht4, _⟩, ht⟩ := Axpy.C33_matrix_vector dbg .indexing (view_supports dbg (n1 - k) id ((List.range (n1 - k)).map junk) (fun i j _ _ h => h)).1 (by simp)
    (Axpy.view_readsAll dbg (n1 - k) id _) o _ (n1 - k) k _ hB (List.range (o.sizeM (n1 - k) k)) (by cases o <;> exact Axpy.Outer.all _ _ _ _) _ u hx true _ _ _ hrep
  set vv : Nat → R := fun r => a (P r) k - ∑ l ∈ range k, w (r, l) * u l with hvv
  obtain ⟨v1, e3, hv1l, hv1⟩ := assignRange_ok dbg (lo := k) (n := n1 - k) (t := fun l => (do
      let x ← V.get m (k + l, k)
      let y ← rd dbg t l
      .ok (x - y) : M R)) (f := fun l => vv (k + l)) (fun l hl => by
    have g1 := hV.get m wm hm (k + l, k) ⟨by show k + l < n1; omega, hk2⟩
    have g2 : rd dbg t l = .ok (wt l) := rd_eq_ok.2 (ht4 l hl)
    simp only [g1, g2, bind_ok, ht l hl, if_true, zero_add, hvv]
    rw [hm' (k + l) k (by omega) le_rfl hk2]) (v := v) (by omega)
  have hv1' : ∀ r, k ≤ r → r < n1 → v1[r]? = some (vv r) := fun r h h' => by
    have := hv1 (r - k) (by omega)
    rwa [show k + (r - k) = r by omega] at this
  have hseq : (⟨n1 - k, .dense, (List.range (n1 - k)).map fun l => (l, v1.getD (k + l) 0), fun l => rd dbg v1 (k + l)⟩ : Seq R).Presents (n1 - k) (fun l => vv (k + l)) :=
    seq_presents rfl (List.map_congr_left fun l hl => by
      rw [List.getD_eq_getElem?_getD, hv1' (k + l) (by omega) (by have := List.mem_range.1 hl; omega)]; rfl) fun l hl => rd_eq_ok.2 (hv1' (k + l) (by omega) (by omega))
  obtain ⟨q, eq, hq⟩ := Norms.C46_index_norm_inf ((habs 0).2 rfl) hpos .indexing hseq
  obtain ⟨hq1, hq2, _⟩ : q < n1 - k ∧ (∀ i, i < n1 - k → abs (vv (k + i)) ≤ abs (vv (k + q))) ∧ ∀ i, i < q → abs (vv (k + i)) < abs (vv (k + q)) := by
    rcases hq with hq | hq
    · omega
    · exact hq
  have hdq : rd dbg v1 (k + q) = .ok (vv (k + q)) := rd_eq_ok.2 (hv1' _ (by omega) (by omega))
  simp only [axpyStep, eu, bind_ok, e1, e2, e3, eq, check_true (show k + q < n1 by omega), hdq]
  by_cases hd : vv (k + q) ≠ 0
  · rw [if_pos hd]
    -- exchange in `v` and `m`
    obtain ⟨m1, v2, pm1, e4, hm1, hv2l, hv2, h6, h7⟩ : ∃ m1 v2 pm1, (if k + q ≠ k then (do
          let pm ← wr dbg pm k (k + q)
          let v ← swapCells (⟨fun l p => rd dbg l p, fun l p x => wr dbg l p x⟩ : Acc (List R) Nat R) (k + q) k v1
          let m ← swapRow V (k + q) k (k + 1) n2 m
          .ok ⟨m, mr1, v, pm, sing⟩)
        else if dbg = true then (do
          let p ← rd dbg pm k
          check dbg (p = k + q) .externalLogic
          .ok ⟨m, mr1, v1, pm, sing⟩)
        else .ok ⟨m, mr1, v1, pm, sing⟩ : M (AState σ R)) = .ok ⟨m1, mr1, v2, pm1, sing⟩ ∧
        (∃ wm1, H m1 wm1 ∧ ∀ r c, r < n1 → k + 1 ≤ c → c < n2 → wm1 (r, c) = a ((P * Equiv.swap k (k + q)) r) c) ∧
        v2.length = n1 ∧ (∀ r, k ≤ r → r < n1 → v2[r]? = some (vv (Equiv.swap k (k + q) r))) ∧
        PmInv n1 (identity p) pm1 (k + 1) ∧ permTo (pmFn pm1) (k + 1) = P * Equiv.swap k (k + q) := by
      by_cases hq0 : q = 0
      · subst hq0
        refine ⟨m, v1, pm, ?_, ⟨wm, hm, fun r c hr hc hc2 => ?_⟩, by omega, fun r hr hr' => ?_, ?_, ?_⟩
        · rw [if_neg (by simp)]
          cases dbg with
          | true => simp only [if_true, rd_eq_ok.2 hpk, bind_ok, check_true (show k = k + 0 from rfl)]
          | false => rfl
        · rw [hm' r c hr (by omega) hc2, Nat.add_zero, Equiv.swap_self]; rfl
        · rw [hv1' r hr hr', Nat.add_zero, Equiv.swap_self]; rfl
        · refine ⟨h3.length, fun i hi => h3.later i (by omega), fun i hi => ?_⟩
          rcases Nat.lt_or_ge i k with hik | hik
          · exact h3.done i hik
          · rw [show i = k by omega, pmFn, List.getD_eq_getElem?_getD, hpk]; simp; omega
        · rw [permTo, hP]
          congr 1
          rw [pmFn, List.getD_eq_getElem?_getD, hpk]; rfl
      · obtain ⟨m1, em, hm1⟩ := swapRow_ok hV (p := k + q) (q := k) (lo := k + 1) (hi := n2) (by omega) hk1 le_rfl hm
        obtain ⟨v2, ev, hv2⟩ := swapCells_ok (list_lawful (R := R) dbg n1) (p := k + q) (q := k) (by omega) hk1 (s := v1) (w := fun i => v1.getD i 0)
          ⟨by omega, fun i hi => by
            show v1[i]? = some (v1.getD i 0)
            rw [List.getD_eq_getElem?_getD, List.getElem?_eq_getElem (by omega)]; rfl⟩
        have hwr : wr dbg pm k (k + q) = .ok (pm.set k (k + q)) := wr_ok (by omega)
        refine ⟨m1, v2, pm.set k (k + q), ?_, ⟨_, hm1, fun r c hr hc hc2 => ?_⟩, hv2.1, fun r hr hr' => ?_, ?_, ?_⟩
        · rw [if_pos (by omega)]; simp only [hwr, em, ev, bind_ok]
        · have hsw : Equiv.swap k (k + q) r < n1 := by rw [Equiv.swap_apply_def]; split <;> [omega; split <;> omega]
          simp only
          rw [if_pos ⟨hc, hc2⟩, Equiv.swap_comm, hm' _ c hsw (by omega) hc2]; rfl
        · have hsw : k ≤ Equiv.swap k (k + q) r ∧ Equiv.swap k (k + q) r < n1 := by rw [Equiv.swap_apply_def]; split <;> [omega; split <;> omega]
          rw [hv2.2 r hr', Equiv.swap_comm]
          show some (v1.getD (Equiv.swap k (k + q) r) 0) = _
          rw [List.getD_eq_getElem?_getD, hv1' _ hsw.1 hsw.2]; rfl
        · refine ⟨by rw [List.length_set]; exact h3.length, fun i hi => ?_, fun i hi => ?_⟩
          · rw [List.getElem?_set_ne (by omega)]; exact h3.later i (by omega)
          · rcases Nat.lt_or_ge i k with hik | hik
            · have := h3.done i hik
              simpa only [pmFn, List.getD_eq_getElem?_getD, List.getElem?_set_ne (show k ≠ i by omega)] using this
            · rw [show i = k by omega, pmFn, List.getD_eq_getElem?_getD, List.getElem?_set_self (by omega)]
              simp only [Option.getD_some]; omega
        · rw [permTo, hP]
          congr 1
          · refine permTo_congr fun i hi => ?_
            simp only [pmFn, List.getD_eq_getElem?_getD, List.getElem?_set_ne (show k ≠ i by omega)]
          · rw [pmFn, List.getD_eq_getElem?_getD, List.getElem?_set_self (by omega)]; rfl
    have hvk : rd dbg v2 k = .ok (vv (k + q)) := by rw [rd_eq_ok.2 (hv2 k le_rfl hk1), Equiv.swap_apply_left]
    -- the column of L
    obtain ⟨mr2, e5, hmr2⟩ := assignColumn_ok hV (lo := k + 1) (n := n1 - (k + 1)) (c := k) (by omega) hk2 (t := fun l => (do
        let x ← rd dbg v2 (k + 1 + l)
        let d ← rd dbg v2 k
        Solve.quot x d : M R)) (f := fun l => vv (Equiv.swap k (k + q) (k + 1 + l)) / vv (k + q)) (fun l hl => by
      simp only [rd_eq_ok.2 (hv2 (k + 1 + l) (by omega) (by omega)), hvk, bind_ok, Solve.quot, if_neg hd]) hmr1
    -- the exchange in `mr`
    obtain ⟨mr3, w3, e6, hw3, hmr3⟩ : ∃ mr3 w3, (if k + q ≠ k then swapRow V (k + q) k 0 k mr2 else .ok mr2 : M σ) = .ok mr3 ∧
        w3 = (fun x => if 0 ≤ x.2 ∧ x.2 < k then (fun p : Nat × Nat => if k + 1 ≤ p.1 ∧ p.1 < k + 1 + (n1 - (k + 1)) ∧ p.2 = k then
          vv (Equiv.swap k (k + q) (k + 1 + (p.1 - (k + 1)))) / vv (k + q) else w1 p) (Equiv.swap (k + q) k x.1, x.2) else
          (fun p : Nat × Nat => if k + 1 ≤ p.1 ∧ p.1 < k + 1 + (n1 - (k + 1)) ∧ p.2 = k then vv (Equiv.swap k (k + q) (k + 1 + (p.1 - (k + 1)))) / vv (k + q) else w1 p) x) ∧ H mr3 w3 := by
      by_cases hq0 : q = 0
      · subst hq0
        refine ⟨mr2, _, by rw [if_neg (by simp)], rfl, ?_⟩
        convert hmr2 using 2 with x
        simp only [Nat.add_zero, Equiv.swap_self, Equiv.refl_apply, ite_self]
      · obtain ⟨mr3, e, h⟩ := swapRow_ok hV (p := k + q) (q := k) (lo := 0) (hi := k) (by omega) hk1 (by omega) hmr2
        exact ⟨mr3, _, by rw [if_pos (by omega), e], rfl, h⟩
    obtain ⟨mr4, e7, hmr4⟩ := hV.set mr3 w3 hmr3 (k, k) ⟨hk1, hk2⟩ (vv (k + q))
    refine ⟨⟨m1, mr4, v2, pm1, sing⟩, ?_, ⟨h6, hv2l, ?_, ?_⟩⟩
    · rw [e4]; simp only [bind_ok]; rw [e5]; simp only [bind_ok]; rw [e6]; simp only [bind_ok, hvk, e7]
    · simp only [h7]; exact hm1
    · -- the factored columns
      have hval : ∀ r c, r < n1 → (r, c) ≠ (k, k) → c < k → Function.update w3 (k, k) (vv (k + q)) (r, c) = w (Equiv.swap k (k + q) r, c) := fun r c hr hne hc => by
        rw [Function.update_of_ne hne]
        simp only [Nat.zero_le, hc, and_self, if_true, hw1, hw3, Equiv.swap_comm (k + q) k]
        split_ifs <;> first | omega | rfl
      refine ⟨_, hmr4, ?_, fun r c hr hc hc2 => ?_, ?_⟩
      · refine hsing.step_ok (by rw [Function.update_self]; exact hd) fun i hi => ?_
        rw [hval i i (by omega) (by simp; omega) hi, Equiv.swap_apply_of_ne_of_ne (by omega) (by omega)]
      · rw [Function.update_of_ne (by simp; omega)]
        simp only [hw1, hw3, and_true]
        split_ifs <;> first | omega | exact hzero r c hr (by omega) hc2
      · simp only [h7]
        refine axpy_algebra (w := w) (u := u) (v := vv) (p := k + q) hk1 (by omega) (by omega) hfac hu' (fun r _ _ => rfl) (fun r c hr hc => ?_) (fun r hr => ?_) ?_ (fun r hr hr' => ?_)
        · exact hval r c hr (by simp; omega) hc
        · rw [Function.update_of_ne (by simp; omega)]
          simp only [hw1, hw3, and_true]
          split_ifs <;> first | omega | rfl
        · rw [Function.update_self]
        · rw [Function.update_of_ne (by simp; omega)]
          simp only [hw3, and_true]
          split_ifs with g1 g2 g3 <;> first | omega | skip
          rw [show k + 1 + (r - (k + 1)) = r by omega]
          field_simp
  · have hd0 : vv (k + q) = 0 := not_not.1 hd
    have hz : ∀ r, k ≤ r → r < n1 → vv r = 0 := fun r hr hr' => by
      have := hq2 (r - k) (by omega)
      rw [show k + (r - k) = r by omega, hd0, (habs 0).2 rfl] at this
      exact (habs _).1 (le_antisymm this (hpos _))
    have hvk : rd dbg v1 k = .ok 0 := by rw [rd_eq_ok.2 (hv1' k le_rfl hk1), hz k le_rfl hk1]
    obtain ⟨mr4, e7, hmr4⟩ := hV.set mr1 _ hmr1 (k, k) ⟨hk1, hk2⟩ 0
    have hperm : permTo (pmFn pm) (k + 1) = P := by
      rw [permTo, pmFn, List.getD_eq_getElem?_getD, hpk, Option.getD_some, Equiv.swap_self]; rfl
    refine ⟨⟨m, mr4, v1, pm, if sing = 0 then k + 1 else sing⟩, ?_, ⟨?_, by simp only; omega, ?_, ?_⟩⟩
    · rw [if_neg hd]
      by_cases hs : sing = 0
      · simp only [if_pos hs, bind_ok, hvk, e7]
      · simp only [if_neg hs, bind_ok, hvk, e7]
    · refine ⟨h3.length, fun i hi => h3.later i (by omega), fun i hi => ?_⟩
      rcases Nat.lt_or_ge i k with hik | hik
      · exact h3.done i hik
      · simp only
        rw [show i = k by omega, pmFn, List.getD_eq_getElem?_getD, hpk]; simp; omega
    · exact ⟨wm, hm, fun r c hr hc hc2 => by simp only; rw [hperm]; exact hm' r c hr (by omega) hc2⟩
    · refine ⟨_, hmr4, ?_, fun r c hr hc hc2 => ?_, ?_⟩
      · refine hsing.step_zero (by rw [Function.update_self]) fun i hi => ?_
        rw [Function.update_of_ne (by simp; omega)]
        simp only [hw1]
        rw [if_neg (by omega)]
      · rw [Function.update_of_ne (by simp; omega)]
        simp only [hw1]
        rw [if_neg (by omega)]
        exact hzero r c hr (by omega) hc2
      · simp only [hperm]
        have hone : P = P * Equiv.swap k k := by rw [Equiv.swap_self]; rfl
        rw [hone]
        refine axpy_algebra (w := w) (u := u) (v := vv) (p := k) hk1 le_rfl hk1 hfac hu' (fun r _ _ => rfl) (fun r c hr hc => ?_) (fun r hr => ?_) ?_ (fun r hr hr' => ?_)
        · rw [Function.update_of_ne (by simp; omega)]
          simp only [hw1]
          rw [if_neg (by omega), Equiv.swap_self]; rfl
        · rw [Function.update_of_ne (by simp; omega)]
          simp only [hw1, and_true]
          split_ifs <;> first | omega | rfl
        · rw [Function.update_self, hz k le_rfl hk1]
        · rw [Equiv.swap_self, hz k le_rfl hk1, mul_zero]
          exact (hz r (by omega) hr').symm

include habs hpos in
theorem axpyFactorize_ok (dbg : Bool) (o : Orient) (junk : Nat → R) {s : σ} {w : Nat × Nat → R} (hs : H s w) {p : Nat} (hp : min n1 n2 ≤ p) :
    ∃ st w', axpyFactorize abs dbg o V junk n1 n2 s (identity p) = .ok st ∧ H st.m w' ∧ Singular (min n1 n2) w' st.singular ∧ PmInv n1 (identity p) st.pm (min n1 n2) ∧
      (∀ r c, r < n1 → min n1 n2 ≤ c → c < n2 → w' (r, c) = 0) ∧
      ∀ r c, r < n1 → c < min n1 n2 → w (permTo (pmFn st.pm) (min n1 n2) r, c) = ∑ l ∈ range (min n1 n2), lower w' r l * upper w' l c := by
  obtain ⟨mr, e1, hmr⟩ := assignAll_ok hV o (t := fun _ _ => .ok 0) (f := fun _ => 0) (fun _ _ _ _ => rfl) hs
  obtain ⟨st, e2, hst⟩ := loop_inv (f := axpyStep abs dbg o V junk n1 n2) (n := min n1 n2) (s := (⟨s, mr, (List.range n1).map junk, identity p, 0⟩ : AState σ R))
    (fun k st => AInv H n1 n2 p (fun i j => w (i, j)) k st)
    ⟨⟨rfl, fun _ _ => rfl, fun i hi => by omega⟩, by simp, ⟨w, hs, fun r c _ _ _ => rfl⟩, ⟨_, hmr, .inl ⟨rfl, fun i hi => by omega⟩, fun r c hr _ hc => if_pos ⟨hr, hc⟩, fun r c _ hc => by omega⟩⟩
    (fun k st hk hst => axpyStep_ok hV habs hpos dbg o junk hp hk hst)
  obtain ⟨h1, _, ⟨wm, hm, _⟩, ⟨wr, hmr', h2, h3, h4⟩⟩ := hst
  obtain ⟨m', e3, hm'⟩ := assignAll_ok hV o (t := fun r c => V.get st.mr (r, c)) (f := wr) (fun r c hr hc => hV.get st.mr wr hmr' (r, c) ⟨hr, hc⟩) hm
  obtain ⟨w', hm', hin⟩ : ∃ w', H m' w' ∧ ∀ r c, r < n1 → c < n2 → w' (r, c) = wr (r, c) := ⟨_, hm', fun r c hr hc => if_pos ⟨hr, hc⟩⟩
  refine ⟨⟨m', st.pm, st.singular⟩, w', by simp only [axpyFactorize, e1, bind_ok, e2, e3], hm', ?_, h1, fun r c hr hc hc2 => by rw [hin r c hr hc2]; exact h3 r c hr hc hc2, fun r c hr hc => ?_⟩
  · rcases h2 with ⟨a, b⟩ | ⟨a, b, c, d⟩
    · exact .inl ⟨a, fun i hi => by rw [hin i i (by omega) (by omega)]; exact b i hi⟩
    · refine .inr ⟨a, b, ?_, fun i hi => ?_⟩
      · show w' (st.singular - 1, st.singular - 1) = 0
        rw [hin _ _ (by omega) (by omega)]; exact c
      · have hi : i < st.singular - 1 := hi
        rw [hin i i (by omega) (by omega)]; exact d i hi
  · refine (h4 r c hr hc).trans (sum_congr rfl fun l hl => ?_)
    have hl := mem_range.1 hl
    unfold lower upper
    rw [hin r l hr (by omega), hin l c (by omega) (by omega)]

include habs hpos in
/-- **C40** for matrices with at least as many rows as columns: `axpy_lu_factorize (m, pm)` never faults and leaves `P A = L U`; its result tells the first zero pivot. -/
theorem C40_tall_partial (dbg : Bool) (o : Orient) (junk : Nat → R) (hn : n2 ≤ n1) {s : σ} {w : Nat × Nat → R} (hs : H s w) {p : Nat} (hp : n2 ≤ p) :
    ∃ st w', axpyFactorize abs dbg o V junk n1 n2 s (identity p) = .ok st ∧ H st.m w' ∧ Singular n2 w' st.singular ∧ st.pm.length = p ∧
      (∀ i, i < n2 → i ≤ pmFn st.pm i ∧ pmFn st.pm i < n1) ∧ (∀ i, n2 ≤ i → i < p → st.pm[i]? = some i) ∧
      Factors n1 n2 (fun i j => w (i, j)) (permTo (pmFn st.pm) n2) w' := by
  obtain ⟨st, w', e, h1, h2, h3, _, h4⟩ := axpyFactorize_ok hV habs hpos dbg o junk hs (p := p) (by omega)
  have hmin : min n1 n2 = n2 := by omega
  rw [hmin] at h2 h3 h4
  refine ⟨st, w', e, h1, h2, by rw [h3.length]; simp [identity], h3.done, fun i hi hip => by rw [h3.later i hi]; simp [identity, hip], fun r c hr hc => ?_⟩
  rw [hmin]
  exact (h4 r c hr hc).symm

include habs hpos in
/-- **C40** refuted for every matrix with more columns than rows that has a non-zero element to the right of the square part: those columns are overwritten with zeros. -/
theorem C40_wide_refuted (dbg : Bool) (o : Orient) (junk : Nat → R) {s : σ} {w : Nat × Nat → R} (hs : H s w) {p : Nat} (hp : n1 ≤ p) {r0 c0 : Nat} (hr0 : r0 < n1) (hc0 : n1 ≤ c0)
    (hc0' : c0 < n2) (hne : w (r0, c0) ≠ 0) :
    ∃ st w', axpyFactorize abs dbg o V junk n1 n2 s (identity p) = .ok st ∧ H st.m w' ∧ (∀ r c, r < n1 → n1 ≤ c → c < n2 → w' (r, c) = 0) ∧
      ¬ Factors n1 n2 (fun i j => w (i, j)) (permTo (pmFn st.pm) n1) w' := by
  obtain ⟨st, w', e, h1, _, h3, h4, _⟩ := axpyFactorize_ok hV habs hpos dbg o junk hs (p := p) (by omega)
  have hmin : min n1 n2 = n1 := by omega
  rw [hmin] at h3 h4
  refine ⟨st, w', e, h1, h4, fun hf => hne ?_⟩
  have hlt := permTo_lt (n := n1) (pm := pmFn st.pm) (k := n1) fun i hi _ => ⟨hi, (h3.done i hi).2⟩
  have hr : (permTo (pmFn st.pm) n1).symm r0 < n1 := by rw [← hlt, Equiv.apply_symm_apply]; exact hr0
  have := hf _ c0 hr hc0'
  rw [Equiv.apply_symm_apply] at this
  refine Eq.trans this.symm ?_
  rw [hmin]
  refine sum_eq_zero fun l hl => ?_
  have hl := mem_range.1 hl
  rw [upper, if_pos (by omega), h4 l c0 hl hc0 hc0', mul_zero]

end mat

/-! ## Concrete cases -/
example : axpyFactorize (fun x : ℚ => |x|) true .row (Dense.acc true .row) (fun _ => 77) 3 3 exM (identity 3) =
    .ok ⟨⟨3, 3, [4, 1, 3, 1/2, 9/2, 11/2, 0, 4/9, -13/9]⟩, [1, 2, 2], 0⟩ := by decide +kernel
example : axpyFactorize (fun x : ℚ => |x|) false .col (Dense.acc false .col) (fun _ => 77) 3 2 ⟨3, 2, [0, 4, 2, 2, 1, 5]⟩ (identity 3) =
    .ok ⟨⟨3, 2, [4, 1/2, 0, 1, 9/2, 4/9]⟩, [1, 2, 2], 0⟩ := by decide +kernel
/-- Wide: lu_factorize keeps the last column, axpy_lu_factorize zeroes it. -/
example : axpyFactorize (fun x : ℚ => |x|) true .row (Dense.acc true .row) (fun _ => 77) 2 3 ⟨2, 3, [2, 4, 6, 1, 3, 5]⟩ (identity 2) = .ok ⟨⟨2, 3, [2, 4, 0, 1/2, 1, 0]⟩, [0, 1], 0⟩ := by
  decide +kernel

end Ublas.LU
