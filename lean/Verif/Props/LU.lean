import Verif.Lemmas.LU
/-! # C38, C41: LU factorisation -/
namespace Ublas.LU
open Finset
variable {σ R K : Type} [Field R] [DecidableEq R]

/-! ## The invariant -/

/-- After `k` steps: the first `k` columns of L and rows of U are final, the rest is the Schur complement. -/
def Partly (n1 n2 : Nat) (a : Nat → Nat → R) (P : Equiv.Perm Nat) (k : Nat) (w : Nat × Nat → R) : Prop :=
  ∀ r c, r < n1 → c < n2 → a (P r) c = ∑ l ∈ range k, lower w r l * upper w l c + if k ≤ r ∧ k ≤ c then w (r, c) else 0

omit [DecidableEq R] in
theorem Partly.factors {n1 n2 : Nat} {a : Nat → Nat → R} {P : Equiv.Perm Nat} {w : Nat × Nat → R} (h : Partly n1 n2 a P (min n1 n2) w) : Factors n1 n2 a P w := by
  intro r c hr hc
  rw [h r c hr hc, if_neg (by omega), add_zero]

omit [DecidableEq R] in
/-- Exchanging rows `k` and `p ≥ k`. -/
theorem Partly.swap {n1 n2 : Nat} {a : Nat → Nat → R} {P : Equiv.Perm Nat} {k p : Nat} {w : Nat × Nat → R} (h : Partly n1 n2 a P k w) (hk : k < n1) (hkp : k ≤ p) (hp : p < n1) :
    Partly n1 n2 a (P * Equiv.swap k p) k (fun x => w (Equiv.swap k p x.1, x.2)) := by
  intro r c hr hc
  have hr' : Equiv.swap k p r < n1 := by rw [Equiv.swap_apply_def]; split <;> [omega; split <;> omega]
  rw [Equiv.Perm.mul_apply, h _ c hr' hc]
  congr 1
  · refine sum_congr rfl fun l hl => ?_
    have hl := mem_range.1 hl
    congr 1
    · unfold lower
      by_cases hrk : r = k ∨ r = p
      · have : k ≤ Equiv.swap k p r := by rw [Equiv.swap_apply_def]; split <;> [omega; split <;> omega]
        rw [if_pos (by omega), if_pos (by omega)]
      · have : Equiv.swap k p r = r := Equiv.swap_apply_of_ne_of_ne (fun h => hrk (.inl h)) (fun h => hrk (.inr h))
        simp only [this]
    · unfold upper
      show _ = if l ≤ c then w (Equiv.swap k p l, c) else 0
      rw [Equiv.swap_apply_of_ne_of_ne (a := k) (b := p) (x := l) (by omega) (by omega)]
  · have : k ≤ Equiv.swap k p r ↔ k ≤ r := by rw [Equiv.swap_apply_def]; split <;> [omega; split <;> omega]
    simp only [this]

omit [DecidableEq R] in
/-- One elimination step: column `k` becomes `y` below the diagonal, with `y_r * w_kk = w_rk`. -/
theorem Partly.step {n1 n2 : Nat} {a : Nat → Nat → R} {P : Equiv.Perm Nat} {k : Nat} {w w' : Nat × Nat → R} (h : Partly n1 n2 a P k w) (_hk1 : k < n1) (hk2 : k < n2)
    (hcol : ∀ r, k < r → r < n1 → w' (r, k) * w (k, k) = w (r, k))
    (hrest : ∀ r c, k < r → r < n1 → k < c → c < n2 → w' (r, c) = w (r, c) - w' (r, k) * w (k, c))
    (hkeep : ∀ r c, (r ≤ k ∨ c < k) → w' (r, c) = w (r, c)) : Partly n1 n2 a P (k + 1) w' := by
  intro r c hr hc
  rw [h r c hr hc, sum_range_succ, add_assoc]
  congr 1
  · refine sum_congr rfl fun l hl => ?_
    have hl := mem_range.1 hl
    unfold lower upper
    rw [hkeep r l (.inr hl), hkeep l c (.inl (by omega))]
  · unfold lower upper
    by_cases hrk : k ≤ r
    · by_cases hck : k ≤ c
      · rw [if_pos ⟨hrk, hck⟩, if_pos hck]
        rcases Nat.lt_or_ge k r with h1 | h1
        · rw [if_pos h1]
          rcases Nat.lt_or_ge k c with h2 | h2
          · rw [if_pos (by omega), hkeep k c (.inl (by omega)), hrest r c h1 hr h2 hc]; ring
          · have : c = k := by omega
            subst this
            rw [if_neg (by omega), hkeep c c (.inl (by omega)), hcol r h1 hr, add_zero]
        · have : r = k := by omega
          subst this
          rw [if_neg (by omega), if_pos rfl, if_neg (by omega), hkeep r c (.inl (by omega)), one_mul, add_zero]
      · have c1 : ¬ (k ≤ r ∧ k ≤ c) := by omega
        have c2 : ¬ (k + 1 ≤ r ∧ k + 1 ≤ c) := by omega
        rw [if_neg c1, if_neg hck, if_neg c2]; simp
    · have c1 : ¬ (k ≤ r ∧ k ≤ c) := by omega
      have c2 : ¬ (k + 1 ≤ r ∧ k + 1 ≤ c) := by omega
      rw [if_neg c1, if_neg c2, if_neg (show ¬ k < r by omega), if_neg (show ¬ k = r by omega)]; simp

/-! ## Without pivoting -/

omit [DecidableEq R] in
theorem Singular.step_ok {k : Nat} {w w' : Nat × Nat → R} {v : Nat} (h : Singular k w v) (hd : w' (k, k) ≠ 0) (hkeep : ∀ i, i < k → w' (i, i) = w (i, i)) : Singular (k + 1) w' v := by
  rcases h with ⟨h1, h2⟩ | ⟨h1, h2, h3, h4⟩
  · refine .inl ⟨h1, fun i hi => ?_⟩
    rcases Nat.lt_or_ge i k with hik | hik
    · rw [hkeep i hik]; exact h2 i hik
    · rw [show i = k by omega]; exact hd
  · exact .inr ⟨h1, by omega, by rw [hkeep _ (by omega)]; exact h3, fun i hi => by rw [hkeep i (by omega)]; exact h4 i hi⟩

omit [DecidableEq R] in
theorem Singular.step_zero {k : Nat} {w w' : Nat × Nat → R} {v : Nat} (h : Singular k w v) (hd : w' (k, k) = 0) (hkeep : ∀ i, i < k → w' (i, i) = w (i, i)) :
    Singular (k + 1) w' (if v = 0 then k + 1 else v) := by
  rcases h with ⟨h1, h2⟩ | ⟨h1, h2, h3, h4⟩
  · rw [if_pos h1]
    exact .inr ⟨by omega, le_rfl, hd, fun i hi => by rw [hkeep i (by omega)]; exact h2 i (by omega)⟩
  · rw [if_neg (by omega)]
    exact .inr ⟨h1, by omega, by rw [hkeep _ (by omega)]; exact h3, fun i hi => by rw [hkeep i (by omega)]; exact h4 i hi⟩

section mat
variable {V : Acc σ (Nat × Nat) R} {n1 n2 : Nat} {H : σ → (Nat × Nat → R) → Prop} (hV : V.Lawful (fun p => p.1 < n1 ∧ p.2 < n2) H)
include hV

/-- **C38**, `lu_factorize (m)`: never faults; when it returns 0, `A = L U`; the returned value tells the first zero pivot. -/
theorem C38_no_pivoting (o : Orient) {s : σ} {w : Nat × Nat → R} (hs : H s w) :
    ∃ s' v w', factorize o V n1 n2 s = .ok (s', v) ∧ H s' w' ∧ Singular (min n1 n2) w' v ∧ (v = 0 → Factors n1 n2 (fun i j => w (i, j)) 1 w') := by
  obtain ⟨st, e, w', h1, h2, h3⟩ := loop_inv (f := luStep o V n1 n2) (n := min n1 n2) (s := (s, 0))
    (fun k st => ∃ w', H st.1 w' ∧ Singular k w' st.2 ∧ (st.2 = 0 → Partly n1 n2 (fun i j => w (i, j)) 1 k w'))
    ⟨w, hs, .inl ⟨rfl, fun i hi => by omega⟩, fun _ r c _ _ => by simp⟩ (by
      rintro k ⟨t, v⟩ hk ⟨w1, h1, h2, h3⟩
      have hk1 : k < n1 := by omega
      have hk2 : k < n2 := by omega
      simp only at h1 h2 h3
      simp only [luStep, hV.get t w1 h1 (k, k) ⟨hk1, hk2⟩, bind_ok]
      by_cases hd : w1 (k, k) ≠ 0
      · obtain ⟨t1, e1, h4⟩ := scaleColumn_ok hV hk1 hk2 (1 / w1 (k, k)) h1
        obtain ⟨t2, e2, h5⟩ := eliminate_ok hV o hk1 hk2 h4
        refine ⟨(t2, v), by rw [if_pos hd, e1]; simp only [bind_ok, e2], _, h5, ?_, fun hv => ?_⟩
        · refine h2.step_ok ?_ fun i hi => ?_
          · simp only
            split_ifs <;> first | omega | exact hd
          · simp only
            split_ifs <;> first | omega | rfl
        · refine (h3 hv).step hk1 hk2 (fun r hr1 hr2 => ?_) (fun r c hr1 hr2 hc1 hc2 => ?_) (fun r c hrc => ?_)
          · simp only
            simp only [hr1, hr2, true_and, and_true, if_true]
            split_ifs <;> first | omega | (field_simp)
          · simp only
            split_ifs <;> first | omega | rfl
          · simp only
            split_ifs <;> first | omega | rfl
      · have hd0 : w1 (k, k) = 0 := not_not.1 hd
        obtain ⟨t2, e2, h5⟩ := eliminate_ok hV o hk1 hk2 h1
        refine ⟨(t2, if v = 0 then k + 1 else v), ?_, _, h5, ?_, fun hv => ?_⟩
        · rw [if_neg hd]
          by_cases hv : v = 0
          · simp only [if_pos hv, bind_ok, e2]
          · simp only [if_neg hv, bind_ok, e2]
        · refine h2.step_zero ?_ fun i hi => ?_
          · simp only
            split_ifs <;> first | omega | exact hd0
          · simp only
            split_ifs <;> first | omega | rfl
        · simp only at hv
          split at hv <;> omega)
  exact ⟨st.1, st.2, w', e, h1, h2, fun hv => (h3 hv).factors⟩

/-! ## With partial pivoting -/

omit [DecidableEq R] hV in
theorem colSeq_presents {V : Acc σ (Nat × Nat) R} {s : σ} {lo n c : Nat} {v : Nat → R} (h : ∀ k, k < n → V.get s (lo + k, c) = .ok (v k)) : (colSeq V s lo n c).Presents n v := by
  have e : (colSeq V s lo n c).els = (List.range n).map fun k => (k, v k) := by
    simp only [colSeq]
    exact List.map_congr_left fun k hk => by rw [h k (List.mem_range.1 hk)]; rfl
  have e1 : (colSeq V s lo n c).els.map (·.1) = List.range n := by rw [e, List.map_map]; simp [Function.comp_def]
  refine { size := rfl, at_ := h, vals := fun p hp => ?_, sorted := ?_, skipped := fun i hi hn => ?_, packed := fun _ => ⟨0, ?_⟩, dense := fun _ => e1 }
  · rw [e] at hp
    obtain ⟨k, hk, rfl⟩ := List.mem_map.1 hp
    exact ⟨List.mem_range.1 hk, rfl⟩
  · rw [e1]; exact List.pairwise_lt_range
  · rw [e1] at hn; exact absurd (List.mem_range.2 hi) hn
  · rw [e1, List.range_eq_range']; simp [colSeq]

variable [Field K] [LinearOrder K] [IsStrictOrderedRing K] {abs : R → K} (habs : ∀ x, abs x = 0 ↔ x = 0) (hpos : ∀ x, 0 ≤ abs x)

/-- The transpositions recorded so far. -/
def pmFn (pm : List Nat) (i : Nat) : Nat := pm.getD i i

omit [Field R] [DecidableEq R] hV [Field K] [LinearOrder K] [IsStrictOrderedRing K] in
theorem permTo_congr {f g : Nat → Nat} : ∀ {k : Nat}, (∀ i, i < k → f i = g i) → permTo f k = permTo g k
  | 0, _ => rfl
  | k + 1, h => by rw [permTo, permTo, permTo_congr fun i hi => h i (by omega), h k (by omega)]

/-- What is known of `pm` after `k` steps: it keeps its length, later entries are untouched, earlier ones point downwards. -/
structure PmInv (n1 : Nat) (pm0 pm : List Nat) (k : Nat) : Prop where
  length : pm.length = pm0.length
  later : ∀ i, k ≤ i → pm[i]? = pm0[i]?
  done : ∀ i, i < k → i ≤ pmFn pm i ∧ pmFn pm i < n1

omit hV [DecidableEq R] in
theorem small_quot (hmul : ∀ x y, abs (x * y) = abs x * abs y) (habs : ∀ x, abs x = 0 ↔ x = 0) (hpos : ∀ x, 0 ≤ abs x) {x d : R} (hd : d ≠ 0) (h : abs x ≤ abs d) :
    abs (x * (1 / d)) ≤ 1 := by
  have h1 : abs (1 : R) = 1 := by
    have e := hmul 1 1
    rw [mul_one] at e
    have h0 : abs (1 : R) ≠ 0 := fun h => one_ne_zero ((habs 1).1 h)
    exact (mul_left_cancel₀ h0 (by rw [mul_one]; exact e)).symm
  have h2 : abs d * abs (1 / d) = 1 := by rw [← hmul, mul_one_div_cancel hd, h1]
  rw [hmul, ← h2]
  exact mul_le_mul_of_nonneg_right h (hpos _)

include habs hpos in
/-- **C38**, `lu_factorize (m, pm)` with `pm` initially the identity of at least min(size1, size2) elements: never faults, also on singular matrices; `P A = L U` for the permutation
recorded in `pm`; the returned value tells the first zero pivot.  `abs` is any function that vanishes exactly at zero; if it is
multiplicative, no multiplier exceeds one. -/
theorem C38_pivoting (dbg : Bool) (o : Orient) {s : σ} {w : Nat × Nat → R} (hs : H s w) {p : Nat} (hp : min n1 n2 ≤ p) :
    ∃ st w', factorizePivot abs dbg o V n1 n2 s (identity p) = .ok st ∧ H st.m w' ∧ Singular (min n1 n2) w' st.singular ∧ st.pm.length = p ∧
      (∀ i, i < min n1 n2 → i ≤ pmFn st.pm i ∧ pmFn st.pm i < n1) ∧ (∀ i, min n1 n2 ≤ i → i < p → st.pm[i]? = some i) ∧
      Factors n1 n2 (fun i j => w (i, j)) (permTo (pmFn st.pm) (min n1 n2)) w' ∧
      ((∀ x y, abs (x * y) = abs x * abs y) → ∀ r l, l < min n1 n2 → l < r → r < n1 → abs (w' (r, l)) ≤ 1) := by
  have hid : ∀ i, i < p → (identity p)[i]? = some i := fun i hi => by simp [identity, hi]
  obtain ⟨st, e, w', h1, h2, h3, h4, h10⟩ := loop_inv (f := luPivotStep abs dbg o V n1 n2) (n := min n1 n2) (s := (⟨s, identity p, 0⟩ : PState σ))
    (fun k st => ∃ w', H st.m w' ∧ Singular k w' st.singular ∧ PmInv n1 (identity p) st.pm k ∧ Partly n1 n2 (fun i j => w (i, j)) (permTo (pmFn st.pm) k) k w' ∧
      ((∀ x y, abs (x * y) = abs x * abs y) → ∀ r l, l < k → l < r → r < n1 → abs (w' (r, l)) ≤ 1))
    ⟨w, hs, .inl ⟨rfl, fun i hi => by omega⟩, ⟨rfl, fun _ _ => rfl, fun i hi => by omega⟩, fun r c _ _ => by simp [permTo], fun _ r l hl => by omega⟩ (by
      rintro k ⟨t, pm, v⟩ hk ⟨w1, h1, h2, h3, h4, h10⟩
      have hk1 : k < n1 := by omega
      have hk2 : k < n2 := by omega
      simp only at h1 h2 h3 h4 h10
      have hcol : (colSeq V t k (n1 - k) k).Presents (n1 - k) (fun l => w1 (k + l, k)) :=
        colSeq_presents fun l hl => hV.get t w1 h1 (k + l, k) ⟨by show k + l < n1; omega, hk2⟩
      obtain ⟨q, eq, hq⟩ := Norms.C46_index_norm_inf ((habs 0).2 rfl) hpos .indexing hcol
      obtain ⟨hq1, hq2, _⟩ : q < n1 - k ∧ (∀ i, i < n1 - k → abs (w1 (k + i, k)) ≤ abs (w1 (k + q, k))) ∧ ∀ i, i < q → abs (w1 (k + i, k)) < abs (w1 (k + q, k)) := by
        rcases hq with hq | hq
        · omega
        · exact hq
      have hlen : pm.length = p := by rw [h3.length]; simp [identity]
      have hpk : pm[k]? = some k := by rw [h3.later k le_rfl, hid k (by omega)]
      simp only [luPivotStep, eq, bind_ok, check_true (show k + q < n1 by omega), hV.get t w1 h1 (k + q, k) ⟨by show k + q < n1; omega, hk2⟩]
      by_cases hd : w1 (k + q, k) ≠ 0
      · rw [if_pos hd]
        -- the exchange
        obtain ⟨t1, pm1, e1, h5, h6, h7⟩ : ∃ t1 pm1, (if k + q ≠ k then (do
            let pm ← wr dbg pm k (k + q)
            let s ← swapRow V (k + q) k 0 n2 t
            .ok ⟨s, pm, v⟩)
          else if dbg = true then (do
            let p ← rd dbg pm k
            check dbg (p = k + q) .externalLogic
            .ok ⟨t, pm, v⟩)
          else .ok ⟨t, pm, v⟩ : M (PState σ)) = .ok ⟨t1, pm1, v⟩ ∧ H t1 (fun x => if x.2 < n2 then w1 (Equiv.swap k (k + q) x.1, x.2) else w1 x) ∧
            PmInv n1 (identity p) pm1 (k + 1) ∧ permTo (pmFn pm1) (k + 1) = permTo (pmFn pm) k * Equiv.swap k (k + q) := by
          by_cases hq0 : q = 0
          · subst hq0
            refine ⟨t, pm, ?_, ?_, ?_, ?_⟩
            · rw [if_neg (by simp)]
              cases dbg with
              | true => simp only [if_true, rd_eq_ok.2 hpk, bind_ok, check_true (show k = k + 0 from rfl)]
              | false => rfl
            · convert h1 using 2 with x
              simp
            · refine ⟨h3.length, fun i hi => h3.later i (by omega), fun i hi => ?_⟩
              rcases Nat.lt_or_ge i k with hik | hik
              · exact h3.done i hik
              · rw [show i = k by omega, pmFn, List.getD_eq_getElem?_getD, hpk]; simp; omega
            · rw [permTo]
              congr 1
              rw [pmFn, List.getD_eq_getElem?_getD, hpk]; rfl
          · obtain ⟨t1, e1, h5⟩ := swapRow_ok hV (p := k + q) (q := k) (lo := 0) (hi := n2) (by omega) hk1 le_rfl h1
            have hwr : wr dbg pm k (k + q) = .ok (pm.set k (k + q)) := wr_ok (by omega)
            refine ⟨t1, pm.set k (k + q), ?_, ?_, ?_, ?_⟩
            · rw [if_pos (by omega)]; simp only [hwr, e1, bind_ok]
            · convert h5 using 2 with x
              rw [Equiv.swap_comm]; simp
            · refine ⟨by rw [List.length_set]; exact h3.length, fun i hi => ?_, fun i hi => ?_⟩
              · rw [List.getElem?_set_ne (by omega)]; exact h3.later i (by omega)
              · rcases Nat.lt_or_ge i k with hik | hik
                · have := h3.done i hik
                  simpa only [pmFn, List.getD_eq_getElem?_getD, List.getElem?_set_ne (show k ≠ i by omega)] using this
                · rw [show i = k by omega, pmFn, List.getD_eq_getElem?_getD, List.getElem?_set_self (by omega)]
                  simp only [Option.getD_some]; omega
            · rw [permTo]
              congr 1
              · refine permTo_congr fun i hi => ?_
                simp only [pmFn, List.getD_eq_getElem?_getD, List.getElem?_set_ne (show k ≠ i by omega)]
              · rw [pmFn, List.getD_eq_getElem?_getD, List.getElem?_set_self (by omega)]; rfl
        have hP : Partly n1 n2 (fun i j => w (i, j)) (permTo (pmFn pm1) (k + 1)) k (fun x => if x.2 < n2 then w1 (Equiv.swap k (k + q) x.1, x.2) else w1 x) := by
          rw [h7]
          intro r c hr hc
          rw [h4.swap hk1 (by omega) (by omega) r c hr hc]
          congr 1
          · refine sum_congr rfl fun l hl => ?_
            have hl := mem_range.1 hl
            unfold lower upper
            simp only
            rw [if_pos (show l < n2 by omega), if_pos hc]
          · simp only
            rw [if_pos hc]
        have hdiag : V.get t1 (k, k) = .ok (w1 (k + q, k)) := by
          rw [hV.get t1 _ h5 (k, k) ⟨hk1, hk2⟩]
          simp only [if_pos hk2, Equiv.swap_apply_left]
        obtain ⟨t2, e2, h8⟩ := scaleColumn_ok hV hk1 hk2 (1 / w1 (k + q, k)) h5
        obtain ⟨t3, e3, h9⟩ := eliminate_ok hV o hk1 hk2 h8
        refine ⟨⟨t3, pm1, v⟩, by rw [e1]; simp only [bind_ok, hdiag, e2, e3], _, h9, ?_, h6, ?_, fun hmul r l hl hlr hr => ?_⟩
        · refine h2.step_ok ?_ fun i hi => ?_
          · simp only
            split_ifs <;> first | omega | (simpa using hd)
          · simp only
            split_ifs <;> first | omega | rw [Equiv.swap_apply_of_ne_of_ne (by omega) (by omega)]
        · refine hP.step hk1 hk2 (fun r hr1 hr2 => ?_) (fun r c hr1 hr2 hc1 hc2 => ?_) (fun r c hrc => ?_)
          · simp only
            simp only [hr1, hr2, true_and, and_true, if_true]
            split_ifs <;> first | omega | (simp only [Equiv.swap_apply_left]; field_simp)
          · simp only
            split_ifs <;> first | omega | rfl
          · simp only
            split_ifs <;> first | omega | rfl
        · have hsw : ∀ r, k ≤ r → r < n1 → k ≤ Equiv.swap k (k + q) r ∧ Equiv.swap k (k + q) r < n1 := fun r h1 h2 => by
            rw [Equiv.swap_apply_def]; split <;> [omega; split <;> omega]
          simp only
          rcases Nat.lt_or_ge l k with hlk | hlk
          · rw [if_neg (by omega), if_neg (by omega), if_pos (by omega)]
            rcases Nat.lt_or_ge r k with hrk | hrk
            · rw [Equiv.swap_apply_of_ne_of_ne (by omega) (by omega)]; exact h10 hmul r l hlk hlr hr
            · have := hsw r hrk hr
              exact h10 hmul _ l hlk (by omega) this.2
          · have : l = k := by omega
            subst this
            rw [if_neg (by omega), if_pos (by omega), if_pos hk2]
            have := hsw r (by omega) hr
            refine small_quot hmul habs hpos hd ?_
            have h11 := hq2 (Equiv.swap l (l + q) r - l) (by omega)
            rwa [show l + (Equiv.swap l (l + q) r - l) = Equiv.swap l (l + q) r by omega] at h11
      · have hd0 : w1 (k + q, k) = 0 := not_not.1 hd
        have hz : ∀ r, k ≤ r → r < n1 → w1 (r, k) = 0 := fun r hr hr' => by
          have := hq2 (r - k) (by omega)
          rw [show k + (r - k) = r by omega, hd0, (habs 0).2 rfl] at this
          exact (habs _).1 (le_antisymm this (hpos _))
        obtain ⟨t2, e2, h5⟩ := eliminate_ok hV o hk1 hk2 h1
        refine ⟨⟨t2, pm, if v = 0 then k + 1 else v⟩, ?_, _, h5, ?_, ?_, ?_, fun hmul r l hl hlr hr => ?_⟩
        · rw [if_neg hd]
          by_cases hv : v = 0
          · simp only [if_pos hv, bind_ok, e2]
          · simp only [if_neg hv, bind_ok, e2]
        · refine h2.step_zero ?_ fun i hi => ?_
          · simp only
            split_ifs <;> first | omega | exact hz k le_rfl hk1
          · simp only
            split_ifs <;> first | omega | rfl
        · refine ⟨h3.length, fun i hi => h3.later i (by omega), fun i hi => ?_⟩
          rcases Nat.lt_or_ge i k with hik | hik
          · exact h3.done i hik
          · rw [show i = k by omega, pmFn, List.getD_eq_getElem?_getD, hpk]; simp; omega
        · have hperm : permTo (pmFn pm) (k + 1) = permTo (pmFn pm) k := by
            rw [permTo, pmFn, List.getD_eq_getElem?_getD, hpk, Option.getD_some, Equiv.swap_self]; rfl
          rw [hperm]
          refine h4.step hk1 hk2 (fun r hr1 hr2 => ?_) (fun r c hr1 hr2 hc1 hc2 => ?_) (fun r c hrc => ?_)
          · rw [hz k le_rfl hk1, hz r (by omega) hr2, mul_zero]
          · simp only
            split_ifs <;> first | omega | rfl
          · simp only
            split_ifs <;> first | omega | rfl
        · simp only
          rw [if_neg (by omega)]
          rcases Nat.lt_or_ge l k with hlk | hlk
          · exact h10 hmul r l hlk hlr hr
          · rw [show l = k by omega, hz r (by omega) hr, (habs 0).2 rfl]; exact zero_le_one)
  refine ⟨st, w', e, h1, h2, by rw [h3.length]; simp [identity], h3.done, fun i hi hip => by rw [h3.later i hi, hid i hip], h4.factors, h10⟩

end mat
end Ublas.LU
