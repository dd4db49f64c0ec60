import Verif.Spec.Tensor
import Mathlib.Algebra.BigOperators.Group.List.Basic
import Mathlib.Tactic.Ring
namespace Ublas.Tens
variable {R : Type}

/-! ## Strides -/

/-- Prefix products. -/
def pref : Nat → List Nat → List Nat
  | _, [] => []
  | acc, n :: e => acc :: pref (acc * n) e

/-- Suffix products. -/
def suff : List Nat → List Nat
  | [] => []
  | _ :: e => count e :: suff e

theorem pref_length (acc : Nat) (e : List Nat) : (pref acc e).length = e.length := by
  induction e generalizing acc with
  | nil => rfl
  | cons n e ih => simp [pref, ih]

theorem suff_length (e : List Nat) : (suff e).length = e.length := by
  induction e with
  | nil => rfl
  | cons n e ih => simp [suff, ih]

theorem pref_succ {acc : Nat} {e : List Nat} {k : Nat} (h : k + 1 < e.length) : ∃ x y, e[k]? = some x ∧ (pref acc e)[k]? = some y ∧ (pref acc e)[k + 1]? = some (x * y) := by
  induction e generalizing acc k with
  | nil => simp at h
  | cons n e ih =>
    cases k with
    | zero =>
      cases e with
      | nil => simp at h
      | cons m e => exact ⟨n, acc, rfl, rfl, by simp [pref, Nat.mul_comm]⟩
    | succ k =>
      obtain ⟨x, y, h1, h2, h3⟩ := ih (acc := acc * n) (k := k) (by simpa using h)
      exact ⟨x, y, by simpa using h1, by simpa [pref] using h2, by simpa [pref] using h3⟩

theorem cumulate_ok (e : List Nat) : cumulate e (List.replicate e.length 1) = .ok (pref 1 e) := by
  rcases e with _ | ⟨n, e⟩
  · rfl
  obtain ⟨s, h, hl, hs⟩ := loop_inv (f := fun k s => (do
      let x ← rd false (n :: e) k
      let y ← rd false s k
      wr false s (k + 1) (x * y) : M (List Nat))) (n := (n :: e).length - 1) (s := List.replicate (n :: e).length 1)
    (fun k s => s.length = (n :: e).length ∧ ∀ j, j ≤ k → s[j]? = (pref 1 (n :: e))[j]?)
    ⟨by simp, fun j hj => by have : j = 0 := by omega
                             subst this; simp [pref]⟩
    (by
      rintro k s hk ⟨hl, hs⟩
      obtain ⟨x, y, h1, h2, h3⟩ := pref_succ (acc := 1) (e := n :: e) (k := k) (by omega)
      refine ⟨s.set (k + 1) (x * y), ?_, by rw [List.length_set, hl], fun j hj => ?_⟩
      · simp only [rd_eq_ok.2 h1, rd_eq_ok.2 ((hs k le_rfl).trans h2), bind_ok]
        exact wr_ok (by omega)
      · rcases Nat.lt_or_ge j (k + 1) with h | h
        · rw [List.getElem?_set_ne (by omega)]; exact hs j (by omega)
        · rw [show j = k + 1 by omega, List.getElem?_set_self (by omega), h3])
  unfold cumulate
  rw [h]
  congr 1
  refine List.ext_getElem? fun j => ?_
  rcases Nat.lt_or_ge j (n :: e).length with hj | hj
  · exact hs j (by omega)
  · rw [List.getElem?_eq_none (by omega), List.getElem?_eq_none (by rw [pref_length]; omega)]

theorem pref_append (acc : Nat) (l : List Nat) (n : Nat) : pref acc (l ++ [n]) = pref acc l ++ [acc * l.prod] := by
  induction l generalizing acc with
  | nil => simp [pref]
  | cons m l ih => simp [pref, ih, Nat.mul_assoc]

theorem pref_reverse (e : List Nat) : (pref 1 e.reverse).reverse = suff e := by
  induction e with
  | nil => rfl
  | cons n e ih => rw [List.reverse_cons, pref_append, List.reverse_append, ih]; simp [suff, count]

theorem dotW_take_succ {w i : List Nat} {k x y : Nat} (hi : i[k]? = some x) (hw : w[k]? = some y) : dotW (w.take (k + 1)) (i.take (k + 1)) = dotW (w.take k) (i.take k) + x * y := by
  induction k generalizing w i with
  | zero =>
    rcases w with _ | ⟨a, w⟩
    · simp at hw
    rcases i with _ | ⟨b, i⟩
    · simp at hi
    simp at hi hw
    simp [dotW, hi, hw]
  | succ k ih =>
    rcases w with _ | ⟨a, w⟩
    · simp at hw
    rcases i with _ | ⟨b, i⟩
    · simp at hi
    simp only [List.getElem?_cons_succ] at hi hw
    rw [List.take_succ_cons, List.take_succ_cons, List.take_succ_cons, List.take_succ_cons, dotW, dotW, ih hi hw]; ring

theorem toIndex_ok {w i : List Nat} (h : i.length ≤ w.length) : toIndex w i = .ok (dotW w i) := by
  obtain ⟨t, ht, h2⟩ := loop_inv (f := fun k acc => (do
      let x ← rd false i k
      let y ← rd false w k
      .ok (acc + x * y) : M Nat)) (n := i.length) (s := 0) (fun k acc => acc = dotW (w.take k) (i.take k)) (by simp [dotW])
    (by
      rintro k acc hk rfl
      have h1 : i[k]? = some i[k] := List.getElem?_eq_getElem hk
      have h2 : w[k]? = some w[k] := List.getElem?_eq_getElem (by omega)
      exact ⟨_, by simp only [rd_eq_ok.2 h1, rd_eq_ok.2 h2, bind_ok], (dotW_take_succ h1 h2).symm⟩)
  unfold toIndex
  rw [ht, h2, List.take_length]
  congr 1
  clear ht h2 t
  induction i generalizing w with
  | nil => cases w <;> rfl
  | cons a i ih =>
    rcases w with _ | ⟨b, w⟩
    · simp at h
    rw [List.length_cons, List.take_succ_cons, dotW, dotW, ih (by simpa using h)]

theorem dotW_pref (acc : Nat) {e i : List Nat} : dotW (pref acc e) i = acc * firstPos e i := by
  induction e generalizing acc i with
  | nil => simp [pref, dotW, firstPos]
  | cons n e ih =>
    rcases i with _ | ⟨k, i⟩
    · simp [pref, dotW, firstPos]
    · rw [pref, dotW, ih, firstPos]; ring

theorem dotW_suff {e i : List Nat} : dotW (suff e) i = lastPos e i := by
  induction e generalizing i with
  | nil => simp [suff, dotW, lastPos]
  | cons n e ih =>
    rcases i with _ | ⟨k, i⟩
    · simp [suff, dotW, lastPos]
    · rw [suff, dotW, ih, lastPos]

theorem Valid.length {e i : List Nat} (h : Valid e i) : i.length = e.length := List.Forall₂.length_eq h

theorem ones_zero {e i : List Nat} (h : Valid e i) (he : ∀ n ∈ e, n = 1) (w : List Nat) : dotW w i = 0 ∧ firstPos e i = 0 ∧ lastPos e i = 0 := by
  induction h generalizing w with
  | nil => exact ⟨by cases w <;> rfl, rfl, rfl⟩
  | cons hk _ ih =>
    rename_i k n i e _
    have hn : n = 1 := he n (by simp)
    obtain ⟨h1, h2, h3⟩ := ih (fun m hm => he m (by simp [hm])) []
    refine ⟨?_, by simp only [firstPos, h2]; omega, ?_⟩
    · rcases w with _ | ⟨a, w⟩
      · rfl
      · rw [dotW, (ih (fun m hm => he m (by simp [hm])) w).1, show k = 0 by omega]; simp
    · simp only [lastPos, h3]; rw [show k = 0 by omega]; simp

theorem ones_vector {e : List Nat} (h : isVector e = true) {i : List Nat} (hi : Valid e i) (L : Layout) : dotW (List.replicate e.length 1) i = pos L e i := by
  rcases e with _ | ⟨a, _ | ⟨b, t⟩⟩
  · simp [isVector] at h
  · rcases hi with _ | ⟨hk, ⟨⟩⟩
    cases L <;> simp [pos, firstPos, lastPos, dotW, count]
  · rcases hi with _ | ⟨hk, _ | ⟨hl, ht⟩⟩
    rename_i k l t'
    simp only [isVector, Bool.and_eq_true, List.all_eq_true, beq_iff_eq, Bool.or_eq_true] at h
    have ht1 : ∀ n ∈ t, n = 1 := h.2
    have hc : count t = 1 := List.prod_eq_one ht1
    obtain ⟨z1, z2, z3⟩ := ones_zero ht ht1 (List.replicate t.length 1)
    have : dotW (List.replicate (a :: b :: t).length 1) (k :: l :: t') = k + l := by
      simp only [List.length_cons, List.replicate_succ, dotW, z1]; omega
    rw [this]
    cases L
    · simp only [pos, firstPos, z2]
      rcases h.1.2 with h | h
      · subst h; omega
      · have : l = 0 := by omega
        subst this; simp
    · have hb : count (b :: t) = b := by rw [count, List.prod_cons, ← count, hc, Nat.mul_one]
      simp only [pos, lastPos, z3, hc, hb]
      rcases h.1.2 with h | h
      · have : k = 0 := by omega
        subst this; omega
      · subst h; omega

/-- The strides of either layout lead to the prescribed position. -/
theorem toStrides_ok (L : Layout) (e : List Nat) : ∃ w, toStrides L e = .ok w ∧ w.length = e.length ∧ ∀ i, Valid e i → dotW w i = pos L e i := by
  unfold toStrides
  by_cases h : e = [] ∨ isVector e = true ∨ isScalar e = true
  · refine ⟨List.replicate e.length 1, by simp only; rw [if_pos h], by simp, fun i hi => ?_⟩
    rcases h with h | h | h
    · subst h; cases hi; cases L <;> rfl
    · exact ones_vector h hi L
    · have he : ∀ n ∈ e, n = 1 := by
        simp only [isScalar, Bool.and_eq_true, List.all_eq_true, beq_iff_eq] at h
        exact h.2
      obtain ⟨z1, z2, z3⟩ := ones_zero hi he (List.replicate e.length 1)
      rw [z1]; cases L
      · exact z2.symm
      · exact z3.symm
  · simp only
    rw [if_neg h]
    cases L with
    | first => exact ⟨pref 1 e, cumulate_ok e, pref_length _ _, fun i _ => by rw [dotW_pref, Nat.one_mul]; rfl⟩
    | last =>
      have := cumulate_ok e.reverse
      rw [List.length_reverse] at this
      refine ⟨suff e, ?_, suff_length _, fun i _ => dotW_suff⟩
      simp only [List.reverse_replicate, this, bind_ok, pref_reverse]

/-! ## Positions -/

theorem firstPos_lt {e i : List Nat} (h : Valid e i) : firstPos e i < count e := by
  induction h with
  | nil => exact Nat.one_pos
  | cons hk _ ih =>
    rename_i k n i e _
    rw [firstPos, count, List.prod_cons, ← count]
    have := Nat.mul_le_mul_left n (Nat.succ_le_of_lt ih)
    rw [Nat.mul_succ] at this
    omega

theorem lastPos_lt {e i : List Nat} (h : Valid e i) : lastPos e i < count e := by
  induction h with
  | nil => exact Nat.one_pos
  | cons hk _ ih =>
    rename_i k n i e _
    rw [lastPos, show count (n :: e) = n * count e from List.prod_cons]
    have := Nat.mul_le_mul_right (count e) (Nat.succ_le_of_lt hk)
    rw [Nat.succ_mul] at this
    omega

theorem pos_lt {L : Layout} {e i : List Nat} (h : Valid e i) : pos L e i < count e := by
  cases L
  · exact firstPos_lt h
  · exact lastPos_lt h

theorem firstPos_inj {e i j : List Nat} (hi : Valid e i) (hj : Valid e j) (h : firstPos e i = firstPos e j) : i = j := by
  induction hi generalizing j with
  | nil => cases hj; rfl
  | cons hk _ ih =>
    rename_i k n i e _
    rcases hj with _ | ⟨hl, hj⟩
    rename_i l j
    simp only [firstPos] at h
    have h1 : k = l := by
      have := congrArg (· % n) h
      simpa [Nat.mod_eq_of_lt hk, Nat.mod_eq_of_lt hl] using this
    subst h1
    have h2 : firstPos e i = firstPos e j := Nat.eq_of_mul_eq_mul_left (show 0 < n by omega) (by omega)
    rw [ih hj h2]

theorem lastPos_inj {e i j : List Nat} (hi : Valid e i) (hj : Valid e j) (h : lastPos e i = lastPos e j) : i = j := by
  induction hi generalizing j with
  | nil => cases hj; rfl
  | cons hk hi' ih =>
    rename_i k n i e
    rcases hj with _ | ⟨hl, hj⟩
    rename_i l j
    simp only [lastPos] at h
    have b1 := lastPos_lt hi'
    have b2 := lastPos_lt hj
    have h1 : k = l := by
      have := congrArg (· / count e) h
      have hp : 0 < count e := by omega
      simpa [Nat.mul_comm _ (count e), Nat.mul_add_div hp, Nat.div_eq_of_lt b1, Nat.div_eq_of_lt b2] using this
    subst h1
    rw [ih hj (by omega)]

theorem pos_inj {L : Layout} {e i j : List Nat} (hi : Valid e i) (hj : Valid e j) (h : pos L e i = pos L e j) : i = j := by
  cases L
  · exact firstPos_inj hi hj h
  · exact lastPos_inj hi hj h

theorem firstPos_surj {e : List Nat} {k : Nat} (hk : k < count e) : ∃ i, Valid e i ∧ firstPos e i = k := by
  induction e generalizing k with
  | nil => exact ⟨[], .nil, by simp [count] at hk; simp [firstPos, hk]⟩
  | cons n e ih =>
    rw [count, List.prod_cons, ← count] at hk
    have hn : 0 < n := Nat.pos_of_ne_zero fun h => by subst h; simp at hk
    obtain ⟨i, hi, e1⟩ := ih (k := k / n) (Nat.div_lt_of_lt_mul hk)
    exact ⟨k % n :: i, .cons (Nat.mod_lt _ hn) hi, by rw [firstPos, e1]; exact Nat.mod_add_div k n⟩

theorem lastPos_surj {e : List Nat} {k : Nat} (hk : k < count e) : ∃ i, Valid e i ∧ lastPos e i = k := by
  induction e generalizing k with
  | nil => exact ⟨[], .nil, by simp [count] at hk; simp [lastPos, hk]⟩
  | cons n e ih =>
    rw [count, List.prod_cons, ← count] at hk
    have hc : 0 < count e := Nat.pos_of_ne_zero fun h => by rw [h] at hk; simp at hk
    obtain ⟨i, hi, e1⟩ := ih (k := k % count e) (Nat.mod_lt _ hc)
    refine ⟨k / count e :: i, .cons (Nat.div_lt_of_lt_mul (by rwa [Nat.mul_comm])) hi, ?_⟩
    rw [lastPos, e1]; exact Nat.div_add_mod' k (count e)

theorem pos_surj {L : Layout} {e : List Nat} {k : Nat} (hk : k < count e) : ∃ i, Valid e i ∧ pos L e i = k := by
  cases L
  · exact firstPos_surj hk
  · exact lastPos_surj hk

theorem count_pos {e : List Nat} (h : ∀ n ∈ e, 0 < n) : 0 < count e := by
  induction e with
  | nil => decide
  | cons n e ih => rw [count, List.prod_cons]; exact Nat.mul_pos (h n (by simp)) (ih fun k hk => h k (by simp [hk]))

theorem product_eq {e : List Nat} (h : e ≠ []) : product e = count e := by
  rw [product, if_neg h, count, List.prod_eq_foldl]

theorem isValid_iff {e : List Nat} : isValid e = true ↔ ∀ n ∈ e, 0 < n := by simp [isValid]

theorem mkExtents_ok {e : List Nat} (h : ∀ n ∈ e, 0 < n) : mkExtents e = .ok e := by rw [mkExtents, if_pos (isValid_iff.2 h)]

theorem toIndex_pos {L : Layout} {e w i : List Nat} (hw : toStrides L e = .ok w) (hi : Valid e i) : toIndex w i = .ok (pos L e i) ∧ dotW w i = pos L e i ∧ w.length = e.length := by
  obtain ⟨w', h1, h2, h3⟩ := toStrides_ok L e
  cases (Except.ok.inj (hw.symm.trans h1))
  exact ⟨by rw [toIndex_ok (by rw [h2, hi.length]), h3 i hi], h3 i hi, h2⟩

end Ublas.Tens
