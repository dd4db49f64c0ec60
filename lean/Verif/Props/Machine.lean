import Verif.Model.Machine
import Verif.Lemmas.Layout
import Mathlib.Tactic.Ring
import Mathlib.Tactic.Linarith
/-! # C02, C03, and the signed/unsigned part of C49 -/
namespace Ublas
open Machine

theorem maxSz_toNat : maxSz.toNat = 2 ^ 64 - 1 := by decide

theorem guard_iff (a b : Sz) : (b = 0 ∨ a ≤ maxSz / b) ↔ a.toNat * b.toNat < 2 ^ 64 := by
  by_cases hb : b = 0
  · subst hb; simp
  · have hb' : 0 < b.toNat := by
      rcases Nat.eq_zero_or_pos b.toNat with h | h
      · exact absurd (BitVec.eq_of_toNat_eq (by simpa using h)) hb
      · exact h
    simp only [hb, false_or, BitVec.le_def, BitVec.toNat_udiv, maxSz_toNat]
    rw [Nat.le_div_iff_mul_le hb']
    omega

/-- **C02**.  With checks on, `storage_size` returns the exact number of cells when it is representable
and raises `bad_size` otherwise (it never returns a wrapped value); with checks off the result is exact
precisely for representable products.  All 2^128 pairs of sizes, both orientations. -/
theorem C02_storage_size_exact (o : Orient) (si sj : Sz) :
    (si.toNat * sj.toNat < 2 ^ 64 →
      ∃ r, storageSize true o si sj = .ok r ∧ storageSize false o si sj = .ok r ∧
        r.toNat = si.toNat * sj.toNat) ∧
    (¬ si.toNat * sj.toNat < 2 ^ 64 →
      storageSize true o si sj = .error .badSize ∧
      ∃ r, storageSize false o si sj = .ok r ∧ r.toNat ≠ si.toNat * sj.toNat) := by
  have hmul : (si * sj).toNat = si.toNat * sj.toNat % 2 ^ 64 := BitVec.toNat_mul si sj
  have hlt := Nat.mod_lt (si.toNat * sj.toNat) (show 0 < 2 ^ 64 by decide)
  cases o
  · constructor
    · intro h
      exact ⟨si * sj, by simp only [storageSize, check_true ((guard_iff si sj).2 h), bind_ok, pure_eq_ok], by simp [storageSize],
        by rw [hmul, Nat.mod_eq_of_lt h]⟩
    · intro h
      exact ⟨by simp only [storageSize, check_dbg_false (fun g => h ((guard_iff si sj).1 g)), bind_error],
        si * sj, by simp [storageSize], by omega⟩
  · constructor
    · intro h
      have h' : sj.toNat * si.toNat < 2 ^ 64 := by rwa [Nat.mul_comm]
      exact ⟨si * sj, by simp only [storageSize, check_true ((guard_iff sj si).2 h'), bind_ok, pure_eq_ok], by simp [storageSize],
        by rw [hmul, Nat.mod_eq_of_lt h]⟩
    · intro h
      have h' : ¬ sj.toNat * si.toNat < 2 ^ 64 := by rwa [Nat.mul_comm]
      exact ⟨by simp only [storageSize, check_dbg_false (fun g => h' ((guard_iff sj si).1 g)), bind_error],
        si * sj, by simp [storageSize], by omega⟩

theorem elem_guard {i j si sj : Nat} (hi : i < si) (hj : j < sj) (h : si * sj < 2 ^ 64) :
    i * sj + j < 2 ^ 64 ∧ i ≤ (2 ^ 64 - 1 - j) / sj := by
  have h1 : i * sj + j < si * sj := elementRaw_lt .row hi hj
  refine ⟨by omega, ?_⟩
  rw [Nat.le_div_iff_mul_le (by omega)]; omega

/-- **C02** (element addresses).  Once the storage size is representable, the 64-bit element offset of
every valid index is computed without wrap-around and the overflow guard never rejects it, in both build
modes: the machine offset is the mathematical one. -/
theorem C02_element_no_wrap (dbg : Bool) (o : Orient) (i si j sj : Sz) (hi : i < si) (hj : j < sj)
    (h : si.toNat * sj.toNat < 2 ^ 64) :
    ∃ k, Machine.element dbg o i si j sj = .ok k ∧
      o.element dbg i.toNat si.toNat j.toNat sj.toNat = .ok k.toNat := by
  have hi' : i.toNat < si.toNat := hi
  have hj' : j.toNat < sj.toNat := hj
  have hjm : j.toNat ≤ 2 ^ 64 - 1 := by have := j.isLt; omega
  have him : i.toNat ≤ 2 ^ 64 - 1 := by have := i.isLt; omega
  have sub_eq : ∀ x : Sz, (maxSz - x).toNat = 2 ^ 64 - 1 - x.toNat := by
    intro x
    have hx : x.toNat < 2 ^ 64 := x.isLt
    rw [BitVec.toNat_sub, maxSz_toNat]
    omega
  rw [element_ok dbg o hi' hj']
  cases o
  · obtain ⟨g1, g2⟩ := elem_guard hi' hj' h
    have g : i ≤ (maxSz - j) / sj := by
      rw [BitVec.le_def, BitVec.toNat_udiv, sub_eq]; exact g2
    refine ⟨i * sj + j, by simp [Machine.element, check_true hi, check_true hj, check_true g], ?_⟩
    simp only [Orient.elementRaw, BitVec.toNat_add, BitVec.toNat_mul]
    rw [Nat.mod_eq_of_lt (a := i.toNat * sj.toNat) (by omega), Nat.mod_eq_of_lt g1]
  · obtain ⟨g1, g2⟩ := elem_guard hj' hi' (by rwa [Nat.mul_comm])
    have g : j ≤ (maxSz - i) / si := by
      rw [BitVec.le_def, BitVec.toNat_udiv, sub_eq]; exact g2
    refine ⟨i + j * si, by simp [Machine.element, check_true hi, check_true hj, check_true g], ?_⟩
    simp only [Orient.elementRaw, BitVec.toNat_add, BitVec.toNat_mul]
    rw [Nat.mod_eq_of_lt (a := j.toNat * si.toNat) (by omega), Nat.mod_eq_of_lt (by omega)]

example : ∃ k, Machine.element true .row 2 3 1 4 = .ok k ∧ k.toNat = 9 := ⟨9, by decide, by decide⟩
example : storageSize true .row (BitVec.ofNat 64 (2 ^ 33)) (BitVec.ofNat 64 (2 ^ 31)) = .error .badSize := by decide

theorem tri_size_eq (si sj : Sz) :
    (if si < sj then sj else si).toNat = max si.toNat sj.toNat := by
  by_cases h : si < sj
  · rw [if_pos h]; have : si.toNat < sj.toNat := h; omega
  · rw [if_neg h]; have : ¬ si.toNat < sj.toNat := h; omega

/-- **C03** (proved part).  Characterises `triangular_size` completely: with checks on, for every pair of
sizes with n = max, if n < 2^32 the call succeeds with the exact number n(n+1)/2; if n ≥ 2^32 any value it
returns is wrong.  Missing: the guard does not reject all of n ≥ 2^32 (refuted below). -/
theorem C03_triangular_size_partial (dbg : Bool) (si sj : Sz) :
    (max si.toNat sj.toNat < 2 ^ 32 →
      ∃ r, triangularSize dbg si sj = .ok r ∧
        r.toNat = max si.toNat sj.toNat * (max si.toNat sj.toNat + 1) / 2) ∧
    (2 ^ 32 ≤ max si.toNat sj.toNat → ∀ r, triangularSize dbg si sj = .ok r →
        r.toNat < max si.toNat sj.toNat * (max si.toNat sj.toNat + 1) / 2) := by
  have hs := tri_size_eq si sj
  unfold triangularSize
  generalize (if si < sj then sj else si) = s at hs
  generalize max si.toNat sj.toNat = n at hs
  have hval : (((s + 1) * s) / 2 : Sz).toNat = ((n + 1) % 2 ^ 64 * n % 2 ^ 64) / 2 := by
    rw [BitVec.toNat_udiv, BitVec.toNat_mul, BitVec.toNat_add, hs]; rfl
  constructor
  · intro hn
    have g : s = 0 ∨ s / 2 < maxSz / s := by
      by_cases h0 : s = 0
      · exact Or.inl h0
      · right
        have hpos : 0 < n := by
          rcases Nat.eq_zero_or_pos n with h | h
          · exact absurd (BitVec.eq_of_toNat_eq (by simp [hs, h])) h0
          · exact h
        rw [BitVec.lt_def, BitVec.toNat_udiv, BitVec.toNat_udiv, maxSz_toNat, hs]
        have h2 : (2 : Sz).toNat = 2 := by decide
        rw [h2, Nat.lt_iff_add_one_le, Nat.le_div_iff_mul_le hpos]
        have : (n / 2 + 1) * n ≤ 2 ^ 32 * 2 ^ 31 := by
          calc (n / 2 + 1) * n ≤ 2 ^ 31 * 2 ^ 32 := Nat.mul_le_mul (by omega) (by omega)
            _ = _ := by norm_num
        omega
    refine ⟨((s + 1) * s) / 2, by simp only [check_true g, bind_ok, pure_eq_ok], ?_⟩
    rw [hval, Nat.mod_eq_of_lt (a := n + 1) (by omega), Nat.mod_eq_of_lt, Nat.mul_comm]
    calc (n + 1) * n ≤ 2 ^ 32 * (2 ^ 32 - 1) := Nat.mul_le_mul (by omega) (by omega)
      _ < 2 ^ 64 := by norm_num
  · intro hn r hr
    by_cases g : s = 0 ∨ s / 2 < maxSz / s
    · simp only [check_true g, bind_ok, pure_eq_ok, Except.ok.injEq] at hr
      rw [← hr, hval]
      have h1 := Nat.mod_lt ((n + 1) % 2 ^ 64 * n) (show 0 < 2 ^ 64 by decide)
      have h2 : 2 ^ 32 * (2 ^ 32 + 1) ≤ n * (n + 1) := Nat.mul_le_mul hn (by omega)
      omega
    · cases dbg
      · simp only [check_release, bind_ok, pure_eq_ok, Except.ok.injEq] at hr
        rw [← hr, hval]
        have h1 := Nat.mod_lt ((n + 1) % 2 ^ 64 * n) (show 0 < 2 ^ 64 by decide)
        have h2 : 2 ^ 32 * (2 ^ 32 + 1) ≤ n * (n + 1) := Nat.mul_le_mul hn (by omega)
        omega
      · simp only [check_dbg_false g, bind_error, reduceCtorEq] at hr

/-- **C03** is false of the code: for n = 2^32 the overflow guard passes and the returned packed size is
2^31 cells instead of 2^31·(2^32+1). -/
theorem C03_refuted :
    ¬ ∀ (si sj r : Sz), triangularSize true si sj = .ok r →
      r.toNat = max si.toNat sj.toNat * (max si.toNat sj.toNat + 1) / 2 := by
  intro h
  have := h (BitVec.ofNat 64 (2 ^ 32)) (BitVec.ofNat 64 (2 ^ 32)) (BitVec.ofNat 64 (2 ^ 31)) (by decide)
  revert this; decide

/-- **C49** (iterator arithmetic, proved part).  In a matrix whose storage fits the address space, adding
`n` (any 64-bit signed difference, also negative) to an iterator at (i,j) that lands on a valid row moves to
exactly that element, and the difference of two iterators of the same column with the later one on the left
is the row difference.  (Same for columns with `increment_j` / `distance_j`.)
Missing: negative differences, refuted below. -/
theorem C49_iterator_arith_partial (o : Orient) (si sj : Nat) (hfit : si * sj < 2 ^ 63)
    (i i' j : Nat) (hi : i < si) (hi' : i' < si) (hj : j < sj) :
    (incrementI o (BitVec.ofNat 64 (o.elementRaw i si j sj)) (BitVec.ofInt 64 ((i' : Int) - i))
        (BitVec.ofNat 64 si) (BitVec.ofNat 64 sj) = BitVec.ofNat 64 (o.elementRaw i' si j sj)) ∧
    (i ≤ i' → (distanceI o (BitVec.ofNat 64 (o.elementRaw i' si j sj) - BitVec.ofNat 64 (o.elementRaw i si j sj))
        (BitVec.ofNat 64 si) (BitVec.ofNat 64 sj)).toInt = (i' : Int) - i) := by
  have e0 : ∀ n : Nat, BitVec.ofNat 64 n = BitVec.ofInt 64 (n : Int) := fun n => (BitVec.ofInt_natCast 64 n).symm
  constructor
  · cases o
    · simp only [incrementI, Orient.elementRaw, e0, ← BitVec.ofInt_mul, ← BitVec.ofInt_add]
      congr 1; push_cast; ring
    · simp only [incrementI, Orient.elementRaw, e0, ← BitVec.ofInt_add]
      congr 1; push_cast; ring
  · intro hle
    have hsj : sj ≤ si * sj := Nat.le_mul_of_pos_left _ (by omega)
    have hsi : si ≤ si * sj := Nat.le_mul_of_pos_right _ (by omega)
    have hk : BitVec.ofNat 64 (o.elementRaw i' si j sj) - BitVec.ofNat 64 (o.elementRaw i si j sj)
        = BitVec.ofNat 64 (o.elementRaw i' si j sj - o.elementRaw i si j sj) := by
      have hge : o.elementRaw i si j sj ≤ o.elementRaw i' si j sj := by
        cases o
        · simp only [Orient.elementRaw]; have := Nat.mul_le_mul_right sj hle; omega
        · simp only [Orient.elementRaw]; omega
      have : BitVec.ofNat 64 (o.elementRaw i' si j sj) =
          BitVec.ofNat 64 (o.elementRaw i' si j sj - o.elementRaw i si j sj) +
          BitVec.ofNat 64 (o.elementRaw i si j sj) := by
        rw [← BitVec.ofNat_add]; congr 1; omega
      rw [this, BitVec.add_sub_cancel]
    rw [hk]
    have toInt_small : ∀ n : Nat, n < 2 ^ 63 → (BitVec.ofNat 64 n).toInt = (n : Int) := by
      intro n hn
      rw [BitVec.toInt_eq_toNat_of_lt]
      · rw [BitVec.toNat_ofNat, Nat.mod_eq_of_lt (by omega)]
      · rw [BitVec.toNat_ofNat, Nat.mod_eq_of_lt (by omega)]; omega
    cases o
    · have hd : i' * sj + j - (i * sj + j) = (i' - i) * sj := by
        rw [Nat.sub_mul]; omega
      have hlt : (i' - i) * sj < 2 ^ 63 :=
        lt_of_le_of_lt (Nat.mul_le_mul_right sj (show i' - i ≤ si by omega)) hfit
      have hne : (BitVec.ofNat 64 sj) ≠ 0 := by
        intro h
        have := congrArg BitVec.toNat h
        rw [BitVec.toNat_ofNat, Nat.mod_eq_of_lt (by omega)] at this
        simp at this; omega
      simp only [distanceI, Orient.elementRaw, hd, hne, ne_eq, not_false_eq_true, if_true]
      have : BitVec.ofNat 64 ((i' - i) * sj) / BitVec.ofNat 64 sj = BitVec.ofNat 64 (i' - i) := by
        apply BitVec.eq_of_toNat_eq
        rw [BitVec.toNat_udiv, BitVec.toNat_ofNat, BitVec.toNat_ofNat, BitVec.toNat_ofNat,
          Nat.mod_eq_of_lt (by omega), Nat.mod_eq_of_lt (by omega), Nat.mul_div_cancel _ (by omega),
          Nat.mod_eq_of_lt (by omega)]
      rw [this, toInt_small _ (by omega)]; omega
    · simp only [distanceI, Orient.elementRaw]
      rw [show i' + j * si - (i + j * si) = i' - i by omega, toInt_small _ (by omega)]; omega

/-- **C49** refuted part: in any row-major matrix with at least two columns, subtracting a later iterator
from an earlier one of the same column NEVER gives the (negative) row difference. -/
theorem C49_negative_distance_refuted (si sj : Nat) (hfit : si * sj < 2 ^ 63) (hsj : 2 ≤ sj)
    (i i' j : Nat) (hlt : i < i') (hi' : i' < si) (_hj : j < sj) :
    (distanceI .row (BitVec.ofNat 64 (Orient.row.elementRaw i si j sj) -
        BitVec.ofNat 64 (Orient.row.elementRaw i' si j sj))
        (BitVec.ofNat 64 si) (BitVec.ofNat 64 sj)).toInt ≠ (i : Int) - i' := by
  have hsj' : sj ≤ si * sj := Nat.le_mul_of_pos_left _ (by omega)
  have hne : (BitVec.ofNat 64 sj) ≠ 0 := by
    intro h
    have := congrArg BitVec.toNat h
    rw [BitVec.toNat_ofNat, Nat.mod_eq_of_lt (by omega)] at this
    simp at this; omega
  simp only [distanceI, Orient.elementRaw, hne, ne_eq, not_false_eq_true, if_true]
  intro h
  -- the unsigned quotient is below 2^63, hence non-negative as a signed number
  have hq : (BitVec.ofNat 64 (i * sj + j) - BitVec.ofNat 64 (i' * sj + j)).udiv (BitVec.ofNat 64 sj)
      = (BitVec.ofNat 64 (i * sj + j) - BitVec.ofNat 64 (i' * sj + j)) / (BitVec.ofNat 64 sj) := rfl
  have hlt2 : ((BitVec.ofNat 64 (i * sj + j) - BitVec.ofNat 64 (i' * sj + j)) / (BitVec.ofNat 64 sj)).toNat < 2 ^ 63 := by
    rw [BitVec.toNat_udiv, BitVec.toNat_ofNat (x := sj), Nat.mod_eq_of_lt (a := sj) (by omega)]
    rw [Nat.div_lt_iff_lt_mul (by omega)]
    have := (BitVec.ofNat 64 (i * sj + j) - BitVec.ofNat 64 (i' * sj + j)).isLt
    omega
  rw [BitVec.toInt_eq_toNat_of_lt (by omega)] at h
  omega

example : (distanceI .row (BitVec.ofNat 64 0 - BitVec.ofNat 64 3) 2 3).toInt = 6148914691236517204 := by decide

end Ublas
