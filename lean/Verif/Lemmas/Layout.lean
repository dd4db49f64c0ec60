import Verif.Model.Layout
import Mathlib.Tactic.Ring
/-! Helper lemmas about the dense layouts. -/
namespace Ublas

theorem elementRaw_lt (o : Orient) {i si j sj : Nat} (hi : i < si) (hj : j < sj) :
    o.elementRaw i si j sj < si * sj := by
  cases o
  · calc i * sj + j < i * sj + sj := by omega
      _ = (i + 1) * sj := by ring
      _ ≤ si * sj := Nat.mul_le_mul_right _ hi
  · calc i + j * si < si + j * si := by omega
      _ = (j + 1) * si := by ring
      _ ≤ sj * si := Nat.mul_le_mul_right _ hj
      _ = si * sj := Nat.mul_comm _ _

theorem indexI_elementRaw (o : Orient) {i si j sj : Nat} (hi : i < si) (hj : j < sj) :
    o.indexI (o.elementRaw i si j sj) si sj = i := by
  cases o
  · have : sj ≠ 0 := by omega
    simp [Orient.indexI, Orient.elementRaw, this]
    rw [Nat.add_comm, Nat.add_mul_div_right _ _ (by omega), Nat.div_eq_of_lt hj]; omega
  · have : si ≠ 0 := by omega
    simp [Orient.indexI, Orient.elementRaw, this, Nat.mod_eq_of_lt hi]

theorem indexJ_elementRaw (o : Orient) {i si j sj : Nat} (hi : i < si) (hj : j < sj) :
    o.indexJ (o.elementRaw i si j sj) si sj = j := by
  cases o
  · have : sj ≠ 0 := by omega
    simp [Orient.indexJ, Orient.elementRaw, this, Nat.add_comm, Nat.mod_eq_of_lt hj]
  · have : si ≠ 0 := by omega
    simp [Orient.indexJ, Orient.elementRaw, this]
    rw [Nat.add_mul_div_right _ _ (by omega), Nat.div_eq_of_lt hi]; omega

theorem elementRaw_index (o : Orient) {k si sj : Nat} (hk : k < si * sj) :
    o.indexI k si sj < si ∧ o.indexJ k si sj < sj ∧
    o.elementRaw (o.indexI k si sj) si (o.indexJ k si sj) sj = k := by
  have hs : si ≠ 0 := by rintro rfl; simp at hk
  have hs' : sj ≠ 0 := by rintro rfl; simp at hk
  cases o
  · simp only [Orient.indexI, Orient.indexJ, Orient.elementRaw, hs', ne_eq, not_false_eq_true, if_true]
    refine ⟨?_, Nat.mod_lt _ (by omega), Nat.div_add_mod' k sj⟩
    exact Nat.div_lt_of_lt_mul (by rwa [Nat.mul_comm])
  · simp only [Orient.indexI, Orient.indexJ, Orient.elementRaw, hs, ne_eq, not_false_eq_true, if_true]
    refine ⟨Nat.mod_lt _ (by omega), Nat.div_lt_of_lt_mul hk, ?_⟩
    rw [Nat.add_comm]; exact Nat.div_add_mod' k si

theorem element_ok (dbg : Bool) (o : Orient) {i si j sj : Nat} (hi : i < si) (hj : j < sj) :
    o.element dbg i si j sj = .ok (o.elementRaw i si j sj) := by
  simp [Orient.element, check_true hi, check_true hj]

theorem elementRaw_inj (o : Orient) {i si j sj i' j' : Nat} (hi : i < si) (hj : j < sj)
    (hi' : i' < si) (hj' : j' < sj) (h : o.elementRaw i si j sj = o.elementRaw i' si j' sj) :
    i = i' ∧ j = j' := by
  constructor
  · rw [← indexI_elementRaw o hi hj, h, indexI_elementRaw o hi' hj']
  · rw [← indexJ_elementRaw o hi hj, h, indexJ_elementRaw o hi' hj']

end Ublas
