import Verif.Model.AtElement
import Verif.Props.Symmetric
/-! # C130: `at_element` -/
namespace Ublas
open Packed PackedSpec
variable {α : Type}

theorem element_rejects {t : Tri} {o : Orient} {i si j sj : Nat} (h : ¬ Mutable t i j) (hi : i < si) (hj : j < sj) : element true t o i si j sj = .error .badIndex := by
  have low : ∀ (k : LKind) (o : Orient) (i si j sj : Nat), i < si → j < sj → ¬ (lother k i j = true) → lelement true o k i si j sj = .error .badIndex := by
    intro k o i si j sj hi hj h
    cases k
    · simp only [lother, decide_eq_true_eq] at h
      simp only [lelement, lowerElement, check_true hi, check_true hj, bind_ok]
      rw [check_dbg_false (by omega)]; rfl
    all_goals
      simp only [lother, decide_eq_true_eq] at h
      simp only [lelement]
      by_cases g : si ≠ 0 ∧ sj ≠ 0 ∧ i ≠ 0
      · rw [check_true g, bind_ok]
        simp only [lowerElement]
        rw [check_true (show i - 1 < si - 1 by omega), bind_ok]
        by_cases g2 : j < sj - 1
        · rw [check_true g2, bind_ok, check_dbg_false (by omega)]; rfl
        · rw [check_dbg_false g2]; rfl
      · rw [check_dbg_false g]; rfl
  have h' : ¬ other t i j = true := by rwa [other_iff]
  unfold element
  unfold other at h'
  split <;> rename_i hu <;> simp only [hu, if_true, if_false, Bool.false_eq_true] at h'
  · exact low _ _ _ _ _ _ hj hi h'
  · exact low _ _ _ _ _ _ hi hj h'

/-- **C130**, triangular matrix: `at_element (i, j) = v` at an element that can be written changes that element and no other. -/
theorem C130_triangular [Zero α] [One α] (dbg : Bool) (t : Tri) (o : Orient) (m : TMat α) (hw : TWF t m) (hs : ShapeOk dbg t m.size1 m.size2) (i j : Nat) (hi : i < m.size1) (hj : j < m.size2)
    (h : Mutable t i j) (v : α) : ∃ m', m.atElement dbg t o i j v = .ok m' ∧ m'.size1 = m.size1 ∧ m'.size2 = m.size2 ∧ m'.get dbg t o i j = .ok v ∧
      ∀ a b, a < m.size1 → b < m.size2 → ¬ (a = i ∧ b = j) → m'.get dbg t o a b = m.get dbg t o a b := by
  have h' := (other_iff t i j).2 h
  have hf := fit_of dbg t _ _ hs
  have hl : cellOf t o i m.size1 j m.size2 < m.data.length := by rw [hw]; exact cellOf_lt hi hj h'
  refine ⟨{ m with data := m.data.set (cellOf t o i m.size1 j m.size2) v }, ?_, rfl, rfl, ?_, fun a b ha hb hne => ?_⟩
  · simp [TMat.atElement, check_true hi, check_true hj, element_eq hf hi hj h', wr_ok hl]
  · rw [tget_eq (m := ⟨m.size1, m.size2, m.data.set (cellOf t o i m.size1 j m.size2) v⟩) hf hi hj h, rd_eq_ok]
    simp [hl]
  · by_cases hm : Mutable t a b
    · rw [tget_eq (m := ⟨m.size1, m.size2, m.data.set (cellOf t o i m.size1 j m.size2) v⟩) hf ha hb hm, tget_eq hf ha hb hm]
      have : cellOf t o i m.size1 j m.size2 ≠ cellOf t o a m.size1 b m.size2 := fun e => by
        obtain ⟨e1, e2⟩ := cellOf_inj hi hj h' ha hb ((other_iff t a b).2 hm) e
        exact hne ⟨e1.symm, e2.symm⟩
      unfold rd
      simp only [List.getElem?_set_ne this]
    · rw [tget_fixed (m := ⟨m.size1, m.size2, m.data.set (cellOf t o i m.size1 j m.size2) v⟩) ha hb hm, tget_fixed ha hb hm]

/-- **C130**, triangular matrix: with checks on, `at_element` refuses every position that cannot be written. -/
theorem C130_triangular_rejects (t : Tri) (o : Orient) (m : TMat α) (i j : Nat) (h : ¬ (i < m.size1 ∧ j < m.size2 ∧ Mutable t i j)) (v : α) :
    m.atElement true t o i j v = .error .badIndex := by
  unfold TMat.atElement
  by_cases hi : i < m.size1
  · rw [check_true hi, bind_ok]
    by_cases hj : j < m.size2
    · rw [check_true hj, bind_ok, element_rejects (fun hm => h ⟨hi, hj, hm⟩) hi hj]; rfl
    · rw [check_dbg_false hj]; rfl
  · rw [check_dbg_false hi]; rfl

theorem at_stored (conj : α → α) {dbg : Bool} {t : Tri} (hk : t.kind = .lower) {o : Orient} {m : SMat α} (hw : SWF t m) {i j : Nat} (hi : i < m.size) (hj : j < m.size)
    (h : Mutable t i j) (v : α) {m' : SMat α} (hm' : m' = { m with data := m.data.set (cellOf t o i m.size j m.size) v }) :
    m'.hget conj dbg t o i j = .ok v ∧ (i ≠ j → m'.hget conj dbg t o j i = .ok (conj v)) ∧
      ∀ a b, a < m.size → b < m.size → ¬ (a = i ∧ b = j) → ¬ (a = j ∧ b = i) → m'.hget conj dbg t o a b = m.hget conj dbg t o a b := by
  subst hm'
  have h' := (other_iff t i j).2 h
  have hl : cellOf t o i m.size j m.size < m.data.length := by rw [hw]; exact cellOf_lt hi hj h'
  refine ⟨?_, fun hne => ?_, fun a b ha hb h1 h2 => ?_⟩
  · rw [hget_stored conj hk (m := ⟨m.size, m.data.set (cellOf t o i m.size j m.size) v⟩) hi hj h, rd_eq_ok]
    simp [hl]
  · exact hget_mirror conj hk (m := ⟨m.size, m.data.set (cellOf t o i m.size j m.size) v⟩) hj hi (mutable_antisymm t i j h hne) (by simp [hl])
  · have key : ∀ a b, a < m.size → b < m.size → Mutable t a b → ¬ (a = i ∧ b = j) → (m.data.set (cellOf t o i m.size j m.size) v)[cellOf t o a m.size b m.size]? =
        m.data[cellOf t o a m.size b m.size]? := by
      intro a b ha hb hm hne
      refine List.getElem?_set_ne fun e => ?_
      obtain ⟨e1, e2⟩ := cellOf_inj hi hj h' ha hb ((other_iff t a b).2 hm) e
      exact hne ⟨e1.symm, e2.symm⟩
    by_cases hm : Mutable t a b
    · rw [hget_stored conj hk (m := ⟨m.size, m.data.set (cellOf t o i m.size j m.size) v⟩) ha hb hm, hget_stored conj hk ha hb hm]
      unfold rd; simp only [key a b ha hb hm h1]
    · have hm2 := (mutable_total t hk a b hm).1
      have hl2 : cellOf t o b m.size a m.size < m.data.length := by rw [hw]; exact cellOf_lt hb ha ((other_iff t b a).2 hm2)
      rw [hget_mirror conj hk ha hb hm (List.getElem?_eq_getElem hl2)]
      exact hget_mirror conj hk (m := ⟨m.size, m.data.set (cellOf t o i m.size j m.size) v⟩) ha hb hm ((key b a hb ha hm2 fun e => h2 ⟨e.2, e.1⟩).trans (List.getElem?_eq_getElem hl2))

/-- **C130** (partial), symmetric matrix: `at_element (i, j) = v` at an element of the stored triangle gives (i, j) and (j, i) the value `v` and changes nothing else.  Missing: the other triangle
(`C130_symmetric_rejects`, `C130_symmetric_refuted`). -/
theorem C130_symmetric_partial (dbg : Bool) (t : Tri) (hk : t.kind = .lower) (o : Orient) (m : SMat α) (hw : SWF t m) (i j : Nat) (hi : i < m.size) (hj : j < m.size) (h : Mutable t i j) (v : α) :
    ∃ m', m.atElement dbg t o i j v = .ok m' ∧ m'.size = m.size ∧ m'.get dbg t o i j = .ok v ∧ m'.get dbg t o j i = .ok v ∧
      ∀ a b, a < m.size → b < m.size → ¬ (a = i ∧ b = j) → ¬ (a = j ∧ b = i) → m'.get dbg t o a b = m.get dbg t o a b := by
  have h' := (other_iff t i j).2 h
  have hl : cellOf t o i m.size j m.size < m.data.length := by rw [hw]; exact cellOf_lt hi hj h'
  refine ⟨{ m with data := m.data.set (cellOf t o i m.size j m.size) v }, ?_, rfl, ?_⟩
  · simp [SMat.atElement, check_true hi, check_true hj, element_eq (fit_lower dbg t hk _ _) hi hj h', wr_ok hl]
  · obtain ⟨h1, h2, h3⟩ := at_stored id (dbg := dbg) hk (o := o) hw hi hj h v rfl
    simp only [sget_eq_hget]
    refine ⟨h1, ?_, h3⟩
    by_cases hne : i = j
    · subst hne; exact h1
    · exact h2 hne

/-- With checks on, `at_element` of a symmetric_matrix throws `bad_index` for every element outside the stored triangle, although `operator ()` accepts it. -/
theorem C130_symmetric_rejects (t : Tri) (o : Orient) (m : SMat α) (i j : Nat) (h : ¬ (i < m.size ∧ j < m.size ∧ Mutable t i j)) (v : α) :
    m.atElement true t o i j v = .error .badIndex := by
  unfold SMat.atElement
  by_cases hi : i < m.size
  · rw [check_true hi, bind_ok]
    by_cases hj : j < m.size
    · rw [check_true hj, bind_ok, element_rejects (fun hm => h ⟨hi, hj, hm⟩) hi hj]; rfl
    · rw [check_dbg_false hj]; rfl
  · rw [check_dbg_false hi]; rfl

/-- **C130** refuted for symmetric matrices: `s.at_element (0, 2) = 9` on a 3 x 3 symmetric_matrix (lower, row-major) of zeros.  With checks on it throws; without, element (0, 2) stays 0 and the
unrelated element (1, 1) becomes 9.  `s (0, 2) = 9` does the right thing. -/
theorem C130_symmetric_refuted :
    (⟨3, [0, 0, 0, 0, 0, 0]⟩ : SMat Int).atElement true ⟨.lower, false⟩ .row 0 2 9 = .error .badIndex ∧
    (∃ m', (⟨3, [0, 0, 0, 0, 0, 0]⟩ : SMat Int).atElement false ⟨.lower, false⟩ .row 0 2 9 = .ok m' ∧ m'.get false ⟨.lower, false⟩ .row 0 2 = .ok 0 ∧ m'.get false ⟨.lower, false⟩ .row 1 1 = .ok 9) ∧
    ∃ m', (⟨3, [0, 0, 0, 0, 0, 0]⟩ : SMat Int).set true ⟨.lower, false⟩ .row 0 2 9 = .ok m' ∧ m'.get true ⟨.lower, false⟩ .row 0 2 = .ok 9 ∧ m'.get true ⟨.lower, false⟩ .row 1 1 = .ok 0 :=
  ⟨by decide, ⟨_, rfl, by decide, by decide⟩, ⟨_, rfl, by decide, by decide⟩⟩

/-- **C130** (partial), hermitian matrix: in the stored triangle `at_element (i, j) = v` sets (i, j) to `v` and (j, i) to its conjugate, and changes nothing else. -/
theorem C130_hermitian_partial (conj : α → α) (dbg : Bool) (t : Tri) (hk : t.kind = .lower) (o : Orient) (m : SMat α) (hw : SWF t m) (i j : Nat) (hi : i < m.size) (hj : j < m.size)
    (h : Mutable t i j) (v : α) : ∃ m', m.hatElement dbg t o i j v = .ok m' ∧ m'.size = m.size ∧ m'.hget conj dbg t o i j = .ok v ∧ (i ≠ j → m'.hget conj dbg t o j i = .ok (conj v)) ∧
      ∀ a b, a < m.size → b < m.size → ¬ (a = i ∧ b = j) → ¬ (a = j ∧ b = i) → m'.hget conj dbg t o a b = m.hget conj dbg t o a b := by
  have h' := (other_iff t i j).2 h
  have hl : cellOf t o i m.size j m.size < m.data.length := by rw [hw]; exact cellOf_lt hi hj h'
  refine ⟨{ m with data := m.data.set (cellOf t o i m.size j m.size) v }, ?_, rfl, at_stored conj hk hw hi hj h v rfl⟩
  simp [SMat.hatElement, check_true hi, check_true hj, check_true h', element_eq (fit_lower dbg t hk _ _) hi hj h', wr_ok hl]

/-- With checks on, `at_element` of a hermitian_matrix refuses everything outside the stored triangle (it has to return a plain reference). -/
theorem C130_hermitian_rejects (t : Tri) (o : Orient) (m : SMat α) (i j : Nat) (h : ¬ (i < m.size ∧ j < m.size ∧ Mutable t i j)) (v : α) :
    m.hatElement true t o i j v = .error .badIndex := by
  unfold SMat.hatElement
  by_cases hi : i < m.size
  · rw [check_true hi, bind_ok]
    by_cases hj : j < m.size
    · rw [check_true hj, bind_ok, check_dbg_false (fun hm => h ⟨hi, hj, (other_iff t i j).1 hm⟩)]; rfl
    · rw [check_dbg_false hj]; rfl
  · rw [check_dbg_false hi]; rfl

/-- A unit upper 3 x 3 matrix, column-major, and a hermitian 2 x 2 matrix (conjugation: negation). -/
example : (⟨3, 3, [1, 2, 3]⟩ : TMat Int).atElement true ⟨.unit, true⟩ .col 0 2 7 = .ok ⟨3, 3, [1, 7, 3]⟩ ∧ TWF ⟨.unit, true⟩ (⟨3, 3, [1, 2, 3]⟩ : TMat Int) ∧ Mutable ⟨.unit, true⟩ 0 2 ∧
    ShapeOk true ⟨.unit, true⟩ 3 3 := ⟨by decide, rfl, by decide, shapeOk_square _ _ _ (by decide)⟩

example : ∃ m', (⟨2, [1, 2, 3]⟩ : SMat Int).hatElement true ⟨.lower, false⟩ .row 1 0 7 = .ok m' ∧ m'.hget (- ·) true ⟨.lower, false⟩ .row 0 1 = .ok (-7) ∧ SWF ⟨.lower, false⟩ (⟨2, [1, 2, 3]⟩ : SMat Int) :=
  ⟨_, rfl, by decide, rfl⟩

end Ublas
