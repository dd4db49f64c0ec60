import Verif.Lemmas.Layout
/-! # C01: dense layouts are bijections -/
namespace Ublas

/-- **C01**.  In a matrix of any shape and either orientation, in either build mode:
(1) every valid (i,j) is given a storage cell inside `data ()`, without an exception;
(2) every cell of `data ()` is the cell of exactly one valid (i,j);
(3) the row and column that `index_i` / `index_j` recover from the cell are the addressed ones. -/
theorem C01_dense_layout_bijection (dbg : Bool) (o : Orient) (si sj : Nat) :
    (∀ i j, i < si → j < sj → ∃ k, o.element dbg i si j sj = .ok k ∧ k < o.storageSize si sj ∧
        o.indexI k si sj = i ∧ o.indexJ k si sj = j) ∧
    (∀ k, k < o.storageSize si sj →
      ∃! p : Nat × Nat, p.1 < si ∧ p.2 < sj ∧ o.element dbg p.1 si p.2 sj = .ok k) := by
  constructor
  · intro i j hi hj
    exact ⟨_, element_ok dbg o hi hj, elementRaw_lt o hi hj, indexI_elementRaw o hi hj,
      indexJ_elementRaw o hi hj⟩
  · intro k hk
    obtain ⟨h1, h2, h3⟩ := elementRaw_index o (k := k) (si := si) (sj := sj) hk
    refine ⟨(o.indexI k si sj, o.indexJ k si sj), ⟨h1, h2, ?_⟩, ?_⟩
    · simp [element_ok dbg o h1 h2, h3]
    · rintro ⟨i, j⟩ ⟨hi, hj, he⟩
      simp only at hi hj he
      rw [element_ok dbg o hi hj] at he
      have he' : o.elementRaw i si j sj = k := by simpa using he
      rw [← he', indexI_elementRaw o hi hj, indexJ_elementRaw o hi hj]

/-- With checks on, an invalid index is reported as `bad_index`. -/
theorem C01_element_rejects (o : Orient) (i si j sj : Nat) (h : ¬ (i < si ∧ j < sj)) :
    o.element true i si j sj = .error .badIndex := by
  unfold Orient.element
  by_cases hi : i < si
  · have hj : ¬ j < sj := fun hj => h ⟨hi, hj⟩
    simp [check_true hi, check_dbg_false hj]
  · simp [check_dbg_false hi]

-- Non-vacuity: a 3 x 4 matrix.
example : Orient.element true .row 2 3 1 4 = .ok 9 ∧ Orient.element true .col 2 3 1 4 = .ok 5 ∧
    Orient.element true .row 3 3 1 4 = .error .badIndex := by decide

end Ublas
