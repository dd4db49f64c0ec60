import Verif.Lemmas.Dense
/-! # C04, C05: dense matrix element access, histories, resize -/
namespace Ublas
open Dense DenseSpec
variable {α : Type}

/-- **C04** (single step).  Writing a valid element succeeds in both build modes, keeps the shape, makes
the written element read back and leaves every other element as it was. -/
theorem C04_read_after_write (dbg : Bool) (o : Orient) (m : Dense α) (hw : m.WF) (i j : Nat) (t : α)
    (hi : i < m.size1) (hj : j < m.size2) :
    ∃ m', m.set dbg o i j t = .ok m' ∧ m'.WF ∧ m'.size1 = m.size1 ∧ m'.size2 = m.size2 ∧
      m'.get dbg o i j = .ok t ∧
      ∀ a b, a < m.size1 → b < m.size2 → (a, b) ≠ (i, j) → m'.get dbg o a b = m.get dbg o a b := by
  refine ⟨_, set_eq dbg o m hw t hi hj, ?_⟩
  obtain ⟨h1, h2, h3, h4⟩ := get_set dbg o m _ hw t hi hj (set_eq dbg o m hw t hi hj)
  refine ⟨h1, h2, h3, by rw [h4 i j hi hj]; simp, ?_⟩
  intro a b ha hb hne
  rw [h4 a b ha hb, if_neg]
  simpa using hne

/-- **C04** (guards).  With checks on, any access outside the shape raises `bad_index`. -/
theorem C04_out_of_range_rejected (o : Orient) (zero t : α) (m : Dense α) (i j : Nat)
    (h : ¬ (i < m.size1 ∧ j < m.size2)) :
    m.get true o i j = .error .badIndex ∧ m.set true o i j t = .error .badIndex ∧
    m.erase true o zero i j = .error .badIndex := by
  have : o.element true i m.size1 j m.size2 = .error .badIndex := by
    unfold Orient.element
    by_cases hi : i < m.size1
    · have hj : ¬ j < m.size2 := fun hj => h ⟨hi, hj⟩
      simp [check_true hi, check_dbg_false hj]
    · simp [check_dbg_false hi]
  simp [Dense.get, Dense.set, Dense.erase, this]

theorem step_implements (dbg : Bool) (o : Orient) (zero : α) (junk : Nat → α) (m : Dense α) (s : Spec α)
    (op : Op α) (hw : m.WF) (hm : Implements dbg o m s) (hl : legal s op) :
    ∃ m', Dense.step dbg o zero junk m op = .ok m' ∧ m'.WF ∧ Implements dbg o m' (DenseSpec.step zero s op) := by
  obtain ⟨h1, h2, h3⟩ := hm
  have wcase : ∀ i j t, i < s.rows → j < s.cols →
      ∃ m', m.set dbg o i j t = .ok m' ∧ m'.WF ∧ Implements dbg o m'
        { s with val := fun a b => if a = i ∧ b = j then some t else s.val a b } := by
    intro i j t hi hj
    rw [← h1] at hi; rw [← h2] at hj
    refine ⟨_, set_eq dbg o m hw t hi hj, ?_⟩
    obtain ⟨g1, g2, g3, g4⟩ := get_set dbg o m _ hw t hi hj (set_eq dbg o m hw t hi hj)
    refine ⟨g1, by simp [h1], by simp [h2], ?_⟩
    intro a b ha hb
    simp only at ha hb ⊢
    rw [g4 a b (by omega) (by omega)]
    by_cases hab : a = i ∧ b = j
    · exact ⟨t, by simp [hab]⟩
    · simpa [hab] using h3 a b ha hb
  cases op with
  | insert i j t => exact wcase i j t hl.1 hl.2
  | erase i j => exact wcase i j zero hl.1 hl.2
  | clear =>
    have hwc : (Dense.clear zero m).WF := by simpa [Dense.clear, WF] using hw
    refine ⟨_, rfl, hwc, by simp [Dense.clear, DenseSpec.step, h1], by simp [Dense.clear, DenseSpec.step, h2], ?_⟩
    intro i j hi hj
    simp only [DenseSpec.step] at hi hj ⊢
    obtain ⟨q1, q2⟩ := get_eq dbg o _ hwc (i := i) (j := j) (by simp [Dense.clear]; omega) (by simp [Dense.clear]; omega)
    exact ⟨_, q2, by simp [Dense.clear]⟩
  | resize r c p =>
    cases p with
    | true =>
      obtain ⟨m', e, hw', hs1, hs2, hg⟩ := resizePreserve_spec dbg o m (mk' junk o r c) hw (mk'_wf _ _ _ _)
      have k1 : (mk' junk o r c).size1 = r := rfl
      have k2 : (mk' junk o r c).size2 = c := rfl
      refine ⟨m', by simp [Dense.step, Dense.resize, e], hw', by simp [hs1, k1, DenseSpec.step], by simp [hs2, k2, DenseSpec.step], ?_⟩
      intro i j hi hj
      simp only [DenseSpec.step] at hi hj ⊢
      by_cases hin : i < s.rows ∧ j < s.cols
      · rw [hg i j (by rw [k1, h1]; omega) (by rw [k2, h2]; omega)]
        simpa [hin] using h3 i j hin.1 hin.2
      · obtain ⟨q1, q2⟩ := get_eq dbg o m' hw' (i := i) (j := j) (by omega) (by omega)
        exact ⟨_, q2, by simp [hin]⟩
    | false =>
      have hw' : (⟨r, c, arrayResize junk m.data (o.storageSize r c)⟩ : Dense α).WF := by
        show (arrayResize junk m.data (o.storageSize r c)).length = o.storageSize r c
        unfold arrayResize
        split
        · symm; assumption
        · simp
      refine ⟨_, by simp [Dense.step, Dense.resize], hw', rfl, rfl, ?_⟩
      intro i j hi hj
      obtain ⟨q1, q2⟩ := get_eq dbg o _ hw' (i := i) (j := j) hi hj
      exact ⟨_, q2, by simp [DenseSpec.step]⟩

/-- **C04** (histories).  Start from any matrix implementing an abstract matrix; after any history of
insert/erase/clear/resize whose indices are legal at the time, the code has not faulted, the shape is
the abstract shape, and every specified element reads back as specified — whatever values reallocated
memory happened to contain. -/
theorem C04_history (dbg : Bool) (o : Orient) (zero : α) (ops : List (Op α × (Nat → α))) :
    ∀ (m : Dense α) (s : Spec α), m.WF → Implements dbg o m s → legalRun zero s ops →
      ∃ m', Dense.run dbg o zero m ops = .ok m' ∧ m'.WF ∧ Implements dbg o m' (DenseSpec.run zero s ops) := by
  induction ops with
  | nil => intro m s hw hm _; exact ⟨m, rfl, hw, hm⟩
  | cons x ops ih =>
    obtain ⟨op, junk⟩ := x
    intro m s hw hm hl
    obtain ⟨m1, e1, hw1, hm1⟩ := step_implements dbg o zero junk m s op hw hm hl.1
    obtain ⟨m2, e2, hw2, hm2⟩ := ih m1 _ hw1 hm1 hl.2
    exact ⟨m2, by simp [Dense.run, e1, e2], hw2, hm2⟩

/-- A freshly constructed matrix implements the all-unspecified matrix (so histories can start). -/
theorem C04_initial (dbg : Bool) (o : Orient) (junk : Nat → α) (r c : Nat) :
    (mk' junk o r c).WF ∧ Implements dbg o (mk' junk o r c) ⟨r, c, fun _ _ => none⟩ := by
  refine ⟨mk'_wf _ _ _ _, rfl, rfl, ?_⟩
  intro i j hi hj
  obtain ⟨_, q2⟩ := get_eq dbg o _ (mk'_wf junk o r c) (i := i) (j := j) hi hj
  exact ⟨_, q2, by simp⟩

/-- **C05** (proved part).  `resize (r, c, true)` succeeds, yields an r × c matrix, and every element
common to the old and new shape keeps its value, in either orientation.
Missing with respect to the documentation (matrix.hpp:210): zero filling, refuted below. -/
theorem C05_resize_preserve_partial (dbg : Bool) (o : Orient) (junk : Nat → α) (m : Dense α) (hw : m.WF)
    (r c : Nat) :
    ∃ m', m.resize dbg o junk r c true = .ok m' ∧ m'.WF ∧ m'.size1 = r ∧ m'.size2 = c ∧
      ∀ i j, i < m.size1 → i < r → j < m.size2 → j < c → m'.get dbg o i j = m.get dbg o i j := by
  obtain ⟨m', e, hw', hs1, hs2, hg⟩ := resizePreserve_spec dbg o m (mk' junk o r c) hw (mk'_wf _ _ _ _)
  refine ⟨m', by simp [Dense.resize, e], hw', hs1, hs2, ?_⟩
  intro i j h1 h2 h3 h4
  exact hg i j (by simp [mk']; omega) (by simp [mk']; omega)

/-- **C05** refuted part: the documented zero filling of new elements (matrix.hpp:210) does not happen;
growing a 1×1 matrix to 1×2 exposes uninitialised storage. -/
theorem C05_zero_fill_refuted :
    ¬ ∀ (junk : Nat → Int) (m m' : Dense Int) (r c : Nat), m.WF →
      m.resize true .row junk r c true = .ok m' →
      ∀ i j, i < r → j < c → ¬ (i < m.size1 ∧ j < m.size2) → m'.get true .row i j = .ok 0 := by
  intro h
  have := h (fun _ => 7) ⟨1, 1, [5]⟩ ⟨1, 2, [5, 7]⟩ 1 2 rfl (by decide) 0 1 (by decide) (by decide) (by decide)
  revert this; decide

-- Non-vacuity: a concrete 2×2 history with a reallocation.
example : ∃ m, Dense.run true .col (0 : Int) ⟨2, 2, [1, 2, 3, 4]⟩
    [(.insert 0 1 9, fun _ => 0), (.resize 3 2 true, fun _ => 77), (.erase 1 0, fun _ => 0)] = .ok m ∧
    m.get true .col 0 1 = .ok 9 ∧ m.get true .col 1 0 = .ok 0 ∧ m.get true .col 2 0 = .ok 77 := by
  refine ⟨⟨3, 2, [1, 0, 77, 9, 4, 77]⟩, by decide, by decide, by decide, by decide⟩
example : legalRun (0 : Int) ⟨2, 2, fun _ _ => none⟩
    [(.insert 0 1 9, fun _ => 0), (.resize 3 2 true, fun _ => 77), (.erase 2 0, fun _ => 0)] := by
  simp [legalRun, legal, DenseSpec.step]

end Ublas
