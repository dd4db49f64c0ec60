import Verif.Lemmas.Packed
import Verif.Spec.Packed
/-! # C06, C07, C08, C09, C10: triangular, symmetric and hermitian matrices -/
namespace Ublas
open Packed PackedSpec
variable {α : Type}

theorem other_iff (t : Tri) (i j : Nat) : other t i j = true ↔ Mutable t i j := by
  obtain ⟨k, u⟩ := t
  cases k <;> cases u <;> simp [other, lother, Mutable]

theorem fit_of (dbg : Bool) (t : Tri) (r c : Nat) (h : ShapeOk dbg t r c) : Fit dbg t r c := by
  obtain ⟨k, u⟩ := t
  cases u
  · exact fun hd => h hd
  · intro hd
    rcases h hd with h' | ⟨h1, h2, h3⟩
    · exact Or.inl h'
    · exact Or.inr ⟨h2, h1, h3⟩

theorem shapeOk_square (dbg : Bool) (t : Tri) (n : Nat) (h : n ≠ 0) : ShapeOk dbg t n n := by
  intro _; right; simp [h]

/-- **C06**.  For all six structures, both orientations and both build modes: in a non-empty square matrix every
mutable position gets a cell inside the packed storage without an exception, and different positions get
different cells. -/
theorem C06_packed_layout (dbg : Bool) (t : Tri) (o : Orient) (n : Nat) (hn : n ≠ 0) :
    ∃ sz, packedSize dbg t n n = .ok sz ∧
    ∀ i j, i < n → j < n → Mutable t i j →
      ∃ k, element dbg t o i n j n = .ok k ∧ k < sz ∧
        ∀ i' j', i' < n → j' < n → Mutable t i' j' → element dbg t o i' n j' n = .ok k → i' = i ∧ j' = j := by
  have hf := fit_of dbg t n n (shapeOk_square dbg t n hn)
  refine ⟨_, packedSize_eq hf, ?_⟩
  intro i j hi hj hm
  rw [← other_iff] at hm
  refine ⟨_, element_eq hf hi hj hm, cellOf_lt hi hj hm, ?_⟩
  intro i' j' hi' hj' hm' he
  rw [← other_iff] at hm'
  rw [element_eq hf hi' hj' hm'] at he
  exact cellOf_inj hi' hj' hm' hi hj hm (by simpa using he)

/-- **C06** (tightness).  The packed storage has exactly one cell per position of the lower triangle:
n(n+1)/2 for lower/upper, n(n-1)/2 for the unit and strict kinds. -/
theorem C06_packed_size (dbg : Bool) (t : Tri) (n : Nat) (hn : n ≠ 0) :
    packedSize dbg t n n = .ok (if t.kind = .lower then n * (n + 1) / 2 else n * (n - 1) / 2) := by
  rw [packedSize_eq (fit_of dbg t n n (shapeOk_square dbg t n hn))]
  obtain ⟨k, u⟩ := t
  cases k <;> cases u <;> simp [psize, lpsize, hn, triangularSize] <;> congr 1
  · ring
  · ring
  all_goals rw [Nat.sub_add_cancel (by omega)]

/-- **C08** (proved part).  For every rectangular shape, every mutable position has its own cell inside the
packed storage and is accepted, in release builds for all structures, and with checks on for lower/upper and for
unit/strict shapes that are not taller (lower) or wider (upper) than square. -/
theorem C08_rectangular_partial (dbg : Bool) (t : Tri) (o : Orient) (r c : Nat) (hs : ShapeOk dbg t r c) :
    ∃ sz, packedSize dbg t r c = .ok sz ∧
    ∀ i j, i < r → j < c → Mutable t i j →
      ∃ k, element dbg t o i r j c = .ok k ∧ k < sz ∧
        ∀ i' j', i' < r → j' < c → Mutable t i' j' → element dbg t o i' r j' c = .ok k → i' = i ∧ j' = j := by
  have hf := fit_of dbg t r c hs
  refine ⟨_, packedSize_eq hf, ?_⟩
  intro i j hi hj hm
  rw [← other_iff] at hm
  refine ⟨_, element_eq hf hi hj hm, cellOf_lt hi hj hm, ?_⟩
  intro i' j' hi' hj' hm' he
  rw [← other_iff] at hm'
  rw [element_eq hf hi' hj' hm'] at he
  exact cellOf_inj hi' hj' hm' hi hj hm (by simpa using he)

/-- **C08** refuted part: with checks on, a tall unit_lower (or strict_lower) matrix rejects some of its own
structural elements with `bad_index`: the column bound is tested after being decremented. -/
theorem C08_refuted :
    ¬ ∀ (t : Tri) (o : Orient) (r c i j : Nat), r ≠ 0 → c ≠ 0 → i < r → j < c → Mutable t i j →
      ∃ k, element true t o i r j c = .ok k := by
  intro h
  obtain ⟨k, hk⟩ := h ⟨.unit, false⟩ .row 5 2 3 1 (by decide) (by decide) (by decide) (by decide) (by decide)
  have : element true ⟨.unit, false⟩ .row 3 5 1 2 = .error .badIndex := by decide
  rw [this] at hk; simp at hk

/-- Exactly which elements of unit/strict lower matrices are wrongly rejected: those of the last column, when the
matrix is taller than wide. -/
theorem C08_rejected_exactly (k : LKind) (hk : k ≠ .lower) (o : Orient) (r c i j : Nat)
    (hi : i < r) (hj : j < c) (hm : Mutable ⟨k, false⟩ i j) :
    element true ⟨k, false⟩ o i r j c = .error .badIndex ↔ j = c - 1 := by
  have hij : j < i := by cases k <;> simp_all [Mutable]
  have g0 : r ≠ 0 ∧ c ≠ 0 ∧ i ≠ 0 := by omega
  have g1 : i - 1 < r - 1 := by omega
  have g2 : j ≤ i - 1 := by omega
  have key : element true ⟨k, false⟩ o i r j c = lowerElement true o (i - 1) (r - 1) j (c - 1) := by
    cases k
    · exact absurd rfl hk
    all_goals
      simp only [element, lelement, Bool.false_eq_true, if_false, check_true g0, bind_ok]
  rw [key, lowerElement.eq_def, check_true g1]
  by_cases h : j < c - 1
  · cases o <;> simp only [check_true h, check_true (show i - 1 ≥ j from g2), bind_ok, pure_eq_ok, reduceCtorEq, false_iff] <;> omega
  · rw [check_dbg_false h]
    simp only [bind_ok, bind_error, true_iff]; omega

/-- Representation invariant: the packed array has the size the constructor gave it. -/
def TWF (t : Tri) (m : TMat α) : Prop := m.data.length = psize t m.size1 m.size2

theorem tget_eq [Zero α] [One α] {dbg : Bool} {t : Tri} {o : Orient} {m : TMat α} {i j : Nat}
    (hf : Fit dbg t m.size1 m.size2) (hi : i < m.size1) (hj : j < m.size2) (h : Mutable t i j) :
    m.get dbg t o i j = rd dbg m.data (cellOf t o i m.size1 j m.size2) := by
  have h' := (other_iff t i j).2 h
  simp only [TMat.get, check_true hi, check_true hj, bind_ok, h', if_true, element_eq hf hi hj h']

theorem tget_fixed [Zero α] [One α] {dbg : Bool} {t : Tri} {o : Orient} {m : TMat α} {i j : Nat}
    (hi : i < m.size1) (hj : j < m.size2) (h : ¬ Mutable t i j) :
    m.get dbg t o i j = .ok (fixedValue t i j) := by
  have h' : ¬ other t i j = true := by rwa [other_iff]
  simp only [TMat.get, check_true hi, check_true hj, bind_ok, if_neg h', fixedValue, pure_eq_ok]
  obtain ⟨k, u⟩ := t
  cases k <;> cases u <;> simp [one, lone] <;> by_cases hij : i = j <;> simp [hij] <;> intro hji <;> exact absurd hji.symm hij

theorem tset_eq {dbg : Bool} {t : Tri} {o : Orient} {m : TMat α} {i j : Nat} {v : α}
    (hf : Fit dbg t m.size1 m.size2) (hw : TWF t m) (hi : i < m.size1) (hj : j < m.size2) (h : Mutable t i j) :
    m.set dbg t o i j v = .ok { m with data := m.data.set (cellOf t o i m.size1 j m.size2) v } := by
  have h' := (other_iff t i j).2 h
  have hl : cellOf t o i m.size1 j m.size2 < m.data.length := by rw [hw]; exact cellOf_lt hi hj h'
  simp [TMat.set, check_true hi, check_true hj, h', element_eq hf hi hj h', wr_ok hl]

/-- **C07** (rejection).  `m (i, j) = v` at an immutable position of a matrix raises `bad_index`, in every build
mode. -/
theorem C07_write_outside_rejected (dbg : Bool) (t : Tri) (o : Orient) (m : TMat α) (i j : Nat) (v : α)
    (h : ¬ Mutable t i j) : m.set dbg t o i j v = .error .badIndex := by
  have h' : other t i j = false := by
    rw [← Bool.not_eq_true]; exact fun hh => h ((other_iff t i j).1 hh)
  unfold TMat.set
  cases dbg
  · simp [h']; rfl
  · by_cases hi : i < m.size1
    · by_cases hj : j < m.size2
      · simp [check_true hi, check_true hj, h']; rfl
      · simp [check_true hi, check_dbg_false hj]
    · simp [check_dbg_false hi]

theorem tstep [Zero α] [One α] (dbg : Bool) (t : Tri) (o : Orient) (junk : Nat → α) (m : TMat α)
    (s : DenseSpec.Spec α) (op : Dense.Op α) (hw : TWF t m) (hs : ShapeOk dbg t s.rows s.cols)
    (hm : Implements dbg t o m s) (hl : legal dbg t s op) :
    ∃ m', m.step dbg t o junk op = .ok m' ∧ TWF t m' ∧
      ShapeOk dbg t (DenseSpec.step 0 s op).rows (DenseSpec.step 0 s op).cols ∧
      Implements dbg t o m' (DenseSpec.step 0 s op) := by
  obtain ⟨h1, h2, h3⟩ := hm
  have hf : Fit dbg t m.size1 m.size2 := by rw [h1, h2]; exact fit_of _ _ _ _ hs
  have wcase : ∀ i j v, i < s.rows → j < s.cols → Mutable t i j →
      ∃ m', m.set dbg t o i j v = .ok m' ∧ TWF t m' ∧ ShapeOk dbg t s.rows s.cols ∧
      Implements dbg t o m'
        { s with val := fun a b => if a = i ∧ b = j then some v else s.val a b } := by
    intro i j v hi hj hmu
    rw [← h1] at hi; rw [← h2] at hj
    have hl : cellOf t o i m.size1 j m.size2 < m.data.length := by
      rw [hw]; exact cellOf_lt hi hj ((other_iff t i j).2 hmu)
    refine ⟨_, tset_eq hf hw hi hj hmu, by simpa [TWF] using hw, hs, h1, h2, ?_⟩
    intro a b ha hb
    simp only at ha hb ⊢
    refine ⟨fun hab => ?_, fun hab => tget_fixed (by simp; omega) (by simp; omega) hab⟩
    have ha' : a < m.size1 := by omega
    have hb' : b < m.size2 := by omega
    rw [tget_eq (m := { m with data := m.data.set (cellOf t o i m.size1 j m.size2) v }) hf ha' hb' hab]
    by_cases hc : a = i ∧ b = j
    · obtain ⟨rfl, rfl⟩ := hc
      exact ⟨v, by rw [rd_eq_ok, List.getElem?_set_self hl], by simp⟩
    · obtain ⟨w, hw1, hw2⟩ := (h3 a b ha hb).1 hab
      refine ⟨w, ?_, by simpa [hc] using hw2⟩
      rw [tget_eq hf ha' hb' hab, rd_eq_ok] at hw1
      rw [rd_eq_ok, List.getElem?_set_ne, hw1]
      intro he
      have := cellOf_inj hi hj ((other_iff t i j).2 hmu) ha' hb' ((other_iff t a b).2 hab) he
      exact hc ⟨this.1.symm, this.2.symm⟩
  -- reading any matrix of legal shape never faults
  have rcase : ∀ (m' : TMat α), TWF t m' → Fit dbg t m'.size1 m'.size2 → ∀ i j, i < m'.size1 → j < m'.size2 →
      Mutable t i j → ∃ v, m'.get dbg t o i j = .ok v ∧ m'.data[cellOf t o i m'.size1 j m'.size2]? = some v := by
    intro m' hw' hf' i j hi hj hmu
    have hl : cellOf t o i m'.size1 j m'.size2 < m'.data.length := by
      rw [hw']; exact cellOf_lt hi hj ((other_iff t i j).2 hmu)
    exact ⟨_, by rw [tget_eq hf' hi hj hmu, rd_ok hl], by simp [hl]⟩
  cases op with
  | insert i j v => exact wcase i j v hl.1 hl.2.1 hl.2.2
  | erase i j => exact wcase i j 0 hl.1 hl.2.1 hl.2.2
  | clear =>
    have hwc : TWF t m.clear := by simpa [TMat.clear, TWF] using hw
    refine ⟨_, rfl, hwc, hs, h1, h2, ?_⟩
    intro i j hi hj
    simp only [DenseSpec.step] at hi hj ⊢
    refine ⟨fun hab => ?_, fun hab => tget_fixed (by simp [TMat.clear]; omega) (by simp [TMat.clear]; omega) hab⟩
    obtain ⟨v, e1, e2⟩ := rcase m.clear hwc hf i j (by simp [TMat.clear]; omega) (by simp [TMat.clear]; omega) hab
    refine ⟨v, e1, ?_⟩
    simp only [TMat.clear, List.getElem?_map, Option.map_eq_some_iff] at e2
    obtain ⟨_, _, rfl⟩ := e2
    simp
  | resize r c p =>
    have hf' : Fit dbg t r c := fit_of _ _ _ _ hl
    cases p with
    | true =>
      obtain ⟨d, e1, e2, e3⟩ := resizeLoop_spec dbg t o m.size1 m.size2 m.data r c
        ((List.range (psize t r c)).map junk) hf hf' hw (by simp)
      refine ⟨⟨r, c, d⟩, ?_, e2, hl, rfl, rfl, ?_⟩
      · simp [TMat.step, TMat.resize, TMat.make, packedSize_eq hf', e1]
      intro i j hi hj
      simp only [DenseSpec.step] at hi hj ⊢
      refine ⟨fun hab => ?_, fun hab => tget_fixed hi hj hab⟩
      obtain ⟨v, g1, g2⟩ := rcase ⟨r, c, d⟩ e2 hf' i j hi hj hab
      refine ⟨v, g1, ?_⟩
      by_cases hin : i < s.rows ∧ j < s.cols
      · simp only at g2
        obtain ⟨w, hw1, hw2⟩ := (h3 i j hin.1 hin.2).1 hab
        rw [tget_eq hf (by omega) (by omega) hab, rd_eq_ok] at hw1
        rw [e3 i j (by omega) (by omega) ((other_iff t i j).2 hab), hw1] at g2
        simpa [hin] using (show v = w by simpa using g2.symm) ▸ hw2
      · simp [hin]
    | false =>
      have hw' : TWF t (⟨r, c, Dense.arrayResize junk m.data (psize t r c)⟩ : TMat α) := by
        show (Dense.arrayResize junk m.data (psize t r c)).length = psize t r c
        unfold Dense.arrayResize
        split
        · symm; assumption
        · simp
      refine ⟨_, by simp [TMat.step, TMat.resize, packedSize_eq hf'], hw', hl, rfl, rfl, ?_⟩
      intro i j hi hj
      refine ⟨fun hab => ?_, fun hab => tget_fixed hi hj hab⟩
      obtain ⟨v, g1, g2⟩ := rcase _ hw' hf' i j hi hj hab
      exact ⟨v, g1, by simp [DenseSpec.step]⟩

/-- **C07** (histories).  After any legal history of writes, erases, clears and resizes of a triangular_matrix
of any structure and orientation, no operation has faulted; mutable positions hold the last value written
(unspecified if never written since allocated), all others read as their fixed value. -/
theorem C07_history [Zero α] [One α] (dbg : Bool) (t : Tri) (o : Orient) (ops : List (Dense.Op α × (Nat → α))) :
    ∀ (m : TMat α) (s : DenseSpec.Spec α), TWF t m → ShapeOk dbg t s.rows s.cols → Implements dbg t o m s →
      legalRun dbg t s ops →
      ∃ m', m.run dbg t o ops = .ok m' ∧ Implements dbg t o m' (DenseSpec.run 0 s ops) := by
  induction ops with
  | nil => intro m s _ _ hm _; exact ⟨m, rfl, hm⟩
  | cons x ops ih =>
    obtain ⟨op, junk⟩ := x
    intro m s hw hs hm hl
    obtain ⟨m1, e1, hw1, hs1, hm1⟩ := tstep dbg t o junk m s op hw hs hm hl.1
    obtain ⟨m2, e2, hm2⟩ := ih m1 _ hw1 hs1 hm1 hl.2
    exact ⟨m2, by simp [TMat.run, e1, e2], hm2⟩

/-- **C07** (start of histories): the constructor gives a matrix implementing the unspecified one. -/
theorem C07_initial [Zero α] [One α] (dbg : Bool) (t : Tri) (o : Orient) (junk : Nat → α) (r c : Nat)
    (hs : ShapeOk dbg t r c) :
    ∃ m, TMat.make dbg t junk r c = .ok m ∧ TWF t m ∧ Implements dbg t o m ⟨r, c, fun _ _ => none⟩ := by
  have hf := fit_of _ _ _ _ hs
  refine ⟨⟨r, c, (List.range (psize t r c)).map junk⟩, by simp [TMat.make, packedSize_eq hf], by simp [TWF], rfl, rfl, ?_⟩
  intro i j hi hj
  refine ⟨fun hab => ?_, fun hab => tget_fixed hi hj hab⟩
  have hl : cellOf t o i r j c < ((List.range (psize t r c)).map junk).length := by
    simpa using cellOf_lt hi hj ((other_iff t i j).2 hab)
  exact ⟨_, by rw [tget_eq hf hi hj hab, rd_ok hl], by simp⟩

-- Non-vacuity: a unit lower 3×3 history with a resize, and a rejected write.
example : ∃ m m' : TMat Int, TMat.make true ⟨.unit, false⟩ (fun _ => 7) 3 3 = .ok m ∧
    m.run true ⟨.unit, false⟩ .col [(.clear, fun _ => 0), (.insert 2 1 5, fun _ => 0),
      (.resize 4 4 true, fun _ => 9)] = .ok m' ∧
    m'.get true ⟨.unit, false⟩ .col 2 1 = .ok 5 ∧ m'.get true ⟨.unit, false⟩ .col 1 1 = .ok 1 ∧
    m'.get true ⟨.unit, false⟩ .col 1 2 = .ok 0 ∧ m'.get true ⟨.unit, false⟩ .col 3 0 = .ok 9 ∧
    m'.set true ⟨.unit, false⟩ .col 1 1 8 = .error .badIndex :=
  ⟨⟨3, 3, [7, 7, 7]⟩, ⟨4, 4, [0, 0, 9, 5, 9, 9]⟩, by decide, by decide, by decide, by decide, by decide,
    by decide, by decide⟩

end Ublas
