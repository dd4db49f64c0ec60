import Verif.Spec.Banded
import Mathlib.Tactic.Ring
import Mathlib.Tactic.Linarith
/-! # C11, C61: banded matrices -/
namespace Ublas
open BandSpec
variable {α : Type}

theorem inBand_iff (m : BMat α) (i j : Nat) : m.inBand i j = true ↔ InBand m.lower m.upper i j := by
  simp [BMat.inBand, InBand]; omega

def bcell (o : Orient) (l u i j : Nat) : Nat :=
  match o with
  | .col => u + i + j * (l + 1 + u) - j
  | .row => i * (l + 1 + u) + l + j - i

theorem bidx_eq {dbg : Bool} {o : Orient} {m : BMat α} {i j : Nat} (hi : i < m.size1) (hj : j < m.size2)
    (h : InBand m.lower m.upper i j) : BMat.getIndex dbg o m i j = .ok (bcell o m.lower m.upper i j) := by
  obtain ⟨h1, h2⟩ := h
  cases o
  · have g : i ≤ m.lower + j ∧ m.lower + j - i < m.lower + 1 + m.upper := by omega
    simp only [BMat.getIndex, check_true hi, check_true g, bind_ok, bcell, pure_eq_ok]
  · have g : j ≤ m.upper + i ∧ m.upper + i - j < m.lower + 1 + m.upper := by omega
    simp only [BMat.getIndex, check_true hj, check_true g, bind_ok, bcell, pure_eq_ok]

/-- Two numbers with the same quotient decomposition. -/
theorem decomp_inj {w q q' r r' : Nat} (hr : r < w) (hr' : r' < w) (h : q * w + r = q' * w + r') :
    q = q' ∧ r = r' := by
  have h1 : (q * w + r) / w = q := by
    rw [Nat.add_comm, Nat.add_mul_div_right _ _ (by omega), Nat.div_eq_of_lt hr]; omega
  have h2 : (q' * w + r') / w = q' := by
    rw [Nat.add_comm, Nat.add_mul_div_right _ _ (by omega), Nat.div_eq_of_lt hr']; omega
  have : q = q' := by rw [← h1, h, h2]
  subst this
  exact ⟨rfl, by omega⟩

theorem bcell_decomp {o : Orient} {l u i j : Nat} (h : InBand l u i j) :
    ∃ q r, bcell o l u i j = q * (l + 1 + u) + r ∧ r < l + 1 + u ∧
      (match o with | .row => q = i ∧ i + r = l + j | .col => q = j ∧ j + r = u + i) := by
  obtain ⟨h1, h2⟩ := h
  cases o
  · exact ⟨i, l + j - i, by simp [bcell]; omega, by omega, rfl, by omega⟩
  · exact ⟨j, u + i - j, by simp [bcell]; omega, by omega, rfl, by omega⟩

theorem bcell_lt {o : Orient} {l u i j s1 s2 : Nat} (h : InBand l u i j) (hi : i < s1) (hj : j < s2) :
    bcell o l u i j < BMat.bandSize o s1 s2 * (l + 1 + u) := by
  obtain ⟨q, r, e, hr, hq⟩ := bcell_decomp (o := o) h
  have hlt : q < BMat.bandSize o s1 s2 := by cases o <;> simp_all [BMat.bandSize]
  rw [e]
  calc q * (l + 1 + u) + r < q * (l + 1 + u) + (l + 1 + u) := by omega
    _ = (q + 1) * (l + 1 + u) := by ring
    _ ≤ _ := Nat.mul_le_mul_right _ hlt

theorem bcell_inj {o : Orient} {l u i j i' j' : Nat} (h : InBand l u i j) (h' : InBand l u i' j')
    (he : bcell o l u i j = bcell o l u i' j') : i = i' ∧ j = j' := by
  obtain ⟨q, r, e, hr, hq⟩ := bcell_decomp (o := o) h
  obtain ⟨q', r', e', hr', hq'⟩ := bcell_decomp (o := o) h'
  rw [e, e'] at he
  obtain ⟨rfl, rfl⟩ := decomp_inj hr hr' he
  cases o <;> simp only at hq hq' <;> omega

/-- The band storage is at least as large as the constructor made it. -/
def BWF (o : Orient) (m : BMat α) : Prop :=
  BMat.bandSize o m.size1 m.size2 * (m.lower + 1 + m.upper) ≤ m.data.length

/-- **C11** (layout).  For any shape and bandwidths, in both orientations and build modes, every in-band position has
its own cell inside the storage allocated by the constructor. -/
theorem C11_band_layout (dbg : Bool) (o : Orient) (m : BMat α) (hw : BWF o m) :
    ∀ i j, i < m.size1 → j < m.size2 → InBand m.lower m.upper i j →
      ∃ k, BMat.getIndex dbg o m i j = .ok k ∧ k < m.data.length ∧
        ∀ i' j', i' < m.size1 → j' < m.size2 → InBand m.lower m.upper i' j' →
          BMat.getIndex dbg o m i' j' = .ok k → i' = i ∧ j' = j := by
  intro i j hi hj hb
  refine ⟨_, bidx_eq hi hj hb, Nat.lt_of_lt_of_le (bcell_lt hb hi hj) hw, ?_⟩
  intro i' j' hi' hj' hb' he
  rw [bidx_eq hi' hj' hb'] at he
  exact bcell_inj hb' hb (by simpa using he)

/-- **C11** (rejection).  Off-band writes raise `bad_index` when checks are on. -/
theorem C11_off_band_rejected (o : Orient) (m : BMat α) (i j : Nat) (v : α)
    (h : ¬ (i < m.size1 ∧ j < m.size2 ∧ InBand m.lower m.upper i j)) : m.set true o i j v = .error .badIndex := by
  unfold BMat.set
  by_cases hi : i < m.size1
  · by_cases hj : j < m.size2
    · have hb : ¬ m.inBand i j = true := by rw [inBand_iff]; tauto
      rw [check_true hi, check_true hj, check_dbg_false hb]; rfl
    · rw [check_true hi, check_dbg_false hj]; rfl
  · rw [check_dbg_false hi]; rfl

theorem bget_in [Zero α] {dbg : Bool} {o : Orient} {m : BMat α} {i j : Nat} (hi : i < m.size1) (hj : j < m.size2)
    (h : InBand m.lower m.upper i j) : m.get dbg o i j = rd dbg m.data (bcell o m.lower m.upper i j) := by
  have h' := (inBand_iff m i j).2 h
  simp only [BMat.get, check_true hi, check_true hj, bind_ok, h', if_true, bidx_eq hi hj h]

theorem bget_off [Zero α] {dbg : Bool} {o : Orient} {m : BMat α} {i j : Nat} (hi : i < m.size1) (hj : j < m.size2)
    (h : ¬ InBand m.lower m.upper i j) : m.get dbg o i j = .ok 0 := by
  have h' : ¬ m.inBand i j = true := by rwa [inBand_iff]
  simp only [BMat.get, check_true hi, check_true hj, bind_ok, h', if_false, pure_eq_ok, Bool.false_eq_true]

theorem bstep [Zero α] (dbg : Bool) (o : Orient) (junk : Nat → α) (m : BMat α) (s : Spec α) (op : BMat.Op α)
    (hw : BWF o m) (hm : Implements dbg o m s) (hl : legal s op) :
    ∃ m', m.step dbg o junk op = .ok m' ∧ BWF o m' ∧ Implements dbg o m' (BandSpec.step s op) := by
  obtain ⟨r, c, l, u, val⟩ := s
  obtain ⟨h1, h2, h3, h4, h5⟩ := hm
  simp only at h1 h2 h3 h4 h5
  subst h1 h2 h3 h4
  have wcase : ∀ i j v, i < m.size1 → j < m.size2 → InBand m.lower m.upper i j →
      ∃ m', m.set dbg o i j v = .ok m' ∧ BWF o m' ∧ Implements dbg o m'
        ⟨m.size1, m.size2, m.lower, m.upper, fun a b => if a = i ∧ b = j then some v else val a b⟩ := by
    intro i j v hi hj hb
    have hlt : bcell o m.lower m.upper i j < m.data.length := Nat.lt_of_lt_of_le (bcell_lt hb hi hj) hw
    refine ⟨{ m with data := m.data.set (bcell o m.lower m.upper i j) v }, ?_, by simpa [BWF] using hw, rfl, rfl, rfl, rfl, ?_⟩
    · simp [BMat.set, check_true hi, check_true hj, (inBand_iff m i j).2 hb, bidx_eq hi hj hb, wr_ok hlt]
    intro a b ha hb'
    simp only at ha hb' ⊢
    refine ⟨fun hab => ?_, fun hab => bget_off ha hb' hab⟩
    rw [bget_in (m := { m with data := m.data.set (bcell o m.lower m.upper i j) v }) ha hb' hab]
    by_cases hc : a = i ∧ b = j
    · obtain ⟨rfl, rfl⟩ := hc
      exact ⟨v, by rw [rd_eq_ok, List.getElem?_set_self hlt], by simp⟩
    · obtain ⟨w, hw1, hw2⟩ := (h5 a b ha hb').1 hab
      refine ⟨w, ?_, by simpa [hc] using hw2⟩
      rw [bget_in ha hb' hab, rd_eq_ok] at hw1
      rw [rd_eq_ok, List.getElem?_set_ne, hw1]
      intro he
      have := bcell_inj hb hab he
      exact hc ⟨this.1.symm, this.2.symm⟩
  have rcase : ∀ (m' : BMat α), BWF o m' → ∀ i j, i < m'.size1 → j < m'.size2 → InBand m'.lower m'.upper i j →
      ∃ v, m'.get dbg o i j = .ok v ∧ m'.data[bcell o m'.lower m'.upper i j]? = some v := by
    intro m' hw' i j hi hj hb
    have hlt : bcell o m'.lower m'.upper i j < m'.data.length := Nat.lt_of_lt_of_le (bcell_lt hb hi hj) hw'
    exact ⟨_, by rw [bget_in hi hj hb, rd_ok hlt], by simp [hlt]⟩
  cases op with
  | insert i j v => exact wcase i j v hl.1 hl.2.1 hl.2.2
  | erase i j => exact wcase i j 0 hl.1 hl.2.1 hl.2.2
  | clear =>
    have hwc : BWF o m.clear := by simpa [BMat.clear, BWF] using hw
    refine ⟨_, rfl, hwc, rfl, rfl, rfl, rfl, ?_⟩
    intro i j hi hj
    refine ⟨fun hab => ?_, fun hab => bget_off hi hj hab⟩
    obtain ⟨v, e1, e2⟩ := rcase m.clear hwc i j hi hj hab
    refine ⟨v, e1, ?_⟩
    simp only [BMat.clear, List.getElem?_map, Option.map_eq_some_iff] at e2
    obtain ⟨_, _, rfl⟩ := e2
    simp [BandSpec.step]
  | resize r c l u =>
    have hw' : BWF o (⟨r, c, l, u, Dense.arrayResize junk m.data (max r c * (l + 1 + u))⟩ : BMat α) := by
      have hlen : (Dense.arrayResize junk m.data (max r c * (l + 1 + u))).length = max r c * (l + 1 + u) := by
        unfold Dense.arrayResize
        split
        · symm; assumption
        · simp
      simp only [BWF, hlen]
      apply Nat.mul_le_mul_right
      cases o <;> simp [BMat.bandSize]
    refine ⟨_, by simp [BMat.step, BMat.resize], hw', rfl, rfl, rfl, rfl, ?_⟩
    intro i j hi hj
    refine ⟨fun hab => ?_, fun hab => bget_off hi hj hab⟩
    obtain ⟨v, e1, e2⟩ := rcase _ hw' i j hi hj hab
    exact ⟨v, e1, by simp [BandSpec.step]⟩

/-- **C11** (histories).  From a new banded matrix of any shape and bandwidths, after any legal history of band
writes, erases, clears and non-preserving resizes: no fault, each band element holds the last value written there
(nothing else changed), off-band elements read zero. -/
theorem C11_history [Zero α] (dbg : Bool) (o : Orient) (r c l u : Nat) (junk0 : Nat → α)
    (ops : List (BMat.Op α × (Nat → α))) (hl : legalRun ⟨r, c, l, u, fun _ _ => none⟩ ops) :
    ∃ m', (BMat.make o junk0 r c l u).run dbg o ops = .ok m' ∧
      Implements dbg o m' (BandSpec.run ⟨r, c, l, u, fun _ _ => none⟩ ops) := by
  have main : ∀ (ops : List (BMat.Op α × (Nat → α))) (m : BMat α) (s : Spec α), BWF o m → Implements dbg o m s →
      legalRun s ops → ∃ m', m.run dbg o ops = .ok m' ∧ Implements dbg o m' (BandSpec.run s ops) := by
    intro ops
    induction ops with
    | nil => intro m s _ hm _; exact ⟨m, rfl, hm⟩
    | cons x ops ih =>
      obtain ⟨op, junk⟩ := x
      intro m s hw hm hl
      obtain ⟨m1, e1, hw1, hm1⟩ := bstep dbg o junk m s op hw hm hl.1
      obtain ⟨m2, e2, hm2⟩ := ih m1 _ hw1 hm1 hl.2
      exact ⟨m2, by simp [BMat.run, e1, e2], hm2⟩
  have hw : BWF o (BMat.make o junk0 r c l u) := by simp [BWF, BMat.make]
  refine main ops _ _ hw ⟨rfl, rfl, rfl, rfl, ?_⟩ hl
  intro i j hi hj
  refine ⟨fun hab => ?_, fun hab => bget_off hi hj hab⟩
  have hlt : bcell o l u i j < (BMat.make o junk0 r c l u).data.length :=
    Nat.lt_of_lt_of_le (bcell_lt hab hi hj) hw
  exact ⟨_, by rw [bget_in (m := BMat.make o junk0 r c l u) hi hj hab]; exact rd_ok hlt, by simp⟩

/-- **C61** refuted: `resize` with its default `preserve = true` treats band storage as dense storage.  Already
a 3×3 diagonal matrix resized to its own shape reads outside its array (undefined behaviour in release,
`bad_index` with checks on), so in-band elements are not kept. -/
theorem C61_banded_resize_preserve_refuted :
    (⟨3, 3, 0, 0, [1, 2, 3]⟩ : BMat Int).resize false .row (fun _ => 0) 3 3 0 0 true = .error .ub ∧
    (⟨3, 3, 0, 0, [1, 2, 3]⟩ : BMat Int).resize true .row (fun _ => 0) 3 3 0 0 true = .error .badIndex ∧
    -- and where it stays in bounds it moves values: tridiagonal 3×3 row-major shrunk to 2×2
    (∃ m', (⟨3, 3, 1, 1, [0, 1, 2, 3, 4, 5, 6, 7, 0]⟩ : BMat Int).resize true .row (fun _ => 0) 2 2 1 1 true = .ok m' ∧
      (⟨3, 3, 1, 1, [0, 1, 2, 3, 4, 5, 6, 7, 0]⟩ : BMat Int).get true .row 1 1 = .ok 4 ∧
      m'.get true .row 1 1 ≠ .ok 4) := by
  refine ⟨by decide, by decide, ⟨2, 2, 1, 1, [0, 1, 3, 4, 0, 0]⟩, by decide, by decide, by decide⟩

/-- **C61** (what does hold).  The size and bandwidth bookkeeping of a preserving resize that does not fault is the
requested one. -/
theorem C61_banded_resize_shape_partial (dbg : Bool) (o : Orient) (junk : Nat → α) (m m' : BMat α) (s1 s2 l u : Nat)
    (p : Bool) (h : m.resize dbg o junk s1 s2 l u p = .ok m') :
    m'.size1 = s1 ∧ m'.size2 = s2 ∧ m'.lower = l ∧ m'.upper = u := by
  cases p
  · simp only [BMat.resize, Bool.false_eq_true, if_false, Except.ok.injEq] at h
    subst h; simp
  · simp only [BMat.resize, if_true] at h
    cases hr : Dense.resizePreserve dbg o ⟨m.size1, m.size2, m.data⟩ ⟨s1, s2, (BMat.make o junk s1 s2 l u).data⟩ with
    | error e => rw [hr] at h; simp at h
    | ok r => rw [hr] at h; simp at h; subst h; simp

-- Non-vacuity
example : legalRun (⟨3, 4, 1, 0, fun _ _ => none⟩ : Spec Int)
    [(.insert 2 1 5, fun _ => 0), (.clear, fun _ => 0), (.resize 2 2 0 1, fun _ => 3), (.insert 0 1 9, fun _ => 0)] := by
  simp [legalRun, legal, BandSpec.step, InBand]
example : ∃ m : BMat Int, (BMat.make .col (fun _ => 7) 3 4 1 0).run true .col
    [(.clear, fun _ => 0), (.insert 2 1 5, fun _ => 0)] = .ok m ∧ m.get true .col 2 1 = .ok 5 ∧
    m.get true .col 2 2 = .ok 0 ∧ m.get true .col 0 3 = .ok 0 ∧ m.set true .col 0 3 1 = .error .badIndex :=
  ⟨⟨3, 4, 1, 0, [0, 0, 0, 5, 0, 0, 0, 0]⟩, by decide, by decide, by decide, by decide, by decide⟩

end Ublas
