import Verif.Model.CArrayIter
import Verif.Props.RandomAccess
/-! # C129: the iterators of c_matrix -/
namespace Ublas
variable {R : Type}
namespace RVec

/-- The c_matrix, its capacities and a line of it: the array has room, and fits into the address space. -/
structure CLine (N C : Nat) (ax : Axis) (m : CMatx R) (l : Nat) : Prop where
  data : m.data.length = N * C
  size1 : m.size1 ≤ N
  size2 : m.size2 ≤ C
  line : l < CMat.along ax m.size2 m.size1
  small : (N + 1) * (C + 1) < 2 ^ 63

/-- The element at place `k` of the line: what `m (i, j)` reads. -/
def CLine.val [Inhabited R] (C : Nat) (ax : Axis) (m : CMatx R) (l k : Nat) : R :=
  match ax with
  | .one => m.data.getD (k * C + l) default
  | .two => m.data.getD (l * C + k) default

/-- The offset at which line `l` begins. -/
def CLine.start (C : Nat) (ax : Axis) (l : Nat) : Nat :=
  match ax with
  | .one => l
  | .two => l * C

theorem CLine.facts {N C : Nat} {ax : Axis} {m : CMatx R} {l : Nat} (h : CLine N C ax m l) :
    start C ax l + CMat.along ax m.size1 m.size2 * cstride C ax < 2 ^ 63 ∧
    ∀ k, k < CMat.along ax m.size1 m.size2 → start C ax l + k * cstride C ax < m.data.length ∧ 0 < cstride C ax ∧
      (start C ax l + k * cstride C ax) / C = CMat.along ax k l ∧ (start C ax l + k * cstride C ax) % C = CMat.along ax l k ∧
      CMat.along ax k l < m.size1 ∧ CMat.along ax l k < m.size2 := by
  obtain ⟨h1, h2, h3, h4, h5⟩ := h
  cases ax <;> simp only [CMat.along, start, cstride] at h4 ⊢
  · refine ⟨?_, fun k hk => ?_⟩
    · have := Nat.mul_le_mul_right C h2
      nlinarith
    · have hC : 0 < C := by omega
      have hb : k * C + l < N * C := by have := row_lt (show k < N by omega) (show l < C by omega); omega
      refine ⟨by omega, hC, ?_, ?_, hk, h4⟩
      · rw [Nat.add_mul_div_right _ _ hC, Nat.div_eq_of_lt (by omega)]; omega
      · rw [Nat.add_mul_mod_self_right, Nat.mod_eq_of_lt (by omega)]
  · refine ⟨?_, fun k hk => ?_⟩
    · have := Nat.mul_le_mul_right C (show l ≤ N by omega)
      nlinarith
    · have hC : 0 < C := by omega
      have hb : l * C + k < N * C := by have := row_lt (show l < N by omega) (show k < C by omega); omega
      rw [Nat.mul_one]
      refine ⟨by omega, by omega, ?_, ?_, h4, hk⟩
      · rw [Nat.add_comm, Nat.add_mul_div_right _ _ hC, Nat.div_eq_of_lt (by omega)]; omega
      · rw [Nat.add_comm, Nat.add_mul_mod_self_right, Nat.mod_eq_of_lt (by omega)]

theorem cstride_pos {N C : Nat} {ax : Axis} {m : CMatx R} {l : Nat} (h : CLine N C ax m l) : 0 < cstride C ax := by
  have h3 := h.size2
  have h4 := h.line
  cases ax <;> simp only [CMat.along, cstride] at h4 ⊢ <;> omega

theorem cline_law (dbg : Bool) [Inhabited R] {N C : Nat} {ax : Axis} {m : CMatx R} {l : Nat} (h : CLine N C ax m l) :
    (cline dbg C ax m l).Law (CMat.along ax m.size1 m.size2) (CLine.val C ax m l) id (decide (ax = .two))
      (fun k p => p = CLine.start C ax l + k * cstride C ax) :=
  have F := h.facts
  have Y := cstride_pos h
  have top : ∀ k, k ≤ CMat.along ax m.size1 m.size2 → CLine.start C ax l + k * cstride C ax < 2 ^ 63 := by
    intro k hk
    have := Nat.mul_le_mul_right (cstride C ax) hk
    have := F.1
    omega
  have hv : ∀ k, m.data.getD (CLine.start C ax l + k * cstride C ax) default = CLine.val C ax m l k := by
    intro k
    cases ax
    · simp only [CLine.val, CLine.start, cstride, Nat.add_comm]
    · simp only [CLine.val, CLine.start, cstride, Nat.mul_one]
  have hd : ∀ k p, p = CLine.start C ax l + k * cstride C ax → k < CMat.along ax m.size1 m.size2 →
      (cline dbg C ax m l).deref p = .ok (CLine.val C ax m l k) := by
    intro k p hp hk
    subst hp
    obtain ⟨h0, _, h1, h2, h3, h4⟩ := F.2 k hk
    rw [← hv k]
    simp only [cline]
    rw [h1, h2, check_true h3, bind_ok, check_true h4, bind_ok, rd_ok h0]
    simp [List.getD, h0]
  have hp : ∀ (k : Nat) (p : Nat) (d : Int) (j : Nat), p = CLine.start C ax l + k * cstride C ax → k ≤ CMat.along ax m.size1 m.size2 →
      j ≤ CMat.along ax m.size1 m.size2 → (k : Int) + d = j →
      ∃ q, (cline dbg C ax m l).plus p d = .ok q ∧ q = CLine.start C ax l + j * cstride C ax := by
    intro k p d j hp hk hj e
    subst hp
    refine ⟨_, rfl, ?_⟩
    have := top j hj
    apply u64_shift (by omega)
    have : d = (j : Int) - k := by omega
    subst this
    push_cast
    ring
  { size := rfl
    find := by
      intro k hk
      refine ⟨CLine.start C ax l + k * cstride C ax, ?_, rfl⟩
      cases ax
      · simp only [cline, CLine.start, cstride, Nat.add_comm]
      · simp only [cline, CLine.start, cstride, Nat.mul_one]
    next := by
      intro k p hp hk
      subst hp
      refine ⟨CLine.start C ax l + (k + 1) * cstride C ax, ?_, rfl⟩
      have := top (k + 1) (by omega)
      have e : (k + 1) * cstride C ax = k * cstride C ax + cstride C ax := by ring
      show (Except.ok (u64 (((CLine.start C ax l + k * cstride C ax : Nat) : Int) + cstride C ax)) : M Nat) = .ok (CLine.start C ax l + (k + 1) * cstride C ax)
      rw [e] at this ⊢
      generalize k * cstride C ax = t at this ⊢
      generalize cstride C ax = st at this ⊢
      rw [u64_of (by omega) (by omega)]; congr 1; omega
    prev := by
      intro k p hp hk
      subst hp
      refine ⟨CLine.start C ax l + k * cstride C ax, ?_, rfl⟩
      have := top (k + 1) (by omega)
      have e : (k + 1) * cstride C ax = k * cstride C ax + cstride C ax := by ring
      show (Except.ok (u64 (((CLine.start C ax l + (k + 1) * cstride C ax : Nat) : Int) - cstride C ax)) : M Nat) = .ok (CLine.start C ax l + k * cstride C ax)
      rw [e] at this ⊢
      generalize k * cstride C ax = t at this ⊢
      generalize cstride C ax = st at this ⊢
      rw [u64_of (by omega) (by omega)]; congr 1; omega
    plus := hp
    minus := by
      intro k p d j hp hk hj e
      subst hp
      refine ⟨_, rfl, ?_⟩
      have := top j hj
      apply u64_shift_sub (by omega)
      have : d = (k : Int) - j := by omega
      subst this
      push_cast
      ring
    diff := by
      intro k j p q h1 h2 hk hj hh
      subst h1 h2
      show Except.ok _ = _
      cases ax with
      | one =>
        simp only [reduceCtorEq, decide_false, Bool.false_eq_true, false_or] at hh
        simp only [cdistance, cstride, CLine.start] at Y F ⊢
        rw [quotient_ok Y F.1 hk hh]
      | two => simp only [cdistance, cstride, Nat.mul_one]; congr 1; omega
    eq := by
      intro k j p q h1 h2 hk hj
      subst h1 h2
      show Except.ok _ = _
      congr 1; apply decide_eq_decide.2
      constructor
      · intro e; exact Nat.eq_of_mul_eq_mul_right Y (by omega)
      · intro e; rw [e]
    lt := by
      intro k j p q h1 h2 hk hj
      subst h1 h2
      show Except.ok _ = _
      congr 1; apply decide_eq_decide.2
      constructor
      · intro e; exact Nat.lt_of_mul_lt_mul_right (a := cstride C ax) (by omega)
      · intro e; have := Nat.mul_lt_mul_of_pos_right e Y; omega
    index := by
      intro k p hp hk
      subst hp
      obtain ⟨_, _, h1, h2, _, _⟩ := F.2 k hk
      simp only [cline]
      rw [h1, h2]
      cases ax <;> rfl
    deref := hd
    sub := by
      intro k p d j hp' hk hj e
      obtain ⟨q, e1, e2⟩ := hp k p d j hp' hk (by omega) e
      show ((cline dbg C ax m l).plus p d >>= fun q => (cline dbg C ax m l).deref q) = _
      rw [e1, bind_ok, hd j q e2 hj]
    at_ := by
      intro k hk
      obtain ⟨h0, _, h1, h2, h3, h4⟩ := F.2 k hk
      rw [← hv k]
      cases ax <;> simp only [CMat.along] at h3 h4 <;> simp only [cline, CMatx.get, id, check_true h3, check_true h4, bind_ok]
      · have : k * C + l = CLine.start C .one l + k * cstride C .one := by simp only [CLine.start, cstride]; omega
        rw [this, rd_ok h0]; have := h.size2; simp [List.getD, h0]; omega
      · have : l * C + k = CLine.start C .two l + k * cstride C .two := by simp only [CLine.start, cstride]; omega
        rw [this, rd_ok h0]; have := h.size2; simp [List.getD, h0]; omega }

theorem cline_guard [Inhabited R] {N C : Nat} {ax : Axis} {m : CMatx R} {l : Nat} (h : CLine N C ax m l) (hg : ax = .two → m.size2 < C) :
    (cline true C ax m l).Guard (CMat.along ax m.size1 m.size2) true (fun k p => p = CLine.start C ax l + k * cstride C ax) :=
  have L := cline_law true h
  have hi : CMat.along ax ((CLine.start C ax l + CMat.along ax m.size1 m.size2 * cstride C ax) / C)
      ((CLine.start C ax l + CMat.along ax m.size1 m.size2 * cstride C ax) % C) = CMat.along ax m.size1 m.size2 ∧
      (ax = .two → (CLine.start C ax l + CMat.along ax m.size1 m.size2 * cstride C ax) / C < m.size1) := by
    have h3 := h.size2
    have h4 := h.line
    cases ax <;> simp only [CMat.along, CLine.start, cstride] at h4 ⊢
    · refine ⟨?_, by simp⟩
      rw [Nat.add_mul_div_right _ _ (by omega), Nat.div_eq_of_lt (by omega)]; omega
    · have := hg rfl
      rw [Nat.mul_one, Nat.add_comm]
      refine ⟨by rw [Nat.add_mul_mod_self_right, Nat.mod_eq_of_lt this], fun _ => ?_⟩
      rw [Nat.add_mul_div_right _ _ (by omega), Nat.div_eq_of_lt this]; omega
  have hd : ∀ p, p = CLine.start C ax l + CMat.along ax m.size1 m.size2 * cstride C ax → (cline true C ax m l).deref p = .error .badIndex := by
    intro p hp
    rw [← hp] at hi
    simp only [cline]
    cases ax with
    | one =>
      have : ¬ p / C < m.size1 := by have := hi.1; simp only [CMat.along] at this; omega
      rw [check_dbg_false this, bind_error]
    | two =>
      have : ¬ p % C < m.size2 := by have := hi.1; simp only [CMat.along] at this; omega
      rw [check_true (hi.2 rfl), bind_ok, check_dbg_false this, bind_error]
  { index := by
      intro p hp
      subst hp
      right
      simp only [cline]
      rw [hi.1]
    deref := hd
    sub := by
      intro _ k p d hp hk e
      obtain ⟨q, e1, e2⟩ := L.plus k p d _ hp hk (Nat.le_refl _) e
      show ((cline true C ax m l).plus p d >>= fun q => (cline true C ax m l).deref q) = _
      rw [e1, bind_ok, hd q e2] }

/-- **C129** (iterators): the iterators of every row and column of a c_matrix are random-access iterators over its elements, except that the difference of two
iterators of a column is only claimed when it is not negative. -/
theorem C129_random_access_partial (dbg : Bool) [Inhabited R] {N C : Nat} {ax : Axis} {m : CMatx R} {l : Nat} (h : CLine N C ax m l) :
    (cline dbg C ax m l).RandomAccess (CMat.along ax m.size1 m.size2) (CLine.val C ax m l) id (decide (ax = .two)) := (cline_law dbg h).randomAccess

/-- **C129** (reverse iterators). -/
theorem C129_reverse_partial (dbg : Bool) [Inhabited R] {N C : Nat} {ax : Axis} {m : CMatx R} {l : Nat} (h : CLine N C ax m l) :
    (cline dbg C ax m l).rev.RandomAccess (CMat.along ax m.size1 m.size2) (fun k => CLine.val C ax m l (CMat.along ax m.size1 m.size2 - 1 - k))
      (fun k => CMat.along ax m.size1 m.size2 - 1 - k) (decide (ax = .two)) := (cline_law dbg h).rev.randomAccess

/-- **C129** (the end in a checked build): `*` and `it [d]` meaning the end raise `bad_index` at the end of a column, and at the end of a row shorter than the capacity. -/
theorem C129_end_refused_partial [Inhabited R] {N C : Nat} {ax : Axis} {m : CMatx R} {l : Nat} (h : CLine N C ax m l) (hg : ax = .two → m.size2 < C) :
    (cline true C ax m l).EndRefused (CMat.along ax m.size1 m.size2) true := (cline_law true h).endRefused (cline_guard h hg)

/-- A 2 × 2 c_matrix of capacity 3 × 2. -/
def demoC : CMatx Int := ⟨2, 2, [1, 2, 3, 4, 0, 0]⟩

theorem demoC_line (ax : Axis) : CLine 3 2 ax demoC 0 := by cases ax <;> exact ⟨by decide, by decide, by decide, by decide, by decide⟩

/-- The restriction on differences is needed: `begin1 () - end1 ()` of a 2 × 2 c_matrix of capacity 3 × 2 is 2^63 - 2, not -2. -/
theorem C129_distance_refuted : CLine 3 2 .one demoC 0 ∧ ¬ (cline false 2 .one demoC 0).RandomAccess 2 (CLine.val 2 .one demoC 0) id true := by
  refine ⟨demoC_line .one, fun H => ?_⟩
  obtain ⟨p, q, e1, e2, h⟩ := H false [] true [] trivial trivial
  cases e1
  cases e2
  have := h.2.2.2.2.2.2.1 (Or.inl rfl)
  revert this
  decide

/-- The end of a row as long as the capacity is not noticed by a checked build: `*` reads the first element of the next row. -/
theorem C129_line_end_refuted : CLine 3 2 .two demoC 0 ∧ ¬ (cline true 2 .two demoC 0).EndRefused 2 true := by
  refine ⟨demoC_line .two, fun H => ?_⟩
  obtain ⟨p, e1, h⟩ := H true [] trivial
  cases e1
  have := h.1 rfl
  revert this
  decide

example : ((cline true 2 .two demoC 0).deref (2 : Nat)) = .ok 3 ∧ ((cline true 2 .one demoC 1).deref (3 : Nat)) = .ok 4 := by decide

end RVec
end Ublas
