import Verif.Props.VectorAssign
import Verif.Props.PackedIter
/-! # Rows of triangular matrices as targets of assignments; swap of packed views (C44, C45) -/
namespace Ublas
open VAssign Packed PackedSpec
variable {R : Type}

/-- Writing one element of a triangular matrix changes that element only. -/
theorem tset_get [Zero R] [One R] {dbg : Bool} {t : Tri} {o : Orient} {m : TMat R} (hf : Fit dbg t m.size1 m.size2) (hw : TWF t m) {i j : Nat}
    (hi : i < m.size1) (hj : j < m.size2) (hmu : Mutable t i j) (x : R) :
    ∃ m', m.set dbg t o i j x = .ok m' ∧ m'.size1 = m.size1 ∧ m'.size2 = m.size2 ∧ TWF t m' ∧
      ∀ a b, a < m.size1 → b < m.size2 → m'.get dbg t o a b = if a = i ∧ b = j then .ok x else m.get dbg t o a b := by
  have hl : cellOf t o i m.size1 j m.size2 < m.data.length := by
    rw [hw]; exact cellOf_lt hi hj ((other_iff t i j).2 hmu)
  refine ⟨_, tset_eq hf hw hi hj hmu, rfl, rfl, by simpa [TWF] using hw, fun a b ha hb => ?_⟩
  by_cases hab : Mutable t a b
  · rw [tget_eq (m := { m with data := m.data.set (cellOf t o i m.size1 j m.size2) x }) hf ha hb hab, tget_eq hf ha hb hab]
    by_cases hc : a = i ∧ b = j
    · obtain ⟨rfl, rfl⟩ := hc
      rw [if_pos ⟨rfl, rfl⟩, rd_eq_ok, List.getElem?_set_self hl]
    · rw [if_neg hc]
      simp only [rd]
      rw [List.getElem?_set_ne]
      intro he
      have := cellOf_inj hi hj ((other_iff t i j).2 hmu) ha hb ((other_iff t a b).2 hab) he
      exact hc ⟨this.1.symm, this.2.symm⟩
  · rw [tget_fixed (m := { m with data := m.data.set (cellOf t o i m.size1 j m.size2) x }) ha hb hab, tget_fixed ha hb hab, if_neg]
    rintro ⟨rfl, rfl⟩; exact hab hmu

/-- The indices the mutable iterators of row `i` visit are the mutable positions of the row. -/
theorem triRow_mem [Zero R] [One R] (dbg : Bool) (t : Tri) (o : Orient) (m : TMat R) (i : Nat) (hi : i < m.size1) (j : Nat) :
    j ∈ (VT.triRow dbg t o i : VT (TMat R) R).its m ↔ j < m.size2 ∧ Mutable t i j := by
  show j ∈ List.range' _ _ ↔ _
  rw [List.mem_range'_1]
  obtain ⟨k, u⟩ := t
  cases k <;> cases u <;> simp only [restrict2, lmrestrict1, lmrestrict2, Mutable] <;> (try split) <;> omega

/-- State of row `i` of a matrix that was `m0` before: the mutable elements of the row are `w`, every other element is that of `m0`. -/
def TriRowRep [Zero R] [One R] (dbg : Bool) (t : Tri) (o : Orient) (i : Nat) (m0 m : TMat R) (n : Nat) (w : Nat → R) (S : List Nat) : Prop :=
  m.size1 = m0.size1 ∧ m.size2 = m0.size2 ∧ TWF t m ∧ n = m.size2 ∧ S = (VT.triRow dbg t o i : VT (TMat R) R).its m ∧
  (∀ j ∈ S, m.get dbg t o i j = .ok (w j)) ∧ (∀ j, j ∉ S → w j = 0) ∧
  ∀ a b, a < m.size1 → b < m.size2 → (a ≠ i ∨ b ∉ S) → m.get dbg t o a b = m0.get dbg t o a b

theorem triRow_supports [Zero R] [One R] (dbg : Bool) (t : Tri) (o : Orient) (i : Nat) (m0 : TMat R) (hs : ShapeOk dbg t m0.size1 m0.size2) (hi : i < m0.size1) :
    (VT.triRow dbg t o i : VT (TMat R) R).Supports .packedProxy (TriRowRep dbg t o i m0) := by
  have hmem : ∀ m n w S, TriRowRep dbg t o i m0 m n w S → ∀ j, j ∈ S ↔ j < n ∧ Mutable t i j := by
    rintro m n w S ⟨a1, a2, a3, a4, a5, a6, a7, a8⟩ j
    rw [a5, triRow_mem dbg t o m i (by omega), a4]
  refine ⟨⟨?_, ?_, ?_, ?_, ?_, ?_, ?_, ?_⟩, rfl⟩
  · rintro m n w S h; exact h.2.2.2.1.symm
  · rintro m n w S h; exact h.2.2.2.2.1.symm
  · rintro m n w S h
    rw [h.2.2.2.2.1]; exact List.pairwise_lt_range'
  · rintro m n w S h j hj; exact ((hmem m n w S h j).1 hj).1
  · rintro m n w S h j _ hj; exact h.2.2.2.2.2.2.1 j hj
  · rintro m n w S h j hj; exact h.2.2.2.2.2.1 j hj
  · rintro m n w S h j hj x
    have hjm := (hmem m n w S h j).1 hj
    obtain ⟨a1, a2, a3, a4, a5, a6, a7, a8⟩ := h
    have hf : Fit dbg t m.size1 m.size2 := by rw [a1, a2]; exact fit_of _ _ _ _ hs
    obtain ⟨m', e, b1, b2, b3, b4⟩ := tset_get hf a3 (o := o) (by omega) (by omega) hjm.2 x
    refine ⟨m', e, by omega, by omega, b3, by omega, ?_, ?_, ?_, ?_⟩
    · rw [a5]; simp only [VT.triRow, b1, b2]
    · intro k hk
      have hkn : k < n := by
        rw [a5, triRow_mem dbg t o m i (by omega)] at hk; omega
      rw [b4 i k (by omega) (by omega)]
      by_cases hkj : k = j
      · subst hkj; simp
      · rw [if_neg (by simp [hkj]), Function.update_of_ne hkj]; exact a6 k hk
    · intro k hk
      rw [Function.update_of_ne (by rintro rfl; exact hk hj)]; exact a7 k hk
    · intro a b ha hb hne
      rw [b4 a b (by omega) (by omega), if_neg (by
        rintro ⟨rfl, rfl⟩
        rcases hne with h | h
        · exact h rfl
        · exact h hj)]
      exact a8 a b (by omega) (by omega) hne
  · rintro m n w S h _
    refine ⟨restrict2 .mut t i 0 m.size1 m.size2, ?_⟩
    rw [h.2.2.2.2.1]; simp only [VT.triRow, List.length_range']

/-- Every row of a triangular matrix is in such a state. -/
theorem triRowRep_init [Zero R] [One R] (dbg : Bool) (t : Tri) (o : Orient) (i : Nat) (m : TMat R) (hs : ShapeOk dbg t m.size1 m.size2) (hw : TWF t m) (hi : i < m.size1) :
    ∃ w, TriRowRep dbg t o i m m m.size2 w ((VT.triRow dbg t o i : VT (TMat R) R).its m) := by
  classical
  have hf := fit_of dbg t _ _ hs
  have hg : ∀ j, j ∈ (VT.triRow dbg t o i : VT (TMat R) R).its m → ∃ v, m.get dbg t o i j = .ok v := by
    intro j hj
    rw [triRow_mem dbg t o m i hi] at hj
    have hl : cellOf t o i m.size1 j m.size2 < m.data.length := by
      rw [hw]; exact cellOf_lt hi hj.1 ((other_iff t i j).2 hj.2)
    exact ⟨_, by rw [tget_eq hf hi hj.1 hj.2, rd_ok hl]⟩
  refine ⟨fun j => if h : j ∈ (VT.triRow dbg t o i : VT (TMat R) R).its m then (hg j h).choose else 0, rfl, rfl, hw, rfl, rfl, ?_, ?_, fun a b _ _ _ => rfl⟩
  · intro j hj
    simp only [hj, dif_pos]
    exact (hg j hj).choose_spec
  · intro j hj; simp only [hj, dif_neg, not_false_eq_true]

/-- **C44** for a row of a triangular matrix: `row (m, i) = e` / `+= e` / `-= e` stores `e` in the triangle's part of the row and changes nothing else.
`e` is any dense, packed or sparse operand; a sparse one must be zero outside the triangle. -/
theorem C44_triangular_row [Ring R] [DecidableEq R] (dbg : Bool) (mode : ProdFn.Mode) (t : Tri) (o : Orient) (F : AssignF) (i : Nat) (m : TMat R)
    (hs : ShapeOk dbg t m.size1 m.size2) (hw : TWF t m) (hi : i < m.size1) (e : Seq R) (c : Nat → R) (he : e.Presents m.size2 c)
    (hout : e.cat = .sparse → ∀ j, j < m.size2 → ¬ Mutable t i j → c j = 0) :
    ∃ m', assign dbg mode .packedProxy (VT.triRow dbg t o i) F (VExpr.const e) m = .ok m' ∧ m'.size1 = m.size1 ∧ m'.size2 = m.size2 ∧ TWF t m' ∧
      (∀ j, j < m.size2 → Mutable t i j → ∃ x, m.get dbg t o i j = .ok x ∧ m'.get dbg t o i j = .ok (F.apply x (c j))) ∧
      ∀ a b, a < m.size1 → b < m.size2 → ¬ (a = i ∧ Mutable t i b) → m'.get dbg t o a b = m.get dbg t o a b := by
  obtain ⟨w, h⟩ := triRowRep_init dbg t o i m hs hw hi
  have hmem := fun j => triRow_mem dbg t o m i hi j
  obtain ⟨m', w', e1, h1, h2⟩ := C44_packed_view dbg mode F (VExpr.const e) m.size2 _ _ m w _ (triRow_supports dbg t o i m hs hi) (he.reads _) h
    (fun hc j hj hn => hout hc j hj fun hm => hn ((hmem j).2 ⟨hj, hm⟩))
  obtain ⟨a1, a2, a3, a4, a5, a6, a7, a8⟩ := h1
  refine ⟨m', e1, a1, a2, a3, fun j hj hm => ?_, fun a b ha hb hn => ?_⟩
  · have hj' := (hmem j).2 ⟨hj, hm⟩
    exact ⟨w j, h.2.2.2.2.2.1 j hj', by rw [a6 j hj', h2 j hj']⟩
  · refine a8 a b (by omega) (by omega) ?_
    by_cases ha' : a = i
    · exact .inr fun hb' => hn ⟨ha', ((hmem b).1 hb').2⟩
    · exact .inl ha'

/-- Non-vacuity: row 1 of a 3 x 3 upper matrix. -/
example : ∃ (m : TMat Int) (e : Seq Int) (c : Nat → Int), ShapeOk true ⟨.lower, true⟩ m.size1 m.size2 ∧ TWF ⟨.lower, true⟩ m ∧ 1 < m.size1 ∧ e.Presents m.size2 c ∧
    c 2 ≠ 0 := by
  obtain ⟨s, h1, h2⟩ := denseVec_operand true [7, 8, (9 : Int)]
  exact ⟨⟨3, 3, [1, 2, 3, 4, 5, 6]⟩, s, _, fun _ => .inl rfl, rfl, by decide, h2, by decide⟩

/-! ## C45 -/

/-- The swap loop exchanges index by index when both ranges start at the same index. -/
theorem swapLoop_ok [Zero R] [One R] (dbg : Bool) (t : Tri) (o : Orient) (i1 i2 : Nat) (hne : i1 ≠ i2) (L : List Nat) : ∀ (m : TMat R), Fit dbg t m.size1 m.size2 → TWF t m →
    i1 < m.size1 → i2 < m.size1 → L.Nodup → (∀ j ∈ L, j < m.size2 ∧ Mutable t i1 j ∧ Mutable t i2 j) →
    ∃ m', VSwap.swapLoop (VT.triRow dbg t o i1) (VT.triRow dbg t o i2) L L m = .ok m' ∧ m'.size1 = m.size1 ∧ m'.size2 = m.size2 ∧ TWF t m' ∧
      ∀ a b, a < m.size1 → b < m.size2 → m'.get dbg t o a b =
        if b ∈ L ∧ a = i1 then m.get dbg t o i2 b else if b ∈ L ∧ a = i2 then m.get dbg t o i1 b else m.get dbg t o a b := by
  induction L with
  | nil => intro m _ hw _ _ _ _; exact ⟨m, rfl, rfl, rfl, hw, by simp⟩
  | cons j L ih =>
    intro m hf hw h1 h2 hn hm
    rw [List.nodup_cons] at hn
    obtain ⟨hj, hj1, hj2⟩ := hm j (by simp)
    have rd1 : ∀ i, i < m.size1 → Mutable t i j → ∃ v, m.get dbg t o i j = .ok v := by
      intro i hi hmu
      have hl : cellOf t o i m.size1 j m.size2 < m.data.length := by
        rw [hw]; exact cellOf_lt hi hj ((other_iff t i j).2 hmu)
      exact ⟨_, by rw [tget_eq hf hi hj hmu, rd_ok hl]⟩
    obtain ⟨x, hx⟩ := rd1 i1 h1 hj1
    obtain ⟨y, hy⟩ := rd1 i2 h2 hj2
    obtain ⟨m1, e1, a1, a2, a3, a4⟩ := tset_get hf hw (o := o) h1 hj hj1 y
    obtain ⟨m2, e2, b1, b2, b3, b4⟩ := tset_get (m := m1) (o := o) (by rw [a1, a2]; exact hf) a3 (by omega) (by omega) hj2 x
    obtain ⟨m3, e3, c1, c2, c3, c4⟩ := ih m2 (by rw [b1, b2, a1, a2]; exact hf) b3 (by omega) (by omega) hn.2
      (fun k hk => by have := hm k (by simp [hk]); rw [b2, a2]; exact this)
    refine ⟨m3, ?_, by omega, by omega, c3, fun a b ha hb => ?_⟩
    · simp only [VSwap.swapLoop]
      simp only [show (VT.triRow dbg t o i1 : VT (TMat R) R).get m j = _ from hx, show (VT.triRow dbg t o i2 : VT (TMat R) R).get m j = _ from hy, bind_ok,
        show (VT.triRow dbg t o i1 : VT (TMat R) R).put m j y = _ from e1, show (VT.triRow dbg t o i2 : VT (TMat R) R).put m1 j x = _ from e2, e3]
    · have key : ∀ a b, a < m.size1 → b < m.size2 → m2.get dbg t o a b = if a = i2 ∧ b = j then .ok x else if a = i1 ∧ b = j then .ok y else m.get dbg t o a b := by
        intro a b ha hb
        rw [b4 a b (by omega) (by omega), a4 a b ha hb]
      rw [c4 a b (by omega) (by omega), key a b ha hb, key i1 b h1 hb, key i2 b h2 hb]
      by_cases hbL : b ∈ L
      · have : b ≠ j := by rintro rfl; exact hn.1 hbL
        simp [hbL, this]
      · by_cases hbj : b = j
        · subst hbj
          by_cases ha1 : a = i1
          · subst ha1; simp [hbL, hne, hy]
          · by_cases ha2 : a = i2
            · subst ha2; simp [hbL, ha1, hx]
            · simp [hbL, ha1, ha2]
        · simp [hbL, hbj]

/-- **C45** (partial).  Swapping two rows of a triangular matrix exchanges the elements at every column in both supports and changes nothing else when the
support of the second row does not start after that of the first: always for the lower kinds, and for the upper ones if the second row is above
the first.  Missing: the other order, which is wrong (`C45_refuted`). -/
theorem C45_swap_rows_partial [Zero R] [One R] (dbg : Bool) (t : Tri) (o : Orient) (i1 i2 : Nat) (m : TMat R) (hs : ShapeOk dbg t m.size1 m.size2) (hw : TWF t m)
    (h1 : i1 < m.size1) (h2 : i2 < m.size1) (hne : i1 ≠ i2) (hord : t.upper = true → i2 ≤ i1) :
    ∃ m', VSwap.packed (VT.triRow dbg t o i1) (VT.triRow dbg t o i2) m = .ok m' ∧ m'.size1 = m.size1 ∧ m'.size2 = m.size2 ∧ TWF t m' ∧
      (∀ b, b < m.size2 → Mutable t i1 b → Mutable t i2 b → m'.get dbg t o i1 b = m.get dbg t o i2 b ∧ m'.get dbg t o i2 b = m.get dbg t o i1 b) ∧
      ∀ a b, a < m.size1 → b < m.size2 → ¬ ((a = i1 ∨ a = i2) ∧ Mutable t i1 b ∧ Mutable t i2 b) → m'.get dbg t o a b = m.get dbg t o a b := by
  have hm1 := fun j => triRow_mem dbg t o m i1 h1 j
  have hm2 := fun j => triRow_mem dbg t o m i2 h2 j
  obtain ⟨a, p, hS1⟩ : ∃ a p, (VT.triRow dbg t o i1 : VT (TMat R) R).its m = List.range' a p := ⟨_, _, rfl⟩
  obtain ⟨b, q, hS2⟩ : ∃ b q, (VT.triRow dbg t o i2 : VT (TMat R) R).its m = List.range' b q := ⟨_, _, rfl⟩
  have hba : 0 < p → 0 < q → b ≤ a ∧ (b < a → a - b ≤ q) := by
    intro hp hq
    have ha := (hm1 a).1 (by rw [hS1, List.mem_range'_1]; omega)
    have hb := (hm2 b).1 (by rw [hS2, List.mem_range'_1]; omega)
    have hbl : b = 0 ∨ ¬ (b - 1 < m.size2 ∧ Mutable t i2 (b - 1)) := by
      rcases Nat.eq_zero_or_pos b with h | h
      · exact .inl h
      · right; rw [← hm2, hS2, List.mem_range'_1]; omega
    have hqe : ¬ (b + q < m.size2 ∧ Mutable t i2 (b + q)) := by rw [← hm2, hS2, List.mem_range'_1]; omega
    have hqe' := (hm2 (b + q - 1)).1 (by rw [hS2, List.mem_range'_1]; omega)
    have hal : a = 0 ∨ ¬ (a - 1 < m.size2 ∧ Mutable t i1 (a - 1)) := by
      rcases Nat.eq_zero_or_pos a with h | h
      · exact .inl h
      · right; rw [← hm1, hS1, List.mem_range'_1]; omega
    obtain ⟨k, u⟩ := t
    cases k <;> cases u <;> simp only [Mutable, forall_true_left, Bool.false_eq_true, false_implies] at ha hb hbl hqe hqe' hal hord <;> omega
  suffices hex : ∃ L, (∀ j, j ∈ L ↔ (j < m.size2 ∧ Mutable t i1 j) ∧ (j < m.size2 ∧ Mutable t i2 j)) ∧ L.Nodup ∧
      VSwap.packed (VT.triRow dbg t o i1) (VT.triRow dbg t o i2) m = VSwap.swapLoop (VT.triRow dbg t o i1) (VT.triRow dbg t o i2) L L m by
    obtain ⟨L, hL, hn, heq⟩ := hex
    obtain ⟨m', e1, c1, c2, c3, c4⟩ := swapLoop_ok dbg t o i1 i2 hne L m (fit_of _ _ _ _ hs) hw h1 h2 hn (fun j hj => by
      have := (hL j).1 hj; exact ⟨this.1.1, this.1.2, this.2.2⟩)
    refine ⟨m', heq.trans e1, c1, c2, c3, fun b hb hb1 hb2 => ?_, fun a b ha hb hno => ?_⟩
    · have hbL : b ∈ L := (hL b).2 ⟨⟨hb, hb1⟩, hb, hb2⟩
      rw [c4 i1 b h1 hb, c4 i2 b h2 hb]
      simp [hbL, Ne.symm hne]
    · rw [c4 a b ha hb]
      have hn : ∀ c, ¬ (b ∈ L ∧ a = c ∧ (c = i1 ∨ c = i2)) := by
        rintro c ⟨x1, x2, x3⟩
        have := (hL b).1 x1
        exact hno ⟨by omega, this.1.2, this.2.2⟩
      rw [if_neg (fun h => hn i1 ⟨h.1, h.2, .inl rfl⟩), if_neg (fun h => hn i2 ⟨h.1, h.2, .inr rfl⟩)]
  unfold VSwap.packed
  rw [hS1, hS2]
  rcases Nat.eq_zero_or_pos p with hp | hp
  · subst hp
    refine ⟨[], fun j => ?_, List.nodup_nil, ?_⟩
    · rw [← hm1, ← hm2, hS1]; simp
    · simp [VSwap.swapLoop]
  rcases Nat.eq_zero_or_pos q with hq | hq
  · subst hq
    refine ⟨[], fun j => ?_, List.nodup_nil, ?_⟩
    · rw [← hm1, ← hm2, hS2]; simp
    · obtain ⟨p', rfl⟩ : ∃ p', p = p' + 1 := ⟨p - 1, by omega⟩
      simp [VSwap.swapLoop, VSwap.align]
  obtain ⟨hle, hlt⟩ := hba hp hq
  obtain ⟨p', rfl⟩ : ∃ p', p = p' + 1 := ⟨p - 1, by omega⟩
  obtain ⟨q', rfl⟩ : ∃ q', q = q' + 1 := ⟨q - 1, by omega⟩
  have hadv : VAssign.advance a b (q' + 1) = a - b := by
    unfold VAssign.advance
    have : a - b ≤ q' + 1 := by
      rcases Nat.lt_or_ge b a with h | h
      · exact hlt h
      · omega
    omega
  have hd : (List.range' b (q' + 1)).drop (a - b) = List.range' a (q' + 1 - (a - b)) := by
    rw [List.drop_range']; congr 1 <;> omega
  refine ⟨List.range' a (min (p' + 1) (q' + 1 - (a - b))), fun j => ?_, List.nodup_range', ?_⟩
  · rw [← hm1, ← hm2, hS1, hS2, List.mem_range'_1, List.mem_range'_1, List.mem_range'_1]; omega
  · have e1 : List.range' a (p' + 1) = a :: List.range' (a + 1) p' := List.range'_succ
    have e2 : List.range' b (q' + 1) = b :: List.range' (b + 1) q' := List.range'_succ
    have hdrop : VSwap.align (List.range' a (p' + 1)) (List.range' b (q' + 1)) = List.range' a (q' + 1 - (a - b)) := by
      rw [← hd, ← hadv, e1, e2]
      simp [VSwap.align]
    have key : VSwap.remaining (List.range' a (p' + 1)) (List.range' a (q' + 1 - (a - b))) = p' + 1 := by
      rcases Nat.eq_zero_or_pos (q' + 1 - (a - b)) with h0 | h0
      · rw [h0, e1]; simp [VSwap.remaining]
      · obtain ⟨r, hr⟩ : ∃ r, q' + 1 - (a - b) = r + 1 := ⟨q' + 1 - (a - b) - 1, by omega⟩
        rw [hr, e1, List.range'_succ]
        simp only [VSwap.remaining, VAssign.advance, List.length_cons, List.length_range']
        omega
    simp only [hdrop, key, List.length_range', take_range1]
    congr 1 <;> congr 1 <;> omega

/-- **C45** refuted: swapping row 0 with row 1 of an upper triangular matrix exchanges U(0,0) with U(1,1) instead of U(0,1) with U(1,1). -/
theorem C45_refuted : ¬ ∀ (t : Tri) (i1 i2 : Nat) (m : TMat Int), ShapeOk true t m.size1 m.size2 → TWF t m → i1 < m.size1 → i2 < m.size1 → i1 ≠ i2 →
    ∃ m', VSwap.packed (VT.triRow true t .row i1) (VT.triRow true t .row i2) m = .ok m' ∧
      ∀ b, b < m.size2 → Mutable t i1 b → Mutable t i2 b → m'.get true t .row i1 b = m.get true t .row i2 b := by
  intro h
  obtain ⟨m', e, h'⟩ := h ⟨.lower, true⟩ 0 1 ⟨2, 2, [1, 2, 3]⟩ (fun _ => .inl rfl) rfl (by decide) (by decide) (by decide)
  have e' : VSwap.packed (VT.triRow true ⟨.lower, true⟩ .row 0) (VT.triRow true ⟨.lower, true⟩ .row 1) ⟨2, 2, [1, 2, (3 : Int)]⟩ = .ok ⟨2, 2, [3, 2, 1]⟩ := by rfl
  rw [e'] at e
  cases e
  have := h' 1 (by decide) (by decide) (by decide)
  revert this; decide

/-- Non-vacuity of `C45_swap_rows_partial`: rows 2 and 0 of an upper 3 x 3 matrix. -/
example : ∃ m : TMat Int, ShapeOk true ⟨.lower, true⟩ m.size1 m.size2 ∧ TWF ⟨.lower, true⟩ m ∧ m.size1 = 3 ∧
    VSwap.packed (VT.triRow true ⟨.lower, true⟩ .row 2) (VT.triRow true ⟨.lower, true⟩ .row 0) m = .ok ⟨3, 3, [1, 2, 6, 4, 5, 3]⟩ :=
  ⟨⟨3, 3, [1, 2, 3, 4, 5, 6]⟩, fun _ => .inl rfl, rfl, rfl, rfl⟩

end Ublas
