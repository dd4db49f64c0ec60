import Verif.Model.MatrixRange
import Verif.Lemmas.Blocked
import Verif.Props.MatrixAssign
/-! # C68 for matrix_range: assigning to a range of a dense, packed or sparse matrix -/
namespace Ublas
variable {σ R : Type}

section
variable [Zero R]

/-- State of a range of a matrix: its elements are those of the window, all other elements of the matrix are those of `w0`. -/
def RangeRep (Rep : MRep σ R) (M N a r b c : Nat) (w0 : Nat → Nat → R) : MRep σ R := fun s r' c' w L S =>
  r' = r ∧ c' = c ∧ ∃ W K X, Rep s M N W K X ∧ (w = fun k l => W (a + k) (b + l)) ∧ L = projLines K a (a + r) ∧
    (∀ k ∈ L, S k = projLines (X (a + k)) b (b + c)) ∧ ∀ i j, i < M → j < N → ¬ (a ≤ i ∧ i < a + r ∧ b ≤ j ∧ j < b + c) → W i j = w0 i j

variable {T : MT σ R} {Rep : MRep σ R} {M N a r b c : Nat} {w0 : Nat → Nat → R}

omit [Zero R] in
theorem update2_shift (W : Nat → Nat → R) (a b k l : Nat) (t : R) :
    (fun i j => update2 W (a + k) (b + l) t (a + i) (b + j)) = update2 (fun i j => W (a + i) (b + j)) k l t := by
  funext i j
  simp only [update2, Nat.add_left_cancel_iff]

omit [Zero R] in
theorem update2_frame {W w0 : Nat → Nat → R} {a r b c k l : Nat} (hk : k < r) (hl : l < c) (t : R) {i j : Nat} (h : W i j = w0 i j)
    (hn : ¬ (a ≤ i ∧ i < a + r ∧ b ≤ j ∧ j < b + c)) : update2 W (a + k) (b + l) t i j = w0 i j := by
  rw [update2, if_neg (fun e => hn (by omega)), h]

theorem MT.range_lawful (dbg : Bool) (hT : T.Lawful Rep) (ha : a + r ≤ M) (hb : b + c ≤ N) : (T.range dbg a r b c).Lawful (RangeRep Rep M N a r b c w0) where
  sizes s r' c' w L S h := ⟨h.1.symm, h.2.1.symm⟩
  lines := by
    rintro s r' c' w L S ⟨rfl, rfl, W, K, X, h, hw, hL, hS, hf⟩
    obtain ⟨y1, y2, y3⟩ := hT.lines _ _ _ _ _ _ h
    refine ⟨by show projLines (T.lines s) a _ = L; rw [y1, hL], by rw [hL]; exact projLines_sorted y2 _ _, fun k hk => ?_⟩
    rw [hL, mem_projLines] at hk; omega
  its := by
    rintro s r' c' w L S ⟨rfl, rfl, W, K, X, h, hw, hL, hS, hf⟩ k hk
    have hk' := hk
    rw [hL, mem_projLines] at hk'
    obtain ⟨y1, y2, y3⟩ := hT.its _ _ _ _ _ _ h _ hk'.1
    rw [hS k hk]
    refine ⟨by show projLines (T.its s (a + k)) b _ = _; rw [y1], projLines_sorted y2 _ _, fun l hl => ?_⟩
    rw [mem_projLines] at hl; omega
  off := by
    rintro s r' c' w L S ⟨rfl, rfl, W, K, X, h, hw, hL, hS, hf⟩ k l hk hl hn
    rw [hw]
    refine hT.off _ _ _ _ _ _ h _ _ (by omega) (by omega) fun hv => hn ?_
    have hkL : k ∈ L := by rw [hL, mem_projLines]; exact ⟨hv.1, by omega⟩
    exact ⟨hkL, by rw [hS k hkL, mem_projLines]; exact ⟨hv.2, by omega⟩⟩
  get := by
    rintro s r' c' w L S ⟨rfl, rfl, W, K, X, h, hw, hL, hS, hf⟩ k hk l hl
    have hk' := hk
    rw [hL, mem_projLines] at hk'
    rw [hS k hk, mem_projLines] at hl
    show (do check dbg (k < r') .badIndex; check dbg (l < c') .badIndex; T.get s (a + k) (b + l)) = _
    rw [check_true (by omega), bind_ok, check_true (by omega), bind_ok, hT.get _ _ _ _ _ _ h _ hk'.1 _ hl.1, hw]
  put := by
    rintro s r' c' w L S ⟨rfl, rfl, W, K, X, h, hw, hL, hS, hf⟩ k hk l hl t
    have hk' := hk
    rw [hL, mem_projLines] at hk'
    rw [hS k hk, mem_projLines] at hl
    obtain ⟨s', e, h'⟩ := hT.put _ _ _ _ _ _ h _ hk'.1 _ hl.1 t
    refine ⟨s', ?_, rfl, rfl, _, K, X, h', ?_, hL, hS, fun i j hi hj hn => ?_⟩
    · show (do check dbg (k < r') .badIndex; check dbg (l < c') .badIndex; T.put s (a + k) (b + l) t) = _
      rw [check_true (by omega), bind_ok, check_true (by omega), bind_ok, e]
    · rw [hw, update2_shift]
    · exact update2_frame (by omega) (by omega) t (hf i j hi hj hn) hn
  consec := by
    rintro s r' c' w L S ⟨rfl, rfl, W, K, X, h, hw, hL, hS, hf⟩ hc
    obtain ⟨⟨o1, h1⟩, h2⟩ := hT.consec _ _ _ _ _ _ h hc
    refine ⟨by rw [hL]; exact projLines_consec h1 _ _, fun k hk => ?_⟩
    have hk' := hk
    rw [hL, mem_projLines] at hk'
    obtain ⟨o2, h3⟩ := h2 _ hk'.1
    rw [hS k hk]; exact projLines_consec h3 _ _

omit [Zero R] in
theorem range_window {n a r : Nat} (h : a + r ≤ n) : projLines (List.range n) a (a + r) = List.range r := by
  refine List.Pairwise.eq_of_mem_iff (r := (· < ·)) (projLines_sorted List.pairwise_lt_range _ _) List.pairwise_lt_range fun k => ?_
  rw [mem_projLines, List.mem_range, List.mem_range]; omega

theorem MT.range_full (dbg : Bool) (hT : T.Lawful Rep) (hf : T.Full Rep) (ha : a + r ≤ M) (hb : b + c ≤ N) :
    (T.range dbg a r b c).Full (RangeRep Rep M N a r b c w0) where
  all := by
    rintro s r' c' w L S ⟨rfl, rfl, W, K, X, h, hw, hL, hS, _⟩
    have h' := hf.all _ _ _ _ _ _ h
    refine ⟨fun hc => ?_, fun k hk => ?_⟩
    · rw [hL, h'.1 (by omega), range_window ha]
    · have hk' := hk
      rw [hL, mem_projLines] at hk'
      rw [hS k hk, h'.2 _ hk'.1, range_window hb]
  ref := by
    rintro s r' c' w L S ⟨rfl, rfl, W, K, X, h, hw, hL, hS, hfr⟩ k l hk hl t
    obtain ⟨s', e, h'⟩ := hf.ref _ _ _ _ _ _ h (a + k) (b + l) (by omega) (by omega) t
    refine ⟨s', ?_, rfl, rfl, _, K, X, h', ?_, hL, hS, fun i j hi hj hn => update2_frame hk hl t (hfr i j hi hj hn) hn⟩
    · show (do check dbg (k < r') .badIndex; check dbg (l < c') .badIndex; T.ref s (a + k) (b + l) t) = _
      rw [check_true hk, bind_ok, check_true hl, bind_ok, e]
    · rw [hw, update2_shift]

theorem MT.range_grows (dbg : Bool) (hg : T.Grows Rep) (ha : a + r ≤ M) (hb : b + c ≤ N) :
    (T.range dbg a r b c).Grows (RangeRep Rep M N a r b c w0) := by
  rintro s r' c' w L S ⟨rfl, rfl, W, K, X, h, hw, hL, hS, hfr⟩ k l hk hl t
  obtain ⟨s', K', X', e, h', hm⟩ := hg _ _ _ _ _ _ h (a + k) (b + l) (by omega) (by omega) t
  have hv : ∀ (K : List Nat) (X : Nat → List Nat) (S : Nat → List Nat), (∀ k ∈ projLines K a (a + r'), S k = projLines (X (a + k)) b (b + c')) → ∀ i j, i < r' → j < c' →
      ((i ∈ projLines K a (a + r') ∧ j ∈ S i) ↔ (a + i ∈ K ∧ b + j ∈ X (a + i))) := by
    intro K X S hS i j hi hj
    rw [and_congr_right fun hm => by rw [hS i hm]]
    simp only [mem_projLines]
    constructor
    · rintro ⟨⟨c1, _⟩, c2, _⟩; exact ⟨c1, c2⟩
    · rintro ⟨c1, c2⟩; exact ⟨⟨c1, by omega⟩, c2, by omega⟩
  refine ⟨s', projLines K' a (a + r'), fun k => projLines (X' (a + k)) b (b + c'), ?_, ⟨rfl, rfl, _, K', X', h', ?_, rfl, fun _ _ => rfl,
    fun i j hi hj hn => update2_frame hk hl t (hfr i j hi hj hn) hn⟩, fun i j hi hj => ?_⟩
  · show (do check dbg (k < r') .badIndex; check dbg (l < c') .badIndex; T.ref s (a + k) (b + l) t) = _
    rw [check_true hk, bind_ok, check_true hl, bind_ok, e]
  · rw [hw, update2_shift]
  · rw [hv K' X' _ (fun _ _ => rfl) i j hi hj, hL, hv K X S (by rw [← hL]; exact hS) i j hi hj, hm _ _ (by omega) (by omega), Nat.add_left_cancel_iff, Nat.add_left_cancel_iff]

/-- A range of a matrix is a target of the corresponding view category. -/
theorem MT.range_supports (dbg : Bool) {sc : StorageCat} (hT : T.Supports sc Rep) (ha : a + r ≤ M) (hb : b + c ≤ N) :
    (T.range dbg a r b c).Supports sc.proxy (RangeRep Rep M N a r b c w0) := by
  obtain ⟨hL, h⟩ := hT
  refine ⟨MT.range_lawful dbg hL ha hb, ?_⟩
  cases sc with
  | dense => exact ⟨MT.range_full dbg hL h.1 ha hb, h.2.2⟩
  | denseProxy => exact ⟨MT.range_full dbg hL h.1 ha hb, h.2⟩
  | packed => exact h
  | packedProxy => exact h
  | sparse => exact ⟨MT.range_grows dbg h.1 ha hb, h.2.2⟩
  | sparseProxy => exact ⟨MT.range_grows dbg h.1 ha hb, h.2⟩

theorem RangeRep.init {s : σ} {W : Nat → Nat → R} {K : List Nat} {X : Nat → List Nat} (h : Rep s M N W K X) (a r b c : Nat) :
    RangeRep Rep M N a r b c W s r c (fun k l => W (a + k) (b + l)) (projLines K a (a + r)) (fun k => projLines (X (a + k)) b (b + c)) :=
  ⟨rfl, rfl, W, K, X, h, rfl, rfl, fun _ _ => rfl, fun _ _ _ _ _ => rfl⟩

end

/-- **C68** (ranges).  Assigning to, adding to or subtracting from a `matrix_range` of any dense or sparse matrix (container or view, in any category the matrix supports): element
(k, l) of the range becomes what the functor makes of the old element and the expression's, and every element of the matrix outside the range keeps its value. -/
theorem C68_range [Ring R] [DecidableEq R] {T : MT σ R} {Rep : MRep σ R} (dbg : Bool) (mode : ProdFn.Mode) (sc : StorageCat) (F : AssignF) (e : MExp R) (M N a r b c : Nat)
    (y : Nat → Nat → R) (s : σ) (W : Nat → Nat → R) (K : List Nat) (X : Nat → List Nat) (hT : T.Supports sc Rep) (hsc : sc ≠ .packed ∧ sc ≠ .packedProxy)
    (ha : a + r ≤ M) (hb : b + c ≤ N) (he : e.Presents r c y) (h : Rep s M N W K X) :
    ∃ s' W' K' X', MAssign.assign dbg mode sc.proxy (T.range dbg a r b c) F e s = .ok s' ∧ Rep s' M N W' K' X' ∧
      (∀ k l, k < r → l < c → W' (a + k) (b + l) = F.apply (W (a + k) (b + l)) (y k l)) ∧
      ∀ i j, i < M → j < N → ¬ (a ≤ i ∧ i < a + r ∧ b ≤ j ∧ j < b + c) → W' i j = W i j := by
  obtain ⟨s', w', L', S', e1, ⟨_, _, W', K', X', p1, p2, _, _, p3⟩, p4⟩ := C68_matrix_assign dbg mode sc.proxy F e r c y s _ _ _
    (MT.range_supports (w0 := W) dbg hT ha hb) (by cases sc <;> simp_all [StorageCat.proxy]) he (RangeRep.init h a r b c)
  refine ⟨s', W', K', X', e1, p1, fun k l hk hl => ?_, p3⟩
  have := p4 k l hk hl
  rw [p2] at this
  exact this

/-- **C68** (compressed_matrix, ranges).  `project (m, r1, r2) = e` (`+=`, `-=`) on a compressed_matrix: after it the elements of the window are the functor's results, stored or
absent, all others are as before and the matrix satisfies its invariants. -/
theorem C68_compressed_range [Ring R] [DecidableEq R] (dbg : Bool) (mode : ProdFn.Mode) (o : Orient) (IB : Nat) (junk : CMat.Junk R) (F : AssignF) (v : CMat R)
    (s : SparseSpec.CMatS R) (h : CMat.Inv o IB v s) (e : MExp R) (a r b c : Nat) (y : Nat → Nat → R) (he : e.Presents r c y)
    (ha : a + r ≤ o.sizeM s.rows s.cols) (hb : b + c ≤ o.sizem s.rows s.cols) :
    ∃ v' s', MAssign.assign dbg mode .sparseProxy ((MT.compressed dbg o IB junk).range dbg a r b c) F e v = .ok v' ∧ CMat.Inv o IB v' s' ∧
      o.sizeM s'.rows s'.cols = o.sizeM s.rows s.cols ∧ o.sizem s'.rows s'.cols = o.sizem s.rows s.cols ∧
      ∀ i j, i < o.sizeM s.rows s.cols → j < o.sizem s.rows s.cols → (s'.val (o.indexM i j, o.indexm i j)).getD 0 =
        if a ≤ i ∧ i < a + r ∧ b ≤ j ∧ j < b + c then F.apply ((s.val (o.indexM i j, o.indexm i j)).getD 0) (y (i - a) (j - b))
        else (s.val (o.indexM i j, o.indexm i j)).getD 0 := by
  obtain ⟨v', W', K', X', e1, ⟨s', q1, q2, q3, q4, _, _⟩, p1, p2⟩ := C68_range dbg mode .sparse F e (o.sizeM s.rows s.cols) (o.sizem s.rows s.cols) a r b c y v
    (fun k l => (s.val (o.indexM k l, o.indexm k l)).getD 0) _ _ (compressedMatrix_supports dbg o IB junk) (by simp) ha hb he ⟨s, h, rfl, rfl, rfl, rfl, rfl⟩
  refine ⟨v', s', e1, q1, q2, q3, fun i j hi hj => ?_⟩
  have e2 : W' i j = (s'.val (o.indexM i j, o.indexm i j)).getD 0 := by rw [q4]
  rw [← e2]
  by_cases hw : a ≤ i ∧ i < a + r ∧ b ≤ j ∧ j < b + c
  · rw [if_pos hw]
    have := p1 (i - a) (j - b) (by omega) (by omega)
    rw [show a + (i - a) = i by omega, show b + (j - b) = j by omega] at this
    exact this
  · rw [if_neg hw]; exact p2 i j hi hj hw

/-- Non-vacuity of `C68_compressed_range`: a 2 x 2 matrix with one stored element and the 1 x 1 window around it. -/
example : ∃ (v : CMat Int) (s : SparseSpec.CMatS Int), CMat.Inv .row 0 v s ∧ s.val (0, 1) = some 7 ∧ 0 + 1 ≤ Orient.row.sizeM s.rows s.cols ∧ 1 + 1 ≤ Orient.row.sizem s.rows s.cols := by
  obtain ⟨v0, e0, h0⟩ := CMat.inv_ctor (α := Int) true .row 0 cmJunk 2 2 0
  obtain ⟨v1, e1, h1⟩ := CMat.step_inv true .row 0 0 cmJunk v0 _ (.insert 0 1 7) h0 ⟨by decide, by decide, rfl⟩
  exact ⟨v1, _, h1, by simp [SparseSpec.cmstep], by simp [SparseSpec.cmstep, Orient.sizeM], by simp [SparseSpec.cmstep, Orient.sizem]⟩

end Ublas
