import Verif.Lemmas.Prod
import Verif.Model.Operands
import Verif.Props.PackedIter
import Verif.Props.CMatIter
import Verif.Props.CompressedVector
import Verif.Props.DenseIter
import Mathlib.Tactic.IntervalCases
/-! # C30, C31, C32: inner_prod and prod equal the mathematical sums for every storage combination -/
namespace Ublas
open ProdFn SparseSpec DenseIter
variable {R : Type} [Semiring R]

/-- **C30**.  `inner_prod (a, b)` is Σ a(i) b(i) for every combination of dense, packed and sparse operands, every dispatch mode and build mode. -/
theorem C30_inner_prod (dbg : Bool) (mode : Mode) (n : Nat) (a b : Seq R) (v w : Nat → R) (ha : a.Presents n v) (hb : b.Presents n w) :
    inner dbg mode a b = .ok (∑ i ∈ Finset.range n, v i * w i) := by
  unfold inner
  rw [check_true (by rw [ha.size, hb.size]), bind_ok]
  show _ = Except.ok (dot n v w)
  cases hca : a.cat <;> cases hcb : b.cat <;> simp only [Cat.restrict]
  · exact ha.denseCase hb hca hcb dbg mode
  · exact ha.packedEls hb (by simp [hca]) (by simp [hcb])
  · have := ha.sparse hb
    rwa [hca, hcb] at this
  · exact ha.packedEls hb (by simp [hca]) (by simp [hcb])
  · exact ha.packedEls hb (by simp [hca]) (by simp [hcb])
  · have := ha.sparse hb
    rwa [hca, hcb] at this
  · have := ha.sparse hb
    rwa [hca, hcb] at this
  · have := ha.sparse hb
    rwa [hca, hcb] at this
  · have := ha.sparse hb
    rwa [hca, hcb] at this

/-- `inner_prod` of different sizes is rejected with checks on. -/
theorem C30_size_mismatch (mode : Mode) (a b : Seq R) (h : a.size ≠ b.size) : inner true mode a b = .error .externalLogic := by
  unfold inner
  rw [check_dbg_false h]; rfl

theorem mvDeref_ok {a b : Seq R} {n : Nat} {v w : Nat → R} (ha : a.Presents n v) (hb : b.Presents n w) (dbg : Bool) (mode : Mode) :
    mvDeref dbg mode a b = .ok (∑ i ∈ Finset.range n, v i * w i) := by
  unfold mvDeref
  show _ = Except.ok (dot n v w)
  cases hca : a.cat <;> cases hcb : b.cat <;> simp only [Cat.restrict]
  · exact ha.denseCase hb hca hcb dbg mode
  · exact ha.packedEls hb (by simp [hca]) (by simp [hcb])
  · exact ha.mvSparse hb (.inr hcb)
  · exact ha.packedEls hb (by simp [hca]) (by simp [hcb])
  · exact ha.packedEls hb (by simp [hca]) (by simp [hcb])
  · exact ha.mvSparse hb (.inr hcb)
  · exact ha.mvSparse hb (.inl hca)
  · exact ha.mvSparse hb (.inl hca)
  · exact ha.mvSparse hb (.inl hca)

theorem mmDeref_ok {a b : Seq R} {n : Nat} {v w : Nat → R} (ha : a.Presents n v) (hb : b.Presents n w) (dbg : Bool) (mode : Mode) :
    mmDeref dbg mode a b = .ok (∑ i ∈ Finset.range n, v i * w i) := by
  unfold mmDeref
  show _ = Except.ok (dot n v w)
  cases hca : a.cat <;> cases hcb : b.cat <;> simp only [Cat.restrict]
  · exact ha.denseCase hb hca hcb dbg mode
  · exact ha.packedEls hb (by simp [hca]) (by simp [hcb])
  · have := ha.sparse hb
    rwa [hca, hcb] at this
  · exact ha.packedEls hb (by simp [hca]) (by simp [hcb])
  · exact ha.packedEls hb (by simp [hca]) (by simp [hcb])
  · have := ha.sparse hb
    rwa [hca, hcb] at this
  · have := ha.sparse hb
    rwa [hca, hcb] at this
  · have := ha.sparse hb
    rwa [hca, hcb] at this
  · have := ha.sparse hb
    rwa [hca, hcb] at this

/-- **C31**.  Every element of `prod (A, x)`, read by index or through an iterator, is Σ_j A(i,j) x(j); every element of `prod (x, B)` is
Σ_i x(i) B(i,j). -/
theorem C31_matrix_vector (dbg : Bool) (mode : Mode) (r c : Nat) (A : MSeq R) (x y : Seq R) (a : Nat → Nat → R) (v w : Nat → R)
    (hA : A.Presents r c a) (hx : x.Presents c v) (hy : y.Presents r w) :
    (∀ i, i < r → mv1At dbg A x i = .ok (∑ j ∈ Finset.range c, a i j * v j) ∧ mv1It dbg mode A x i = .ok (∑ j ∈ Finset.range c, a i j * v j)) ∧
    (∀ j, j < c → mv2At dbg y A j = .ok (∑ i ∈ Finset.range r, w i * a i j) ∧ mv2It dbg mode y A j = .ok (∑ i ∈ Finset.range r, w i * a i j)) :=
  ⟨fun i hi => ⟨(hA.rows i hi).byIndex hx dbg, mvDeref_ok (hA.rows i hi) hx dbg mode⟩,
   fun j hj => ⟨hy.byIndex (hA.cols j hj) dbg, mvDeref_ok hy (hA.cols j hj) dbg mode⟩⟩

/-- **C32**.  Every element of `prod (A, B)`, read by index or through an iterator, is Σ_k A(i,k) B(k,j). -/
theorem C32_matrix_matrix (dbg : Bool) (mode : Mode) (r n c : Nat) (A B : MSeq R) (a b : Nat → Nat → R) (hA : A.Presents r n a) (hB : B.Presents n c b)
    (i j : Nat) (hi : i < r) (hj : j < c) :
    mmAt dbg A B i j = .ok (∑ k ∈ Finset.range n, a i k * b k j) ∧ mmIt dbg mode A B i j = .ok (∑ k ∈ Finset.range n, a i k * b k j) :=
  ⟨(hA.rows i hi).byIndex (hB.cols j hj) dbg, mmDeref_ok (hA.rows i hi) (hB.cols j hj) dbg mode⟩

/-! ## The containers are such operands -/

/-- Sparse operand from an iteration that lists the stored elements. -/
theorem Seq.presents_sparse {n : Nat} {E : List (Nat × R)} {val : Nat → Option R} {get : Nat → M R} (hE : Lists E val) (hn : ∀ i, n ≤ i → val i = none)
    (hget : ∀ i, i < n → get i = .ok ((val i).getD 0)) : (⟨n, .sparse, E, get⟩ : Seq R).Presents n (fun i => (val i).getD 0) where
  size := rfl
  at_ := hget
  vals p hp := by
    have hv := (hE.2 p.1 p.2).1 hp
    refine ⟨?_, by rw [hv]; rfl⟩
    by_contra h
    rw [hn _ (by omega)] at hv; cases hv
  sorted := by rw [List.pairwise_map]; exact hE.1
  skipped i hi hm := by
    cases hv : val i with
    | none => rfl
    | some x => exact absurd (List.mem_map.2 ⟨(i, x), (hE.2 i x).2 hv, rfl⟩) hm
  packed h := absurd rfl h
  dense h := by cases h

/-- Packed operand from an iteration over an index range. -/
theorem Seq.presents_range {n lo hi : Nat} {cat : Cat} {E : List (Nat × R)} {get : Nat → M R} {v : Nat → R} (hE : E.map (·.1) = List.range' lo (hi - lo))
    (hmem : ∀ k x, (k, x) ∈ E ↔ (lo ≤ k ∧ k < hi ∧ get k = .ok x)) (hhi : ∀ k, lo ≤ k → k < hi → k < n) (hget : ∀ i, i < n → get i = .ok (v i))
    (hz : ∀ i, i < n → ¬ (lo ≤ i ∧ i < hi) → v i = 0) (hd : cat = .dense → lo = 0 ∧ hi = n) : (⟨n, cat, E, get⟩ : Seq R).Presents n v where
  size := rfl
  at_ := hget
  vals p hp := by
    obtain ⟨h1, h2, h3⟩ := (hmem p.1 p.2).1 hp
    have h4 := hhi _ h1 h2
    refine ⟨h4, ?_⟩
    rw [hget _ h4] at h3
    exact (Except.ok.inj h3).symm
  sorted := by rw [hE]; exact range'_sorted _ _
  skipped i hi' hm := by
    apply hz i hi'
    intro h
    apply hm
    show i ∈ E.map (·.1)
    rw [hE, List.mem_range']
    exact ⟨i - lo, by omega, by omega⟩
  packed _ := by
    refine ⟨lo, ?_⟩
    have : E.length = hi - lo := by have := congrArg List.length hE; simpa using this
    show E.map (·.1) = List.range' lo E.length
    rw [this, hE]
  dense h := by
    obtain ⟨h1, h2⟩ := hd h
    show E.map (·.1) = _
    rw [hE, h1, h2, List.range_eq_range']; simp

/-- A dense vector. -/
theorem denseVec_operand (dbg : Bool) (data : List R) : ∃ s : Seq R, s.Of data.length .dense (denseVecEls dbg data) (rd dbg data) ∧
    s.Presents data.length (fun i => data.getD i 0) := by
  obtain ⟨L, e1, e2, e3⟩ := walkIdx_ok (get := rd dbg data) data.length 0 data.length (Nat.zero_le _) (by omega) (fun k _ hk => ⟨_, rd_ok hk⟩)
  refine ⟨⟨data.length, .dense, L, rd dbg data⟩, ⟨rfl, rfl, e1, rfl⟩, Seq.presents_range e2 e3 (fun _ _ h => h) ?_ (fun i h1 h2 => by omega) (fun _ => ⟨rfl, rfl⟩)⟩
  intro i hi
  rw [rd_ok hi]; simp [List.getD, hi]

/-- A compressed_vector after any legal history. -/
theorem compressedVector_operand (dbg : Bool) (IB : Nat) (v : CVec R) (s : Vec R) (h : CVObserves dbg IB 0 v s) :
    ∃ q : Seq R, q.Of v.size .sparse (v.traverseFrom dbg IB 0) (v.get dbg IB 0) ∧ q.Presents s.size (fun i => (s.val i).getD 0) := by
  obtain ⟨h1, h2, _, _, ⟨E, h4, h5, _⟩, _, h6⟩ := h
  exact ⟨⟨s.size, .sparse, E, v.get dbg IB 0⟩, ⟨h1.symm, rfl, h4, rfl⟩, Seq.presents_sparse h5 h6 h2⟩

theorem CMat.Inv.lineEls {o : Orient} {IB : Nat} {v : CMat R} {s : CMatS R} (h : CMat.Inv o IB v s) (dbg : Bool) (zero : R) (ax : Axis) {k : Nat}
    (hk : k < along ax v.size1 v.size2) :
    ∃ L, v.lineEls dbg o IB zero ax k = .ok L ∧ Lists L (fun l => match ax with | .one => s.val (k, l) | .two => s.val (l, k)) := by
  obtain ⟨E, h, h1, h2, h3, h4⟩ := h
  obtain ⟨itv, n, hp⟩ := CMat.find0' h ax (setAlong ax 0 0 k).1 (setAlong ax 0 0 k).2
  have hia : v.indexAlong dbg o IB ax ⟨0, (setAlong ax 0 0 k).1, (setAlong ax 0 0 k).2, itv, n⟩ = .ok k := by
    have hne : v.notEnd dbg o IB ax ⟨0, (setAlong ax 0 0 k).1, (setAlong ax 0 0 k).2, itv, n⟩ = .ok () := by
      unfold notEnd
      obtain ⟨itv', n', e'⟩ := find0' h ax (setAlong ax (setAlong ax 0 0 k).1 (setAlong ax 0 0 k).2 (along ax v.size1 v.size2)).1
        (setAlong ax (setAlong ax 0 0 k).1 (setAlong ax 0 0 k).2 (along ax v.size1 v.size2)).2
      simp only [e', bind_ok]
      rw [check_true, ite_self]
      simp only [iterEq]
      cases ax <;> simp only [setAlong, along] at hk ⊢ <;> simp <;> omega
    unfold indexAlong index1 index2
    cases ax <;> simp only [hne, if_true, bind_ok] <;> simp [setAlong]
  obtain ⟨b, e, L, w1, w2, w3, w4, w5⟩ := inner_spec h dbg zero ax hk hia
  refine ⟨L.map fun x => (along ax.other x.1.1 x.1.2, x.2), by simp only [CMat.lineEls, hp, bind_ok, w1, w2, w3, pure_eq_ok], ?_, ?_⟩
  · rw [List.pairwise_map]; exact w4
  · have hval : ∀ i j w, along ax i j = k → (o.indexm i j < o.sizem v.size1 v.size2 ∧
        CMat.flat o s (o.indexM i j * o.sizem v.size1 v.size2 + o.indexm i j) = some w ↔ s.val (i, j) = some w) := by
      intro i j w hi
      rw [h1, h2]
      rw [h1, h2] at hk
      constructor
      · rintro ⟨p2, p3⟩
        have hin : i < s.rows ∧ j < s.cols := by
          cases o <;> cases ax <;> simp only [Orient.indexm, Orient.sizem, along] at p2 hi hk <;> first | exact ⟨by omega, by omega⟩ | skip
          all_goals
            by_cases hij : i < s.rows ∧ j < s.cols
            · exact hij
            · have hb := h.below _ ((h.rep.2 _ w).1 p3)
              rw [h1, h2] at hb
              have hM := (CMat.key_lt_mul p2).1 (show _ * _ + _ < _ * _ from hb)
              have hle := h.le
              rw [h1, h2] at hle
              simp only [Orient.indexM, Orient.sizeM] at hM hle
              omega
        rw [CMat.flat_at o s hin.1 hin.2] at p3
        exact p3
      · intro hw
        have hin : i < s.rows ∧ j < s.cols := by
          by_cases hij : i < s.rows ∧ j < s.cols
          · exact hij
          · rw [h4 i j hij] at hw; cases hw
        exact ⟨CMat.minor_lt o hin.1 hin.2, by rw [CMat.flat_at o s hin.1 hin.2]; exact hw⟩
    intro l x
    rw [List.mem_map]
    constructor
    · rintro ⟨⟨⟨i, j⟩, y⟩, hm, he⟩
      obtain ⟨q1, q2⟩ := (w5 i j y).1 hm
      have q3 := (hval i j y q1).1 q2
      simp only [Prod.mk.injEq] at he
      obtain ⟨e1, e2⟩ := he
      subst e2
      cases ax <;> simp only [along, Axis.other] at q1 e1 <;> subst q1 e1 <;> exact q3
    · intro hv
      cases ax with
      | one => exact ⟨((k, l), x), (w5 k l x).2 ⟨rfl, (hval k l x rfl).2 hv⟩, rfl⟩
      | two => exact ⟨((l, k), x), (w5 l k x).2 ⟨rfl, (hval l k x rfl).2 hv⟩, rfl⟩

/-- Matrix operand from per-line operands. -/
theorem MSeq.operand {r c : Nat} {cat : Cat} {row col : Nat → M (List (Nat × R))} {get : Nat → Nat → M R} {a : Nat → Nat → R}
    (hr : ∀ i, i < r → ∃ L, row i = .ok L ∧ (⟨c, cat, L, get i⟩ : Seq R).Presents c (a i))
    (hc : ∀ j, j < c → ∃ L, col j = .ok L ∧ (⟨r, cat, L, fun i => get i j⟩ : Seq R).Presents r (fun i => a i j)) :
    ∃ m : MSeq R, m.Of r c cat row col get ∧ m.Presents r c a := by
  refine ⟨⟨r, c, cat, fun i => (row i).toOption.getD [], fun j => (col j).toOption.getD [], get⟩, ⟨rfl, rfl, rfl, ?_, ?_, rfl⟩, rfl, rfl, ?_, ?_⟩
  · intro i hi
    obtain ⟨L, e, _⟩ := hr i hi
    show row i = .ok ((row i).toOption.getD [])
    rw [e]; rfl
  · intro j hj
    obtain ⟨L, e, _⟩ := hc j hj
    show col j = .ok ((col j).toOption.getD [])
    rw [e]; rfl
  · intro i hi
    obtain ⟨L, e, h⟩ := hr i hi
    show (⟨c, cat, (row i).toOption.getD [], get i⟩ : Seq R).Presents c (a i)
    rw [e]; exact h
  · intro j hj
    obtain ⟨L, e, h⟩ := hc j hj
    show (⟨r, cat, (col j).toOption.getD [], fun i => get i j⟩ : Seq R).Presents r (fun i => a i j)
    rw [e]; exact h

/-- A compressed_matrix after any legal history, either orientation. -/
theorem compressedMatrix_operand (dbg : Bool) (o : Orient) (IB : Nat) (junk : CMat.Junk R) (r c nz : Nat) (ops : List (CMOp R × CMat.Junk R))
    (hl : cmlegalRun o 0 ⟨r, c, fun _ => none, 0⟩ (ops.map (·.1))) :
    ∃ v0 v, CMat.ctor dbg o IB junk r c nz = .ok v0 ∧ CMat.run dbg o IB 0 v0 ops = .ok v ∧ ∃ m : MSeq R,
      m.Of v.size1 v.size2 .sparse (v.lineEls dbg o IB 0 .one) (v.lineEls dbg o IB 0 .two) (v.get dbg o IB 0) ∧
      m.Presents (cmrun o 0 ⟨r, c, fun _ => none, 0⟩ (ops.map (·.1))).rows (cmrun o 0 ⟨r, c, fun _ => none, 0⟩ (ops.map (·.1))).cols
        (fun i j => ((cmrun o 0 ⟨r, c, fun _ => none, 0⟩ (ops.map (·.1))).val (i, j)).getD 0) := by
  obtain ⟨v0, e0, h0⟩ := CMat.inv_ctor dbg o IB junk r c nz
  obtain ⟨v, e, h⟩ := CMat.run_inv dbg o IB 0 ops v0 _ h0 hl
  generalize cmrun o 0 ⟨r, c, fun _ => none, 0⟩ (ops.map (·.1)) = s at *
  obtain ⟨g1, g2, g3, _, g5, _⟩ := h.observes dbg o IB 0
  refine ⟨v0, v, e0, e, ?_⟩
  rw [g1, g2]
  apply MSeq.operand
  · intro i hi
    obtain ⟨L, e1, e2⟩ := h.lineEls dbg 0 .one (k := i) (by rw [g1, g2]; exact hi)
    exact ⟨L, e1, Seq.presents_sparse (val := fun j => s.val (i, j)) e2 (fun j hj => g5 i j (by omega)) (fun j hj => g3 i j hi hj)⟩
  · intro j hj
    obtain ⟨L, e1, e2⟩ := h.lineEls dbg 0 .two (k := j) (by rw [g1, g2]; exact hj)
    exact ⟨L, e1, Seq.presents_sparse (val := fun i => s.val (i, j)) e2 (fun i hi => g5 i j (by omega)) (fun i hi => g3 i j hi hj)⟩

/-- Value of element access (the element the matrix holds). -/
def elem (get : Nat → Nat → M R) (i j : Nat) : R := ((get i j).toOption).getD 0
theorem elem_ok {get : Nat → Nat → M R} {i j : Nat} {v : R} (h : get i j = .ok v) : get i j = .ok (elem get i j) := by rw [elem, h]; rfl

/-- A triangular_matrix of any structure (see `C66_triangular_partial` for the shapes; rows and columns themselves need no restriction). -/
theorem triangular_operand (dbg : Bool) (t : Tri) (o : Orient) (m : Packed.TMat R) (s : DenseSpec.Spec R) (hm : PackedSpec.Implements dbg t o m s) :
    ∃ q : MSeq R, q.Of m.size1 m.size2 .packed (m.rowEls dbg .const t o) (m.colEls dbg .const t o) (m.get dbg t o) ∧
      q.Presents m.size1 m.size2 (elem (m.get dbg t o)) := by
  have hg : ∀ i j, i < m.size1 → j < m.size2 → m.get dbg t o i j = .ok (elem (m.get dbg t o) i j) := fun i j hi hj => by
    obtain ⟨v, hv⟩ := Implements.get hm i j hi hj; exact elem_ok hv
  have hz : ∀ i j, i < m.size1 → j < m.size2 → ¬ Shown .const t i j → elem (m.get dbg t o) i j = 0 := by
    intro i j hi hj hs
    simp only [Shown, not_or] at hs
    obtain ⟨h1, h2, h3⟩ := hm
    have := (h3 i j (by omega) (by omega)).2 hs.1
    rw [elem, this, PackedSpec.fixedValue, if_neg hs.2]; rfl
  apply MSeq.operand
  · intro i hi
    have hr : ∀ j, (Packed.restrict2 .const t i 0 m.size1 m.size2 ≤ j ∧ j < Packed.restrict2 .const t i m.size2 m.size1 m.size2 ↔ j < m.size2 ∧ Shown .const t i j) ∧
        Packed.restrict2 .const t i 0 m.size1 m.size2 ≤ Packed.restrict2 .const t i m.size2 m.size1 m.size2 ∧
        Packed.restrict2 .const t i m.size2 m.size1 m.size2 - Packed.restrict2 .const t i 0 m.size1 m.size2 ≤ m.size1 + m.size2 + 1 := by
      obtain ⟨k, u⟩ := t
      intro j
      cases k <;> cases u <;> simp only [Packed.restrict2, Packed.lrestrict1, Packed.lrestrict2, Shown, PackedSpec.Mutable, reduceCtorEq, false_and, or_false, true_and] <;>
        (try split) <;> omega
    obtain ⟨L, e1, e2, e3⟩ := walkIdx_ok (get := m.get dbg t o i) (m.size1 + m.size2 + 1) _ _ (hr 0).2.1 (hr 0).2.2
      (fun k h1 h2 => ⟨_, hg i k hi ((hr k).1.1 ⟨h1, h2⟩).1⟩)
    exact ⟨L, e1, Seq.presents_range e2 e3 (fun k h1 h2 => ((hr k).1.1 ⟨h1, h2⟩).1) (fun j hj => hg i j hi hj)
      (fun j hj h => hz i j hi hj fun hs => h ((hr j).1.2 ⟨hj, hs⟩)) (fun h => by cases h)⟩
  · intro j hj
    have hr : ∀ i, (Packed.restrict1 .const t 0 j m.size1 m.size2 ≤ i ∧ i < Packed.restrict1 .const t m.size1 j m.size1 m.size2 ↔ i < m.size1 ∧ Shown .const t i j) ∧
        Packed.restrict1 .const t 0 j m.size1 m.size2 ≤ Packed.restrict1 .const t m.size1 j m.size1 m.size2 ∧
        Packed.restrict1 .const t m.size1 j m.size1 m.size2 - Packed.restrict1 .const t 0 j m.size1 m.size2 ≤ m.size1 + m.size2 + 1 := by
      obtain ⟨k, u⟩ := t
      intro i
      cases k <;> cases u <;> simp only [Packed.restrict1, Packed.lrestrict1, Packed.lrestrict2, Shown, PackedSpec.Mutable, reduceCtorEq, false_and, or_false, true_and] <;>
        (try split) <;> omega
    obtain ⟨L, e1, e2, e3⟩ := walkIdx_ok (get := fun i => m.get dbg t o i j) (m.size1 + m.size2 + 1) _ _ (hr 0).2.1 (hr 0).2.2
      (fun k h1 h2 => ⟨_, hg k j ((hr k).1.1 ⟨h1, h2⟩).1 hj⟩)
    exact ⟨L, e1, Seq.presents_range e2 e3 (fun k h1 h2 => ((hr k).1.1 ⟨h1, h2⟩).1) (fun i hi => hg i j hi hj)
      (fun i hi h => hz i j hi hj fun hs => h ((hr i).1.2 ⟨hi, hs⟩)) (fun h => by cases h)⟩

/-- A banded_matrix. -/
theorem banded_operand (dbg : Bool) (o : Orient) (m : BMat R) (s : BandSpec.Spec R) (hm : BandSpec.Implements dbg o m s) :
    ∃ q : MSeq R, q.Of m.size1 m.size2 .packed (m.rowEls dbg o) (m.colEls dbg o) (m.get dbg o) ∧ q.Presents m.size1 m.size2 (elem (m.get dbg o)) := by
  obtain ⟨s1, s2, s3, s4, hm⟩ := hm
  rw [← s1, ← s2, ← s3, ← s4] at hm
  have hg : ∀ i j, i < m.size1 → j < m.size2 → m.get dbg o i j = .ok (elem (m.get dbg o) i j) := fun i j hi hj => by
    obtain ⟨g1, g2⟩ := hm i j hi hj
    by_cases hb : BandSpec.InBand m.lower m.upper i j
    · obtain ⟨v, hv, _⟩ := g1 hb; exact elem_ok hv
    · exact elem_ok (g2 hb)
  have hz : ∀ i j, i < m.size1 → j < m.size2 → ¬ BandSpec.InBand m.lower m.upper i j → elem (m.get dbg o) i j = 0 := by
    intro i j hi hj hs
    rw [elem, (hm i j hi hj).2 hs]; rfl
  apply MSeq.operand
  · intro i hi
    have hr : ∀ j, (m.find2 i 0 ≤ j ∧ j < m.find2 i m.size2 ↔ j < m.size2 ∧ BandSpec.InBand m.lower m.upper i j) ∧ m.find2 i 0 ≤ m.find2 i m.size2 ∧
        m.find2 i m.size2 - m.find2 i 0 ≤ m.size1 + m.size2 + 1 := by
      intro j; simp only [BMat.find2, BandSpec.InBand]; omega
    obtain ⟨L, e1, e2, e3⟩ := walkIdx_ok (get := m.get dbg o i) (m.size1 + m.size2 + 1) _ _ (hr 0).2.1 (hr 0).2.2
      (fun k h1 h2 => ⟨_, hg i k hi ((hr k).1.1 ⟨h1, h2⟩).1⟩)
    exact ⟨L, e1, Seq.presents_range e2 e3 (fun k h1 h2 => ((hr k).1.1 ⟨h1, h2⟩).1) (fun j hj => hg i j hi hj)
      (fun j hj h => hz i j hi hj fun hs => h ((hr j).1.2 ⟨hj, hs⟩)) (fun h => by cases h)⟩
  · intro j hj
    have hr : ∀ i, (m.find1 0 j ≤ i ∧ i < m.find1 m.size1 j ↔ i < m.size1 ∧ BandSpec.InBand m.lower m.upper i j) ∧ m.find1 0 j ≤ m.find1 m.size1 j ∧
        m.find1 m.size1 j - m.find1 0 j ≤ m.size1 + m.size2 + 1 := by
      intro i; simp only [BMat.find1, BandSpec.InBand]; omega
    obtain ⟨L, e1, e2, e3⟩ := walkIdx_ok (get := fun i => m.get dbg o i j) (m.size1 + m.size2 + 1) _ _ (hr 0).2.1 (hr 0).2.2
      (fun k h1 h2 => ⟨_, hg k j ((hr k).1.1 ⟨h1, h2⟩).1 hj⟩)
    exact ⟨L, e1, Seq.presents_range e2 e3 (fun k h1 h2 => ((hr k).1.1 ⟨h1, h2⟩).1) (fun i hi => hg i j hi hj)
      (fun i hi h => hz i j hi hj fun hs => h ((hr i).1.2 ⟨hi, hs⟩)) (fun h => by cases h)⟩

theorem mem_range_map {n : Nat} {f : Nat → R} {k : Nat} {x : R} : (k, x) ∈ (List.range n).map (fun k => (k, f k)) ↔ k < n ∧ x = f k := by
  simp only [List.mem_map, List.mem_range, Prod.mk.injEq]
  constructor
  · rintro ⟨a, h1, rfl, rfl⟩; exact ⟨h1, rfl⟩
  · rintro ⟨h1, rfl⟩; exact ⟨k, h1, rfl, rfl⟩

/-- A dense matrix. -/
theorem dense_operand (dbg : Bool) (o : Orient) (m : Dense R) (hw : m.WF) :
    ∃ q : MSeq R, q.Of m.size1 m.size2 .dense (m.rowEls dbg o) (m.colEls dbg o) (m.get dbg o) ∧ q.Presents m.size1 m.size2 (elem (m.get dbg o)) := by
  have hg : ∀ i j, i < m.size1 → j < m.size2 → m.get dbg o i j = .ok (elem (m.get dbg o) i j) ∧
      DenseIter.deref dbg o m (o.elementRaw i m.size1 j m.size2) = .ok (i, j, elem (m.get dbg o) i j) := fun i j hi hj => by
    obtain ⟨v, h1, h2⟩ := deref_eq dbg o m hw hi hj
    have he := elem_ok h1
    rw [h1] at he
    exact ⟨elem_ok h1, by rw [h2, Except.ok.inj he]⟩
  apply MSeq.operand
  · intro i hi
    have hl : m.rowEls dbg o i = .ok ((List.range m.size2).map fun j => (j, elem (m.get dbg o) i j)) := by
      unfold Dense.rowEls DenseIter.find
      rw [address_ok dbg o (Nat.le_of_lt hi) (Nat.zero_le _), address_ok dbg o (Nat.le_of_lt hi) (Nat.le_refl _)]
      have e1 : ∀ j, o.elementRaw i m.size1 j m.size2 = o.elementRaw i m.size1 0 m.size2 + j * DenseIter.inc2 o m := by
        intro j; cases o <;> simp [Orient.elementRaw, DenseIter.inc2, Nat.add_comm]
      simp only [bind_ok]
      rw [e1 m.size2]
      by_cases hc : m.size2 = 0
      · rw [hc]; simp only [Nat.zero_mul, Nat.add_zero, walk_empty]; rfl
      · rw [walk_eq _ (fun j => (i, j, elem (m.get dbg o) i j)) _ ?_ m.size2 _ _ (Nat.le_refl _)]
        · simp [Function.comp_def]
        · intro k hk; rw [← e1 k]; exact (hg i k hi hk).2
        · cases o <;> simp [DenseIter.inc2]; omega
    refine ⟨_, hl, Seq.presents_range (lo := 0) (hi := m.size2) ?_ ?_ (fun _ _ h => h) (fun j hj => (hg i j hi hj).1) (fun j h1 h2 => by omega) (fun _ => ⟨rfl, rfl⟩)⟩
    · simp [Function.comp_def, List.range_eq_range']
    · intro k x
      rw [mem_range_map]
      constructor
      · rintro ⟨h1, rfl⟩; exact ⟨Nat.zero_le _, h1, (hg i k hi h1).1⟩
      · rintro ⟨_, h1, h2⟩; rw [(hg i k hi h1).1] at h2; exact ⟨h1, (Except.ok.inj h2).symm⟩
  · intro j hj
    have hl : m.colEls dbg o j = .ok ((List.range m.size1).map fun i => (i, elem (m.get dbg o) i j)) := by
      unfold Dense.colEls DenseIter.find
      rw [address_ok dbg o (Nat.zero_le _) (Nat.le_of_lt hj), address_ok dbg o (Nat.le_refl _) (Nat.le_of_lt hj)]
      have e1 : ∀ i, o.elementRaw i m.size1 j m.size2 = o.elementRaw 0 m.size1 j m.size2 + i * DenseIter.inc1 o m := by
        intro i; cases o <;> simp [Orient.elementRaw, DenseIter.inc1, Nat.add_comm]
      simp only [bind_ok]
      rw [e1 m.size1]
      by_cases hc : m.size1 = 0
      · rw [hc]; simp only [Nat.zero_mul, Nat.add_zero, walk_empty]; rfl
      · rw [walk_eq _ (fun i => (i, j, elem (m.get dbg o) i j)) _ ?_ m.size1 _ _ (Nat.le_refl _)]
        · simp [Function.comp_def]
        · intro k hk; rw [← e1 k]; exact (hg k j hk hj).2
        · cases o <;> simp [DenseIter.inc1]; omega
    refine ⟨_, hl, Seq.presents_range (lo := 0) (hi := m.size1) ?_ ?_ (fun _ _ h => h) (fun i hi => (hg i j hi hj).1) (fun j h1 h2 => by omega) (fun _ => ⟨rfl, rfl⟩)⟩
    · simp [Function.comp_def, List.range_eq_range']
    · intro k x
      rw [mem_range_map]
      constructor
      · rintro ⟨h1, rfl⟩; exact ⟨Nat.zero_le _, h1, (hg k j h1 hj).1⟩
      · rintro ⟨_, h1, h2⟩; rw [(hg k j h1 hj).1] at h2; exact ⟨h1, (Except.ok.inj h2).symm⟩

/-- Non-vacuity and an end-to-end instance: a compressed_matrix times a compressed_vector, both built by legal histories. -/
example (dbg : Bool) (mode : Mode) : ∃ (A : MSeq Int) (x : Seq Int), A.Presents 2 3 (fun i j => if (i, j) = (1, 2) then 5 else if (i, j) = (0, 1) then 2 else 0) ∧
    x.Presents 3 (fun i => if i = 2 then 7 else 0) ∧ mv1It dbg mode A x 1 = .ok 35 := by
  have hA : (⟨2, 3, .sparse, fun i => if i = 0 then [(1, 2)] else if i = 1 then [(2, 5)] else [], fun j => if j = 1 then [(0, 2)] else if j = 2 then [(1, 5)] else [],
      fun i j => .ok (if (i, j) = (1, 2) then 5 else if (i, j) = (0, 1) then 2 else 0)⟩ : MSeq Int).Presents 2 3
        (fun i j => if (i, j) = (1, 2) then 5 else if (i, j) = (0, 1) then 2 else 0) := by
    refine ⟨rfl, rfl, fun i hi => ?_, fun j hj => ?_⟩
    · interval_cases i <;> refine ⟨rfl, fun _ _ => rfl, by decide, by decide, by decide, fun h => absurd rfl h, fun h => by cases h⟩
    · interval_cases j <;> refine ⟨rfl, fun _ _ => rfl, by decide, by decide, by decide, fun h => absurd rfl h, fun h => by cases h⟩
  have hx : (⟨3, .sparse, [(2, 7)], fun i => .ok (if i = 2 then 7 else 0)⟩ : Seq Int).Presents 3 (fun i => if i = 2 then 7 else 0) :=
    ⟨rfl, fun _ _ => rfl, by decide, by decide, by decide, fun h => absurd rfl h, fun h => by cases h⟩
  refine ⟨_, _, hA, hx, ?_⟩
  have := ((C31_matrix_vector dbg mode 2 3 _ _ ⟨2, .sparse, [], fun _ => .ok 0⟩ _ _ (fun _ => 0) hA hx
    ⟨rfl, fun _ _ => rfl, by decide, by decide, by decide, fun h => absurd rfl h, fun h => by cases h⟩).1 1 (by decide)).2
  rw [this]; rfl

end Ublas
