import Verif.Model.BlasSwap
import Verif.Props.Vector
import Verif.Props.Blas
/-! # C59: swap -/
namespace Ublas.Blas
open Storage
variable {R : Type}

/-- **C59** `swap (v1, v2)` for `vector<T>` of any sizes: each has the other's size and elements; `swap (v, v)` changes nothing. -/
theorem C59_swap (dbg : Bool) (mode : ProdFn.Mode) (zero : R) {n p : Nat} {x y : Nat → R} {v1 v2 : List R} (h1 : Holds v1 n x) (h2 : Holds v2 p y) :
    (∃ v1' v2', swap (DVec.ops (unboundedImpl R) dbg mode zero) v1 v2 = .ok (v1', v2') ∧ Holds v1' p y ∧ Holds v2' n x) ∧
    swapSelf (DVec.ops (unboundedImpl R) dbg mode zero) v1 = .ok v1 :=
  ⟨⟨v2, v1, rfl, h2, h1⟩, rfl⟩

/-- **C59** `swap (v1, v2)` for vectors over `bounded_array<T, N>`: each shows, by size and iteration, what the other showed. -/
theorem C59_swap_bounded (dbg : Bool) (N : Nat) (mode : ProdFn.Mode) (zero : R) {v1 v2 : BArr R} (h1 : BArr.WF N v1) (h2 : BArr.WF N v2) :
    (∃ v1' v2', swap (DVec.ops (boundedImpl R N) dbg mode zero) v1 v2 = .ok (v1', v2') ∧ v1'.size = v2.size ∧ v2'.size = v1.size ∧
      DVec.traverse (boundedImpl R N) dbg v1' = DVec.traverse (boundedImpl R N) dbg v2 ∧ DVec.traverse (boundedImpl R N) dbg v2' = DVec.traverse (boundedImpl R N) dbg v1 ∧
      (∃ l, DVec.traverse (boundedImpl R N) dbg v1 = .ok l ∧ l.length = v1.size)) ∧
    swapSelf (DVec.ops (boundedImpl R N) dbg mode zero) v1 = .ok v1 := by
  have L := DVec.bounded_laws (α := R) N
  obtain ⟨a, b, e, w1, w2, e1, e2⟩ := L.swap v1 v2 h1 h2
  have s1 := L.size v1 h1
  refine ⟨⟨a, b, e, ?_, ?_, ?_, ?_, ⟨_, DVec.traverse_ok L dbg h1, s1.symm⟩⟩, rfl⟩
  · have := L.size a w1; have h := L.size v2 h2; rw [e1, ← h] at this; exact this
  · have := L.size b w2; rw [e2, ← s1] at this; exact this
  · rw [DVec.traverse_ok L dbg w1, DVec.traverse_ok L dbg h2, e1]
  · rw [DVec.traverse_ok L dbg w2, DVec.traverse_ok L dbg h1, e2]

/-- **C59** `swap (v1, v2)` for `compressed_vector`s that represent `s1` and `s2`: afterwards they represent `s2` and `s1`. -/
theorem C59_swap_compressed (dbg : Bool) (IB : Nat) (zero : R) {v1 v2 : CVec R} {s1 s2 : SparseSpec.Vec R} (h1 : CVec.Inv IB v1 s1) (h2 : CVec.Inv IB v2 s2) :
    (∃ v1' v2', swap (Values.cv dbg IB zero) v1 v2 = .ok (v1', v2') ∧ CVec.Inv IB v1' s2 ∧ CVec.Inv IB v2' s1) ∧
    ∃ v', swapSelf (Values.cv dbg IB zero) v1 = .ok v' ∧ CVec.Inv IB v' s1 :=
  ⟨(Values.cv_laws dbg IB zero).swap v1 v2 s1 s2 h1 h2, (Values.cv_laws dbg IB zero).selfSwap v1 s1 h1⟩

/-- **C59** (example). -/
theorem C59_swap_demo : Holds [(1 : Int), 2] 2 (fun i => i + 1) ∧ Holds [(7 : Int)] 1 (fun _ => 7) ∧ BArr.WF 3 (⟨1, [(5 : Int), 0, 0]⟩ : BArr Int) :=
  ⟨⟨rfl, fun i hi => by match i, hi with | 0, _ => rfl | 1, _ => rfl⟩, ⟨rfl, fun i hi => by match i, hi with | 0, _ => rfl⟩, by simp [BArr.WF]⟩

end Ublas.Blas
