import Verif.Model.Prod
import Verif.Model.PackedIter
import Verif.Model.DenseIter
import Verif.Model.CompressedVector
/-!
# Containers as operands of products: what their iterators and element access deliver

Each definition spells out the container's `begin ()` … `end ()` loop; `Seq.Of` / `MSeq.Of` say that an operand of `Model/Prod` is what the
container's public interface delivers.
-/
namespace Ublas
variable {α : Type}

/-- `s` is what a vector with the given size, category, iteration and element access presents. Specification helper; no code of its own in /repo. -/
def Seq.Of (s : Seq α) (size : Nat) (cat : Cat) (els : M (List (Nat × α))) (get : Nat → M α) : Prop :=
  s.size = size ∧ s.cat = cat ∧ els = .ok s.els ∧ s.at_ = get

/-- The same for a matrix; `row i` (`col j`) is the loop over the inner iterators of row `i` (column `j`). A client's loop; the iterator operations are cited at their definitions. -/
def MSeq.Of (m : MSeq α) (size1 size2 : Nat) (cat : Cat) (row col : Nat → M (List (Nat × α))) (get : Nat → Nat → M α) : Prop :=
  m.size1 = size1 ∧ m.size2 = size2 ∧ m.cat = cat ∧ (∀ i, i < size1 → row i = .ok (m.rowEls i)) ∧ (∀ j, j < size2 → col j = .ok (m.colEls j)) ∧ m.at_ = get

/-- Iteration over a dense `vector` (vector.hpp:428-520, iterators are offsets into `data ()`; `index ()` is the offset). -/
def denseVecEls (dbg : Bool) (data : List α) : M (List (Nat × α)) := walkIdx (rd dbg data) data.length 0 data.length

/-- Inner iteration over row `i` of a dense matrix: `find2 (1, i, 0)` to `find2 (1, i, size2)`, matrix.hpp:552-570, 933-941. -/
def Dense.rowEls (dbg : Bool) (o : Orient) (m : Dense α) (i : Nat) : M (List (Nat × α)) := do
  let b ← DenseIter.find dbg o m i 0
  let e ← DenseIter.find dbg o m i m.size2
  let l ← DenseIter.walk (DenseIter.deref dbg o m) (DenseIter.inc2 o m) m.size2 b e
  return l.map fun p => (p.2.1, p.2.2)
/-- Inner iteration over column `j` of a dense matrix: matrix.hpp:875-893, 610-618. -/
def Dense.colEls (dbg : Bool) (o : Orient) (m : Dense α) (j : Nat) : M (List (Nat × α)) := do
  let b ← DenseIter.find dbg o m 0 j
  let e ← DenseIter.find dbg o m m.size1 j
  let l ← DenseIter.walk (DenseIter.deref dbg o m) (DenseIter.inc1 o m) m.size1 b e
  return l.map fun p => (p.1, p.2.2)

/-- Inner iteration over line `k` of a compressed_matrix: the row at the iterator1 `find1 (0, k, 0)` (`ax = one`), the column at the iterator2
`find2 (0, 0, k)` (`ax = two`): matrix_sparse.hpp:3527-3545, 3872-3890. -/
def CMat.lineEls (dbg : Bool) (o : Orient) (IB : Nat) (zero : α) (v : CMat α) (ax : Axis) (k : Nat) : M (List (Nat × α)) := do
  let p ← v.find o IB ax true 0 (CMat.setAlong ax 0 0 k).1 (CMat.setAlong ax 0 0 k).2
  let b ← v.innerBegin dbg o IB ax p
  let e ← v.innerEnd dbg o IB ax p
  let l ← CMat.walk dbg o IB zero v ax.other e (v.filled2 + 1) b
  return l.map fun x => (CMat.along ax.other x.1.1 x.1.2, x.2)

end Ublas
