import Verif.Model.CompressedMatrix
import Verif.Model.Coo
/-! # compressed_matrix constructed from a coordinate_matrix (matrix_sparse.hpp:2862-2884) -/
namespace Ublas
open Search
variable {α : Type}
namespace CMat

/-- The loop filling the line offsets: matrix_sparse.hpp:2874-2878.  First argument: how often `r < size_M` still holds.
`majors` are the raw (IB-based) major indices of the coordinate matrix, `f` their number, `i` the running iterator.
Returns the final `r`. -/
def fillOffsets (dbg : Bool) (IB : Nat) (majors : List Nat) (f : Nat) : (n r i : Nat) → List Nat → M (Nat × List Nat)
  | 0, r, _, idx1 => .ok (r, idx1)
  | n + 1, r, i, idx1 =>
      if i = f then .ok (r, idx1) else do
        let i' ← stdLowerBound majors r (f - i) i (f - i)
        let idx1' ← wr dbg idx1 r (i' + IB)
        fillOffsets dbg IB majors f n (r + 1) i' idx1'

/-- `std::copy (src, src + n, dst)` between two different arrays. C++ standard library, not code of /repo. -/
def copyTo {β : Type} (src dst : List β) (n : Nat) : M (List β) :=
  if n ≤ src.length ∧ n ≤ dst.length then .ok (src.take n ++ dst.drop n) else .error .ub

/-- `compressed_matrix (const coordinate_matrix &m)`: matrix_sparse.hpp:2862-2884.  Also returns the source, which `m.sort ()` may have
re-ordered.  `index2_data_` and `value_data_` start empty (default constructed); `capacity_`, `filled1_`, `filled2_`
are written by `reserve` before they are read. -/
def ofCoordinate [Add α] (srt : List ((Nat × Nat) × α) → List ((Nat × Nat) × α)) (full dbg : Bool) (o : Orient) (IB : Nat) (zero : α) (junk : Junk α)
    (m : CoordMat α) : M (CoordMat α × CMat α) := do
  let c ← m.coo.sort dbg (CoordMat.par srt full m.size1 m.size2)
  let v0 : CMat α := ⟨m.size1, m.size2, 0, 0, 0, (List.range (o.sizeM m.size1 m.size2 + 1)).map junk.1, [], []⟩
  let v ← v0.reserve dbg o IB zero junk c.filled false
  let p ← fillOffsets dbg IB (c.idx.map (·.1)) c.filled (o.sizeM m.size1 m.size2 - 1) 1 0 v.idx1
  let idx2 ← copyTo (c.idx.map (·.2)) v.idx2 c.filled
  let val ← copyTo c.val v.val c.filled
  let idx1 ← wr dbg p.2 (p.1 + 1 - 1) (c.filled + IB)
  let r : CMat α := ⟨m.size1, m.size2, v.cap, p.1 + 1, c.filled, idx1, idx2, val⟩
  r.invariants dbg o IB
  .ok (⟨m.size1, m.size2, c⟩, r)

end CMat
end Ublas
