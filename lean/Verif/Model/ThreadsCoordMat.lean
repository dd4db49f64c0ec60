import Verif.Model.Threads
/-! # Several threads using one coordinate_matrix: array 0 = [size1_, size2_, capacity_, filled_, sorted_filled_, sorted_], array 1 = index1_data_, array 2 = index2_data_ -/
namespace Ublas
namespace Threads
open Search
variable {R : Type}

/-- The memory of a coordinate_matrix: matrix_sparse.hpp:5742-5750 (all but the sizes and `capacity_` are `mutable`). -/
def coordMatMem (v : CoordMat R) : TMem R :=
  ⟨fun a => if a = 0 then [v.size1, v.size2, v.coo.cap, v.coo.filled, v.coo.sortedFilled, if v.coo.sorted then 1 else 0] else if a = 1 then v.coo.idx.map (·.1)
    else if a = 2 then v.coo.idx.map (·.2) else [], v.coo.val⟩

/-- `std::upper_bound`, as `Search.stdUpperBound`. C++ standard library, not code of /repo. -/
def stdUpperBoundT (arr k : Nat) : (fuel first len : Nat) → Th R Nat
  | 0, first, len => if len = 0 then .ret first else .fail .diverge
  | fuel + 1, first, len =>
      if len = 0 then .ret first else do
        let x ← getN false arr (first + len / 2)
        if k < x then stdUpperBoundT arr k fuel first (len / 2) else stdUpperBoundT arr k fuel (first + len / 2 + 1) (len - len / 2 - 1)

/-- `detail::upper_bound`: storage_sparse.hpp:42-49. -/
def upperBoundT (arr b e k : Nat) : Th R Nat :=
  if b = e then .ret b else do
    let x ← getN false arr b
    if k < x then .ret b else do
      let y ← getN false arr (e - 1)
      if ¬ k < y then .ret e else stdUpperBoundT arr k (e - b) b (e - b)

/-- Is the record at `a` before the one at `b`?  `index1_data_ [a] < index1_data_ [b] || (index1_data_ [a] == index1_data_ [b] && index2_data_ [a] < index2_data_ [b])`:
matrix_sparse.hpp:4662-4664, 4680-4681. -/
def lexLtT (dbg : Bool) (a b : Nat) : Th R Bool := do
  let x ← getN dbg 1 a
  let y ← getN dbg 1 b
  if x < y then .ret true else do
    let x ← getN dbg 1 a
    let y ← getN dbg 1 b
    if x = y then do
      let x ← getN dbg 2 a
      let y ← getN dbg 2 b
      .ret (decide (x < y))
    else .ret false

/-- Member `lower_bound`: matrix_sparse.hpp:4659-4671. -/
def lowerBoundAtMT (dbg : Bool) (target : Nat) : (fuel b e : Nat) → Th R Nat
  | 0, b, e => if e > b then .fail .diverge else .ret b
  | fuel + 1, b, e =>
      if e > b then do
        let lt ← lexLtT dbg ((b + e) / 2) target
        if lt then lowerBoundAtMT dbg target fuel ((b + e) / 2 + 1) e else lowerBoundAtMT dbg target fuel b ((b + e) / 2)
      else .ret b

/-- `std::swap (data [b], data [m])` on an index array: matrix_sparse.hpp:4683-4684. -/
def swapN (dbg : Bool) (arr b m : Nat) : Th R Unit := do
  let p ← getN dbg arr b
  let q ← getN dbg arr m
  putN dbg arr b q
  putN dbg arr m p

/-- `inplace_merge (beg, mid, end)`: matrix_sparse.hpp:4675-4704. -/
def inplaceMergeMT (dbg : Bool) : (fuel b m e : Nat) → Th R Unit
  | 0, b, m, e => if b < m ∧ m < e then .fail .diverge else .ret ()
  | fuel + 1, b, m, e =>
      if m - b = 1 ∧ e - m = 1 then do
        let lt ← lexLtT dbg m b
        if lt then do
          swapN dbg 1 b m
          swapN dbg 2 b m
          let p ← getR dbg b
          let q ← getR dbg m
          putR dbg b q
          putR dbg m p
        else .ret ()
      else if m - b > 0 ∧ e - m > 0 then do
        let p ← (if m - b ≥ e - m then do
            let rigMid ← lowerBoundAtMT dbg ((b + m) / 2) (e - m) m e
            .ret ((b + m) / 2, rigMid)
          else do
            let lefMid ← lowerBoundAtMT dbg ((m + e) / 2) (m - b) b m
            .ret (lefMid, (m + e) / 2) : Th R (Nat × Nat))
        rotateN 1 p.1 m p.2
        rotateN 2 p.1 m p.2
        rotateR p.1 m p.2
        inplaceMergeMT dbg fuel b p.1 (p.1 + p.2 - m)
        inplaceMergeMT dbg fuel (p.1 + p.2 - m) p.2 e
      else .ret ()

/-- `std::sort` of the records [a, b) through `index_triple_array`: some sequence of reads followed by writes. C++ standard library, not code of /repo. -/
def sortSegmentMT (srt : List ((Nat × Nat) × R) → List ((Nat × Nat) × R)) (a b : Nat) : Th R Unit := do
  let l ← readN 1 a (b - a)
  let l2 ← readN 2 a (b - a)
  let r ← readR a (b - a)
  writeN 1 a ((srt ((l.zip l2).zip r)).map (·.1.1))
  writeN 2 a ((srt ((l.zip l2).zip r)).map (·.1.2))
  writeR a ((srt ((l.zip l2).zip r)).map (·.2))

/-- The duplicate-summing loop from `i` on; `filled_` is read again in every round: matrix_sparse.hpp:4723-4736.  Returns the local variable `filled`. -/
def sumLoopMT [Add R] (dbg : Bool) : (fuel i f : Nat) → Th R Nat
  | 0, i, f => do
      let filled ← getN false 0 3
      if i < filled then .fail .diverge else .ret f
  | fuel + 1, i, f => do
      let filled ← getN false 0 3
      if i < filled then do
        let x ← getN dbg 1 f
        let y ← getN dbg 1 i
        let ne ← (if x ≠ y then .ret true else do
          let x ← getN dbg 2 f
          let y ← getN dbg 2 i
          .ret (decide (x ≠ y)) : Th R Bool)
        if ne then
          if f + 1 ≠ i then do
            let y ← getN dbg 1 i
            putN dbg 1 (f + 1) y
            let y ← getN dbg 2 i
            putN dbg 2 (f + 1) y
            let t ← getR dbg i
            putR dbg (f + 1) t
            sumLoopMT dbg fuel (i + 1) (f + 1)
          else sumLoopMT dbg fuel (i + 1) (f + 1)
        else do
          let a ← getR dbg f
          let t ← getR dbg i
          putR dbg f (a + t)
          sumLoopMT dbg fuel (i + 1) f
      else .ret f

/-- `sort () const`: matrix_sparse.hpp:4708-4742, without BOOST_UBLAS_COO_ALWAYS_DO_FULL_SORT; the reads of `storage_invariants ()` in debug builds are left out. -/
def coordMatSortT [Add R] (dbg : Bool) (srt : List ((Nat × Nat) × R) → List ((Nat × Nat) × R)) : Th R Unit := do
  let sorted ← getN false 0 5
  if sorted ≠ 0 then .ret () else do
    let filled ← getN false 0 3
    if filled > 0 then do
      let sf ← getN false 0 4
      sortSegmentMT srt sf filled
      inplaceMergeMT dbg filled 0 sf filled
      let f ← sumLoopMT dbg (filled - 1) 1 0
      putN false 0 3 (f + 1)
      let filled ← getN false 0 3
      putN false 0 4 filled
      putN false 0 5 1
    else .ret ()

/-- Look-up, as `CoordMat.search`: matrix_sparse.hpp:4455-4466. -/
def coordMatSlotT (o : Orient) (IB : Nat) (p : Nat × Nat) : Th R (Option Nat) := do
  let filled ← getN false 0 3
  let b ← lowerBoundT 1 0 filled (o.indexM p.1 p.2 + IB)
  let filled ← getN false 0 3
  let e ← upperBoundT 1 0 filled (o.indexM p.1 p.2 + IB)
  if b = e then .ret none else do
    let it ← lowerBoundT 2 b e (o.indexm p.1 p.2 + IB)
    if it = e then .ret none else do
      let x ← getN false 2 it
      if x ≠ o.indexm p.1 p.2 + IB then .ret none else .ret (some it)

/-- `operator () (i, j) const`: matrix_sparse.hpp:4471-4477. -/
def coordMatGetT [Add R] (dbg : Bool) (srt : List ((Nat × Nat) × R) → List ((Nat × Nat) × R)) (o : Orient) (IB : Nat) (zero : R) (p : Nat × Nat) : Th R R := do
  coordMatSortT dbg srt
  let r ← coordMatSlotT o IB p
  match r with
  | none => .ret zero
  | some n => getR dbg n

end Threads
end Ublas
