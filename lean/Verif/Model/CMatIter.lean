import Verif.Model.CompressedMatrix
/-! # Iterators of compressed_matrix (matrix_sparse.hpp:3300-4185)

`const_iterator1`, `iterator1`, `const_iterator2` and `iterator2` are the same text up to the exchange of the two indices; they are
modelled once, parameterised by the axis they move along. -/
namespace Ublas
open Search
variable {α : Type}

/-- `one`: iterator1 (moves along the first index); `two`: iterator2. matrix_sparse.hpp:3462-3652 (const_iterator1), 3807-3997 (const_iterator2). -/
inductive Axis | one | two
  deriving DecidableEq

/-- Machinery of the model; no code of its own in /repo. -/
def Axis.other : Axis → Axis
  | .one => .two
  | .two => .one

/-- `layout_type::fast_i ()` for axis one, `fast_j ()` for axis two: functional.hpp:1458-1466 (row_major), 1636-1644 (column_major). -/
def Orient.fast (o : Orient) (ax : Axis) : Bool :=
  match ax, o with
  | .one, .row => false
  | .two, .row => true
  | .one, .col => true
  | .two, .col => false

/-- Data members of the iterators: matrix_sparse.hpp:3628-3634; `itv` and `it` are positions in `index1_data_`, `index2_data_`. -/
structure CMIter where
  rank : Nat
  i : Nat
  j : Nat
  itv : Nat
  it : Nat
  deriving DecidableEq

namespace CMat

/-- The index moved by an iterator of axis `ax` (`i` for find1, `j` for find2), replaced. The assignments to `i` / `j` inside matrix_sparse.hpp:3301-3460 (the four `find`s). -/
def setAlong (ax : Axis) (i j k : Nat) : Nat × Nat :=
  match ax with
  | .one => (k, j)
  | .two => (i, k)

/-- The `i` / `j` of matrix_sparse.hpp:3301-3460 (the four `find`s). -/
def along (ax : Axis) (i j : Nat) : Nat :=
  match ax with
  | .one => i
  | .two => j

/-- `find1 (rank, i, j, direction)` (3301-3339, 3341-3379) for axis one, `find2` (3381-3419, 3421-3459) for axis two.  `fwd` is
`direction > 0`.  `fuel` bounds the number of rounds of `for (;;)`. -/
def findIt (o : Orient) (IB : Nat) (v : CMat α) (ax : Axis) (fwd : Bool) (rank : Nat) : (fuel i j : Nat) → M CMIter
  | 0, _, _ => .error .diverge
  | fuel + 1, i, j =>
      let address1 := o.indexM i j
      let address2 := o.indexm i j
      let itv := min (v.filled1 - 1) address1
      if v.filled1 ≤ address1 + 1 then .ok ⟨rank, i, j, itv, v.filled2⟩ else do
        let b ← rd false v.idx1 itv
        let e ← rd false v.idx1 (itv + 1)
        let it ← lowerBound v.idx2 (b - IB) (e - IB) (address2 + IB)
        if rank = 0 then .ok ⟨rank, i, j, itv, it⟩ else do
          let hit ← (if it = e - IB then .ok false else do
            let x ← rd false v.idx2 it
            .ok (decide (x - IB = address2)) : M Bool)
          if hit = true then .ok ⟨rank, i, j, itv, it⟩ else
            match fwd, o.fast ax with
            | true, true =>
                if it = e - IB then .ok ⟨rank, i, j, itv, it⟩ else do
                  let x ← rd false v.idx2 it
                  findIt o IB v ax fwd rank fuel (setAlong ax i j (x - IB)).1 (setAlong ax i j (x - IB)).2
            | true, false =>
                if along ax i j ≥ along ax v.size1 v.size2 then .ok ⟨rank, i, j, itv, it⟩ else
                  findIt o IB v ax fwd rank fuel (setAlong ax i j (along ax i j + 1)).1 (setAlong ax i j (along ax i j + 1)).2
            | false, true =>
                if it = b - IB then .ok ⟨rank, i, j, itv, it⟩ else do
                  let x ← rd false v.idx2 (it - 1)
                  findIt o IB v ax fwd rank fuel (setAlong ax i j (x - IB)).1 (setAlong ax i j (x - IB)).2
            | false, false =>
                if along ax i j = 0 then .ok ⟨rank, i, j, itv, it⟩ else
                  findIt o IB v ax fwd rank fuel (setAlong ax i j (along ax i j - 1)).1 (setAlong ax i j (along ax i j - 1)).2

/-- Enough rounds for every search. Fuel for the `while (true)` of matrix_sparse.hpp:3301-3460 (the four `find`s). -/
def rounds (v : CMat α) : Nat := v.size1 + v.size2 + 2

/-- `find1` / `find2` as called. matrix_sparse.hpp:3301-3460 (the four `find`s). -/
def find (o : Orient) (IB : Nat) (v : CMat α) (ax : Axis) (fwd : Bool) (rank i j : Nat) : M CMIter :=
  findIt o IB v ax fwd rank v.rounds i j

/-- `operator ==`: matrix_sparse.hpp:3618-3626. -/
def iterEq (a b : CMIter) : Bool :=
  if a.rank = 1 ∨ b.rank = 1 then decide (a.it = b.it) else decide (a.i = b.i ∧ a.j = b.j)

/-- The debug check of the index moved along: `*this != find1 (0, size1 (), j_)`, matrix_sparse.hpp:3586, 3940. -/
def notEnd (dbg : Bool) (o : Orient) (IB : Nat) (v : CMat α) (ax : Axis) (p : CMIter) : M Unit :=
  if dbg = true then do
    let e ← v.find o IB ax true 0 (setAlong ax p.i p.j (along ax v.size1 v.size2)).1 (setAlong ax p.i p.j (along ax v.size1 v.size2)).2
    check dbg (iterEq p e = false) .badIndex
  else .ok ()

/-- `index1 ()`: matrix_sparse.hpp:3585-3593 (iterator1), 3930-3937 (iterator2, without the end check). -/
def index1 (dbg : Bool) (o : Orient) (IB : Nat) (v : CMat α) (ax : Axis) (p : CMIter) : M Nat := do
  let _ ← (if ax = .one then v.notEnd dbg o IB ax p else .ok () : M Unit)
  if p.rank = 1 then do
    let x ← rd false v.idx2 p.it
    check dbg (o.indexM p.itv (x - IB) < v.size1) .badIndex
    .ok (o.indexM p.itv (x - IB))
  else .ok p.i

/-- `index2 ()`: matrix_sparse.hpp:3595-3602 (iterator1, without the end check), 3939-3947 (iterator2). -/
def index2 (dbg : Bool) (o : Orient) (IB : Nat) (v : CMat α) (ax : Axis) (p : CMIter) : M Nat := do
  let _ ← (if ax = .two then v.notEnd dbg o IB ax p else .ok () : M Unit)
  if p.rank = 1 then do
    let x ← rd false v.idx2 p.it
    check dbg (o.indexm p.itv (x - IB) < v.size2) .badIndex
    .ok (o.indexm p.itv (x - IB))
  else .ok p.j

/-- The index moved along: `index1 ()` for iterator1, `index2 ()` for iterator2. matrix_sparse.hpp:3585-3602, 3930-3948. -/
def indexAlong (dbg : Bool) (o : Orient) (IB : Nat) (v : CMat α) (ax : Axis) (p : CMIter) : M Nat :=
  match ax with
  | .one => v.index1 dbg o IB ax p
  | .two => v.index2 dbg o IB ax p

/-- `operator ++`: matrix_sparse.hpp:3488-3497, 3833-3842. -/
def next (dbg : Bool) (o : Orient) (IB : Nat) (v : CMat α) (ax : Axis) (p : CMIter) : M CMIter :=
  if p.rank = 1 ∧ o.fast ax = true then .ok { p with it := p.it + 1 } else do
    let k ← v.indexAlong dbg o IB ax p
    let q := setAlong ax p.i p.j (k + 1)
    if p.rank = 1 then v.find o IB ax true p.rank q.1 q.2 else .ok { p with i := q.1, j := q.2 }

/-- `operator --`: matrix_sparse.hpp:3499-3508, 3844-3853 (decrementing a zero index or a pointer at the start of its array is not
modelled beyond truncation at zero). -/
def prev (o : Orient) (IB : Nat) (v : CMat α) (ax : Axis) (p : CMIter) : M CMIter :=
  if p.rank = 1 ∧ o.fast ax = true then .ok { p with it := p.it - 1 } else
    let q := setAlong ax p.i p.j (along ax p.i p.j - 1)
    if p.rank = 1 then v.find o IB ax false p.rank q.1 q.2 else .ok { p with i := q.1, j := q.2 }

/-- `operator *`: matrix_sparse.hpp:3512-3520, 3857-3865. -/
def deref (dbg : Bool) (o : Orient) (IB : Nat) (zero : α) (v : CMat α) (ax : Axis) (p : CMIter) : M α := do
  let _ ← (if dbg = true then do
      let i ← v.index1 dbg o IB ax p
      check dbg (i < v.size1) .badIndex
      let j ← v.index2 dbg o IB ax p
      check dbg (j < v.size2) .badIndex
    else .ok () : M Unit)
  if p.rank = 1 then rd dbg v.val p.it else v.get dbg o IB zero p.i p.j

/-- `begin1 ()`, `begin2 ()`: matrix_sparse.hpp:3637-3639, 3982-3984. -/
def outerBegin (o : Orient) (IB : Nat) (v : CMat α) (ax : Axis) : M CMIter := v.find o IB ax true 0 0 0

/-- `end1 ()`, `end2 ()`: matrix_sparse.hpp:3645-3647, 3990-3992. -/
def outerEnd (o : Orient) (IB : Nat) (v : CMat α) (ax : Axis) : M CMIter :=
  v.find o IB ax true 0 (setAlong ax 0 0 (along ax v.size1 v.size2)).1 (setAlong ax 0 0 (along ax v.size1 v.size2)).2

/-- `it.begin ()` of an outer iterator of axis `ax`: matrix_sparse.hpp:3527-3530 (`find2 (1, index1 (), 0)`), 3872-3875. -/
def innerBegin (dbg : Bool) (o : Orient) (IB : Nat) (v : CMat α) (ax : Axis) (p : CMIter) : M CMIter := do
  let k ← v.indexAlong dbg o IB ax p
  v.find o IB ax.other true 1 (setAlong ax 0 0 k).1 (setAlong ax 0 0 k).2

/-- `it.end ()`: matrix_sparse.hpp:3542-3545 (`find2 (1, index1 (), size2 ())`), 3887-3890. -/
def innerEnd (dbg : Bool) (o : Orient) (IB : Nat) (v : CMat α) (ax : Axis) (p : CMIter) : M CMIter := do
  let k ← v.indexAlong dbg o IB ax p
  v.find o IB ax.other true 1 (setAlong ax v.size1 v.size2 k).1 (setAlong ax v.size1 v.size2 k).2

/-- `for (; it != e; ++ it) record (it.index1 (), it.index2 (), *it)`.  `fuel` bounds the number of rounds. A client's loop; the iterator operations are cited at their definitions. -/
def walk (dbg : Bool) (o : Orient) (IB : Nat) (zero : α) (v : CMat α) (ax : Axis) (e : CMIter) : (fuel : Nat) → CMIter → M (List ((Nat × Nat) × α))
  | 0, _ => .error .diverge
  | fuel + 1, p =>
      if iterEq p e = true then .ok [] else do
        let i ← v.index1 dbg o IB ax p
        let j ← v.index2 dbg o IB ax p
        let x ← v.deref dbg o IB zero ax p
        let q ← v.next dbg o IB ax p
        let r ← walk dbg o IB zero v ax e fuel q
        .ok (((i, j), x) :: r)

/-- `for (it = …; it != e; ++ it) for (it' = it.begin (); it' != it.end (); ++ it') record …`. A client's loop; the iterator operations are cited at their definitions. -/
def walkOuter (dbg : Bool) (o : Orient) (IB : Nat) (zero : α) (v : CMat α) (ax : Axis) (e : CMIter) : (fuel : Nat) → CMIter → M (List ((Nat × Nat) × α))
  | 0, _ => .error .diverge
  | fuel + 1, p =>
      if iterEq p e = true then .ok [] else do
        let b' ← v.innerBegin dbg o IB ax p
        let e' ← v.innerEnd dbg o IB ax p
        let l ← walk dbg o IB zero v ax.other e' (v.filled2 + 1) b'
        let q ← v.next dbg o IB ax p
        let r ← walkOuter dbg o IB zero v ax e fuel q
        .ok (l ++ r)

/-- The whole nested traversal starting with axis `ax`. A client's loop; the iterator operations are cited at their definitions. -/
def traverse (dbg : Bool) (o : Orient) (IB : Nat) (zero : α) (v : CMat α) (ax : Axis) : M (List ((Nat × Nat) × α)) := do
  let b ← v.outerBegin o IB ax
  let e ← v.outerEnd o IB ax
  walkOuter dbg o IB zero v ax e (along ax v.size1 v.size2 + 1) b

/-- `for (it = e; it != b;) { -- it; record (it.index1 (), it.index2 (), *it); }`: what reverse iterators do. A client's loop; the iterator operations are cited at their definitions. -/
def walkBack (dbg : Bool) (o : Orient) (IB : Nat) (zero : α) (v : CMat α) (ax : Axis) (b : CMIter) : (fuel : Nat) → CMIter → M (List ((Nat × Nat) × α))
  | 0, _ => .error .diverge
  | fuel + 1, p =>
      if iterEq p b = true then .ok [] else do
        let q ← v.prev o IB ax p
        let i ← v.index1 dbg o IB ax q
        let j ← v.index2 dbg o IB ax q
        let x ← v.deref dbg o IB zero ax q
        let r ← walkBack dbg o IB zero v ax b fuel q
        .ok (((i, j), x) :: r)

end CMat
end Ublas
