import Verif.Model.Coo
import Verif.Model.ProxyIter
/-! # Iterators of coordinate_vector and coordinate_matrix (vector_sparse.hpp:1965-2195, matrix_sparse.hpp:4774-5724)

`const_iterator1`, `iterator1`, `const_iterator2` and `iterator2` of coordinate_matrix are the same text up to the exchange of the two indices; they are
modelled once, parameterised by the axis they move along.  Every `find` sorts first (the arrays are `mutable`); the model of a `find` works on the sorted arrays
and the other members on the arrays as they are, so the iterators of a container that is already sorted are modelled exactly (after the first `find` the
container is).  Reads only. -/
namespace Ublas
open Search
variable {α : Type}

/-- `coordinate_vector`: an iterator is a position in `index_data_`; `find`: vector_sparse.hpp:1984-1987, `++`, `--`: 2018-2026, `*`: 2030-2033, `index`: 2037-2041
(`end ()` is `find (size_)`, 2071-2073), `==`: 2053-2056. -/
def VIter.coordinate [Add α] (srt : List (Nat × α) → List (Nat × α)) (full dbg : Bool) (IB : Nat) (zero : α) (v : CoordVec α) : VIter α where
  size := v.size
  Pos := Nat
  find i := do
    let c ← v.coo.sort dbg (CoordVec.par srt full IB v.size)
    lowerBound c.idx 0 c.filled (i + IB)
  next p := .ok (p + 1)
  prev p := if p = 0 then .error .ub else .ok (p - 1)
  eq p q := .ok (decide (p = q))
  index p := do
    let _ ← (if dbg = true then do
        let c ← v.coo.sort dbg (CoordVec.par srt full IB v.size)
        let e ← lowerBound c.idx 0 c.filled (v.size + IB)
        check dbg (p ≠ e) .badIndex
      else .ok () : M Unit)
    let x ← rd false v.coo.idx p
    check dbg (x - IB < v.size) .badIndex
    .ok (x - IB)
  deref p := do
    let _ ← (if dbg = true then do
        let c ← v.coo.sort dbg (CoordVec.par srt full IB v.size)
        let e ← lowerBound c.idx 0 c.filled (v.size + IB)
        check dbg (p ≠ e) .badIndex
        let x ← rd false v.coo.idx p
        check dbg (x - IB < v.size) .badIndex
      else .ok () : M Unit)
    rd dbg v.coo.val p
  at_ i := v.get srt full dbg IB zero i

namespace CoordMat
open CMat (along setAlong iterEq)

/-- `find1 (rank, i, j, direction)` (4801-4881) for axis one, `find2` (4883-4963) for axis two, after `sort ()`; `fwd` is `direction > 0`.  `itv` always ends at the
same place of its array as `it` (4813).  `fuel` bounds the number of rounds of `for (;;)`. -/
def findIt (o : Orient) (IB : Nat) (size1 size2 : Nat) (c : Coo (Nat × Nat) α) (ax : Axis) (fwd : Bool) (rank : Nat) : (fuel i j : Nat) → M CMIter
  | 0, _, _ => .error .diverge
  | fuel + 1, i, j => do
      let address1 := o.indexM i j
      let address2 := o.indexm i j
      let b ← lowerBound (c.idx.map (·.1)) 0 c.filled (address1 + IB)
      let e ← upperBound (c.idx.map (·.1)) 0 c.filled (address1 + IB)
      let it ← lowerBound (c.idx.map (·.2)) b e (address2 + IB)
      if rank = 0 then .ok ⟨rank, i, j, it, it⟩ else do
        let hit ← (if it = e then .ok false else do
          let x ← rd false c.idx it
          .ok (decide (x.2 - IB = address2)) : M Bool)
        if hit = true then .ok ⟨rank, i, j, it, it⟩ else
          match fwd, o.fast ax with
          | true, true =>
              if it = e then .ok ⟨rank, i, j, it, it⟩ else do
                let x ← rd false c.idx it
                findIt o IB size1 size2 c ax fwd rank fuel (setAlong ax i j (x.2 - IB)).1 (setAlong ax i j (x.2 - IB)).2
          | true, false =>
              if along ax i j ≥ along ax size1 size2 then .ok ⟨rank, i, j, it, it⟩ else
                findIt o IB size1 size2 c ax fwd rank fuel (setAlong ax i j (along ax i j + 1)).1 (setAlong ax i j (along ax i j + 1)).2
          | false, true => do
              let x ← rd false c.idx it
              if it = x.1 - IB then .ok ⟨rank, i, j, it, it⟩ else
                if it = 0 then .error .ub else do
                  let x ← rd false c.idx (it - 1)
                  findIt o IB size1 size2 c ax fwd rank fuel (setAlong ax i j (x.2 - IB)).1 (setAlong ax i j (x.2 - IB)).2
          | false, false =>
              if along ax i j = 0 then .ok ⟨rank, i, j, it, it⟩ else
                findIt o IB size1 size2 c ax fwd rank fuel (setAlong ax i j (along ax i j - 1)).1 (setAlong ax i j (along ax i j - 1)).2

/-- `find1` / `find2` as called (4802, 4843, 4884, 4925: `sort ()` first). matrix_sparse.hpp:4800-4965. -/
def lookup [Add α] (srt : List ((Nat × Nat) × α) → List ((Nat × Nat) × α)) (full dbg : Bool) (o : Orient) (IB : Nat) (v : CoordMat α) (ax : Axis) (fwd : Bool)
    (rank i j : Nat) : M CMIter := do
  let c ← v.coo.sort dbg (par srt full v.size1 v.size2)
  findIt o IB v.size1 v.size2 c ax fwd rank (v.size1 + v.size2 + 2) i j

variable [Add α] (srt : List ((Nat × Nat) × α) → List ((Nat × Nat) × α)) (full dbg : Bool) (o : Orient) (IB : Nat) (v : CoordMat α)

/-- The debug check of the index moved along: `*this != find1 (0, size1 (), j_)`, 5090; `find2 (0, i_, size2 ())` for iterator2. matrix_sparse.hpp:5090, 5444. -/
def notEnd (ax : Axis) (p : CMIter) : M Unit :=
  if dbg = true then do
    let e ← v.lookup srt full dbg o IB ax true 0 (setAlong ax p.i p.j (along ax v.size1 v.size2)).1 (setAlong ax p.i p.j (along ax v.size1 v.size2)).2
    check dbg (iterEq p e = false) .badIndex
  else .ok ()

/-- `index1 ()`: 5089-5097 (iterator1; iterator2 has no end check): `index_M (zero_based (*itv_), zero_based (*it_))`. -/
def index1 (ax : Axis) (p : CMIter) : M Nat := do
  let _ ← (if ax = .one then v.notEnd srt full dbg o IB ax p else .ok () : M Unit)
  if p.rank = 1 then do
    let x ← rd false v.coo.idx p.itv
    let y ← rd false v.coo.idx p.it
    check dbg (o.indexM (x.1 - IB) (y.2 - IB) < v.size1) .badIndex
    .ok (o.indexM (x.1 - IB) (y.2 - IB))
  else .ok p.i

/-- `index2 ()`: 5099-5106 (iterator1 has no end check; iterator2 has). -/
def index2 (ax : Axis) (p : CMIter) : M Nat := do
  let _ ← (if ax = .two then v.notEnd srt full dbg o IB ax p else .ok () : M Unit)
  if p.rank = 1 then do
    let x ← rd false v.coo.idx p.itv
    let y ← rd false v.coo.idx p.it
    check dbg (o.indexm (x.1 - IB) (y.2 - IB) < v.size2) .badIndex
    .ok (o.indexm (x.1 - IB) (y.2 - IB))
  else .ok p.j

/-- The index moved along. matrix_sparse.hpp:5089-5107, 5434-5452. -/
def indexAlong (ax : Axis) (p : CMIter) : M Nat :=
  match ax with
  | .one => v.index1 srt full dbg o IB ax p
  | .two => v.index2 srt full dbg o IB ax p

/-- `operator ++`: 4992-5001; `itv_` stays. -/
def next (ax : Axis) (p : CMIter) : M CMIter :=
  if p.rank = 1 ∧ o.fast ax = true then .ok { p with it := p.it + 1 } else do
    let k ← v.indexAlong srt full dbg o IB ax p
    let q := setAlong ax p.i p.j (k + 1)
    if p.rank = 1 then v.lookup srt full dbg o IB ax true p.rank q.1 q.2 else .ok { p with i := q.1, j := q.2 }

/-- `operator --`: 5003-5012; `index1 () - 1` is of type `size_type`. -/
def prev (ax : Axis) (p : CMIter) : M CMIter :=
  if p.rank = 1 ∧ o.fast ax = true then (if p.it = 0 then .error .ub else .ok { p with it := p.it - 1 }) else do
    let k ← v.indexAlong srt full dbg o IB ax p
    let q := setAlong ax p.i p.j (u64 ((k : Int) - 1))
    if p.rank = 1 then v.lookup srt full dbg o IB ax false p.rank q.1 q.2 else .ok { p with i := q.1, j := q.2 }

/-- `operator *`: 5016-5024. -/
def deref (zero : α) (ax : Axis) (p : CMIter) : M α := do
  let _ ← (if dbg = true then do
      let i ← v.index1 srt full dbg o IB ax p
      check dbg (i < v.size1) .badIndex
      let j ← v.index2 srt full dbg o IB ax p
      check dbg (j < v.size2) .badIndex
    else .ok () : M Unit)
  if p.rank = 1 then rd dbg v.coo.val p.it else v.get srt full dbg o IB zero (p.i, p.j)

end CoordMat

/-- `coordinate_matrix`: `begin ()` of an iterator1 is `find2 (1, index1 (), 0)` (5031-5034), `end ()` is `find2 (1, index1 (), size2 ())` (5046-5049). -/
def MIter.coordinate [Add α] (srt : List ((Nat × Nat) × α) → List ((Nat × Nat) × α)) (full dbg : Bool) (o : Orient) (IB : Nat) (zero : α) (v : CoordMat α) : MIter α where
  size1 := v.size1
  size2 := v.size2
  Pos := CMIter
  find ax rank i j := v.lookup srt full dbg o IB ax true rank i j
  next ax p := v.next srt full dbg o IB ax p
  prev ax p := v.prev srt full dbg o IB ax p
  eq _ p q := .ok (CMat.iterEq p q)
  index1 ax p := v.index1 srt full dbg o IB ax p
  index2 ax p := v.index2 srt full dbg o IB ax p
  deref ax p := v.deref srt full dbg o IB zero ax p
  innerBegin ax p := do
    let k ← v.indexAlong srt full dbg o IB ax p
    v.lookup srt full dbg o IB ax.other true 1 (CMat.setAlong ax 0 0 k).1 (CMat.setAlong ax 0 0 k).2
  innerEnd ax p := do
    let k ← v.indexAlong srt full dbg o IB ax p
    v.lookup srt full dbg o IB ax.other true 1 (CMat.setAlong ax v.size1 v.size2 k).1 (CMat.setAlong ax v.size1 v.size2 k).2
  at_ i j := v.get srt full dbg o IB zero (i, j)

end Ublas
