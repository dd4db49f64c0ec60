import Verif.Model.Mapped
import Verif.Model.ProxyIter
/-!
# Iterators of mapped_vector and mapped_matrix (vector_sparse.hpp:594-785, matrix_sparse.hpp:559-1340)

`const_iterator1`, `iterator1`, `const_iterator2`, `iterator2` of mapped_matrix are the same text up to the exchange of the two indices; they are
modelled once, parameterised by the axis they move along.  Reads only (a mutable iterator of rank 0 dereferences through `at_element`, which
needs a stored element; not modelled).
-/
namespace Ublas
open Search
variable {R σ : Type}

/-- The map iterators: positions 0 .. `count` in key order, `count` being `end ()`. C++ standard library (std::map) or storage_sparse.hpp:299-322. -/
structure MapPos (σ R : Type) where
  /-- `lower_bound (k)` -/
  lower : σ → Nat → M Nat
  count : σ → Nat
  /-- `*it` -/
  entry : σ → Nat → M (Nat × R)

/-- `map_array`: iterators are pointers into `data_` (storage_sparse.hpp:299-322, 465-473). -/
def mapArrayPos : MapPos (MapArr R) R where
  lower m k := m.lowerBound k
  count m := m.size
  entry m n := if n < m.size then rd false m.data n else .error .ub

/-- `std::map` by its specification: `lower_bound` is the first element whose key is not less. C++ standard library, not code of /repo. -/
def stdMapPos : MapPos (List (Nat × R)) R where
  lower m k := .ok (m.countP fun x => decide (x.1 < k))
  count m := m.length
  entry m n := rd false m n

/-- `mapped_vector`: an iterator is a map iterator; vector_sparse.hpp:596-602 (`find`), 628-636 (`++`, `--`), 640-643 (`*`), 647-651
(`index`), 663-666 (`==`).  `begin ()`, `end ()` are the map's (673-684); `els` uses the same positions `find (0)`, `find (size ())`. -/
def VIter.mapped (I : MapImpl σ R) (P : MapPos σ R) (dbg : Bool) (zero : R) (v : MappedVec σ) : VIter R where
  size := v.size
  Pos := Nat
  find i := P.lower v.map i
  next p := .ok (p + 1)
  prev p := if p = 0 then .error .ub else .ok (p - 1)
  eq p q := .ok (decide (p = q))
  index p := do
    check dbg (p ≠ P.count v.map) .badIndex
    let e ← P.entry v.map p
    check dbg (e.1 < v.size) .badIndex
    .ok e.1
  deref p := do
    check dbg (p ≠ P.count v.map) .badIndex
    let e ← P.entry v.map p
    check dbg (e.1 < v.size) .badIndex
    .ok e.2
  at_ i := v.get I dbg zero i

/-- Data members of the iterators of mapped_matrix: matrix_sparse.hpp:839-843. -/
structure MMIter where
  rank : Nat
  i : Nat
  j : Nat
  it : Nat
  deriving DecidableEq

namespace MappedMat

/-- `layout_type::address (i, size1_, j, size2_)`, `k` along `ax`, `l` across. matrix_sparse.hpp:562, 578, 591, 607, 620, 636, 649, 665; functional.hpp:1427-1434, 1605-1612. -/
def addr (dbg : Bool) (o : Orient) (v : MappedMat σ) (ax : Axis) (k l : Nat) : M Nat :=
  match ax with
  | .one => o.address dbg k v.size1 l v.size2
  | .two => o.address dbg l v.size1 k v.size2

/-- The index along `ax` of a stored key: `index_i` for axis one (567), `index_j` for axis two (626). matrix_sparse.hpp:567, 626. -/
def keyAlong (o : Orient) (n1 n2 : Nat) (ax : Axis) (key : Nat) : Nat :=
  CMat.along ax (o.indexI key n1 n2) (o.indexJ key n1 n2)

/-- The other index of a stored key (568, 625). matrix_sparse.hpp:568, 625. -/
def keyAcross (o : Orient) (n1 n2 : Nat) (ax : Axis) (key : Nat) : Nat :=
  keyAlong o n1 n2 ax.other key

/-- The loop of `find1` / `find2` (566-579, 624-637): from position `k` (along) and map iterator `it` in line `l`, with `c` the last value of the
other index.  `fwd` is `direction > 0`.  `fuel` bounds the number of rounds. -/
def findLoop (P : MapPos σ R) (dbg : Bool) (o : Orient) (v : MappedMat σ) (ax : Axis) (fwd : Bool) (l : Nat) : (fuel k it c : Nat) → M (Nat × Nat × Nat)
  | 0, _, _, _ => .error .diverge
  | fuel + 1, k, it, c =>
      if it = P.count v.map then .ok (k, it, c) else do
        let e ← P.entry v.map it
        let a := keyAlong o v.size1 v.size2 ax e.1
        let c := keyAcross o v.size1 v.size2 ax e.1
        if fwd = true then
          if (a ≥ k ∧ c = l) ∨ k ≥ CMat.along ax v.size1 v.size2 then .ok (k, it, c) else do
            let ad ← v.addr dbg o ax (k + 1) l
            let it ← P.lower v.map ad
            findLoop P dbg o v ax fwd l fuel (k + 1) it c
        else
          if (a ≤ k ∧ c = l) ∨ k = 0 then .ok (k, it, c) else do
            let ad ← v.addr dbg o ax (k - 1) l
            let it ← P.lower v.map ad
            findLoop P dbg o v ax fwd l fuel (k - 1) it c

/-- `find1 (rank, k, l, direction)` (561-588, 590-617), `find2 (rank, l, k, direction)` (619-646, 648-675).  `size_type (-1)` is the first value of the
other index (564-565). -/
def lookup (P : MapPos σ R) (dbg : Bool) (o : Orient) (v : MappedMat σ) (ax : Axis) (fwd : Bool) (rank k l : Nat) : M MMIter := do
  let ad ← v.addr dbg o ax k l
  let it ← P.lower v.map ad
  if rank = 1 then do
    let x ← findLoop P dbg o v ax fwd l (CMat.along ax v.size1 v.size2 + 1) k it (2 ^ 64 - 1)
    let q := if x.2.2 ≠ l then (0, if fwd = true then CMat.along ax v.size1 v.size2 else 0) else (1, x.1)
    match ax with
    | .one => .ok ⟨q.1, q.2, l, x.2.1⟩
    | .two => .ok ⟨q.1, l, q.2, x.2.1⟩
  else
    match ax with
    | .one => .ok ⟨rank, k, l, it⟩
    | .two => .ok ⟨rank, l, k, it⟩

/-- `operator ==`: 829-837. -/
def iterEq (a b : MMIter) : Bool :=
  if a.rank = 1 ∨ b.rank = 1 then decide (a.it = b.it) else decide (a.i = b.i ∧ a.j = b.j)

/-- The debug check of the index moved along: `*this != find1 (0, size1 (), j_)`, 796. matrix_sparse.hpp:796, 950, 1139, 1293. -/
def notEnd (P : MapPos σ R) (dbg : Bool) (o : Orient) (v : MappedMat σ) (ax : Axis) (p : MMIter) : M Unit :=
  if dbg = true then do
    let e ← v.lookup P dbg o ax true 0 (CMat.along ax v.size1 v.size2) (CMat.along ax.other p.i p.j)
    check dbg (iterEq p e = false) .badIndex
  else .ok ()

/-- `index1 ()`: 795-804 (iterator1; iterator2 has no end check). -/
def index1 (P : MapPos σ R) (dbg : Bool) (o : Orient) (v : MappedMat σ) (ax : Axis) (p : MMIter) : M Nat := do
  let _ ← (if ax = .one then v.notEnd P dbg o ax p else .ok () : M Unit)
  if p.rank = 1 then do
    let e ← P.entry v.map p.it
    check dbg (o.indexI e.1 v.size1 v.size2 < v.size1) .badIndex
    .ok (o.indexI e.1 v.size1 v.size2)
  else .ok p.i

/-- `index2 ()`: 806-814 (iterator1 has no end check; iterator2 has). -/
def index2 (P : MapPos σ R) (dbg : Bool) (o : Orient) (v : MappedMat σ) (ax : Axis) (p : MMIter) : M Nat := do
  let _ ← (if ax = .two then v.notEnd P dbg o ax p else .ok () : M Unit)
  if p.rank = 1 then do
    let e ← P.entry v.map p.it
    check dbg (o.indexJ e.1 v.size1 v.size2 < v.size2) .badIndex
    .ok (o.indexJ e.1 v.size1 v.size2)
  else .ok p.j

/-- The index moved along. matrix_sparse.hpp:795-805, 1138-1150. -/
def indexAlong (P : MapPos σ R) (dbg : Bool) (o : Orient) (v : MappedMat σ) (ax : Axis) (p : MMIter) : M Nat :=
  match ax with
  | .one => v.index1 P dbg o ax p
  | .two => v.index2 P dbg o ax p

/-- `operator ++`: 704-710. -/
def next (P : MapPos σ R) (dbg : Bool) (o : Orient) (v : MappedMat σ) (ax : Axis) (p : MMIter) : M MMIter :=
  if p.rank = 1 ∧ o.fast ax = true then .ok { p with it := p.it + 1 } else do
    let k ← v.indexAlong P dbg o ax p
    v.lookup P dbg o ax true p.rank (k + 1) (CMat.along ax.other p.i p.j)

/-- `operator --`: 712-718; `index1 () - 1` is of type `size_type`. -/
def prev (P : MapPos σ R) (dbg : Bool) (o : Orient) (v : MappedMat σ) (ax : Axis) (p : MMIter) : M MMIter :=
  if p.rank = 1 ∧ o.fast ax = true then (if p.it = 0 then .error .ub else .ok { p with it := p.it - 1 }) else do
    let k ← v.indexAlong P dbg o ax p
    v.lookup P dbg o ax false p.rank (u64 ((k : Int) - 1)) (CMat.along ax.other p.i p.j)

/-- `operator *`: 722-730. -/
def deref (I : MapImpl σ R) (P : MapPos σ R) (dbg : Bool) (o : Orient) (zero : R) (v : MappedMat σ) (ax : Axis) (p : MMIter) : M R := do
  let _ ← (if dbg = true then do
      let i ← v.index1 P dbg o ax p
      check dbg (i < v.size1) .badIndex
      let j ← v.index2 P dbg o ax p
      check dbg (j < v.size2) .badIndex
    else .ok () : M Unit)
  if p.rank = 1 then do
    let e ← P.entry v.map p.it
    .ok e.2
  else v.get I dbg o zero p.i p.j

end MappedMat

/-- `mapped_matrix`: `begin ()` of an iterator1 is `find2 (1, index1 (), 0)` (737-740), `end ()` is `find2 (1, index1 (), size2 ())` (752-755). -/
def MIter.mapped (I : MapImpl σ R) (P : MapPos σ R) (dbg : Bool) (o : Orient) (zero : R) (v : MappedMat σ) : MIter R where
  size1 := v.size1
  size2 := v.size2
  Pos := MMIter
  find ax rank i j := v.lookup P dbg o ax true rank (CMat.along ax i j) (CMat.along ax.other i j)
  next ax p := v.next P dbg o ax p
  prev ax p := v.prev P dbg o ax p
  eq _ p q := .ok (MappedMat.iterEq p q)
  index1 ax p := v.index1 P dbg o ax p
  index2 ax p := v.index2 P dbg o ax p
  deref ax p := v.deref I P dbg o zero ax p
  innerBegin ax p := do
    let k ← v.indexAlong P dbg o ax p
    v.lookup P dbg o ax.other true 1 0 k
  innerEnd ax p := do
    let k ← v.indexAlong P dbg o ax p
    v.lookup P dbg o ax.other true 1 (CMat.along ax.other v.size1 v.size2) k
  at_ i j := v.get I dbg o zero i j

end Ublas
