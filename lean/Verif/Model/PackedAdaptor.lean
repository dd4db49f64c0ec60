import Verif.Model.PackedIter
/-!
# `triangular_adaptor` (triangular.hpp:1055-1850) and `banded_adaptor` (banded.hpp:1249-2270)

The adapted matrix is a dense r × c matrix given by its elements.  Its iterators are represented by the indices of the place they stand
on; forming an iterator outside the closed rectangle [0, r] × [0, c] fails the check of `address` (functional.hpp:1427-1434, 1605-1612)
in a debug build.  `++`, `--`, `==` are those of the adapted matrix (triangular.hpp:1321-1344, banded.hpp:1583-1606).
`diagonal_adaptor` (banded.hpp:2340-2368) is the banded one with both bandwidths 0 (the default arguments of banded.hpp:1281).
-/
namespace Ublas
variable {R : Type}

/-- The reverse loop `for (r = rbegin; r != rend; ++ r) record (r.index (), *r)` over an index: the held iterator is decremented, then read. A client's loop; the iterator operations are cited at their definitions. -/
def walkIdxBack {β : Type} (get : Nat → M β) : (fuel b e : Nat) → M (List (Nat × β))
  | 0, b, e => if b = e then .ok [] else .error .diverge
  | n + 1, b, e => if b = e then .ok [] else if e = 0 then .error .ub else do
    let v ← get (e - 1)
    let l ← walkIdxBack get n b (e - 1)
    return (e - 1, v) :: l

namespace Adapt

/-- Elements of the adapted matrix. The adapted matrix's element access: matrix.hpp:237-248. -/
def base (dbg : Bool) (r c : Nat) (a : Nat → Nat → R) (i j : Nat) : M R :=
  if i < r ∧ j < c then .ok (a i j) else .error (if dbg then .badIndex else .ub)

/-- Storing into the adapted matrix. The adapted matrix's element access: matrix.hpp:257-260. -/
def store (dbg : Bool) (r c : Nat) (a : Nat → Nat → R) (i j : Nat) (x : R) : M (Nat → Nat → R) :=
  if i < r ∧ j < c then .ok (fun p q => if p = i ∧ q = j then x else a p q) else .error (if dbg then .badIndex else .ub)

/-- `data ().find1 (rank, i, j)` / `find2` of the adapted matrix: matrix.hpp:450-480 (the check of `address`). -/
def findB (dbg : Bool) (r c i j : Nat) : M Unit := do
  check dbg (i ≤ r) .badIndex
  check dbg (j ≤ c) .badIndex

/-- `operator () (i, j) const` of triangular_adaptor: triangular.hpp:1119-1128. -/
def tget [Zero R] [One R] (dbg : Bool) (t : Tri) (r c : Nat) (a : Nat → Nat → R) (i j : Nat) : M R := do
  check dbg (i < r) .badIndex
  check dbg (j < c) .badIndex
  if Packed.other t i j then base dbg r c a i j
  else if Packed.one t i j then return 1
  else return 0

/-- `ta (i, j) = x`: triangular.hpp:1130-1138. -/
def tset (dbg : Bool) (t : Tri) (r c : Nat) (a : Nat → Nat → R) (i j : Nat) (x : R) : M (Nat → Nat → R) := do
  check dbg (i < r) .badIndex
  check dbg (j < c) .badIndex
  if Packed.other t i j then store dbg r c a i j x else .error .badIndex

/-- `*it` of a const_iterator: triangular.hpp:1348-1357, 1620-1629 (`*it1_`, or the adaptor's own element outside the stored part). -/
def tderef [Zero R] [One R] (dbg : Bool) (t : Tri) (r c : Nat) (a : Nat → Nat → R) (i j : Nat) : M R := do
  check dbg (i < r) .badIndex
  check dbg (j < c) .badIndex
  if Packed.other t i j then base dbg r c a i j else tget dbg t r c a i j

/-- Row `i`: `it1.begin ()` .. `it1.end ()`, i.e. `find2 (1, i, 0)` .. `find2 (1, i, size2)`: triangular.hpp:1275-1289, 1368-1384. -/
def trow [Zero R] [One R] (dbg : Bool) (k : Packed.Access) (t : Tri) (r c : Nat) (a : Nat → Nat → R) (i : Nat) : M (List (Nat × R)) := do
  let b := Packed.restrict2 k t i 0 r c
  findB dbg r c i b
  let e := Packed.restrict2 k t i c r c
  findB dbg r c i e
  walkIdx (tderef dbg t r c a i) (r + c + 1) b e
/-- Row `i` by reverse iterators. A client's loop over the reverse iterators of triangular_adaptor: triangular.hpp:1247-1850. -/
def trowBack [Zero R] [One R] (dbg : Bool) (k : Packed.Access) (t : Tri) (r c : Nat) (a : Nat → Nat → R) (i : Nat) : M (List (Nat × R)) := do
  let b := Packed.restrict2 k t i 0 r c
  findB dbg r c i b
  let e := Packed.restrict2 k t i c r c
  findB dbg r c i e
  walkIdxBack (tderef dbg t r c a i) (r + c + 1) b e
/-- Column `j`: `find1 (1, 0, j)` .. `find1 (1, size1, j)`: triangular.hpp:1259-1273. -/
def tcol [Zero R] [One R] (dbg : Bool) (k : Packed.Access) (t : Tri) (r c : Nat) (a : Nat → Nat → R) (j : Nat) : M (List (Nat × R)) := do
  let b := Packed.restrict1 k t 0 j r c
  findB dbg r c b j
  let e := Packed.restrict1 k t r j r c
  findB dbg r c e j
  walkIdx (fun i => tderef dbg t r c a i j) (r + c + 1) b e

/-- The nested loop by rows (`one`) or by columns: `begin1 ()` .. `end1 ()` (triangular.hpp:1459-1469, `find1 (0, …)` 1262-1263). -/
def ttraverse [Zero R] [One R] (dbg : Bool) (k : Packed.Access) (t : Tri) (r c : Nat) (a : Nat → Nat → R) (ax : Axis) :
    M (List (Nat × List (Nat × R))) :=
  match ax with
  | .one => do
    let b ← Packed.grestrict1 dbg k t 0 r 0 c
    findB dbg r c b 0
    let e ← Packed.grestrict1 dbg k t r r 0 c
    findB dbg r c e 0
    walkIdx (trow dbg k t r c a) (r + c + 1) b e
  | .two => do
    let b ← Packed.grestrict2 dbg k t 0 r 0 c
    findB dbg r c 0 b
    let e ← Packed.grestrict2 dbg k t 0 r c c
    findB dbg r c 0 e
    walkIdx (tcol dbg k t r c a) (r + c + 1) b e

/-- `is_element_in_band`: banded.hpp:1319-1322. -/
def inBand (lower upper i j : Nat) : Bool := decide (upper + i ≥ j) && decide (i ≤ j + lower)

/-- `operator () (i, j) const` of banded_adaptor: banded.hpp:1328-1348. -/
def bget [Zero R] (dbg : Bool) (lower upper r c : Nat) (a : Nat → Nat → R) (i j : Nat) : M R := do
  check dbg (i < r) .badIndex
  check dbg (j < c) .badIndex
  if inBand lower upper i j then base dbg r c a i j else return 0

/-- `ba (i, j) = x`: banded.hpp:1350-1373. -/
def bset (dbg : Bool) (lower upper r c : Nat) (a : Nat → Nat → R) (i j : Nat) (x : R) : M (Nat → Nat → R) := do
  check dbg (i < r) .badIndex
  check dbg (j < c) .badIndex
  if inBand lower upper i j then store dbg r c a i j x else .error .badIndex

/-- `*it`: banded.hpp:1610-1629; the unsigned `upper + i - j` is below `lower + 1 + upper` only if it did not wrap. -/
def bderef [Zero R] (dbg : Bool) (lower upper r c : Nat) (a : Nat → Nat → R) (i j : Nat) : M R := do
  check dbg (i < r) .badIndex
  check dbg (j < c) .badIndex
  if j < c ∧ j ≤ upper + i ∧ upper + i - j < lower + 1 + upper then base dbg r c a i j else bget dbg lower upper r c a i j

/-- `find1 (1, i, j)`: banded.hpp:1513-1531 (the index handed to the adapted matrix). -/
def bfind1 (lower upper r i j : Nat) : Nat := min (max i (j - upper)) (min (j + 1 + lower) r)
/-- `find2 (1, i, j)`: banded.hpp:1533-1551. -/
def bfind2 (lower upper c i j : Nat) : Nat := min (max j (i - lower)) (min (i + 1 + upper) c)

/-- Row `i`. A client's loop over the iterators of banded.hpp:1556-1740. -/
def brow [Zero R] (dbg : Bool) (lower upper r c : Nat) (a : Nat → Nat → R) (i : Nat) : M (List (Nat × R)) := do
  findB dbg r c i (bfind2 lower upper c i 0)
  findB dbg r c i (bfind2 lower upper c i c)
  walkIdx (bderef dbg lower upper r c a i) (r + c + 1) (bfind2 lower upper c i 0) (bfind2 lower upper c i c)
/-- Column `j`. A client's loop over the iterators of banded.hpp:1901-2090. -/
def bcol [Zero R] (dbg : Bool) (lower upper r c : Nat) (a : Nat → Nat → R) (j : Nat) : M (List (Nat × R)) := do
  findB dbg r c (bfind1 lower upper r 0 j) j
  findB dbg r c (bfind1 lower upper r r j) j
  walkIdx (fun i => bderef dbg lower upper r c a i j) (r + c + 1) (bfind1 lower upper r 0 j) (bfind1 lower upper r r j)

/-- The nested loops: the outer range is all rows / columns: banded.hpp:1730-1740. -/
def btraverse [Zero R] (dbg : Bool) (lower upper r c : Nat) (a : Nat → Nat → R) (ax : Axis) : M (List (Nat × List (Nat × R))) :=
  match ax with
  | .one => walkIdx (brow dbg lower upper r c a) (r + c + 1) 0 r
  | .two => walkIdx (bcol dbg lower upper r c a) (r + c + 1) 0 c

end Adapt
end Ublas
