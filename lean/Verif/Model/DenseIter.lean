import Verif.Model.Dense
/-!
# Iterators of the dense `matrix` (matrix.hpp:448-1118)

A sub-iterator `it_` is an offset into `data ()`.  Offsets are `Nat` here (64-bit effects of iterator
arithmetic are in `Machine`).
-/
namespace Ublas.DenseIter
variable {α : Type}

/-- `find1 (rank, i, j)` / `find2 (rank, i, j)`: matrix.hpp:450-480: `data ().begin () + address (i, j)`. -/
def find (dbg : Bool) (o : Orient) (m : Dense α) (i j : Nat) : M Nat :=
  o.address dbg i m.size1 j m.size2

/-- Stride of `++ iterator1` (`increment_i`: functional.hpp:1472-1474, 1650-1652). -/
def inc1 (o : Orient) (m : Dense α) : Nat := match o with | .row => m.size2 | .col => 1
/-- Stride of `++ iterator2` (`increment_j`: functional.hpp:1496-1498, 1674-1676). -/
def inc2 (o : Orient) (m : Dense α) : Nat := match o with | .row => 1 | .col => m.size1

/-- `while (it != it_end) { body (it); ++ it; }`, collecting what the body returns.  `fuel` bounds the
number of iterations; running out of it is reported as `diverge`. A client's loop; the iterator operations are cited at their definitions. -/
def walk {β : Type} (body : Nat → M β) (stride : Nat) : Nat → Nat → Nat → M (List β)
  | fuel, it, itEnd =>
    if it = itEnd then .ok []
    else match fuel with
      | 0 => .error .diverge
      | fuel + 1 => do
        let b ← body it
        let bs ← walk body stride fuel (it + stride) itEnd
        return b :: bs

/-- `*it`: matrix.hpp:537-541 (checks on `index1 ()`, `index2 ()`, then the raw access); also returns the
indices the iterator reports (`index1 ()`, `index2 ()`: matrix.hpp:610-618, 933-941). -/
def deref (dbg : Bool) (o : Orient) (m : Dense α) (it : Nat) : M (Nat × Nat × α) := do
  let i := o.indexI it m.size1 m.size2
  let j := o.indexJ it m.size1 m.size2
  check dbg (i < m.size1) .badIndex
  check dbg (j < m.size2) .badIndex
  let v ← rd dbg m.data it
  return (i, j, v)

/-- The usual nested loop `for it1 in [begin1, end1) for it2 in [it1.begin, it1.end) visit (*it2)`:
`begin1`/`end1` matrix.hpp:648-658, `it1.begin ()`/`it1.end ()` matrix.hpp:552-570. -/
def traverse12 (dbg : Bool) (o : Orient) (m : Dense α) (fuel : Nat) : M (List (List (Nat × Nat × α))) := do
  let b ← find dbg o m 0 0
  let e ← find dbg o m m.size1 0
  walk (fun it1 => do
    let i := o.indexI it1 m.size1 m.size2
    let b2 ← find dbg o m i 0
    let e2 ← find dbg o m i m.size2
    walk (deref dbg o m) (inc2 o m) fuel b2 e2) (inc1 o m) fuel b e

/-- The nested loop with `iterator2` outside: `begin2`/`end2` matrix.hpp:971-982,
`it2.begin ()`/`it2.end ()` matrix.hpp:875-893. -/
def traverse21 (dbg : Bool) (o : Orient) (m : Dense α) (fuel : Nat) : M (List (List (Nat × Nat × α))) := do
  let b ← find dbg o m 0 0
  let e ← find dbg o m 0 m.size2
  walk (fun it2 => do
    let j := o.indexJ it2 m.size1 m.size2
    let b1 ← find dbg o m 0 j
    let e1 ← find dbg o m m.size1 j
    walk (deref dbg o m) (inc1 o m) fuel b1 e1) (inc2 o m) fuel b e

end Ublas.DenseIter
