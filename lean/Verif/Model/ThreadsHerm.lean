import Verif.Model.ThreadsPacked
/-! # Several threads using one hermitian_matrix: array 0 = [size_] -/
namespace Ublas
namespace Threads
open Packed
variable {R : Type}

/-- The memory of a hermitian_matrix: hermitian.hpp:1230-1231. -/
def hermMem (m : SMat R) : TMem R := ⟨fun a => if a = 0 then [m.size] else [], m.data⟩

/-- `triangular_type::element (layout_type (), i, size_, j, size_)` of the stored one of (i, j), (j, i), as in `operator ()`, `insert_element`: hermitian.hpp:358-361, 379-382, 391-394. -/
def hermCellT (dbg : Bool) (t : Tri) (o : Orient) (i j : Nat) : Th R Nat := do
  let n ← getN false 0 0
  let n' ← getN false 0 0
  localT (if other t i j then element dbg t o i n j n' else element dbg t o j n i n')

/-- `operator () (i, j) const`: hermitian.hpp:352-362. -/
def hermGetT (conj : R → R) (dbg : Bool) (t : Tri) (o : Orient) (i j : Nat) : Th R R := do
  let n ← getN false 0 0
  checkT dbg (i < n) .badIndex
  let n ← getN false 0 0
  checkT dbg (j < n) .badIndex
  let k ← hermCellT dbg t o i j
  let x ← getR dbg k
  .ret (if other t i j then x else conj x)

/-- `insert_element (i, j, v)`: hermitian.hpp:388-396. -/
def hermInsertT (conj : R → R) (dbg : Bool) (t : Tri) (o : Orient) (i j : Nat) (v : R) : Th R Unit := do
  let n ← getN false 0 0
  checkT dbg (i < n) .badIndex
  let n ← getN false 0 0
  checkT dbg (j < n) .badIndex
  let k ← hermCellT dbg t o i j
  putR dbg k (if other t i j then v else conj v)

/-- `m (i, j) = v` through the proxy: the element is copied into it (hermitian.hpp:371-384) and `v` is written back when it is destroyed (59-62). -/
def hermSetT (conj : R → R) (dbg : Bool) (t : Tri) (o : Orient) (i j : Nat) (v : R) : Th R Unit := do
  let k ← hermCellT dbg t o i j
  let _ ← getR dbg k
  hermInsertT conj dbg t o i j v

end Threads
end Ublas
