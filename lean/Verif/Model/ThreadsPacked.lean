import Verif.Model.Threads
import Verif.Model.Packed
import Verif.Model.Banded
/-! # Several threads using one dense vector, or one matrix with packed storage -/
namespace Ublas
namespace Threads
open Packed
variable {R A : Type}

/-- Arithmetic on local values, with the checks in it. Model of C++ threads and memory, not code of /repo. -/
def localT (x : M A) : Th R A :=
  match x with
  | .ok a => .ret a
  | .error f => .fail f

/-! ## vector: no integer members of its own (the size is that of the array) -/

/-- The memory of a `vector` (the size of the array is not a cell): vector.hpp:825. -/
def vecMem (v : List R) : TMem R := ⟨fun _ => [], v⟩
/-- `operator () (i) const`: vector.hpp:222-224; `unbounded_array::operator []`: storage.hpp:232-235. -/
def vecGetT (dbg : Bool) (i : Nat) : Th R R := getR dbg i
/-- `v (i) = t`: vector.hpp:230-232; storage.hpp:237-240. -/
def vecSetT (dbg : Bool) (i : Nat) (t : R) : Th R Unit := putR dbg i t

/-! ## triangular_matrix: array 0 = [size1_, size2_] -/

/-- The memory of a triangular_matrix: triangular.hpp:1040-1042. -/
def triMem (m : TMat R) : TMem R := ⟨fun a => if a = 0 then [m.size1, m.size2] else [], m.data⟩

/-- `operator () (i, j) const`: triangular.hpp:172-181. -/
def triGetT [Zero R] [One R] (dbg : Bool) (t : Tri) (o : Orient) (i j : Nat) : Th R R := do
  let s1 ← getN false 0 0
  checkT dbg (i < s1) .badIndex
  let s2 ← getN false 0 1
  checkT dbg (j < s2) .badIndex
  if other t i j then do
    let s1 ← getN false 0 0
    let s2 ← getN false 0 1
    let k ← localT (element dbg t o i s1 j s2)
    getR dbg k
  else if one t i j then .ret 1
  else .ret 0

/-- `m (i, j) = v`: triangular.hpp:189-198. -/
def triSetT (dbg : Bool) (t : Tri) (o : Orient) (i j : Nat) (v : R) : Th R Unit := do
  let s1 ← getN false 0 0
  checkT dbg (i < s1) .badIndex
  let s2 ← getN false 0 1
  checkT dbg (j < s2) .badIndex
  if ¬ other t i j then .fail .badIndex else do
    let s1 ← getN false 0 0
    let s2 ← getN false 0 1
    let k ← localT (element dbg t o i s1 j s2)
    putR dbg k v

/-! ## symmetric_matrix: array 0 = [size_] -/

/-- The memory of a symmetric_matrix: symmetric.hpp:995-996. -/
def symMem (m : SMat R) : TMem R := ⟨fun a => if a = 0 then [m.size] else [], m.data⟩

/-- The cell of (i, j), with the checks before it: symmetric.hpp:145-150, 160-165. -/
def symCellT (dbg : Bool) (t : Tri) (o : Orient) (i j : Nat) : Th R Nat := do
  let n ← getN false 0 0
  checkT dbg (i < n) .badIndex
  let n ← getN false 0 0
  checkT dbg (j < n) .badIndex
  let n ← getN false 0 0
  let n' ← getN false 0 0
  localT (if other t i j then element dbg t o i n j n' else element dbg t o j n i n')

/-- `operator () (i, j) const`: symmetric.hpp:144-151. -/
def symGetT (dbg : Bool) (t : Tri) (o : Orient) (i j : Nat) : Th R R := do
  let k ← symCellT dbg t o i j
  getR dbg k
/-- `m (i, j) = v`: symmetric.hpp:159-166. -/
def symSetT (dbg : Bool) (t : Tri) (o : Orient) (i j : Nat) (v : R) : Th R Unit := do
  let k ← symCellT dbg t o i j
  putR dbg k v

/-! ## banded_matrix: array 0 = [size1_, size2_, lower_, upper_] -/

/-- The memory of a banded_matrix: banded.hpp:1166-1170. -/
def bandMem (m : BMat R) : TMem R := ⟨fun a => if a = 0 then [m.size1, m.size2, m.lower, m.upper] else [], m.data⟩

/-- `is_element_in_band (i, j)`: banded.hpp:199-202. -/
def inBandT (i j : Nat) : Th R Bool := do
  let u ← getN false 0 3
  if u + i < j then .ret false else do
    let l ← getN false 0 2
    .ret (decide (i ≤ j + l))

/-- `data () [banded_indexing::get_index (size1_, size2_, lower_, upper_, i, j)]`, the place: banded.hpp:54-56, 77-79, 279, 309. -/
def bandCellT (dbg : Bool) (o : Orient) (i j : Nat) : Th R Nat := do
  let s1 ← getN false 0 0
  let s2 ← getN false 0 1
  let l ← getN false 0 2
  let u ← getN false 0 3
  localT (BMat.getIndex dbg o (⟨s1, s2, l, u, []⟩ : BMat R) i j)

/-- `operator () (i, j) const`: banded.hpp:231-255. -/
def bandGetT [Zero R] (dbg : Bool) (o : Orient) (i j : Nat) : Th R R := do
  let s1 ← getN false 0 0
  checkT dbg (i < s1) .badIndex
  let s2 ← getN false 0 1
  checkT dbg (j < s2) .badIndex
  let b ← inBandT i j
  if b then do
    let k ← bandCellT dbg o i j
    getR dbg k
  else .ret 0

/-- `m (i, j) = v`: banded.hpp:283-312 (`at_element` is the same: 258-281); the band is looked at in debug builds only. -/
def bandSetT (dbg : Bool) (o : Orient) (i j : Nat) (v : R) : Th R Unit := do
  let s1 ← getN false 0 0
  checkT dbg (i < s1) .badIndex
  let s2 ← getN false 0 1
  checkT dbg (j < s2) .badIndex
  let b ← (if dbg = true then inBandT i j else .ret true : Th R Bool)
  checkT dbg (b = true) .badIndex
  let k ← bandCellT dbg o i j
  putR dbg k v

end Threads
end Ublas
