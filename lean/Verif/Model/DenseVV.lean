import Verif.Model.Layout
import Verif.Model.Search
import Verif.Model.MatrixAssign
import Verif.Model.Prod
/-!
# vector_of_vector: matrix.hpp:2377-3440

A dense matrix stored as an array of lines (unbounded_array of unbounded_array).  The array has one line more than the matrix: the last one only serves as the position `end1 ()`/`end2 ()` points to.
-/
namespace Ublas
open Search
variable {R : Type}

/-- `size1_`, `size2_`, `data_`: matrix.hpp:3425-3428. -/
structure VV (R : Type) where
  size1 : Nat
  size2 : Nat
  data : List (List R)
  deriving DecidableEq
namespace VV

/-- Number of lines, elements per line. `layout_type::size_M`, `size_m`: functional.hpp:1565-1572, 1742-1749. -/
def nM (o : Orient) (m : VV R) : Nat := o.sizeM m.size1 m.size2
/-- `layout_type::size_m`: functional.hpp:1570-1572, 1747-1749. -/
def nm (o : Orient) (m : VV R) : Nat := o.sizem m.size1 m.size2

/-- `data () [k].resize (…)` for line `k`: matrix.hpp:2460, 2462, 2425. -/
def onLine (dbg : Bool) (f : List R → List R) (k : Nat) (d : List (List R)) : M (List (List R)) := do
  let ln ← rd dbg d k
  wr dbg d k (f ln)

/-- `resize (size1, size2, preserve)`: matrix.hpp:2451-2464; `junk` are the values of uninitialised elements. -/
def resize [Zero R] (dbg : Bool) (o : Orient) (junk : Nat → R) (m : VV R) (r c : Nat) (preserve : Bool) : M (VV R) := do
  let d := if preserve then resizeInit m.data (o.sizeM r c + 1) [] else resizeRaw (fun _ => []) m.data (o.sizeM r c + 1)
  let d ← loop (fun k d => onLine dbg (fun ln => if preserve then resizeInit ln (o.sizem r c) 0 else resizeRaw junk ln (o.sizem r c)) k d) (o.sizeM r c) d
  return ⟨r, c, d⟩

/-- `vector_of_vector ()`: matrix.hpp:2406-2408. -/
def empty : VV R := ⟨0, 0, [[]]⟩
/-- `vector_of_vector (size1, size2)`: matrix.hpp:2410-2414. -/
def ctor [Zero R] (dbg : Bool) (o : Orient) (junk : Nat → R) (r c : Nat) : M (VV R) := resize dbg o junk ⟨r, c, [[]]⟩ r c true

/-- `operator () (i, j) const`: matrix.hpp:2468-2470. -/
def get (dbg : Bool) (o : Orient) (m : VV R) (i j : Nat) : M R := do
  let ln ← rd dbg m.data (o.indexM i j)
  rd dbg ln (o.indexm i j)
/-- `at_element (i, j) = t`: matrix.hpp:2472-2484. -/
def set (dbg : Bool) (o : Orient) (m : VV R) (i j : Nat) (t : R) : M (VV R) := do
  let ln ← rd dbg m.data (o.indexM i j)
  let ln ← wr dbg ln (o.indexm i j) t
  let d ← wr dbg m.data (o.indexM i j) ln
  return { m with data := d }
/-- `erase_element (i, j)`: matrix.hpp:2486-2488. -/
def erase [Zero R] (dbg : Bool) (o : Orient) (m : VV R) (i j : Nat) : M (VV R) := m.set dbg o i j 0
/-- `clear ()`: matrix.hpp:2492-2495. -/
def clear [Zero R] (dbg : Bool) (o : Orient) (m : VV R) : M (VV R) := do
  let d ← loop (fun k d => onLine dbg (fun ln => ln.map fun _ => 0) k d) (m.nM o) m.data
  return { m with data := d }

/-- The lines as the target of a matrix assignment along the orientation.  The number of lines the outer loops run over is the difference of the indices of `end1 ()` and `begin1 ()`
(matrix.hpp:2710-2714). -/
def target [Zero R] (dbg : Bool) (r c : Nat) : MT (List (List R)) R where
  sizeM _ := r
  sizem _ := c
  cat := .dense
  lines _ := List.range r
  its _ _ := List.range c
  get s k l := do
    let ln ← rd dbg s k
    rd dbg ln l
  put s k l t := do
    let ln ← rd dbg s k
    let ln ← wr dbg ln l t
    wr dbg s k ln
  ref s k l t := do
    let ln ← rd dbg s k
    let ln ← wr dbg ln l t
    wr dbg s k ln
  clear s := loop (fun k d => onLine dbg (fun ln => ln.map fun _ => 0) k d) r s
  insert s k l t := do
    let ln ← rd dbg s k
    let ln ← wr dbg ln l t
    wr dbg s k ln

section expr
variable [Add R] [Sub R] [Zero R] [DecidableEq R]
/-- `vector_of_vector (ae)`: matrix.hpp:2421-2427; `e` has (major, minor) indices. -/
def fromExpr (dbg : Bool) (mode : ProdFn.Mode) (o : Orient) (junk : Nat → R) (e : MExp R) : M (VV R) := do
  let d ← loop (fun k d => onLine dbg (fun ln => resizeRaw junk ln e.sizem) k d) e.sizeM (List.replicate (e.sizeM + 1) [])
  let d ← MAssign.assign dbg mode .dense (target dbg e.sizeM e.sizem) .assign e d
  return ⟨o.indexM e.sizeM e.sizem, o.indexm e.sizeM e.sizem, d⟩
/-- `assign (ae)`, `plus_assign (ae)`, `minus_assign (ae)`: matrix.hpp:2525-2564. -/
def assign (dbg : Bool) (mode : ProdFn.Mode) (o : Orient) (F : AssignF) (m : VV R) (e : MExp R) : M (VV R) := do
  let d ← MAssign.assign dbg mode .dense (target dbg (m.nM o) (m.nm o)) F e m.data
  return { m with data := d }
/-- `operator = (const matrix_container<C> &)`: matrix.hpp:2518-2522. -/
def assignContainer (dbg : Bool) (mode : ProdFn.Mode) (o : Orient) (junk : Nat → R) (m : VV R) (e : MExp R) : M (VV R) := do
  let m ← m.resize dbg o junk (o.indexM e.sizeM e.sizem) (o.indexm e.sizeM e.sizem) false
  m.assign dbg mode o .assign e
end expr

/-! ## Iterators: matrix.hpp:2649-3400 -/

/-- An iterator: its indices `i_`, `j_` and the cell `it_` points to (line, position in the line). matrix.hpp:2614-2650 (find1, find2) and the iterators' members. -/
structure It where
  i : Nat
  j : Nat
  cell : Nat × Nat
  deriving DecidableEq, Repr

/-- `find1`/`find2`: matrix.hpp:2616-2646; debug builds check the line number (storage.hpp:232-240). -/
def find (dbg : Bool) (o : Orient) (m : VV R) (i j : Nat) : M It := do
  let _ ← rd dbg m.data (o.indexM i j)
  return ⟨i, j, o.indexM i j, o.indexm i j⟩

/-- The direction an iterator moves in. matrix.hpp:2614-3410: iterator1, iterator2. -/
inductive Dir | one | two
  deriving DecidableEq, Repr
/-- Whether the iterator stays in one line: `fast_i ()` for iterator1, `fast_j ()` for iterator2 (functional.hpp:1458-1476, 1636-1654). -/
def Dir.along : Dir → Orient → Bool
  | .one, .col => true
  | .two, .row => true
  | _, _ => false
/-- The end of the range: `find1 (rank, size1_, j)` / `find2 (rank, i, size2_)`. matrix.hpp:2614-3410 (`end ()` of the iterators). -/
def last (dbg : Bool) (o : Orient) (m : VV R) (d : Dir) (i j : Nat) : M It :=
  match d with
  | .one => m.find dbg o m.size1 j
  | .two => m.find dbg o i m.size2
/-- `operator ++`: matrix.hpp:2676-2684, 3033-3041. -/
def incr (dbg : Bool) (o : Orient) (m : VV R) (d : Dir) (it : It) : M It := do
  let i := match d with | .one => it.i + 1 | .two => it.i
  let j := match d with | .one => it.j | .two => it.j + 1
  if d.along o then return ⟨i, j, it.cell.1, it.cell.2 + 1⟩
  else do
    let f ← m.find dbg o i j
    return ⟨i, j, f.cell⟩
/-- `operator *`: matrix.hpp:2718-2722, 3075-3079. -/
def deref (dbg : Bool) (m : VV R) (it : It) : M R := do
  check dbg (it.i < m.size1) .badIndex
  check dbg (it.j < m.size2) .badIndex
  let ln ← rd false m.data it.cell.1
  rd false ln it.cell.2
/-- `it = other`: matrix.hpp:2801-2805, 2968-2972, 3158-3162, 3325-3329. -/
def It.assign (it other : It) : It := { it with cell := other.cell }
/-- `operator <`: matrix.hpp:2815-2819 compares pointers; line `k` begins at address `base k`. -/
def less (base : Nat → Nat) (a b : It) : Bool := base a.cell.1 + a.cell.2 < base b.cell.1 + b.cell.2

end VV
end Ublas
