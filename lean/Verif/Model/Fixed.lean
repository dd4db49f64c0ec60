import Verif.Model.VectorTargets
import Verif.Model.MatrixAlias
import Verif.Model.ScalarAssign
import Verif.Model.DenseIter
/-!
# fixed_vector (vector.hpp:829-1599) and fixed_matrix (matrix.hpp:1227-2276): dense containers over a `std::array`

The array is the list `data`; its length is the compile-time size.  `std::array::operator []` checks nothing: an access outside it is undefined behaviour in both build modes.  BOOST_UBLAS_MOVE_SEMANTICS is
not defined by any header of the library, so the copying `operator =` is modelled.  `fixed_matrix &operator = (const matrix_container<C> &)` (matrix.hpp:1423-1429) calls a member `resize` that does not
exist and cannot be instantiated; it is not modelled.
-/
namespace Ublas
variable {R : Type}

/-- `fixed_vector ()`: vector.hpp:865-868 (`data_ ()`: value-initialised, zero for arithmetic types). -/
def FVec.ctor [Zero R] (N : Nat) : List R := List.replicate N 0
/-- `fixed_vector (init)`: vector.hpp:880-885. -/
def FVec.filled (N : Nat) (t : R) : List R := List.replicate N t
/-- `fixed_vector (v0, vrest...)`: vector.hpp:907-913 (aggregate initialisation: the elements not given are value-initialised; more than N do not compile). -/
def FVec.ofList [Zero R] (N : Nat) (l : List R) : List R := l ++ List.replicate (N - l.length) 0
/-- `operator () (i)`, `operator [] (i)`, `find_element (i)`: vector.hpp:966-978, 987-991, 1004-1008. -/
def FVec.get (dbg : Bool) (v : List R) (i : Nat) : M R := do
  check dbg (i < v.length) .badIndex
  rd false v i
/-- `v (i) = t`, `v [i] = t`, `insert_element (i, t)`: vector.hpp:996-1000, 1012-1016, 1026-1030. -/
def FVec.set (dbg : Bool) (v : List R) (i : Nat) (t : R) : M (List R) := do
  check dbg (i < v.length) .badIndex
  wr false v i t
/-- `erase_element (i)`: vector.hpp:1034-1038. -/
def FVec.erase [Zero R] (dbg : Bool) (v : List R) (i : Nat) : M (List R) := FVec.set dbg v i 0
/-- `clear ()`: vector.hpp:1045-1048. -/
def FVec.clear [Zero R] (v : List R) : List R := v.map fun _ => 0
/-- `v.swap (w)`: vector.hpp:1230-1235 for two objects (`std::array::swap` exchanges the elements). -/
def FVec.swap (v w : List R) : List R × List R := (w, v)

namespace FVec
variable [Add R] [Sub R] [Zero R] [DecidableEq R]
/-- `fixed_vector (ae)`: vector.hpp:898-904. -/
def fromExpr (dbg : Bool) (mode : ProdFn.Mode) (N : Nat) (e : Seq R) : M (List R) :=
  VAssign.assign dbg mode .dense (VT.view dbg N id) .assign (VExpr.const e) (FVec.ctor N)
/-- `v = ae`: vector.hpp:1099-1103, 1087-1091 (temporary, then `swap`); `ae` may read `v`. -/
def assignExpr (dbg : Bool) (mode : ProdFn.Mode) (e : List R → Seq R) (v : List R) : M (List R) := do
  let t ← fromExpr dbg mode v.length (e v)
  return (swap v t).1
/-- `v += ae`, `v -= ae`: vector.hpp:1127-1132, 1165-1170: temporary of `*this + ae`, then `swap`. -/
def opAssignExpr (dbg : Bool) (mode : ProdFn.Mode) (F : AssignF) (e : List R → Seq R) (v : List R) : M (List R) := do
  let a ← VAssign.denseSeq dbg v
  let q ← Expr.binary dbg F.apply a (e v)
  let t ← fromExpr dbg mode v.length q
  return (swap v t).1
/-- `v = container`, `assign`, `plus_assign`, `minus_assign`, `v += container`, `v -= container`, without temporary: vector.hpp:1076-1081, 1110-1115, 1140-1158, 1178-1196. -/
def assign (dbg : Bool) (mode : ProdFn.Mode) (F : AssignF) (e : Seq R) (v : List R) : M (List R) :=
  VAssign.assign dbg mode .dense (VT.view dbg v.length id) F (VExpr.const e) v
/-- `v *= t`, `v /= t` (`F` multiplies or divides by `t`): vector.hpp:1204-1222. -/
def scale (dbg : Bool) (mode : ProdFn.Mode) (F : R → R) (v : List R) : M (List R) :=
  VAssign.assignScalar dbg mode .dense (VT.view dbg v.length id) F v
end FVec

/-- A reference: to an object that lives on, or to a temporary of the function that returned it. C++ object lifetime, not code of /repo. -/
inductive Ref (α : Type)
  | object (x : α)
  | temporary (x : α)
/-- Reading through a reference after the call that returned it: a temporary has been destroyed by then. C++ object lifetime, not code of /repo. -/
def Ref.read {α : Type} : Ref α → M α
  | .object x => .ok x
  | .temporary _ => .error .ub
/-- `const bool &empty () const { return data_.empty(); }`: vector.hpp:928-931; `std::array::empty` returns a `bool` by value, so the reference is bound to a temporary. -/
def FVec.empty (v : List R) : Ref Bool := .temporary v.isEmpty

/-! ## fixed_matrix -/
namespace FMat

/-- `fixed_matrix ()`: matrix.hpp:1256-1259. -/
def ctor [Zero R] (m n : Nat) : List R := List.replicate (m * n) 0
/-- `fixed_matrix (init)`: matrix.hpp:1263-1268. -/
def filled (m n : Nat) (t : R) : List R := List.replicate (m * n) t
/-- `fixed_matrix (v0, vrest...)`: matrix.hpp:1297-1304: the values fill the array, i.e. they are taken in storage order. -/
def ofList [Zero R] (m n : Nat) (l : List R) : List R := l ++ List.replicate (m * n - l.length) 0
/-- `operator () (i, j) const`: matrix.hpp:1347-1350. -/
def get (dbg : Bool) (o : Orient) (m n : Nat) (d : List R) (i j : Nat) : M R := do
  let k ← o.element dbg i m j n
  rd false d k
/-- `at_element (i, j) = t`, `insert_element (i, j, t)`: matrix.hpp:1357-1370, 1380-1383. -/
def set (dbg : Bool) (o : Orient) (m n : Nat) (d : List R) (i j : Nat) (t : R) : M (List R) := do
  let k ← o.element dbg i m j n
  wr false d k t
/-- `erase_element (i, j)`: matrix.hpp:1391-1394. -/
def erase [Zero R] (dbg : Bool) (o : Orient) (m n : Nat) (d : List R) (i j : Nat) : M (List R) := set dbg o m n d i j 0
/-- `clear ()`: matrix.hpp:1402-1405. -/
def clear [Zero R] (d : List R) : List R := d.map fun _ => 0
/-- `m.swap (n)`: matrix.hpp:1497-1502. -/
def swap (a b : List R) : List R × List R := (b, a)
/-- The matrix as a target of assignments, by (major, minor) indices: its iterators (matrix.hpp:1531-1563) walk the array as those of `matrix` do. -/
def target [Zero R] (dbg : Bool) (o : Orient) (m n : Nat) : MT (List R) R := MT.view dbg (o.sizeM m n) (o.sizem m n) fun k l => o.elementRaw (o.indexM k l) m (o.indexm k l) n

section
variable [Add R] [Sub R] [Zero R] [DecidableEq R]
/-- `fixed_matrix (ae)`: matrix.hpp:1289-1295. -/
def fromExpr (dbg : Bool) (mode : ProdFn.Mode) (o : Orient) (m n : Nat) (e : MExp R) : M (List R) :=
  MAssign.assign dbg mode .dense (target dbg o m n) .assign e (ctor m n)
/-- `m = ae`: matrix.hpp:1435-1440, 1430-1434. -/
def assignExpr (dbg : Bool) (mode : ProdFn.Mode) (o : Orient) (m n : Nat) (e : List R → MExp R) (d : List R) : M (List R) := do
  let t ← fromExpr dbg mode o m n (e d)
  return (swap d t).1
/-- `m += ae`, `m -= ae`: matrix.hpp:1447-1452, 1465-1470. -/
def opAssignExpr (dbg : Bool) (mode : ProdFn.Mode) (F : AssignF) (o : Orient) (m n : Nat) (e : List R → MExp R) (d : List R) : M (List R) := do
  let a ← arrExp dbg (o.sizeM m n) (o.sizem m n) (fun k l => o.elementRaw (o.indexM k l) m (o.indexm k l) n) d
  let q ← MAssign.sumExp dbg F.apply a (e d)
  let t ← fromExpr dbg mode o m n q
  return (swap d t).1
/-- `assign`, `plus_assign`, `minus_assign`, `m += container`, `m -= container`: matrix.hpp:1441-1446, 1453-1464, 1471-1482. -/
def assign (dbg : Bool) (mode : ProdFn.Mode) (F : AssignF) (o : Orient) (m n : Nat) (e : MExp R) (d : List R) : M (List R) :=
  MAssign.assign dbg mode .dense (target dbg o m n) F e d
/-- `m *= t`, `m /= t`: matrix.hpp:1483-1494. -/
def scale (dbg : Bool) (mode : ProdFn.Mode) (o : Orient) (m n : Nat) (F : R → R) (d : List R) : M (List R) :=
  MAssign.assignScalar dbg mode .dense (target dbg o m n) F d
end

/-- The nested loops over the iterators: the members of matrix.hpp:1566-2262 have the text of those of `matrix` (matrix.hpp:448-1118), with the sizes `M` and `N`. -/
def traverse12 (dbg : Bool) (o : Orient) (m n : Nat) (d : List R) (fuel : Nat) : M (List (List (Nat × Nat × R))) := DenseIter.traverse12 dbg o ⟨m, n, d⟩ fuel
/-- The same with `iterator2` outside. A client's loop over matrix.hpp:1549-2208 (iterator2, iterator1 of fixed_matrix). -/
def traverse21 (dbg : Bool) (o : Orient) (m n : Nat) (d : List R) (fuel : Nat) : M (List (List (Nat × Nat × R))) := DenseIter.traverse21 dbg o ⟨m, n, d⟩ fuel
end FMat
end Ublas
