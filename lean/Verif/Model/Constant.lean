import Verif.Model.Prod
import Verif.Model.MatrixAssign
import Verif.Model.PackedIter
/-!
# Constant containers: zero_vector, unit_vector, scalar_vector (vector.hpp:1685-2417), zero_matrix, identity_matrix, scalar_matrix (matrix.hpp:3454-4970)

They hold sizes (and an index or a value) only.  Iterators are read through the loops user code and the evaluation code run over them: `begin ()` … `end ()`
(`direct`), and `find (…, 0)` … `find (…, size)` (`byFind`), which is what every expression built on the container uses (vector_expression.hpp and
matrix_expression.hpp: `begin () { return find (0); } end () { return find (size ()); }`, matrix_expression.hpp:1021-1025, 1190-1196, 1361-1367, 3213-3224, …).
Elements come from a semiring (`zero_` = 0, `one_` = 1).  Only forward iteration is modelled; serialization is in Model/Serialize.
-/
namespace Ublas
variable {R : Type} [Semiring R]

/-- `for (it = b; it != e; ++ it) record (it, get (it))` over an index, where `operator ++` checks `it < limit` (debug builds) and dereferencing is `get`. A client's loop; the iterator operations are cited at their definitions. -/
def walkChk {β : Type} (dbg : Bool) (limit : Nat) (get : Nat → M β) : (fuel b e : Nat) → M (List (Nat × β))
  | 0, b, e => if b = e then .ok [] else .error .diverge
  | n + 1, b, e => if b = e then .ok [] else do
    let v ← get b
    check dbg (b < limit) .badIndex
    let l ← walkChk dbg limit get n (b + 1) e
    return (b, v) :: l

/-! ## Vectors -/

/-- `zero_vector`: vector.hpp:1685-1893 (size_). -/
structure ZeroVec where
  size : Nat
/-- `resize`: vector.hpp:1725-1727. -/
def ZeroVec.resize (_v : ZeroVec) (n : Nat) : ZeroVec := ⟨n⟩
/-- `operator ()`: vector.hpp:1737-1739. -/
def ZeroVec.at_ (_v : ZeroVec) (_i : Nat) : M R := .ok 0
/-- All iterators compare equal (vector.hpp:1833-1837), so the loop from `begin ()` (`find (0)`) to `end ()` (`find (size)`) runs zero rounds. -/
def ZeroVec.els (_v : ZeroVec) : M (List (Nat × R)) := .ok []

/-- `unit_vector`: vector.hpp:1906-2156 (size_, index_). -/
structure UnitVec where
  size : Nat
  index : Nat
  deriving DecidableEq
namespace UnitVec
/-- `resize`: vector.hpp:1966-1968; the index stays. -/
def resize (v : UnitVec) (n : Nat) : UnitVec := { v with size := n }
/-- `operator ()`: vector.hpp:1984-1989. -/
def at_ (v : UnitVec) (i : Nat) : M R := .ok (if i = v.index then 1 else 0)
/-- `find`: vector.hpp:2031-2033; the iterator is a bool, true = standing at the element. -/
def find (v : UnitVec) (i : Nat) : Bool := decide (i ≤ v.index)
/-- `for (it = b; it != e; ++ it) record (it.index (), *it)`: `*` and `index ()` check `it_` (2069-2079), `++` checks and flips it (2055-2059), `==` compares the
bools (2091-2094). -/
def walk (dbg : Bool) (v : UnitVec) : (fuel : Nat) → (b e : Bool) → M (List (Nat × R))
  | 0, b, e => if b = e then .ok [] else .error .diverge
  | n + 1, b, e => if b = e then .ok [] else do
    check dbg (b = true) .badIndex
    let l ← walk dbg v n (!b) e
    return (v.index, 1) :: l
/-- `begin ()` … `end ()`: vector.hpp:2103-2113. -/
def direct (dbg : Bool) (v : UnitVec) : M (List (Nat × R)) := v.walk dbg 2 true false
/-- `find (0)` … `find (size)`. A client's loop over `find`: vector_expression.hpp and matrix_expression.hpp as cited in the file header. -/
def byFind (dbg : Bool) (v : UnitVec) : M (List (Nat × R)) := v.walk dbg 2 (v.find 0) (v.find v.size)
end UnitVec

/-- `scalar_vector`: vector.hpp:2169-2417 (size_, value_). -/
structure ScalarVec (R : Type) where
  size : Nat
  value : R
namespace ScalarVec
/-- `resize`: vector.hpp:2209-2211. -/
def resize (v : ScalarVec R) (n : Nat) : ScalarVec R := { v with size := n }
/-- `operator ()`: vector.hpp:2221-2223. -/
def at_ (v : ScalarVec R) (_i : Nat) : M R := .ok v.value
/-- `begin () = find (0)` … `end () = find (size_)` (2367-2377); `*` checks `it_ < size ()` (2323-2326), `++` does not check (2296-2299). -/
def els (dbg : Bool) (v : ScalarVec R) : M (List (Nat × R)) :=
  walkIdx (fun i => do check dbg (i < v.size) .badIndex; v.at_ i) v.size 0 v.size
end ScalarVec

/-! ## Matrices -/

/-- `zero_matrix`: matrix.hpp:3454-3900 (size1_, size2_); `operator ()` 3515-3517; iterators always compare equal (`operator ==` returns true in both iterator classes, 3828-3832). -/
structure ZeroMat where
  size1 : Nat
  size2 : Nat
namespace ZeroMat
/-- `resize`: matrix.hpp:3508-3511. -/
def resize (_m : ZeroMat) (r c : Nat) : ZeroMat := ⟨r, c⟩
/-- `operator ()`: matrix.hpp:3515-3517. -/
def at_ (_m : ZeroMat) (_i _j : Nat) : M R := .ok 0
/-- Outer loops `begin1 ()` … `end1 ()`, `begin2 ()` … `end2 ()` and every nested loop run zero rounds. A client's loop; the iterator operations are cited at their definitions. -/
def lines (_m : ZeroMat) : M (List (Nat × List (Nat × R))) := .ok []
end ZeroMat

/-- `identity_matrix`: matrix.hpp:3929-4416 (size1_, size2_, size_common_). -/
structure IdMat where
  size1 : Nat
  size2 : Nat
  common : Nat
  deriving DecidableEq
namespace IdMat
/-- `identity_matrix (size1, size2)`: matrix.hpp:3958-3960 (and 3950-3956). -/
def ctor (r c : Nat) : IdMat := ⟨r, c, min r c⟩
/-- `resize (size1, size2)`: matrix.hpp:3984-3988. -/
def resize (_m : IdMat) (r c : Nat) : IdMat := ⟨r, c, min r c⟩
/-- `resize (size)`: matrix.hpp:3978-3982. -/
def resizeSq (_m : IdMat) (n : Nat) : IdMat := ⟨n, n, min n n⟩
/-- The copy constructor recomputes the common size (3962-3964), `operator =` copies it (4001-4006). -/
def copy (m : IdMat) : IdMat := ⟨m.size1, m.size2, min m.size1 m.size2⟩
/-- `operator ()`: matrix.hpp:3992-3997. -/
def at_ (_m : IdMat) (i j : Nat) : M R := .ok (if i = j then 1 else 0)
/-- `find1`: matrix.hpp:4040-4046 (the position of the const_iterator1). -/
def find1 (_m : IdMat) (rank i j : Nat) : Nat := if rank = 1 then min (max i j) (j + 1) else i
/-- `find2`: matrix.hpp:4048-4054. -/
def find2 (_m : IdMat) (rank i j : Nat) : Nat := if rank = 1 then min (max j i) (i + 1) else j

/-- A loop of const_iterator1: `++` checks `it_ < size1 ()` (4080-4084); `*` is `one_` (4094-4096). -/
def walk1 {β : Type} (dbg : Bool) (m : IdMat) (get : Nat → M β) (b e : Nat) : M (List (Nat × β)) := walkChk dbg m.size1 get (m.size1 + m.size2 + 1) b e
/-- A loop of const_iterator2: `++` checks `it_ < size_common_` (4228-4232); `*` is `one_` (4242-4244). -/
def walk2 {β : Type} (dbg : Bool) (m : IdMat) (get : Nat → M β) (b e : Nat) : M (List (Nat × β)) := walkChk dbg m.common get (m.size1 + m.size2 + 1) b e
/-- `*it`: matrix.hpp:4094-4096, 4242-4244. -/
def one (_ : Nat) : M R := .ok 1

/-- Nested loop of the const_iterator1 at `i`: `it1.begin ()` … `it1.end ()`, matrix.hpp:4103-4119; `index2 ()` 4311-4313. -/
def rowOf (dbg : Bool) (m : IdMat) (i : Nat) : M (List (Nat × R)) := m.walk2 dbg one i (i + 1)
/-- Nested loop of the const_iterator2 at `j`: matrix.hpp:4251-4267; `index1 ()` 4307-4309. -/
def colOf (dbg : Bool) (m : IdMat) (j : Nat) : M (List (Nat × R)) := m.walk1 dbg one j (j + 1)
/-- `find2 (1, i, 0)` … `find2 (1, i, size2)`: the nested loop of an expression over the matrix, and the loop of `row (m, i)`. A client's loop; the iterator operations are cited at their definitions. -/
def rowFind (dbg : Bool) (m : IdMat) (i : Nat) : M (List (Nat × R)) := m.walk2 dbg one (m.find2 1 i 0) (m.find2 1 i m.size2)
/-- `find1 (1, 0, j)` … `find1 (1, size1, j)`. A client's loop over `find1`, as `matrix_unary2` and the products perform it (matrix_expression.hpp:1361-1367, 3213-3224). -/
def colFind (dbg : Bool) (m : IdMat) (j : Nat) : M (List (Nat × R)) := m.walk1 dbg one (m.find1 1 0 j) (m.find1 1 m.size1 j)

/-- Row-wise loop over the matrix itself: `begin1 ()` … `end1 ()` (4189-4199) with nested loops. -/
def rowsDirect (dbg : Bool) (m : IdMat) : M (List (Nat × List (Nat × R))) := m.walk1 dbg (m.rowOf dbg) 0 m.common
/-- Column-wise loop over the matrix itself: `begin2 ()` … `end2 ()` (4337-4347). -/
def colsDirect (dbg : Bool) (m : IdMat) : M (List (Nat × List (Nat × R))) := m.walk2 dbg (m.colOf dbg) 0 m.common
/-- Row-wise loop over an expression built on the matrix: `find1 (0, 0, 0)` … `find1 (0, size1, 0)`. A client's loop; the iterator operations are cited at their definitions. -/
def rowsFind (dbg : Bool) (m : IdMat) : M (List (Nat × List (Nat × R))) := m.walk1 dbg (m.rowFind dbg) (m.find1 0 0 0) (m.find1 0 m.size1 0)
/-- Column-wise loop over an expression built on the matrix: `find2 (0, 0, 0)` … `find2 (0, 0, size2)`. A client's loop; the iterator operations are cited at their definitions. -/
def colsFind (dbg : Bool) (m : IdMat) : M (List (Nat × List (Nat × R))) := m.walk2 dbg (m.colFind dbg) (m.find2 0 0 0) (m.find2 0 0 m.size2)
end IdMat

/-- `scalar_matrix`: matrix.hpp:4433-4970 (size1_, size2_, value_). -/
structure ScalarMat (R : Type) where
  size1 : Nat
  size2 : Nat
  value : R
namespace ScalarMat
/-- `resize`: matrix.hpp:4478-4481. -/
def resize (m : ScalarMat R) (r c : Nat) : ScalarMat R := { m with size1 := r, size2 := c }
/-- `operator ()`: matrix.hpp:4485-4487. -/
def at_ (m : ScalarMat R) (_i _j : Nat) : M R := .ok m.value
/-- `*it` at (i, j): matrix.hpp:4598-4602, 4779-4783. -/
def deref (dbg : Bool) (m : ScalarMat R) (i j : Nat) : M R := do
  check dbg (i < m.size1) .badIndex
  check dbg (j < m.size2) .badIndex
  m.at_ i j
/-- Row `i`: `find2 (1, i, 0)` … `find2 (1, i, size2)`: matrix.hpp:4613-4631; `++` does not check. -/
def row (dbg : Bool) (m : ScalarMat R) (i : Nat) : M (List (Nat × R)) := walkIdx (m.deref dbg i) m.size2 0 m.size2
/-- Column `j`: `find1 (1, 0, j)` … `find1 (1, size1, j)`: matrix.hpp:4794-4812. -/
def col (dbg : Bool) (m : ScalarMat R) (j : Nat) : M (List (Nat × R)) := walkIdx (fun i => m.deref dbg i j) m.size1 0 m.size1
/-- `begin1 ()` … `end1 ()`: matrix.hpp:4711-4721. -/
def rows (dbg : Bool) (m : ScalarMat R) : M (List (Nat × List (Nat × R))) := walkIdx (m.row dbg) m.size1 0 m.size1
/-- `begin2 ()` … `end2 ()`: matrix.hpp:4892-4902. -/
def cols (dbg : Bool) (m : ScalarMat R) : M (List (Nat × List (Nat × R))) := walkIdx (m.col dbg) m.size2 0 m.size2
end ScalarMat

end Ublas
