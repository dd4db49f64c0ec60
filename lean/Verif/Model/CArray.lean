import Verif.Model.VectorTargets
import Verif.Model.MatrixTargets
/-!
# c_vector (vector.hpp:2425-2943) and c_matrix (matrix.hpp:4991-6009): containers over a C array of fixed capacity

BOOST_UBLAS_MOVE_SEMANTICS is not defined by any header of the library, so the copying `operator =` is modelled.  The array is the list `data` (for c_matrix the
cells `data_ [i] [j]` are at `i * cap2 + j`); an access outside it is undefined behaviour in both build modes.  Uninitialised cells are arbitrary (`junk`).
Iterators are not modelled here, except through the assignment loops (`VT.view`, `MT.view`).
-/
namespace Ublas
variable {R : Type}

/-- `std::swap_ranges (a, a + n, b)` on the first cells of two arrays. C++ standard library, not code of /repo. -/
def swapRanges (n : Nat) (a b : List R) : List R × List R := (b.take n ++ a.drop n, a.take n ++ b.drop n)

/-- `c_vector<T, N>`: vector.hpp:2941-2942 (size_, data_). -/
structure CVect (R : Type) where
  size : Nat
  data : List R
  deriving DecidableEq
namespace CVect
/-- `c_vector (size)`: vector.hpp:2451-2455 (`c_vector ()` is `c_vector (N)`). -/
def ctor (N : Nat) (junk : Nat → R) (n : Nat) : M (CVect R) :=
  if n > N then .error .badSize else .ok ⟨n, (List.range N).map junk⟩
/-- `c_vector (ae)`: vector.hpp:2465-2470. -/
def fromExpr [Add R] [Sub R] [Zero R] [DecidableEq R] (dbg : Bool) (mode : ProdFn.Mode) (N : Nat) (junk : Nat → R) (e : Seq R) : M (CVect R) :=
  if e.size > N then .error .badSize else do
    let d ← VAssign.assign dbg mode .dense (VT.view dbg e.size id) .assign (VExpr.const e) ((List.range N).map junk)
    return ⟨e.size, d⟩
/-- `resize (size)`: vector.hpp:2488-2492. -/
def resize (N : Nat) (v : CVect R) (n : Nat) : M (CVect R) := if n > N then .error .badSize else .ok { v with size := n }
/-- `operator () (i)`: vector.hpp:2506-2509. -/
def get (dbg : Bool) (v : CVect R) (i : Nat) : M R := do
  check dbg (i < v.size) .badIndex
  rd false v.data i
/-- `v (i) = t` / `insert_element`: vector.hpp:2511-2514, 2527-2530. -/
def set (dbg : Bool) (v : CVect R) (i : Nat) (t : R) : M (CVect R) := do
  check dbg (i < v.size) .badIndex
  let d ← wr false v.data i t
  return { v with data := d }
/-- `clear ()`: vector.hpp:2539-2541. -/
def clear [Zero R] (v : CVect R) : M (CVect R) := do
  let d ← loop (fun i d => wr false d i 0) v.size v.data
  return { v with data := d }
/-- `operator = (const c_vector &)`: vector.hpp:2554-2558 (`std::copy` of the first `v.size_` cells). -/
def copyAssign (a v : CVect R) : CVect R := ⟨v.size, v.data.take v.size ++ a.data.drop v.size⟩
/-- `swap`: vector.hpp:2637-2643: the sizes are exchanged first, then `size_` (the new one) cells. -/
def swap (dbg : Bool) (a v : CVect R) : M (CVect R × CVect R) := do
  check dbg (a.size = v.size) .badSize
  let d := swapRanges v.size a.data v.data
  return (⟨v.size, d.1⟩, ⟨a.size, d.2⟩)
/-- `v = ae`: vector.hpp:2574-2577 (temporary, then `swap`). -/
def assignExpr [Add R] [Sub R] [Zero R] [DecidableEq R] (dbg : Bool) (mode : ProdFn.Mode) (N : Nat) (junk : Nat → R) (e : Seq R) (v : CVect R) : M (CVect R) := do
  let t ← fromExpr dbg mode N junk e
  let p ← swap dbg v t
  return p.1
end CVect

/-- `c_matrix<T, N, M>`: matrix.hpp:6006-6008 (size1_, size2_, data_). -/
structure CMatx (R : Type) where
  size1 : Nat
  size2 : Nat
  data : List R
  deriving DecidableEq
namespace CMatx
/-- `c_matrix (size1, size2)`: matrix.hpp:5022-5026. -/
def ctor (N C : Nat) (junk : Nat → R) (r c : Nat) : M (CMatx R) :=
  if r > N ∨ c > C then .error .badSize else .ok ⟨r, c, (List.range (N * C)).map junk⟩
/-- `c_matrix (ae)`: matrix.hpp:5036-5041. -/
def fromExpr [Add R] [Sub R] [Zero R] [DecidableEq R] (dbg : Bool) (mode : ProdFn.Mode) (N C : Nat) (junk : Nat → R) (e : MExp R) : M (CMatx R) :=
  if e.sizeM > N ∨ e.sizem > C then .error .badSize else do
    let d ← MAssign.assign dbg mode .dense (MT.view dbg e.sizeM e.sizem (fun i j => i * C + j)) .assign e ((List.range (N * C)).map junk)
    return ⟨e.sizeM, e.sizem, d⟩
/-- `operator () (i, j)`: matrix.hpp:5086-5090. -/
def get (dbg : Bool) (C : Nat) (m : CMatx R) (i j : Nat) : M R := do
  check dbg (i < m.size1) .badIndex
  check dbg (j < m.size2) .badIndex
  if j < C then rd false m.data (i * C + j) else .error .ub
/-- `m (i, j) = t` / `insert_element`: matrix.hpp:5092-5106. -/
def set (dbg : Bool) (C : Nat) (m : CMatx R) (i j : Nat) (t : R) : M (CMatx R) := do
  check dbg (i < m.size1) .badIndex
  check dbg (j < m.size2) .badIndex
  if j < C then do
    let d ← wr false m.data (i * C + j) t
    return { m with data := d }
  else .error .ub
/-- `clear ()`: matrix.hpp:5110-5113. -/
def clear [Zero R] (C : Nat) (m : CMatx R) : M (CMatx R) := do
  let d ← loop (fun i d => loop (fun j d => wr false d (i * C + j) 0) m.size2 d) m.size1 m.data
  return { m with data := d }
/-- `std::copy (m.data_ [i], m.data_ [i] + n, data_ [i])` cell by cell. C++ standard library, not code of /repo. -/
def copyRow (C i : Nat) (src : List R) (n : Nat) (dst : List R) : M (List R) :=
  loop (fun j d => do
    let x ← rd false src (i * C + j)
    wr false d (i * C + j) x) n dst
/-- `operator = (const c_matrix &)`: matrix.hpp:5126-5132. -/
def copyAssign (C : Nat) (a m : CMatx R) : M (CMatx R) := do
  let d ← loop (fun i d => copyRow C i m.data m.size2 d) m.size1 a.data
  return ⟨m.size1, m.size2, d⟩
/-- `std::swap_ranges (data_ [i], data_ [i] + n, m.data_ [i])`, cell by cell. C++ standard library, not code of /repo. -/
def swapRow (C i n : Nat) (p : List R × List R) : M (List R × List R) :=
  loop (fun j p => do
    let x ← rd false p.1 (i * C + j)
    let y ← rd false p.2 (i * C + j)
    let a ← wr false p.1 (i * C + j) y
    let b ← wr false p.2 (i * C + j) x
    return (a, b)) n p
/-- `swap`: matrix.hpp:5209-5218. -/
def swap (dbg : Bool) (C : Nat) (a m : CMatx R) : M (CMatx R × CMatx R) := do
  check dbg (a.size1 = m.size1) .badSize
  check dbg (a.size2 = m.size2) .badSize
  let p ← loop (fun i p => swapRow C i m.size2 p) m.size1 (a.data, m.data)
  return (⟨m.size1, m.size2, p.1⟩, ⟨a.size1, a.size2, p.2⟩)
/-- `m = ae`: matrix.hpp:5148-5151. -/
def assignExpr [Add R] [Sub R] [Zero R] [DecidableEq R] (dbg : Bool) (mode : ProdFn.Mode) (N C : Nat) (junk : Nat → R) (e : MExp R) (m : CMatx R) : M (CMatx R) := do
  let t ← fromExpr dbg mode N C junk e
  let p ← swap dbg C m t
  return p.1
/-- `resize (size1, size2, preserve)`: matrix.hpp:5063-5082. -/
def resize (dbg : Bool) (N C : Nat) (junk : Nat → R) (m : CMatx R) (r c : Nat) (preserve : Bool) : M (CMatx R) :=
  if r > N ∨ c > C then .error .badSize
  else if preserve then do
    let t ← ctor N C junk r c
    let d ← loop (fun i d => copyRow C i m.data (min c m.size2) d) (min r m.size1) t.data
    let p ← swap dbg C m { t with data := d }
    return p.1
  else .ok { m with size1 := r, size2 := c }
end CMatx
end Ublas
