import Verif.Model.Solve
import Verif.Model.Norms
import Verif.Model.Blocked
/-!
# LU factorisation and substitution: lu.hpp

The matrix is anything with element access of dense storage category (`Acc`); `o` is its orientation.  Default build: BOOST_UBLAS_USE_INDEXING (config.hpp:269-272), no
BOOST_UBLAS_TYPE_CHECK re-computation (modelled on top of this file in Model/LUCheck.lean) (lu.hpp:98-101, 119-124, 134-137, 163-168, 179-181, 255-260, 267-272, …), no BOOST_UBLAS_LU_WITH_INPLACE_SOLVE (218-254).
`abs` is `type_traits<T>::type_abs`, used by index_norm_inf.
-/
namespace Ublas.LU
variable {σ τ ι R K : Type}

/-- `std::swap (x, y)` on two elements: `t = x; x = y; y = t`. C++ standard library, not code of /repo. -/
def swapCells (V : Acc σ ι R) (p q : ι) (s : σ) : M σ := do
  let x ← V.get s p
  let y ← V.get s q
  let s ← V.set s p y
  V.set s q x

/-- `project (row (m, p), range (lo, hi)).swap (project (row (m, q), range (lo, hi)))`, or the whole rows: matrix_proxy.hpp:187-195, vector_proxy.hpp:211-219 and the dense
vector_swap, detail/vector_assign.hpp:508-516. -/
def swapRow (V : Acc σ (Nat × Nat) R) (p q lo hi : Nat) (s : σ) : M σ :=
  loop (fun k s => swapCells V (p, lo + k) (q, lo + k) s) (hi - lo) s

/-- `swap_rows (pm, mv, vector_tag)`: lu.hpp:62-72.  `pm (i)` is read once here. -/
def swapRowsVec (dbg : Bool) (pm : List Nat) (V : Acc σ Nat R) (s : σ) : M σ :=
  loop (fun i s => do
    let p ← rd dbg pm i
    if i ≠ p then swapCells V i p s else .ok s) pm.length s

/-- `swap_rows (pm, mv, matrix_tag)`: lu.hpp:73-83. -/
def swapRowsMat (dbg : Bool) (pm : List Nat) (V : Acc σ (Nat × Nat) R) (size2 : Nat) (s : σ) : M σ :=
  loop (fun i s => do
    let p ← rd dbg pm i
    if i ≠ p then swapRow V i p 0 size2 s else .ok s) pm.length s

/-- `permutation_matrix (size)`: lu.hpp:40-45. -/
def identity (size : Nat) : List Nat := List.range size

section field
variable [Field R] [DecidableEq R]

/-- `project (mci, range (i + 1, size1)) *= m_inv;`: lu.hpp:111, 155; indexing_vector_assign_scalar, detail/vector_assign.hpp:120-138. -/
def scaleColumn (V : Acc σ (Nat × Nat) R) (n1 i : Nat) (m_inv : R) (s : σ) : M σ :=
  loop (fun k s => do
    let x ← V.get s (i + 1 + k, i)
    V.set s (i + 1 + k, i) (x * m_inv)) (n1 - (i + 1)) s

/-- One element of the outer product update: `m (r, c) -= mci (r) * mri (c)`. lu.hpp:116, 160 (`minus_assign (outer_prod (…))`). -/
def elimCell (V : Acc σ (Nat × Nat) R) (i r c : Nat) (s : σ) : M σ := do
  let a ← V.get s (r, i)
  let b ← V.get s (i, c)
  let x ← V.get s (r, c)
  V.set s (r, c) (x - a * b)

/-- `project (m, range (i + 1, size1), range (i + 1, size2)).minus_assign (outer_prod (project (mci, …), project (mri, …)))`: lu.hpp:115-117, 159-161;
indexing_matrix_assign<scalar_minus_assign>, detail/matrix_assign.hpp:581-613 (row_major, column_major). -/
def eliminate (o : Orient) (V : Acc σ (Nat × Nat) R) (n1 n2 i : Nat) (s : σ) : M σ :=
  loop (fun M s => loop (fun m s => elimCell V i (i + 1 + o.indexM M m) (i + 1 + o.indexm M m) s) (o.sizem (n1 - (i + 1)) (n2 - (i + 1))) s)
    (o.sizeM (n1 - (i + 1)) (n2 - (i + 1))) s

/-- The body of the loop of `lu_factorize (m)`: lu.hpp:106-118.  The state is the matrix and `singular`. -/
def luStep (o : Orient) (V : Acc σ (Nat × Nat) R) (n1 n2 i : Nat) (st : σ × Nat) : M (σ × Nat) := do
  let d ← V.get st.1 (i, i)
  let st ← (if d ≠ 0 then do
      let s ← scaleColumn V n1 i (1 / d) st.1
      .ok (s, st.2)
    else if st.2 = 0 then .ok (st.1, i + 1) else .ok st : M (σ × Nat))
  let s ← eliminate o V n1 n2 i st.1
  .ok (s, st.2)

/-- `lu_factorize (m)`: lu.hpp:91-126. -/
def factorize (o : Orient) (V : Acc σ (Nat × Nat) R) (n1 n2 : Nat) (s : σ) : M (σ × Nat) := loop (luStep o V n1 n2) (min n1 n2) (s, 0)

/-- Column `c`, rows `lo … lo + n - 1`, as a vector operand. The column projections of lu.hpp:194-212. -/
def colSeq (V : Acc σ (Nat × Nat) R) (s : σ) (lo n c : Nat) : Seq R :=
  ⟨n, .dense, (List.range n).map fun k => (k, (V.get s (lo + k, c)).toOption.getD 0), fun k => V.get s (lo + k, c)⟩

variable [Add K] [Zero K] [LT K] [DecidableLT K] (abs : R → K)

/-- `pm`, the matrix and `singular` during the pivoted factorisations. Local variables of lu.hpp:128-170. -/
structure PState (σ : Type) where
  m : σ
  pm : List Nat
  singular : Nat
  deriving DecidableEq, Repr

/-- The body of the loop of `lu_factorize (m, pm)`: lu.hpp:142-162. -/
def luPivotStep (dbg : Bool) (o : Orient) (V : Acc σ (Nat × Nat) R) (n1 n2 i : Nat) (st : PState σ) : M (PState σ) := do
  let k ← Norms.indexNormInf abs .indexing (colSeq V st.m i (n1 - i) i)
  check dbg (i + k < n1) .externalLogic
  let d ← V.get st.m (i + k, i)
  let st ← (if d ≠ 0 then do
      let st ← (if i + k ≠ i then do
          let pm ← wr dbg st.pm i (i + k)
          let s ← swapRow V (i + k) i 0 n2 st.m
          .ok { st with m := s, pm := pm }
        else if dbg then do
          let p ← rd dbg st.pm i
          check dbg (p = i + k) .externalLogic
          .ok st
        else .ok st : M (PState σ))
      let d ← V.get st.m (i, i)
      let s ← scaleColumn V n1 i (1 / d) st.m
      .ok { st with m := s }
    else if st.singular = 0 then .ok { st with singular := i + 1 } else .ok st : M (PState σ))
  let s ← eliminate o V n1 n2 i st.m
  .ok { st with m := s }

/-- `lu_factorize (m, pm)`: lu.hpp:128-170. -/
def factorizePivot (dbg : Bool) (o : Orient) (V : Acc σ (Nat × Nat) R) (n1 n2 : Nat) (s : σ) (pm : List Nat) : M (PState σ) :=
  loop (luPivotStep abs dbg o V n1 n2) (min n1 n2) ⟨s, pm, 0⟩

/-! ## axpy_lu_factorize -/

/-- A block of a matrix as an operand: matrix_range, matrix_proxy.hpp:2470-2485. -/
def blockSeq (V : Acc σ (Nat × Nat) R) (s : σ) (r0 c0 r c : Nat) : MSeq R :=
  ⟨r, c, .dense, fun i => (List.range c).map fun j => (j, (V.get s (r0 + i, c0 + j)).toOption.getD 0),
    fun j => (List.range r).map fun i => (i, (V.get s (r0 + i, c0 + j)).toOption.getD 0), fun i j => V.get s (r0 + i, c0 + j)⟩

/-- `m`, `mr`, `v`, `pm` and `singular`. Local variables of lu.hpp:172-262. -/
structure AState (σ R : Type) where
  m : σ
  mr : σ
  v : List R
  pm : List Nat
  singular : Nat
  deriving DecidableEq, Repr

/-- `column (mr, c), rows lo … : x (k) := t (k)`: indexing_vector_assign<scalar_assign>, detail/vector_assign.hpp:256-270. -/
def assignColumn (V : Acc σ (Nat × Nat) R) (lo n c : Nat) (t : Nat → M R) (s : σ) : M σ :=
  loop (fun k s => do
    let x ← t k
    V.set s (lo + k, c) x) n s

/-- `project (v, range (lo, …)).assign (t)`. lu.hpp:194, 229. -/
def assignRange (dbg : Bool) (lo n : Nat) (t : Nat → M R) (v : List R) : M (List R) :=
  loop (fun k v => do
    let x ← t k
    wr dbg v (lo + k) x) n v

/-- The body of the loop of `axpy_lu_factorize (m, pm)`: lu.hpp:190-216.  `junk`: uninitialised elements of fresh vectors. -/
def axpyStep (dbg : Bool) (o : Orient) (V : Acc σ (Nat × Nat) R) (junk : Nat → R) (n1 n2 i : Nat) (st : AState σ R) : M (AState σ R) := do
  -- lu.hpp:191-193
  let u ← Solve.solveVec dbg .indexing junk false true o (blockSeq V st.mr 0 0 i i) (colSeq V st.m 0 i i)
  let mr ← assignColumn V 0 i i (fun k => rd dbg u k) st.mr
  -- lu.hpp:194-196, operation.hpp:262-272 (`V v (e1.size1 ()); return axpy_prod (e1, e2, v, true);`)
  let t ← Axpy.matVec dbg .indexing .dense (VT.view dbg (n1 - i) id) o (blockSeq V mr i 0 (n1 - i) i) (List.range (o.sizeM (n1 - i) i)) (colSeq V mr 0 i i) true
    ((List.range (n1 - i)).map junk)
  let v ← assignRange dbg i (n1 - i) (fun k => do
    let x ← V.get st.m (i + k, i)
    let y ← rd dbg t k
    .ok (x - y)) st.v
  -- lu.hpp:197-198
  let k ← Norms.indexNormInf abs .indexing ⟨n1 - i, .dense, (List.range (n1 - i)).map fun k => (k, v.getD (i + k) 0), fun k => rd dbg v (i + k)⟩
  check dbg (i + k < n1) .externalLogic
  let d ← rd dbg v (i + k)
  let st : AState σ R := { st with mr := mr, v := v }
  -- lu.hpp:199-214
  let st ← (if d ≠ 0 then do
      let st ← (if i + k ≠ i then do
          let pm ← wr dbg st.pm i (i + k)
          let v ← swapCells (⟨fun l p => rd dbg l p, fun l p x => wr dbg l p x⟩ : Acc (List R) Nat R) (i + k) i st.v
          let m ← swapRow V (i + k) i (i + 1) n2 st.m
          .ok { st with m := m, v := v, pm := pm }
        else if dbg then do
          let p ← rd dbg st.pm i
          check dbg (p = i + k) .externalLogic
          .ok st
        else .ok st : M (AState σ R))
      let mr ← assignColumn V (i + 1) (n1 - (i + 1)) i (fun l => do
        let x ← rd dbg st.v (i + 1 + l)
        let d ← rd dbg st.v i
        Solve.quot x d) st.mr
      let mr ← (if i + k ≠ i then swapRow V (i + k) i 0 i mr else .ok mr : M σ)
      .ok { st with mr := mr }
    else if st.singular = 0 then .ok { st with singular := i + 1 } else .ok st : M (AState σ R))
  -- lu.hpp:215
  let d ← rd dbg st.v i
  let mr ← V.set st.mr (i, i) d
  .ok { st with mr := mr }

/-- `for (major) for (minor) m (r, c) = e (r, c)`: `m.assign (mr)`, `mr.assign (zero_matrix (size1, size2))`; detail/matrix_assign.hpp:581-613. -/
def assignAll (o : Orient) (V : Acc σ (Nat × Nat) R) (n1 n2 : Nat) (t : Nat → Nat → M R) (s : σ) : M σ :=
  loop (fun M s => loop (fun m s => do
    let x ← t (o.indexM M m) (o.indexm M m)
    V.set s (o.indexM M m, o.indexm M m) x) (o.sizem n1 n2) s) (o.sizeM n1 n2) s

/-- `axpy_lu_factorize (m, pm)`: lu.hpp:172-217, 261; `matrix_type mr (m)` is a copy of the matrix. -/
def axpyFactorize (dbg : Bool) (o : Orient) (V : Acc σ (Nat × Nat) R) (junk : Nat → R) (n1 n2 : Nat) (s : σ) (pm : List Nat) : M (PState σ) := do
  let mr ← assignAll o V n1 n2 (fun _ _ => .ok 0) s
  let st ← loop (axpyStep abs dbg o V junk n1 n2) (min n1 n2) ⟨s, mr, (List.range n1).map junk, pm, 0⟩
  let m ← assignAll o V n1 n2 (fun r c => V.get st.mr (r, c)) st.m
  .ok ⟨m, st.pm, st.singular⟩

/-! ## lu_substitute -/
omit [Add K] [Zero K] [LT K] [DecidableLT K]

/-- `lu_substitute (m, e)` for a vector: lu.hpp:265-282. -/
def substVec (dbg : Bool) (o : Orient) (A : MSeq R) (V : Acc τ Nat R) (n : Nat) (s : τ) : M τ := do
  let s ← Solve.inplace dbg false true o A V n s
  Solve.inplace dbg true false o A V n s

/-- `lu_substitute (m, e)` for a matrix: lu.hpp:283-300. -/
def substMat (dbg : Bool) (A : MSeq R) (V : Acc τ (Nat × Nat) R) (n q : Nat) (s : τ) : M τ := do
  let s ← Solve.inplaceMat dbg false true A V n q s
  Solve.inplaceMat dbg true false A V n q s

/-- `lu_substitute (m, pm, mv)`, vector and matrix: lu.hpp:301-305. -/
def substPivotVec (dbg : Bool) (o : Orient) (A : MSeq R) (pm : List Nat) (V : Acc τ Nat R) (n : Nat) (s : τ) : M τ := do
  let s ← swapRowsVec dbg pm V s
  substVec dbg o A V n s

/-- `lu_substitute (m, pm, mv)` with a matrix `mv`: lu.hpp:302-306. -/
@[inherit_doc substPivotVec]
def substPivotMat (dbg : Bool) (A : MSeq R) (pm : List Nat) (V : Acc τ (Nat × Nat) R) (n q : Nat) (s : τ) : M τ := do
  let s ← swapRowsMat dbg pm V q s
  substMat dbg A V n q s

/-- `lu_substitute (e, m)` for a vector: lu.hpp:306-323. -/
def substLeft (dbg : Bool) (o : Orient) (A : MSeq R) (V : Acc τ Nat R) (n : Nat) (s : τ) : M τ := do
  let s ← Solve.inplaceLeft dbg true false o A V n s
  Solve.inplaceLeft dbg false true o A V n s

/-- `lu_substitute (mv, m, pm)` for a vector: lu.hpp:342-346. -/
def substPivotLeft (dbg : Bool) (o : Orient) (A : MSeq R) (pm : List Nat) (V : Acc τ Nat R) (n : Nat) (s : τ) : M τ := do
  let s ← swapRowsVec dbg pm V s
  substLeft dbg o A V n s

end field
end Ublas.LU
