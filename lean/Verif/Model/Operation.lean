import Verif.Model.VectorTargets
import Verif.Model.MatrixTargets
import Verif.Model.Coo
/-!
# axpy_prod and opb_prod: operation.hpp

The result vector or matrix is a target of Model/VectorAssign or Model/MatrixAssign.  `v (i) += y` on a sparse container first stores a zero at a missing index
(vector_sparse.hpp:1006-1029) and then adds, which is one call of `ref` with the sum.  The BOOST_UBLAS_TYPE_CHECK re-computation is modelled on top of this file in Model/AxpyCheck.lean; the overloads that return the
result by value only construct the target and call the modelled ones (operation.hpp:89-98, 260-269, 332-341, 478-487, 656-667, 707-716, 817-826).
-/
namespace Ublas
variable {σ ι R : Type}

/-- Element access of a container or view: reading `v (i)` and `v (i) = t`. Interface: what operation.hpp:28-340 uses of its target. -/
structure Acc (σ ι R : Type) where
  get : σ → ι → M R
  set : σ → ι → R → M σ

/-- Element access of a vector target. `v (i)`, `v (i) = t`: vector.hpp:222-235, vector_sparse.hpp:1005-1031, vector_proxy.hpp:99-120. -/
def VT.acc (T : VT σ R) : Acc σ Nat R := ⟨T.get, T.ref⟩
/-- Element access of a matrix target at (major, minor). `m (i, j)`, `m (i, j) = t`: matrix.hpp:237-260, matrix_sparse.hpp:3037-3058, matrix_proxy.hpp:2483-2500. -/
def MT.acc (T : MT σ R) : Acc σ (Nat × Nat) R := ⟨fun s p => T.get s p.1 p.2, fun s p => T.ref s p.1 p.2⟩

/-- `v (i) += y`. `v (k) += …`: operation.hpp:60, 120 and the other loops. -/
def Acc.add [Add R] (A : Acc σ ι R) (s : σ) (i : ι) (y : R) : M σ := do
  let x ← A.get s i
  A.set s i (x + y)

/-- `zero_vector (n)`: vector.hpp:1685-1890, a sparse expression without elements. -/
def Seq.zero [Zero R] (n : Nat) : Seq R := ⟨n, .sparse, [], fun _ => .ok 0⟩
/-- `zero_matrix (r, c)`: matrix.hpp:3454-3900. -/
def MExp.zero [Zero R] (r c : Nat) : MExp R := ⟨r, c, .sparse, [], fun _ _ => .ok 0⟩

namespace Axpy
variable [Add R] [Sub R] [Mul R] [Zero R] [DecidableEq R]

/-- `compressed_matrix * vector` for row_major (operation.hpp:28-46), `vector * compressed_matrix` for column_major (271-289): the result is indexed by the
major index. -/
def compressedMajor (dbg : Bool) (A : CMat R) (x : Seq R) (V : Acc σ Nat R) (s : σ) : M σ :=
  loop (fun i s => do
    let begin_ ← rd dbg A.idx1 i
    let end_ ← rd dbg A.idx1 (i + 1)
    let t ← V.get s i
    let t ← loop (fun n t => do
      let a ← rd dbg A.val (begin_ + n)
      let j ← rd dbg A.idx2 (begin_ + n)
      let y ← x.at_ j
      .ok (t + a * y)) (end_ - begin_) t
    V.set s i t) (A.filled1 - 1) s

/-- `compressed_matrix * vector` for column_major (operation.hpp:48-63), `vector * compressed_matrix` for row_major (291-306): the result is indexed by the
minor index. -/
def compressedMinor (dbg : Bool) (A : CMat R) (x : Seq R) (V : Acc σ Nat R) (s : σ) : M σ :=
  loop (fun j s => do
    let begin_ ← rd dbg A.idx1 j
    let end_ ← rd dbg A.idx1 (j + 1)
    loop (fun n s => do
      let i ← rd dbg A.idx2 (begin_ + n)
      let a ← rd dbg A.val (begin_ + n)
      let y ← x.at_ j
      V.add s i (a * y)) (end_ - begin_) s) (A.filled1 - 1) s

/-- `if (init) v.assign (zero_vector<value_type> (n));`: operation.hpp:75-76, 113-115, 246-247, 318-319, 464-465. -/
def initVec (dbg : Bool) (mode : ProdFn.Mode) (sc : StorageCat) (T : VT σ R) (init : Bool) (n : Nat) (s : σ) : M σ :=
  if init then VAssign.assign dbg mode sc T .assign (VExpr.const (Seq.zero n)) s else .ok s

/-- `axpy_prod (compressed_matrix, x, v, init)`: operation.hpp:65-88. -/
def compressedVec (dbg : Bool) (mode : ProdFn.Mode) (sc : StorageCat) (T : VT σ R) (o : Orient) (A : CMat R) (x : Seq R) (init : Bool) (s : σ) : M σ := do
  let s ← initVec dbg mode sc T init A.size1 s
  match o with
  | .row => compressedMajor dbg A x T.acc s
  | .col => compressedMinor dbg A x T.acc s

/-- `axpy_prod (x, compressed_matrix, v, init)`: operation.hpp:308-331. -/
def vecCompressed (dbg : Bool) (mode : ProdFn.Mode) (sc : StorageCat) (T : VT σ R) (o : Orient) (A : CMat R) (x : Seq R) (init : Bool) (s : σ) : M σ := do
  let s ← initVec dbg mode sc T init A.size2 s
  match o with
  | .col => compressedMajor dbg A x T.acc s
  | .row => compressedMinor dbg A x T.acc s

/-- `axpy_prod (coordinate_matrix, x, v, init)`: operation.hpp:100-123. -/
def coordinateVec (dbg : Bool) (mode : ProdFn.Mode) (sc : StorageCat) (T : VT σ R) (o : Orient) (A : CoordMat R) (x : Seq R) (init : Bool) (s : σ) : M σ := do
  let s ← initVec dbg mode sc T init A.size1 s
  loop (fun n s => do
    let k ← rd dbg A.coo.idx n
    let row_index := o.indexM k.1 k.2
    let col_index := o.indexm k.1 k.2
    let a ← rd dbg A.coo.val n
    let y ← x.at_ col_index
    T.acc.add s row_index (a * y)) A.coo.filled s

/-- Nested iterators, result indexed by the outer index: operation.hpp:125-152 (row_major A * x), 343-370 (x * column_major A). -/
def nestedMajor (lines : List (Nat × List (Nat × R))) (x : Seq R) (V : Acc σ Nat R) (s : σ) : M σ :=
  lines.foldlM (fun s q => q.2.foldlM (fun s p => do
    let y ← x.at_ p.1
    V.add s q.1 (p.2 * y)) s) s

/-- Nested iterators, result indexed by the inner index: operation.hpp:154-181 (column_major A * x), 372-399 (x * row_major A). -/
def nestedMinor (lines : List (Nat × List (Nat × R))) (x : Seq R) (V : Acc σ Nat R) (s : σ) : M σ :=
  lines.foldlM (fun s q => q.2.foldlM (fun s p => do
    let y ← x.at_ q.1
    V.add s p.1 (p.2 * y)) s) s

/-- Sparse `x`: `v.plus_assign (line (A, it.index ()) * *it)` for every element of `x`: operation.hpp:183-198, 401-416. -/
def sparseX (dbg : Bool) (mode : ProdFn.Mode) (sc : StorageCat) (T : VT σ R) (line : Nat → Seq R) (x : Seq R) (s : σ) : M σ :=
  x.els.foldlM (fun s p => VAssign.assign dbg mode sc T .plus (VExpr.const (Expr.unary (· * p.2) (line p.1))) s) s

/-- `axpy_prod (A, x, v, init)` for any matrix expression: operation.hpp:200-209, 237-259.  `ls`: the rows (columns) the outer iterators of a row_major
(column_major) `A` visit. -/
def matVec (dbg : Bool) (mode : ProdFn.Mode) (sc : StorageCat) (T : VT σ R) (o : Orient) (A : MSeq R) (ls : List Nat) (x : Seq R) (init : Bool) (s : σ) : M σ := do
  let s ← initVec dbg mode sc T init A.size1 s
  match x.cat, o with
  | .sparse, _ => sparseX dbg mode sc T A.col x s
  | _, .row => nestedMajor (MExp.byRows A ls).lines x T.acc s
  | _, .col => nestedMinor (MExp.byCols A ls).lines x T.acc s

/-- `axpy_prod (x, A, v, init)` for any matrix expression: operation.hpp:418-427, 455-477. -/
def vecMat (dbg : Bool) (mode : ProdFn.Mode) (sc : StorageCat) (T : VT σ R) (o : Orient) (A : MSeq R) (ls : List Nat) (x : Seq R) (init : Bool) (s : σ) : M σ := do
  let s ← initVec dbg mode sc T init A.size2 s
  match x.cat, o with
  | .sparse, _ => sparseX dbg mode sc T A.row x s
  | _, .col => nestedMajor (MExp.byCols A ls).lines x T.acc s
  | _, .row => nestedMinor (MExp.byRows A ls).lines x T.acc s

/-! ### Matrix times matrix

In (major, minor) terms both orientations compute `m (k, ·) += c (k, j) * line j`: for row_major `c` is the left operand and `line j` row `j` of the right one; for
column_major `c` is the right operand read by columns and `line j` column `j` of the left one. -/

/-- `if (init) m.assign (zero_matrix<value_type> (size1, size2));`: operation.hpp:652-653, 703-704, 813-814. -/
def initMat (dbg : Bool) (mode : ProdFn.Mode) (sc : StorageCat) (T : MT σ R) (init : Bool) (r c : Nat) (s : σ) : M σ :=
  if init then MAssign.assign dbg mode sc T .assign (MExp.zero r c) s else .ok s

/-- Dense (proxy) case: operation.hpp:489-515, 565-590.  The triangular restriction is ignored. -/
def denseMM (dbg : Bool) (mode : ProdFn.Mode) (T : MT σ R) (sizeM sizem : Nat) (coef : Nat → Nat → M R) (line : Nat → Seq R) (s : σ) : M σ :=
  loop (fun i s => loop (fun j s => do
    let t ← coef i j
    VAssign.assign dbg mode .denseProxy (T.line i) .plus (VExpr.const (Expr.unary (t * ·) (line j))) s) sizem s) sizeM s

/-- Sparse (proxy) case: operation.hpp:516-563, 591-638; `other`: `triangular_restriction::other`, by (major, minor). -/
def sparseMM (other : Nat → Nat → Bool) (lines : List (Nat × List (Nat × R))) (line : Nat → Seq R) (V : Acc σ (Nat × Nat) R) (s : σ) : M σ :=
  lines.foldlM (fun s q => q.2.foldlM (fun s p => (line p.1).els.foldlM (fun s r =>
    if other q.1 r.1 then V.add s (q.1, r.1) (p.2 * r.2) else .ok s) s) s) s

/-- `axpy_prod (A, B, m, TRI, init)` / `axpy_prod (A, B, m, init)`: operation.hpp:640-655, 693-706.  `o`: the orientation of `m`; `other`: the triangular
restriction by (row, column); `ls`: the lines the outer iterators of the coefficient operand visit. -/
def matMat (dbg : Bool) (mode : ProdFn.Mode) (sc : StorageCat) (T : MT σ R) (o : Orient) (other : Nat → Nat → Bool) (A B : MSeq R) (ls : List Nat) (init : Bool) (s : σ) : M σ := do
  let s ← initMat dbg mode sc T init (o.sizeM A.size1 B.size2) (o.sizem A.size1 B.size2) s
  match sc, o with
  | .dense, .row | .denseProxy, .row => denseMM dbg mode T A.size1 A.size2 A.at_ B.row s
  | .dense, .col | .denseProxy, .col => denseMM dbg mode T B.size2 B.size1 (fun j i => B.at_ i j) A.col s
  | _, .row => sparseMM other (MExp.byRows A ls).lines B.row T.acc s
  | _, .col => sparseMM (fun k l => other l k) (MExp.byCols B ls).lines A.col T.acc s

/-- `vector<value_type> c (e);` then as an operand: vector.hpp:126-133. -/
def tempSeq (dbg : Bool) (mode : ProdFn.Mode) (junk : Nat → R) (e : Seq R) : M (Seq R) := do
  let d ← VAssign.vectorFrom dbg mode junk e
  let els ← denseVecEls dbg d
  .ok ⟨d.length, .dense, els, rd dbg d⟩

/-- `outer_prod (ce1, re2)` as the right-hand side of an assignment to a matrix of orientation `o`; its outer iterators are those of `ce1` (rows) or `re2` (columns):
matrix_expression.hpp:413-466. -/
def outerExp (o : Orient) (ce1 re2 : Seq R) : MExp R :=
  match o with
  | .row => MExp.byRows (Expr.outer ce1 re2) (ce1.els.map (·.1))
  | .col => MExp.byCols (Expr.outer ce1 re2) (re2.els.map (·.1))

/-- `opb_prod (A, B, m, init)`, for a dense `m` (the only overloads): operation.hpp:718-773, 803-816. -/
def opb (dbg : Bool) (mode : ProdFn.Mode) (sc : StorageCat) (T : MT σ R) (o : Orient) (junk : Nat → R) (A B : MSeq R) (init : Bool) (s : σ) : M σ := do
  let s ← initMat dbg mode sc T init (o.sizeM A.size1 B.size2) (o.sizem A.size1 B.size2) s
  let size ← same dbg A.size2 B.size1
  loop (fun k s => do
    let ce1 ← tempSeq dbg mode junk (A.col k)
    let re2 ← tempSeq dbg mode junk (B.row k)
    MAssign.assign dbg mode sc T .plus (outerExp o ce1 re2) s) size s

end Axpy
end Ublas
