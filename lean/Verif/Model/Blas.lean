import Verif.Model.Blocked
import Verif.Model.Solve
import Verif.Model.Norms
import Verif.Model.ScalarAssign
/-!
# blas.hpp

The targets are dense (`vector<T>`, `matrix<T, L>`), the other operands arbitrary expressions given by what they present (computed from the contents before the call, so
that operands which read the target are covered wherever the code builds a temporary).  `cj` is `type_traits<T>::conj`.  `swap` (blas.hpp:102-106) is in
Model/BlasSwap.lean. Symmetric or hermitian targets of the rank updates are not modelled.
-/
namespace Ublas
variable {R : Type}

namespace Expr

/-- `matrix_binary` (`+`, `-`, …): matrix_expression.hpp:2011-2680: rows and columns merge those of the operands (`binEls`; lazily: the elements of a line are
only looked at when it is traversed; a traversal that fails is shown as an empty line, which no theorem uses). -/
def mbinary [Zero R] (dbg : Bool) (f : R → R → R) (a b : MSeq R) : M (MSeq R) := do
  let r ← same dbg a.size1 b.size1
  let c ← same dbg a.size2 b.size2
  .ok ⟨r, c, a.cat.restrict b.cat, fun i => (binEls f (a.row i) (b.row i) c).toOption.getD [], fun j => (binEls f (a.col j) (b.col j) r).toOption.getD [], fun i j => do
    let x ← a.at_ i j
    let y ← b.at_ i j
    .ok (f x y)⟩

/-- `vector_binary` (vector_expression.hpp:575-600, 633-1000) as `Expr.binary`, lazily: what the iterators would visit is only looked at when the expression is iterated (a traversal that fails is shown as empty, which no
theorem uses). -/
def vbinary [Zero R] (dbg : Bool) (f : R → R → R) (a b : Seq R) : M (Seq R) := do
  let n ← same dbg a.size b.size
  .ok ⟨n, a.cat.restrict b.cat, (binEls f a b n).toOption.getD [], fun i => do
    let x ← a.at_ i
    let y ← b.at_ i
    .ok (f x y)⟩

/-- `prod (A, x)` of any operands: the iterators visit the rows `ls` that the outer iterators of `A` visit (matrix_expression.hpp:4064-4078, 4095-4175). -/
def prodV [Semiring R] (dbg : Bool) (mode : ProdFn.Mode) (A : MSeq R) (ls : List Nat) (x : Seq R) : Seq R :=
  ⟨A.size1, A.cat.restrict x.cat, (ls.mapM fun i => (do
    let t ← ProdFn.mv1It dbg mode A x i
    .ok (i, t) : M (Nat × R))).toOption.getD [], ProdFn.mv1At dbg A x⟩

/-- `prod (A, B)` of any operands: the iterators visit the rows `lsA` of `A` and the columns `lsB` of `B` (matrix_expression.hpp:4883-4895, 4918-4950, 4960-5320). -/
def prodM [Semiring R] (dbg : Bool) (mode : ProdFn.Mode) (A B : MSeq R) (lsA lsB : List Nat) : MSeq R :=
  ⟨A.size1, B.size2, A.cat.restrict B.cat,
    fun i => (lsB.mapM fun j => (do
      let t ← ProdFn.mmIt dbg mode A B i j
      .ok (j, t) : M (Nat × R))).toOption.getD [],
    fun j => (lsA.mapM fun i => (do
      let t ← ProdFn.mmIt dbg mode A B i j
      .ok (i, t) : M (Nat × R))).toOption.getD [],
    ProdFn.mmAt dbg A B⟩

end Expr

namespace Blas
open VAssign

/-! ## blas_1 -/
section one
variable {K : Type} [Add K] [Mul K] [Zero K] [LT K] [DecidableLT K]

/-- `asum`: blas.hpp:32-36. -/
def asum (abs : R → K) (mode : ProdFn.Mode) (v : Seq R) : M K := Norms.norm1 abs mode v
/-- `nrm2`: blas.hpp:45-49. -/
def nrm2 (abs : R → K) (sqrt : K → K) (mode : ProdFn.Mode) (v : Seq R) : M K := Norms.norm2 abs sqrt mode v
/-- `amax`: blas.hpp:58-62. -/
def amax (abs : R → K) (mode : ProdFn.Mode) (v : Seq R) : M K := Norms.normInf abs mode v
end one

/-- `dot`: blas.hpp:73-77. -/
def dot [Semiring R] (dbg : Bool) (mode : ProdFn.Mode) (v1 v2 : Seq R) : M R := ProdFn.inner dbg mode v1 v2

variable [CommRing R] [DecidableEq R]

/-- `copy`: `v1.assign (v2)`: blas.hpp:88-92. -/
def copy (dbg : Bool) (mode : ProdFn.Mode) (v2 : Seq R) (v1 : List R) : M (List R) := noaliasExpr dbg mode (VExpr.const v2) v1

/-- `scal`: `v *= t`: blas.hpp:117-121. -/
def scal (dbg : Bool) (mode : ProdFn.Mode) (t : R) (v : List R) : M (List R) := assignScalar dbg mode .dense (VT.view dbg v.length id) (· * t) v

/-- `axpy`: `v1.plus_assign (t * v2)`: blas.hpp:134-138. -/
def axpy (dbg : Bool) (mode : ProdFn.Mode) (t : R) (v2 : Seq R) (v1 : List R) : M (List R) :=
  assign dbg mode .dense (VT.view dbg v1.length id) .plus (VExpr.const (Expr.unary (t * ·) v2)) v1

/-- `axpy (v, t, v)`: the operand is the target. blas.hpp:135-138 called with the same vector twice. -/
def axpySelf (dbg : Bool) (mode : ProdFn.Mode) (t : R) (v : List R) : M (List R) :=
  assign dbg mode .dense (VT.view dbg v.length id) .plus (VExpr.elementwise dbg .dense v.length fun _ x => t * x) v

/-- `- t2 * v1 + t1 * v2` as the right-hand side of `v2.assign`: `v2` is the target and read when an element is evaluated (vector_expression.hpp:575-600, 1036-1050). -/
def rotExpr (dbg : Bool) (n : Nat) (t1 t2 : R) (v1 : List R) : VExpr (List R) R :=
  let el (i : Nat) (s : List R) : M R := do
    let x ← rd dbg v1 i
    let y ← rd dbg s i
    .ok (- t2 * x + t1 * y)
  ⟨n, .dense, fun _ => (List.range n).map fun i => (i, el i), el⟩

/-- `rot` on dense vectors: blas.hpp:157-164.  Returns (v1, v2). -/
def rot (dbg : Bool) (mode : ProdFn.Mode) (junk : Nat → R) (t1 t2 : R) (v1 v2 : List R) : M (List R × List R) := do
  let a ← denseSeq dbg v1
  let b ← denseSeq dbg v2
  let q ← Expr.binary dbg (· + ·) (Expr.unary (t1 * ·) a) (Expr.unary (t2 * ·) b)
  let vt ← vectorFrom dbg mode junk q
  let n ← same dbg v1.length v2.length
  let v2 ← noaliasExpr dbg mode (rotExpr dbg n t1 t2 v1) v2
  let c ← denseSeq dbg vt
  let v1 ← noaliasExpr dbg mode (VExpr.const c) v1
  .ok (v1, v2)

/-- A compressed_vector as an operand: vector_sparse.hpp:1195-1230. -/
def compressedSeq (dbg : Bool) (IB : Nat) (v : CVec R) : M (Seq R) := do
  let els ← v.traverseFrom dbg IB 0
  .ok ⟨v.size, .sparse, els, v.get dbg IB 0⟩

/-- `- t2 * v1 + t1 * v2` for compressed vectors, `v2` being the target: `begin ()` merges the elements stored when it is called. The right-hand sides of blas.hpp:158-165; vector_expression.hpp:693-880 (merge). -/
def rotExprCompressed (dbg : Bool) (IB n : Nat) (t1 t2 : R) (v1 : CVec R) : VExpr (CVec R) R :=
  let el (i : Nat) (s : CVec R) : M R := do
    let x ← v1.get dbg IB 0 i
    let y ← s.get dbg IB 0 i
    .ok (- t2 * x + t1 * y)
  ⟨n, .sparse, fun s => ((do
    let a ← compressedSeq dbg IB v1
    let b ← compressedSeq dbg IB s
    Expr.binEls (· + ·) a b n : M (List (Nat × R))).toOption.getD []).map fun p => (p.1, el p.1), el⟩

/-- `rot` on compressed vectors: blas.hpp:157-164; `vt` is still a dense vector. -/
def rotCompressed (dbg : Bool) (mode : ProdFn.Mode) (IB : Nat) (junk : Nat → R) (cjunk : CVec.Junk R) (t1 t2 : R) (v1 v2 : CVec R) : M (CVec R × CVec R) := do
  let a ← compressedSeq dbg IB v1
  let b ← compressedSeq dbg IB v2
  let q ← Expr.binary dbg (· + ·) (Expr.unary (t1 * ·) a) (Expr.unary (t2 * ·) b)
  let vt ← vectorFrom dbg mode junk q
  let n ← same dbg v1.size v2.size
  let v2 ← noaliasCompressed dbg mode IB cjunk (rotExprCompressed dbg IB n t1 t2 v1) v2
  let c ← denseSeq dbg vt
  let v1 ← noaliasCompressed dbg mode IB cjunk (VExpr.const c) v1
  .ok (v1, v2)

/-! ## blas_2 -/

/-- `tmv`: `v = prod (m, v)`: blas.hpp:184-188. -/
def tmv (dbg : Bool) (mode : ProdFn.Mode) (junk : Nat → R) (A : MSeq R) (ls : List Nat) (v : List R) : M (List R) := do
  let x ← denseSeq dbg v
  vectorFrom dbg mode junk (Expr.prodV dbg mode A ls x)

/-- `gmv`: `v1 = t1 * v1 + t2 * prod (m, v2)`: blas.hpp:222-226. -/
def gmv (dbg : Bool) (mode : ProdFn.Mode) (junk : Nat → R) (t1 t2 : R) (A : MSeq R) (ls : List Nat) (v2 : Seq R) (v1 : List R) : M (List R) := do
  let a ← denseSeq dbg v1
  let q ← Expr.vbinary dbg (· + ·) (Expr.unary (t1 * ·) a) (Expr.unary (t2 * ·) (Expr.prodV dbg mode A ls v2))
  vectorFrom dbg mode junk q

/-- `m = e` (matrix.hpp:350-355): a temporary, then `assign_temporary`.  `ls`: the lines the outer iterators of `e` along `o` visit. -/
def assignM (dbg : Bool) (mode : ProdFn.Mode) (junk : Nat → R) (o : Orient) (e : MSeq R) (ls : List Nat) : M (Dense R) := Blocked.tempMat dbg mode junk o e ls

/-- `m += e` (matrix.hpp:362-367): `self_type temporary (*this + ae)`; the dense matrix makes the outer iterators of the sum visit every line. -/
def plusAssignM (dbg : Bool) (mode : ProdFn.Mode) (junk : Nat → R) (o : Orient) (e : MSeq R) (m : Dense R) : M (Dense R) := do
  let q ← Expr.mbinary dbg (· + ·) (m.toMSeq dbg o) e
  Blocked.tempMat dbg mode junk o q (List.range (o.sizeM m.size1 m.size2))

/-- `gr`: `m += t * outer_prod (v1, v2)`: blas.hpp:241-249. -/
def gr (dbg : Bool) (mode : ProdFn.Mode) (junk : Nat → R) (o : Orient) (t : R) (v1 v2 : Seq R) (m : Dense R) : M (Dense R) :=
  plusAssignM dbg mode junk o (Expr.munary (t * ·) (Expr.outer v1 v2)) m

/-- `sr`: `m += t * outer_prod (v, v)`: blas.hpp:262-270. -/
def sr (dbg : Bool) (mode : ProdFn.Mode) (junk : Nat → R) (o : Orient) (t : R) (v : Seq R) (m : Dense R) : M (Dense R) :=
  plusAssignM dbg mode junk o (Expr.munary (t * ·) (Expr.outer v v)) m

/-- `hr`: `m += t * outer_prod (v, conj (v))`: blas.hpp:283-291. -/
def hr (dbg : Bool) (mode : ProdFn.Mode) (junk : Nat → R) (o : Orient) (cj : R → R) (t : R) (v : Seq R) (m : Dense R) : M (Dense R) :=
  plusAssignM dbg mode junk o (Expr.munary (t * ·) (Expr.outer v (Expr.unary cj v))) m

/-- `sr2`: `m += t * (outer_prod (v1, v2) + outer_prod (v2, v1))`: blas.hpp:306-314. -/
def sr2 (dbg : Bool) (mode : ProdFn.Mode) (junk : Nat → R) (o : Orient) (t : R) (v1 v2 : Seq R) (m : Dense R) : M (Dense R) := do
  let s ← Expr.mbinary dbg (· + ·) (Expr.outer v1 v2) (Expr.outer v2 v1)
  plusAssignM dbg mode junk o (Expr.munary (t * ·) s) m

/-- `hr2`: `m += t * outer_prod (v1, conj (v2)) + conj (t) * outer_prod (v2, conj (v1))`: blas.hpp:329-337. -/
def hr2 (dbg : Bool) (mode : ProdFn.Mode) (junk : Nat → R) (o : Orient) (cj : R → R) (t : R) (v1 v2 : Seq R) (m : Dense R) : M (Dense R) := do
  let s ← Expr.mbinary dbg (· + ·) (Expr.munary (t * ·) (Expr.outer v1 (Expr.unary cj v2))) (Expr.munary (cj t * ·) (Expr.outer v2 (Expr.unary cj v1)))
  plusAssignM dbg mode junk o s m

/-! ## blas_3 -/

/-- `tmm`: `m1 = t * prod (m2, m3)`: blas.hpp:362-366.  Along `o` the outer iterators are those of `m2` (rows) or `m3` (columns). -/
def tmm (dbg : Bool) (mode : ProdFn.Mode) (junk : Nat → R) (o : Orient) (t : R) (A B : MSeq R) (lsA lsB : List Nat) : M (Dense R) :=
  assignM dbg mode junk o (Expr.munary (t * ·) (Expr.prodM dbg mode A B lsA lsB)) (match o with | .row => lsA | .col => lsB)

/-- `m1 = t1 * m1 + e` for a dense `m1`: the outer iterators of the sum visit every line. The right-hand sides of blas.hpp:403-450; matrix_expression.hpp:2011-2680. -/
def scaledPlus (dbg : Bool) (mode : ProdFn.Mode) (junk : Nat → R) (o : Orient) (t1 : R) (e : MSeq R) (m1 : Dense R) : M (Dense R) := do
  let q ← Expr.mbinary dbg (· + ·) (Expr.munary (t1 * ·) (m1.toMSeq dbg o)) e
  assignM dbg mode junk o q (List.range (o.sizeM m1.size1 m1.size2))

/-- `gmm`: `m1 = t1 * m1 + t2 * prod (m2, m3)`: blas.hpp:402-406. -/
def gmm (dbg : Bool) (mode : ProdFn.Mode) (junk : Nat → R) (o : Orient) (t1 t2 : R) (A B : MSeq R) (lsA lsB : List Nat) (m1 : Dense R) : M (Dense R) :=
  scaledPlus dbg mode junk o t1 (Expr.munary (t2 * ·) (Expr.prodM dbg mode A B lsA lsB)) m1

/-- `srk`: `m1 = t1 * m1 + t2 * prod (m2, trans (m2))`: blas.hpp:422-426.  The columns of `trans (m2)` are the rows of `m2`. -/
def srk (dbg : Bool) (mode : ProdFn.Mode) (junk : Nat → R) (o : Orient) (t1 t2 : R) (A : MSeq R) (ls : List Nat) (m1 : Dense R) : M (Dense R) :=
  scaledPlus dbg mode junk o t1 (Expr.munary (t2 * ·) (Expr.prodM dbg mode A (Expr.mtrans id A) ls ls)) m1

/-- `hrk`: `m1 = t1 * m1 + t2 * prod (m2, herm (m2))`: blas.hpp:442-446. -/
def hrk (dbg : Bool) (mode : ProdFn.Mode) (junk : Nat → R) (o : Orient) (cj : R → R) (t1 t2 : R) (A : MSeq R) (ls : List Nat) (m1 : Dense R) : M (Dense R) :=
  scaledPlus dbg mode junk o t1 (Expr.munary (t2 * ·) (Expr.prodM dbg mode A (Expr.mtrans cj A) ls ls)) m1

/-- `sr2k`: `m1 = t1 * m1 + t2 * (prod (m2, trans (m3)) + prod (m3, trans (m2)))`: blas.hpp:464-468. -/
def sr2k (dbg : Bool) (mode : ProdFn.Mode) (junk : Nat → R) (o : Orient) (t1 t2 : R) (A B : MSeq R) (lsA lsB : List Nat) (m1 : Dense R) : M (Dense R) := do
  let s ← Expr.mbinary dbg (· + ·) (Expr.prodM dbg mode A (Expr.mtrans id B) lsA lsB) (Expr.prodM dbg mode B (Expr.mtrans id A) lsB lsA)
  scaledPlus dbg mode junk o t1 (Expr.munary (t2 * ·) s) m1

/-- `hr2k`: `m1 = t1 * m1 + t2 * prod (m2, herm (m3)) + conj (t2) * prod (m3, herm (m2))`: blas.hpp:486-493 (the sums associate to the left). -/
def hr2k (dbg : Bool) (mode : ProdFn.Mode) (junk : Nat → R) (o : Orient) (cj : R → R) (t1 t2 : R) (A B : MSeq R) (lsA lsB : List Nat) (m1 : Dense R) : M (Dense R) := do
  let s ← Expr.mbinary dbg (· + ·) (Expr.munary (t1 * ·) (m1.toMSeq dbg o)) (Expr.munary (t2 * ·) (Expr.prodM dbg mode A (Expr.mtrans cj B) lsA lsB))
  let q ← Expr.mbinary dbg (· + ·) s (Expr.munary (cj t2 * ·) (Expr.prodM dbg mode B (Expr.mtrans cj A) lsB lsA))
  assignM dbg mode junk o q (List.range (o.sizeM m1.size1 m1.size2))

end Blas

namespace Blas
variable [Field R] [DecidableEq R]

/-- `tsv`: `v = solve (m, v, C ())`: blas.hpp:201-205. -/
def tsv (dbg : Bool) (mode : ProdFn.Mode) (junk : Nat → R) (upper unit : Bool) (o : Orient) (A : MSeq R) (v : List R) : M (List R) := do
  let x ← VAssign.denseSeq dbg v
  Solve.solveVec dbg mode junk upper unit o A x

/-- `solve (A, B, tag)`: triangular.hpp:2762-2771: a row_major `matrix` built from `B`, then `inplace_solve`.  `ls`: the rows the outer iterators of `B` visit. -/
def solveMat (dbg : Bool) (mode : ProdFn.Mode) (junk : Nat → R) (upper unit : Bool) (A B : MSeq R) (ls : List Nat) : M (Dense R) := do
  let r ← Blocked.tempMat dbg mode junk .row B ls
  Solve.inplaceMat dbg upper unit A (Dense.acc dbg .row) r.size1 r.size2 r

/-- `tsm`: `m1 = solve (m2, t * m1, C ())`: blas.hpp:381-385.  The outer (row) iterators of the dense `m1` visit every row. -/
def tsm (dbg : Bool) (mode : ProdFn.Mode) (junk : Nat → R) (upper unit : Bool) (o : Orient) (t : R) (A : MSeq R) (m1 : Dense R) : M (Dense R) := do
  let r ← solveMat dbg mode junk upper unit A (Expr.munary (t * ·) (m1.toMSeq dbg o)) (List.range m1.size1)
  match o with
  | .row => .ok r
  | .col => Blocked.tempMat dbg mode junk .col (r.toMSeq dbg .row) (List.range r.size2)

end Blas
end Ublas
