import Verif.Model.TypeCheck
import Verif.Model.Operation
/-!
# The self-checks of axpy_prod and opb_prod in debug builds

With BOOST_UBLAS_TYPE_CHECK (detail/config.hpp:221-224) the overloads of `axpy_prod` and `opb_prod` compute the result a second time, through `prod` and by indexing, in a dense copy
and compare: operation.hpp:77-86, 248-257, 320-329, 466-475, 499-513, 528-561, 574-588, 603-636, 729-743, 757-771.  (The overload for coordinate_matrix, 100-123, has no check.)
Here `TypeCheck.eps` is `std::numeric_limits<real_type>::epsilon ()`.  `T.get` is the target's const element access.  `axpy_prod` itself is Model/Operation in its debug version; the
checks of the assignments it performs inside are those of Model/TypeCheck (C96: no effect).
-/
namespace Ublas.Axpy
variable {σ R K : Type} [CommRing R] [DecidableEq R] [Add K] [Mul K] [Zero K] [LT K] [DecidableLT K] [LE K] [DecidableLE K]

/-- The dense copy before anything is stored in it. The copy `cv` / `cm` before it is filled: operation.hpp:77-86, 248-257. -/
def blank (junk : Nat → R) (n : Nat) : List R := (List.range n).map junk

/-- `vector<value_type> cv (v); verrorbound (norm_1 (v) + norm_1 (A) * norm_1 (x)); indexing_vector_assign<scalar_plus_assign> (cv, prod (…)); …;
BOOST_UBLAS_CHECK (norm_1 (v - cv) <= 2 * epsilon () * verrorbound, internal_logic ())`: operation.hpp:77-86, 248-257, 320-329, 466-475.  `pr`: the product as an expression (its
size and element access), `run`: the algorithm in between. -/
def guardVec (tc : TypeCheck R K) (mode : ProdFn.Mode) (T : VT σ R) (junk : Nat → R) (A : MSeq R) (x : Seq R) (size : Nat) (pr : Nat → M R) (run : σ → M σ) (s : σ) : M σ := do
  let n := T.size s
  let cv ← VAssign.indexing true (VT.view true n id) .assign (VExpr.const ⟨n, .dense, [], T.get s⟩) (blank junk n)
  let b0 ← Norms.norm1 tc.abs .indexing (TypeCheck.vecByIndex n (T.get s))
  let b1 ← Norms.matNorm1 tc.abs A
  let b2 ← Norms.norm1 tc.abs mode x
  let cv ← VAssign.indexing true (VT.view true n id) .plus (VExpr.const ⟨size, .dense, [], pr⟩) cv
  let s' ← run s
  let d ← Norms.norm1 tc.abs .indexing (TypeCheck.vecByIndex n fun i => do
    let x ← T.get s' i
    let y ← (VT.view true n id).get cv i
    .ok (x - y))
  check true (d ≤ (tc.eps + tc.eps) * (b0 + b1 * b2)) .internalLogic
  .ok s'

/-- `axpy_prod (compressed_matrix, x, v, init)` with the check: operation.hpp:65-88. -/
def compressedVecDbg (tc : TypeCheck R K) (mode : ProdFn.Mode) (sc : StorageCat) (T : VT σ R) (junk : Nat → R) (o : Orient) (A : CMat R) (x : Seq R) (init : Bool) (s : σ) : M σ := do
  let s ← initVec true mode sc T init A.size1 s
  let E := TypeCheck.byIndex A.size1 A.size2 (A.get true o 0 0)
  guardVec tc mode T junk E x A.size1 (ProdFn.mv1At true E x) (compressedVec true mode sc T o A x false) s

/-- `axpy_prod (x, compressed_matrix, v, init)` with the check: operation.hpp:308-331. -/
def vecCompressedDbg (tc : TypeCheck R K) (mode : ProdFn.Mode) (sc : StorageCat) (T : VT σ R) (junk : Nat → R) (o : Orient) (A : CMat R) (x : Seq R) (init : Bool) (s : σ) : M σ := do
  let s ← initVec true mode sc T init A.size2 s
  let E := TypeCheck.byIndex A.size1 A.size2 (A.get true o 0 0)
  guardVec tc mode T junk E x A.size2 (ProdFn.mv2At true x E) (vecCompressed true mode sc T o A x false) s

/-- `axpy_prod (A, x, v, init)` with the check: operation.hpp:237-259. -/
def matVecDbg (tc : TypeCheck R K) (mode : ProdFn.Mode) (sc : StorageCat) (T : VT σ R) (junk : Nat → R) (o : Orient) (A : MSeq R) (ls : List Nat) (x : Seq R) (init : Bool) (s : σ) : M σ := do
  let s ← initVec true mode sc T init A.size1 s
  guardVec tc mode T junk A x A.size1 (ProdFn.mv1At true A x) (matVec true mode sc T o A ls x false) s

/-- `axpy_prod (x, A, v, init)` with the check: operation.hpp:455-477. -/
def vecMatDbg (tc : TypeCheck R K) (mode : ProdFn.Mode) (sc : StorageCat) (T : VT σ R) (junk : Nat → R) (o : Orient) (A : MSeq R) (ls : List Nat) (x : Seq R) (init : Bool) (s : σ) : M σ := do
  let s ← initVec true mode sc T init A.size2 s
  guardVec tc mode T junk A x A.size2 (ProdFn.mv2At true x A) (vecMat true mode sc T o A ls x false) s

/-- `norm_1 (m)` (functional.hpp:1316-1341), the largest column sum, of a matrix given by (major, minor) indices: with column_major storage the sums run over the minor index. -/
def majorNorm1 (tc : TypeCheck R K) : Orient → MSeq R → M K
  | .row, m => Norms.matNorm1 tc.abs m
  | .col, m => Norms.matNormInf tc.abs m

/-- The matrix version, `cm` having the orientation `o` of `m`: operation.hpp:499-513, 528-561, 574-588, 603-636, 729-743, 757-771. -/
def guardMat (tc : TypeCheck R K) (T : MT σ R) (o : Orient) (junk : Nat → R) (A B : MSeq R) (run : σ → M σ) (s : σ) : M σ := do
  let r := T.sizeM s
  let c := T.sizem s
  let cm ← MAssign.indexing true (MAssign.copyOf r c) .assign ⟨r, c, .dense, [], T.get s⟩ (blank junk (r * c))
  let b0 ← majorNorm1 tc o (TypeCheck.byIndex r c (T.get s))
  let b1 ← Norms.matNorm1 tc.abs A
  let b2 ← Norms.matNorm1 tc.abs B
  let cm ← MAssign.indexing true (MAssign.copyOf r c) .plus
    ⟨o.sizeM A.size1 B.size2, o.sizem A.size1 B.size2, .dense, [], fun k l => ProdFn.mmAt true A B (o.indexM k l) (o.indexm k l)⟩ cm
  let s' ← run s
  let d ← majorNorm1 tc o (TypeCheck.byIndex r c fun k l => do
    let x ← T.get s' k l
    let y ← (MAssign.copyOf r c).get cm k l
    .ok (x - y))
  check true (d ≤ (tc.eps + tc.eps) * (b0 + b1 * b2)) .internalLogic
  .ok s'

/-- `axpy_prod (A, B, m[, TRI], init)` with the check: operation.hpp:640-655, 693-706 over 489-638. -/
def matMatDbg (tc : TypeCheck R K) (mode : ProdFn.Mode) (sc : StorageCat) (T : MT σ R) (junk : Nat → R) (o : Orient) (other : Nat → Nat → Bool) (A B : MSeq R) (ls : List Nat) (init : Bool)
    (s : σ) : M σ := do
  let s ← initMat true mode sc T init (o.sizeM A.size1 B.size2) (o.sizem A.size1 B.size2) s
  guardMat tc T o junk A B (matMat true mode sc T o other A B ls false) s

/-- `opb_prod (A, B, m, init)` with the check: operation.hpp:718-773, 803-816. -/
def opbDbg (tc : TypeCheck R K) (mode : ProdFn.Mode) (sc : StorageCat) (T : MT σ R) (o : Orient) (junk : Nat → R) (A B : MSeq R) (init : Bool) (s : σ) : M σ := do
  let s ← initMat true mode sc T init (o.sizeM A.size1 B.size2) (o.sizem A.size1 B.size2) s
  guardMat tc T o junk A B (opb true mode sc T o junk A B false) s

end Ublas.Axpy
