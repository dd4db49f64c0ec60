import Verif.Model.MatrixTargets
import Verif.Model.VectorTargets
import Verif.Model.Norms
/-!
# The self-checks of debug builds: BOOST_UBLAS_TYPE_CHECK

In debug builds BOOST_UBLAS_TYPE_CHECK is 1 (detail/config.hpp:221-224).  Every packed or sparse assignment then also computes its result a second time, element by element, in a
dense copy and compares (detail/vector_assign.hpp:297-301, 355-359, 377-381, 391-395, 407-411, 473-477; detail/matrix_assign.hpp:648-653, 795-798, 812-817, 960-963, 1060-1065,
1197-1200, 1215-1220, 1352-1355; the sparse matrix case, 965-1046, has no check).  `read` is the target's const element access
`v (i)` / `m (i, j)`.  `K` is the real type: the comparison's arithmetic is exact.
-/
namespace Ublas
variable {σ R K : Type}

/-- `type_abs` of the element type, BOOST_UBLAS_TYPE_CHECK_EPSILON and BOOST_UBLAS_TYPE_CHECK_MIN: detail/config.hpp:243-248. -/
structure TypeCheck (R K : Type) where
  abs : R → K
  eps : K
  minNorm : K

namespace TypeCheck
variable [Sub R] [Add K] [Mul K] [Zero K] [LT K] [DecidableLT K] [LE K] [DecidableLE K]

/-- `std::max (a, b)`. C++ standard library, not code of /repo. -/
def max' (a b : K) : K := if a < b then b else a

/-- A matrix of which only element access is used (`matrix_norm_inf`, functional.hpp:1367-1392, uses nothing else). -/
def byIndex (r c : Nat) (f : Nat → Nat → M R) : MSeq R := ⟨r, c, .dense, fun _ => [], fun _ => [], f⟩

/-- `norm_inf (m)` of a matrix given by (major, minor) indices: the largest row sum, so with column_major storage the sums run over the major index. functional.hpp:1367-1392. -/
def norm (tc : TypeCheck R K) : Orient → MSeq R → M K
  | .row, m => Norms.matNormInf tc.abs m
  | .col, m => Norms.matNorm1 tc.abs m

/-- `equals (e1, e2, epsilon, min_norm)`: detail/matrix_assign.hpp:30-35, called by `expression_type_check` (36-43). -/
def equalsM (tc : TypeCheck R K) (o : Orient) (r c : Nat) (f g : Nat → Nat → M R) : M Bool := do
  let d ← tc.norm o (byIndex r c fun k l => do
    let x ← f k l
    let y ← g k l
    .ok (x - y))
  let n1 ← tc.norm o (byIndex r c f)
  let n2 ← tc.norm o (byIndex r c g)
  .ok (decide (d ≤ tc.eps * max' (max' n1 n2) tc.minNorm))

/-- A vector by element access.  `norm_inf` of a vector expression is evaluated by its iterators unless it is dense; by C46 and C48 the value is the same, so the model indexes. vector_expression.hpp:1533-1565. -/
def vecByIndex (n : Nat) (f : Nat → M R) : Seq R := ⟨n, .dense, [], f⟩

/-- `equals (e1, e2, epsilon, min_norm)`: detail/vector_assign.hpp:30-35, called by `expression_type_check` (36-43). -/
def equalsV (tc : TypeCheck R K) (n : Nat) (f g : Nat → M R) : M Bool := do
  let d ← Norms.normInf tc.abs .indexing (vecByIndex n fun i => do
    let x ← f i
    let y ← g i
    .ok (x - y))
  let n1 ← Norms.normInf tc.abs .indexing (vecByIndex n f)
  let n2 ← Norms.normInf tc.abs .indexing (vecByIndex n g)
  .ok (decide (d ≤ tc.eps * max' (max' n1 n2) tc.minNorm))

end TypeCheck

namespace MAssign
variable [Add R] [Sub R] [Zero R] [DecidableEq R] [Add K] [Mul K] [Zero K] [LT K] [DecidableLT K] [LE K] [DecidableLE K]

/-- The dense copy `cm`, indexed by (major, minor): `matrix<value_type, row_major> cm (m.size1 (), m.size2 ())`; matrix_assign.hpp:650, 1062. -/
def copyOf (r c : Nat) : MT (List R) R := MT.view true r c fun k l => k * c + l

/-- `matrix_assign` in a debug build with the type check: the copies and comparisons at matrix_assign.hpp:648-653, 795-798 (packed) and 1060-1065, 1197-1200 (sparse proxy), around
the algorithms of `assign`.  `enabled` is `! disable_type_check<bool>::value`; `junk` is the fresh storage of `cm`. -/
def checked (tc : TypeCheck R K) (enabled : Bool) (read : σ → Nat → Nat → M R) (junk : List R) (o : Orient) (mode : ProdFn.Mode) (sc : StorageCat) (T : MT σ R) (F : AssignF)
    (e : MExp R) (s : σ) : M σ :=
  match massignTraits sc F.computed e.cat with
  | .dense | .denseProxy | .sparse => assign true mode sc T F e s
  | _ => do
    check true (T.sizeM s = e.sizeM) .badSize
    check true (T.sizem s = e.sizem) .badSize
    let r := T.sizeM s
    let c := T.sizem s
    let cm ← indexing true (copyOf r c) .assign ⟨r, c, .dense, [], read s⟩ junk
    let cm ← indexing true (copyOf r c) F e cm
    let s' ← assign true mode sc T F e s
    if enabled then do
      let b ← tc.equalsM o r c (read s') ((copyOf r c).get cm)
      check true (b = true) .externalLogic
      .ok s'
    else .ok s'

end MAssign

namespace VAssign
variable [Add R] [Sub R] [Zero R] [DecidableEq R] [Add K] [Mul K] [Zero K] [LT K] [DecidableLT K] [LE K] [DecidableLE K]

/-- `vector_assign` in a debug build with the type check, for an expression that does not read the target: the copies and comparisons at vector_assign.hpp:297-301, 355-359 (packed),
377-381, 391-395 (sparse) and 407-411, 473-477 (sparse proxy), around the algorithms of `assign`; `cv` is `vector<value_type> cv (v.size ())`. -/
def checked (tc : TypeCheck R K) (enabled : Bool) (read : σ → Nat → M R) (junk : List R) (mode : ProdFn.Mode) (sc : StorageCat) (T : VT σ R) (F : AssignF) (e : Seq R) (s : σ) : M σ :=
  match assignTraits sc F.computed e.cat with
  | .dense | .denseProxy => assign true mode sc T F (VExpr.const e) s
  | _ => do
    check true (T.size s = e.size) .badSize
    let n := T.size s
    let cv ← indexing true (VT.view true n id) .assign (VExpr.const ⟨n, .dense, [], read s⟩) junk
    let cv ← indexing true (VT.view true n id) F (VExpr.const e) cv
    let s' ← assign true mode sc T F (VExpr.const e) s
    if enabled then do
      let b ← tc.equalsV n (read s') ((VT.view true n id).get cv)
      check true (b = true) .externalLogic
      .ok s'
    else .ok s'

end VAssign
end Ublas
