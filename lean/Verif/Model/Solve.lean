import Verif.Model.Operation
import Verif.Model.PackedIter
import Verif.Model.VectorTargets
import Verif.Model.MatrixTargets
import Verif.Model.Expr
import Mathlib.Algebra.Field.Defs
/-!
# Triangular solvers: triangular.hpp:2030-2780, and triangular_adaptor as an operand (triangular.hpp:1048-1475)

The matrix operand is anything with element access and iterators (`MSeq`); `find1 (1, b, n)` … `find1 (1, e, n)` visits what the iterators of column `n` visit in `[b, e)`, and
likewise `find2` (the containers' iterators are modelled and proved separately: C11, C25, C49).  The right-hand side is any vector or matrix with element access
(`Acc`).  BOOST_UBLAS_SINGULAR_CHECK is not defined.
-/
namespace Ublas
variable {σ R : Type}

/-- `triangular_adaptor<const E, t> (e)` as an operand: element access triangular.hpp:1118-1128; `find1`, `find2` 1258-1265, 1274-1281; dereference 1347-1357 (and the
same for const_iterator2, 1693-1703); storage category 1082-1083 with traits.hpp:420-476. -/
def MSeq.triAdaptor [Zero R] [One R] (dbg : Bool) (t : Tri) (A : MSeq R) : MSeq R :=
  let deref (i j : Nat) (x : R) : R := if Packed.other t i j then x else if Packed.one t i j then 1 else 0
  ⟨A.size1, A.size2, if A.cat = .dense then .packed else A.cat,
   fun i => ((A.rowEls i).filter fun p => Packed.restrict2 .const t i 0 A.size1 A.size2 ≤ p.1 ∧ p.1 < Packed.restrict2 .const t i A.size2 A.size1 A.size2).map
     fun p => (p.1, deref i p.1 p.2),
   fun j => ((A.colEls j).filter fun p => Packed.restrict1 .const t 0 j A.size1 A.size2 ≤ p.1 ∧ p.1 < Packed.restrict1 .const t A.size1 j A.size1 A.size2).map
     fun p => (p.1, deref p.1 j p.2),
   fun i j => do
     check dbg (i < A.size1) .badIndex
     check dbg (j < A.size2) .badIndex
     if Packed.other t i j then A.at_ i j else if Packed.one t i j then .ok 1 else .ok 0⟩

namespace Solve
variable [Field R] [DecidableEq R]

/-- `x / d`.  Dividing by zero is undefined behaviour for the built-in integers and leaves the field for floating point; both count as a fault. `e2 () (n) /= e1 () (n, n)`, `e2 () (n) = t / e1 () (n, n)`: triangular.hpp:2052, 2078, 2106, 2134, 2166, 2194 and below. -/
def quot (x d : R) : M R := if d = 0 then .error .ub else .ok (x / d)

/-- `v (i) -= y`. `e2 () (m) -= …`: triangular.hpp:2055, 2084 and below. -/
def sub {ι : Type} (V : Acc σ ι R) (s : σ) (i : ι) (y : R) : M σ := do
  let x ← V.get s i
  V.set s i (x - y)

/-- `for (m = n + 1; m < size; ++ m) e2 (m) -= e1 (m, n) * t;` (triangular.hpp:2058-2059, 2134-2135, 2567-2568) or, for upper,
`for (m = n - 1; m >= 0; -- m) …` (2262-2263, 2681-2682). -/
def colDense (upper : Bool) (A : MSeq R) (V : Acc σ Nat R) (size n : Nat) (t : R) (s : σ) : M σ :=
  if upper then loop (fun k s => do
    let a ← A.at_ (n - 1 - k) n
    sub V s (n - 1 - k) (a * t)) n s
  else loop (fun k s => do
    let a ← A.at_ (n + 1 + k) n
    sub V s (n + 1 + k) (a * t)) (size - (n + 1)) s

/-- The same with the iterators `[find1 (1, n + 1, n), find1 (1, size1, n))` (triangular.hpp:2084-2089, 2109-2113, 2595-2600, 2624-2628) or, for upper, the reverse iterators
`find1 (1, n, n)` down to `find1 (1, 0, n)` (2288-2292, 2315-2319, 2709-2713, 2736-2740). -/
def colIter (upper : Bool) (A : MSeq R) (V : Acc σ Nat R) (size n : Nat) (t : R) (s : σ) : M σ :=
  if upper then (((A.colEls n).filter fun p => 0 ≤ p.1 ∧ p.1 < n).reverse).foldlM (fun s p => sub V s p.1 (p.2 * t)) s
  else ((A.colEls n).filter fun p => n + 1 ≤ p.1 ∧ p.1 < size).foldlM (fun s p => sub V s p.1 (p.2 * t)) s

/-- Row `n` at column step: `t = e2 (n) /= e1 (n, n); if (t != 0) { … }`: triangular.hpp:2050-2061 and the other column-oriented solvers. -/
def colStep (A : MSeq R) (V : Acc σ Nat R) (upd : Nat → R → σ → M σ) (n : Nat) (s : σ) : M σ := do
  let d ← A.at_ n n
  let x ← V.get s n
  let t ← quot x d
  let s ← V.set s n t
  if t ≠ 0 then upd n t s else .ok s

/-- Row `k` of the outer loop: `for (n = 0; n < size; ++ n)` or `for (n = size - 1; n >= 0; -- n)`. A client's loop; the iterator operations are cited at their definitions. -/
def ord (upper : Bool) (size k : Nat) : Nat := if upper then size - 1 - k else k

/-- `BOOST_UBLAS_CHECK (e1 () (n, n) != value_type (), singular ());`: triangular.hpp:2050 etc. -/
def checkDiag (dbg : Bool) (A : MSeq R) (n : Nat) : M Unit :=
  if dbg then do
    let d ← A.at_ n n
    check dbg (d ≠ 0) .singular
  else .ok ()

/-- The column-oriented solvers: triangular.hpp:2036-2062, 2064-2091, 2093-2117, 2119-2139 (lower), 2243-2267, 2269-2295, 2297-2323 (upper). -/
def colSolve (dbg : Bool) (upper : Bool) (A : MSeq R) (V : Acc σ Nat R) (upd : Nat → R → σ → M σ) (size : Nat) (s : σ) : M σ :=
  loop (fun k s => do
    let n := ord upper size k
    checkDiag dbg A n
    colStep A V upd n s) size s

/-- `for (m = n + 1; m < e1.size2 (); ++ m) t -= e1 (n, m) * e2 (m);`: triangular.hpp:2342-2344. -/
def rowDense (A : MSeq R) (V : Acc σ Nat R) (n : Nat) (t : R) (s : σ) : M R :=
  loop (fun k t => do
    let a ← A.at_ n (n + 1 + k)
    let x ← V.get s (n + 1 + k)
    .ok (t - a * x)) (A.size2 - (n + 1)) t

/-- `[find2 (1, n, 0), find2 (1, n, n))` (triangular.hpp:2163-2168, 2189-2194) or, for upper, `[find2 (1, n, n + 1), find2 (1, n, size2))` (2369-2374, 2397-2402). -/
def rowIter (upper : Bool) (A : MSeq R) (V : Acc σ Nat R) (n : Nat) (t : R) (s : σ) : M R :=
  (if upper then (A.rowEls n).filter fun p => n + 1 ≤ p.1 ∧ p.1 < A.size2 else (A.rowEls n).filter fun p => 0 ≤ p.1 ∧ p.1 < n).foldlM (fun t p => do
    let x ← V.get s p.1
    .ok (t - p.2 * x)) t

/-- The row-oriented solvers: triangular.hpp:2141-2171, 2173-2198 (lower), 2325-2348, 2350-2377, 2379-2406 (upper). -/
def rowSolve (dbg : Bool) (upper : Bool) (A : MSeq R) (V : Acc σ Nat R) (red : Nat → R → σ → M R) (size : Nat) (s : σ) : M σ :=
  loop (fun k s => do
    let n := ord upper size k
    checkDiag dbg A n
    let t ← V.get s n
    let t ← red n t s
    let d ← A.at_ n n
    let x ← quot t d
    V.set s n x) size s

/-- `inplace_solve (e1, e2, lower_tag / upper_tag, orientation_category (), storage_category ())`: triangular.hpp:2036-2214, 2243-2422; `size` is `e2 ().size ()`. -/
def vec (dbg : Bool) (upper : Bool) (o : Orient) (A : MSeq R) (V : Acc σ Nat R) (size : Nat) (s : σ) : M σ := do
  check dbg (A.size1 = A.size2) .badSize
  check dbg (A.size2 = size) .badSize
  match A.cat, upper, o with
  | .dense, false, _ => colSolve dbg false A V (colDense false A V size) size s
  | .dense, true, .col => colSolve dbg true A V (colDense true A V size) size s
  | .dense, true, .row => rowSolve dbg true A V (rowDense A V) A.size1 s
  | _, false, .col => colSolve dbg false A V (colIter false A V A.size1) size s
  | _, true, .col => colSolve dbg true A V (colIter true A V A.size1) size s
  | _, false, .row => rowSolve dbg false A V (rowIter false A V) size s
  | _, true, .row => rowSolve dbg true A V (rowIter true A V) A.size1 s

/-- What the unit tags wrap the matrix into: triangular.hpp:2229-2237, 2437-2445, 2481-2487, 2522-2528, 2641-2648, 2752-2759. -/
def wrap (dbg : Bool) (upper unit : Bool) (A : MSeq R) : MSeq R := if unit then A.triAdaptor dbg ⟨.unit, upper⟩ else A

/-- `inplace_solve (A, v, tag)` for lower_tag, unit_lower_tag, upper_tag, unit_upper_tag: triangular.hpp:2216-2237, 2424-2445. -/
def inplace (dbg : Bool) (upper unit : Bool) (o : Orient) (A : MSeq R) (V : Acc σ Nat R) (size : Nat) (s : σ) : M σ :=
  vec dbg upper o (wrap dbg upper unit A) V size s

/-- `inplace_solve (v, A, tag)`: triangular.hpp:2460-2528: the transposed matrix, the other triangle, the other orientation. -/
def inplaceLeft (dbg : Bool) (upper unit : Bool) (o : Orient) (A : MSeq R) (V : Acc σ Nat R) (size : Nat) (s : σ) : M σ :=
  vec dbg (!upper) o.transposed (Expr.mtrans id (wrap dbg upper unit A)) V size s

/-- Column `l` of the right-hand side. The loops over `l`: triangular.hpp:2563, 2592, 2623 and below. -/
def column (V : Acc σ (Nat × Nat) R) (l : Nat) : Acc σ Nat R := ⟨fun s m => V.get s (m, l), fun s m => V.set s (m, l)⟩

/-- `inplace_solve (A, B, tag)`: triangular.hpp:2553-2648, 2667-2759.  The storage category dispatched on is that of the unwrapped matrix. -/
def inplaceMat (dbg : Bool) (upper unit : Bool) (A : MSeq R) (V : Acc σ (Nat × Nat) R) (size1 size2 : Nat) (s : σ) : M σ := do
  let W := wrap dbg upper unit A
  check dbg (W.size1 = W.size2) .badSize
  check dbg (W.size2 = size1) .badSize
  loop (fun k s => do
    let n := ord upper size1 k
    checkDiag dbg W n
    loop (fun j s => do
      let l := ord upper size2 j
      let C := column V l
      colStep W C (if A.cat = .dense then colDense upper W C size1 else colIter upper W C W.size1) n s) size2 s) size1 s

/-- Element access of a dense matrix: matrix.hpp:219-236. -/
def _root_.Ublas.Dense.acc {R : Type} (dbg : Bool) (o : Orient) : Acc (Dense R) (Nat × Nat) R := ⟨fun m p => m.get dbg o p.1 p.2, fun m p => m.set dbg o p.1 p.2⟩

/-- Element access of a compressed matrix, reading `m (i, j)` and `m (i, j) = t` (matrix_sparse.hpp:3018-3076, 3098-3103). -/
def _root_.Ublas.CMat.acc {R : Type} [Zero R] (dbg : Bool) (o : Orient) (IB : Nat) (junk : CMat.Junk R) : Acc (CMat R) (Nat × Nat) R :=
  ⟨fun m p => m.get dbg o IB 0 p.1 p.2, fun m p t => m.modify dbg o IB 0 junk p.1 p.2 fun _ => t⟩

/-- `solve (A, b, tag)` into a `vector` (the result type of dense operands): triangular.hpp:2440-2449: `result_type r (e2); inplace_solve (e1, r, C ()); return r;`. -/
def solveVec (dbg : Bool) (mode : ProdFn.Mode) (junk : Nat → R) (upper unit : Bool) (o : Orient) (A : MSeq R) (e2 : Seq R) : M (List R) := do
  let r ← VAssign.vectorFrom dbg mode junk e2
  inplace dbg upper unit o A (VT.view dbg r.length id).acc r.length r

/-- `solve (b, A, tag)`: triangular.hpp:2523-2532. -/
def solveLeft (dbg : Bool) (mode : ProdFn.Mode) (junk : Nat → R) (upper unit : Bool) (o : Orient) (A : MSeq R) (e1 : Seq R) : M (List R) := do
  let r ← VAssign.vectorFrom dbg mode junk e1
  inplaceLeft dbg upper unit o A (VT.view dbg r.length id).acc r.length r

end Solve
end Ublas
