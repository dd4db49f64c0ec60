import Verif.Model.Prod
/-!
# Reductions of vectors and matrices: functional.hpp:331-684, 1308-1392, vector_expression.hpp:1533-1565

`abs` is `type_traits<T>::type_abs`, to which `norm_1`, `norm_2` and `norm_inf` of an element all reduce (traits.hpp:195-219, 312-336); `K` is the real type.  The final square
root of `norm_2` and `norm_frobenius` is a parameter.
-/
namespace Ublas.Norms
variable {R K T : Type}

/-- Whether the dense case indexes: vector_expression.hpp:1540-1552. -/
def indexed (mode : ProdFn.Mode) (size : Nat) : Bool :=
  match mode with
  | .indexing => true
  | .iterating => false
  | .threshold n => size < n

/-- `evaluate`: vector_expression.hpp:1540-1565.  One step of the functor's loop gets the index and the value of an element.  Indexing: `for (i = 0; i < size; ++ i)`; dense
iterating: `while (-- size >= 0) … ++ it`; packed and sparse: `while (it != it_end) … ++ it`. -/
def evaluate (mode : ProdFn.Mode) (s : Seq R) (step : T → Nat × R → M T) (init : T) : M T :=
  if s.cat = .dense then
    if indexed mode s.size then loop (fun i t => do
      let x ← s.at_ i
      step t (i, x)) s.size init
    else loop (fun i t => match s.els[i]? with
      | some p => step t p
      | none => .error .ub) s.size init
  else s.els.foldlM step init

/-- `vector_sum`: functional.hpp:338-372. -/
def sum [Add R] [Zero R] (mode : ProdFn.Mode) (s : Seq R) : M R := evaluate mode s (fun t p => .ok (t + p.2)) 0

variable [Add K] [Mul K] [Zero K] [LT K] [DecidableLT K] (abs : R → K)

/-- `vector_norm_1`: functional.hpp:382-425. -/
def norm1 (mode : ProdFn.Mode) (s : Seq R) : M K := evaluate mode s (fun t p => .ok (t + abs p.2)) 0

/-- `vector_norm_2_square`: functional.hpp:525-568. -/
def norm2Square (mode : ProdFn.Mode) (s : Seq R) : M K := evaluate mode s (fun t p => .ok (t + abs p.2 * abs p.2)) 0

/-- `vector_norm_2` without BOOST_UBLAS_SCALED_NORM: functional.hpp:426-444, 463-474, 493-504. -/
def norm2 (sqrt : K → K) (mode : ProdFn.Mode) (s : Seq R) : M K := do
  let t ← evaluate mode s (fun t p => .ok (t + abs p.2 * abs p.2)) 0
  .ok (sqrt t)

/-- `vector_norm_inf`: functional.hpp:570-616. -/
def normInf (mode : ProdFn.Mode) (s : Seq R) : M K := evaluate mode s (fun t p => .ok (if abs p.2 > t then abs p.2 else t)) 0

/-- `vector_index_norm_inf`: functional.hpp:626-684; the state is `(i_norm_inf, t)`. -/
def indexNormInf (mode : ProdFn.Mode) (s : Seq R) : M Nat := do
  let r ← evaluate mode s (fun t p => .ok (if abs p.2 > t.2 then (p.1, abs p.2) else t)) ((0, 0) : Nat × K)
  .ok r.1

/-- `matrix_norm_1`: functional.hpp:1316-1341. -/
def matNorm1 (m : MSeq R) : M K :=
  loop (fun j t => do
    let u ← loop (fun i u => do
      let x ← m.at_ i j
      .ok (u + abs x)) m.size1 0
    .ok (if u > t then u else t)) m.size2 0

/-- `matrix_norm_inf`: functional.hpp:1367-1392. -/
def matNormInf (m : MSeq R) : M K :=
  loop (fun i t => do
    let u ← loop (fun j u => do
      let x ← m.at_ i j
      .ok (u + abs x)) m.size2 0
    .ok (if u > t then u else t)) m.size1 0

/-- `matrix_norm_frobenius`: functional.hpp:1343-1365. -/
def matFrobenius (sqrt : K → K) (m : MSeq R) : M K := do
  let t ← loop (fun i t => loop (fun j t => do
    let x ← m.at_ i j
    .ok (t + abs x * abs x)) m.size2 t) m.size1 0
  .ok (sqrt t)

/-! ## BOOST_UBLAS_SCALED_NORM -/
variable [Div K] [One K] [DecidableEq K]

/-- `a / b`; dividing by zero leaves the real numbers (0/0 is NaN in floating point). The element type's division; used at functional.hpp:427-522 (vector_norm_2). -/
def quot (a b : K) : M K := if b = 0 then .error .ub else .ok (a / b)

/-- The common step on `(scale, sum_squares)`: functional.hpp:451-458, 480-487, 510-517. -/
def scaledStep (st : K × K) (u : K) : M (K × K) :=
  if st.1 < u then do
    let v ← quot st.1 u
    .ok (u, st.2 * v * v + 1)
  else do
    let v ← quot u st.1
    .ok (st.1, st.2 + v * v)

/-- `vector_norm_2` with BOOST_UBLAS_SCALED_NORM: functional.hpp:446-460 (indexing, which skips zeros: 450), 476-490 and 506-520 (iterators, which do not). -/
def scaledNorm2 (sqrt : K → K) (mode : ProdFn.Mode) (s : Seq R) : M K := do
  let st ← evaluate mode s (fun st p => if s.cat = .dense ∧ indexed mode s.size = true ∧ 0 = abs p.2 then .ok st else scaledStep st (abs p.2)) ((0, 1) : K × K)
  .ok (st.1 * sqrt st.2)

end Ublas.Norms
