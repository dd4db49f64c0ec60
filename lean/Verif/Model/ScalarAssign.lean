import Verif.Model.MatrixTargets
import Verif.Model.VectorTargets
/-!
# `v *= t`, `v /= t`, `m *= t`, `m /= t`: detail/vector_assign.hpp:100-178, detail/matrix_assign.hpp:256-458

`F` is the functor `scalar_multiplies_assign` (`t1 *= t2`) or `scalar_divides_assign` (`t1 /= t2`) with its second argument fixed: functional.hpp:263-320.
The row_major and column_major variants are transposes of each other: indices are (major, minor), as in Model/MatrixAssign.  Duff-device loops are not modelled.
-/
namespace Ublas
variable {σ R : Type}
namespace VAssign

/-- `functor_type::apply (*it, t), ++ it` over a range: vector_assign.hpp:110-111, 157-158, 168-169. -/
def scalarLoop (T : VT σ R) (F : R → R) : List Nat → σ → M σ
  | [], s => .ok s
  | i :: l, s => do
    let x ← T.get s i
    let s ← T.put s i (F x)
    scalarLoop T F l s

/-- `iterating_vector_assign_scalar`: vector_assign.hpp:101-115; advancing past the end is undefined. -/
def iteratingScalar (dbg : Bool) (T : VT σ R) (F : R → R) (s : σ) : M σ := do
  let size := T.size s
  let it := T.its s
  check dbg (it.length = size) .badSize
  if it.length < size then .error .ub else scalarLoop T F (it.take size) s

/-- `indexing_vector_assign_scalar`: vector_assign.hpp:116-130. -/
def indexingScalar (T : VT σ R) (F : R → R) (s : σ) : M σ :=
  loop (fun i s => do
    let x ← T.get s i
    T.ref s i (F x)) (T.size s) s

/-- `vector_assign_scalar`: vector_assign.hpp:132-178; dispatched on the storage category of the target. -/
def assignScalar (dbg : Bool) (mode : ProdFn.Mode) (sc : StorageCat) (T : VT σ R) (F : R → R) (s : σ) : M σ :=
  match sc with
  | .dense | .denseProxy => match mode with
    | .indexing => indexingScalar T F s
    | .iterating => iteratingScalar dbg T F s
    | .threshold n => if n ≤ T.size s then iteratingScalar dbg T F s else indexingScalar T F s
  | .packed | .packedProxy | .sparse | .sparseProxy => scalarLoop T F (T.its s) s

end VAssign

namespace MAssign

/-- `while (-- size1 >= 0) { it2 = it1.begin (); check; while (-- temp_size2 >= 0) … }`: matrix_assign.hpp:268-283, 295-310. -/
def iterScalarLines (dbg : Bool) (T : MT σ R) (F : R → R) (size2 : Nat) : List Nat → σ → M σ
  | [], s => .ok s
  | k :: ls, s => do
    check dbg ((T.its s k).length = size2) .badSize
    let s ← (if (T.its s k).length < size2 then .error .ub else VAssign.scalarLoop (T.line k) F ((T.its s k).take size2) s : M σ)
    iterScalarLines dbg T F size2 ls s

/-- `iterating_matrix_assign_scalar`: matrix_assign.hpp:256-311.  With no minor elements the `size1` rounds do nothing. -/
def iteratingScalar (dbg : Bool) (T : MT σ R) (F : R → R) (s : σ) : M σ := do
  let size1 := T.sizeM s
  let size2 := T.sizem s
  check dbg (size2 = 0 ∨ (T.lines s).length = size1) .badSize
  if size2 = 0 then .ok s
  else if (T.lines s).length < size1 then .error .ub
  else iterScalarLines dbg T F size2 ((T.lines s).take size1) s

/-- `indexing_matrix_assign_scalar`: matrix_assign.hpp:312-346. -/
def indexingScalar (T : MT σ R) (F : R → R) (s : σ) : M σ :=
  loop (fun i s => loop (fun j s => do
    let x ← T.get s i j
    T.ref s i j (F x)) (T.sizem s) s) (T.sizeM s) s

/-- The packed and sparse cases: every visited element of every visited line: matrix_assign.hpp:369-451. -/
def scalarLines (T : MT σ R) (F : R → R) : List Nat → σ → M σ
  | [], s => .ok s
  | k :: ls, s => do
    let s ← VAssign.scalarLoop (T.line k) F (T.its s k) s
    scalarLines T F ls s

/-- `matrix_assign_scalar`: matrix_assign.hpp:348-458. -/
def assignScalar (dbg : Bool) (mode : ProdFn.Mode) (sc : StorageCat) (T : MT σ R) (F : R → R) (s : σ) : M σ :=
  match sc with
  | .dense | .denseProxy => match mode with
    | .indexing => indexingScalar T F s
    | .iterating => iteratingScalar dbg T F s
    | .threshold n => if n ≤ T.sizeM s ∧ n ≤ T.sizem s then iteratingScalar dbg T F s else indexingScalar T F s
  | .packed | .packedProxy | .sparse | .sparseProxy => scalarLines T F (T.lines s) s

end MAssign
end Ublas
