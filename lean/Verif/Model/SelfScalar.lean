import Verif.Model.ScalarAssign
/-!
# `v *= v (k)`, `m /= m (i, j)`: a scalar operand that is an element of the target

detail/vector_assign.hpp:101-178 and detail/matrix_assign.hpp:256-458 take the scalar as `const T &t` and pass it on as `type_traits<T>::const_reference` (functional.hpp:179-183), so
an element of the target is not copied: it is read again for every element that is updated.  (A proxy `v (k)` of a sparse vector, vector_sparse.hpp:157-160, looks the element up each
time it is converted, to the same effect.)  The functions are those of Model/ScalarAssign with the operand `t` read from the target's current state.
-/
namespace Ublas
variable {σ R : Type}
namespace VAssign

/-- `functor_type::apply (*it, t), ++ it`: vector_assign.hpp:111-112, 158-159, 168-169. -/
def scalarLoopRef (T : VT σ R) (F : R → R → R) (t : σ → M R) : List Nat → σ → M σ
  | [], s => .ok s
  | i :: l, s => do
    let x ← T.get s i
    let y ← t s
    let s ← T.put s i (F x y)
    scalarLoopRef T F t l s

/-- `iterating_vector_assign_scalar`: vector_assign.hpp:101-116. -/
def iteratingScalarRef (dbg : Bool) (T : VT σ R) (F : R → R → R) (t : σ → M R) (s : σ) : M σ := do
  let size := T.size s
  let it := T.its s
  check dbg (it.length = size) .badSize
  if it.length < size then .error .ub else scalarLoopRef T F t (it.take size) s

/-- `indexing_vector_assign_scalar`: vector_assign.hpp:117-131. -/
def indexingScalarRef (T : VT σ R) (F : R → R → R) (t : σ → M R) (s : σ) : M σ :=
  loop (fun i s => do
    let x ← T.get s i
    let y ← t s
    T.ref s i (F x y)) (T.size s) s

/-- `vector_assign_scalar` with the scalar `v (k)`: vector_assign.hpp:133-178. -/
def assignScalarRef (dbg : Bool) (mode : ProdFn.Mode) (sc : StorageCat) (T : VT σ R) (F : R → R → R) (k : Nat) (s : σ) : M σ :=
  let t := fun s => T.get s k
  match sc with
  | .dense | .denseProxy => match mode with
    | .indexing => indexingScalarRef T F t s
    | .iterating => iteratingScalarRef dbg T F t s
    | .threshold n => if n ≤ T.size s then iteratingScalarRef dbg T F t s else indexingScalarRef T F t s
  | .packed | .packedProxy | .sparse | .sparseProxy => scalarLoopRef T F t (T.its s) s

end VAssign

namespace MAssign

/-- matrix_assign.hpp:268-283, 295-310. -/
def iterScalarLinesRef (dbg : Bool) (T : MT σ R) (F : R → R → R) (t : σ → M R) (size2 : Nat) : List Nat → σ → M σ
  | [], s => .ok s
  | k :: ls, s => do
    check dbg ((T.its s k).length = size2) .badSize
    let s ← (if (T.its s k).length < size2 then .error .ub else VAssign.scalarLoopRef (T.line k) F t ((T.its s k).take size2) s : M σ)
    iterScalarLinesRef dbg T F t size2 ls s

/-- `iterating_matrix_assign_scalar`: matrix_assign.hpp:256-311. -/
def iteratingScalarRef (dbg : Bool) (T : MT σ R) (F : R → R → R) (t : σ → M R) (s : σ) : M σ := do
  let size1 := T.sizeM s
  let size2 := T.sizem s
  check dbg (size2 = 0 ∨ (T.lines s).length = size1) .badSize
  if size2 = 0 then .ok s
  else if (T.lines s).length < size1 then .error .ub
  else iterScalarLinesRef dbg T F t size2 ((T.lines s).take size1) s

/-- `indexing_matrix_assign_scalar`: matrix_assign.hpp:312-346. -/
def indexingScalarRef (T : MT σ R) (F : R → R → R) (t : σ → M R) (s : σ) : M σ :=
  loop (fun i s => loop (fun j s => do
    let x ← T.get s i j
    let y ← t s
    T.ref s i j (F x y)) (T.sizem s) s) (T.sizeM s) s

/-- matrix_assign.hpp:369-449. -/
def scalarLinesRef (T : MT σ R) (F : R → R → R) (t : σ → M R) : List Nat → σ → M σ
  | [], s => .ok s
  | k :: ls, s => do
    let s ← VAssign.scalarLoopRef (T.line k) F t (T.its s k) s
    scalarLinesRef T F t ls s

/-- `matrix_assign_scalar` with the scalar the element (a, b) (major, minor): matrix_assign.hpp:348-458. -/
def assignScalarRef (dbg : Bool) (mode : ProdFn.Mode) (sc : StorageCat) (T : MT σ R) (F : R → R → R) (a b : Nat) (s : σ) : M σ :=
  let t := fun s => T.get s a b
  match sc with
  | .dense | .denseProxy => match mode with
    | .indexing => indexingScalarRef T F t s
    | .iterating => iteratingScalarRef dbg T F t s
    | .threshold n => if n ≤ T.sizeM s ∧ n ≤ T.sizem s then iteratingScalarRef dbg T F t s else indexingScalarRef T F t s
  | .packed | .packedProxy | .sparse | .sparseProxy => scalarLinesRef T F t (T.lines s) s

end MAssign
end Ublas
