import Verif.Model.TensorMul
import Verif.Model.TensorExpr
/-! # Products of tensors in Einstein notation: `A (_i, _j) * B (_j, _k)` -/
namespace Ublas.Tens
variable {R : Type}

/-- `A (i, is...)` with index objects: the tensor and its labels (`index_type<K>` is the number `K`; `_` is 0); tensor/tensor/tensor_dynamic.hpp:406-416. -/
def Tensor.label (t : Tensor R) (ls : List Nat) : M (Tensor R × List Nat) := if ls.length ≠ t.extents.length then .error .stdException else .ok (t, ls)

/-- `number_equal_indexes<tuple_left, tuple_right>::value`: tensor/multi_index_utility.hpp:134-154. -/
def numberEqual : List Nat → List Nat → Nat
  | [], _ => 0
  | l :: ls, rs => (if l ∈ rs ∧ l ≠ 0 then 1 else 0) + numberEqual ls rs

/-- `index_position<index_type, tuple_type>::value`: multi_index_utility.hpp:190-204, 223-227. -/
def indexPosition (l : Nat) : List Nat → Nat
  | [] => 0
  | x :: xs => if l = x then 0 else indexPosition l xs + 1

/-- `index_position_pairs (lhs, rhs)`: multi_index_utility.hpp:240-287, 306-315; `r` is the position in the left tuple. -/
def positionPairs (r : Nat) : List Nat → List Nat → List (Nat × Nat)
  | [], _ => []
  | l :: ls, rs => if l ∈ rs ∧ l ≠ 0 then (r, indexPosition l rs) :: positionPairs (r + 1) ls rs else positionPairs (r + 1) ls rs

/-- What the product is: an expression of element-wise type, a number, or a tensor. The result types of tensor/operators_arithmetic.hpp:457-506 (`if constexpr`). -/
inductive Ein (R : Type)
  | expr (x : TExp R)
  | scalar (v : R)
  | tensor (t : Tensor R)

/-- `operator* (std::pair<tensor, labels>, std::pair<tensor, labels>)`: tensor/operators_arithmetic.hpp:457-506. `dyn`: one of the ranks is dynamic; `La`, `Lb` the layouts of the operands
(the result of `prod` has the one of the left operand). -/
def einstein [Add R] [Mul R] (dyn : Bool) (zero : R) (La Lb : Layout) (a : Tensor R) (ia : List Nat) (b : Tensor R) (ib : List Nat) : M (Ein R) := do
  let (a, ia) ← a.label ia
  let (b, ib) ← b.label ib
  if numberEqual ia ib = 0 then do
    let x ← TExp.combine [] (· * ·) (.leaf La a) (.leaf Lb b)
    .ok (.expr x)
  else if numberEqual ia ib = ia.length ∧ ia = ib then do
    let v ← innerProd zero a b
    .ok (.scalar v)
  else do
    let ps := positionPairs 0 ia ib
    let t ← prodTensor dyn La zero a b (ps.map fun p => p.1 + 1) (ps.map fun p => p.2 + 1)
    .ok (.tensor t)

end Ublas.Tens
