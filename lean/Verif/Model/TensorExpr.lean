import Verif.Model.Tensor
import Mathlib.Order.Defs.LinearOrder
/-! # Tensor expressions, their evaluation, and comparison of tensors -/
namespace Ublas.Tens
variable {R : Type}

/-- A tensor expression: a tensor, `unary_tensor_expression`, `binary_tensor_expression`; tensor/expression.hpp:55-85, 128-155.
A leaf carries its layout, which is part of its type (two tensor types over dynamic extents and std::vector differ in the layout only).
`self` is the tensor that is being assigned to (operands are held by reference).
`vec op left get e`: `v op e` (`left`) or `e op v` with a vector expression `v` whose `v (i)` is `get i`; tensor/operators_arithmetic.hpp:41-79, 123-161,
expression.hpp:110-122 (matrix operands, 80-119, 163-200, do not compile when evaluated: `er (i)` has one index). -/
inductive TExp (R : Type)
  | leaf (L : Layout) (t : Tensor R)
  | self (L : Layout)
  | unary (op : R → R) (e : TExp R)
  | binary (op : R → R → R) (l r : TExp R)
  | vec (op : R → R → R) (left : Bool) (get : Nat → M R) (e : TExp R)

/-- The layout of the tensor type `T` of a `tensor_expression<T, E>`: the one of the left operand; expression.hpp:87-96, 157-163. -/
def TExp.layout : TExp R → Layout
  | .leaf L _ => L
  | .self L => L
  | .unary _ e => e.layout
  | .binary _ l _ => l.layout
  | .vec _ _ _ e => e.layout

/-- A tensor, not a compound expression. `std::is_same<T, EL>`, `std::is_same<T, ER>` of tensor/expression_evaluation.hpp:77-159. -/
def TExp.isTensor : TExp R → Bool
  | .leaf _ _ => true
  | .self _ => true
  | _ => false

/-- `retrieve_extents (expr)`: tensor/expression_evaluation.hpp:77-159.  Of a binary expression: the left operand's if that is a tensor, else the right operand's
if that is a tensor of type `T` (126-127), else those of the left expression (129-130; it always contains a tensor of type `T`). `own`: the extents of the
assigned tensor. -/
def TExp.extents (own : List Nat) : TExp R → List Nat
  | .leaf _ t => t.extents
  | .self _ => own
  | .unary _ e => e.extents own
  | .binary _ l r => if l.isTensor = false ∧ r.isTensor = true ∧ r.layout = l.layout then r.extents own else l.extents own
  | .vec _ _ _ e => e.extents own

/-- `all_extents_equal (expr, e)`: expression_evaluation.hpp:168-248. Operands of a tensor type other than `T` are skipped (`has_tensor_types` is false for them, 48-66). -/
def TExp.allEqual (own : List Nat) : TExp R → List Nat → Bool
  | .leaf _ t, e => t.extents == e
  | .self _, e => own == e
  | .unary _ x, e => x.allEqual own e
  | .binary _ l r, e => l.allEqual own e && (if r.layout = l.layout then r.allEqual own e else true)
  | .vec _ _ _ x, e => x.allEqual own e

/-- `lhs op rhs` for two tensor expressions: tensor/operators_arithmetic.hpp:205-285 (operands of different tensor types are compared at once). -/
def TExp.combine (own : List Nat) (op : R → R → R) (l r : TExp R) : M (TExp R) :=
  if l.layout ≠ r.layout ∧ l.allEqual own (r.extents own) = false then .error .stdException else .ok (.binary op l r)

/-- `expr (i)`: expression.hpp:79-80, 150-151; `t (i)` is `t.at (i)`, tensor_dynamic.hpp:338-342, 384-386. `own`: the memory of the assigned tensor. -/
def TExp.at_ (own : List R) : TExp R → Nat → M R
  | .leaf _ t, i => vectorAt t.data i
  | .self _, i => vectorAt own i
  | .unary op e, i => do
    let x ← e.at_ own i
    .ok (op x)
  | .binary op l r, i => do
    let x ← l.at_ own i
    let y ← r.at_ own i
    .ok (op x y)
  | .vec op true get e, i => do
    let x ← get i
    let y ← e.at_ own i
    .ok (op x y)
  | .vec op false get e, i => do
    let x ← e.at_ own i
    let y ← get i
    .ok (op x y)

/-- `t op v` (`left = false`) or `v op t` with a dense vector of elements `v` (vector.hpp:230-240: `v (i)` is `data () [i]`, checked in debug builds); operators_arithmetic.hpp:41-79, 123-161. -/
def withVector (dbg : Bool) (op : R → R → R) (left : Bool) (v : List R) (x : TExp R) : TExp R := .vec op left (rd dbg v) x

/-- One iteration of the loops of `eval`: `fn (lhs (i), expr () (i))`; expression_evaluation.hpp:272, 301, 321 (`lhs (i) = expr () (i)` is `fn = fun _ y => y`). -/
def evalStep (fn : R → R → R) (x : TExp R) (d : List R) (i : Nat) : M (List R) := do
  let y ← x.at_ d i
  let l ← vectorAt d i
  .ok (d.set i (fn l y))

/-- `eval (lhs, expr)` and `eval (lhs, expr, fn)`: expression_evaluation.hpp:263-273, 281-302, 311-322. The loops are annotated `#pragma omp parallel for`: `order` is the order in which
the iterations are executed (`List.range n` without OpenMP). The counter is an `unsigned int`. -/
def eval (fn : R → R → R) (t : Tensor R) (x : TExp R) (order : List Nat) : M (Tensor R) :=
  if x.allEqual t.extents t.extents = false then .error .stdException
  else if t.data.length < 2 ^ 32 then do
    let d ← order.foldlM (evalStep fn x) t.data
    .ok { t with data := d }
  else .error .diverge

/-- `tensor_core (tensor_expression const& expr)`: tensor_dynamic.hpp:176-185. -/
def construct (L : Layout) (zero : R) (x : TExp R) (order : List Nat) : M (Tensor R) := do
  let t ← create L (x.extents []) zero
  eval (fun _ y => y) t x order

/-- `eval (lhs, fn)`: expression_evaluation.hpp:333-339, used by `t += scalar` etc. (operators_arithmetic.hpp:397-430). -/
def evalScalar (fn : R → R) (t : Tensor R) (order : List Nat) : M (Tensor R) :=
  if t.data.length < 2 ^ 32 then do
    let d ← order.foldlM (fun d i => do
      let l ← vectorAt d i
      .ok (d.set i (fn l)) : List R → Nat → M (List R)) t.data
    .ok { t with data := d }
  else .error .diverge

/-- The predicates of the six comparison operators; tensor/operators_comparison.hpp:104-145. -/
inductive Cmp
  | eq | ne | lt | le | gt | ge
  deriving DecidableEq, Repr

/-- The predicate on elements. The `BinaryPred` of tensor/operators_comparison.hpp:32-58. -/
def Cmp.pred [LinearOrder R] : Cmp → R → R → Bool
  | .eq, a, b => decide (a = b)
  | .ne, a, b => decide (a ≠ b)
  | .lt, a, b => decide (a < b)
  | .le, a, b => decide (a ≤ b)
  | .gt, a, b => decide (b < a)
  | .ge, a, b => decide (b ≤ a)

/-- The loop of `compare`: operators_comparison.hpp:56-59: `for (i...) if (!pred (lhs (i), rhs (i))) return false; return true;` from iteration `i` on. -/
def compareFrom (pred : R → R → Bool) (a b : List R) : Nat → Nat → M Bool
  | 0, _ => .ok true
  | n + 1, i => do
    let x ← vectorAt a i
    let y ← vectorAt b i
    if pred x y then compareFrom pred a b n (i + 1) else .ok false

/-- `compare (lhs, rhs, pred)` for dynamic extents (for other kinds of extents see `compareK` in Model/TensorStatic): operators_comparison.hpp:33-60. The counter `auto i = 0u` wraps around after 2^32 iterations. -/
def compare [LinearOrder R] (c : Cmp) (a b : Tensor R) : M Bool :=
  if a.extents ≠ b.extents then
    if c ≠ .eq ∧ c ≠ .ne then .error .stdException else .ok false
  else if (c = .gt ∨ c = .lt) ∧ a.data = [] then .ok false
  else do
    let r ← compareFrom c.pred a.data b.data (min a.data.length (2 ^ 32)) 0
    if r = true ∧ 2 ^ 32 ≤ a.data.length then .error .diverge else .ok r

end Ublas.Tens
