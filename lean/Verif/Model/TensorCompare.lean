import Verif.Model.TensorExpr
/-! # Comparing tensor expressions, with each other and with a scalar (tensor/operators_comparison.hpp:61-103, 146-216) -/
namespace Ublas.Tens
variable {R : Type}

/-- The loop `for (i = 0u; i < rhs.size (); ++ i) if (! pred (rhs (i))) return false; return true;` from iteration `i` on, `n` iterations; operators_comparison.hpp:65-68. -/
def holdsFrom (pred : R → Bool) (a : List R) : (n i : Nat) → M Bool
  | 0, _ => .ok true
  | n + 1, i => do
    let x ← vectorAt a i
    if pred x then holdsFrom pred a n (i + 1) else .ok false

/-- `compare (tensor, pred)` with a unary predicate: operators_comparison.hpp:61-69. The counter `auto i = 0u` wraps around after 2^32 iterations. -/
def compareAll (pred : R → Bool) (a : Tensor R) : M Bool := do
  let r ← holdsFrom pred a.data (min a.data.length (2 ^ 32)) 0
  if r = true ∧ 2 ^ 32 ≤ a.data.length then .error .diverge else .ok r

/-- The tensor an operand is compared as: itself, or `T (expr)`; operators_comparison.hpp:76-87, 95-100. `order`: the order of the iterations of the evaluation loop. -/
def TExp.asTensor (zero : R) (order : List Nat) : TExp R → M (Tensor R)
  | .leaf _ t => .ok t
  | x => construct x.layout zero x order

/-- `lhs op rhs` for two tensor expressions: operators_comparison.hpp:72-88, 106-145 (the tensors have dynamic extents). -/
def compareExp [LinearOrder R] (c : Cmp) (zero : R) (x y : TExp R) (order order' : List Nat) : M Bool := do
  let a ← x.asTensor zero order
  let b ← y.asTensor zero order'
  compare c a b

/-- `s op expr`: operators_comparison.hpp:90-101, 151-180: the predicate is `[lhs](auto const& r){ return lhs op r; }`. -/
def compareScalarLeft [LinearOrder R] (c : Cmp) (zero s : R) (x : TExp R) (order : List Nat) : M Bool := do
  let a ← x.asTensor zero order
  compareAll (fun r => c.pred s r) a

/-- `expr op s`: operators_comparison.hpp:90-101, 184-213: the predicate is `[rhs](auto const& l){ return l op rhs; }`. -/
def compareScalarRight [LinearOrder R] (c : Cmp) (zero s : R) (x : TExp R) (order : List Nat) : M Bool := do
  let a ← x.asTensor zero order
  compareAll (fun l => c.pred l s) a

end Ublas.Tens
