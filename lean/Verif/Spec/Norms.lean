import Mathlib.Algebra.BigOperators.Group.Finset.Basic
import Mathlib.Order.Defs.LinearOrder
/-! # What the reductions of vectors and matrices must return -/
namespace Ublas.Norms
variable {K : Type}

/-- `t` is the maximum of `f 0 … f (n-1)`, or zero if there are none. -/
def IsMax [Zero K] [LE K] (n : Nat) (f : Nat → K) (t : K) : Prop :=
  (n = 0 ∧ t = 0) ∨ ((∃ i, i < n ∧ f i = t) ∧ ∀ i, i < n → f i ≤ t)

/-- `k` is the first index at which `f 0 … f (n-1)` is maximal, or zero if there are none. -/
def IsFirstMax [LE K] [LT K] (n : Nat) (f : Nat → K) (k : Nat) : Prop :=
  (n = 0 ∧ k = 0) ∨ (k < n ∧ (∀ i, i < n → f i ≤ f k) ∧ ∀ i, i < k → f i < f k)

end Ublas.Norms
