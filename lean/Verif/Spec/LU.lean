import Mathlib.Algebra.Field.Defs
import Mathlib.Algebra.BigOperators.Group.Finset.Basic
import Mathlib.Logic.Equiv.Basic
import Mathlib.Algebra.Group.End
/-! # What an LU factorisation must deliver -/
namespace Ublas.LU
open Finset
variable {R : Type} [Field R]

/-- The unit lower triangular factor packed in `w`. -/
def lower (w : Nat × Nat → R) (r l : Nat) : R := if l < r then w (r, l) else if l = r then 1 else 0

/-- The upper triangular factor packed in `w`. -/
def upper (w : Nat × Nat → R) (l c : Nat) : R := if l ≤ c then w (l, c) else 0

/-- The permutation recorded in `pm`: transpose 0 and pm(0), then 1 and pm(1), …; row `i` of `P A` is row `permTo pm k i` of `A`. -/
def permTo (pm : Nat → Nat) : Nat → Equiv.Perm Nat
  | 0 => 1
  | k + 1 => permTo pm k * Equiv.swap k (pm k)

/-- `P A = L U` for an `n1 × n2` matrix. -/
def Factors (n1 n2 : Nat) (a : Nat → Nat → R) (P : Equiv.Perm Nat) (w : Nat × Nat → R) : Prop :=
  ∀ r c, r < n1 → c < n2 → ∑ l ∈ range (min n1 n2), lower w r l * upper w l c = a (P r) c

/-- What the factorisations return: 0 if no pivot is zero, otherwise one more than the index of the first zero pivot. -/
def Singular (n : Nat) (w : Nat × Nat → R) (result : Nat) : Prop :=
  (result = 0 ∧ ∀ i, i < n → w (i, i) ≠ 0) ∨ (0 < result ∧ result ≤ n ∧ w (result - 1, result - 1) = 0 ∧ ∀ i, i < result - 1 → w (i, i) ≠ 0)

end Ublas.LU
