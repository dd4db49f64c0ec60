import Verif.Model.SparseView
/-! Specification of compressed row / column storage in three plain arrays, as in the reference quoted by sparse_view.hpp:106
(http://www.netlib.org/utk/papers/templates/node90.html), for index base `IB`. -/
namespace Ublas
variable {α : Type}

/-- The arrays hold the `r` × `c` sparse matrix `m` (`none`: no stored element): line `k` (a row, or a column when column major)
occupies cells `off k … off (k+1) - 1`, by increasing minor index, and every stored element is in its line's cells. -/
def SpArrays.Stores (o : Orient) (IB : Nat) (a : SpArrays α) (r c nnz : Nat) (m : Nat → Nat → Option α) : Prop :=
  ∃ off : Nat → Nat,
    (∀ k, k ≤ o.sizeM r c → a.index1[k]? = some (off k + IB)) ∧
    (∀ k, k < o.sizeM r c → off k ≤ off (k + 1)) ∧
    off (o.sizeM r c) = nnz ∧
    nnz ≤ a.index2.length ∧ nnz ≤ a.value.length ∧
    (∀ k n n' x x', k < o.sizeM r c → off k ≤ n → n < n' → n' < off (k + 1) →
      a.index2[n]? = some x → a.index2[n']? = some x' → x < x') ∧
    (∀ i j x, i < r → j < c → (m i j = some x ↔
      ∃ n, off (o.indexM i j) ≤ n ∧ n < off (o.indexM i j + 1) ∧ a.index2[n]? = some (o.indexm i j + IB) ∧ a.value[n]? = some x))

end Ublas
