import Verif.Model.Prod
import Mathlib.Algebra.BigOperators.Group.Finset.Basic
/-! # What an operand of a product stands for, and the mathematical products -/
namespace Ublas
open Finset
variable {R : Type} [Semiring R]

/-- `s` presents the mathematical vector `v` of size `n`: element access returns `v`; the iterators visit indices below `n` in increasing
order with the right values and skip only zeros; packed iterators visit consecutive indices, dense iterators all of them. -/
structure Seq.Presents (s : Seq R) (n : Nat) (v : Nat → R) : Prop where
  size : s.size = n
  at_ : ∀ i, i < n → s.at_ i = .ok (v i)
  vals : ∀ p ∈ s.els, p.1 < n ∧ p.2 = v p.1
  sorted : (s.els.map (·.1)).Pairwise (· < ·)
  skipped : ∀ i, i < n → i ∉ s.els.map (·.1) → v i = 0
  packed : s.cat ≠ .sparse → ∃ off, s.els.map (·.1) = List.range' off s.els.length
  dense : s.cat = .dense → s.els.map (·.1) = List.range n

/-- The same for a matrix: sizes `r`, `c`, elements `a i j`; every row and every column is presented. -/
structure MSeq.Presents (m : MSeq R) (r c : Nat) (a : Nat → Nat → R) : Prop where
  size1 : m.size1 = r
  size2 : m.size2 = c
  rows : ∀ i, i < r → (m.row i).Presents c (a i)
  cols : ∀ j, j < c → (m.col j).Presents r (fun i => a i j)

/-- Σ_{k<n} v k * w k. -/
def dot (n : Nat) (v w : Nat → R) : R := ∑ k ∈ range n, v k * w k

end Ublas
