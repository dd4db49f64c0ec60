import Verif.Model.Tensor
import Mathlib.Algebra.BigOperators.Group.Finset.Basic
/-! # Specification vocabulary for tensors -/
namespace Ublas.Tens

/-- `i` is a multi-index of a tensor with extents `e`: as many components, each below its extent. -/
def Valid (e i : List Nat) : Prop := List.Forall₂ (fun k n => k < n) i e

/-- The number of elements. -/
def count (e : List Nat) : Nat := e.prod

/-- Position of multi-index `i` when the first index varies fastest: `i0 + n0 * (i1 + n1 * (i2 + ...))`. -/
def firstPos : List Nat → List Nat → Nat
  | n :: e, k :: i => k + n * firstPos e i
  | _, _ => 0

/-- Position of multi-index `i` when the last index varies fastest: `(...) * n_p + i_p`. -/
def lastPos : List Nat → List Nat → Nat
  | _ :: e, k :: i => k * count e + lastPos e i
  | _, _ => 0

/-- Memory position prescribed by the layout. -/
def pos (L : Layout) (e i : List Nat) : Nat :=
  match L with
  | .first => firstPos e i
  | .last => lastPos e i

/-- Offset of multi-index `i` for the strides `w`: `i0 * w0 + i1 * w1 + ...`. -/
def dotW : List Nat → List Nat → Nat
  | w :: ws, k :: ks => k * w + dotW ws ks
  | _, _ => 0

/-- A tensor object of layout `L` whose element at multi-index `i` is `f i`. -/
structure Holds {R : Type} (L : Layout) (t : Tensor R) (e : List Nat) (f : List Nat → R) : Prop where
  extents : t.extents = e
  positive : ∀ n ∈ e, 0 < n
  rank : e ≠ []
  strides : toStrides L e = .ok t.strides
  size : t.data.length = count e
  elem : ∀ i, Valid e i → t.data[pos L e i]? = some (f i)

/-- The memory `d` walked with extents `n` and strides `w` from offset 0: element `i` is `f i`. -/
def Lay {R : Type} (d : List R) (n w : List Nat) (f : List Nat → R) : Prop := ∀ i, Valid n i → d[dotW w i]? = some (f i)

/-- Different multi-indices have different offsets. -/
def Distinct (n w : List Nat) : Prop := ∀ i j, Valid n i → Valid n j → dotW w i = dotW w j → i = j

/-- `π` is a one-based permutation tuple of length `p`. -/
def IsPerm (p : Nat) (π : List Nat) : Prop := π.Perm (List.range' 1 p)

/-- `(j[π0 - 1], j[π1 - 1], ...)`. -/
def pick (π j : List Nat) : List Nat := π.map fun t => j.getD (t - 1) 0

/-- The multi-index whose component `π_t` (one-based) is `x_t`. -/
def place (π x : List Nat) : List Nat := (List.range x.length).map fun m => x.getD (π.idxOf (m + 1)) 0

/-- Nested sum over all multi-indices of `e`: `∑ k0 < n0, ∑ k1 < n1, ..., f [k0, k1, ...]`. -/
def sumBox {R : Type} [AddCommMonoid R] : List Nat → (List Nat → R) → R
  | [], f => f []
  | n :: e, f => ∑ k ∈ Finset.range n, sumBox e fun i => f (k :: i)

end Ublas.Tens
