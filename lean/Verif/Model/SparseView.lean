import Verif.Model.Search
import Verif.Model.Layout
/-! # compressed_matrix_view and c_array_view (include/boost/numeric/ublas/experimental/sparse_view.hpp)

The view owns nothing: it keeps three sizes and references to three arrays of the caller.  The model keeps the sizes in
`SpView` and passes the current contents of the arrays to every read, so that what the caller writes between two reads is seen.
`chk` tells whether `operator []` of the caller's array types checks its index (unbounded_array and c_array_view in a build with
checks) or not (plain arrays, std::vector, every type in a release build).  Pointer arithmetic on the minor index array is never
checked.  Not modelled: overflow of `index_type` arithmetic, the empty iterator classes of the view (205-206), lifetime of
the arrays. -/
namespace Ublas
open Search
variable {α : Type}

/-- c_array_view: sparse_view.hpp:96-98: `data_` points to cell `base` of a memory block. -/
structure CArrView where
  size : Nat
  base : Nat
  deriving DecidableEq

/-- `operator [] (i)`: sparse_view.hpp:73-76. -/
def CArrView.get (dbg : Bool) (a : CArrView) (mem : List α) (i : Nat) : M α := do
  check dbg (i < a.size) .badIndex
  rd false mem (a.base + i)

/-- The cells passed by `for (it = begin (); it != end (); ++ it) *it`: sparse_view.hpp:79-85. -/
def CArrView.walk (a : CArrView) (mem : List α) : M (List α) :=
  loop (fun k acc => do let x ← rd false mem (a.base + k); .ok (acc ++ [x])) a.size []

/-- The members of compressed_matrix_view that are not references: sparse_view.hpp:271-274. -/
structure SpView where
  size1 : Nat
  size2 : Nat
  nnz : Nat
  deriving DecidableEq

/-- The caller's three arrays: sparse_view.hpp:276-278. -/
structure SpArrays (α : Type) where
  index1 : List Nat
  index2 : List Nat
  value : List α
  deriving DecidableEq

namespace SpView

/-- Constructor: sparse_view.hpp:179-190, with storage_invariants (267-269). -/
def ctor (dbg chk : Bool) (o : Orient) (IB : Nat) (a : SpArrays α) (r c nnz : Nat) : M SpView := do
  let _ ← (if dbg = true then do
      let x ← rd chk a.index1 (o.sizeM r c)
      check dbg (x = nnz + IB) .externalLogic
    else .ok () : M Unit)
  .ok ⟨r, c, nnz⟩

/-- `zero_based (k)`: sparse_view.hpp:283-285.  A cell smaller than IB would wrap around to an offset outside every array. -/
def zeroBased (IB k : Nat) : M Nat := if k < IB then .error .ub else .ok (k - IB)

/-- `find_index_in_row (b, e, index)`: sparse_view.hpp:257-263.  The two iterators must form a range inside the array. -/
def findIndexInRow (IB : Nat) (index2 : List Nat) (b e index : Nat) : M Nat :=
  if e < b ∨ index2.length < e then .error .ub else stdLowerBound index2 (index + IB) (e - b) b (e - b)

/-- `find_element (i, j)`: sparse_view.hpp:241-255 (`none` is the null pointer, `some n` the address of value cell `n`). -/
def slot (chk : Bool) (o : Orient) (IB : Nat) (a : SpArrays α) (i j : Nat) : M (Option Nat) := do
  let e1 := o.indexM i j
  let e2 := o.indexm i j
  let x ← rd chk a.index1 e1
  let b ← zeroBased IB x
  let y ← rd chk a.index1 (e1 + 1)
  let e ← zeroBased IB y
  let it ← findIndexInRow IB a.index2 b e e2
  if it = e then .ok none else do
    let z ← rd false a.index2 it
    .ok (if z = e2 + IB then some it else none)

/-- `operator () (i, j)`: sparse_view.hpp:226-233.  `size1_`, `size2_` and `nnz_` are not looked at. -/
def get (chk : Bool) (o : Orient) (IB : Nat) (zero : α) (_v : SpView) (a : SpArrays α) (i j : Nat) : M α := do
  match ← slot chk o IB a i j with
  | none => .ok zero
  | some n => rd chk a.value n

end SpView
end Ublas
