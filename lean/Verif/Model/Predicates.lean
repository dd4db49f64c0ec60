import Verif.Model.Packed
/-! # is_symmetric, is_hermitian (symmetric.hpp:22-39, hermitian.hpp:22-39)

The matrix is given by its sizes and its `operator () (i, j) const`. -/
namespace Ublas
variable {R : Type}

/-- The inner loop `for (j = ...; j < size; ++ j) if (m (i, j) != conj (m (j, i))) return false;` with `fuel = size - j` rounds left: symmetric.hpp:33-36, hermitian.hpp:33-36.
`true`: the loop ended without returning. -/
def mirrorRow [DecidableEq R] (conj : R → R) (get : Nat → Nat → M R) (i : Nat) : (fuel j : Nat) → M Bool
  | 0, _ => .ok true
  | fuel + 1, j => do
      let a ← get i j
      let b ← get j i
      if a ≠ conj b then .ok false else mirrorRow conj get i fuel (j + 1)

/-- The outer loop `for (i = ...; i < size; ++ i)`, with `fuel = size - i` rounds left: symmetric.hpp:32-38, hermitian.hpp:32-38. -/
def mirrorRows [DecidableEq R] (conj : R → R) (get : Nat → Nat → M R) (size : Nat) : (fuel i : Nat) → M Bool
  | 0, _ => .ok true
  | fuel + 1, i => do
      if ← mirrorRow conj get i (size - i) i then mirrorRows conj get size fuel (i + 1) else .ok false

/-- `is_hermitian (m)`: hermitian.hpp:25-39.  `BOOST_UBLAS_SAME` (exception.hpp:269-292) of two equal sizes is the size. -/
def isHermitian [DecidableEq R] (conj : R → R) (get : Nat → Nat → M R) (size1 size2 : Nat) : M Bool :=
  if size1 ≠ size2 then .ok false else mirrorRows conj get size1 size1 0

/-- `is_symmetric (m)`: symmetric.hpp:25-39: the same text without `conj`. -/
def isSymmetric [DecidableEq R] (get : Nat → Nat → M R) (size1 size2 : Nat) : M Bool := isHermitian id get size1 size2

end Ublas
