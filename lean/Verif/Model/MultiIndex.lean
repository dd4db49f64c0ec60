import Verif.Model.TensorEin
/-!
# Multi-indices of the Einstein notation: `multi_index`, `has_index`, `valid_multi_index`, `number_equal_indexes`, `index_position`, `index_position_pairs`, `array_to_vector`

A tuple of index objects `index_type<K>` (tensor/index.hpp:29-45) is the list of the numbers `K`; the placeholder `_` is 0, `_a` … `_z` are
1 … 26 (52-78).  Two index objects have the same type exactly if their numbers are equal.
-/
namespace Ublas.Tens.MI

/-- `index_type<I> == index_type<K>`, `index_type<I> == n`: tensor/index.hpp:33, 37, 41. -/
def labelEq (i k : Nat) : Bool := decide (i = k)
/-- `!=`: tensor/index.hpp:34, 39, 42. -/
def labelNe (i k : Nat) : Bool := decide (i ≠ k)

/-- `has_index<index_type, tuple>::value`: tensor/multi_index_utility.hpp:26-49, 66-70. -/
def hasIndex (l : Nat) : List Nat → Bool
  | [] => false
  | [r] => decide (l = r)
  | r :: rs => decide (l = r) || hasIndex l rs

/-- `valid_multi_index<tuple>::value`: multi_index_utility.hpp:83-105, 120-124. -/
def validMultiIndex : List Nat → Bool
  | [] => true
  | [_] => true
  | l :: ls => !(hasIndex l ls && !decide (l = 0)) && validMultiIndex ls

/-- `number_equal_indexes<left, right>::value`: multi_index_utility.hpp:137-155, 174-179. -/
def numberEqualIndexes : List Nat → List Nat → Nat
  | [], _ => 0
  | l :: ls, rs => (if (hasIndex l rs && !decide (l = 0)) = true then 1 else 0) + numberEqualIndexes ls rs

/-- `index_position_impl<r, m, itype, tuple>::value`, with `fuel` = m - r: multi_index_utility.hpp:191-204. -/
def indexPositionImpl (l : Nat) (t : List Nat) : (fuel r : Nat) → Nat
  | 0, _ => t.length
  | fuel + 1, r => if t[r]? = some l then r else indexPositionImpl l t fuel (r + 1)
/-- `index_position<index_type, tuple>::value`: multi_index_utility.hpp:225-229. -/
def indexPosition (l : Nat) (t : List Nat) : Nat := indexPositionImpl l t t.length 0

/-- One step of `index_position_pairs_impl` (multi_index_utility.hpp:246-251, 266-270): `out [p] = {r - 1, position}` if the label at `r - 1` is shared and not the placeholder; gives
the array and the next `p`.  `std::array::operator []` is not checked. -/
def pairStep (lhs rhs : List Nat) (r p : Nat) (out : List (Nat × Nat)) : M (List (Nat × Nat) × Nat) := do
  let l ← rd false lhs (r - 1)
  if (hasIndex l rhs && decide (l ≠ 0)) = true then do
    let out ← wr false out p (r - 1, indexPosition l rhs)
    .ok (out, p + 1)
  else .ok (out, p)

/-- `index_position_pairs_impl<r, m>::run` for m ≥ 1, with `fuel` = m - r: multi_index_utility.hpp:240-272 (the general case, then `<m, m>`). -/
def pairsRun (lhs rhs : List Nat) : (fuel r p : Nat) → List (Nat × Nat) → M (List (Nat × Nat))
  | 0, r, p, out => do
    let s ← pairStep lhs rhs r p out
    .ok s.1
  | fuel + 1, r, p, out => do
    let s ← pairStep lhs rhs r p out
    pairsRun lhs rhs fuel (r + 1) s.2 s.1

/-- `index_position_pairs (lhs, rhs)`: multi_index_utility.hpp:303-312, with `<r, 0>` of 274-284 for the empty left tuple. -/
def indexPositionPairs (lhs rhs : List Nat) : M (List (Nat × Nat)) :=
  let out := List.replicate (numberEqualIndexes lhs rhs) (0, 0)
  if lhs.length = 0 then .ok out else pairsRun lhs rhs (lhs.length - 1) 1 0 out

/-- `multi_index<N> (i, is...)`: tensor/multi_index.hpp:37-47; `none`: a static assertion fails, the program is refused by the compiler.  At
least one index must be given. -/
def make (N : Nat) (is : List Nat) : Option (List Nat) :=
  if is ≠ [] ∧ is.length = N ∧ validMultiIndex is = true then some is else none

/-- `m.at (i)` and `m [i]`: multi_index.hpp:68-69 (`std::array::at`). -/
def at_ (m : List Nat) (i : Nat) : M Nat := match m[i]? with | some l => .ok l | none => .error .stdException

/-- The body of the two loops of `array_to_vector`: multi_index.hpp:88-91. -/
def toVectorStep (lhs rhs : List Nat) (i j : Nat) (s : List Nat × List Nat) : M (List Nat × List Nat) := do
  let a ← at_ lhs i
  let b ← at_ rhs j
  if a = b then do
    let a ← at_ lhs i
    if a ≠ 0 then .ok (s.1 ++ [i + 1], s.2 ++ [j + 1]) else .ok s
  else .ok s

/-- `array_to_vector (multi_index<M> lhs, multi_index<N> rhs)`: multi_index.hpp:79-95; the outer loop runs to `N`, the inner one to `M`. -/
def arrayToVector (lhs rhs : List Nat) : M (List Nat × List Nat) :=
  loop (fun i s => loop (fun j s => toVectorStep lhs rhs i j s) lhs.length s) rhs.length ([], [])

end Ublas.Tens.MI
