import Verif.Basic
/-! # Searching and shifting in index arrays

Raw pointer accesses inside `unbounded_array` storage are `rd false` / `wr false`: outside the array they
are undefined behaviour whatever the build mode. -/
namespace Ublas.Search
variable {α : Type}

/-- `std::lower_bound (first, first + len, k, less)` on an array of keys, as in libstdc++
(bits/stl_algobase.h `__lower_bound`): halving search.  `fuel` bounds the number of halvings; running
out is `diverge`, and `lowerBound_spec` shows it never happens. C++ standard library, not code of /repo. -/
def stdLowerBound (keys : List Nat) (k : Nat) : (fuel first len : Nat) → M Nat
  | 0, first, len => if len = 0 then .ok first else .error .diverge
  | fuel + 1, first, len =>
      if len = 0 then .ok first else do
        let half := len / 2
        let x ← rd false keys (first + half)
        if x < k then stdLowerBound keys k fuel (first + half + 1) (len - half - 1)
        else stdLowerBound keys k fuel first half

/-- `detail::lower_bound (begin, end, t, compare)`: storage_sparse.hpp:30-39. -/
def lowerBound (keys : List Nat) (b e k : Nat) : M Nat :=
  if b = e then .ok b else do
    let x ← rd false keys b
    if ¬ x < k then .ok b else do
      let y ← rd false keys (e - 1)
      if y < k then .ok e else stdLowerBound keys k (e - b) b (e - b)

/-- `std::copy_backward (l + b, l + e, l + e + 1)`: the elements at positions [b, e) move one position up,
starting from the last one. C++ standard library, not code of /repo. -/
def copyBackward (l : List α) (b e : Nat) : M (List α) :=
  loop (fun j l => do
    let x ← rd false l (e - j - 1)
    wr false l (e - j) x) (e - b) l

/-- `std::copy (l + b, l + e, l + d)` with d ≤ b: the elements at positions [b, e) move down to d,
starting from the first one. C++ standard library, not code of /repo. -/
def copyForward (l : List α) (b e d : Nat) : M (List α) :=
  loop (fun j l => do
    let x ← rd false l (b + j)
    wr false l (d + j) x) (e - b) l

/-- `unbounded_array::resize (n, init)` seen as a function on contents (storage.hpp:143-212; the heap-level
behaviour is theorem `C16_unbounded_value_semantics`). -/
def resizeInit (l : List α) (n : Nat) (v : α) : List α := l.take n ++ List.replicate (n - l.length) v

/-- `unbounded_array::resize (n)`: contents are kept when the size does not change and arbitrary
otherwise (storage.hpp:143-208). -/
def resizeRaw (junk : Nat → α) (l : List α) (n : Nat) : List α :=
  if n = l.length then l else (List.range n).map junk

end Ublas.Search
