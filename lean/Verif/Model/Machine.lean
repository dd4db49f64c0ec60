import Verif.Model.Layout
/-!
# 64-bit model of the layout arithmetic (functional.hpp:1397-1750)

`size_type` = `std::size_t` and `difference_type` = `std::ptrdiff_t` are both `BitVec 64`
(unsigned operations wrap; a `difference_type` is read through `BitVec.toInt`).  In mixed expressions
such as `k / size_j` the usual arithmetic conversions make the division unsigned.
-/
namespace Ublas.Machine

/-- `std::size_t` (`size_type`): 64 bits. -/
abbrev Sz := BitVec 64

/-- `(std::numeric_limits<size_type>::max) ()`. C++ standard library, not code of /repo. -/
def maxSz : Sz := BitVec.allOnes 64

/-- `storage_size`: functional.hpp:1408-1412 (row), 1586-1590 (column). -/
def storageSize (dbg : Bool) : Orient → Sz → Sz → M Sz
  | .row, si, sj => do
    check dbg (sj = 0 ∨ si ≤ maxSz / sj) .badSize
    return si * sj
  | .col, si, sj => do
    check dbg (si = 0 ∨ sj ≤ maxSz / si) .badSize
    return si * sj

/-- `element`: functional.hpp:1417-1424 (row), 1595-1602 (column). -/
def element (dbg : Bool) : Orient → Sz → Sz → Sz → Sz → M Sz
  | .row, i, si, j, sj => do
    check dbg (i < si) .badIndex
    check dbg (j < sj) .badIndex
    check dbg (i ≤ (maxSz - j) / sj) .badIndex
    return i * sj + j
  | .col, i, si, j, sj => do
    check dbg (i < si) .badIndex
    check dbg (j < sj) .badIndex
    check dbg (j ≤ (maxSz - i) / si) .badIndex
    return i + j * si

/-- `triangular_size`: functional.hpp:1521-1526 (row), 1699-1704 (column; same text). -/
def triangularSize (dbg : Bool) (si sj : Sz) : M Sz := do
  let size := if si < sj then sj else si
  check dbg (size = 0 ∨ size / 2 < maxSz / size) .badSize
  return ((size + 1) * size) / 2

/-- `distance_i`: functional.hpp:1439-1441 (row), 1617-1619 (column). -/
def distanceI : Orient → Sz → Sz → Sz → Sz
  | .row, k, _si, sj => if sj ≠ 0 then k / sj else 0
  | .col, k, _si, _sj => k
/-- `distance_j`: functional.hpp:1444-1446 (row), 1622-1624 (column). -/
def distanceJ : Orient → Sz → Sz → Sz → Sz
  | .row, k, _si, _sj => k
  | .col, k, si, _sj => if si ≠ 0 then k / si else 0

/-- `increment_i (it, n, ..)`: functional.hpp:1478-1480 (row), 1656-1658 (column); `n * size_j` is an
unsigned product whose wrapped value is added to the pointer. -/
def incrementI : Orient → Sz → Sz → Sz → Sz → Sz
  | .row, it, n, _si, sj => it + n * sj
  | .col, it, n, _si, _sj => it + n
/-- `increment_j (it, n, ..)`: functional.hpp:1502-1504 (row), 1680-1682 (column). -/
def incrementJ : Orient → Sz → Sz → Sz → Sz → Sz
  | .row, it, n, _si, _sj => it + n
  | .col, it, n, si, _sj => it + n * si

end Ublas.Machine
