import Verif.Basic
/-!
# Dense storage layouts (functional.hpp:1397-1750)

`size_type` is `Nat` here; the wrap-around behaviour of 64-bit sizes is modelled in `Model/Machine.lean`.
-/
namespace Ublas

/-- The two storage orientations: `basic_row_major` (functional.hpp:1400) and
`basic_column_major` (functional.hpp:1578). -/
inductive Orient | row | col
  deriving DecidableEq, Repr

namespace Orient

/-- `transposed_layout`: functional.hpp:1405 / 1583. -/
def transposed : Orient → Orient | row => col | col => row

/-- functional.hpp:1408-1412, 1586-1590 (return value; overflow guard in `Machine`). -/
def storageSize (_o : Orient) (si sj : Nat) : Nat := si * sj

/-- Raw offset of element (i,j), without checks: functional.hpp:1423, 1601. -/
def elementRaw : Orient → Nat → Nat → Nat → Nat → Nat
  | row, i, _si, j, sj => i * sj + j
  | col, i, si, j, _sj => i + j * si

/-- `element`: functional.hpp:1417-1424, 1595-1602.  The third check (overflow guard) is modelled in
`Machine`; with unbounded `Nat` it always holds. -/
def element (dbg : Bool) (o : Orient) (i si j sj : Nat) : M Nat := do
  check dbg (i < si) .badIndex
  check dbg (j < sj) .badIndex
  return o.elementRaw i si j sj

/-- `address`: functional.hpp:1427-1434, 1605-1612 (one past the end allowed). -/
def address (dbg : Bool) (o : Orient) (i si j sj : Nat) : M Nat := do
  check dbg (i ≤ si) .badIndex
  check dbg (j ≤ sj) .badIndex
  return o.elementRaw i si j sj

/-- `index_i`: functional.hpp:1449-1451, 1627-1629, for a non-negative offset `k`. -/
def indexI : Orient → Nat → Nat → Nat → Nat
  | row, k, _si, sj => if sj ≠ 0 then k / sj else 0
  | col, k, si, _sj => if si ≠ 0 then k % si else 0

/-- `index_j`: functional.hpp:1454-1456, 1632-1634, for a non-negative offset `k`. -/
def indexJ : Orient → Nat → Nat → Nat → Nat
  | row, k, _si, sj => if sj ≠ 0 then k % sj else 0
  | col, k, si, _sj => if si ≠ 0 then k / si else 0

/-- `index_M (index1, index2)`: functional.hpp:1555-1557, 1732-1734. -/
def indexM : Orient → Nat → Nat → Nat | row, a, _ => a | col, _, b => b
/-- `index_m (index1, index2)`: functional.hpp:1560-1562, 1737-1739. -/
def indexm : Orient → Nat → Nat → Nat | row, _, b => b | col, a, _ => a
/-- `size_M`: functional.hpp:1565-1567, 1742-1744. -/
def sizeM : Orient → Nat → Nat → Nat | row, a, _ => a | col, _, b => b
/-- `size_m`: functional.hpp:1570-1572, 1747-1749. -/
def sizem : Orient → Nat → Nat → Nat | row, _, b => b | col, a, _ => a

end Orient
end Ublas
