import Verif.Model.Machine
import Verif.Model.Packed
import Verif.Model.Banded
import Verif.Model.Mapped
import Verif.Model.CompressedMatrix
import Verif.Model.Tensor
/-!
# 64-bit arithmetic of the packed, banded, map-based and compressed matrices and of tensors

`size_type` is `BitVec 64` as in `Model/Machine.lean`: every unsigned operation wraps.
-/
namespace Ublas.Machine

/-- `(std::max) (a, b)`. C++ standard library, not code of /repo. -/
def mx (a b : Sz) : Sz := if a < b then b else a
/-- `(std::min) (a, b)`. C++ standard library, not code of /repo. -/
def mn (a b : Sz) : Sz := if b < a then b else a

/-- `lower_element`: functional.hpp:1529-1539 (row), 1707-1715 (column). -/
def lowerElement (dbg : Bool) (o : Orient) (i si j sj : Sz) : M Sz := do
  check dbg (i < si) .badIndex
  check dbg (j < sj) .badIndex
  check dbg (j ≤ i) .badIndex
  match o with
  | .row => return ((i + 1) * i) / 2 + j
  | .col => return i - j + (j * (2 * mx si sj - j + 1)) / 2

/-- `packed_size` of the lower structures: functional.hpp:1888-1890, 1975-1979, 2035-2039. -/
def lpackedSize (dbg : Bool) : LKind → Sz → Sz → M Sz
  | .lower, si, sj => triangularSize dbg si sj
  | .unit, si, sj | .strict, si, sj => do
      check dbg (si ≠ 0 ∧ sj ≠ 0) .badIndex
      triangularSize dbg (si - 1) (sj - 1)
/-- `element` of the lower structures: functional.hpp:1910-1912, 1994-1998, 2059-2063. -/
def lelement (dbg : Bool) (o : Orient) : LKind → Sz → Sz → Sz → Sz → M Sz
  | .lower, i, si, j, sj => lowerElement dbg o i si j sj
  | .unit, i, si, j, sj | .strict, i, si, j, sj => do
      check dbg (si ≠ 0 ∧ sj ≠ 0 ∧ i ≠ 0) .badIndex
      lowerElement dbg o (i - 1) (si - 1) j (sj - 1)
/-- `packed_size`; transposition functional.hpp:1810-1812. -/
def packedSize (dbg : Bool) (t : Tri) (si sj : Sz) : M Sz :=
  if t.upper then lpackedSize dbg t.kind sj si else lpackedSize dbg t.kind si sj
/-- `element`; transposition functional.hpp:1832-1834. -/
def packedElement (dbg : Bool) (t : Tri) (o : Orient) (i si j sj : Sz) : M Sz :=
  if t.upper then lelement dbg o.transposed t.kind j sj i si else lelement dbg o t.kind i si j sj

/-- Number of cells of a banded_matrix: `banded_indexing::size (size1, size2) * (lower + 1 + upper)`, banded.hpp:137, 44-46, 67-69. -/
def bandCells (o : Orient) (s1 s2 l u : Sz) : Sz :=
  (match o with | .col => s2 | .row => s1) * (l + 1 + u)
/-- `is_element_in_band`: banded.hpp:199-202. -/
def inBand (l u i j : Sz) : Bool := u + i ≥ j ∧ i ≤ j + l
/-- `get_index`: banded.hpp:54-56 (column), 77-79 (row). -/
def bandIndex (dbg : Bool) (o : Orient) (s1 s2 l u i j : Sz) : M Sz :=
  match o with
  | .col => element dbg .col (u + i - j) (l + 1 + u) j s2
  | .row => element dbg .row i s1 (l + j - i) (l + 1 + u)

/-- `restrict_capacity` of mapped_matrix: matrix_sparse.hpp:352-358. -/
def mapRestrict (s1 s2 nz : Sz) : Sz := if s1 > 0 ∧ nz / s1 ≥ s2 then s1 * s2 else nz
/-- `restrict_capacity` of compressed_matrix: matrix_sparse.hpp:2971-2978. -/
def compressedRestrict (s1 s2 nz : Sz) : Sz :=
  let nz := mx nz (mn s1 s2)
  if s1 > 0 ∧ nz / s1 ≥ s2 then s1 * s2 else nz

/-- A mapped_matrix over std::map with 64-bit keys: `m (i, j) = t` (matrix_sparse.hpp:401-410) and `m (i, j)` (392-399). -/
def mapPut {α : Type} (dbg : Bool) (o : Orient) (s1 s2 : Sz) (m : List (Nat × α)) (i j : Sz) (zero t : α) : M (List (Nat × α)) := do
  let e ← element dbg o i s1 j s2
  let (m, _) ← stdMapImpl.insert dbg m e.toNat zero
  stdMapImpl.setAt m e.toNat t
/-- Machinery of the model; no code of its own in /repo. -/
def mapGet {α : Type} (dbg : Bool) (o : Orient) (s1 s2 : Sz) (m : List (Nat × α)) (zero : α) (i j : Sz) : M α := do
  let e ← element dbg o i s1 j s2
  match ← stdMapImpl.find m e.toNat with
  | none => .ok zero
  | some x => .ok x

/-- `product (e)` of tensor extents: tensor/extents/extents_functions.hpp:109-116. -/
def product (e : List Sz) : Sz := if e = [] then 0 else e.foldl (· * ·) 1
/-- `std::transform (…, std::multiplies<> {})`: extents_functions.hpp:160, 177. -/
def cumulate (e s : List Sz) : M (List Sz) :=
  loop (fun k s => do
    let x ← rd false e k
    let y ← rd false s k
    wr false s (k + 1) (x * y)) (e.length - 1) s
/-- `to_strides (e, L {})`: extents_functions.hpp:151-165, 167-182 (the comparisons of `is_vector` and `is_scalar` are on values). -/
def toStrides (L : Tens.Layout) (e : List Sz) : M (List Sz) :=
  let s := List.replicate e.length (1 : Sz)
  let n := e.map BitVec.toNat
  if e = [] ∨ Tens.isVector n = true ∨ Tens.isScalar n = true then .ok s
  else match L with
    | .first => cumulate e s
    | .last => do
      let t ← cumulate e.reverse s.reverse
      .ok t.reverse
/-- `to_index (w, i)`: tensor/index_functions.hpp:34-37, 54-59. -/
def toIndex (w i : List Sz) : M Sz :=
  loop (fun k acc => do
    let x ← rd false i k
    let y ← rd false w k
    .ok (acc + x * y)) i.length 0

end Ublas.Machine
