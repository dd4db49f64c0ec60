import Verif.Model.HermitianProxy
import Verif.Model.Dense
/-!
# Packed triangular storage: structure types (functional.hpp:1753-2107), `triangular_matrix`
(triangular.hpp:60-700), `symmetric_matrix` (symmetric.hpp:35-500), `hermitian_matrix`
(hermitian.hpp:243-700)
-/
namespace Ublas

/-- The three lower structures: basic_lower (functional.hpp:1881), basic_unit_lower (1968),
basic_strict_lower (2028). -/
inductive LKind | lower | unit | strict
  deriving DecidableEq, Repr

/-- A triangular structure: one of the lower ones, or its `transposed_structure`
(functional.hpp:1804; basic_upper 2092, basic_unit_upper 2098, basic_strict_upper 2104). -/
structure Tri where
  kind : LKind
  upper : Bool
  deriving DecidableEq, Repr

namespace Packed
variable {α : Type}

/-- `triangular_size`: functional.hpp:1521-1526, 1699-1704 (value; the overflow guard is in `Machine`). -/
def triangularSize (si sj : Nat) : Nat := ((max si sj + 1) * max si sj) / 2

/-- Column offset in column-major lower storage: functional.hpp:1714. -/
def colOff (n j : Nat) : Nat := (j * (2 * n - j + 1)) / 2

/-- `lower_element`: functional.hpp:1529-1539 (row), 1707-1715 (column).  The column formula
`i - j + colOff` is evaluated modulo 2^64; because `j ≤ colOff n j` the wrapped value is
`i + colOff n j - j`, which is how it is written here. -/
def lowerElement (dbg : Bool) (o : Orient) (i si j sj : Nat) : M Nat := do
  check dbg (i < si) .badIndex
  check dbg (j < sj) .badIndex
  check dbg (i ≥ j) .badIndex
  match o with
  | .row => return ((i + 1) * i) / 2 + j
  | .col => return i + colOff (max si sj) j - j

/-- `zero (i, j)` of the lower structures: functional.hpp:1894, 1968 (inherited), 2043. -/
def lzero : LKind → Nat → Nat → Bool
  | .lower, i, j => j > i
  | .unit, i, j => j > i
  | .strict, i, j => j ≥ i
/-- `one (i, j)`: functional.hpp:1899, 1983, 2048. -/
def lone : LKind → Nat → Nat → Bool
  | .lower, _, _ => false
  | .unit, i, j => j = i
  | .strict, _, _ => false
/-- `other (i, j)`: functional.hpp:1904, 1988, 2053. -/
def lother : LKind → Nat → Nat → Bool
  | .lower, i, j => j ≤ i
  | .unit, i, j => j < i
  | .strict, i, j => j < i
/-- `packed_size`: functional.hpp:1888-1890, 1975-1979, 2035-2039.  With checks off and a zero dimension the
unsigned `size - 1` is the largest size_type, whose `+ 1` wraps to 0, so the product and the result are 0. -/
def lpackedSize (dbg : Bool) : LKind → Nat → Nat → M Nat
  | .lower, si, sj => .ok (triangularSize si sj)
  | .unit, si, sj => do
      check dbg (si ≠ 0 ∧ sj ≠ 0) .badIndex
      return if si = 0 ∨ sj = 0 then 0 else triangularSize (si - 1) (sj - 1)
  | .strict, si, sj => do
      check dbg (si ≠ 0 ∧ sj ≠ 0) .badIndex
      return if si = 0 ∨ sj = 0 then 0 else triangularSize (si - 1) (sj - 1)
/-- `element`: functional.hpp:1910-1912, 1994-1998, 2059-2063. -/
def lelement (dbg : Bool) (o : Orient) : LKind → Nat → Nat → Nat → Nat → M Nat
  | .lower, i, si, j, sj => lowerElement dbg o i si j sj
  | .unit, i, si, j, sj => do
      check dbg (si ≠ 0 ∧ sj ≠ 0 ∧ i ≠ 0) .badIndex
      lowerElement dbg o (i - 1) (si - 1) j (sj - 1)
  | .strict, i, si, j, sj => do
      check dbg (si ≠ 0 ∧ sj ≠ 0 ∧ i ≠ 0) .badIndex
      lowerElement dbg o (i - 1) (si - 1) j (sj - 1)

/-- `zero`, with the transposition of functional.hpp:1816-1818 for the upper structures. -/
def zero (t : Tri) (i j : Nat) : Bool := if t.upper then lzero t.kind j i else lzero t.kind i j
/-- `one`; transposition functional.hpp:1821-1823. -/
def one (t : Tri) (i j : Nat) : Bool := if t.upper then lone t.kind j i else lone t.kind i j
/-- `other`; transposition functional.hpp:1826-1828. -/
def other (t : Tri) (i j : Nat) : Bool := if t.upper then lother t.kind j i else lother t.kind i j
/-- `packed_size`; transposition functional.hpp:1810-1812. -/
def packedSize (dbg : Bool) (t : Tri) (si sj : Nat) : M Nat :=
  if t.upper then lpackedSize dbg t.kind sj si else lpackedSize dbg t.kind si sj
/-- `element`; transposition functional.hpp:1832-1834 (also transposes the layout). -/
def element (dbg : Bool) (t : Tri) (o : Orient) (i si j sj : Nat) : M Nat :=
  if t.upper then lelement dbg o.transposed t.kind j sj i si else lelement dbg o t.kind i si j sj

/-- Loop body and loops of the triangular `matrix_resize_preserve`: triangular.hpp:30-57. -/
def resizeLoop (dbg : Bool) (t : Tri) (o : Orient) (ms1 ms2 : Nat) (md : List α) (s1 s2 : Nat)
    (td : List α) : M (List α) :=
  let s1min := min s1 ms1
  let s2min := min s2 ms2
  loop (fun major d => loop (fun minor d => do
      let i1 := o.indexM major minor
      let i2 := o.indexm major minor
      if other t i1 i2 then
        let kt ← element dbg t o i1 s1 i2 s2
        let km ← element dbg t o i1 ms1 i2 ms2
        let v ← rd dbg md km
        wr dbg d kt v
      else return d) (o.sizem s1min s2min) d) (o.sizeM s1min s2min) td

/-! ## triangular_matrix -/

/-- State: size1_, size2_, data_ (triangular.hpp:1042). -/
structure TMat (α : Type) where
  size1 : Nat
  size2 : Nat
  data : List α
  deriving DecidableEq, Repr

/-- `triangular_matrix (size1, size2)`: triangular.hpp:109-112 (uninitialised storage = `junk`). -/
def TMat.make (dbg : Bool) (t : Tri) (junk : Nat → α) (s1 s2 : Nat) : M (TMat α) := do
  let n ← packedSize dbg t s1 s2
  return ⟨s1, s2, (List.range n).map junk⟩

/-- `operator () (i, j) const`: triangular.hpp:172-181. -/
def TMat.get [Zero α] [One α] (dbg : Bool) (t : Tri) (o : Orient) (m : TMat α) (i j : Nat) : M α := do
  check dbg (i < m.size1) .badIndex
  check dbg (j < m.size2) .badIndex
  if other t i j then
    let k ← element dbg t o i m.size1 j m.size2
    rd dbg m.data k
  else if one t i j then return 1
  else return 0

/-- `operator () (i, j) = v` / `insert_element`: triangular.hpp:189-203.  The `bad_index` for an immutable
position is raised in every build mode. -/
def TMat.set (dbg : Bool) (t : Tri) (o : Orient) (m : TMat α) (i j : Nat) (v : α) : M (TMat α) := do
  check dbg (i < m.size1) .badIndex
  check dbg (j < m.size2) .badIndex
  if ¬ other t i j then throw .badIndex
  let k ← element dbg t o i m.size1 j m.size2
  let d ← wr dbg m.data k v
  return { m with data := d }

/-- `erase_element`: triangular.hpp:205-207. -/
def TMat.erase [Zero α] (dbg : Bool) (t : Tri) (o : Orient) (m : TMat α) (i j : Nat) : M (TMat α) :=
  m.set dbg t o i j 0

/-- `clear`: triangular.hpp:211-214. -/
def TMat.clear [Zero α] (m : TMat α) : TMat α := { m with data := m.data.map fun _ => 0 }

/-- `resize`: triangular.hpp:152-162. -/
def TMat.resize (dbg : Bool) (t : Tri) (o : Orient) (junk : Nat → α) (m : TMat α) (s1 s2 : Nat)
    (preserve : Bool) : M (TMat α) :=
  if preserve then do
    let tmp ← TMat.make dbg t junk s1 s2
    let d ← resizeLoop dbg t o m.size1 m.size2 m.data s1 s2 tmp.data
    return ⟨s1, s2, d⟩
  else do
    let n ← packedSize dbg t s1 s2
    return ⟨s1, s2, Dense.arrayResize junk m.data n⟩

/-! ## symmetric_matrix -/

/-- State: size_, data_ (symmetric.hpp:996, hermitian.hpp:1231). -/
structure SMat (α : Type) where
  size : Nat
  data : List α
  deriving DecidableEq, Repr

/-- `symmetric_matrix (size)`: symmetric.hpp:74-77; also `hermitian_matrix (size)`: hermitian.hpp:282-285. -/
def SMat.make (dbg : Bool) (t : Tri) (junk : Nat → α) (s : Nat) : M (SMat α) := do
  let n ← packedSize dbg t s s
  return ⟨s, (List.range n).map junk⟩

/-- Cell of (i,j): the stored one of (i,j), (j,i).  symmetric.hpp:147-150, 162-165. -/
def SMat.cell (dbg : Bool) (t : Tri) (o : Orient) (n i j : Nat) : M Nat :=
  if other t i j then element dbg t o i n j n else element dbg t o j n i n

/-- `operator () (i, j) const`: symmetric.hpp:144-151. -/
def SMat.get (dbg : Bool) (t : Tri) (o : Orient) (m : SMat α) (i j : Nat) : M α := do
  check dbg (i < m.size) .badIndex
  check dbg (j < m.size) .badIndex
  let k ← SMat.cell dbg t o m.size i j
  rd dbg m.data k

/-- `operator () (i, j) = v`, `insert_element`: symmetric.hpp:159-172. -/
def SMat.set (dbg : Bool) (t : Tri) (o : Orient) (m : SMat α) (i j : Nat) (v : α) : M (SMat α) := do
  check dbg (i < m.size) .badIndex
  check dbg (j < m.size) .badIndex
  let k ← SMat.cell dbg t o m.size i j
  let d ← wr dbg m.data k v
  return { m with data := d }

/-- `erase_element`: symmetric.hpp:174-176. -/
def SMat.erase [Zero α] (dbg : Bool) (t : Tri) (o : Orient) (m : SMat α) (i j : Nat) : M (SMat α) :=
  m.set dbg t o i j 0

/-- `clear`: symmetric.hpp:180-183; hermitian.hpp:406-408. -/
def SMat.clear [Zero α] (m : SMat α) : SMat α := { m with data := m.data.map fun _ => 0 }

/-- `resize (size, preserve)`: symmetric.hpp:122-131; hermitian.hpp:330-339. -/
def SMat.resize (dbg : Bool) (t : Tri) (o : Orient) (junk : Nat → α) (m : SMat α) (s : Nat)
    (preserve : Bool) : M (SMat α) :=
  if preserve then do
    let tmp ← SMat.make dbg t junk s
    let d ← resizeLoop dbg t o m.size m.size m.data s s tmp.data
    return ⟨s, d⟩
  else do
    let n ← packedSize dbg t s s
    return ⟨s, Dense.arrayResize junk m.data n⟩

/-! ## hermitian_matrix (default build, BOOST_UBLAS_STRICT_HERMITIAN on: detail/config.hpp:290) -/

/-- `operator () (i, j) const`: hermitian.hpp:352-362. -/
def SMat.hget (conj : α → α) (dbg : Bool) (t : Tri) (o : Orient) (m : SMat α) (i j : Nat) : M α := do
  check dbg (i < m.size) .badIndex
  check dbg (j < m.size) .badIndex
  if other t i j then
    let k ← element dbg t o i m.size j m.size
    rd dbg m.data k
  else
    let k ← element dbg t o j m.size i m.size
    let v ← rd dbg m.data k
    return conj v

/-- `insert_element`: hermitian.hpp:388-396. -/
def SMat.hinsert (conj : α → α) (dbg : Bool) (t : Tri) (o : Orient) (m : SMat α) (i j : Nat) (v : α) :
    M (SMat α) := do
  check dbg (i < m.size) .badIndex
  check dbg (j < m.size) .badIndex
  if other t i j then
    let k ← element dbg t o i m.size j m.size
    let d ← wr dbg m.data k v
    return { m with data := d }
  else
    let k ← element dbg t o j m.size i m.size
    let d ← wr dbg m.data k (conj v)
    return { m with data := d }

/-- The element copied into the proxy by the non-const `operator () (i, j)`: hermitian.hpp:378-382 (no check of its own). -/
def SMat.hload (conj : α → α) (dbg : Bool) (t : Tri) (o : Orient) (m : SMat α) (i j : Nat) : M α :=
  if other t i j then do
    let k ← element dbg t o i m.size j m.size
    rd dbg m.data k
  else do
    let k ← element dbg t o j m.size i m.size
    let v ← rd dbg m.data k
    return conj v

/-- A hermitian_matrix as the container of its element proxies. hermitian.hpp:378-396. -/
def SMat.hcont (conj : α → α) (dbg : Bool) (t : Tri) (o : Orient) : HCont (SMat α) α where
  load := fun m i j => m.hload conj dbg t o i j
  insert := fun m i j v => m.hinsert conj dbg t o i j v

/-- `m (i, j) = v` through the proxy. hermitian.hpp:64-68 with 59-62, 378-396. -/
def SMat.hassign (conj : α → α) (dbg : Bool) (t : Tri) (o : Orient) (m : SMat α) (i j : Nat) (v : α) : M (SMat α) :=
  (SMat.hcont conj dbg t o).exec true m (.value i j (fun _ x => x) v)

/-- `m (i, j) = v` in a build with BOOST_UBLAS_NO_ELEMENT_PROXIES: hermitian.hpp:372-377 with `at_element` 364-369: only the stored triangle,
`bad_index` otherwise in every build mode. -/
def SMat.hassignLoose (dbg : Bool) (t : Tri) (o : Orient) (m : SMat α) (i j : Nat) (v : α) : M (SMat α) := do
  if ¬ other t i j then throw .badIndex
  check dbg (i < m.size) .badIndex
  check dbg (j < m.size) .badIndex
  check dbg (other t i j = true) .badIndex
  let k ← element dbg t o i m.size j m.size
  let d ← wr dbg m.data k v
  return { m with data := d }

/-- `erase_element`: hermitian.hpp:398-402 (does not look at the triangle). -/
def SMat.herase [Zero α] (dbg : Bool) (t : Tri) (o : Orient) (m : SMat α) (i j : Nat) : M (SMat α) := do
  check dbg (i < m.size) .badIndex
  check dbg (j < m.size) .badIndex
  let k ← element dbg t o i m.size j m.size
  let d ← wr dbg m.data k 0
  return { m with data := d }

end Packed
end Ublas

namespace Ublas.Packed
variable {α : Type}

/-- One public operation on a triangular_matrix (operations as for the dense matrix). Client histories: composes the operations cited in this file; no code of its own in /repo. -/
def TMat.step [Zero α] (dbg : Bool) (t : Tri) (o : Orient) (junk : Nat → α) (m : TMat α) :
    Dense.Op α → M (TMat α)
  | .insert i j v => m.set dbg t o i j v
  | .erase i j => m.erase dbg t o i j
  | .clear => .ok m.clear
  | .resize s1 s2 p => m.resize dbg t o junk s1 s2 p

/-- A history of operations on a triangular_matrix. Client histories: composes the operations cited in this file; no code of its own in /repo. -/
def TMat.run [Zero α] (dbg : Bool) (t : Tri) (o : Orient) :
    TMat α → List (Dense.Op α × (Nat → α)) → M (TMat α)
  | m, [] => .ok m
  | m, (op, junk) :: ops => m.step dbg t o junk op >>= fun m' => TMat.run dbg t o m' ops

/-- Public operations on symmetric and hermitian matrices (one size). Client histories: composes the operations cited in this file; no code of its own in /repo. -/
inductive SOp (α : Type)
  | insert (i j : Nat) (t : α)
  | assign (i j : Nat) (t : α)
  | erase (i j : Nat)
  | clear
  | resize (s : Nat) (preserve : Bool)

/-- One operation on a symmetric_matrix; `m (i, j) = v` and `insert_element` are the same cell write
(symmetric.hpp:167-172). -/
def SMat.step [Zero α] (dbg : Bool) (t : Tri) (o : Orient) (junk : Nat → α) (m : SMat α) :
    SOp α → M (SMat α)
  | .insert i j v => m.set dbg t o i j v
  | .assign i j v => m.set dbg t o i j v
  | .erase i j => m.erase dbg t o i j
  | .clear => .ok m.clear
  | .resize s p => m.resize dbg t o junk s p

/-- One operation on a hermitian_matrix. Client histories: composes the operations cited in this file; no code of its own in /repo. -/
def SMat.hstep [Zero α] (conj : α → α) (dbg : Bool) (t : Tri) (o : Orient) (junk : Nat → α) (m : SMat α) :
    SOp α → M (SMat α)
  | .insert i j v => m.hinsert conj dbg t o i j v
  | .assign i j v => m.hassign conj dbg t o i j v
  | .erase i j => m.herase dbg t o i j
  | .clear => .ok m.clear
  | .resize s p => m.resize dbg t o junk s p

/-- A history on a symmetric_matrix. Client histories: composes the operations cited in this file; no code of its own in /repo. -/
def SMat.run [Zero α] (dbg : Bool) (t : Tri) (o : Orient) :
    SMat α → List (SOp α × (Nat → α)) → M (SMat α)
  | m, [] => .ok m
  | m, (op, junk) :: ops => m.step dbg t o junk op >>= fun m' => SMat.run dbg t o m' ops

/-- A history on a hermitian_matrix. Client histories: composes the operations cited in this file; no code of its own in /repo. -/
def SMat.hrun [Zero α] (conj : α → α) (dbg : Bool) (t : Tri) (o : Orient) :
    SMat α → List (SOp α × (Nat → α)) → M (SMat α)
  | m, [] => .ok m
  | m, (op, junk) :: ops => m.hstep conj dbg t o junk op >>= fun m' => SMat.hrun conj dbg t o m' ops

end Ublas.Packed
