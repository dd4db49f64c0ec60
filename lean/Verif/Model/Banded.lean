import Verif.Model.Dense
/-!
# `banded_matrix` (banded.hpp:96-1171), default build (neither BOOST_UBLAS_OWN_BANDED nor
BOOST_UBLAS_LEGACY_BANDED)
-/
namespace Ublas

/-- State: size1_, size2_, lower_, upper_, data_ (banded.hpp:1166-1170). -/
structure BMat (α : Type) where
  size1 : Nat
  size2 : Nat
  lower : Nat
  upper : Nat
  data : List α
  deriving DecidableEq, Repr

namespace BMat
variable {α : Type}

/-- `banded_indexing::size`: banded.hpp:44-46 (column), 67-69 (row). -/
def bandSize : Orient → Nat → Nat → Nat
  | .col, _, s2 => s2
  | .row, s1, _ => s1

/-- `banded_matrix (size1, size2, lower, upper)`: banded.hpp:133-143. -/
def make (o : Orient) (junk : Nat → α) (s1 s2 l u : Nat) : BMat α :=
  ⟨s1, s2, l, u, (List.range (bandSize o s1 s2 * (l + 1 + u))).map junk⟩

/-- `is_element_in_band`: banded.hpp:199-202. -/
def inBand (m : BMat α) (i j : Nat) : Bool := m.upper + i ≥ j ∧ i ≤ j + m.lower

/-- `get_index`: banded.hpp:54-56 (column), 77-79 (row).  `upper + i - j` (resp. `lower + j - i`) is unsigned;
a wrapped value fails the first check of `element`, and without checks the whole offset is congruent to the
natural number written here. -/
def getIndex (dbg : Bool) (o : Orient) (m : BMat α) (i j : Nat) : M Nat :=
  let w := m.lower + 1 + m.upper
  match o with
  | .col => do
      check dbg (j ≤ m.upper + i ∧ m.upper + i - j < w) .badIndex
      check dbg (j < m.size2) .badIndex
      return m.upper + i + j * w - j
  | .row => do
      check dbg (i < m.size1) .badIndex
      check dbg (i ≤ m.lower + j ∧ m.lower + j - i < w) .badIndex
      return i * w + m.lower + j - i

/-- `operator () (i, j) const`: banded.hpp:231-255. -/
def get [Zero α] (dbg : Bool) (o : Orient) (m : BMat α) (i j : Nat) : M α := do
  check dbg (i < m.size1) .badIndex
  check dbg (j < m.size2) .badIndex
  if m.inBand i j then
    let k ← getIndex dbg o m i j
    rd dbg m.data k
  else return 0

/-- `operator () (i, j) = v`, `at_element`, `insert_element`: banded.hpp:258-281, 283-312, 316-318. -/
def set (dbg : Bool) (o : Orient) (m : BMat α) (i j : Nat) (v : α) : M (BMat α) := do
  check dbg (i < m.size1) .badIndex
  check dbg (j < m.size2) .badIndex
  check dbg (m.inBand i j = true) .badIndex
  let k ← getIndex dbg o m i j
  let d ← wr dbg m.data k v
  return { m with data := d }

/-- `erase_element`: banded.hpp:320-322. -/
def erase [Zero α] (dbg : Bool) (o : Orient) (m : BMat α) (i j : Nat) : M (BMat α) := m.set dbg o i j 0

/-- `clear`: banded.hpp:326-328. -/
def clear [Zero α] (m : BMat α) : BMat α := { m with data := m.data.map fun _ => 0 }

/-- `resize (size1, size2, lower, upper, preserve)`: banded.hpp:206-218.  With `preserve` it calls the dense
`matrix_resize_preserve` (matrix.hpp:50-74) on the band storage. -/
def resize (dbg : Bool) (o : Orient) (junk : Nat → α) (m : BMat α) (s1 s2 l u : Nat) (preserve : Bool) :
    M (BMat α) :=
  if preserve then do
    let tmp := make o junk s1 s2 l u
    let r ← Dense.resizePreserve dbg o ⟨m.size1, m.size2, m.data⟩ ⟨s1, s2, tmp.data⟩
    return ⟨s1, s2, l, u, r.data⟩
  else .ok ⟨s1, s2, l, u, Dense.arrayResize junk m.data (max s1 s2 * (l + 1 + u))⟩

/-- Public operations. Client histories: composes the operations cited in this file; no code of its own in /repo. -/
inductive Op (α : Type)
  | insert (i j : Nat) (t : α)
  | erase (i j : Nat)
  | clear
  | resize (s1 s2 l u : Nat)

/-- One operation (resize without preservation). Client histories: composes the operations cited in this file; no code of its own in /repo. -/
def step [Zero α] (dbg : Bool) (o : Orient) (junk : Nat → α) (m : BMat α) : Op α → M (BMat α)
  | .insert i j v => m.set dbg o i j v
  | .erase i j => m.erase dbg o i j
  | .clear => .ok m.clear
  | .resize s1 s2 l u => m.resize dbg o junk s1 s2 l u false

/-- A history of operations. Client histories: composes the operations cited in this file; no code of its own in /repo. -/
def run [Zero α] (dbg : Bool) (o : Orient) : BMat α → List (Op α × (Nat → α)) → M (BMat α)
  | m, [] => .ok m
  | m, (op, junk) :: ops => m.step dbg o junk op >>= fun m' => run dbg o m' ops

end BMat
end Ublas
