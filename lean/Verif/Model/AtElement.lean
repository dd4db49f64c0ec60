import Verif.Model.Packed
/-! # `at_element` of the packed matrices: element access without the look at the structure -/
namespace Ublas.Packed
variable {α : Type}

/-- `at_element (i, j) = v` of a triangular_matrix: triangular.hpp:182-187. -/
def TMat.atElement (dbg : Bool) (t : Tri) (o : Orient) (m : TMat α) (i j : Nat) (v : α) : M (TMat α) := do
  check dbg (i < m.size1) .badIndex
  check dbg (j < m.size2) .badIndex
  let k ← element dbg t o i m.size1 j m.size2
  let d ← wr dbg m.data k v
  return { m with data := d }

/-- `at_element (i, j) = v` of a symmetric_matrix: symmetric.hpp:152-157.  Unlike `operator ()` it does not go to the stored one of (i, j), (j, i). -/
def SMat.atElement (dbg : Bool) (t : Tri) (o : Orient) (m : SMat α) (i j : Nat) (v : α) : M (SMat α) := do
  check dbg (i < m.size) .badIndex
  check dbg (j < m.size) .badIndex
  let k ← element dbg t o i m.size j m.size
  let d ← wr dbg m.data k v
  return { m with data := d }

/-- `at_element (i, j) = v` of a hermitian_matrix: hermitian.hpp:363-369. -/
def SMat.hatElement (dbg : Bool) (t : Tri) (o : Orient) (m : SMat α) (i j : Nat) (v : α) : M (SMat α) := do
  check dbg (i < m.size) .badIndex
  check dbg (j < m.size) .badIndex
  check dbg (other t i j = true) .badIndex
  let k ← element dbg t o i m.size j m.size
  let d ← wr dbg m.data k v
  return { m with data := d }

end Ublas.Packed
