import Verif.Model.CompressedVector
import Verif.Model.CompressedMatrix
/-!
# `insert_element` with a value that lives in the container

`insert_element (i, const_reference t)` keeps `t` as a reference while it makes room.  Here `t` refers to position `p` of `value_data_`, for example `v.insert_element (2, *v.find_element (5))` or, with
`const compressed_vector &c = v`, `v (2) = c (5)`.
-/
namespace Ublas
variable {α : Type}

/-- Reading `t`, which referred to `value_data_ [p]` when `value_data_` had `old` elements; `unbounded_array::resize` (storage.hpp:143-201) frees that block exactly if the length changes, and then `t` dangles. -/
def selfRead (old : Nat) (val : List α) (p : Nat) : M α := if val.length ≠ old then .error .ub else rd false val p

/-- vector_sparse.hpp:1042-1059 (as Model/CompressedVector `insertElement`, with `t` read where the code reads it). -/
def CVec.insertElementRef (dbg : Bool) (IB : Nat) (zero : α) (junk : CVec.Junk α) (v : CVec α) (i : Nat) (p : Nat) : M (CVec α × Nat) := do
  let old := v.val.length
  let _ ← (if dbg = true then do
      let r ← v.findElement dbg IB i
      check dbg (r.isNone = true) .badIndex
    else .ok () : M Unit)
  let v ← (if v.filled ≥ v.cap then v.reserve dbg IB zero junk (2 * v.cap) true else .ok v : M (CVec α))
  let n ← v.lb IB i
  let _ ← (if dbg = true ∧ v.filled ≠ 0 ∧ v.filled ≠ n then do
      let x ← rd false v.idx n
      check dbg (x ≠ i + IB) .internalLogic
    else .ok () : M Unit)
  let idx ← Search.copyBackward v.idx n v.filled
  let idx ← wr false idx n (i + IB)
  let val ← Search.copyBackward v.val n v.filled
  let t ← selfRead old val p
  let val ← wr false val n t
  let v : CVec α := ⟨v.size, v.cap, v.filled + 1, idx, val⟩
  v.invariants dbg IB
  .ok (v, n)

/-- matrix_sparse.hpp:3063-3093 (as Model/CompressedMatrix `insertElement`). -/
def CMat.insertElementRef (dbg : Bool) (o : Orient) (IB : Nat) (zero : α) (junk : CMat.Junk α) (v : CMat α) (i j : Nat) (p : Nat) : M (CMat α × Nat) := do
  let old := v.val.length
  let _ ← (if dbg = true then do
      let r ← v.findElement dbg o IB i j
      check dbg (r.isNone = true) .badIndex
    else .ok () : M Unit)
  let v ← (if v.filled2 ≥ v.cap then v.reserve dbg o IB zero junk (2 * v.filled2) true else .ok v : M (CMat α))
  check dbg (v.filled2 < v.cap) .internalLogic
  let e1 := o.indexM i j
  let e2 := o.indexm i j
  let v ← v.openTo dbg IB (e1 + 2)
  let r ← v.seek IB e1 e2
  check dbg (r.2 = false) .internalLogic
  let idx2 ← Search.copyBackward v.idx2 r.1 v.filled2
  let idx2 ← wr false idx2 r.1 (e2 + IB)
  let val ← Search.copyBackward v.val r.1 v.filled2
  let t ← selfRead old val p
  let val ← wr false val r.1 t
  let idx1 ← CMat.bump dbg (· + 1) v.idx1 e1 v.filled1
  let v : CMat α := { v with filled2 := v.filled2 + 1, idx1 := idx1, idx2 := idx2, val := val }
  v.invariants dbg o IB
  .ok (v, r.1)

end Ublas
