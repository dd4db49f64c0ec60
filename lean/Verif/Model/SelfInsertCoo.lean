import Verif.Model.SelfInsert
import Verif.Model.Coo
/-!
# `append_element` and `insert_element` of the coordinate containers with a value that lives in the container

As in Model/SelfInsert, `t` refers to position `p` of `value_data_`, for example `v.insert_element (2, *v.find_element (5))`, or the reference that an earlier `insert_element` has returned.
-/
namespace Ublas
variable {κ α : Type} [DecidableEq κ]

/-- vector_sparse.hpp:1712-1721 / matrix_sparse.hpp:4493-4505 (as Model/Coo `append`, with `t` read where the code reads it: after `reserve` and after the index has been stored). -/
def Coo.appendRef [Add α] (dbg : Bool) (P : CooPar κ α) (zero : α) (junk : Coo.Junk κ α) (v : Coo κ α) (k : κ) (p : Nat) : M (Coo κ α) := do
  let old := v.val.length
  let v ← (if v.filled ≥ v.cap then v.reserve dbg P zero junk (2 * v.filled) true else .ok v : M (Coo κ α))
  check dbg (v.filled < v.cap) .internalLogic
  let idx ← wr dbg v.idx v.filled k
  let t ← selfRead old v.val p
  let val ← wr dbg v.val v.filled t
  let v : Coo κ α := ⟨v.cap, v.filled + 1, v.sortedFilled, false, idx, val⟩
  v.invariants dbg P
  .ok v

/-- vector_sparse.hpp:1723-1727 / matrix_sparse.hpp:4507-4511: the debug check calls `find_element`, which sorts the arrays `t` refers into. -/
def Coo.insertRef [Add α] (dbg : Bool) (P : CooPar κ α) (zero : α) (junk : Coo.Junk κ α) (v : Coo κ α) (k : κ) (p : Nat) : M (Coo κ α) := do
  let v ← (if dbg = true then do
      let r ← v.find dbg P k
      check dbg (r.2.isNone = true) .badIndex
      .ok r.1
    else .ok v : M (Coo κ α))
  v.appendRef dbg P zero junk k p

end Ublas
