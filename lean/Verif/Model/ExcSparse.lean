import Verif.Model.ExcContainers
import Verif.Model.Coo
/-!
# compressed_matrix and the coordinate containers when an allocation throws

Same conventions as Model/ExcContainers: the statements in source order, an exception returns the members as they are at that moment.
-/
namespace Ublas.XC
open Search
variable {κ α : Type}

/-! ## compressed_matrix -/

/-- `m.reserve (nz, true)`: matrix_sparse.hpp:2998-3003, 3012. -/
def cmReserve (fail : Nat → Bool) (dbg : Bool) (o : Orient) (IB : Nat) (zero : α) (nz : Nat) : X (CMat α) Unit := do
  upd fun m => { m with cap := CMat.restrictCapacity m.size1 m.size2 nz }
  let m ← self
  room fail m.idx2.length m.cap
  upd fun m => { m with idx2 := resizeInit m.idx2 m.cap 0 }
  let m ← self
  room fail m.val.length m.cap
  upd fun m => { m with val := resizeInit m.val m.cap zero }
  upd fun m => { m with filled2 := min m.cap m.filled2 }
  let m ← self
  eval (m.invariants dbg o IB)

/-- `m.resize (r, c, false)`: matrix_sparse.hpp:2981-2994. -/
def cmResize (fail : Nat → Bool) (dbg : Bool) (o : Orient) (IB : Nat) (junk : CMat.Junk α) (r c : Nat) : X (CMat α) Unit := do
  upd fun m => { m with size1 := r }
  upd fun m => { m with size2 := c }
  upd fun m => { m with cap := CMat.restrictCapacity m.size1 m.size2 m.cap }
  upd fun m => { m with filled1 := 1 }
  upd fun m => { m with filled2 := 0 }
  let m ← self
  room fail m.idx1.length (o.sizeM m.size1 m.size2 + 1)
  upd fun m => { m with idx1 := resizeRaw junk.1 m.idx1 (o.sizeM m.size1 m.size2 + 1) }
  let m ← self
  room fail m.idx2.length m.cap
  upd fun m => { m with idx2 := resizeRaw junk.1 m.idx2 m.cap }
  let m ← self
  room fail m.val.length m.cap
  upd fun m => { m with val := resizeRaw junk.2 m.val m.cap }
  let m ← self
  let idx1 ← eval (wr dbg m.idx1 (m.filled1 - 1) (m.filled2 + IB))
  upd fun m => { m with idx1 := idx1 }
  let m ← self
  eval (m.invariants dbg o IB)

/-- `m.insert_element (i, j, t)`: matrix_sparse.hpp:3063-3093.  Only line 3066 allocates: the statements after it are those of the failure-free model, which finds room and reserves nothing (its
duplicate check, line 3064, is evaluated a second time, without effect). -/
def cmInsert (fail : Nat → Bool) (dbg : Bool) (o : Orient) (IB : Nat) (zero : α) (junk : CMat.Junk α) (i j : Nat) (t : α) : X (CMat α) Unit := do
  let m ← self
  eval (if dbg = true then do
      let r ← m.findElement dbg o IB i j
      check dbg (r.isNone = true) .badIndex
    else .ok () : M Unit)
  (if m.filled2 ≥ m.cap then cmReserve fail dbg o IB zero (2 * m.filled2) else pure () : X (CMat α) Unit)
  let m ← self
  let r ← eval (m.insertElement dbg o IB zero junk i j t)
  upd fun _ => r.1

/-- `m = w` for two different objects: matrix_sparse.hpp:3133-3146. -/
def cmAssign (fail : Nat → Bool) (dbg : Bool) (o : Orient) (IB : Nat) (w : CMat α) : X (CMat α) Unit := do
  upd fun m => { m with size1 := w.size1 }
  upd fun m => { m with size2 := w.size2 }
  upd fun m => { m with cap := w.cap }
  upd fun m => { m with filled1 := w.filled1 }
  upd fun m => { m with filled2 := w.filled2 }
  let m ← self
  room fail m.idx1.length w.idx1.length
  upd fun m => { m with idx1 := w.idx1 }
  let m ← self
  room fail m.idx2.length w.idx2.length
  upd fun m => { m with idx2 := w.idx2 }
  let m ← self
  room fail m.val.length w.val.length
  upd fun m => { m with val := w.val }
  let m ← self
  eval (m.invariants dbg o IB)

/-! ## coordinate_vector (and, with the two index arrays taken as one, coordinate_matrix) -/
variable [DecidableEq κ] [Add α]

/-- `v.reserve (nz, true)`: vector_sparse.hpp:1639-1646, 1653-1654 / matrix_sparse.hpp:4428-4435, 4443-4444.  Simplification: for the matrix the allocations of `index1_data_` and `index2_data_` are one. -/
def cooReserve (fail : Nat → Bool) (dbg : Bool) (P : CooPar κ α) (zero : α) (nz : Nat) : X (Coo κ α) Unit := do
  let v ← self
  let v ← eval (v.sort dbg P)
  upd fun _ => v
  upd fun v => { v with cap := Coo.restrictCapacity P nz }
  let v ← self
  room fail v.idx.length v.cap
  upd fun v => { v with idx := resizeInit v.idx v.cap P.key0 }
  let v ← self
  room fail v.val.length v.cap
  upd fun v => { v with val := resizeInit v.val v.cap zero }
  upd fun v => { v with filled := min v.cap v.filled }
  upd fun v => { v with sortedFilled := v.filled }
  let v ← self
  eval (v.invariants dbg P)

/-- `v.append_element (k, t)`: vector_sparse.hpp:1712-1721 / matrix_sparse.hpp:4493-4505.  Only the reservation allocates; the rest is the failure-free model, which then finds room. -/
def cooAppend (fail : Nat → Bool) (dbg : Bool) (P : CooPar κ α) (zero : α) (junk : Coo.Junk κ α) (k : κ) (t : α) : X (Coo κ α) Unit := do
  let v ← self
  (if v.filled ≥ v.cap then cooReserve fail dbg P zero (2 * v.filled) else pure () : X (Coo κ α) Unit)
  let v ← self
  let v ← eval (v.append dbg P zero junk k t)
  upd fun _ => v

/-- `v = w` for two different objects: vector_sparse.hpp:1754-1766 / matrix_sparse.hpp:4546-4563. -/
def cooAssign (fail : Nat → Bool) (dbg : Bool) (P : CooPar κ α) (w : Coo κ α) : X (Coo κ α) Unit := do
  upd fun v => { v with cap := w.cap }
  upd fun v => { v with filled := w.filled }
  upd fun v => { v with sortedFilled := w.sortedFilled }
  upd fun v => { v with sorted := w.sorted }
  let v ← self
  room fail v.idx.length w.idx.length
  upd fun v => { v with idx := w.idx }
  let v ← self
  room fail v.val.length w.val.length
  upd fun v => { v with val := w.val }
  let v ← self
  eval (v.invariants dbg P)

end Ublas.XC
