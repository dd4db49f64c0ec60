import Verif.Model.Packed
import Verif.Model.Banded
import Verif.Model.CompressedVector
import Verif.Model.CompressedMatrix
/-!
# Containers when an allocation throws

The statements of `resize`, `reserve`, `operator =` and `insert_element` in source order, over the containers of the earlier models, with an allocator that may throw `std::bad_alloc`: allocation number `k`
fails when `fail k`.  An exception returns the members as they are at that moment.  A member array itself is unchanged when its allocation fails (that is C104), and an `unbounded_array` allocates exactly
when its size changes to a non-zero one (storage.hpp:143-147).  Element types are assumed not to throw.
-/
namespace Ublas.XC
open Search
variable {σ α β γ : Type}

/-- Normal end, `std::bad_alloc` with the members left behind, or another fault (failed check, out of bounds access). Exception machinery of the model; no code of its own in /repo. -/
inductive Res (σ β : Type)
  | ok (b : β) (s : σ) (k : Nat)
  | bad (s : σ)
  | err (f : Fault)

/-- Statements: members before, allocations so far. Exception machinery of the model; no code of its own in /repo. -/
def X (σ β : Type) := σ → Nat → Res σ β

/-- Exception machinery of the model; no code of its own in /repo. -/
def X.bind (m : X σ β) (f : β → X σ γ) : X σ γ := fun s k =>
  match m s k with
  | .ok b s' k' => f b s' k'
  | .bad s' => .bad s'
  | .err e => .err e

instance : Monad (X σ) where
  pure b := fun s k => .ok b s k
  bind := X.bind

/-- Assignment to members. Exception machinery of the model; no code of its own in /repo. -/
def upd (f : σ → σ) : X σ Unit := fun s k => .ok () (f s) k
/-- The members. Exception machinery of the model; no code of its own in /repo. -/
def self : X σ σ := fun s k => .ok s s k
/-- A computation that allocates nothing. Exception machinery of the model; no code of its own in /repo. -/
def eval (m : M β) : X σ β := fun s k => match m with | .ok b => .ok b s k | .error f => .err f
/-- `alloc_.allocate`. storage.hpp:69, 91, 102, 147; whether it throws is the environment's choice. -/
def allocate (fail : Nat → Bool) : X σ Unit := fun s k => if fail k then .bad s else .ok () s (k + 1)
/-- The allocation of an array of `len` elements that is given `n` elements: storage.hpp:66-69, 143-147, 244-250. -/
def room (fail : Nat → Bool) (len n : Nat) : X σ Unit := if n ≠ len ∧ n ≠ 0 then allocate fail else pure ()

/-! ## matrix -/

/-- `m = n`: matrix.hpp:331-336. -/
def denseAssign (fail : Nat → Bool) (n : Dense α) : X (Dense α) Unit := do
  upd fun m => { m with size1 := n.size1 }
  upd fun m => { m with size2 := n.size2 }
  let m ← self
  room fail m.data.length n.data.length
  upd fun m => { m with data := n.data }

/-- `m.resize (s1, s2, preserve)`: matrix.hpp:217-227. -/
def denseResize (fail : Nat → Bool) (dbg : Bool) (o : Orient) (junk : Nat → α) (s1 s2 : Nat) (preserve : Bool) : X (Dense α) Unit :=
  if preserve then do
    room fail 0 (o.storageSize s1 s2)
    let m ← self
    let r ← eval (Dense.resizePreserve dbg o m (Dense.mk' junk o s1 s2))
    upd fun _ => r
  else do
    let m ← self
    room fail m.data.length (o.storageSize s1 s2)
    upd fun m => { m with data := Dense.arrayResize junk m.data (o.storageSize s1 s2) }
    upd fun m => { m with size1 := s1 }
    upd fun m => { m with size2 := s2 }

/-- `m = expression`: matrix.hpp:351-355; the temporary is built (one array, then the elements `e`) and swapped in. -/
def denseAssignExpr (fail : Nat → Bool) (o : Orient) (r c : Nat) (e : M (List α)) : X (Dense α) Unit := do
  room fail 0 (o.storageSize r c)
  let d ← eval e
  upd fun _ => ⟨r, c, d⟩

/-! ## Packed and banded matrices -/

/-- triangular.hpp:218-223. -/
def triAssign (fail : Nat → Bool) (n : Packed.TMat α) : X (Packed.TMat α) Unit := do
  upd fun m => { m with size1 := n.size1 }
  upd fun m => { m with size2 := n.size2 }
  let m ← self
  room fail m.data.length n.data.length
  upd fun m => { m with data := n.data }

/-- triangular.hpp:152-162. -/
def triResize (fail : Nat → Bool) (dbg : Bool) (t : Tri) (o : Orient) (junk : Nat → α) (s1 s2 : Nat) (preserve : Bool) : X (Packed.TMat α) Unit :=
  if preserve then do
    let n ← eval (Packed.packedSize dbg t s1 s2)
    room fail 0 n
    let m ← self
    let d ← eval (Packed.resizeLoop dbg t o m.size1 m.size2 m.data s1 s2 ((List.range n).map junk))
    upd fun _ => ⟨s1, s2, d⟩
  else do
    let n ← eval (Packed.packedSize dbg t s1 s2)
    let m ← self
    room fail m.data.length n
    upd fun m => { m with data := Dense.arrayResize junk m.data n }
    upd fun m => { m with size1 := s1 }
    upd fun m => { m with size2 := s2 }

/-- symmetric.hpp:187-191, hermitian.hpp:412-416. -/
def symAssign (fail : Nat → Bool) (n : Packed.SMat α) : X (Packed.SMat α) Unit := do
  upd fun m => { m with size := n.size }
  let m ← self
  room fail m.data.length n.data.length
  upd fun m => { m with data := n.data }

/-- symmetric.hpp:122-131, hermitian.hpp:330-339. -/
def symResize (fail : Nat → Bool) (dbg : Bool) (t : Tri) (o : Orient) (junk : Nat → α) (s : Nat) (preserve : Bool) : X (Packed.SMat α) Unit :=
  if preserve then do
    let n ← eval (Packed.packedSize dbg t s s)
    room fail 0 n
    let m ← self
    let d ← eval (Packed.resizeLoop dbg t o m.size m.size m.data s s ((List.range n).map junk))
    upd fun _ => ⟨s, d⟩
  else do
    let n ← eval (Packed.packedSize dbg t s s)
    let m ← self
    room fail m.data.length n
    upd fun m => { m with data := Dense.arrayResize junk m.data n }
    upd fun m => { m with size := s }

/-- banded.hpp:332-339. -/
def bandAssign (fail : Nat → Bool) (n : BMat α) : X (BMat α) Unit := do
  upd fun m => { m with size1 := n.size1 }
  upd fun m => { m with size2 := n.size2 }
  upd fun m => { m with lower := n.lower }
  upd fun m => { m with upper := n.upper }
  let m ← self
  room fail m.data.length n.data.length
  upd fun m => { m with data := n.data }

/-- banded.hpp:206-218. -/
def bandResize (fail : Nat → Bool) (dbg : Bool) (o : Orient) (junk : Nat → α) (s1 s2 l u : Nat) (preserve : Bool) : X (BMat α) Unit :=
  if preserve then do
    room fail 0 (BMat.bandSize o s1 s2 * (l + 1 + u))
    let m ← self
    let r ← eval (Dense.resizePreserve dbg o ⟨m.size1, m.size2, m.data⟩ ⟨s1, s2, (BMat.make o junk s1 s2 l u).data⟩)
    upd fun _ => ⟨s1, s2, l, u, r.data⟩
  else do
    let m ← self
    room fail m.data.length (max s1 s2 * (l + 1 + u))
    upd fun m => { m with data := Dense.arrayResize junk m.data (max s1 s2 * (l + 1 + u)) }
    upd fun m => { m with size1 := s1 }
    upd fun m => { m with size2 := s2 }
    upd fun m => { m with lower := l }
    upd fun m => { m with upper := u }

/-! ## compressed_vector -/

/-- `v.reserve (nz, true)`: vector_sparse.hpp:975-988. -/
def cvReserve (fail : Nat → Bool) (dbg : Bool) (IB : Nat) (zero : α) (nz : Nat) : X (CVec α) Unit := do
  upd fun v => { v with cap := CVec.restrictCapacity v.size nz }
  let v ← self
  room fail v.idx.length v.cap
  upd fun v => { v with idx := resizeInit v.idx v.cap 0 }
  let v ← self
  room fail v.val.length v.cap
  upd fun v => { v with val := resizeInit v.val v.cap zero }
  upd fun v => { v with filled := min v.cap v.filled }
  let v ← self
  eval (v.invariants dbg IB)

/-- `v.resize (size, true)`: vector_sparse.hpp:954-971. -/
def cvResize (fail : Nat → Bool) (dbg : Bool) (IB : Nat) (zero : α) (size : Nat) : X (CVec α) Unit := do
  upd fun v => { v with size := size }
  upd fun v => { v with cap := CVec.restrictCapacity v.size v.cap }
  let v ← self
  room fail v.idx.length v.cap
  upd fun v => { v with idx := resizeInit v.idx v.cap 0 }
  let v ← self
  room fail v.val.length v.cap
  upd fun v => { v with val := resizeInit v.val v.cap zero }
  upd fun v => { v with filled := min v.cap v.filled }
  let v ← self
  let f ← eval (CVec.shrink dbg IB size v.idx v.filled)
  upd fun v => { v with filled := f }
  let v ← self
  eval (v.invariants dbg IB)

/-- `v.insert_element (i, t)`: vector_sparse.hpp:1042-1059. -/
def cvInsert (fail : Nat → Bool) (dbg : Bool) (IB : Nat) (zero : α) (i : Nat) (t : α) : X (CVec α) Unit := do
  let v ← self
  eval (if dbg = true then do
      let r ← v.findElement dbg IB i
      check dbg (r.isNone = true) .badIndex
    else .ok () : M Unit)
  (if v.filled ≥ v.cap then cvReserve fail dbg IB zero (2 * v.cap) else pure () : X (CVec α) Unit)
  let v ← self
  let n ← eval (v.lb IB i)
  eval (if dbg = true ∧ v.filled ≠ 0 ∧ v.filled ≠ n then do
      let x ← rd false v.idx n
      check dbg (x ≠ i + IB) .internalLogic
    else .ok () : M Unit)
  let idx ← eval (copyBackward v.idx n v.filled)
  let idx ← eval (wr false idx n (i + IB))
  let val ← eval (copyBackward v.val n v.filled)
  let val ← eval (wr false val n t)
  upd fun v => ⟨v.size, v.cap, v.filled + 1, idx, val⟩
  let v ← self
  eval (v.invariants dbg IB)

/-- `v = w` for two different objects: vector_sparse.hpp:1082-1092. -/
def cvAssign (fail : Nat → Bool) (dbg : Bool) (IB : Nat) (w : CVec α) : X (CVec α) Unit := do
  upd fun v => { v with size := w.size }
  upd fun v => { v with cap := w.cap }
  upd fun v => { v with filled := w.filled }
  let v ← self
  room fail v.idx.length w.idx.length
  upd fun v => { v with idx := w.idx }
  let v ← self
  room fail v.val.length w.val.length
  upd fun v => { v with val := w.val }
  let v ← self
  eval (v.invariants dbg IB)

end Ublas.XC
