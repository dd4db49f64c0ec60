import Verif.Model.Search
/-! # compressed_vector (include/boost/numeric/ublas/vector_sparse.hpp:823-1468)

Two parallel arrays: sorted (IB-based) indices and values; the first `filled` cells are in use.
Pointers into the arrays (`subiterator_type`) are positions; accesses through them are unchecked
(`rd false`), accesses through `unbounded_array::operator []` are checked in debug builds (`rd dbg`).
`IB` is the index base (a template argument, 0 or 1 in practice).  Not modelled: overflow of `i + IB` and
of `2 * capacity`, allocation failure, serialization (see Model/Serialize), the strict element proxy. -/
namespace Ublas
open Search
variable {α : Type}

/-- vector_sparse.hpp:1447-1451. -/
structure CVec (α : Type) where
  size : Nat
  cap : Nat
  filled : Nat
  idx : List Nat
  val : List α
  deriving DecidableEq

/-- Operations a client can perform. Client histories: composes the operations cited in this file; no code of its own in /repo. -/
inductive CVOp (α : Type)
  | modify (i : Nat) (f : α → α)      -- v (i) = f (v (i))
  | insert (i : Nat) (t : α)
  | erase (i : Nat)
  | clear
  | resize (n : Nat) (preserve : Bool)
  | reserve (n : Nat) (preserve : Bool)
  | pushBack (i : Nat) (t : α)
  | popBack

namespace CVec

/-- `storage_invariants`: vector_sparse.hpp:1439-1445. -/
def invariants (dbg : Bool) (IB : Nat) (v : CVec α) : M Unit := do
  check dbg (v.cap = v.idx.length) .internalLogic
  check dbg (v.cap = v.val.length) .internalLogic
  check dbg (v.filled ≤ v.cap) .internalLogic
  if dbg = true ∧ v.filled ≠ 0 then do
    let x ← rd dbg v.idx (v.filled - 1)
    check dbg (x - IB < v.size) .internalLogic
  else .ok ()

/-- `restrict_capacity`: vector_sparse.hpp:947-951. -/
def restrictCapacity (size nz : Nat) : Nat := min (max nz 1) size

/-- Contents of freshly allocated or re-allocated arrays are arbitrary: `junk`. Client histories: composes the operations cited in this file; no code of its own in /repo. -/
abbrev Junk (α : Type) := (Nat → Nat) × (Nat → α)

/-- Constructor (size, non_zeros): vector_sparse.hpp:876-881. -/
def ctor (dbg : Bool) (IB : Nat) (junk : Junk α) (size nz : Nat) : M (CVec α) := do
  let cap := restrictCapacity size nz
  let v : CVec α := ⟨size, cap, 0, (List.range cap).map junk.1, (List.range cap).map junk.2⟩
  v.invariants dbg IB
  .ok v

/-- The `while` loop of `resize`: vector_sparse.hpp:961-963. -/
def shrink (dbg : Bool) (IB size : Nat) (idx : List Nat) : Nat → M Nat
  | 0 => .ok 0
  | f + 1 => do
      let x ← rd dbg idx f
      if x - IB ≥ size then shrink dbg IB size idx f else .ok (f + 1)

/-- `resize (size, preserve)`: vector_sparse.hpp:954-971. -/
def resize (dbg : Bool) (IB : Nat) (zero : α) (junk : Junk α) (v : CVec α) (size : Nat) (preserve : Bool) : M (CVec α) := do
  let cap := restrictCapacity size v.cap
  let v' ← (if preserve then do
      let idx := resizeInit v.idx cap 0
      let val := resizeInit v.val cap zero
      let f ← shrink dbg IB size idx (min cap v.filled)
      .ok ⟨size, cap, f, idx, val⟩
    else .ok ⟨size, cap, 0, resizeRaw junk.1 v.idx cap, resizeRaw junk.2 v.val cap⟩ : M (CVec α))
  v'.invariants dbg IB
  .ok v'

/-- `reserve (non_zeros, preserve)`: vector_sparse.hpp:975-988. -/
def reserve (dbg : Bool) (IB : Nat) (zero : α) (junk : Junk α) (v : CVec α) (nz : Nat) (preserve : Bool) : M (CVec α) := do
  let cap := restrictCapacity v.size nz
  let v' : CVec α := if preserve then
      ⟨v.size, cap, min cap v.filled, resizeInit v.idx cap 0, resizeInit v.val cap zero⟩
    else ⟨v.size, cap, 0, resizeRaw junk.1 v.idx cap, resizeRaw junk.2 v.val cap⟩
  v'.invariants dbg IB
  .ok v'

/-- `detail::lower_bound (index_data_.begin (), index_data_.begin () + filled_, k_based (i))`. vector_sparse.hpp:997, 1007, 1015, 1046, 1062, 1213, 1225. -/
def lb (IB : Nat) (v : CVec α) (i : Nat) : M Nat := lowerBound v.idx 0 v.filled (i + IB)

/-- The test `it == index_data_.begin () + filled_ || *it != k_based (i)` used by every look-up; `some n`
when the element is stored at position `n`. vector_sparse.hpp:998, 1008, 1016, 1063, 1214. -/
def slot (IB : Nat) (v : CVec α) (i : Nat) : M (Option Nat) := do
  let it ← v.lb IB i
  if it = v.filled then .ok none else do
    let x ← rd false v.idx it
    if x ≠ i + IB then .ok none else .ok (some it)

/-- `find_element (i)`: vector_sparse.hpp:996-1001 (`none` is the null pointer). -/
def findElement (dbg : Bool) (IB : Nat) (v : CVec α) (i : Nat) : M (Option α) := do
  match ← v.slot IB i with
  | none => .ok none
  | some n => do let x ← rd dbg v.val n; .ok (some x)

/-- `operator () (i) const`: vector_sparse.hpp:1005-1011. -/
def get (dbg : Bool) (IB : Nat) (zero : α) (v : CVec α) (i : Nat) : M α := do
  check dbg (i < v.size) .badIndex
  match ← v.slot IB i with
  | none => .ok zero
  | some n => rd dbg v.val n

/-- `insert_element (i, t)`: vector_sparse.hpp:1042-1059; also returns the position of the new element. -/
def insertElement (dbg : Bool) (IB : Nat) (zero : α) (junk : Junk α) (v : CVec α) (i : Nat) (t : α) : M (CVec α × Nat) := do
  let _ ← (if dbg = true then do
      let r ← v.findElement dbg IB i
      check dbg (r.isNone = true) .badIndex
    else .ok () : M Unit)
  let v ← (if v.filled ≥ v.cap then v.reserve dbg IB zero junk (2 * v.cap) true else .ok v : M (CVec α))
  let n ← v.lb IB i
  let _ ← (if dbg = true ∧ v.filled ≠ 0 ∧ v.filled ≠ n then do
      let x ← rd false v.idx n
      check dbg (x ≠ i + IB) .internalLogic
    else .ok () : M Unit)
  let idx ← copyBackward v.idx n v.filled
  let idx ← wr false idx n (i + IB)
  let val ← copyBackward v.val n v.filled
  let val ← wr false val n t
  let v : CVec α := ⟨v.size, v.cap, v.filled + 1, idx, val⟩
  v.invariants dbg IB
  .ok (v, n)

/-- `v (i) = f (v (i))` through `ref`: vector_sparse.hpp:1013-1020. -/
def modify (dbg : Bool) (IB : Nat) (zero : α) (junk : Junk α) (v : CVec α) (i : Nat) (f : α → α) : M (CVec α) := do
  check dbg (i < v.size) .badIndex
  let (v, n) ← (match ← v.slot IB i with
    | none => v.insertElement dbg IB zero junk i zero
    | some n => .ok (v, n) : M (CVec α × Nat))
  let x ← rd dbg v.val n
  let val ← wr dbg v.val n (f x)
  .ok { v with val := val }

/-- `erase_element (i)`: vector_sparse.hpp:1061-1071. -/
def eraseElement (dbg : Bool) (IB : Nat) (v : CVec α) (i : Nat) : M (CVec α) := do
  let v ← (match ← v.slot IB i with
    | none => .ok v
    | some n => do
        let idx ← copyForward v.idx (n + 1) v.filled n
        let val ← copyForward v.val (n + 1) v.filled n
        .ok ⟨v.size, v.cap, v.filled - 1, idx, val⟩ : M (CVec α))
  v.invariants dbg IB
  .ok v

/-- `clear ()`: vector_sparse.hpp:1075-1078. -/
def clear (dbg : Bool) (IB : Nat) (v : CVec α) : M (CVec α) := do
  let v := { v with filled := 0 }
  v.invariants dbg IB
  .ok v

/-- `push_back (i, t)`: vector_sparse.hpp:1187-1196. -/
def pushBack (dbg : Bool) (IB : Nat) (zero : α) (junk : Junk α) (v : CVec α) (i : Nat) (t : α) : M (CVec α) := do
  let _ ← (if dbg = true ∧ v.filled ≠ 0 then do
      let x ← rd dbg v.idx (v.filled - 1)
      check dbg (x < i + IB) .externalLogic
    else .ok () : M Unit)
  let v ← (if v.filled ≥ v.cap then v.reserve dbg IB zero junk (2 * v.cap) true else .ok v : M (CVec α))
  check dbg (v.filled < v.cap) .internalLogic
  let idx ← wr dbg v.idx v.filled (i + IB)
  let val ← wr dbg v.val v.filled t
  let v : CVec α := ⟨v.size, v.cap, v.filled + 1, idx, val⟩
  v.invariants dbg IB
  .ok v

/-- `pop_back ()`: vector_sparse.hpp:1198-1202.  Without checks `-- filled_` on zero wraps around; every
later use of the vector is then undefined, so the model reports `ub` at once. -/
def popBack (dbg : Bool) (IB : Nat) (v : CVec α) : M (CVec α) := do
  check dbg (v.filled > 0) .externalLogic
  if v.filled = 0 then .error .ub else
    let v := { v with filled := v.filled - 1 }
    v.invariants dbg IB
    .ok v

/-- Client histories: composes the operations cited in this file; no code of its own in /repo. -/
def step (dbg : Bool) (IB : Nat) (zero : α) (junk : Junk α) (v : CVec α) : CVOp α → M (CVec α)
  | .modify i f => v.modify dbg IB zero junk i f
  | .insert i t => do let (v, _) ← v.insertElement dbg IB zero junk i t; .ok v
  | .erase i => v.eraseElement dbg IB i
  | .clear => v.clear dbg IB
  | .resize n p => v.resize dbg IB zero junk n p
  | .reserve n p => v.reserve dbg IB zero junk n p
  | .pushBack i t => v.pushBack dbg IB zero junk i t
  | .popBack => v.popBack dbg IB

/-- A history of operations; each comes with the arbitrary contents of the memory it may allocate. Client histories: composes the operations cited in this file; no code of its own in /repo. -/
def run (dbg : Bool) (IB : Nat) (zero : α) : CVec α → List (CVOp α × Junk α) → M (CVec α)
  | v, [] => .ok v
  | v, op :: ops => step dbg IB zero op.2 v op.1 >>= fun v' => run dbg IB zero v' ops

/-- `find (i)`, `begin () = find (0)`, `end () = find (size_)`: vector_sparse.hpp:1224-1226, 1301-1311. -/
def find (IB : Nat) (v : CVec α) (i : Nat) : M Nat := v.lb IB i

/-- Dereferencing an iterator at position `it`: `(it.index (), *it)`, vector_sparse.hpp:1268-1279. -/
def deref (dbg : Bool) (IB : Nat) (v : CVec α) (it : Nat) : M (Nat × α) := do
  let e ← v.find IB v.size
  check dbg (it ≠ e) .badIndex
  let x ← rd false v.idx it
  check dbg (x - IB < v.size) .badIndex
  let y ← rd dbg v.val it
  .ok (x - IB, y)

/-- `for (it = v.find (i); it != v.end (); ++ it) visit (it.index (), *it)`; starting past the end would run
off the array. A client's loop; the iterator operations are cited at their definitions. -/
def traverseFrom (dbg : Bool) (IB : Nat) (v : CVec α) (i : Nat) : M (List (Nat × α)) := do
  let b ← v.find IB i
  let e ← v.find IB v.size
  if b > e then .error .ub else
  loop (fun j acc => do let p ← v.deref dbg IB (b + j); .ok (acc ++ [p])) (e - b) []

end CVec
end Ublas
