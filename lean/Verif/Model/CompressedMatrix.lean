import Verif.Model.Search
import Verif.Model.Layout
/-! # compressed_matrix (include/boost/numeric/ublas/matrix_sparse.hpp:2785-4262)

Compressed rows (row_major) or columns (column_major): `idx1[M]` is the (IB-based) position in `idx2` / `val`
of the first element of major line `M`; only the first `filled1` cells of `idx1` and the first `filled2`
cells of `idx2` and `val` are in use.  Pointers into the arrays are positions; accesses through them are
unchecked (`rd false`), accesses through `unbounded_array::operator []` are checked in debug builds (`rd dbg`).
`IB` is the index base.  Not modelled: overflow of size_type arithmetic (`k - IB` on a cell smaller than IB and
`-- cell` on a zero cell are truncated at zero here; neither occurs in a state reachable by legal operations),
allocation failure, serialization (see Model/Serialize), the strict element proxy, `set_filled` and writing through the non-const
storage accessors. -/
namespace Ublas
open Search
variable {α : Type}

/-- matrix_sparse.hpp:4236-4243. -/
structure CMat (α : Type) where
  size1 : Nat
  size2 : Nat
  cap : Nat
  filled1 : Nat
  filled2 : Nat
  idx1 : List Nat
  idx2 : List Nat
  val : List α
  deriving DecidableEq

/-- Operations a client can perform. Client histories: composes the operations cited in this file; no code of its own in /repo. -/
inductive CMOp (α : Type)
  | modify (i j : Nat) (f : α → α)      -- m (i, j) = f (m (i, j))
  | insert (i j : Nat) (t : α)
  | erase (i j : Nat)
  | clear
  | resize (r c : Nat)                  -- resize (r, c, false)
  | reserve (n : Nat) (preserve : Bool)
  | pushBack (i j : Nat) (t : α)
  | popBack
  | complete                            -- complete_index1_data ()

namespace CMat

/-- `storage_invariants`: matrix_sparse.hpp:4227-4234. -/
def invariants (dbg : Bool) (o : Orient) (IB : Nat) (v : CMat α) : M Unit := do
  check dbg (o.sizeM v.size1 v.size2 + 1 = v.idx1.length) .internalLogic
  check dbg (v.cap = v.idx2.length) .internalLogic
  check dbg (v.cap = v.val.length) .internalLogic
  check dbg (v.filled1 > 0 ∧ v.filled1 ≤ o.sizeM v.size1 v.size2 + 1) .internalLogic
  check dbg (v.filled2 ≤ v.cap) .internalLogic
  if dbg = true then do
    let x ← rd dbg v.idx1 (v.filled1 - 1)
    check dbg (x = v.filled2 + IB) .internalLogic
  else .ok ()

/-- `restrict_capacity`: matrix_sparse.hpp:2971-2978. -/
def restrictCapacity (s1 s2 nz : Nat) : Nat :=
  let nz := max nz (min s1 s2)
  if s1 > 0 ∧ nz / s1 ≥ s2 then s1 * s2 else nz

/-- Contents of freshly allocated or re-allocated index and value arrays are arbitrary. Client histories: composes the operations cited in this file; no code of its own in /repo. -/
abbrev Junk (α : Type) := (Nat → Nat) × (Nat → α)

/-- Constructor (size1, size2, non_zeros): matrix_sparse.hpp:2845-2852. -/
def ctor (dbg : Bool) (o : Orient) (IB : Nat) (junk : Junk α) (r c nz : Nat) : M (CMat α) := do
  let cap := restrictCapacity r c nz
  let idx1 ← wr dbg ((List.range (o.sizeM r c + 1)).map junk.1) 0 (0 + IB)
  let v : CMat α := ⟨r, c, cap, 1, 0, idx1, (List.range cap).map junk.1, (List.range cap).map junk.2⟩
  v.invariants dbg o IB
  .ok v

/-- `resize (size1, size2, preserve)`: matrix_sparse.hpp:2981-2994. -/
def resize (dbg : Bool) (o : Orient) (IB : Nat) (junk : Junk α) (v : CMat α) (r c : Nat) (preserve : Bool) : M (CMat α) := do
  check dbg (preserve = false) .internalLogic
  let cap := restrictCapacity r c v.cap
  let idx1 ← wr dbg (resizeRaw junk.1 v.idx1 (o.sizeM r c + 1)) 0 (0 + IB)
  let v : CMat α := ⟨r, c, cap, 1, 0, idx1, resizeRaw junk.1 v.idx2 cap, resizeRaw junk.2 v.val cap⟩
  v.invariants dbg o IB
  .ok v

/-- `reserve (non_zeros, preserve)`: matrix_sparse.hpp:2998-3013. -/
def reserve (dbg : Bool) (o : Orient) (IB : Nat) (zero : α) (junk : Junk α) (v : CMat α) (nz : Nat) (preserve : Bool) : M (CMat α) := do
  let cap := restrictCapacity v.size1 v.size2 nz
  let v' ← (if preserve then
      .ok ⟨v.size1, v.size2, cap, v.filled1, min cap v.filled2, v.idx1, resizeInit v.idx2 cap 0, resizeInit v.val cap zero⟩
    else do
      let idx1 ← wr dbg v.idx1 0 (0 + IB)
      .ok ⟨v.size1, v.size2, cap, 1, 0, idx1, resizeRaw junk.1 v.idx2 cap, resizeRaw junk.2 v.val cap⟩ : M (CMat α))
  v'.invariants dbg o IB
  .ok v'

/-- The search shared by every look-up (matrix_sparse.hpp:3026-3031, 3074-3077, 3100-3104): bounds of major line
`e1`, lower bound of the minor index in it, and whether the element there is the wanted one. -/
def seek (IB : Nat) (v : CMat α) (e1 e2 : Nat) : M (Nat × Bool) := do
  let b ← rd false v.idx1 e1
  let e ← rd false v.idx1 (e1 + 1)
  let it ← lowerBound v.idx2 (b - IB) (e - IB) (e2 + IB)
  if it = e - IB then .ok (it, false) else do
    let x ← rd false v.idx2 it
    .ok (it, decide (x = e2 + IB))

/-- `find_element (i, j)` as a position: matrix_sparse.hpp:3021-3033 (`none` is the null pointer). -/
def slot (o : Orient) (IB : Nat) (v : CMat α) (i j : Nat) : M (Option Nat) :=
  let e1 := o.indexM i j
  let e2 := o.indexm i j
  if v.filled1 ≤ e1 + 1 then .ok none else do
    let r ← v.seek IB e1 e2
    .ok (if r.2 then some r.1 else none)

/-- `find_element (i, j)`: matrix_sparse.hpp:3021-3033. -/
def findElement (dbg : Bool) (o : Orient) (IB : Nat) (v : CMat α) (i j : Nat) : M (Option α) := do
  match ← v.slot o IB i j with
  | none => .ok none
  | some n => do let x ← rd dbg v.val n; .ok (some x)

/-- `operator () (i, j) const`: matrix_sparse.hpp:3037-3043. -/
def get (dbg : Bool) (o : Orient) (IB : Nat) (zero : α) (v : CMat α) (i j : Nat) : M α := do
  match ← v.findElement dbg o IB i j with
  | none => .ok zero
  | some x => .ok x

/-- `while (filled1_ < n) { index1_data_ [filled1_] = k_based (filled2_); ++ filled1_; }`:
matrix_sparse.hpp:3070-3073 (n = element1 + 2), 3248-3251 (same), 2962-2965 (n = size_M + 1). -/
def openTo (dbg : Bool) (IB : Nat) (v : CMat α) (n : Nat) : M (CMat α) := do
  let idx1 ← loop (fun k l => wr dbg l (v.filled1 + k) (v.filled2 + IB)) (n - v.filled1) v.idx1
  .ok { v with filled1 := max v.filled1 n, idx1 := idx1 }

/-- `while (element1 + 1 < filled1_) { ++ index1_data_ [element1 + 1]; ++ element1; }` (matrix_sparse.hpp:3087-3090)
and the decrementing loop of `erase_element` (3114-3117), with `g` the increment or decrement. -/
def bump (dbg : Bool) (g : Nat → Nat) (idx1 : List Nat) (e1 filled1 : Nat) : M (List Nat) :=
  loop (fun k l => do
    let x ← rd dbg l (e1 + 1 + k)
    wr dbg l (e1 + 1 + k) (g x)) (filled1 - (e1 + 1)) idx1

/-- `insert_element (i, j, t)`: matrix_sparse.hpp:3063-3093; also returns the position of the new element. -/
def insertElement (dbg : Bool) (o : Orient) (IB : Nat) (zero : α) (junk : Junk α) (v : CMat α) (i j : Nat) (t : α) : M (CMat α × Nat) := do
  let _ ← (if dbg = true then do
      let r ← v.findElement dbg o IB i j
      check dbg (r.isNone = true) .badIndex
    else .ok () : M Unit)
  let v ← (if v.filled2 ≥ v.cap then v.reserve dbg o IB zero junk (2 * v.filled2) true else .ok v : M (CMat α))
  check dbg (v.filled2 < v.cap) .internalLogic
  let e1 := o.indexM i j
  let e2 := o.indexm i j
  let v ← v.openTo dbg IB (e1 + 2)
  let r ← v.seek IB e1 e2
  check dbg (r.2 = false) .internalLogic
  let idx2 ← copyBackward v.idx2 r.1 v.filled2
  let idx2 ← wr false idx2 r.1 (e2 + IB)
  let val ← copyBackward v.val r.1 v.filled2
  let val ← wr false val r.1 t
  let idx1 ← bump dbg (· + 1) v.idx1 e1 v.filled1
  let v : CMat α := { v with filled2 := v.filled2 + 1, idx1 := idx1, idx2 := idx2, val := val }
  v.invariants dbg o IB
  .ok (v, r.1)

/-- `m (i, j) = f (m (i, j))` through the reference returned by the non-const `operator ()`:
matrix_sparse.hpp:3045-3056. -/
def modify (dbg : Bool) (o : Orient) (IB : Nat) (zero : α) (junk : Junk α) (v : CMat α) (i j : Nat) (f : α → α) : M (CMat α) := do
  let (v, n) ← (match ← v.slot o IB i j with
    | none => v.insertElement dbg o IB zero junk i j zero
    | some n => .ok (v, n) : M (CMat α × Nat))
  let x ← rd dbg v.val n
  let val ← wr dbg v.val n (f x)
  .ok { v with val := val }

/-- `while (index1_data_ [filled1_ - 2] > k_based (filled2_)) { index1_data_ [filled1_ - 1] = 0; -- filled1_; }`:
matrix_sparse.hpp:3110-3113, 3266-3269, as a recursion on `filled1_`; with `filled1_ < 2` the index wraps around,
an access outside the array. -/
def trim (dbg : Bool) (bound : Nat) : Nat → List Nat → M (Nat × List Nat)
  | f + 2, idx1 => do
      let x ← rd dbg idx1 f
      if x > bound then do
        let idx1 ← wr dbg idx1 (f + 1) 0
        trim dbg bound (f + 1) idx1
      else .ok (f + 2, idx1)
  | _, _ => .error (if dbg then .badIndex else .ub)

/-- `erase_element (i, j)`: matrix_sparse.hpp:3095-3120. -/
def eraseElement (dbg : Bool) (o : Orient) (IB : Nat) (v : CMat α) (i j : Nat) : M (CMat α) := do
  let e1 := o.indexM i j
  let e2 := o.indexm i j
  if e1 + 1 ≥ v.filled1 then .ok v else do
    let r ← v.seek IB e1 e2
    let v ← (if r.2 then do
        let idx2 ← copyForward v.idx2 (r.1 + 1) v.filled2 r.1
        let val ← copyForward v.val (r.1 + 1) v.filled2 r.1
        let filled2 := v.filled2 - 1
        let (filled1, idx1) ← trim dbg (filled2 + IB) v.filled1 v.idx1
        let idx1 ← bump dbg (· - 1) idx1 e1 filled1
        .ok { v with filled1 := filled1, filled2 := filled2, idx1 := idx1, idx2 := idx2, val := val }
      else .ok v : M (CMat α))
    v.invariants dbg o IB
    .ok v

/-- `clear ()`: matrix_sparse.hpp:3124-3129. -/
def clear (dbg : Bool) (o : Orient) (IB : Nat) (v : CMat α) : M (CMat α) := do
  let idx1 ← wr dbg v.idx1 0 (0 + IB)
  let v : CMat α := { v with filled1 := 1, filled2 := 0, idx1 := idx1 }
  v.invariants dbg o IB
  .ok v

/-- `push_back (i, j, t)`: matrix_sparse.hpp:3242-3261.  The check reads the arrays only as far as the short-circuit
evaluation of `&&` and `||` does. -/
def pushBack (dbg : Bool) (o : Orient) (IB : Nat) (zero : α) (junk : Junk α) (v : CMat α) (i j : Nat) (t : α) : M (CMat α) := do
  let v ← (if v.filled2 ≥ v.cap then v.reserve dbg o IB zero junk (2 * v.filled2) true else .ok v : M (CMat α))
  check dbg (v.filled2 < v.cap) .internalLogic
  let e1 := o.indexM i j
  let e2 := o.indexm i j
  let v ← v.openTo dbg IB (e1 + 2)
  let _ ← (if dbg = true then do
      check dbg (v.filled1 = e1 + 2) .externalLogic
      let x ← rd dbg v.idx1 (v.filled1 - 2)
      if v.filled2 = x - IB then .ok () else do
        let y ← rd dbg v.idx2 (v.filled2 - 1)
        check dbg (y < e2 + IB) .externalLogic
    else .ok () : M Unit)
  let idx1 ← wr dbg v.idx1 (v.filled1 - 1) (v.filled2 + 1 + IB)
  let idx2 ← wr dbg v.idx2 v.filled2 (e2 + IB)
  let val ← wr dbg v.val v.filled2 t
  let v : CMat α := { v with filled2 := v.filled2 + 1, idx1 := idx1, idx2 := idx2, val := val }
  v.invariants dbg o IB
  .ok v

/-- `pop_back ()`: matrix_sparse.hpp:3263-3272.  Without checks `-- filled2_` on zero wraps around; every later use of
the matrix is then undefined, so the model reports `ub` at once. -/
def popBack (dbg : Bool) (o : Orient) (IB : Nat) (v : CMat α) : M (CMat α) := do
  check dbg (v.filled1 > 0 ∧ v.filled2 > 0) .externalLogic
  if v.filled2 = 0 then .error .ub else do
    let filled2 := v.filled2 - 1
    let (filled1, idx1) ← trim dbg (filled2 + IB) v.filled1 v.idx1
    let x ← rd dbg idx1 (filled1 - 1)
    let idx1 ← wr dbg idx1 (filled1 - 1) (x - 1)
    let v : CMat α := { v with filled1 := filled1, filled2 := filled2, idx1 := idx1 }
    v.invariants dbg o IB
    .ok v

/-- `complete_index1_data ()`: matrix_sparse.hpp:2961-2966. -/
def complete (dbg : Bool) (o : Orient) (IB : Nat) (v : CMat α) : M (CMat α) :=
  v.openTo dbg IB (o.sizeM v.size1 v.size2 + 1)

/-- Client histories: composes the operations cited in this file; no code of its own in /repo. -/
def step (dbg : Bool) (o : Orient) (IB : Nat) (zero : α) (junk : Junk α) (v : CMat α) : CMOp α → M (CMat α)
  | .modify i j f => v.modify dbg o IB zero junk i j f
  | .insert i j t => do let (v, _) ← v.insertElement dbg o IB zero junk i j t; .ok v
  | .erase i j => v.eraseElement dbg o IB i j
  | .clear => v.clear dbg o IB
  | .resize r c => v.resize dbg o IB junk r c false
  | .reserve n p => v.reserve dbg o IB zero junk n p
  | .pushBack i j t => v.pushBack dbg o IB zero junk i j t
  | .popBack => v.popBack dbg o IB
  | .complete => v.complete dbg o IB

/-- A history of operations; each comes with the arbitrary contents of the memory it may allocate. Client histories: composes the operations cited in this file; no code of its own in /repo. -/
def run (dbg : Bool) (o : Orient) (IB : Nat) (zero : α) : CMat α → List (CMOp α × Junk α) → M (CMat α)
  | v, [] => .ok v
  | v, op :: ops => step dbg o IB zero op.2 v op.1 >>= fun v' => run dbg o IB zero v' ops

end CMat
end Ublas
