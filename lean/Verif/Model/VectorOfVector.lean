import Verif.Model.Layout
import Verif.Model.CompressedVector
/-! # generalized_vector_of_vector over compressed vectors (include/boost/numeric/ublas/vector_of_vector.hpp)

`generalized_vector_of_vector<T, L, vector<compressed_vector<T>>>`: one compressed vector per line of the
major direction and one more, the sentinel, after the last line.  A position (i, j) is addressed through
its major index M = index_M (i, j) and its minor index m = index_m (i, j); conversely i = index_M (M, m) and
j = index_m (M, m) (functional.hpp:1508-1524, 1686-1702: `Orient.indexM`, `Orient.indexm`).
Coordinate_vector lines (`append_element` 306-312 and `sort` 287-294 exist only for them) are in Model/VoVCoord. Not modelled:
expression constructors and assignments (207-269), serialization (see Model/Serialize). -/
namespace Ublas
open Search
variable {α : Type}

/-- vector_of_vector.hpp:1336-1338. -/
structure VoV (α : Type) where
  size1 : Nat
  size2 : Nat
  data : List (CVec α)
  deriving DecidableEq

/-- Client histories: composes the operations cited in this file; no code of its own in /repo. -/
inductive VVOp (α : Type)
  | modify (i j : Nat) (f : α → α)       -- m (i, j) = f (m (i, j))
  | insert (i j : Nat) (t : α)
  | erase (i j : Nat)
  | clear
  | resize (r c : Nat) (preserve : Bool)

/-- What `find_element` returns: a null pointer, a pointer to the cell at position `n` of line `k`, or a
pointer to the object all compressed vectors share as their zero (vector_sparse.hpp:1452, 1009). -/
inductive VVPtr
  | null
  | cell (k n : Nat)
  | sharedZero
  deriving DecidableEq

namespace VoV

/-- `compressed_vector ()`: vector_sparse.hpp:868-873. -/
def emptyRow : CVec α := ⟨0, 0, 0, [], []⟩

/-- Uninitialised memory: what line `k` finds in the arrays it allocates. Client histories: composes the operations cited in this file; no code of its own in /repo. -/
abbrev Junk (α : Type) := Nat → CVec.Junk α

/-- `data_.insert_element (k, vector_data_value_type ()) .resize (sizem, false)`: vector_of_vector.hpp:75;
vector.hpp:257-259. -/
def freshRow (dbg : Bool) (IB : Nat) (zero : α) (junk : Junk α) (sizem : Nat) (d : List (CVec α)) (k : Nat) : M (List (CVec α)) := do
  let d ← wr dbg d k emptyRow
  let r ← emptyRow.resize dbg IB zero (junk k) sizem false
  wr dbg d k r

/-- `storage_invariants`: vector_of_vector.hpp:1330-1335. -/
def invariants (dbg : Bool) (o : Orient) (v : VoV α) : M Unit := do
  check dbg (o.sizeM v.size1 v.size2 + 1 = v.data.length) .internalLogic
  check dbg (v.data.length ≠ 0) .internalLogic

/-- Constructor (size1, size2): vector_of_vector.hpp:69-78; `rows` are the lines `data_` is created with. -/
def ctor (dbg : Bool) (o : Orient) (IB : Nat) (zero : α) (junk : Junk α) (rows : Nat → CVec α) (r c : Nat) : M (VoV α) := do
  let sizeM := o.sizeM r c
  let sizem := o.sizem r c
  let d ← loop (fun k d => freshRow dbg IB zero junk sizem d k) sizeM ((List.range (sizeM + 1)).map rows)
  let d ← wr dbg d sizeM emptyRow
  let v : VoV α := ⟨r, c, d⟩
  v.invariants dbg o
  .ok v

/-- `nnz ()`: vector_of_vector.hpp:116-121. -/
def nnz (v : VoV α) : Nat := v.data.foldl (fun n r => n + r.filled) 0
/-- `nnz_capacity ()`: vector_of_vector.hpp:109-114. -/
def nnzCapacity (v : VoV α) : Nat := v.data.foldl (fun n r => n + r.cap) 0

/-- Replace line `k` by the result of an operation on it: `ref (data () [k]).op (...)`. vector_of_vector.hpp:144, 150, 301, 309, 326, 340. -/
def onRow (dbg : Bool) (d : List (CVec α)) (k : Nat) (f : CVec α → M (CVec α)) : M (List (CVec α)) := do
  let r ← rd dbg d k
  let r ← f r
  wr dbg d k r

/-- `resize (size1, size2, preserve)`: vector_of_vector.hpp:135-158; vector.hpp:187-192. -/
def resize (dbg : Bool) (o : Orient) (IB : Nat) (zero : α) (junk : Junk α) (rows : Nat → CVec α) (v : VoV α)
    (size1 size2 : Nat) (preserve : Bool) : M (VoV α) := do
  let oldM := o.sizeM v.size1 v.size2
  let sizeM := o.sizeM size1 size2
  let sizem := o.sizem size1 size2
  let d ← (if preserve then do
      let d := resizeInit v.data (sizeM + 1) emptyRow
      let d ← loop (fun k d => onRow dbg d k fun r => r.resize dbg IB zero (junk k) sizem true) (min (oldM + 1) sizeM) d
      let d ← loop (fun k d => freshRow dbg IB zero junk sizem d (oldM + 1 + k)) (sizeM - (oldM + 1)) d
      if sizeM > oldM then wr dbg d sizeM emptyRow
      else onRow dbg d sizeM fun r => r.resize dbg IB zero (junk sizeM) 0 false
    else do
      let d := resizeRaw rows v.data (sizeM + 1)
      let d ← loop (fun k d => freshRow dbg IB zero junk sizem d k) sizeM d
      wr dbg d sizeM emptyRow : M (List (CVec α)))
  let v : VoV α := ⟨size1, size2, d⟩
  v.invariants dbg o
  .ok v

/-- `find_element (i, j)`: vector_of_vector.hpp:166-179.  `vector`'s storage category `dense_tag` converts to
`packed_tag`, so the branch taken is `& (data () [elementM] [elementm])`; the const subscript of
compressed_vector refers to the stored value or to the shared zero (vector_sparse.hpp:1005-1011). -/
def findElement (dbg : Bool) (o : Orient) (IB : Nat) (v : VoV α) (i j : Nat) : M VVPtr := do
  let r ← rd dbg v.data (o.indexM i j)
  check dbg (o.indexm i j < r.size) .badIndex
  match ← r.slot IB (o.indexm i j) with
  | none => .ok .sharedZero
  | some n => .ok (.cell (o.indexM i j) n)

/-- `operator () (i, j) const`: vector_of_vector.hpp:183-196. -/
def get (dbg : Bool) (o : Orient) (IB : Nat) (zero : α) (v : VoV α) (i j : Nat) : M α := do
  match ← v.findElement dbg o IB i j with
  | .null => do check dbg False .internalLogic; .error .ub
  | .sharedZero => .ok zero
  | .cell k n => do
      let r ← rd dbg v.data k
      rd dbg r.val n

/-- `m (i, j) = f (m (i, j))` through `at_element`: vector_of_vector.hpp:198-204, 339-341. -/
def modify (dbg : Bool) (o : Orient) (IB : Nat) (zero : α) (junk : Junk α) (v : VoV α) (i j : Nat) (f : α → α) : M (VoV α) := do
  let d ← onRow dbg v.data (o.indexM i j) fun r => r.modify dbg IB zero (junk (o.indexM i j)) (o.indexm i j) f
  .ok { v with data := d }

/-- `insert_element (i, j, t)`: vector_of_vector.hpp:298-304. -/
def insertElement (dbg : Bool) (o : Orient) (IB : Nat) (zero : α) (junk : Junk α) (v : VoV α) (i j : Nat) (t : α) : M (VoV α) := do
  let r ← rd dbg v.data (o.indexM i j)
  v.invariants dbg o
  let (r, _) ← r.insertElement dbg IB zero (junk (o.indexM i j)) (o.indexm i j) t
  let d ← wr dbg v.data (o.indexM i j) r
  .ok { v with data := d }

/-- `erase_element (i, j)`: vector_of_vector.hpp:314-320 (`*itv` is checked: vector.hpp:588-591). -/
def eraseElement (dbg : Bool) (o : Orient) (IB : Nat) (v : VoV α) (i j : Nat) : M (VoV α) := do
  if o.indexM i j = v.data.length then .ok v else do
    let d ← onRow dbg v.data (o.indexM i j) fun r => r.eraseElement dbg IB (o.indexm i j)
    let v := { v with data := d }
    v.invariants dbg o
    .ok v

/-- `clear ()`: vector_of_vector.hpp:322-328. -/
def clear (dbg : Bool) (o : Orient) (IB : Nat) (v : VoV α) : M (VoV α) := do
  let d ← loop (fun k d => onRow dbg d k fun r => r.clear dbg IB) (o.sizeM v.size1 v.size2) v.data
  let v := { v with data := d }
  v.invariants dbg o
  .ok v

/-- Client histories: composes the operations cited in this file; no code of its own in /repo. -/
def step (dbg : Bool) (o : Orient) (IB : Nat) (zero : α) (junk : Junk α) (rows : Nat → CVec α) (v : VoV α) : VVOp α → M (VoV α)
  | .modify i j f => v.modify dbg o IB zero junk i j f
  | .insert i j t => v.insertElement dbg o IB zero junk i j t
  | .erase i j => v.eraseElement dbg o IB i j
  | .clear => v.clear dbg o IB
  | .resize r c p => v.resize dbg o IB zero junk rows r c p

/-- A history; each operation comes with the arbitrary contents of the memory it may allocate. Client histories: composes the operations cited in this file; no code of its own in /repo. -/
def run (dbg : Bool) (o : Orient) (IB : Nat) (zero : α) : VoV α → List (VVOp α × Junk α × (Nat → CVec α)) → M (VoV α)
  | v, [] => .ok v
  | v, op :: ops => step dbg o IB zero op.2.1 op.2.2 v op.1 >>= fun v' => run dbg o IB zero v' ops

/-! ## Iterators

An iterator of rank 1 holds a line (`itv_`, by position) and a position in that line (`it_`). -/

/-- `it_.index ()` of the line's own iterator: vector_sparse.hpp:1275-1279. -/
def subIndex (dbg : Bool) (IB : Nat) (r : CVec α) (it : Nat) : M Nat := do
  let _ ← (if dbg then do
      let e ← r.find IB r.size
      check dbg (it ≠ e) .badIndex
    else .ok () : M Unit)
  let x ← rd false r.idx it
  check dbg (x - IB < r.size) .badIndex
  .ok (x - IB)

/-- `it_ == it.it_` for iterators of lines `k` and `l`: vector_sparse.hpp:1291-1294.  Pointers into
different arrays are different (an array without cells has a null pointer). -/
def itEq (dbg : Bool) (a b : Nat × Nat) : M Bool := do
  check dbg (a.1 = b.1) .externalLogic
  .ok (a = b)

/-- `find1`/`find2 (1, i, j)` along the minor direction, forward: vector_of_vector.hpp:355-391, 432-468
(branch `fast_i ()`, resp. `fast_j ()`): at most two rounds. -/
def findFast (dbg : Bool) (IB : Nat) (v : VoV α) (k : Nat) : (fuel m : Nat) → M Nat
  | 0, _ => .error .diverge
  | fuel + 1, m => do
      let r ← rd dbg v.data k
      let it ← r.find IB m
      let e ← r.find IB r.size
      if it = e then .ok it else do
        let x ← subIndex dbg IB r it
        if x = m then .ok it else findFast dbg IB v k fuel x

/-- `index1 ()` / `index2 ()` of a rank 1 iterator at position `it` of line `k`, with the debug test
`*this != find (0, ..., size)` whose position is `stop`: vector_of_vector.hpp:644-662. -/
def indices (dbg : Bool) (o : Orient) (IB : Nat) (v : VoV α) (stop cur : Nat × Nat) : M (Nat × Nat) := do
  let _ ← (if dbg then do
      let b ← itEq dbg cur stop
      check dbg (b = false) .badIndex
    else .ok () : M Unit)
  let r ← rd dbg v.data cur.1
  let x ← subIndex dbg IB r cur.2
  check dbg (o.indexM cur.1 x < v.size1) .badIndex
  check dbg (o.indexm cur.1 x < v.size2) .badIndex
  .ok (o.indexM cur.1 x, o.indexm cur.1 x)

/-- `operator *`: vector_of_vector.hpp:570-578. -/
def deref (dbg : Bool) (o : Orient) (IB : Nat) (v : VoV α) (stop cur : Nat × Nat) : M α := do
  let _ ← (if dbg then do let _ ← v.indices dbg o IB stop cur; .ok () else .ok () : M Unit)
  let r ← rd dbg v.data cur.1
  let _ ← (if dbg then do let _ ← subIndex dbg IB r cur.2; .ok () else .ok () : M Unit)
  rd dbg r.val cur.2

/-- `for (it = find (1, k, 0); it != find (1, k, sizem); ++ it) visit (it.index1 (), it.index2 (), *it)` along
line `k`. A client's loop; the iterator operations are cited at their definitions. -/
def traverseFast (dbg : Bool) (o : Orient) (IB : Nat) (v : VoV α) (k : Nat) : M (List (Nat × Nat × α)) := do
  let sizem := o.sizem v.size1 v.size2
  let b ← v.findFast dbg IB k (sizem + 2) 0
  let e ← v.findFast dbg IB k (sizem + 2) sizem
  if b > e then .error .ub else
  loop (fun n acc => do
    let _ ← itEq dbg (k, b + n) (k, e)
    let p ← v.indices dbg o IB (k, e) (k, b + n)
    let x ← v.deref dbg o IB (k, e) (k, b + n)
    .ok (acc ++ [(p.1, p.2, x)])) (e - b) []

/-- The whole matrix, outer iterators along the major direction (rank 0: every line, vector_of_vector.hpp:534-549,
585-603), inner iterators along the minor one. -/
def traverse (dbg : Bool) (o : Orient) (IB : Nat) (v : VoV α) : M (List (Nat × Nat × α)) :=
  loop (fun k acc => do
    let E ← v.traverseFast dbg o IB k
    .ok (acc ++ E)) (o.sizeM v.size1 v.size2) []

/-- `find1`/`find2 (1, i, j)` across the lines, forward, at minor index `m` and major index `k`:
vector_of_vector.hpp:355-391, 432-468 (the other branch). -/
def findSlow (dbg : Bool) (o : Orient) (IB : Nat) (v : VoV α) (m : Nat) : (fuel k : Nat) → M (Nat × Nat)
  | 0, _ => .error .diverge
  | fuel + 1, k => do
      let r ← rd dbg v.data k
      let it ← r.find IB m
      let e ← r.find IB r.size
      let hit ← (if it ≠ e then do let x ← subIndex dbg IB r it; .ok (decide (x = m)) else .ok false : M Bool)
      if hit then .ok (k, it)
      else if k ≥ o.sizeM v.size1 v.size2 then .ok (k, it)
      else findSlow dbg o IB v m fuel (k + 1)

/-- `operator ++` across the lines: vector_of_vector.hpp:534-549. -/
def nextSlow (dbg : Bool) (o : Orient) (IB : Nat) (v : VoV α) (m : Nat) (stop cur : Nat × Nat) : M (Nat × Nat) := do
  let sizeM := o.sizeM v.size1 v.size2
  let p ← v.indices dbg o IB stop cur
  let i := o.indexM p.1 p.2 + 1
  let k := cur.1 + 1
  if k = sizeM then v.findSlow dbg o IB m (sizeM + 2) i
  else do
    let r ← rd dbg v.data k
    let it ← r.find IB 0
    let e ← r.find IB r.size
    let stay ← (if it = e then .ok false else do
      let q ← v.indices dbg o IB stop (k, it)
      .ok (decide (o.indexm q.1 q.2 = m)) : M Bool)
    if stay then .ok (k, it) else v.findSlow dbg o IB m (sizeM + 2) i

/-- `for (it = find (1, 0, m); it != find (1, sizeM, m); ++ it) visit (it.index1 (), it.index2 (), *it)` across
the lines at minor index `m`; `fuel` bounds the number of rounds. A client's loop; the iterator operations are cited at their definitions. -/
def slowLoop (dbg : Bool) (o : Orient) (IB : Nat) (v : VoV α) (m : Nat) (stop : Nat × Nat) :
    (fuel : Nat) → (cur : Nat × Nat) → M (List (Nat × Nat × α))
  | 0, _ => .error .diverge
  | fuel + 1, cur => do
      if ← itEq dbg cur stop then .ok [] else do
        let p ← v.indices dbg o IB stop cur
        let x ← v.deref dbg o IB stop cur
        let nx ← v.nextSlow dbg o IB m stop cur
        let E ← slowLoop dbg o IB v m stop fuel nx
        .ok ((p.1, p.2, x) :: E)

/-- A client's loop over `find1` / `find2`: vector_of_vector.hpp:355-460. -/
def traverseSlow (dbg : Bool) (o : Orient) (IB : Nat) (v : VoV α) (m : Nat) : M (List (Nat × Nat × α)) := do
  let sizeM := o.sizeM v.size1 v.size2
  let b ← v.findSlow dbg o IB m (sizeM + 2) 0
  let e ← v.findSlow dbg o IB m (sizeM + 2) sizeM
  v.slowLoop dbg o IB m e (sizeM + 2) b

/-- The first step of `for (it = rbegin; it != rend; ++ it) visit (*it)` across the lines: the comparison of
the end with the beginning, then `*it`, which steps back from the end (detail/iterator.hpp:417-500, std::reverse_iterator),
that is `i_ = index1 () - 1` on the end iterator: vector_of_vector.hpp:551-556.  What would follow is not
modelled: the step back never succeeds. -/
def reverseSlowFirst (dbg : Bool) (o : Orient) (IB : Nat) (v : VoV α) (m : Nat) : M Bool := do
  let sizeM := o.sizeM v.size1 v.size2
  let b ← v.findSlow dbg o IB m (sizeM + 2) 0
  let e ← v.findSlow dbg o IB m (sizeM + 2) sizeM
  if ← itEq dbg e b then .ok false else do
    let _ ← v.indices dbg o IB e e
    .ok true

end VoV
end Ublas
