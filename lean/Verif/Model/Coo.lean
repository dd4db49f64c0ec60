import Verif.Model.CompressedVector
import Verif.Model.Layout
/-! # The common core of coordinate_vector and coordinate_matrix

coordinate_vector (vector_sparse.hpp:1490-2236) and coordinate_matrix (matrix_sparse.hpp:4263-5769) run the
same algorithms on parallel arrays of keys and values; the former's keys are indices, the latter's are pairs
(index1, index2) held in two arrays and compared lexicographically.  The model below is generic in the key
type; what differs between the two classes is collected in `CooPar`.  Simplification for the matrix:
`index1_data_` and `index2_data_` are one list of pairs.  Not modelled: overflow of `2 * filled_`,
allocation failure, `set_filled`, serialization (see Model/Serialize).  `std::sort` is any function `srt` (its result on equal keys
is unspecified); the theorems assume only that it returns a sorted permutation. -/
namespace Ublas
open Search
variable {κ α : Type} [DecidableEq κ]

/-- What distinguishes the classes. The fields cite their lines. -/
structure CooPar (κ α : Type) where
  /-- comparison of keys: `<` (vector_sparse.hpp:1865, 1881) / lexicographic (matrix_sparse.hpp:4662-4664, 4680-4681) -/
  lt : κ → κ → Bool
  /-- `std::sort` of (key, value) records: vector_sparse.hpp:1912 / matrix_sparse.hpp:4715 -/
  srt : List (κ × α) → List (κ × α)
  /-- BOOST_UBLAS_COO_ALWAYS_DO_FULL_SORT -/
  full : Bool
  /-- binary search among the first `filled` keys of a sorted array -/
  search : List κ → Nat → κ → M (Option Nat)
  /-- lower bound used by `restrict_capacity`: vector_sparse.hpp:1608-1613 / matrix_sparse.hpp:4403-4408 -/
  minCap : Nat
  /-- check on the last key in `storage_invariants`: vector_sparse.hpp:2210; nothing in the matrix -/
  inRange : κ → Bool
  /-- `reserve` sorts even when `preserve` is false: vector_sparse.hpp:1640 (no) / matrix_sparse.hpp:4429 (yes) -/
  sortAlways : Bool
  /-- a value-initialised key -/
  key0 : κ

/-- vector_sparse.hpp:2214-2219 / matrix_sparse.hpp:5744-5750. -/
structure Coo (κ α : Type) where
  cap : Nat
  filled : Nat
  sortedFilled : Nat
  sorted : Bool
  idx : List κ
  val : List α
  deriving DecidableEq

namespace Coo

/-- Arbitrary contents of re-allocated arrays. Client histories: composes the operations cited in this file; no code of its own in /repo. -/
abbrev Junk (κ α : Type) := (Nat → κ) × (Nat → α)

/-- `storage_invariants`: vector_sparse.hpp:2203-2211 / matrix_sparse.hpp:5732-5740. -/
def invariants (dbg : Bool) (P : CooPar κ α) (v : Coo κ α) : M Unit := do
  check dbg (v.cap = v.idx.length) .internalLogic
  check dbg (v.cap = v.val.length) .internalLogic
  check dbg (v.filled ≤ v.cap) .internalLogic
  check dbg (v.sortedFilled ≤ v.filled) .internalLogic
  check dbg (v.sorted = decide (v.sortedFilled = v.filled)) .internalLogic
  if dbg = true ∧ v.filled ≠ 0 then do
    let x ← rd dbg v.idx (v.filled - 1)
    check dbg (P.inRange x = true) .internalLogic
  else .ok ()

/-- `restrict_capacity`: vector_sparse.hpp:1608-1613 / matrix_sparse.hpp:4403-4408. -/
def restrictCapacity (P : CooPar κ α) (nz : Nat) : Nat := max nz P.minCap

/-- Constructor: vector_sparse.hpp:1533-1539 / matrix_sparse.hpp:4312-4318. -/
def ctor (dbg : Bool) (P : CooPar κ α) (junk : Junk κ α) (nz : Nat) : M (Coo κ α) := do
  let cap := restrictCapacity P nz
  let v : Coo κ α := ⟨cap, 0, 0, true, (List.range cap).map junk.1, (List.range cap).map junk.2⟩
  v.invariants dbg P
  .ok v

/-- Member `lower_bound (beg, end, target)`: vector_sparse.hpp:1862-1872 / matrix_sparse.hpp:4659-4671.
`fuel` bounds the number of iterations; running out is `diverge`. -/
def lowerBoundAt (dbg : Bool) (lt : κ → κ → Bool) (idx : List κ) (target : Nat) : (fuel b e : Nat) → M Nat
  | 0, b, e => if e > b then .error .diverge else .ok b
  | fuel + 1, b, e =>
      if e > b then do
        let mid := (b + e) / 2
        let x ← rd dbg idx mid
        let t ← rd dbg idx target
        if lt x t then lowerBoundAt dbg lt idx target fuel (mid + 1) e
        else lowerBoundAt dbg lt idx target fuel b mid
      else .ok b

/-- `std::rotate (l + a, l + m, l + b)`: the blocks [a, m) and [m, b) change places; it needs
a ≤ m ≤ b ≤ length. C++ standard library, not code of /repo. -/
def rotate {β : Type} (l : List β) (a m b : Nat) : M (List β) :=
  if a ≤ m ∧ m ≤ b ∧ b ≤ l.length then
    .ok (l.take a ++ (l.drop m).take (b - m) ++ (l.drop a).take (m - a) ++ l.drop b)
  else .error .ub

/-- `std::swap (l [a], l [b])`. C++ standard library, not code of /repo. -/
def swapAt {β : Type} (dbg : Bool) (l : List β) (a b : Nat) : M (List β) := do
  let x ← rd dbg l a
  let y ← rd dbg l b
  let l ← wr dbg l a y
  wr dbg l b x

/-- `inplace_merge (beg, mid, end)`: vector_sparse.hpp:1876-1901 / matrix_sparse.hpp:4675-4704.  `fuel`
bounds the recursion depth. -/
def inplaceMerge (dbg : Bool) (lt : κ → κ → Bool) : (fuel : Nat) → List κ → List α → (b m e : Nat) → M (List κ × List α)
  | 0, idx, val, b, m, e => if b < m ∧ m < e then .error .diverge else .ok (idx, val)
  | fuel + 1, idx, val, b, m, e =>
      let lenLef := m - b
      let lenRig := e - m
      if lenLef = 1 ∧ lenRig = 1 then do
        let x ← rd dbg idx m
        let y ← rd dbg idx b
        if lt x y then do
          let idx ← swapAt dbg idx b m
          let val ← swapAt dbg val b m
          .ok (idx, val)
        else .ok (idx, val)
      else if lenLef > 0 ∧ lenRig > 0 then do
        let p ← (if lenLef ≥ lenRig then do
            let lefMid := (b + m) / 2
            let rigMid ← lowerBoundAt dbg lt idx lefMid (e - m) m e
            .ok (lefMid, rigMid)
          else do
            let rigMid := (m + e) / 2
            let lefMid ← lowerBoundAt dbg lt idx rigMid (m - b) b m
            .ok (lefMid, rigMid) : M (Nat × Nat))
        let idx ← rotate idx p.1 m p.2
        let val ← rotate val p.1 m p.2
        let newMid := p.1 + p.2 - m
        let q ← inplaceMerge dbg lt fuel idx val b p.1 newMid
        inplaceMerge dbg lt fuel q.1 q.2 newMid p.2 e
      else .ok (idx, val)

/-- One round of the duplicate-summing loop: vector_sparse.hpp:1921-1931 / matrix_sparse.hpp:4723-4735.
State: keys, values, local variable `filled`. -/
def sumStep [Add α] (dbg : Bool) (i : Nat) (s : List κ × List α × Nat) : M (List κ × List α × Nat) := do
  let x ← rd dbg s.1 s.2.2
  let y ← rd dbg s.1 i
  if x ≠ y then do
    let f := s.2.2 + 1
    if f ≠ i then do
      let idx ← wr dbg s.1 f y
      let t ← rd dbg s.2.1 i
      let val ← wr dbg s.2.1 f t
      .ok (idx, val, f)
    else .ok (s.1, s.2.1, f)
  else do
    let a ← rd dbg s.2.1 s.2.2
    let t ← rd dbg s.2.1 i
    let val ← wr dbg s.2.1 s.2.2 (a + t)
    .ok (s.1, val, s.2.2)

/-- `std::sort` on the records [a, b) of the parallel arrays (through `index_pair_array` /
`index_triple_array`, storage.hpp:1777-2060). -/
def sortSegment (srt : List (κ × α) → List (κ × α)) (idx : List κ) (val : List α) (a b : Nat) : M (List κ × List α) :=
  if a ≤ b ∧ b ≤ idx.length ∧ b ≤ val.length then
    let A := idx.zip val
    let S := srt ((A.take b).drop a)
    .ok (idx.take a ++ S.map (·.1) ++ idx.drop b, val.take a ++ S.map (·.2) ++ val.drop b)
  else .error .ub

/-- `sort ()`: vector_sparse.hpp:1905-1937 / matrix_sparse.hpp:4708-4741. -/
def sort [Add α] (dbg : Bool) (P : CooPar κ α) (v : Coo κ α) : M (Coo κ α) :=
  if v.sorted = false ∧ v.filled > 0 then do
    let p ← (if P.full = false then do
        let q ← sortSegment P.srt v.idx v.val v.sortedFilled v.filled
        inplaceMerge dbg P.lt v.filled q.1 q.2 0 v.sortedFilled v.filled
      else sortSegment P.srt v.idx v.val 0 v.filled : M (List κ × List α))
    let s ← loop (fun k s => sumStep dbg (k + 1) s) (v.filled - 1) (p.1, p.2, 0)
    let v' : Coo κ α := ⟨v.cap, s.2.2 + 1, s.2.2 + 1, true, s.1, s.2.1⟩
    v'.invariants dbg P
    .ok v'
  else .ok v

/-- `reserve (non_zeros, preserve)`: vector_sparse.hpp:1639-1655 / matrix_sparse.hpp:4428-4445. -/
def reserve [Add α] (dbg : Bool) (P : CooPar κ α) (zero : α) (junk : Junk κ α) (v : Coo κ α) (nz : Nat) (preserve : Bool) : M (Coo κ α) := do
  let v ← (if preserve = true ∨ P.sortAlways = true then v.sort dbg P else .ok v : M (Coo κ α))
  let cap := restrictCapacity P nz
  let v' : Coo κ α := if preserve then
      ⟨cap, min cap v.filled, min cap v.filled, v.sorted, resizeInit v.idx cap P.key0, resizeInit v.val cap zero⟩
    else ⟨cap, 0, 0, v.sorted, resizeRaw junk.1 v.idx cap, resizeRaw junk.2 v.val cap⟩
  v'.invariants dbg P
  .ok v'

/-- `find_element`: vector_sparse.hpp:1663-1669 / matrix_sparse.hpp:4453-4467: sorts (the arrays are
`mutable`), then searches.  Returns the sorted object and the position of the element. -/
def find [Add α] (dbg : Bool) (P : CooPar κ α) (v : Coo κ α) (k : κ) : M (Coo κ α × Option Nat) := do
  let v ← v.sort dbg P
  let r ← P.search v.idx v.filled k
  .ok (v, r)

/-- Element read: vector_sparse.hpp:1675-1679 / matrix_sparse.hpp:4471-4477. -/
def get [Add α] (dbg : Bool) (P : CooPar κ α) (zero : α) (v : Coo κ α) (k : κ) : M (Coo κ α × α) := do
  let r ← v.find dbg P k
  match r.2 with
  | none => .ok (r.1, zero)
  | some n => do let x ← rd dbg r.1.val n; .ok (r.1, x)

/-- `append_element`: vector_sparse.hpp:1712-1721 / matrix_sparse.hpp:4493-4505. -/
def append [Add α] (dbg : Bool) (P : CooPar κ α) (zero : α) (junk : Junk κ α) (v : Coo κ α) (k : κ) (t : α) : M (Coo κ α) := do
  let v ← (if v.filled ≥ v.cap then v.reserve dbg P zero junk (2 * v.filled) true else .ok v : M (Coo κ α))
  check dbg (v.filled < v.cap) .internalLogic
  let idx ← wr dbg v.idx v.filled k
  let val ← wr dbg v.val v.filled t
  let v : Coo κ α := ⟨v.cap, v.filled + 1, v.sortedFilled, false, idx, val⟩
  v.invariants dbg P
  .ok v

/-- `insert_element`: vector_sparse.hpp:1723-1727 / matrix_sparse.hpp:4507-4511. -/
def insert [Add α] (dbg : Bool) (P : CooPar κ α) (zero : α) (junk : Junk κ α) (v : Coo κ α) (k : κ) (t : α) : M (Coo κ α) := do
  let v ← (if dbg = true then do
      let r ← v.find dbg P k
      check dbg (r.2.isNone = true) .badIndex
      .ok r.1
    else .ok v : M (Coo κ α))
  v.append dbg P zero junk k t

/-- `v (k) = f (v (k))` through the reference: vector_sparse.hpp:1682-1690 / matrix_sparse.hpp:4479-4489. -/
def modify [Add α] (dbg : Bool) (P : CooPar κ α) (zero : α) (junk : Junk κ α) (v : Coo κ α) (k : κ) (f : α → α) : M (Coo κ α) := do
  let r ← v.find dbg P k
  let q ← (match r.2 with
    | none => do
        let v ← r.1.insert dbg P zero junk k zero
        .ok (v, v.filled - 1)
    | some n => .ok (r.1, n) : M (Coo κ α × Nat))
  let x ← rd dbg q.1.val q.2
  let val ← wr dbg q.1.val q.2 (f x)
  .ok { q.1 with val := val }

/-- `erase_element`: vector_sparse.hpp:1729-1741 / matrix_sparse.hpp:4513-4533. -/
def erase [Add α] (dbg : Bool) (P : CooPar κ α) (v : Coo κ α) (k : κ) : M (Coo κ α) := do
  let r ← v.find dbg P k
  let v ← (match r.2 with
    | none => .ok r.1
    | some n => do
        let idx ← copyForward r.1.idx (n + 1) r.1.filled n
        let val ← copyForward r.1.val (n + 1) r.1.filled n
        .ok ⟨r.1.cap, r.1.filled - 1, r.1.filled - 1, r.1.sorted, idx, val⟩ : M (Coo κ α))
  v.invariants dbg P
  .ok v

/-- `clear ()`: vector_sparse.hpp:1745-1750 / matrix_sparse.hpp:4537-4542. -/
def clear (dbg : Bool) (P : CooPar κ α) (v : Coo κ α) : M (Coo κ α) := do
  let v : Coo κ α := ⟨v.cap, 0, 0, true, v.idx, v.val⟩
  v.invariants dbg P
  .ok v

/-- `push_back`: vector_sparse.hpp:1941-1952 / matrix_sparse.hpp:4745-4763. -/
def pushBack [Add α] (dbg : Bool) (P : CooPar κ α) (zero : α) (junk : Junk κ α) (v : Coo κ α) (k : κ) (t : α) : M (Coo κ α) := do
  check dbg (v.sorted = true) .externalLogic
  let _ ← (if dbg = true ∧ v.filled ≠ 0 then do
      let x ← rd dbg v.idx (v.filled - 1)
      check dbg (P.lt x k = true) .externalLogic
    else .ok () : M Unit)
  let v ← (if v.filled ≥ v.cap then v.reserve dbg P zero junk (2 * v.filled) true else .ok v : M (Coo κ α))
  check dbg (v.filled < v.cap) .internalLogic
  let idx ← wr dbg v.idx v.filled k
  let val ← wr dbg v.val v.filled t
  let v : Coo κ α := ⟨v.cap, v.filled + 1, v.filled + 1, v.sorted, idx, val⟩
  v.invariants dbg P
  .ok v

/-- `pop_back ()`: vector_sparse.hpp:1954-1961 / matrix_sparse.hpp:4765-4772: after `-- filled_`,
`sorted_ = sorted_filled_ = filled_` assigns the *number* to `sorted_filled_` and its truth value to
`sorted_`.  Without checks popping from an empty container wraps `filled_` around: `ub`. -/
def popBack (dbg : Bool) (P : CooPar κ α) (v : Coo κ α) : M (Coo κ α) := do
  check dbg (v.filled > 0) .externalLogic
  if v.filled = 0 then .error .ub else
    let f := v.filled - 1
    let v : Coo κ α := ⟨v.cap, f, f, decide (f ≠ 0), v.idx, v.val⟩
    v.invariants dbg P
    .ok v

end Coo

/-- Client operations on a coordinate container with index type `ι`. Client histories: composes the operations cited in this file; no code of its own in /repo. -/
inductive CooOp (ι α : Type)
  | modify (i : ι) (f : α → α)      -- v (i) = f (v (i))
  | insert (i : ι) (t : α)
  | append (i : ι) (t : α)
  | erase (i : ι)
  | clear
  | reserve (n : Nat) (preserve : Bool)
  | pushBack (i : ι) (t : α)
  | popBack
  | sort                            -- also any const read, which sorts first

/-- One operation; `kb` converts an index to a key. Client histories: composes the operations cited in this file; no code of its own in /repo. -/
def Coo.step [Add α] {ι : Type} (dbg : Bool) (P : CooPar κ α) (kb : ι → κ) (zero : α) (junk : Coo.Junk κ α) (v : Coo κ α) : CooOp ι α → M (Coo κ α)
  | .modify i f => v.modify dbg P zero junk (kb i) f
  | .insert i t => v.insert dbg P zero junk (kb i) t
  | .append i t => v.append dbg P zero junk (kb i) t
  | .erase i => v.erase dbg P (kb i)
  | .clear => v.clear dbg P
  | .reserve n p => v.reserve dbg P zero junk n p
  | .pushBack i t => v.pushBack dbg P zero junk (kb i) t
  | .popBack => v.popBack dbg P
  | .sort => v.sort dbg P

/-! ## coordinate_vector -/

/-- Look-up in coordinate_vector: `detail::lower_bound` on the index array, vector_sparse.hpp:1665-1668. -/
def CoordVec.search (idx : List Nat) (filled k : Nat) : M (Option Nat) := do
  let it ← lowerBound idx 0 filled k
  if it = filled then .ok none else do
    let x ← rd false idx it
    if x ≠ k then .ok none else .ok (some it)

/-- Parameters of coordinate_vector of a given size and index base. vector_sparse.hpp:1490-2236. -/
def CoordVec.par (srt : List (Nat × α) → List (Nat × α)) (full : Bool) (IB size : Nat) : CooPar Nat α :=
  { lt := fun a b => decide (a < b), srt := srt, full := full, search := CoordVec.search, minCap := 1
    inRange := fun x => decide (x - IB < size), sortAlways := false, key0 := 0 }

/-- vector_sparse.hpp:2213-2219. -/
structure CoordVec (α : Type) where
  size : Nat
  coo : Coo Nat α
  deriving DecidableEq

/-- Client operations on coordinate_vector. Client histories: composes the operations cited in this file; no code of its own in /repo. -/
inductive CoordVecOp (α : Type)
  | core (op : CooOp Nat α)
  | resize (n : Nat) (preserve : Bool)

namespace CoordVec

/-- Constructor: vector_sparse.hpp:1533-1539. -/
def ctor (srt : List (Nat × α) → List (Nat × α)) (full : Bool) (dbg : Bool) (IB : Nat) (junk : Coo.Junk Nat α) (n nz : Nat) : M (CoordVec α) := do
  let c ← Coo.ctor dbg (par srt full IB n) junk nz
  .ok ⟨n, c⟩

/-- `resize (size, preserve)`: vector_sparse.hpp:1616-1636. -/
def resize [Add α] (srt : List (Nat × α) → List (Nat × α)) (full : Bool) (dbg : Bool) (IB : Nat) (zero : α) (junk : Coo.Junk Nat α)
    (v : CoordVec α) (size : Nat) (preserve : Bool) : M (CoordVec α) := do
  let c ← (if preserve = true then v.coo.sort dbg (par srt full IB v.size) else .ok v.coo : M (Coo Nat α))
  let cap := Coo.restrictCapacity (par srt full IB size) c.cap
  let c' ← (if preserve = true then do
      let idx := resizeInit c.idx cap 0
      let val := resizeInit c.val cap zero
      let f ← CVec.shrink dbg IB size idx (min cap c.filled)
      .ok ⟨cap, f, f, c.sorted, idx, val⟩
    else .ok ⟨cap, 0, 0, c.sorted, resizeRaw junk.1 c.idx cap, resizeRaw junk.2 c.val cap⟩ : M (Coo Nat α))
  c'.invariants dbg (par srt full IB size)
  .ok ⟨size, c'⟩

/-- `operator () (i) const`: vector_sparse.hpp:1673-1680. -/
def get [Add α] (srt : List (Nat × α) → List (Nat × α)) (full : Bool) (dbg : Bool) (IB : Nat) (zero : α) (v : CoordVec α) (i : Nat) : M α := do
  check dbg (i < v.size) .badIndex
  let r ← v.coo.get dbg (par srt full IB v.size) zero (i + IB)
  .ok r.2

/-- One operation; element writes check the index in debug builds (vector_sparse.hpp:1683). -/
def step [Add α] (srt : List (Nat × α) → List (Nat × α)) (full : Bool) (dbg : Bool) (IB : Nat) (zero : α) (junk : Coo.Junk Nat α) (v : CoordVec α) :
    CoordVecOp α → M (CoordVec α)
  | .core op => do
      match op with
      | .modify i _ => check dbg (i < v.size) .badIndex
      | _ => .ok ()
      let c ← v.coo.step dbg (par srt full IB v.size) (fun i => i + IB) zero junk op
      .ok ⟨v.size, c⟩
  | .resize n p => v.resize srt full dbg IB zero junk n p

/-- Client histories: composes the operations cited in this file; no code of its own in /repo. -/
def run [Add α] (srt : List (Nat × α) → List (Nat × α)) (full : Bool) (dbg : Bool) (IB : Nat) (zero : α) :
    CoordVec α → List (CoordVecOp α × Coo.Junk Nat α) → M (CoordVec α)
  | v, [] => .ok v
  | v, op :: ops => step srt full dbg IB zero op.2 v op.1 >>= fun v' => run srt full dbg IB zero v' ops

end CoordVec

/-! ## coordinate_matrix -/

/-- `std::upper_bound` as in libstdc++: halving search for the first key greater than `k`. C++ standard library, not code of /repo. -/
def Search.stdUpperBound (keys : List Nat) (k : Nat) : (fuel first len : Nat) → M Nat
  | 0, first, len => if len = 0 then .ok first else .error .diverge
  | fuel + 1, first, len =>
      if len = 0 then .ok first else do
        let half := len / 2
        let x ← rd false keys (first + half)
        if k < x then Search.stdUpperBound keys k fuel first half
        else Search.stdUpperBound keys k fuel (first + half + 1) (len - half - 1)

/-- `detail::upper_bound (begin, end, t, compare)`: storage_sparse.hpp:42-49. -/
def Search.upperBound (keys : List Nat) (b e k : Nat) : M Nat :=
  if b = e then .ok b else do
    let x ← rd false keys b
    if k < x then .ok b else do
      let y ← rd false keys (e - 1)
      if ¬ k < y then .ok e else Search.stdUpperBound keys k (e - b) b (e - b)

/-- Two-level look-up: matrix_sparse.hpp:4457-4466 (find_element) and 4517-4522 (erase_element). -/
def CoordMat.search (idx : List (Nat × Nat)) (filled : Nat) (k : Nat × Nat) : M (Option Nat) := do
  let b ← lowerBound (idx.map (·.1)) 0 filled k.1
  let e ← upperBound (idx.map (·.1)) 0 filled k.1
  if b = e then .ok none else do
    let it ← lowerBound (idx.map (·.2)) b e k.2
    if it = e then .ok none else do
      let x ← rd false (idx.map (·.2)) it
      if x ≠ k.2 then .ok none else .ok (some it)

/-- Lexicographic comparison: matrix_sparse.hpp:4662-4664, 4680-4681, 4751-4752; storage.hpp (index_triple::less). -/
def lexLt (a b : Nat × Nat) : Bool := decide (a.1 < b.1 ∨ (a.1 = b.1 ∧ a.2 < b.2))

/-- Parameters of coordinate_matrix. matrix_sparse.hpp:4263-5769. -/
def CoordMat.par (srt : List ((Nat × Nat) × α) → List ((Nat × Nat) × α)) (full : Bool) (size1 size2 : Nat) : CooPar (Nat × Nat) α :=
  { lt := lexLt, srt := srt, full := full, search := CoordMat.search, minCap := min size1 size2
    inRange := fun _ => true, sortAlways := true, key0 := (0, 0) }

/-- matrix_sparse.hpp:5742-5750. -/
structure CoordMat (α : Type) where
  size1 : Nat
  size2 : Nat
  coo : Coo (Nat × Nat) α
  deriving DecidableEq

/-- Client operations on coordinate_matrix. Client histories: composes the operations cited in this file; no code of its own in /repo. -/
inductive CoordMatOp (α : Type)
  | core (op : CooOp (Nat × Nat) α)
  | resize (r c : Nat) (preserve : Bool)

namespace CoordMat

/-- `k_based (layout_type::index_M (i, j))`, `k_based (layout_type::index_m (i, j))`: matrix_sparse.hpp:4455-4458. -/
def key (o : Orient) (IB : Nat) (p : Nat × Nat) : Nat × Nat := (o.indexM p.1 p.2 + IB, o.indexm p.1 p.2 + IB)

/-- Constructor: matrix_sparse.hpp:4312-4318. -/
def ctor (srt : List ((Nat × Nat) × α) → List ((Nat × Nat) × α)) (full : Bool) (dbg : Bool) (junk : Coo.Junk (Nat × Nat) α) (r c nz : Nat) :
    M (CoordMat α) := do
  let x ← Coo.ctor dbg (par srt full r c) junk nz
  .ok ⟨r, c, x⟩

/-- `resize (size1, size2, preserve)`: matrix_sparse.hpp:4411-4424 (`preserve` unimplemented). -/
def resize (srt : List ((Nat × Nat) × α) → List ((Nat × Nat) × α)) (full : Bool) (dbg : Bool) (junk : Coo.Junk (Nat × Nat) α)
    (v : CoordMat α) (r c : Nat) (preserve : Bool) : M (CoordMat α) := do
  check dbg (preserve = false) .internalLogic
  let cap := Coo.restrictCapacity (par srt full r c) v.coo.cap
  let x : Coo (Nat × Nat) α := ⟨cap, 0, 0, true, resizeRaw junk.1 v.coo.idx cap, resizeRaw junk.2 v.coo.val cap⟩
  x.invariants dbg (par srt full r c)
  .ok ⟨r, c, x⟩

/-- `operator () (i, j) const`: matrix_sparse.hpp:4471-4477 (no bounds check). -/
def get [Add α] (srt : List ((Nat × Nat) × α) → List ((Nat × Nat) × α)) (full : Bool) (dbg : Bool) (o : Orient) (IB : Nat) (zero : α)
    (v : CoordMat α) (p : Nat × Nat) : M α := do
  let r ← v.coo.get dbg (par srt full v.size1 v.size2) zero (key o IB p)
  .ok r.2

/-- Client histories: composes the operations cited in this file; no code of its own in /repo. -/
def step [Add α] (srt : List ((Nat × Nat) × α) → List ((Nat × Nat) × α)) (full : Bool) (dbg : Bool) (o : Orient) (IB : Nat) (zero : α)
    (junk : Coo.Junk (Nat × Nat) α) (v : CoordMat α) : CoordMatOp α → M (CoordMat α)
  | .core op => do
      let x ← v.coo.step dbg (par srt full v.size1 v.size2) (key o IB) zero junk op
      .ok ⟨v.size1, v.size2, x⟩
  | .resize r c p => v.resize srt full dbg junk r c p

/-- Client histories: composes the operations cited in this file; no code of its own in /repo. -/
def run [Add α] (srt : List ((Nat × Nat) × α) → List ((Nat × Nat) × α)) (full : Bool) (dbg : Bool) (o : Orient) (IB : Nat) (zero : α) :
    CoordMat α → List (CoordMatOp α × Coo.Junk (Nat × Nat) α) → M (CoordMat α)
  | v, [] => .ok v
  | v, op :: ops => step srt full dbg o IB zero op.2 v op.1 >>= fun v' => run srt full dbg o IB zero v' ops

end CoordMat
end Ublas
