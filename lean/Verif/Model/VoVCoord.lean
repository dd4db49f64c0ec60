import Verif.Model.VectorOfVector
import Verif.Model.Coo
/-! # generalized_vector_of_vector over coordinate vectors (include/boost/numeric/ublas/vector_of_vector.hpp)

`generalized_vector_of_vector<T, L, vector<coordinate_vector<T>>>`: as in Model/VectorOfVector, with coordinate vectors as lines; `append_element` and `sort`
exist for these only.  Element reads and iteration sort the line they look at (its arrays are `mutable`).
Not modelled: expression constructors and assignments (207-269), serialization (see Model/Serialize), iteration across the lines (see Model/VectorOfVector). -/
namespace Ublas
open Search
variable {α : Type}

/-- vector_of_vector.hpp:1336-1338. -/
structure VoVC (α : Type) where
  size1 : Nat
  size2 : Nat
  data : List (CoordVec α)
  deriving DecidableEq

/-- Client histories: composes the operations cited in this file; no code of its own in /repo. -/
inductive VVCOp (α : Type)
  | modify (i j : Nat) (f : α → α)       -- m (i, j) = f (m (i, j))
  | insert (i j : Nat) (t : α)
  | append (i j : Nat) (t : α)
  | erase (i j : Nat)
  | clear
  | sort
  | read (i j : Nat)
  | resize (r c : Nat) (preserve : Bool)

/-- The parameters of the lines: `std::sort`, BOOST_UBLAS_COO_ALWAYS_DO_FULL_SORT (vector_sparse.hpp:1911), the index base. Template arguments and macros; no code of their own in /repo. -/
structure VVCPar (α : Type) where
  srt : List (Nat × α) → List (Nat × α)
  full : Bool
  IB : Nat

namespace VoVC

/-- Uninitialised memory: what line `k` finds in the arrays it allocates (on construction, on a later operation). Client histories: composes the operations cited in this file; no code of its own in /repo. -/
abbrev Junk (α : Type) := Nat → Coo.Junk Nat α

/-- `coordinate_vector ()`: vector_sparse.hpp:1523-1529, the same members as `coordinate_vector (0, 0)`. -/
def emptyRow (P : VVCPar α) (dbg : Bool) (junk : Coo.Junk Nat α) : M (CoordVec α) := CoordVec.ctor P.srt P.full dbg P.IB junk 0 0

/-- Replace line `k` by the result of an operation on it: `ref (data () [k]).op (...)`. vector_of_vector.hpp:144, 150, 291, 301, 309, 318, 326, 340. -/
def onRow (dbg : Bool) (d : List (CoordVec α)) (k : Nat) (f : CoordVec α → M (CoordVec α)) : M (List (CoordVec α)) := do
  let r ← rd dbg d k
  let r ← f r
  wr dbg d k r

/-- `data_.insert_element (k, vector_data_value_type ()) .resize (sizem, false)`: vector_of_vector.hpp:75;
vector.hpp:257-259. -/
def freshRow [Add α] (P : VVCPar α) (dbg : Bool) (zero : α) (junk junk' : Junk α) (sizem : Nat) (d : List (CoordVec α)) (k : Nat) : M (List (CoordVec α)) := do
  let e ← emptyRow P dbg (junk k)
  let d ← wr dbg d k e
  onRow dbg d k fun r => r.resize P.srt P.full dbg P.IB zero (junk' k) sizem false

/-- `data_.insert_element (sizeM, vector_data_value_type ())`: vector_of_vector.hpp:76, 148, 154. -/
def sentinel (P : VVCPar α) (dbg : Bool) (junk : Junk α) (d : List (CoordVec α)) (k : Nat) : M (List (CoordVec α)) := do
  let e ← emptyRow P dbg (junk k)
  wr dbg d k e

/-- `storage_invariants`: vector_of_vector.hpp:1330-1335. -/
def invariants (dbg : Bool) (o : Orient) (v : VoVC α) : M Unit := do
  check dbg (o.sizeM v.size1 v.size2 + 1 = v.data.length) .internalLogic
  check dbg (v.data.length ≠ 0) .internalLogic

/-- Constructor (size1, size2): vector_of_vector.hpp:69-78; `rows` are the lines `data_` is created with. -/
def ctor [Add α] (P : VVCPar α) (dbg : Bool) (o : Orient) (zero : α) (junk junk' : Junk α) (rows : Nat → CoordVec α) (r c : Nat) : M (VoVC α) := do
  let sizeM := o.sizeM r c
  let sizem := o.sizem r c
  let d ← loop (fun k d => freshRow P dbg zero junk junk' sizem d k) sizeM ((List.range (sizeM + 1)).map rows)
  let d ← sentinel P dbg junk d sizeM
  let v : VoVC α := ⟨r, c, d⟩
  v.invariants dbg o
  .ok v

/-- `nnz ()`: vector_of_vector.hpp:116-121. -/
def nnz (v : VoVC α) : Nat := v.data.foldl (fun n r => n + r.coo.filled) 0
/-- `nnz_capacity ()`: vector_of_vector.hpp:109-114. -/
def nnzCapacity (v : VoVC α) : Nat := v.data.foldl (fun n r => n + r.coo.cap) 0

/-- `resize (size1, size2, preserve)`: vector_of_vector.hpp:135-158; vector.hpp:187-192 (preserving: every new line is a copy of one `coordinate_vector ()`). -/
def resize [Add α] (P : VVCPar α) (dbg : Bool) (o : Orient) (zero : α) (junk junk' : Junk α) (rows : Nat → CoordVec α) (v : VoVC α)
    (size1 size2 : Nat) (preserve : Bool) : M (VoVC α) := do
  let oldM := o.sizeM v.size1 v.size2
  let sizeM := o.sizeM size1 size2
  let sizem := o.sizem size1 size2
  let d ← (if preserve then do
      let e ← emptyRow P dbg (junk 0)
      let d := resizeInit v.data (sizeM + 1) e
      let d ← loop (fun k d => onRow dbg d k fun r => r.resize P.srt P.full dbg P.IB zero (junk k) sizem true) (min (oldM + 1) sizeM) d
      let d ← loop (fun k d => freshRow P dbg zero junk junk' sizem d (oldM + 1 + k)) (sizeM - (oldM + 1)) d
      if sizeM > oldM then sentinel P dbg junk d sizeM
      else onRow dbg d sizeM fun r => r.resize P.srt P.full dbg P.IB zero (junk sizeM) 0 false
    else do
      let d := resizeRaw rows v.data (sizeM + 1)
      let d ← loop (fun k d => freshRow P dbg zero junk junk' sizem d k) sizeM d
      sentinel P dbg junk d sizeM : M (List (CoordVec α)))
  let v : VoVC α := ⟨size1, size2, d⟩
  v.invariants dbg o
  .ok v

/-- `operator () (i, j) const`: vector_of_vector.hpp:166-196: `& (data () [elementM] [elementm])`; the const subscript of coordinate_vector checks the index,
sorts the line and looks the element up (vector_sparse.hpp:1673-1680).  Returns the matrix with that line sorted and the value. -/
def get [Add α] (P : VVCPar α) (dbg : Bool) (o : Orient) (zero : α) (v : VoVC α) (i j : Nat) : M (VoVC α × α) := do
  let r ← rd dbg v.data (o.indexM i j)
  check dbg (o.indexm i j < r.size) .badIndex
  let q ← r.coo.get dbg (CoordVec.par P.srt P.full P.IB r.size) zero (o.indexm i j + P.IB)
  let d ← wr dbg v.data (o.indexM i j) ⟨r.size, q.1⟩
  .ok ({ v with data := d }, q.2)

/-- `m (i, j) = f (m (i, j))` through `at_element`: vector_of_vector.hpp:198-204, 339-341. -/
def modify [Add α] (P : VVCPar α) (dbg : Bool) (o : Orient) (zero : α) (junk : Junk α) (v : VoVC α) (i j : Nat) (f : α → α) : M (VoVC α) := do
  let d ← onRow dbg v.data (o.indexM i j) fun r => r.step P.srt P.full dbg P.IB zero (junk (o.indexM i j)) (.core (.modify (o.indexm i j) f))
  .ok { v with data := d }

/-- `insert_element (i, j, t)`: vector_of_vector.hpp:298-304. -/
def insertElement [Add α] (P : VVCPar α) (dbg : Bool) (o : Orient) (zero : α) (junk : Junk α) (v : VoVC α) (i j : Nat) (t : α) : M (VoVC α) := do
  let r ← rd dbg v.data (o.indexM i j)
  v.invariants dbg o
  let r ← r.step P.srt P.full dbg P.IB zero (junk (o.indexM i j)) (.core (.insert (o.indexm i j) t))
  let d ← wr dbg v.data (o.indexM i j) r
  .ok { v with data := d }

/-- `append_element (i, j, t)`: vector_of_vector.hpp:305-312. -/
def appendElement [Add α] (P : VVCPar α) (dbg : Bool) (o : Orient) (zero : α) (junk : Junk α) (v : VoVC α) (i j : Nat) (t : α) : M (VoVC α) := do
  let r ← rd dbg v.data (o.indexM i j)
  v.invariants dbg o
  let r ← r.step P.srt P.full dbg P.IB zero (junk (o.indexM i j)) (.core (.append (o.indexm i j) t))
  let d ← wr dbg v.data (o.indexM i j) r
  .ok { v with data := d }

/-- `erase_element (i, j)`: vector_of_vector.hpp:314-320 (`*itv` is checked: vector.hpp:588-591). -/
def eraseElement [Add α] (P : VVCPar α) (dbg : Bool) (o : Orient) (zero : α) (junk : Junk α) (v : VoVC α) (i j : Nat) : M (VoVC α) := do
  if o.indexM i j = v.data.length then .ok v else do
    let d ← onRow dbg v.data (o.indexM i j) fun r => r.step P.srt P.full dbg P.IB zero (junk (o.indexM i j)) (.core (.erase (o.indexm i j)))
    let v := { v with data := d }
    v.invariants dbg o
    .ok v

/-- `clear ()`: vector_of_vector.hpp:322-328. -/
def clear [Add α] (P : VVCPar α) (dbg : Bool) (o : Orient) (zero : α) (junk : Junk α) (v : VoVC α) : M (VoVC α) := do
  let d ← loop (fun k d => onRow dbg d k fun r => r.step P.srt P.full dbg P.IB zero (junk k) (.core .clear)) (o.sizeM v.size1 v.size2) v.data
  let v := { v with data := d }
  v.invariants dbg o
  .ok v

/-- `sort ()`: vector_of_vector.hpp:287-294: every line, the sentinel too. -/
def sort [Add α] (P : VVCPar α) (dbg : Bool) (zero : α) (junk : Junk α) (v : VoVC α) : M (VoVC α) := do
  let d ← loop (fun k d => onRow dbg d k fun r => r.step P.srt P.full dbg P.IB zero (junk k) (.core .sort)) v.data.length v.data
  .ok { v with data := d }

/-- Client histories: composes the operations cited in this file; no code of its own in /repo. -/
def step [Add α] (P : VVCPar α) (dbg : Bool) (o : Orient) (zero : α) (junk junk' : Junk α) (rows : Nat → CoordVec α) (v : VoVC α) : VVCOp α → M (VoVC α)
  | .modify i j f => v.modify P dbg o zero junk i j f
  | .insert i j t => v.insertElement P dbg o zero junk i j t
  | .append i j t => v.appendElement P dbg o zero junk i j t
  | .erase i j => v.eraseElement P dbg o zero junk i j
  | .clear => v.clear P dbg o zero junk
  | .sort => v.sort P dbg zero junk
  | .read i j => do let q ← v.get P dbg o zero i j; .ok q.1
  | .resize r c p => v.resize P dbg o zero junk junk' rows r c p

/-- One operation with the contents of the memory it may allocate. Client histories: composes the operations cited in this file; no code of its own in /repo. -/
structure Act (α : Type) where
  op : VVCOp α
  junk : Junk α
  junk' : Junk α
  rows : Nat → CoordVec α

/-- A history. Client histories: composes the operations cited in this file; no code of its own in /repo. -/
def run [Add α] (P : VVCPar α) (dbg : Bool) (o : Orient) (zero : α) : VoVC α → List (Act α) → M (VoVC α)
  | v, [] => .ok v
  | v, a :: as => step P dbg o zero a.junk a.junk' a.rows v a.op >>= fun v' => run P dbg o zero v' as

/-! ## Iteration

The members of the iterators are the same text for every kind of line, and `find`, `index`, `operator *` and `==` of the two compressed and coordinate vector
iterators are the same but for the `sort ()` at the beginning of `coordinate_vector::find` (vector_sparse.hpp:1984-1987 and 1219-1222, 2030-2056 and 1268-1294).
So the walk along a line is the one of Model/VectorOfVector on the line after it has been sorted. -/

/-- A line seen as the arrays its iterators work on. vector_sparse.hpp:2213-2219, 1474-1479. -/
def toRow (r : CoordVec α) : CVec α := ⟨r.size, r.coo.cap, r.coo.filled, r.coo.idx, r.coo.val⟩

/-- `for (it = find (1, k, 0); it != find (1, k, sizem); ++ it) visit (it.index1 (), it.index2 (), *it)` along line `k`; the first `find` sorts the line
(vector_sparse.hpp:1985), later ones find it sorted. A client's loop over vector_of_vector.hpp:355-391, 432-468, 570-578, 644-662. -/
def traverseFast [Add α] (P : VVCPar α) (dbg : Bool) (o : Orient) (zero : α) (junk : Junk α) (v : VoVC α) (k : Nat) : M (List (Nat × Nat × α)) := do
  let d ← onRow dbg v.data k fun r => r.step P.srt P.full dbg P.IB zero (junk k) (.core .sort)
  VoV.traverseFast dbg o P.IB ⟨v.size1, v.size2, d.map toRow⟩ k

/-- The whole matrix, outer iterators along the major direction (rank 0: every line, vector_of_vector.hpp:534-549, 585-603), inner iterators along the minor one. A client's loop. -/
def traverse [Add α] (P : VVCPar α) (dbg : Bool) (o : Orient) (zero : α) (junk : Junk α) (v : VoVC α) : M (List (Nat × Nat × α)) :=
  loop (fun k acc => do
    let E ← v.traverseFast P dbg o zero junk k
    .ok (acc ++ E)) (o.sizeM v.size1 v.size2) []

end VoVC
end Ublas
