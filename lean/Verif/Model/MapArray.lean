import Verif.Model.Search
/-! # map_array (include/boost/numeric/ublas/storage_sparse.hpp:213-527)

A sorted array of (key, value) pairs with capacity.  Iterators are positions.  Not modelled: the
BOOST_UBLAS_STRICT_MAP_ARRAY proxy reference (Model/StrictMap); allocator failures; overflow of `size << 1`. -/
namespace Ublas
open Search
variable {α : Type}

/-- storage_sparse.hpp:524-526; `data` has `cap` cells, the first `size` of which are the map. -/
structure MapArr (α : Type) where
  cap : Nat
  size : Nat
  data : List (Nat × α)
  deriving DecidableEq

namespace MapArr

/-- Default constructor: storage_sparse.hpp:239-242. -/
def empty : MapArr α := ⟨0, 0, []⟩

/-- Specification helper: the keys of `data_`; no code of its own in /repo. -/
def keys (m : MapArr α) : List Nat := m.data.map (·.1)

/-- `resize (size)` (private): storage_sparse.hpp:265-283. -/
def resize (dbg : Bool) (zero : α) (m : MapArr α) (n : Nat) : M (MapArr α) := do
  check dbg (m.size ≤ m.cap) .internalLogic
  let m' ← (if n > m.cap then do
      let capacity := 2 * n
      check dbg (capacity ≠ 0) .internalLogic
      .ok ⟨capacity, m.size, m.data.take (min n m.size) ++ List.replicate (capacity - min n m.size) (0, zero)⟩
    else .ok m : M (MapArr α))
  check dbg (n ≤ m'.cap) .internalLogic
  .ok { m' with size := n }

/-- `reserve (capacity)`: storage_sparse.hpp:288-308.  In a release build a capacity below the size makes
`std::uninitialized_copy` write past the new block: undefined behaviour. -/
def reserve (dbg : Bool) (zero : α) (m : MapArr α) (n : Nat) : M (MapArr α) := do
  check dbg (m.size ≤ m.cap) .internalLogic
  check dbg (n ≥ m.size) .badSize
  if n < m.size then .error .ub else
    let m' : MapArr α := ⟨n, m.size, if n ≠ 0 then m.data.take m.size ++ List.replicate (n - m.size) (0, zero) else []⟩
    check dbg (m'.size ≤ m'.cap) .internalLogic
    .ok m'

/-- `lower_bound (i)`: storage_sparse.hpp:437-443. -/
def lowerBound (m : MapArr α) (k : Nat) : M Nat := Search.lowerBound m.keys 0 m.size k

/-- `find (i)`: storage_sparse.hpp:423-435; `m.size` is `end ()`. -/
def find (m : MapArr α) (k : Nat) : M Nat := do
  let it ← m.lowerBound k
  if it = m.size then .ok m.size else do
    let p ← rd false m.data it
    if p.1 ≠ k then .ok m.size else .ok it

/-- `insert (p)`: storage_sparse.hpp:387-397. -/
def insert (dbg : Bool) (zero : α) (m : MapArr α) (k : Nat) (v : α) : M (MapArr α × Nat × Bool) := do
  let it ← m.lowerBound k
  let present ← (if it ≠ m.size then do
      let p ← rd false m.data it
      .ok (decide (p.1 = k))
    else .ok false : M Bool)
  if present then .ok (m, it, false) else do
    let m ← m.resize dbg zero (m.size + 1)
    let d ← copyBackward m.data it (m.size - 1)
    let d ← wr false d it (k, v)
    .ok ({ m with data := d }, it, true)

/-- `operator [] (i)`: storage_sparse.hpp:331-337; returns the position of the element. -/
def index (dbg : Bool) (zero : α) (m : MapArr α) (k : Nat) : M (MapArr α × Nat) := do
  let it ← m.find k
  let (m, it) ← (if it = m.size then do
      let (m, it, _) ← m.insert dbg zero k zero
      .ok (m, it)
    else .ok (m, it) : M (MapArr α × Nat))
  check dbg (it ≠ m.size) .internalLogic
  .ok (m, it)

/-- Reading / writing `it->second`. `it->second` of an iterator, a pointer into `data_`: storage_sparse.hpp:299-322. -/
def value (m : MapArr α) (it : Nat) : M α := do let p ← rd false m.data it; .ok p.2
/-- `it->second = v` of an iterator, a pointer into `data_`: storage_sparse.hpp:299-322. -/
def assign (m : MapArr α) (it : Nat) (v : α) : M (MapArr α) := do
  let p ← rd false m.data it
  let d ← wr false m.data it (p.1, v)
  .ok { m with data := d }

/-- `erase (it)`: storage_sparse.hpp:404-408. -/
def erase (dbg : Bool) (zero : α) (m : MapArr α) (it : Nat) : M (MapArr α) := do
  check dbg (it < m.size) .badIndex
  let d ← copyForward m.data (it + 1) m.size it
  resize dbg zero { m with data := d } (m.size - 1)

/-- `erase (it1, it2)`: storage_sparse.hpp:410-415. -/
def eraseRange (dbg : Bool) (zero : α) (m : MapArr α) (it1 it2 : Nat) : M (MapArr α) :=
  if it1 = it2 then .ok m else do
    check dbg (it1 < it2 ∧ it2 ≤ m.size) .badIndex
    let d ← copyForward m.data it2 m.size it1
    resize dbg zero { m with data := d } (m.size - (it2 - it1))

/-- `push_back (it, p)`: storage_sparse.hpp:376-384 (the exception is raised in every build mode). -/
def pushBack (dbg : Bool) (zero : α) (m : MapArr α) (k : Nat) (v : α) : M (MapArr α) := do
  let ok ← (if m.size = 0 then .ok true else do
      let p ← rd false m.data (m.size - 1)
      .ok (decide (p.1 < k)) : M Bool)
  if ok then do
    let m ← m.resize dbg zero (m.size + 1)
    let d ← wr false m.data (m.size - 1) (k, v)
    .ok { m with data := d }
  else .error .externalLogic

/-- `clear ()`: storage_sparse.hpp:417-419. -/
def clear (dbg : Bool) (zero : α) (m : MapArr α) : M (MapArr α) := m.resize dbg zero 0

/-- `operator =` from a distinct object: storage_sparse.hpp:345-351. -/
def assignFrom (dbg : Bool) (zero : α) (m a : MapArr α) : M (MapArr α) := do
  let m ← m.resize dbg zero a.size
  let d ← loop (fun j d => do let x ← rd false a.data j; wr false d j x) a.size m.data
  .ok { m with data := d }

/-- Copy constructor: storage_sparse.hpp:244-253, with the arguments of `std::uninitialized_copy` as
written: the source range is the freshly allocated (uninitialised, `junk`) block of the new object and
the destination is `c.data_`.  Returns the source object after the call and the new object. -/
def copyCtor (junk : Nat → Nat × α) (c : MapArr α) : M (MapArr α × MapArr α) :=
  let capacity := c.size
  if capacity ≠ 0 then do
    let data := (List.range capacity).map junk
    let cd ← loop (fun j d => do let x ← rd false data j; wr false d j x) capacity c.data
    .ok ({ c with data := cd }, ⟨capacity, c.size, data⟩)
  else .ok (c, ⟨capacity, c.size, []⟩)

/-- Public operations, with the iterator plumbing a client uses. Client histories: composes the operations cited in this file; no code of its own in /repo. -/
inductive Op (α : Type)
  | modify (k : Nat) (f : α → α)    -- m [k] = f (m [k])
  | insert (k : Nat) (v : α)        -- m.insert (value_type (k, v))
  | eraseKey (k : Nat)              -- it = m.find (k); if (it != m.end ()) m.erase (it)
  | eraseBetween (a b : Nat)        -- m.erase (m.lower_bound (a), m.lower_bound (b))
  | pushBack (k : Nat) (v : α)      -- m.push_back (m.end (), value_type (k, v))
  | clear
  | reserve (n : Nat)

/-- Client histories: composes the operations cited in this file; no code of its own in /repo. -/
def step (dbg : Bool) (zero : α) (m : MapArr α) : Op α → M (MapArr α)
  | .modify k f => do
      let (m, it) ← m.index dbg zero k
      let x ← m.value it
      m.assign it (f x)
  | .insert k v => do
      let (m, _, _) ← m.insert dbg zero k v
      .ok m
  | .eraseKey k => do
      let it ← m.find k
      if it = m.size then .ok m else m.erase dbg zero it
  | .eraseBetween a b => do
      let i ← m.lowerBound a
      let j ← m.lowerBound b
      m.eraseRange dbg zero i j
  | .pushBack k v => m.pushBack dbg zero k v
  | .clear => m.clear dbg zero
  | .reserve n => m.reserve dbg zero n

/-- Client histories: composes the operations cited in this file; no code of its own in /repo. -/
def run (dbg : Bool) (zero : α) : MapArr α → List (Op α) → M (MapArr α)
  | m, [] => .ok m
  | m, op :: ops => step dbg zero m op >>= fun m' => run dbg zero m' ops

/-- Look-up as a client performs it: `it = m.find (k); it == m.end () ? nothing : it->second`. A client's use of storage_sparse.hpp:423-436 (`find`) and `end`. -/
def lookup (m : MapArr α) (k : Nat) : M (Option α) := do
  let it ← m.find k
  if it = m.size then .ok none else do
    let v ← m.value it
    .ok (some v)

/-- Traversal `for (it = m.begin (); it != m.end (); ++ it)`. A client's loop; the iterator operations are cited at their definitions. -/
def traverse (m : MapArr α) : M (List (Nat × α)) :=
  loop (fun j acc => do let p ← rd false m.data j; .ok (acc ++ [p])) m.size []

end MapArr
end Ublas
