import Verif.Model.MapArray
import Verif.Model.Layout
/-! # mapped_vector and mapped_matrix

(include/boost/numeric/ublas/vector_sparse.hpp:304-640, matrix_sparse.hpp:260-547.)
Both are written against a map class; `MapImpl` is the part of the map interface they use.  The two maps
the library offers are `map_array` (model of `Model/MapArray.lean`) and `map_std`, which is `std::map`
(storage_sparse.hpp:197-206; trusted, modelled here by its standard specification).
The `(*it).first == i, internal_logic` ("broken map") checks are not modelled: an iterator is represented by
the key it was looked up with.  STRICT reference proxies are not modelled. -/
namespace Ublas
open Search
variable {α σ : Type}

/-- The map operations used by mapped_vector / mapped_matrix. Interface: what vector_sparse.hpp:304-640 and matrix_sparse.hpp:260-547 call; std::map or map_array. -/
structure MapImpl (σ α : Type) where
  empty : σ
  /-- `it = find (k)`: nothing when `it == end ()`, otherwise `it->second`. -/
  find : σ → Nat → M (Option α)
  /-- `insert (value_type (k, v))`; the Bool is `.second`. -/
  insert : Bool → σ → Nat → α → M (σ × Bool)
  /-- `it->second = v` where `it` is the iterator found at `k`. -/
  setAt : σ → Nat → α → M σ
  /-- `erase (it)` where `it` is the iterator found at `k`. -/
  eraseKey : Bool → σ → Nat → M σ
  /-- `erase (lower_bound (k), end ())`. -/
  eraseFrom : Bool → σ → Nat → M σ
  clear : Bool → σ → M σ
  /-- `detail::map_reserve`: storage_sparse.hpp:543-551. -/
  reserve : Bool → σ → Nat → M σ
  /-- begin () .. end () -/
  traverse : σ → M (List (Nat × α))

/-- `map_array` as a map implementation. storage_sparse.hpp:213-527 (Model/MapArray). -/
def mapArrayImpl (zero : α) : MapImpl (MapArr α) α where
  empty := MapArr.empty
  find m k := m.lookup k
  insert dbg m k v := do let (m, _, b) ← m.insert dbg zero k v; .ok (m, b)
  setAt m k v := do let it ← m.find k; m.assign it v
  eraseKey dbg m k := do let it ← m.find k; m.erase dbg zero it
  eraseFrom dbg m k := do let it ← m.lowerBound k; m.eraseRange dbg zero it m.size
  clear dbg m := m.clear dbg zero
  reserve dbg m n := m.reserve dbg zero n
  traverse m := m.traverse

/-- Insertion into a list sorted by key, without replacing (`std::map::insert`). C++ standard library, not code of /repo. -/
def sortedInsert (k : Nat) (v : α) : List (Nat × α) → List (Nat × α)
  | [] => [(k, v)]
  | (j, w) :: l => if k < j then (k, v) :: (j, w) :: l else if k = j then (j, w) :: l
      else (j, w) :: sortedInsert k v l

/-- `map_std` = `std::map` by its specification (storage_sparse.hpp:197-206); a map is the list of its
elements in key order.  `map_reserve` is a no-op for it (storage_sparse.hpp:543-546). -/
def stdMapImpl : MapImpl (List (Nat × α)) α where
  empty := []
  find m k := .ok (m.lookup k)
  insert _ m k v := .ok (sortedInsert k v m, (m.lookup k).isNone)
  setAt m k v := .ok (m.map fun p => if p.1 = k then (p.1, v) else p)
  eraseKey _ m k := .ok (m.filter fun p => p.1 ≠ k)
  eraseFrom _ m k := .ok (m.filter fun p => p.1 < k)
  clear _ _ := .ok []
  reserve _ m _ := .ok m
  traverse m := .ok m

/-- mapped_vector: vector_sparse.hpp:694-696 (`size_`, `data_`). -/
structure MappedVec (σ : Type) where
  size : Nat
  map : σ

/-- Operations common to the sparse vectors.  `modify i f` is `v (i) = f (v (i))` through the non-const
`operator ()` (so it covers `v (i) = t`, `v (i) += t` and merely touching the element). Client histories: composes the operations cited in this file; no code of its own in /repo. -/
inductive SVOp (α : Type)
  | modify (i : Nat) (f : α → α)
  | insert (i : Nat) (t : α)
  | erase (i : Nat)
  | clear
  | resize (n : Nat) (preserve : Bool)
  | reserve (n : Nat)

namespace MappedVec
variable (I : MapImpl σ α) (dbg : Bool) (zero : α)

/-- Constructor `mapped_vector (size, non_zeros)`: vector_sparse.hpp:337-341. -/
def ctor (n nz : Nat) : M (MappedVec σ) := do
  let m ← I.reserve dbg I.empty (min nz n)
  .ok ⟨n, m⟩

/-- `find_element`: vector_sparse.hpp:410-416. -/
def findElement (v : MappedVec σ) (i : Nat) : M (Option α) := I.find v.map i

/-- `operator () const`: vector_sparse.hpp:420-427. -/
def get (v : MappedVec σ) (i : Nat) : M α := do
  check dbg (i < v.size) .badIndex
  match ← I.find v.map i with
  | none => .ok zero
  | some x => .ok x

/-- `ref (i)` followed by an update through the reference: vector_sparse.hpp:429-443. -/
def modify (v : MappedVec σ) (i : Nat) (f : α → α) : M (MappedVec σ) := do
  check dbg (i < v.size) .badIndex
  let (m, _) ← I.insert dbg v.map i zero
  match ← I.find m i with
  | none => .error .ub
  | some x => do
      let m ← I.setAt m i (f x)
      .ok ⟨v.size, m⟩

/-- `insert_element`: vector_sparse.hpp:456-463. -/
def insertElement (v : MappedVec σ) (i : Nat) (t : α) : M (MappedVec σ) := do
  let (m, b) ← I.insert dbg v.map i t
  check dbg (b = true) .badIndex
  let m ← (if ¬ b = true then I.setAt m i t else .ok m : M σ)
  .ok ⟨v.size, m⟩

/-- `erase_element`: vector_sparse.hpp:465-470. -/
def eraseElement (v : MappedVec σ) (i : Nat) : M (MappedVec σ) := do
  match ← I.find v.map i with
  | none => .ok v
  | some _ => do
      let m ← I.eraseKey dbg v.map i
      .ok ⟨v.size, m⟩

/-- `clear`: vector_sparse.hpp:474-476. -/
def clear (v : MappedVec σ) : M (MappedVec σ) := do
  let m ← I.clear dbg v.map
  .ok ⟨v.size, m⟩

/-- `resize (size, preserve)`: vector_sparse.hpp:388-396. -/
def resize (v : MappedVec σ) (n : Nat) (preserve : Bool) : M (MappedVec σ) := do
  let m ← (if preserve then I.eraseFrom dbg v.map n else I.clear dbg v.map : M σ)
  .ok ⟨n, m⟩

/-- `reserve (non_zeros)`: vector_sparse.hpp:382-385, 400-402. -/
def reserve (v : MappedVec σ) (n : Nat) : M (MappedVec σ) := do
  let m ← I.reserve dbg v.map (min n v.size)
  .ok ⟨v.size, m⟩

/-- Client histories: composes the operations cited in this file; no code of its own in /repo. -/
def step (v : MappedVec σ) : SVOp α → M (MappedVec σ)
  | .modify i f => modify I dbg zero v i f
  | .insert i t => insertElement I dbg v i t
  | .erase i => eraseElement I dbg v i
  | .clear => clear I dbg v
  | .resize n p => resize I dbg v n p
  | .reserve n => reserve I dbg v n

/-- Client histories: composes the operations cited in this file; no code of its own in /repo. -/
def run : MappedVec σ → List (SVOp α) → M (MappedVec σ)
  | v, [] => .ok v
  | v, op :: ops => step I dbg zero v op >>= fun v' => run v' ops

/-- Iteration `for (it = v.begin (); it != v.end (); ++ it)`; `begin ()` is `find (0)`, i.e.
`lower_bound (0)`, and `end ()` is `find (size_)` (vector_sparse.hpp:596-602, 669-675); with all keys below
the size these are the map's own begin and end. -/
def traverse (v : MappedVec σ) : M (List (Nat × α)) := I.traverse v.map

end MappedVec

/-- mapped_matrix: `size1_`, `size2_`, `data_`. matrix_sparse.hpp:1413-1415. -/
structure MappedMat (σ : Type) where
  size1 : Nat
  size2 : Nat
  map : σ

/-- Operations of the sparse matrices; `resize` is the non-preserving one. Client histories: composes the operations cited in this file; no code of its own in /repo. -/
inductive SMOp (α : Type)
  | modify (i j : Nat) (f : α → α)
  | insert (i j : Nat) (t : α)
  | erase (i j : Nat)
  | clear
  | resize (r c : Nat)
  | reserve (n : Nat)

namespace MappedMat
variable (I : MapImpl σ α) (dbg : Bool) (o : Orient) (zero : α)

/-- `restrict_capacity`: matrix_sparse.hpp:352-358. -/
def restrictCapacity (s1 s2 nz : Nat) : Nat := if s1 > 0 ∧ nz / s1 ≥ s2 then s1 * s2 else nz

/-- Constructor: matrix_sparse.hpp:303-307. -/
def ctor (r c nz : Nat) : M (MappedMat σ) := do
  let m ← I.reserve dbg I.empty (restrictCapacity r c nz)
  .ok ⟨r, c, m⟩

/-- `find_element`: matrix_sparse.hpp:381-388. -/
def findElement (v : MappedMat σ) (i j : Nat) : M (Option α) := do
  let e ← o.element dbg i v.size1 j v.size2
  I.find v.map e

/-- `operator () const`: matrix_sparse.hpp:392-399. -/
def get (v : MappedMat σ) (i j : Nat) : M α := do
  let e ← o.element dbg i v.size1 j v.size2
  match ← I.find v.map e with
  | none => .ok zero
  | some x => .ok x

/-- non-const `operator ()` and an update through the reference: matrix_sparse.hpp:401-410. -/
def modify (v : MappedMat σ) (i j : Nat) (f : α → α) : M (MappedMat σ) := do
  let e ← o.element dbg i v.size1 j v.size2
  let (m, _) ← I.insert dbg v.map e zero
  match ← I.find m e with
  | none => .error .ub
  | some x => do
      let m ← I.setAt m e (f x)
      .ok { v with map := m }

/-- `insert_element`: matrix_sparse.hpp:414-422. -/
def insertElement (v : MappedMat σ) (i j : Nat) (t : α) : M (MappedMat σ) := do
  (if dbg then do
      let p ← findElement I dbg o v i j
      check dbg (p.isNone = true) .badIndex
    else .ok () : M Unit)
  let e ← o.element dbg i v.size1 j v.size2
  let (m, b) ← I.insert dbg v.map e t
  let m ← (if ¬ b = true then I.setAt m e t else .ok m : M σ)
  .ok { v with map := m }

/-- `erase_element`: matrix_sparse.hpp:424-429. -/
def eraseElement (v : MappedMat σ) (i j : Nat) : M (MappedMat σ) := do
  let e ← o.element dbg i v.size1 j v.size2
  match ← I.find v.map e with
  | none => .ok v
  | some _ => do
      let m ← I.eraseKey dbg v.map e
      .ok { v with map := m }

/-- `clear`: matrix_sparse.hpp:433-435. -/
def clear (v : MappedMat σ) : M (MappedMat σ) := do
  let m ← I.clear dbg v.map
  .ok { v with map := m }

/-- `resize (size1, size2, preserve)`: matrix_sparse.hpp:361-367. -/
def resize (v : MappedMat σ) (r c : Nat) (preserve : Bool) : M (MappedMat σ) := do
  check dbg (preserve = false) .internalLogic
  let m ← I.clear dbg v.map
  .ok ⟨r, c, m⟩

/-- `reserve`: matrix_sparse.hpp:371-373. -/
def reserve (v : MappedMat σ) (n : Nat) : M (MappedMat σ) := do
  let m ← I.reserve dbg v.map (restrictCapacity v.size1 v.size2 n)
  .ok { v with map := m }

/-- Client histories: composes the operations cited in this file; no code of its own in /repo. -/
def step (v : MappedMat σ) : SMOp α → M (MappedMat σ)
  | .modify i j f => modify I dbg o zero v i j f
  | .insert i j t => insertElement I dbg o v i j t
  | .erase i j => eraseElement I dbg o v i j
  | .clear => clear I dbg v
  | .resize r c => resize I dbg v r c false
  | .reserve n => reserve I dbg v n

/-- Client histories: composes the operations cited in this file; no code of its own in /repo. -/
def run : MappedMat σ → List (SMOp α) → M (MappedMat σ)
  | v, [] => .ok v
  | v, op :: ops => step I dbg o zero v op >>= fun v' => run v' ops

end MappedMat
end Ublas
