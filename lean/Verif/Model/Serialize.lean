import Verif.Model.Dense
import Verif.Model.CArray
import Verif.Model.DenseVV
import Verif.Model.Constant
import Verif.Model.MapOfMaps
import Verif.Model.CompressedMatrix
import Verif.Model.Coo
import Verif.Model.VectorOfVector
/-!
# Serialization: the `serialize` member functions

One template serves both directions, as in the source: `ar & x` appends `x` to the archive when saving and assigns the next value of the archive to `x` when loading.
An archive is a sequence of primitive values; the archive classes of Boost.Serialization are modelled by that (they are external): reading a value that is not there, or of another
kind, throws `archive_exception` (`stdException`).  `make_nvp` (a name) is transparent.  An exception leaves the members as they are at that moment.
External serializers modelled by their documented effect: built-in arrays (count, then elements; a count above the extent throws), `make_array (p, n)` (`n` elements), `std::map`
(clear, count, pairs inserted one by one).  Not modelled: `fixed_vector`, `fixed_matrix` (serializer of `std::array`), allocation failure while loading, class versions and tracking.
-/
namespace Ublas
namespace Ser
variable {R σ τ α β γ : Type}

/-- A primitive value in an archive. Serialization machinery: the interface of Boost.Serialization, not code of /repo. -/
inductive Tok (R : Type)
  | num (n : Nat)
  | flag (b : Bool)
  | elt (x : R)
  deriving DecidableEq

/-- An archive: direction and contents (saving: what has been written; loading: what is left). Serialization machinery: the interface of Boost.Serialization, not code of /repo. -/
structure Ar (R : Type) where
  loading : Bool
  tape : List (Tok R)

/-- Normal end, or an exception (or undefined behaviour) with the members left behind. Serialization machinery: the interface of Boost.Serialization, not code of /repo. -/
inductive Res (R σ β : Type)
  | ok (b : β) (s : σ) (ar : Ar R)
  | thrown (f : Fault) (s : σ)

/-- Statements of a `serialize` function on an object with members `σ`. Serialization machinery: the interface of Boost.Serialization, not code of /repo. -/
def S (R σ β : Type) := σ → Ar R → Res R σ β

/-- Serialization machinery: the interface of Boost.Serialization, not code of /repo. -/
def S.bind (m : S R σ β) (f : β → S R σ γ) : S R σ γ := fun s ar =>
  match m s ar with
  | .ok b s' ar' => f b s' ar'
  | .thrown e s' => .thrown e s'

instance : Monad (S R σ) where
  pure b := fun s ar => .ok b s ar
  bind := S.bind

/-- `ar & x` for a local variable with value `n`: its value afterwards. Serialization machinery: the interface of Boost.Serialization, not code of /repo. -/
def ampLocal (n : σ → Nat) : S R σ Nat := fun s ar =>
  if ar.loading then match ar.tape with
    | .num k :: t => .ok k s ⟨true, t⟩
    | _ => .thrown .stdException s
  else .ok (n s) s ⟨false, ar.tape ++ [.num (n s)]⟩

/-- `ar & x` for an integer. Serialization machinery: the interface of Boost.Serialization, not code of /repo. -/
def ampN : S R Nat Unit := fun n ar =>
  if ar.loading then match ar.tape with
    | .num k :: t => .ok () k ⟨true, t⟩
    | _ => .thrown .stdException n
  else .ok () n ⟨false, ar.tape ++ [.num n]⟩

/-- `ar & x` for a bool. Serialization machinery: the interface of Boost.Serialization, not code of /repo. -/
def ampB : S R Bool Unit := fun n ar =>
  if ar.loading then match ar.tape with
    | .flag k :: t => .ok () k ⟨true, t⟩
    | _ => .thrown .stdException n
  else .ok () n ⟨false, ar.tape ++ [.flag n]⟩

/-- `ar & x` for an element of a primitive type. Serialization machinery: the interface of Boost.Serialization, not code of /repo. -/
def ampE : S R R Unit := fun n ar =>
  if ar.loading then match ar.tape with
    | .elt k :: t => .ok () k ⟨true, t⟩
    | _ => .thrown .stdException n
  else .ok () n ⟨false, ar.tape ++ [.elt n]⟩

/-- A statement on a member. Serialization machinery: the interface of Boost.Serialization, not code of /repo. -/
def member (get : σ → τ) (set : σ → τ → σ) (m : S R τ β) : S R σ β := fun s ar =>
  match m (get s) ar with
  | .ok b x ar' => .ok b (set s x) ar'
  | .thrown e x => .thrown e (set s x)

/-- `if (Archive::is_loading::value) …`.  Serialization machinery: the interface of Boost.Serialization, not code of /repo. -/
def whenLoading (m : S R σ Unit) : S R σ Unit := fun s ar => if ar.loading then m s ar else .ok () s ar
/-- Assignment to members. Serialization machinery: the interface of Boost.Serialization, not code of /repo. -/
def upd (f : σ → σ) : S R σ Unit := fun s ar => .ok () (f s) ar
/-- A member function that may throw. Serialization machinery: the interface of Boost.Serialization, not code of /repo. -/
def call (f : σ → M σ) : S R σ Unit := fun s ar => match f s with | .ok s' => .ok () s' ar | .error e => .thrown e s
/-- A const member function, or a check. Serialization machinery: the interface of Boost.Serialization, not code of /repo. -/
def test (f : σ → M Unit) : S R σ Unit := fun s ar => match f s with | .ok _ => .ok () s ar | .error e => .thrown e s

/-- The object itself. Serialization machinery: the interface of Boost.Serialization, not code of /repo. -/
def self : S R σ σ := fun s ar => .ok s s ar

/-- Element `k` of an array. Serialization machinery: the interface of Boost.Serialization, not code of /repo. -/
def cell (k : Nat) (f : S R α Unit) : S R (List α) Unit := fun l ar =>
  match l[k]? with
  | none => .thrown .ub l
  | some a => match f a ar with
    | .ok _ a' ar' => .ok () (l.set k a') ar'
    | .thrown e a' => .thrown e (l.set k a')

/-- `make_array (p + k, n)`. Serialization machinery: the interface of Boost.Serialization, not code of /repo. -/
def arrayFrom (f : S R α Unit) (k : Nat) : (n : Nat) → S R (List α) Unit
  | 0 => pure ()
  | n + 1 => do
    cell k f
    arrayFrom f (k + 1) n

/-- A built-in array `T [N]` that is cells `k … k + N - 1` of the list: the count, then the elements. Serialization machinery: the interface of Boost.Serialization, not code of /repo. -/
def builtin (f : S R α Unit) (k N : Nat) : S R (List α) Unit := do
  let c ← ampLocal fun _ => N
  whenLoading (test fun _ => if c > N then .error .stdException else .ok ())
  arrayFrom f k c

/-! ## Storage -/

/-- `unbounded_array::serialize`: storage.hpp:335-343; `resize (s)` keeps an array of that size and otherwise gives fresh storage (storage.hpp:143-205). -/
def unbounded (f : S R α Unit) (junk : Nat → α) : S R (List α) Unit := do
  let s ← ampLocal List.length
  whenLoading (upd fun l => Dense.arrayResize junk l s)
  arrayFrom f 0 s

/-- A `bounded_array` of `data.length` = N cells: storage.hpp:546-551. -/
structure Bounded (α : Type) where
  size : Nat
  data : List α
  deriving DecidableEq

/-- `bounded_array::serialize`: storage.hpp:530-539; `resize (s)` (401-405) sets `size_`, the cells keep their values. -/
def bounded (f : S R α Unit) (N : Nat) : S R (Bounded α) Unit := do
  let s ← ampLocal Bounded.size
  whenLoading (do
    test fun _ => if s > N then .error .badSize else .ok ()
    upd fun b => { b with size := s })
  member Bounded.data (fun b d => { b with data := d }) (arrayFrom f 0 s)

/-- A (key, value) pair: `first`, `second`. Serialization machinery: the interface of Boost.Serialization, not code of /repo. -/
def pair (f : S R α Unit) : S R (Nat × α) Unit := do
  member Prod.fst (fun p k => (k, p.2)) ampN
  member Prod.snd (fun p v => (p.1, v)) f

/-- `map_array::serialize`: storage_sparse.hpp:508-515. -/
def mapArr (f : S R α Unit) (dbg : Bool) (zero : α) : S R (MapArr α) Unit := do
  let s ← ampLocal MapArr.size
  whenLoading (call fun m => m.resize dbg zero s)
  member MapArr.data (fun m d => { m with data := d }) (arrayFrom (pair f) 0 s)

/-- Save the pairs of a `std::map` in order. C++ standard library, not code of /repo. -/
def savePairs (f : S R α Unit) : List (Nat × α) → S R (List (Nat × α)) Unit
  | [] => pure ()
  | p :: l => fun s ar => match pair f p ar with
    | .ok _ _ ar' => savePairs f l s ar'
    | .thrown e _ => .thrown e s

/-- Load `n` pairs into a `std::map`: each is read into a local pair (value-initialised, `d`) and inserted. C++ standard library, not code of /repo. -/
def loadPairs (f : S R α Unit) (d : α) : (n : Nat) → S R (List (Nat × α)) Unit
  | 0 => pure ()
  | n + 1 => fun s ar => match pair f (0, d) ar with
    | .ok _ p ar' => loadPairs f d n (sortedInsert p.1 p.2 s) ar'
    | .thrown e _ => .thrown e s

/-- The pairs of a `std::map`, `n` of them when loading. C++ standard library, not code of /repo. -/
def pairs (f : S R α Unit) (d : α) (l : List (Nat × α)) (n : Nat) : S R (List (Nat × α)) Unit := fun s ar =>
  if ar.loading then loadPairs f d n s ar else savePairs f l s ar

/-- `map_std::serialize`: storage_sparse.hpp:203-205, which is that of `std::map` (external: count, item version, pairs; loading starts with `clear ()`). -/
def stdMap (f : S R α Unit) (d : α) : S R (List (Nat × α)) Unit := do
  let l ← self
  whenLoading (upd fun _ => [])
  let n ← ampLocal List.length
  let _ ← ampLocal fun _ => 0
  pairs f d l n

/-! ## Dense containers -/

/-- `vector::serialize`: vector.hpp:820-822. -/
def vector (f : S R α Unit) (junk : Nat → α) : S R (List α) Unit := unbounded f junk

/-- `bounded_vector`, i.e. `vector<T, bounded_array<T, N> >`: vector.hpp:820-822. -/
def boundedVector (f : S R α Unit) (N : Nat) : S R (Bounded α) Unit := bounded f N

/-- `matrix::serialize`: matrix.hpp:1185-1202. -/
def matrix (f : S R α Unit) (junk : Nat → α) : S R (Dense α) Unit := do
  let s1 ← ampLocal Dense.size1
  let s2 ← ampLocal Dense.size2
  whenLoading (do
    upd fun m => { m with size1 := s1 }
    upd fun m => { m with size2 := s2 })
  member Dense.data (fun m d => { m with data := d }) (unbounded f junk)

/-- `vector_of_vector::serialize`: matrix.hpp:3419-3436; `data_` is an array of vectors, a new one is empty. -/
def vectorOfVector (f : S R α Unit) (junk : Nat → α) : S R (VV α) Unit := do
  let s1 ← ampLocal VV.size1
  let s2 ← ampLocal VV.size2
  whenLoading (do
    upd fun m => { m with size1 := s1 }
    upd fun m => { m with size2 := s2 })
  member VV.data (fun m d => { m with data := d }) (unbounded (vector f junk) fun _ => [])

/-- `c_vector::serialize`: vector.hpp:2927-2939. -/
def cVector (f : S R α Unit) (N : Nat) : S R (CVect α) Unit := do
  let s ← ampLocal CVect.size
  whenLoading (do
    test fun _ => if s > N then .error .badSize else .ok ()
    upd fun v => { v with size := s })
  member CVect.data (fun v d => { v with data := d }) (builtin f 0 N)

/-- `fixed_vector<T, N>::serialize`: vector.hpp:1591-1593: only the `std::array`, which Boost.Serialization writes as a built-in array. -/
def fixedVector (f : S R α Unit) (N : Nat) : S R (List α) Unit := builtin f 0 N

/-- `fixed_matrix<T, M, N>::serialize`: matrix.hpp:2268-2270: only the `std::array` of `M * N` elements. -/
def fixedMatrix (f : S R α Unit) (M N : Nat) : S R (List α) Unit := builtin f 0 (M * N)

/-- Rows `k, …` of `T [N] [C]`, `n` of them, each a built-in array. Boost.Serialization's `T [N] [C]`; called for c_matrix at matrix.hpp:5985-6004. -/
def rows (f : S R α Unit) (C : Nat) (k : Nat) : (n : Nat) → S R (List α) Unit
  | 0 => pure ()
  | n + 1 => do
    builtin f (k * C) C
    rows f C (k + 1) n

/-- `c_matrix::serialize`: matrix.hpp:5985-6003. -/
def cMatrix (f : S R α Unit) (N C : Nat) : S R (CMatx α) Unit := do
  let s1 ← ampLocal CMatx.size1
  let s2 ← ampLocal CMatx.size2
  whenLoading (do
    upd fun m => { m with size1 := s1 }
    upd fun m => { m with size2 := s2 })
  member CMatx.data (fun m d => { m with data := d }) (rows f C 0 N)

/-! ## Constant containers -/

/-- `zero_vector::serialize`: vector.hpp:1881-1887. -/
def zeroVector : S R ZeroVec Unit := do
  let s ← ampLocal ZeroVec.size
  whenLoading (upd fun v => { v with size := s })
/-- `unit_vector::serialize`: vector.hpp:2141-2148. -/
def unitVector : S R UnitVec Unit := do
  let s ← ampLocal UnitVec.size
  whenLoading (upd fun v => { v with size := s })
  member UnitVec.index (fun v k => { v with index := k }) ampN
/-- `scalar_vector::serialize`: vector.hpp:2405-2412. -/
def scalarVector (f : S R α Unit) : S R (ScalarVec α) Unit := do
  let s ← ampLocal ScalarVec.size
  whenLoading (upd fun v => { v with size := s })
  member ScalarVec.value (fun v k => { v with value := k }) f
/-- `zero_matrix::serialize`: matrix.hpp:3892-3908. -/
def zeroMatrix : S R ZeroMat Unit := do
  let s1 ← ampLocal ZeroMat.size1
  let s2 ← ampLocal ZeroMat.size2
  whenLoading (do
    upd fun m => { m with size1 := s1 }
    upd fun m => { m with size2 := s2 })
/-- `identity_matrix::serialize`: matrix.hpp:4391-4408. -/
def identityMatrix : S R IdMat Unit := do
  let s1 ← ampLocal IdMat.size1
  let s2 ← ampLocal IdMat.size2
  whenLoading (do
    upd fun m => { m with size1 := s1 }
    upd fun m => { m with size2 := s2 }
    upd fun m => { m with common := min m.size1 m.size2 })
/-- `scalar_matrix::serialize`: matrix.hpp:4946-4964. -/
def scalarMatrix (f : S R α Unit) : S R (ScalarMat α) Unit := do
  let s1 ← ampLocal ScalarMat.size1
  let s2 ← ampLocal ScalarMat.size2
  whenLoading (do
    upd fun m => { m with size1 := s1 }
    upd fun m => { m with size2 := s2 })
  member ScalarMat.value (fun m k => { m with value := k }) f

/-! ## Sparse containers -/

/-- `mapped_vector::serialize`: vector_sparse.hpp:795-802; `mp` is the serializer of the map. -/
def mappedVector (mp : S R σ Unit) : S R (MappedVec σ) Unit := do
  let s ← ampLocal MappedVec.size
  whenLoading (upd fun v => { v with size := s })
  member MappedVec.map (fun v d => { v with map := d }) mp
/-- `mapped_matrix::serialize`: matrix_sparse.hpp:1400-1410. -/
def mappedMatrix (mp : S R σ Unit) : S R (MappedMat σ) Unit := do
  let s1 ← ampLocal MappedMat.size1
  let s2 ← ampLocal MappedMat.size2
  whenLoading (do
    upd fun m => { m with size1 := s1 }
    upd fun m => { m with size2 := s2 })
  member MappedMat.map (fun v d => { v with map := d }) mp
/-- `mapped_vector_of_mapped_vector::serialize`: matrix_sparse.hpp:2773-2783. -/
def mapMap (mp : S R τ Unit) : S R (MapMap τ) Unit := do
  let s1 ← ampLocal MapMap.size1
  let s2 ← ampLocal MapMap.size2
  whenLoading (do
    upd fun m => { m with size1 := s1 }
    upd fun m => { m with size2 := s2 })
  member MapMap.map (fun v d => { v with map := d }) mp

/-- `compressed_vector::serialize`: vector_sparse.hpp:1423-1436. -/
def compressedVector (f : S R α Unit) (dbg : Bool) (IB : Nat) (junk : CVec.Junk α) : S R (CVec α) Unit := do
  let s ← ampLocal CVec.size
  whenLoading (upd fun v => { v with size := s })
  member CVec.cap (fun v d => { v with cap := d }) ampN
  member CVec.filled (fun v d => { v with filled := d }) ampN
  member CVec.idx (fun v d => { v with idx := d }) (unbounded ampN junk.1)
  member CVec.val (fun v d => { v with val := d }) (unbounded f junk.2)
  test fun v => v.invariants dbg IB

/-- `compressed_matrix::serialize`: matrix_sparse.hpp:4208-4224. -/
def compressedMatrix (f : S R α Unit) (dbg : Bool) (o : Orient) (IB : Nat) (junk : CMat.Junk α) : S R (CMat α) Unit := do
  let s1 ← ampLocal CMat.size1
  let s2 ← ampLocal CMat.size2
  whenLoading (do
    upd fun m => { m with size1 := s1 }
    upd fun m => { m with size2 := s2 })
  member CMat.cap (fun v d => { v with cap := d }) ampN
  member CMat.filled1 (fun v d => { v with filled1 := d }) ampN
  member CMat.filled2 (fun v d => { v with filled2 := d }) ampN
  member CMat.idx1 (fun v d => { v with idx1 := d }) (unbounded ampN junk.1)
  member CMat.idx2 (fun v d => { v with idx2 := d }) (unbounded ampN junk.1)
  member CMat.val (fun v d => { v with val := d }) (unbounded f junk.2)
  test fun v => v.invariants dbg o IB

/-- `coordinate_vector::serialize`: vector_sparse.hpp:2185-2200; `P` is the container's parameter record. -/
def coordinateVector (f : S R α Unit) (dbg : Bool) (P : CoordVec α → CooPar Nat α) (junk : Coo.Junk Nat α) : S R (CoordVec α) Unit := do
  let s ← ampLocal CoordVec.size
  whenLoading (upd fun v => { v with size := s })
  member (·.coo.cap) (fun v d => { v with coo := { v.coo with cap := d } }) ampN
  member (·.coo.filled) (fun v d => { v with coo := { v.coo with filled := d } }) ampN
  member (·.coo.sortedFilled) (fun v d => { v with coo := { v.coo with sortedFilled := d } }) ampN
  member (·.coo.sorted) (fun v d => { v with coo := { v.coo with sorted := d } }) ampB
  member (·.coo.idx) (fun v d => { v with coo := { v.coo with idx := d } }) (unbounded ampN junk.1)
  member (·.coo.val) (fun v d => { v with coo := { v.coo with val := d } }) (unbounded f junk.2)
  test fun v => v.coo.invariants dbg (P v)

/-- The members of a coordinate_matrix (matrix_sparse.hpp:5741-5750): `index1_data_` and `index2_data_` are separate arrays, which `CoordMat` pairs up. -/
structure CoordParts (α : Type) where
  size1 : Nat
  size2 : Nat
  cap : Nat
  filled : Nat
  sortedFilled : Nat
  sorted : Bool
  idx1 : List Nat
  idx2 : List Nat
  val : List α

/-- Split / pair the index arrays. C++ view of `index_data_` in vector_sparse.hpp / matrix_sparse.hpp `serialize`. -/
def CoordParts.of (m : CoordMat α) : CoordParts α :=
  ⟨m.size1, m.size2, m.coo.cap, m.coo.filled, m.coo.sortedFilled, m.coo.sorted, m.coo.idx.map (·.1), m.coo.idx.map (·.2), m.coo.val⟩
/-- The members of coordinate_matrix: matrix_sparse.hpp:5742-5750. -/
def CoordParts.toMat (m : CoordParts α) : CoordMat α := ⟨m.size1, m.size2, ⟨m.cap, m.filled, m.sortedFilled, m.sorted, m.idx1.zip m.idx2, m.val⟩⟩

/-- `storage_invariants` of coordinate_matrix: matrix_sparse.hpp:5731-5739. -/
def CoordParts.invariants (dbg : Bool) (v : CoordParts α) : M Unit := do
  check dbg (v.cap = v.idx1.length) .internalLogic
  check dbg (v.cap = v.idx2.length) .internalLogic
  check dbg (v.cap = v.val.length) .internalLogic
  check dbg (v.filled ≤ v.cap) .internalLogic
  check dbg (v.sortedFilled ≤ v.filled) .internalLogic
  check dbg (v.sorted = decide (v.sortedFilled = v.filled)) .internalLogic

/-- `coordinate_matrix::serialize`: matrix_sparse.hpp:5712-5729. -/
def coordinateMatrix (f : S R α Unit) (dbg : Bool) (junk : CMat.Junk α) : S R (CoordParts α) Unit := do
  let s1 ← ampLocal CoordParts.size1
  let s2 ← ampLocal CoordParts.size2
  whenLoading (do
    upd fun m => { m with size1 := s1 }
    upd fun m => { m with size2 := s2 })
  member CoordParts.cap (fun v d => { v with cap := d }) ampN
  member CoordParts.filled (fun v d => { v with filled := d }) ampN
  member CoordParts.sortedFilled (fun v d => { v with sortedFilled := d }) ampN
  member CoordParts.sorted (fun v d => { v with sorted := d }) ampB
  member CoordParts.idx1 (fun v d => { v with idx1 := d }) (unbounded ampN junk.1)
  member CoordParts.idx2 (fun v d => { v with idx2 := d }) (unbounded ampN junk.1)
  member CoordParts.val (fun v d => { v with val := d }) (unbounded f junk.2)
  test fun v => v.invariants dbg

/-- `generalized_vector_of_vector::serialize`: vector_of_vector.hpp:1307-1329; the lines are compressed vectors, `row` is what a new line holds before it is read. -/
def generalizedVectorOfVector (f : S R α Unit) (dbg : Bool) (o : Orient) (IB : Nat) (junk : CVec.Junk α) (row : Nat → CVec α) : S R (VoV α) Unit := do
  let s1 ← ampLocal VoV.size1
  let s2 ← ampLocal VoV.size2
  whenLoading (do
    upd fun m => { m with size1 := s1 }
    upd fun m => { m with size2 := s2 })
  member VoV.data (fun v d => { v with data := d }) (unbounded (compressedVector f dbg IB junk) row)
  test fun v => v.invariants dbg o

end Ser
end Ublas
