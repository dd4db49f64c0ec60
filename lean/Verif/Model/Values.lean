import Verif.Spec.Values
import Verif.Model.CompressedVector
import Verif.Model.CompressedMatrix
import Verif.Model.Coo
import Verif.Model.Mapped
import Verif.Model.VectorOfVector
import Verif.Model.VoVCoord
import Verif.Model.MapOfMaps
import Verif.Model.Dense
import Verif.Model.Packed
import Verif.Model.Banded
/-!
# Copy constructors, copy assignment and `swap` of the containers

Simplifications: the arrays are `unbounded_array`s (`bounded_array` has its own model, Model/Storage), whose elements are copied one by one; a C++ move never
happens (no container declares a move constructor); with BOOST_UBLAS_MOVE_SEMANTICS `operator =` takes its argument by value and swaps, which is `copy` followed
by `swap` here.
-/
namespace Ublas
open Search Packed
namespace Values
variable {σ Op J : Type} {α : Type}

/-- The operations of one container type; `J` is the arbitrary memory an operation may allocate. Machinery of the model: no code of its own in /repo. -/
structure Ops (σ Op J : Type) where
  step : J → σ → Op → M σ
  /-- the source afterwards and the new object -/
  copy : J → σ → M (σ × σ)
  /-- `x = y` for distinct objects: old `x`, `y` -/
  assign : J → σ → σ → M σ
  /-- `x = x` -/
  selfAssign : σ → M σ
  /-- `x.swap (y)` for distinct objects -/
  swap : σ → σ → M (σ × σ)
  /-- `x.swap (x)` -/
  selfSwap : σ → M σ

/-- Replace the value of one variable. Machinery of the model: no code of its own in /repo. -/
def put (e : Nat → σ) (x : Nat) (v : σ) : Nat → σ := fun z => if z = x then v else e z

/-- One statement of the client program. Client histories: composes the operations cited in this file; no code of its own in /repo. -/
def exec (O : Ops σ Op J) (e : Nat → σ) (j : J) : ValOp Op → M (Nat → σ)
  | .op x o => do .ok (put e x (← O.step j (e x) o))
  | .copy x y => do
    let (src, new) ← O.copy j (e y)
    .ok (put (put e y src) x new)
  | .assign x y => if x = y then do .ok (put e x (← O.selfAssign (e x))) else do .ok (put e x (← O.assign j (e x) (e y)))
  | .swap x y => if x = y then do .ok (put e x (← O.selfSwap (e x))) else do
    let (a, b) ← O.swap (e x) (e y)
    .ok (put (put e x a) y b)

/-- A client program. Client histories: composes the operations cited in this file; no code of its own in /repo. -/
def run (O : Ops σ Op J) : (Nat → σ) → List (ValOp Op × J) → M (Nat → σ)
  | e, [] => .ok e
  | e, o :: os => do run O (← exec O e o.2 o.1) os

/-- `std::copy (a.data_, a.data_ + a.size_, data_)`, `std::uninitialized_copy (c.begin (), c.end (), begin ())`: storage.hpp:104, 246. -/
def arrFill (d a : List α) : M (List α) := loop (fun k d => do let x ← rd false a k; wr false d k x) a.length d

/-- `unbounded_array (const unbounded_array &)`: storage.hpp:98-108; `junk` is what the fresh block holds. -/
def arrCopy (junk : Nat → α) (a : List α) : M (List α) := if a.length ≠ 0 then arrFill ((List.range a.length).map junk) a else .ok []

/-- `unbounded_array::operator =` from a distinct array: storage.hpp:243-249. -/
def arrAssign (junk : Nat → α) (d a : List α) : M (List α) := arrFill (resizeRaw junk d a.length) a

/-- One field of `swap`: `std::swap (f_, v.f_)` or `f_.swap (v.f_)`. storage.hpp:258-263 (unbounded_array::swap exchanges size and pointer). -/
def exch {β : Type} (get : σ → β) (set : σ → β → σ) (p : σ × σ) : σ × σ := (set p.1 (get p.2), set p.2 (get p.1))

/-! ## compressed_vector -/

/-- Copy constructor: vector_sparse.hpp:883-888. -/
def cvCopy (dbg : Bool) (IB : Nat) (j : CVec.Junk α) (v : CVec α) : M (CVec α × CVec α) := do
  let idx ← arrCopy j.1 v.idx
  let val ← arrCopy j.2 v.val
  let n : CVec α := ⟨v.size, v.cap, v.filled, idx, val⟩
  n.invariants dbg IB
  .ok (v, n)

/-- `operator =` from a distinct object: vector_sparse.hpp:1082-1092. -/
def cvAssign (dbg : Bool) (IB : Nat) (j : CVec.Junk α) (d v : CVec α) : M (CVec α) := do
  let d := { d with size := v.size }
  let d := { d with cap := v.cap }
  let d := { d with filled := v.filled }
  let idx ← arrAssign j.1 d.idx v.idx
  let d := { d with idx := idx }
  let val ← arrAssign j.2 d.val v.val
  let d := { d with val := val }
  d.invariants dbg IB
  .ok d

/-- `swap` with a distinct object: vector_sparse.hpp:1170-1179. -/
def cvSwap (dbg : Bool) (IB : Nat) (a b : CVec α) : M (CVec α × CVec α) := do
  let p := exch (·.size) (fun (s : CVec α) x => { s with size := x }) (a, b)
  let p := exch (·.cap) (fun (s : CVec α) x => { s with cap := x }) p
  let p := exch (·.filled) (fun (s : CVec α) x => { s with filled := x }) p
  let p := exch (·.idx) (fun (s : CVec α) x => { s with idx := x }) p
  let p := exch (·.val) (fun (s : CVec α) x => { s with val := x }) p
  p.1.invariants dbg IB
  .ok p

/-- The value operations of compressed_vector: vector_sparse.hpp:883-888, 1082-1092, 1170-1179. -/
def cv (dbg : Bool) (IB : Nat) (zero : α) : Ops (CVec α) (CVOp α) (CVec.Junk α) where
  step j v o := CVec.step dbg IB zero j v o
  copy j v := cvCopy dbg IB j v
  assign j d v := cvAssign dbg IB j d v
  selfAssign v := do v.invariants dbg IB; .ok v
  swap a b := cvSwap dbg IB a b
  selfSwap v := do v.invariants dbg IB; .ok v

/-! ## compressed_matrix -/

/-- Copy constructor: matrix_sparse.hpp:2854-2860. -/
def cmCopy (dbg : Bool) (o : Orient) (IB : Nat) (j : CMat.Junk α) (v : CMat α) : M (CMat α × CMat α) := do
  let idx1 ← arrCopy j.1 v.idx1
  let idx2 ← arrCopy j.1 v.idx2
  let val ← arrCopy j.2 v.val
  let n : CMat α := ⟨v.size1, v.size2, v.cap, v.filled1, v.filled2, idx1, idx2, val⟩
  n.invariants dbg o IB
  .ok (v, n)

/-- `operator =` from a distinct object: matrix_sparse.hpp:3133-3146. -/
def cmAssign (dbg : Bool) (o : Orient) (IB : Nat) (j : CMat.Junk α) (d v : CMat α) : M (CMat α) := do
  let d := { d with size1 := v.size1 }
  let d := { d with size2 := v.size2 }
  let d := { d with cap := v.cap }
  let d := { d with filled1 := v.filled1 }
  let d := { d with filled2 := v.filled2 }
  let idx1 ← arrAssign j.1 d.idx1 v.idx1
  let d := { d with idx1 := idx1 }
  let idx2 ← arrAssign j.1 d.idx2 v.idx2
  let d := { d with idx2 := idx2 }
  let val ← arrAssign j.2 d.val v.val
  let d := { d with val := val }
  d.invariants dbg o IB
  .ok d

/-- `swap` with a distinct object: matrix_sparse.hpp:3222-3234. -/
def cmSwap (dbg : Bool) (o : Orient) (IB : Nat) (a b : CMat α) : M (CMat α × CMat α) := do
  let p := exch (·.size1) (fun (s : CMat α) x => { s with size1 := x }) (a, b)
  let p := exch (·.size2) (fun (s : CMat α) x => { s with size2 := x }) p
  let p := exch (·.cap) (fun (s : CMat α) x => { s with cap := x }) p
  let p := exch (·.filled1) (fun (s : CMat α) x => { s with filled1 := x }) p
  let p := exch (·.filled2) (fun (s : CMat α) x => { s with filled2 := x }) p
  let p := exch (·.idx1) (fun (s : CMat α) x => { s with idx1 := x }) p
  let p := exch (·.idx2) (fun (s : CMat α) x => { s with idx2 := x }) p
  let p := exch (·.val) (fun (s : CMat α) x => { s with val := x }) p
  p.1.invariants dbg o IB
  .ok p

/-- The value operations of compressed_matrix: matrix_sparse.hpp:2854-2860, 3133-3146, 3222-3234. -/
def cm (dbg : Bool) (o : Orient) (IB : Nat) (zero : α) : Ops (CMat α) (CMOp α) (CMat.Junk α) where
  step j v p := CMat.step dbg o IB zero j v p
  copy j v := cmCopy dbg o IB j v
  assign j d v := cmAssign dbg o IB j d v
  selfAssign v := do v.invariants dbg o IB; .ok v
  swap a b := cmSwap dbg o IB a b
  selfSwap v := do v.invariants dbg o IB; .ok v

/-! ## coordinate_vector, coordinate_matrix -/
variable {κ : Type}

/-- The shared part of the copy constructors: vector_sparse.hpp:1541-1547, matrix_sparse.hpp:4320-4326 (the index arrays of a matrix are one array of pairs in the
model); `P` are the checks of `storage_invariants` of the new object. -/
def cooCopy (dbg : Bool) (P : CooPar κ α) (j : Coo.Junk κ α) (v : Coo κ α) : M (Coo κ α) := do
  let idx ← arrCopy j.1 v.idx
  let val ← arrCopy j.2 v.val
  let n : Coo κ α := ⟨v.cap, v.filled, v.sortedFilled, v.sorted, idx, val⟩
  n.invariants dbg P
  .ok n

/-- The shared part of `operator =`: vector_sparse.hpp:1757-1764, matrix_sparse.hpp:4550-4561 (the three checks repeat the first two of `storage_invariants`). -/
def cooAssign (dbg : Bool) (P : CooPar κ α) (j : Coo.Junk κ α) (d v : Coo κ α) : M (Coo κ α) := do
  let d := { d with cap := v.cap }
  let d := { d with filled := v.filled }
  let d := { d with sortedFilled := v.sortedFilled }
  let d := { d with sorted := v.sorted }
  let idx ← arrAssign j.1 d.idx v.idx
  let d := { d with idx := idx }
  let val ← arrAssign j.2 d.val v.val
  let d := { d with val := val }
  d.invariants dbg P
  .ok d

/-- The shared part of `swap`: vector_sparse.hpp:1847-1852, matrix_sparse.hpp:4643-4649; `P` for `storage_invariants` of `*this` afterwards. -/
def cooSwap (dbg : Bool) (P : CooPar κ α) (a b : Coo κ α) : M (Coo κ α × Coo κ α) := do
  let p := exch (·.cap) (fun (s : Coo κ α) x => { s with cap := x }) (a, b)
  let p := exch (·.filled) (fun (s : Coo κ α) x => { s with filled := x }) p
  let p := exch (·.sortedFilled) (fun (s : Coo κ α) x => { s with sortedFilled := x }) p
  let p := exch (·.sorted) (fun (s : Coo κ α) x => { s with sorted := x }) p
  let p := exch (·.idx) (fun (s : Coo κ α) x => { s with idx := x }) p
  let p := exch (·.val) (fun (s : Coo κ α) x => { s with val := x }) p
  p.1.invariants dbg P
  .ok p

/-- The value operations of coordinate_vector: vector_sparse.hpp:1541-1547, 1754-1766, 1844-1855. -/
def cov [Add α] [Zero α] (srt : List (Nat × α) → List (Nat × α)) (full dbg : Bool) (IB : Nat) : Ops (CoordVec α) (CoordVecOp α) (Coo.Junk Nat α) where
  step j v o := v.step srt full dbg IB 0 j o
  copy j v := do
    let c ← cooCopy dbg (CoordVec.par srt full IB v.size) j v.coo
    .ok (v, ⟨v.size, c⟩)
  assign j d v := do
    let d := { d with size := v.size }
    let c ← cooAssign dbg (CoordVec.par srt full IB d.size) j d.coo v.coo
    .ok { d with coo := c }
  selfAssign v := do v.coo.invariants dbg (CoordVec.par srt full IB v.size); .ok v
  swap a b := do
    let p := exch (·.size) (fun (s : CoordVec α) x => { s with size := x }) (a, b)
    let q ← cooSwap dbg (CoordVec.par srt full IB p.1.size) p.1.coo p.2.coo
    .ok ({ p.1 with coo := q.1 }, { p.2 with coo := q.2 })
  selfSwap v := do v.coo.invariants dbg (CoordVec.par srt full IB v.size); .ok v

/-- The value operations of coordinate_matrix: matrix_sparse.hpp:4320-4326, 4546-4563, 4639-4652. -/
def com [Add α] [Zero α] (srt : List ((Nat × Nat) × α) → List ((Nat × Nat) × α)) (full dbg : Bool) (o : Orient) (IB : Nat) :
    Ops (CoordMat α) (CoordMatOp α) (Coo.Junk (Nat × Nat) α) where
  step j v p := v.step srt full dbg o IB 0 j p
  copy j v := do
    let c ← cooCopy dbg (CoordMat.par srt full v.size1 v.size2) j v.coo
    .ok (v, ⟨v.size1, v.size2, c⟩)
  assign j d v := do
    let d := { d with size1 := v.size1 }
    let d := { d with size2 := v.size2 }
    let c ← cooAssign dbg (CoordMat.par srt full d.size1 d.size2) j d.coo v.coo
    .ok { d with coo := c }
  selfAssign v := do v.coo.invariants dbg (CoordMat.par srt full v.size1 v.size2); .ok v
  swap a b := do
    let p := exch (·.size1) (fun (s : CoordMat α) x => { s with size1 := x }) (a, b)
    let p := exch (·.size2) (fun (s : CoordMat α) x => { s with size2 := x }) p
    let q ← cooSwap dbg (CoordMat.par srt full p.1.size1 p.1.size2) p.1.coo p.2.coo
    .ok ({ p.1 with coo := q.1 }, { p.2 with coo := q.2 })
  selfSwap v := do v.coo.invariants dbg (CoordMat.par srt full v.size1 v.size2); .ok v

/-! ## mapped_vector, mapped_matrix -/

/-- The copy constructor, `operator =` and `swap` of the map the container is built on; `J` is the memory a copy allocates. Template argument `A`;
vector_sparse.hpp:343-345, 480-486, 564-569 use nothing else of it. -/
structure MapVal (σ J : Type) where
  copy : J → σ → M (σ × σ)
  assign : Bool → σ → σ → M σ
  swap : σ → σ → M (σ × σ)

/-- std::map: the C++ standard makes copies equal and leaves the source alone.  No code of its own in /repo. -/
def stdMapVal (α J : Type) : MapVal (List (Nat × α)) J := ⟨fun _ m => .ok (m, m), fun _ _ a => .ok a, fun a b => .ok (b, a)⟩

/-- map_array: storage_sparse.hpp:244-253, 345-351, 359-365. -/
def mapArrayVal (zero : α) : MapVal (MapArr α) (Nat → Nat × α) where
  copy j c := MapArr.copyCtor j c
  assign dbg m a := m.assignFrom dbg zero a
  swap a b :=
    let p := exch (·.cap) (fun (s : MapArr α) x => { s with cap := x }) (a, b)
    let p := exch (·.data) (fun (s : MapArr α) x => { s with data := x }) p
    let p := exch (·.size) (fun (s : MapArr α) x => { s with size := x }) p
    .ok p

/-- The value operations of mapped_vector: vector_sparse.hpp:343-345, 480-486, 564-569. -/
def mv {ρ : Type} (I : MapImpl ρ α) (V : MapVal ρ J) (dbg : Bool) (zero : α) : Ops (MappedVec ρ) (SVOp α) J where
  step _ v o := MappedVec.step I dbg zero v o
  copy j v := do
    let (src, new) ← V.copy j v.map
    .ok ({ v with map := src }, ⟨v.size, new⟩)
  assign _ d v := do
    let d := { d with size := v.size }
    let m ← V.assign dbg d.map v.map
    .ok { d with map := m }
  selfAssign v := .ok v
  swap a b := do
    let p := exch (·.size) (fun (s : MappedVec ρ) x => { s with size := x }) (a, b)
    let (m1, m2) ← V.swap p.1.map p.2.map
    .ok ({ p.1 with map := m1 }, { p.2 with map := m2 })
  selfSwap v := .ok v

/-- The value operations of mapped_matrix: matrix_sparse.hpp:309-311, 439-446, 522-528. -/
def mm {ρ : Type} (I : MapImpl ρ α) (V : MapVal ρ J) (dbg : Bool) (o : Orient) (zero : α) : Ops (MappedMat ρ) (SMOp α) J where
  step _ v p := MappedMat.step I dbg o zero v p
  copy j v := do
    let (src, new) ← V.copy j v.map
    .ok ({ v with map := src }, ⟨v.size1, v.size2, new⟩)
  assign _ d v := do
    let d := { d with size1 := v.size1 }
    let d := { d with size2 := v.size2 }
    let m ← V.assign dbg d.map v.map
    .ok { d with map := m }
  selfAssign v := .ok v
  swap a b := do
    let p := exch (·.size1) (fun (s : MappedMat ρ) x => { s with size1 := x }) (a, b)
    let p := exch (·.size2) (fun (s : MappedMat ρ) x => { s with size2 := x }) p
    let (m1, m2) ← V.swap p.1.map p.2.map
    .ok ({ p.1 with map := m1 }, { p.2 with map := m2 })
  selfSwap v := .ok v

/-! ## generalized_vector_of_vector of compressed vectors -/

/-- `std::copy` / `std::uninitialized_copy` of the lines, each by compressed_vector's own `operator =` or copy constructor. storage.hpp:104, 246. -/
def rowsFill (f : Nat → CVec α → CVec α → M (CVec α)) (d a : List (CVec α)) : M (List (CVec α)) :=
  loop (fun k d => do
    let x ← rd false a k
    let y ← rd false d k
    let r ← f k y x
    wr false d k r) a.length d

/-- The memory a copy of the lines may allocate: the lines an array is created with, and what each line's own arrays hold. Machinery of the model: no code of its
own in /repo. -/
abbrev RowsJunk (α : Type) := (Nat → CVec α) × VoV.Junk α

/-- Copy constructor: vector_of_vector.hpp:80-84 (`data_` by storage.hpp:98-108, its lines by vector_sparse.hpp:883-888). -/
def vvCopy (dbg : Bool) (o : Orient) (IB : Nat) (j : RowsJunk α) (v : VoV α) : M (VoV α × VoV α) := do
  let d ← (if v.data.length ≠ 0 then
      rowsFill (fun k _ x => do let (_, n) ← cvCopy dbg IB (j.2 k) x; .ok n) ((List.range v.data.length).map j.1) v.data
    else .ok [] : M (List (CVec α)))
  let n : VoV α := ⟨v.size1, v.size2, d⟩
  n.invariants dbg o
  .ok (v, n)

/-- `operator =` from a distinct object: vector_of_vector.hpp:208-216 (`data ()` by storage.hpp:243-249, its lines by vector_sparse.hpp:1082-1092). -/
def vvAssign (dbg : Bool) (o : Orient) (IB : Nat) (j : RowsJunk α) (d v : VoV α) : M (VoV α) := do
  let d := { d with size1 := v.size1 }
  let d := { d with size2 := v.size2 }
  let a ← rowsFill (fun k y x => cvAssign dbg IB (j.2 k) y x) (resizeRaw j.1 d.data v.data.length) v.data
  let d := { d with data := a }
  d.invariants dbg o
  .ok d

/-- `swap` with a distinct object: vector_of_vector.hpp:273-280. -/
def vvSwap (dbg : Bool) (o : Orient) (a b : VoV α) : M (VoV α × VoV α) := do
  let p := exch (·.size1) (fun (s : VoV α) x => { s with size1 := x }) (a, b)
  let p := exch (·.size2) (fun (s : VoV α) x => { s with size2 := x }) p
  let p := exch (·.data) (fun (s : VoV α) x => { s with data := x }) p
  p.1.invariants dbg o
  .ok p

/-- The value operations of generalized_vector_of_vector: vector_of_vector.hpp:80-84, 208-216, 273-280. -/
def vv (dbg : Bool) (o : Orient) (IB : Nat) (zero : α) : Ops (VoV α) (VVOp α) (RowsJunk α) where
  step j v p := VoV.step dbg o IB zero j.2 j.1 v p
  copy j v := vvCopy dbg o IB j v
  assign j d v := vvAssign dbg o IB j d v
  selfAssign v := do v.invariants dbg o; .ok v
  swap a b := vvSwap dbg o a b
  selfSwap v := do v.invariants dbg o; .ok v

/-! ## mapped_vector_of_mapped_vector -/

/-- The value operations of mapped_vector_of_mapped_vector: matrix_sparse.hpp:1470-1472, 1610-1617, 1693-1699; `V` copies the outer map, lines included. -/
def mmm {τ ρ : Type} (O : MapImpl τ ρ) (I : MapImpl ρ α) (V : MapVal τ J) (dbg : Bool) (o : Orient) (zero : α) : Ops (MapMap τ) (MapMapOp α) J where
  step _ v p := MapMap.step O I dbg o zero v p
  copy j v := do
    let (src, new) ← V.copy j v.map
    .ok ({ v with map := src }, ⟨v.size1, v.size2, new⟩)
  assign _ d v := do
    let d := { d with size1 := v.size1 }
    let d := { d with size2 := v.size2 }
    let m ← V.assign dbg d.map v.map
    .ok { d with map := m }
  selfAssign v := .ok v
  swap a b := do
    let p := exch (·.size1) (fun (s : MapMap τ) x => { s with size1 := x }) (a, b)
    let p := exch (·.size2) (fun (s : MapMap τ) x => { s with size2 := x }) p
    let (m1, m2) ← V.swap p.1.map p.2.map
    .ok ({ p.1 with map := m1 }, { p.2 with map := m2 })
  selfSwap v := .ok v

/-! ## generalized_vector_of_vector of coordinate vectors -/

/-- As `rowsFill`, for lines that are coordinate vectors. storage.hpp:104, 246. -/
def crowsFill (f : Nat → CoordVec α → CoordVec α → M (CoordVec α)) (d a : List (CoordVec α)) : M (List (CoordVec α)) :=
  loop (fun k d => do
    let x ← rd false a k
    let y ← rd false d k
    let r ← f k y x
    wr false d k r) a.length d

/-- As `RowsJunk`; two families of arrays because `resize` may allocate each line twice. Machinery of the model: no code of its own in /repo. -/
abbrev CRowsJunk (α : Type) := (Nat → CoordVec α) × VoVC.Junk α × VoVC.Junk α

/-- The value operations of generalized_vector_of_vector: vector_of_vector.hpp:80-84, 208-216, 273-280, its lines by vector_sparse.hpp:1541-1547, 1754-1766. -/
def vvc [Add α] [Zero α] (P : VVCPar α) (dbg : Bool) (o : Orient) : Ops (VoVC α) (VVCOp α) (CRowsJunk α) where
  step j v p := VoVC.step P dbg o 0 j.2.1 j.2.2 j.1 v p
  copy j v := do
    let d ← (if v.data.length ≠ 0 then
        crowsFill (fun k _ x => do let (_, n) ← (cov P.srt P.full dbg P.IB).copy (j.2.1 k) x; .ok n) ((List.range v.data.length).map j.1) v.data
      else .ok [] : M (List (CoordVec α)))
    let n : VoVC α := ⟨v.size1, v.size2, d⟩
    n.invariants dbg o
    .ok (v, n)
  assign j d v := do
    let d := { d with size1 := v.size1 }
    let d := { d with size2 := v.size2 }
    let a ← crowsFill (fun k y x => (cov P.srt P.full dbg P.IB).assign (j.2.1 k) y x) (resizeRaw j.1 d.data v.data.length) v.data
    let d := { d with data := a }
    d.invariants dbg o
    .ok d
  selfAssign v := do v.invariants dbg o; .ok v
  swap a b := do
    let p := exch (·.size1) (fun (s : VoVC α) x => { s with size1 := x }) (a, b)
    let p := exch (·.size2) (fun (s : VoVC α) x => { s with size2 := x }) p
    let p := exch (·.data) (fun (s : VoVC α) x => { s with data := x }) p
    p.1.invariants dbg o
    .ok p
  selfSwap v := do v.invariants dbg o; .ok v

/-! ## matrix, triangular_matrix, banded_matrix, symmetric_matrix, hermitian_matrix

`operator =` does not compare the addresses; the array's own does (storage.hpp:244), so `m = m` leaves the object as it is. -/

/-- The value operations of matrix: matrix.hpp:160-162, 331-336, 413-419. -/
def dm (dbg : Bool) (o : Orient) (zero : α) : Ops (Dense α) (Dense.Op α) (Nat → α) where
  step j v p := Dense.step dbg o zero j v p
  copy j v := do
    let a ← arrCopy j v.data
    .ok (v, ⟨v.size1, v.size2, a⟩)
  assign j d v := do
    let d := { d with size1 := v.size1 }
    let d := { d with size2 := v.size2 }
    let a ← arrAssign j d.data v.data
    .ok { d with data := a }
  selfAssign v := .ok v
  swap a b :=
    let p := exch (·.size1) (fun (s : Dense α) x => { s with size1 := x }) (a, b)
    let p := exch (·.size2) (fun (s : Dense α) x => { s with size2 := x }) p
    .ok (exch (·.data) (fun (s : Dense α) x => { s with data := x }) p)
  selfSwap v := .ok v

/-- The value operations of triangular_matrix: triangular.hpp:118-120, 218-223, 280-287. -/
def tm [Zero α] [One α] (dbg : Bool) (t : Tri) (o : Orient) : Ops (TMat α) (Dense.Op α) (Nat → α) where
  step j v p := TMat.step dbg t o j v p
  copy j v := do
    let a ← arrCopy j v.data
    .ok (v, ⟨v.size1, v.size2, a⟩)
  assign j d v := do
    let d := { d with size1 := v.size1 }
    let d := { d with size2 := v.size2 }
    let a ← arrAssign j d.data v.data
    .ok { d with data := a }
  selfAssign v := .ok v
  swap a b :=
    let p := exch (·.size1) (fun (s : TMat α) x => { s with size1 := x }) (a, b)
    let p := exch (·.size2) (fun (s : TMat α) x => { s with size2 := x }) p
    .ok (exch (·.data) (fun (s : TMat α) x => { s with data := x }) p)
  selfSwap v := .ok v

/-- The value operations of banded_matrix: banded.hpp:150-153, 332-339, 396-404. -/
def bm [Zero α] (dbg : Bool) (o : Orient) : Ops (BMat α) (BMat.Op α) (Nat → α) where
  step j v p := BMat.step dbg o j v p
  copy j v := do
    let a ← arrCopy j v.data
    .ok (v, ⟨v.size1, v.size2, v.lower, v.upper, a⟩)
  assign j d v := do
    let d := { d with size1 := v.size1 }
    let d := { d with size2 := v.size2 }
    let d := { d with lower := v.lower }
    let d := { d with upper := v.upper }
    let a ← arrAssign j d.data v.data
    .ok { d with data := a }
  selfAssign v := .ok v
  swap a b :=
    let p := exch (·.size1) (fun (s : BMat α) x => { s with size1 := x }) (a, b)
    let p := exch (·.size2) (fun (s : BMat α) x => { s with size2 := x }) p
    let p := exch (·.lower) (fun (s : BMat α) x => { s with lower := x }) p
    let p := exch (·.upper) (fun (s : BMat α) x => { s with upper := x }) p
    .ok (exch (·.data) (fun (s : BMat α) x => { s with data := x }) p)
  selfSwap v := .ok v

/-- The value operations of symmetric_matrix and hermitian_matrix, which differ in `step` only: symmetric.hpp:88-90, 187-191, 248-253, hermitian.hpp:296-298,
412-416, 481-486. -/
def sm (step : (Nat → α) → SMat α → SOp α → M (SMat α)) : Ops (SMat α) (SOp α) (Nat → α) where
  step := step
  copy j v := do
    let a ← arrCopy j v.data
    .ok (v, ⟨v.size, a⟩)
  assign j d v := do
    let d := { d with size := v.size }
    let a ← arrAssign j d.data v.data
    .ok { d with data := a }
  selfAssign v := .ok v
  swap a b :=
    let p := exch (·.size) (fun (s : SMat α) x => { s with size := x }) (a, b)
    .ok (exch (·.data) (fun (s : SMat α) x => { s with data := x }) p)
  selfSwap v := .ok v

end Values
end Ublas
