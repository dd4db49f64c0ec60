import Verif.Spec.Table
import Verif.Model.Vector
import Verif.Model.Layout
/-!
# matrix<T, L, A> and bounded_matrix (matrix.hpp:84-1208, 2294-2359) over any storage array

The array operations are those of `ArrImpl` (Model/Vector).  Simplifications: sizes are natural numbers (their overflow is C06); iterators are offsets from `data ().begin ()`;
the checks of iterating assignments that the distance from begin to end is the size (C49) and the type checks of debug builds (C96) are left out; a container operand
is the table of its elements; C++ moves do not happen.
-/
namespace Ublas
open Search Storage

/-- The members of matrix: matrix.hpp:1205-1207. -/
structure TabMat (ρ : Type) where
  size1 : Nat
  size2 : Nat
  arr : ρ

namespace TabMat
open ProdFn
variable {α ρ : Type}

/-- The constructors: matrix.hpp:130-134, 141-144 (`bounded_matrix`: 2305-2310). -/
def ctor (A : ArrImpl ρ α) (dbg : Bool) (o : Orient) (junk : Nat → α) : TabCtor α → M (TabMat ρ)
  | .sized r c => do
    let a ← A.make dbg junk (o.storageSize r c)
    .ok ⟨r, c, a⟩
  | .filled r c t => do
    let a ← A.makeInit dbg junk (o.storageSize r c) t
    .ok ⟨r, c, a⟩

/-- `operator () (i, j) const`: matrix.hpp:237-239. -/
def get (A : ArrImpl ρ α) (dbg : Bool) (o : Orient) (m : TabMat ρ) (i j : Nat) : M α := do
  let k ← o.element dbg i m.size1 j m.size2
  A.index dbg m.arr k

/-- `at_element (i, j) = t`, `operator () (i, j) = t`, `insert_element (i, j, t)`: matrix.hpp:247-249, 257-259, 294-296. -/
def set (A : ArrImpl ρ α) (dbg : Bool) (o : Orient) (m : TabMat ρ) (i j : Nat) (t : α) : M (TabMat ρ) := do
  let k ← o.element dbg i m.size1 j m.size2
  let a ← A.store dbg m.arr k t
  .ok ⟨m.size1, m.size2, a⟩

/-- `m (i, j) op= …`: matrix.hpp:257-259 (the reference is read, then written). -/
def modify (A : ArrImpl ρ α) (dbg : Bool) (o : Orient) (m : TabMat ρ) (i j : Nat) (f : α → α) : M (TabMat ρ) := do
  let k ← o.element dbg i m.size1 j m.size2
  let x ← A.index dbg m.arr k
  let a ← A.store dbg m.arr k (f x)
  .ok ⟨m.size1, m.size2, a⟩

/-- `clear ()`: matrix.hpp:316-318; `std::fill` through pointers. -/
def clear (A : ArrImpl ρ α) (zero : α) (m : TabMat ρ) : M (TabMat ρ) := do
  let a ← loop (fun k a => A.put a k zero) (A.size m.arr) m.arr
  .ok ⟨m.size1, m.size2, a⟩

/-- `swap` with a distinct object: matrix.hpp:413-419. -/
def swap (A : ArrImpl ρ α) (a b : TabMat ρ) : M (TabMat ρ × TabMat ρ) := do
  let (s1, t1) := (b.size1, a.size1)
  let (s2, t2) := (b.size2, a.size2)
  let (d, e) ← A.swap a.arr b.arr
  .ok (⟨s1, s2, d⟩, ⟨t1, t2, e⟩)

/-- `matrix_resize_preserve (m, temporary)`: matrix.hpp:50-74; ends with `assign_temporary`, a swap (343-347). -/
def resizePreserve (A : ArrImpl ρ α) (dbg : Bool) (o : Orient) (m tmp : TabMat ρ) : M (TabMat ρ) := do
  let size1 := min tmp.size1 m.size1
  let size2 := min tmp.size2 m.size2
  let d ← loop (fun major d => loop (fun minor d => do
      let i1 := o.indexM major minor
      let i2 := o.indexm major minor
      let kt ← o.element dbg i1 tmp.size1 i2 tmp.size2
      let km ← o.element dbg i1 m.size1 i2 m.size2
      let x ← A.index dbg m.arr km
      A.store dbg d kt x) (o.sizem size1 size2) d) (o.sizeM size1 size2) tmp.arr
  let p ← swap A m ⟨tmp.size1, tmp.size2, d⟩
  .ok p.1

/-- `resize (size1, size2, preserve)`: matrix.hpp:217-227. -/
def resize (A : ArrImpl ρ α) (dbg : Bool) (o : Orient) (junk : Nat → α) (m : TabMat ρ) (r c : Nat) (preserve : Bool) : M (TabMat ρ) :=
  if preserve then do
    let tmp ← ctor A dbg o junk (.sized r c)
    resizePreserve A dbg o m tmp
  else do
    let a ← A.resize dbg junk m.arr (o.storageSize r c)
    .ok ⟨r, c, a⟩

/-- `*it` of an iterator at offset `it`: matrix.hpp:537-541, 860-864. -/
def deref (A : ArrImpl ρ α) (dbg : Bool) (o : Orient) (m : TabMat ρ) (it : Nat) : M α := do
  check dbg (o.indexI it m.size1 m.size2 < m.size1) .badIndex
  check dbg (o.indexJ it m.size1 m.size2 < m.size2) .badIndex
  A.deref m.arr it

/-- `*it = t`: matrix.hpp:715-719, 1038-1042. -/
def derefPut (A : ArrImpl ρ α) (dbg : Bool) (o : Orient) (m : TabMat ρ) (it : Nat) (t : α) : M (TabMat ρ) := do
  check dbg (o.indexI it m.size1 m.size2 < m.size1) .badIndex
  check dbg (o.indexJ it m.size1 m.size2 < m.size2) .badIndex
  let a ← A.put m.arr it t
  .ok ⟨m.size1, m.size2, a⟩

/-- `begin ()` of the iterator1 at offset `it`, that is `find2 (1, index1 (), 0)`: matrix.hpp:552-555, 610-613, 730-733. -/
def begin2 (dbg : Bool) (o : Orient) (m : TabMat ρ) (it : Nat) : M Nat := o.address dbg (o.indexI it m.size1 m.size2) m.size1 0 m.size2

/-- `begin ()` of the iterator2 at offset `it`, that is `find1 (1, 0, index2 ())`: matrix.hpp:875-878, 938-941, 1053-1056. -/
def begin1 (dbg : Bool) (o : Orient) (m : TabMat ρ) (it : Nat) : M Nat := o.address dbg 0 m.size1 (o.indexJ it m.size1 m.size2) m.size2

/-- What `++` adds to an iterator1: functional.hpp:1472-1474, 1650-1652. -/
def stride1 (o : Orient) (m : TabMat ρ) : Nat := match o with | .row => m.size2 | .col => 1
/-- What `++` adds to an iterator2: functional.hpp:1496-1498, 1674-1676. -/
def stride2 (o : Orient) (m : TabMat ρ) : Nat := match o with | .row => 1 | .col => m.size1

/-- `*((m.begin1 () + i).begin () + j) = t`: matrix.hpp:798-800 (`begin1`), 458-464 (`find1`), 698-701 (`+=`), 730-733 (`begin`), 715-719. -/
def putRow (A : ArrImpl ρ α) (dbg : Bool) (o : Orient) (m : TabMat ρ) (i j : Nat) (t : α) : M (TabMat ρ) := do
  let b ← o.address dbg 0 m.size1 0 m.size2
  let it1 := b + i * stride1 o m
  let it2 ← begin2 dbg o m it1
  derefPut A dbg o m (it2 + j * stride2 o m) t

/-- `*((m.begin2 () + j).begin () + i) = t`: matrix.hpp:1121-1123 (`begin2`), 474-480 (`find2`), 1021-1024 (`+=`), 1053-1056 (`begin`), 1038-1042. -/
def putColumn (A : ArrImpl ρ α) (dbg : Bool) (o : Orient) (m : TabMat ρ) (i j : Nat) (t : α) : M (TabMat ρ) := do
  let b ← o.address dbg 0 m.size1 0 m.size2
  let it2 := b + j * stride2 o m
  let it1 ← begin1 dbg o m it2
  derefPut A dbg o m (it1 + i * stride1 o m) t

/-- `indexing_matrix_assign_scalar` / `indexing_matrix_assign`: detail/matrix_assign.hpp:314-346, 581-616; `g i j x` is the new value of element (i, j). -/
def eachIndexed (A : ArrImpl ρ α) (dbg : Bool) (o : Orient) (g : TabMat ρ → Nat → Nat → α → M α) (m : TabMat ρ) : M (TabMat ρ) :=
  loop (fun a m => loop (fun b m => do
      let i := o.indexM a b
      let j := o.indexm a b
      let k ← o.element dbg i m.size1 j m.size2
      let x ← A.index dbg m.arr k
      let y ← g m i j x
      let d ← A.store dbg m.arr k y
      .ok ⟨m.size1, m.size2, d⟩) (o.sizem m.size1 m.size2) m) (o.sizeM m.size1 m.size2) m

/-- `++` of the outer (major) iterator: detail/matrix_assign.hpp:281, 308. -/
def outerStride (o : Orient) (m : TabMat ρ) : Nat := match o with | .row => stride1 o m | .col => stride2 o m
/-- `++` of the inner (minor) iterator: detail/matrix_assign.hpp:277, 304. -/
def innerStride (o : Orient) (m : TabMat ρ) : Nat := match o with | .row => stride2 o m | .col => stride1 o m
/-- `begin ()` of the outer iterator at offset `it`: detail/matrix_assign.hpp:269, 296. -/
def innerBegin (dbg : Bool) (o : Orient) (m : TabMat ρ) (it : Nat) : M Nat := match o with | .row => begin2 dbg o m it | .col => begin1 dbg o m it

/-- `iterating_matrix_assign_scalar` / `iterating_matrix_assign`: detail/matrix_assign.hpp:260-311, 517-577: the outer iterator moves along the major index, the inner one starts
at its `begin ()`. -/
def eachIterated (A : ArrImpl ρ α) (dbg : Bool) (o : Orient) (g : TabMat ρ → Nat → Nat → α → M α) (m : TabMat ρ) : M (TabMat ρ) :=
  loop (fun a m => do
      let start ← innerBegin dbg o m (a * outerStride o m)
      loop (fun b m => do
        let it := start + b * innerStride o m
        let x ← deref A dbg o m it
        let y ← g m (o.indexM a b) (o.indexm a b) x
        derefPut A dbg o m it y) (o.sizem m.size1 m.size2) m) (o.sizeM m.size1 m.size2) m

/-- The dense dispatch: detail/matrix_assign.hpp:351-369, 618-635; `g true` computes from an operand that is iterated, `g false` from one that is indexed. -/
def each (A : ArrImpl ρ α) (dbg : Bool) (o : Orient) (mode : Mode) (g : Bool → TabMat ρ → Nat → Nat → α → M α) (m : TabMat ρ) : M (TabMat ρ) :=
  match mode with
  | .indexing => eachIndexed A dbg o (g false) m
  | .iterating => eachIterated A dbg o (g true) m
  | .threshold b => if b ≤ m.size1 ∧ b ≤ m.size2 then eachIterated A dbg o (g true) m else eachIndexed A dbg o (g false) m

/-- An element of another container. Machinery of the model: no code of its own in /repo. -/
def operand (w : Grid α) (i j : Nat) : M α := if i < w.rows ∧ j < w.cols then .ok (w.val i j) else .error .ub

/-- `m = w` for another container: `resize (…, false); assign (w)`: matrix.hpp:336-341, 355-359. -/
def load (A : ArrImpl ρ α) (dbg : Bool) (o : Orient) (mode : Mode) (junk : Nat → α) (m : TabMat ρ) (w : Grid α) : M (TabMat ρ) := do
  let m ← resize A dbg o junk m w.rows w.cols false
  let _ ← same dbg m.size1 w.rows
  let _ ← same dbg m.size2 w.cols
  each A dbg o mode (fun _ _ i j _ => operand w i j) m

/-- `m += w`, `m -= w`, `plus_assign`, `minus_assign` for another container: matrix.hpp:369-379, 387-397. -/
def zip (A : ArrImpl ρ α) (dbg : Bool) (o : Orient) (mode : Mode) (m : TabMat ρ) (f : α → α → α) (w : Grid α) : M (TabMat ρ) := do
  let _ ← same dbg m.size1 w.rows
  let _ ← same dbg m.size2 w.cols
  each A dbg o mode (fun _ _ i j x => do
    let y ← operand w i j
    .ok (f x y)) m

/-- The same with `w` the matrix itself: no temporary, the operand is read while the target is being written. matrix.hpp:369-379, 387-397. -/
def zipSelf (A : ArrImpl ρ α) (dbg : Bool) (o : Orient) (mode : Mode) (m : TabMat ρ) (f : α → α → α) : M (TabMat ρ) :=
  each A dbg o mode (fun it m i j x => do
    let y ← if it then deref A dbg o m (o.elementRaw i m.size1 j m.size2) else get A dbg o m i j
    .ok (f x y)) m

/-- `m *= t`, `m /= t`: matrix.hpp:398-409. -/
def scale (A : ArrImpl ρ α) (dbg : Bool) (o : Orient) (mode : Mode) (m : TabMat ρ) (f : α → α) : M (TabMat ρ) := each A dbg o mode (fun _ _ _ _ x => .ok (f x)) m

/-- One operation. Client histories: composes the operations cited in this file; no code of its own in /repo. -/
def step (A : ArrImpl ρ α) (dbg : Bool) (o : Orient) (mode : Mode) (zero : α) (junk : Nat → α) (m : TabMat ρ) : TabOp α → M (TabMat ρ)
  | .set i j t => set A dbg o m i j t
  | .modify i j f => modify A dbg o m i j f
  | .putRow i j t => putRow A dbg o m i j t
  | .putColumn i j t => putColumn A dbg o m i j t
  | .erase i j => set A dbg o m i j zero      -- matrix.hpp:305-307
  | .clear => clear A zero m
  | .resize r c p => resize A dbg o junk m r c p
  | .scale f => scale A dbg o mode m f
  | .load w => load A dbg o mode junk m w
  | .zip f w => zip A dbg o mode m f w
  | .zipSelf f => zipSelf A dbg o mode m f

/-- Copying, `operator =` (const matrix &), `swap`: matrix.hpp:158-162, 329-335, 413-419. -/
def ops (A : ArrImpl ρ α) (dbg : Bool) (o : Orient) (mode : Mode) (zero : α) : Values.Ops (TabMat ρ) (TabOp α) (Nat → α) where
  step junk m p := step A dbg o mode zero junk m p
  copy junk m := do
    let a ← A.copy junk m.arr
    .ok (m, ⟨m.size1, m.size2, a⟩)
  assign junk m w := do
    let a ← A.assign dbg junk m.arr w.arr
    .ok ⟨w.size1, w.size2, a⟩
  selfAssign m := .ok m
  swap a b := swap A a b
  selfSwap m := .ok m

/-- Row `i` through `find1 (0, i, 0).begin ()` and `++`: matrix.hpp:444-450 (`find1`), 552-555. -/
def rowByIterator (A : ArrImpl ρ α) (dbg : Bool) (o : Orient) (m : TabMat ρ) (i : Nat) : M (List α) := do
  let it1 ← o.address dbg i m.size1 0 m.size2
  let it2 ← begin2 dbg o m it1
  loop (fun j acc => do
    let x ← deref A dbg o m (it2 + j * stride2 o m)
    .ok (acc ++ [x])) m.size2 []

/-- Column `j` through `find2 (0, 0, j).begin ()` and `++`: matrix.hpp:460-466 (`find2`), 875-878. -/
def columnByIterator (A : ArrImpl ρ α) (dbg : Bool) (o : Orient) (m : TabMat ρ) (j : Nat) : M (List α) := do
  let it2 ← o.address dbg 0 m.size1 j m.size2
  let it1 ← begin1 dbg o m it2
  loop (fun i acc => do
    let x ← deref A dbg o m (it1 + i * stride1 o m)
    .ok (acc ++ [x])) m.size1 []

/-- All rows, one after the other: a client loop; no code of its own in /repo. -/
def rows (A : ArrImpl ρ α) (dbg : Bool) (o : Orient) (m : TabMat ρ) : M (List (List α)) :=
  loop (fun i acc => do
    let r ← rowByIterator A dbg o m i
    .ok (acc ++ [r])) m.size1 []

/-- All columns, one after the other: a client loop; no code of its own in /repo. -/
def columns (A : ArrImpl ρ α) (dbg : Bool) (o : Orient) (m : TabMat ρ) : M (List (List α)) :=
  loop (fun j acc => do
    let r ← columnByIterator A dbg o m j
    .ok (acc ++ [r])) m.size2 []

end TabMat
end Ublas
