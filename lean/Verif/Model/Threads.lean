import Verif.Model.CompressedVector
import Verif.Model.CompressedMatrix
import Verif.Model.Coo
import Verif.Model.Dense
/-!
# Several threads using one container

ublas has no synchronisation; a program may call const member functions of one object from several threads, or let threads work on different elements of one dense container, exactly when these
calls do not access a common memory cell that one of them writes.  Here the member functions are written once more as sequences of single memory accesses, and an execution is any interleaving of
the threads' accesses.  Memory (of one container): arrays of integers and the array of elements; array 0 holds the scalar members.  The sizes of the arrays are not cells (nothing here changes
them).  Local variables and parameters of a call live in the program itself.  Simplification: reads and writes of one cell are atomic and sequentially consistent (a program with a data race
is undefined in C++; `RaceFree` says there is none).
-/
namespace Ublas
namespace Threads
open Search
variable {R A B : Type}

/-- The memory of a container. Model of C++ threads and memory, not code of /repo. -/
structure TMem (R : Type) where
  nat : Nat → List Nat
  elt : List R

/-- A memory cell. Model of C++ threads and memory, not code of /repo. -/
inductive Loc
  | nat (arr off : Nat)
  | elt (off : Nat)
  deriving DecidableEq, Repr

/-- A thread: what it does next. Model of C++ threads and memory, not code of /repo. -/
inductive Th (R A : Type)
  | ret (a : A)
  | fail (f : Fault)
  | rdN (dbg : Bool) (arr off : Nat) (k : Nat → Th R A)
  | rdR (dbg : Bool) (off : Nat) (k : R → Th R A)
  | wrN (dbg : Bool) (arr off v : Nat) (k : Th R A)
  | wrR (dbg : Bool) (off : Nat) (v : R) (k : Th R A)

/-- One thing after the other. Model of C++ threads and memory, not code of /repo. -/
def Th.bind (p : Th R A) (f : A → Th R B) : Th R B :=
  match p with
  | .ret a => f a
  | .fail e => .fail e
  | .rdN d arr off k => .rdN d arr off fun v => (k v).bind f
  | .rdR d off k => .rdR d off fun v => (k v).bind f
  | .wrN d arr off v k => .wrN d arr off v (k.bind f)
  | .wrR d off v k => .wrR d off v (k.bind f)

instance : Monad (Th R) where
  pure := .ret
  bind := Th.bind

/-- A memory access of a thread. Model of C++ threads and memory, not code of /repo. -/
structure Event where
  thread : Nat
  loc : Loc
  write : Bool
  deriving DecidableEq, Repr

/-- Replace an integer array. Model of C++ threads and memory, not code of /repo. -/
def TMem.setN (m : TMem R) (arr : Nat) (l : List Nat) : TMem R := { m with nat := fun a => if a = arr then l else m.nat a }

/-- One access of a thread. Client histories: composes the operations cited in this file; no code of its own in /repo. -/
def Th.step (t : Nat) (m : TMem R) : Th R A → M (Th R A × TMem R × List Event)
  | .ret a => .ok (.ret a, m, [])
  | .fail f => .error f
  | .rdN d arr off k => do let v ← rd d (m.nat arr) off; .ok (k v, m, [⟨t, .nat arr off, false⟩])
  | .rdR d off k => do let v ← rd d m.elt off; .ok (k v, m, [⟨t, .elt off, false⟩])
  | .wrN d arr off v k => do let l ← wr d (m.nat arr) off v; .ok (k, m.setN arr l, [⟨t, .nat arr off, true⟩])
  | .wrR d off v k => do let l ← wr d m.elt off v; .ok (k, { m with elt := l }, [⟨t, .elt off, true⟩])

/-- Threads, memory, accesses so far. Model of C++ threads and memory, not code of /repo. -/
structure Cfg (R A : Type) where
  th : Nat → Th R A
  mem : TMem R
  log : List Event

/-- The scheduler picks thread `t`. Client histories: composes the operations cited in this file; no code of its own in /repo. -/
def Cfg.step (c : Cfg R A) (t : Nat) : M (Cfg R A) := do
  let r ← (c.th t).step t c.mem
  .ok ⟨fun u => if u = t then r.1 else c.th u, r.2.1, c.log ++ r.2.2⟩

/-- Run the threads in the order of `sched`. Model of C++ threads and memory, not code of /repo. -/
def execute (sched : List Nat) (th : Nat → Th R A) (m : TMem R) : M (Cfg R A) := sched.foldlM Cfg.step ⟨th, m, []⟩

/-- No two threads access the same cell unless both only read. Model of C++ threads and memory, not code of /repo. -/
def RaceFree (log : List Event) : Prop := ∀ e ∈ log, ∀ e' ∈ log, e.thread ≠ e'.thread → e.loc = e'.loc → e.write = false ∧ e'.write = false

/-! ## Primitives -/

/-- Read an integer cell. Model of C++ threads and memory, not code of /repo. -/
def getN (dbg : Bool) (arr off : Nat) : Th R Nat := .rdN dbg arr off .ret
/-- Read an element cell. Model of C++ threads and memory, not code of /repo. -/
def getR (dbg : Bool) (off : Nat) : Th R R := .rdR dbg off .ret
/-- Write an integer cell. Model of C++ threads and memory, not code of /repo. -/
def putN (dbg : Bool) (arr off v : Nat) : Th R Unit := .wrN dbg arr off v (.ret ())
/-- Write an element cell. Model of C++ threads and memory, not code of /repo. -/
def putR (dbg : Bool) (off : Nat) (v : R) : Th R Unit := .wrR dbg off v (.ret ())
/-- BOOST_UBLAS_CHECK on local values: exception.hpp:219. -/
def checkT (dbg : Bool) (p : Prop) [Decidable p] (f : Fault) : Th R Unit := if dbg = true ∧ ¬ p then .fail f else .ret ()

/-! ## Searching: storage_sparse.hpp:30-49 -/

/-- `std::lower_bound`, as `Search.stdLowerBound`. C++ standard library, not code of /repo. -/
def stdLowerBoundT (arr k : Nat) : (fuel first len : Nat) → Th R Nat
  | 0, first, len => if len = 0 then .ret first else .fail .diverge
  | fuel + 1, first, len =>
      if len = 0 then .ret first else do
        let x ← getN false arr (first + len / 2)
        if x < k then stdLowerBoundT arr k fuel (first + len / 2 + 1) (len - len / 2 - 1) else stdLowerBoundT arr k fuel first (len / 2)

/-- `detail::lower_bound`: storage_sparse.hpp:30-39. -/
def lowerBoundT (arr b e k : Nat) : Th R Nat :=
  if b = e then .ret b else do
    let x ← getN false arr b
    if ¬ x < k then .ret b else do
      let y ← getN false arr (e - 1)
      if y < k then .ret e else stdLowerBoundT arr k (e - b) b (e - b)

/-! ## compressed_vector: array 0 = [size_, capacity_, filled_], array 1 = index_data_ -/

/-- The memory of a compressed_vector: vector_sparse.hpp:1447-1451. -/
def cvecMem (v : CVec R) : TMem R := ⟨fun a => if a = 0 then [v.size, v.cap, v.filled] else if a = 1 then v.idx else [], v.val⟩

/-- Look-up, as `CVec.slot`: vector_sparse.hpp:1007-1008. -/
def cvecSlotT (IB i : Nat) : Th R (Option Nat) := do
  let filled ← getN false 0 2
  let it ← lowerBoundT 1 0 filled (i + IB)
  let filled ← getN false 0 2
  if it = filled then .ret none else do
    let x ← getN false 1 it
    if x ≠ i + IB then .ret none else .ret (some it)

/-- `operator () (i) const`: vector_sparse.hpp:1005-1011. -/
def cvecGetT (dbg : Bool) (IB : Nat) (zero : R) (i : Nat) : Th R R := do
  let size ← getN false 0 0
  checkT dbg (i < size) .badIndex
  let r ← cvecSlotT IB i
  match r with
  | none => .ret zero
  | some n => getR dbg n

/-- `std::copy_backward (a + b, a + e, a + e + 1)` on an integer array. C++ standard library, not code of /repo. -/
def moveUpN (arr b : Nat) : (n : Nat) → Th R Unit
  | 0 => .ret ()
  | n + 1 => do
      let x ← getN false arr (b + n)
      putN false arr (b + n + 1) x
      moveUpN arr b n

/-- `std::copy_backward` on the elements. C++ standard library, not code of /repo. -/
def moveUpR (b : Nat) : (n : Nat) → Th R Unit
  | 0 => .ret ()
  | n + 1 => do
      let x ← getR false (b + n)
      putR false (b + n + 1) x
      moveUpR b n

/-- `insert_element (i, t)` while there is capacity left: vector_sparse.hpp:1042-1059 (not modelled here: the debug checks and `reserve`). -/
def cvecInsertT (IB i : Nat) (t : R) : Th R Unit := do
  let filled ← getN false 0 2
  let n ← lowerBoundT 1 0 filled (i + IB)
  let filled ← getN false 0 2
  putN false 0 2 (filled + 1)
  moveUpN 1 n (filled - n)
  putN false 1 n (i + IB)
  moveUpR n (filled - n)
  putR false n t

/-- `v (i) = t`: `ref` (vector_sparse.hpp:1013-1021) and the assignment to the returned reference. -/
def cvecSetT (dbg : Bool) (IB : Nat) (i : Nat) (t : R) : Th R Unit := do
  let size ← getN false 0 0
  checkT dbg (i < size) .badIndex
  let r ← cvecSlotT IB i
  match r with
  | none => cvecInsertT IB i t
  | some n => putR dbg n t

/-! ## compressed_matrix: array 0 = [size1_, size2_, capacity_, filled1_, filled2_], array 1 = index1_data_, array 2 = index2_data_ -/

/-- The memory of a compressed_matrix: matrix_sparse.hpp:4236-4243. -/
def cmatMem (v : CMat R) : TMem R :=
  ⟨fun a => if a = 0 then [v.size1, v.size2, v.cap, v.filled1, v.filled2] else if a = 1 then v.idx1 else if a = 2 then v.idx2 else [], v.val⟩

/-- `find_element (i, j)`: matrix_sparse.hpp:3021-3033. -/
def cmatSlotT (o : Orient) (IB i j : Nat) : Th R (Option Nat) := do
  let filled1 ← getN false 0 3
  if filled1 ≤ o.indexM i j + 1 then .ret none else do
    let b ← getN false 1 (o.indexM i j)
    let e ← getN false 1 (o.indexM i j + 1)
    let it ← lowerBoundT 2 (b - IB) (e - IB) (o.indexm i j + IB)
    if it = e - IB then .ret none else do
      let x ← getN false 2 it
      if x ≠ o.indexm i j + IB then .ret none else .ret (some it)

/-- `operator () (i, j) const`: matrix_sparse.hpp:3037-3043. -/
def cmatGetT (dbg : Bool) (o : Orient) (IB : Nat) (zero : R) (i j : Nat) : Th R R := do
  let r ← cmatSlotT o IB i j
  match r with
  | none => .ret zero
  | some n => getR dbg n

/-! ## coordinate_vector: array 0 = [size_, capacity_, filled_, sorted_filled_, sorted_], array 1 = index_data_ -/

/-- The memory of a coordinate_vector: vector_sparse.hpp:2213-2219 (all but `size_` and `capacity_` are `mutable`). -/
def coordMem (v : CoordVec R) : TMem R :=
  ⟨fun a => if a = 0 then [v.size, v.coo.cap, v.coo.filled, v.coo.sortedFilled, if v.coo.sorted then 1 else 0] else if a = 1 then v.coo.idx else [], v.coo.val⟩

/-- Member `lower_bound`: vector_sparse.hpp:1862-1872. -/
def lowerBoundAtT (dbg : Bool) (target : Nat) : (fuel b e : Nat) → Th R Nat
  | 0, b, e => if e > b then .fail .diverge else .ret b
  | fuel + 1, b, e =>
      if e > b then do
        let x ← getN dbg 1 ((b + e) / 2)
        let t ← getN dbg 1 target
        if x < t then lowerBoundAtT dbg target fuel ((b + e) / 2 + 1) e else lowerBoundAtT dbg target fuel b ((b + e) / 2)
      else .ret b

/-- Read `n` integer cells from `a` on. Model of C++ threads and memory, not code of /repo. -/
def readN (arr a : Nat) : (n : Nat) → Th R (List Nat)
  | 0 => .ret []
  | n + 1 => do let x ← getN false arr a; let l ← readN arr (a + 1) n; .ret (x :: l)
/-- Read `n` element cells from `a` on. Model of C++ threads and memory, not code of /repo. -/
def readR (a : Nat) : (n : Nat) → Th R (List R)
  | 0 => .ret []
  | n + 1 => do let x ← getR false a; let l ← readR (a + 1) n; .ret (x :: l)
/-- Write integer cells from `a` on. Model of C++ threads and memory, not code of /repo. -/
def writeN (arr a : Nat) : List Nat → Th R Unit
  | [] => .ret ()
  | x :: l => do putN false arr a x; writeN arr (a + 1) l
/-- Write element cells from `a` on. Model of C++ threads and memory, not code of /repo. -/
def writeR (a : Nat) : List R → Th R Unit
  | [] => .ret ()
  | x :: l => do putR false a x; writeR (a + 1) l

/-- `std::rotate` on the indices (some sequence of reads followed by writes of the range). C++ standard library, not code of /repo. -/
def rotateN (arr a m b : Nat) : Th R Unit := do
  let l ← readN arr a (b - a)
  writeN arr a (l.drop (m - a) ++ l.take (m - a))
/-- `std::rotate` on the values. C++ standard library, not code of /repo. -/
def rotateR (a m b : Nat) : Th R Unit := do
  let l ← readR a (b - a)
  writeR a (l.drop (m - a) ++ l.take (m - a))

/-- `inplace_merge (beg, mid, end)`: vector_sparse.hpp:1876-1901. -/
def inplaceMergeT (dbg : Bool) : (fuel b m e : Nat) → Th R Unit
  | 0, b, m, e => if b < m ∧ m < e then .fail .diverge else .ret ()
  | fuel + 1, b, m, e =>
      if m - b = 1 ∧ e - m = 1 then do
        let x ← getN dbg 1 m
        let y ← getN dbg 1 b
        if x < y then do
          let p ← getN dbg 1 b
          let q ← getN dbg 1 m
          putN dbg 1 b q
          putN dbg 1 m p
          let p ← getR dbg b
          let q ← getR dbg m
          putR dbg b q
          putR dbg m p
        else .ret ()
      else if m - b > 0 ∧ e - m > 0 then do
        let p ← (if m - b ≥ e - m then do
            let rigMid ← lowerBoundAtT dbg ((b + m) / 2) (e - m) m e
            .ret ((b + m) / 2, rigMid)
          else do
            let lefMid ← lowerBoundAtT dbg ((m + e) / 2) (m - b) b m
            .ret (lefMid, (m + e) / 2) : Th R (Nat × Nat))
        rotateN 1 p.1 m p.2
        rotateR p.1 m p.2
        inplaceMergeT dbg fuel b p.1 (p.1 + p.2 - m)
        inplaceMergeT dbg fuel (p.1 + p.2 - m) p.2 e
      else .ret ()

/-- `std::sort` of the records [a, b): some sequence of reads followed by writes. C++ standard library, not code of /repo. -/
def sortSegmentT (srt : List (Nat × R) → List (Nat × R)) (a b : Nat) : Th R Unit := do
  let l ← readN 1 a (b - a)
  let r ← readR a (b - a)
  writeN 1 a ((srt (l.zip r)).map (·.1))
  writeR a ((srt (l.zip r)).map (·.2))

/-- The duplicate-summing loop from `i` on; `filled_` is read again in every round: vector_sparse.hpp:1921-1931.  Returns the local variable `filled`. -/
def sumLoopT [Add R] (dbg : Bool) : (fuel i f : Nat) → Th R Nat
  | 0, i, f => do
      let filled ← getN false 0 2
      if i < filled then .fail .diverge else .ret f
  | fuel + 1, i, f => do
      let filled ← getN false 0 2
      if i < filled then do
        let x ← getN dbg 1 f
        let y ← getN dbg 1 i
        if x ≠ y then
          if f + 1 ≠ i then do
            let y ← getN dbg 1 i
            putN dbg 1 (f + 1) y
            let t ← getR dbg i
            putR dbg (f + 1) t
            sumLoopT dbg fuel (i + 1) (f + 1)
          else sumLoopT dbg fuel (i + 1) (f + 1)
        else do
          let a ← getR dbg f
          let t ← getR dbg i
          putR dbg f (a + t)
          sumLoopT dbg fuel (i + 1) f
      else .ret f

/-- `sort () const`: vector_sparse.hpp:1905-1937, without BOOST_UBLAS_COO_ALWAYS_DO_FULL_SORT; the reads of `storage_invariants ()` in debug builds are left out. -/
def coordSortT [Add R] (dbg : Bool) (srt : List (Nat × R) → List (Nat × R)) : Th R Unit := do
  let sorted ← getN false 0 4
  if sorted ≠ 0 then .ret () else do
    let filled ← getN false 0 2
    if filled > 0 then do
      let sf ← getN false 0 3
      sortSegmentT srt sf filled
      inplaceMergeT dbg filled 0 sf filled
      let f ← sumLoopT dbg (filled - 1) 1 0
      putN false 0 2 (f + 1)
      let filled ← getN false 0 2
      putN false 0 3 filled
      putN false 0 4 1
    else .ret ()

/-- `operator () (i) const`: vector_sparse.hpp:1673-1680. -/
def coordGetT [Add R] (dbg : Bool) (srt : List (Nat × R) → List (Nat × R)) (IB : Nat) (zero : R) (i : Nat) : Th R R := do
  let size ← getN false 0 0
  checkT dbg (i < size) .badIndex
  coordSortT dbg srt
  let r ← cvecSlotT IB i
  match r with
  | none => .ret zero
  | some n => getR dbg n

/-! ## Dense matrix: array 0 = [size1_, size2_] -/

/-- The memory of a dense matrix: matrix.hpp:1205-1207. -/
def denseMem (m : Dense R) : TMem R := ⟨fun a => if a = 0 then [m.size1, m.size2] else [], m.data⟩

/-- `layout_type::element (i, size1_, j, size2_)`: functional.hpp:1417-1424, 1595-1602. -/
def elementT (dbg : Bool) (o : Orient) (i j : Nat) : Th R Nat := do
  let s1 ← getN false 0 0
  let s2 ← getN false 0 1
  checkT dbg (i < s1) .badIndex
  checkT dbg (j < s2) .badIndex
  .ret (o.elementRaw i s1 j s2)

/-- `operator () (i, j) const`: matrix.hpp:237-239. -/
def denseGetT (dbg : Bool) (o : Orient) (i j : Nat) : Th R R := do
  let k ← elementT dbg o i j
  getR dbg k

/-- `m (i, j) = t`: matrix.hpp:247-249. -/
def denseSetT (dbg : Bool) (o : Orient) (i j : Nat) (t : R) : Th R Unit := do
  let k ← elementT dbg o i j
  putR dbg k t

/-! ## Client programs -/

/-- What a thread does with the container: reads and writes of elements chosen adaptively. Model of C++ threads and memory, not code of /repo. -/
inductive Client (ι R A : Type)
  | done (a : A)
  | get (i : ι) (k : R → Client ι R A)
  | set (i : ι) (v : R) (k : Client ι R A)

/-- The client calling the member functions `g` (read) and `s` (write). Model of C++ threads and memory, not code of /repo. -/
def Client.prog {ι : Type} (g : ι → Th R R) (s : ι → R → Th R Unit) : Client ι R A → Th R A
  | .done a => .ret a
  | .get i k => (g i).bind fun v => (k v).prog g s
  | .set i v k => (s i v).bind fun _ => k.prog g s

end Threads
end Ublas
