import Verif.Basic
/-!
# Storage arrays (include/boost/numeric/ublas/storage.hpp)

`unbounded_array` is modelled on an explicit heap, so that sharing, leaks, double frees and accesses
to freed blocks are expressible.  Simplifications: `std::allocator`-like allocator that never throws;
object construction/destruction of elements is plain writing (no element destructor effects);
uninitialised cells hold arbitrary values (`junk`).
-/
namespace Ublas.Storage
variable {α : Type}

/-- The allocator's memory: `blk p` is the contents of the live block at address `p`, if any. The allocator's memory: C++ runtime, not code of /repo. -/
structure Heap (α : Type) where
  next : Nat
  blk : Nat → Option (List α)

/-- `alloc_.allocate (n)` (storage.hpp:69, 91, 102, 147): a fresh block with arbitrary contents. -/
def Heap.alloc (h : Heap α) (junk : Nat → α) (n : Nat) : Nat × Heap α :=
  (h.next, ⟨h.next + 1, fun q => if q = h.next then some ((List.range n).map junk) else h.blk q⟩)

/-- `alloc_.deallocate (p, n)` (storage.hpp:136, 196): undefined unless `p` is a live block of `n`
elements. -/
def Heap.dealloc (h : Heap α) (p n : Nat) : M (Heap α) :=
  match h.blk p with
  | some b => if b.length = n then .ok { h with blk := fun q => if q = p then none else h.blk q }
              else .error .ub
  | none => .error .ub

/-- Raw read through a pointer, `* (p + i)`. C++ pointer access. -/
def Heap.read (h : Heap α) (p i : Nat) : M α :=
  match h.blk p with
  | some b => rd false b i
  | none => .error .ub

/-- Raw write through a pointer, `* (p + i) = v`. C++ pointer access. -/
def Heap.write (h : Heap α) (p i : Nat) (v : α) : M (Heap α) :=
  match h.blk p with
  | some b => do
      let b' ← wr false b i v
      .ok { h with blk := fun q => if q = p then some b' else h.blk q }
  | none => .error .ub

/-- `unbounded_array` object: storage.hpp:353-354 (`size_`, `data_`; `none` is the null pointer). -/
structure UArr where
  size : Nat
  ptr : Option Nat
  deriving DecidableEq

/-- The element-wise copy loops `for (; ...; ++di, ++si) construct (di, *si)` (storage.hpp:152-155,
158-161) and `std::copy` / `std::uninitialized_copy` of `n` elements (storage.hpp:103, 247). -/
def copyN (h : Heap α) (src dst : Option Nat) (n : Nat) : M (Heap α) :=
  loop (fun k h =>
    match src, dst with
    | some s, some d => do
        let v ← h.read s k
        h.write d k v
    | _, _ => .error .ub) n h

/-- `for (di = data_ + from; di != data_ + to; ++di) construct (di, init)` (storage.hpp:162-164) and
`std::uninitialized_fill` (storage.hpp:92). -/
def fillFrom (h : Heap α) (dst : Option Nat) (from' to' : Nat) (v : α) : M (Heap α) :=
  loop (fun k h =>
    match dst with
    | some d => h.write d (from' + k) v
    | none => .error .ub) (to' - from') h

/-- `unbounded_array (size)` : storage.hpp:66-85. -/
def ctor (h : Heap α) (junk : Nat → α) (n : Nat) : M (UArr × Heap α) :=
  if n ≠ 0 then
    let (p, h') := h.alloc junk n
    .ok (⟨n, some p⟩, h')
  else .ok (⟨n, none⟩, h)

/-- `unbounded_array (size, init)` : storage.hpp:88-96. -/
def ctorInit (h : Heap α) (junk : Nat → α) (n : Nat) (v : α) : M (UArr × Heap α) :=
  if n ≠ 0 then do
    let (p, h') := h.alloc junk n
    let h'' ← fillFrom h' (some p) 0 n v
    .ok (⟨n, some p⟩, h'')
  else .ok (⟨n, none⟩, h)

/-- Copy constructor: storage.hpp:98-107. -/
def copyCtor (h : Heap α) (junk : Nat → α) (c : UArr) : M (UArr × Heap α) :=
  if c.size ≠ 0 then do
    let (p, h') := h.alloc junk c.size
    let h'' ← copyN h' c.ptr (some p) c.size
    .ok (⟨c.size, some p⟩, h'')
  else .ok (⟨c.size, none⟩, h)

/-- Destructor: storage.hpp:119-138. -/
def dtor (h : Heap α) (a : UArr) : M (Heap α) :=
  if a.size ≠ 0 then
    match a.ptr with
    | some p => h.dealloc p a.size
    | none => .error .ub
  else .ok h

/-- `resize_internal (size, init, preserve)`: storage.hpp:143-203.  Lines 183-197 (destroy and free the
old block) are textually the destructor, so `dtor` is reused; `a` still has the old `data_`/`size_`. -/
def resizeInternal (h : Heap α) (junk : Nat → α) (a : UArr) (n : Nat) (init : α) (preserve : Bool) :
    M (UArr × Heap α) :=
  if n ≠ a.size then do
    let pData := a.ptr
    let (data, h) ← (if n ≠ 0 then do
        let (d, h) := h.alloc junk n
        if preserve then
          if n < a.size then do
            let h ← copyN h pData (some d) n
            .ok (some d, h)
          else do
            let h ← copyN h pData (some d) a.size
            let h ← fillFrom h (some d) a.size n init
            .ok (some d, h)
        else .ok (some d, h)
      else .ok (pData, h) : M (Option Nat × Heap α))
    let h ← dtor h a
    let data := if n = 0 then none else data
    .ok (⟨n, data⟩, h)
  else .ok (a, h)

/-- `operator []` (read): storage.hpp:232-235. -/
def index (dbg : Bool) (h : Heap α) (a : UArr) (i : Nat) : M α := do
  check dbg (i < a.size) .badIndex
  match a.ptr with
  | some p => h.read p i
  | none => .error .ub

/-- `operator []` used as an l-value: storage.hpp:237-240. -/
def store (dbg : Bool) (h : Heap α) (a : UArr) (i : Nat) (v : α) : M (Heap α) := do
  check dbg (i < a.size) .badIndex
  match a.ptr with
  | some p => h.write p i v
  | none => .error .ub

/-- A program state: named `unbounded_array` objects (dead or live) and the heap. Client histories: composes the operations cited in this file; no code of its own in /repo. -/
structure St (α : Type) where
  heap : Heap α
  var : Nat → Option UArr

/-- Public operations on the named objects. Client histories: composes the operations cited in this file; no code of its own in /repo. -/
inductive Op (α : Type)
  | ctor (x n : Nat)            -- unbounded_array x (n)
  | ctorInit (x n : Nat) (v : α) -- unbounded_array x (n, v)
  | copyCtor (x y : Nat)        -- unbounded_array x (y)
  | moveCtor (x y : Nat)        -- unbounded_array x (std::move (y))
  | dtor (x : Nat)              -- x.~unbounded_array ()
  | resize (x n : Nat)          -- x.resize (n)
  | resizeInit (x n : Nat) (v : α) -- x.resize (n, v)
  | assign (x y : Nat)          -- x = y
  | swap (x y : Nat)            -- x.swap (y), also assign_temporary
  | store (x i : Nat) (v : α)   -- x [i] = v

/-- Client histories: composes the operations cited in this file; no code of its own in /repo. -/
def setVar (f : Nat → Option β) (x : Nat) (v : Option β) : Nat → Option β := fun y => if y = x then v else f y

/-- The live object named `x` (using a dead object is undefined behaviour). Client histories: composes the operations cited in this file; no code of its own in /repo. -/
def live (s : St α) (x : Nat) : M UArr :=
  match s.var x with
  | some a => .ok a
  | none => .error .ub

/-- One operation.  Move constructor: storage.hpp:110-116; `resize`: 206-212; `operator =`: 244-250;
`assign_temporary` / `swap`: 252-268; the others as cited above. -/
def step (dbg : Bool) (zero : α) (junk : Nat → α) (s : St α) : Op α → M (St α)
  | .ctor x n => do
      let (a, h) ← ctor s.heap junk n
      .ok ⟨h, setVar s.var x (some a)⟩
  | .ctorInit x n v => do
      let (a, h) ← ctorInit s.heap junk n v
      .ok ⟨h, setVar s.var x (some a)⟩
  | .copyCtor x y => do
      let c ← live s y
      let (a, h) ← copyCtor s.heap junk c
      .ok ⟨h, setVar s.var x (some a)⟩
  | .moveCtor x y => do
      let c ← live s y
      .ok ⟨s.heap, setVar (setVar s.var x (some c)) y (some ⟨0, none⟩)⟩
  | .dtor x => do
      let a ← live s x
      let h ← dtor s.heap a
      .ok ⟨h, setVar s.var x none⟩
  | .resize x n => do
      let a ← live s x
      let (a, h) ← resizeInternal s.heap junk a n zero false
      .ok ⟨h, setVar s.var x (some a)⟩
  | .resizeInit x n v => do
      let a ← live s x
      let (a, h) ← resizeInternal s.heap junk a n v true
      .ok ⟨h, setVar s.var x (some a)⟩
  | .assign x y => do
      let a ← live s x
      let c ← live s y
      if x = y then .ok s else
        let (a, h) ← resizeInternal s.heap junk a c.size zero false
        let h ← copyN h c.ptr a.ptr c.size
        .ok ⟨h, setVar s.var x (some a)⟩
  | .swap x y => do
      let a ← live s x
      let c ← live s y
      if x = y then .ok s else
        .ok ⟨s.heap, setVar (setVar s.var x (some c)) y (some a)⟩
  | .store x i v => do
      let a ← live s x
      let h ← store dbg s.heap a i v
      .ok ⟨h, s.var⟩

/-- A history; each operation comes with the arbitrary contents of the memory it may allocate. Client histories: composes the operations cited in this file; no code of its own in /repo. -/
def run (dbg : Bool) (zero : α) : St α → List (Op α × (Nat → α)) → M (St α)
  | s, [] => .ok s
  | s, (op, junk) :: ops => step dbg zero junk s op >>= fun s' => run dbg zero s' ops

/-- The initial program state: no object, nothing allocated. Client histories: composes the operations cited in this file; no code of its own in /repo. -/
def init : St α := ⟨⟨0, fun _ => none⟩, fun _ => none⟩

/-! ## bounded_array -/

/-- `bounded_array<T, N>`: storage.hpp:542-547; `data` has `N` cells. -/
structure BArr (α : Type) where
  size : Nat
  data : List α
  deriving DecidableEq

namespace BArr

/-- Fill loop `std::fill (data_ + from, data_ + to, v)`. C++ standard library, not code of /repo. -/
def fill (data : List α) (from' to' : Nat) (v : α) : M (List α) :=
  loop (fun k d => wr false d (from' + k) v) (to' - from') data

/-- `std::copy (a.data_, a.data_ + n, data_)`. C++ standard library, not code of /repo. -/
def copy (dst src : List α) (n : Nat) : M (List α) :=
  loop (fun k d => do let v ← rd false src k; wr false d k v) n dst

/-- `bounded_array (size)`: storage.hpp:381-385. -/
def ctor (dbg : Bool) (N : Nat) (junk : Nat → α) (n : Nat) : M (BArr α) := do
  check dbg (n ≤ N) .badSize
  .ok ⟨n, (List.range N).map junk⟩

/-- `bounded_array (size, init)`: storage.hpp:387-392. -/
def ctorInit (dbg : Bool) (N : Nat) (junk : Nat → α) (n : Nat) (v : α) : M (BArr α) := do
  check dbg (n ≤ N) .badSize
  let d ← fill ((List.range N).map junk) 0 n v
  .ok ⟨n, d⟩

/-- Copy constructor: storage.hpp:394-398. -/
def copyCtor (N : Nat) (junk : Nat → α) (c : BArr α) : M (BArr α) := do
  let d ← copy ((List.range N).map junk) c.data c.size
  .ok ⟨c.size, d⟩

/-- `resize (size)`: storage.hpp:402-405. -/
def resize (dbg : Bool) (N : Nat) (a : BArr α) (n : Nat) : M (BArr α) := do
  check dbg (n ≤ N) .badSize
  .ok ⟨n, a.data⟩

/-- `resize (size, init)`: storage.hpp:407-412. -/
def resizeInit (dbg : Bool) (N : Nat) (a : BArr α) (n : Nat) (v : α) : M (BArr α) := do
  check dbg (n ≤ N) .badSize
  let d ← (if n > a.size then fill a.data a.size n v else .ok a.data : M (List α))
  .ok ⟨n, d⟩

/-- `operator []`: storage.hpp:432-440. -/
def index (dbg : Bool) (a : BArr α) (i : Nat) : M α := do
  check dbg (i < a.size) .badIndex
  rd false a.data i

/-- `a [i] = v`: storage.hpp:237-240 (unbounded_array), 437-440 (bounded_array). -/
def store (dbg : Bool) (a : BArr α) (i : Nat) (v : α) : M (BArr α) := do
  check dbg (i < a.size) .badIndex
  let d ← wr false a.data i v
  .ok ⟨a.size, d⟩

/-- `operator =` between distinct objects: storage.hpp:444-450. -/
def assign (dbg : Bool) (N : Nat) (a c : BArr α) : M (BArr α) := do
  let a ← resize dbg N a c.size
  let d ← copy a.data c.data c.size
  .ok ⟨a.size, d⟩

/-- `swap` between distinct objects: storage.hpp:459-464; `std::swap_ranges` as an element loop. -/
def swap (a c : BArr α) : M (BArr α × BArr α) := do
  let (d, e) ← loop (fun k (p : List α × List α) => do
      let v ← rd false p.1 k
      let w ← rd false p.2 k
      let p1 ← wr false p.1 k w
      let p2 ← wr false p.2 k v
      .ok (p1, p2)) (max c.size a.size) (a.data, c.data)
  .ok (⟨c.size, d⟩, ⟨a.size, e⟩)

end BArr
end Ublas.Storage
