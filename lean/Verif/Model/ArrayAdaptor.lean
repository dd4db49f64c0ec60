import Verif.Model.Storage
/-!
# array_adaptor: storage.hpp:552-777

A storage array that either owns a block of `new value_type [n]` or refers to an array of the program.  Modelled on the explicit heap of Model/Storage, which here also holds the program's
arrays.  Simplifications: `new` never throws; a pointer handed to the adaptor is the start of an array of the program; iterators are pointers into the same block (712-771) and are not
modelled separately; the constructors and `resize` from `T (&data) [N]` (585-587, 653-661) are those from `(N, data)`.
-/
namespace Ublas.Adaptor
open Storage
variable {α : Type}

/-- `size_`, `own_`, `data_`: storage.hpp:774-776. -/
structure AArr where
  size : Nat
  own : Bool
  ptr : Nat
  deriving DecidableEq

/-- `delete [] data_`: undefined unless there is a live block. storage.hpp:596-598, 611-612, 625-626; `delete []` itself is the C++ runtime's. -/
def delete (h : Heap α) (p : Nat) : M (Heap α) :=
  match h.blk p with
  | some _ => .ok { h with blk := fun q => if q = p then none else h.blk q }
  | none => .error .ub

/-- `if (own_) delete [] data_;`: storage.hpp:596-598, 611-612, 625-626. -/
def release (h : Heap α) (a : AArr) : M (Heap α) := if a.own then delete h a.ptr else .ok h

/-- `array_adaptor (size)`: storage.hpp:569-575. -/
def ctor (h : Heap α) (junk : Nat → α) (n : Nat) : M (AArr × Heap α) :=
  let (p, h) := h.alloc junk n
  .ok (⟨n, true, p⟩, h)

/-- `array_adaptor (size, init)`: storage.hpp:577-580. -/
def ctorInit (h : Heap α) (junk : Nat → α) (n : Nat) (v : α) : M (AArr × Heap α) := do
  let (p, h) := h.alloc junk n
  let h ← fillFrom h (some p) 0 n v
  .ok (⟨n, true, p⟩, h)

/-- `resize_internal (size, init, preserve)`: storage.hpp:604-617. -/
def resizeInternal (h : Heap α) (junk : Nat → α) (a : AArr) (n : Nat) (init : α) (preserve : Bool) : M (AArr × Heap α) :=
  if n ≠ a.size then do
    let (d, h) := h.alloc junk n
    let h ← (if preserve then do
        let h ← copyN h (some a.ptr) (some d) (min n a.size)
        fillFrom h (some d) (min n a.size) n init
      else .ok h : M (Heap α))
    let h ← release h a
    .ok (⟨n, true, d⟩, h)
  else .ok (a, h)

/-- `resize_internal (size, data, init, preserve)`: storage.hpp:619-634. -/
def resizeAt (h : Heap α) (a : AArr) (n d : Nat) (init : α) (preserve : Bool) : M (AArr × Heap α) :=
  if d ≠ a.ptr then do
    let h ← (if preserve then do
        let h ← copyN h (some a.ptr) (some d) (min n a.size)
        fillFrom h (some d) (min n a.size) n init
      else .ok h : M (Heap α))
    let h ← release h a
    .ok (⟨n, false, d⟩, h)
  else do
    let h ← fillFrom h (some d) (min n a.size) n init
    .ok (⟨n, a.own, a.ptr⟩, h)

/-- The body of `operator =` for different objects: storage.hpp:684-685. -/
def assign (h : Heap α) (junk : Nat → α) (zero : α) (a c : AArr) : M (AArr × Heap α) := do
  let (a, h) ← resizeInternal h junk a c.size zero false
  let h ← copyN h (some c.ptr) (some a.ptr) c.size
  .ok (a, h)

/-- Copy constructor: storage.hpp:589-593. -/
def copyCtor (h : Heap α) (junk : Nat → α) (zero : α) (c : AArr) : M (AArr × Heap α) := do
  let (p, h) := h.alloc junk c.size
  assign h junk zero ⟨c.size, true, p⟩ c

/-- `operator []`: storage.hpp:669-678. -/
def index (dbg : Bool) (h : Heap α) (a : AArr) (i : Nat) : M α := do
  check dbg (i < a.size) .badIndex
  h.read a.ptr i
/-- `a [k] = x`: storage.hpp:675-678, through the pointer `data_`. -/
def store (dbg : Bool) (h : Heap α) (a : AArr) (i : Nat) (v : α) : M (Heap α) := do
  check dbg (i < a.size) .badIndex
  h.write a.ptr i v

/-- Named objects and the heap. Client histories: composes the operations cited in this file; no code of its own in /repo. -/
structure St (α : Type) where
  heap : Heap α
  var : Nat → Option AArr

/-- Operations on the named objects, and writes of the program to its own arrays. Client histories: composes the operations cited in this file; no code of its own in /repo. -/
inductive Op (α : Type)
  | ctor (x n : Nat)                    -- array_adaptor x (n)
  | ctorInit (x n : Nat) (v : α)        -- array_adaptor x (n, v)
  | adopt (x n b : Nat)                 -- array_adaptor x (n, b)
  | copyCtor (x y : Nat)                -- array_adaptor x (y)
  | dtor (x : Nat)                      -- x.~array_adaptor ()
  | resize (x n : Nat)                  -- x.resize (n)
  | resizeInit (x n : Nat) (v : α)      -- x.resize (n, v)
  | attach (x n b : Nat)                -- x.resize (n, b)
  | attachInit (x n b : Nat) (v : α)    -- x.resize (n, b, v)
  | assign (x y : Nat)                  -- x = y
  | assignTemporary (x y : Nat)         -- x.assign_temporary (y)
  | swap (x y : Nat)                    -- x.swap (y)
  | store (x i : Nat) (v : α)           -- x [i] = v
  | poke (b i : Nat) (v : α)            -- b [i] = v

/-- The live object named `x`. Client histories: composes the operations cited in this file; no code of its own in /repo. -/
def live (s : St α) (x : Nat) : M AArr :=
  match s.var x with
  | some a => .ok a
  | none => .error .ub

/-- `x.swap (y)`: storage.hpp:700-706. -/
def swapVars (s : St α) (x y : Nat) (a c : AArr) : M (St α) :=
  if x = y then .ok s else .ok ⟨s.heap, setVar (setVar s.var x (some c)) y (some a)⟩

/-- `x = y`: storage.hpp:682-688. -/
def assignVars (zero : α) (junk : Nat → α) (s : St α) (x y : Nat) (a c : AArr) : M (St α) :=
  if x = y then .ok s else do
    let (a, h) ← assign s.heap junk zero a c
    .ok ⟨h, setVar s.var x (some a)⟩

/-- One operation.  Construction: storage.hpp:569-599; `resize`: 637-651; `assign_temporary`: 690-696; the others as cited above.  `zero` is `value_type ()`. -/
def step (dbg : Bool) (zero : α) (junk : Nat → α) (s : St α) : Op α → M (St α)
  | .ctor x n => do
      let (a, h) ← ctor s.heap junk n
      .ok ⟨h, setVar s.var x (some a)⟩
  | .ctorInit x n v => do
      let (a, h) ← ctorInit s.heap junk n v
      .ok ⟨h, setVar s.var x (some a)⟩
  | .adopt x n b => .ok ⟨s.heap, setVar s.var x (some ⟨n, false, b⟩)⟩
  | .copyCtor x y => do
      let c ← live s y
      let (a, h) ← copyCtor s.heap junk zero c
      .ok ⟨h, setVar s.var x (some a)⟩
  | .dtor x => do
      let a ← live s x
      let h ← release s.heap a
      .ok ⟨h, setVar s.var x none⟩
  | .resize x n => do
      let a ← live s x
      let (a, h) ← resizeInternal s.heap junk a n zero false
      .ok ⟨h, setVar s.var x (some a)⟩
  | .resizeInit x n v => do
      let a ← live s x
      let (a, h) ← resizeInternal s.heap junk a n v true
      .ok ⟨h, setVar s.var x (some a)⟩
  | .attach x n b => do
      let a ← live s x
      let (a, h) ← resizeAt s.heap a n b zero false
      .ok ⟨h, setVar s.var x (some a)⟩
  | .attachInit x n b v => do
      let a ← live s x
      let (a, h) ← resizeAt s.heap a n b v true
      .ok ⟨h, setVar s.var x (some a)⟩
  | .assign x y => do
      let a ← live s x
      let c ← live s y
      assignVars zero junk s x y a c
  | .assignTemporary x y => do
      let a ← live s x
      let c ← live s y
      if a.own && c.own then swapVars s x y a c else assignVars zero junk s x y a c
  | .swap x y => do
      let a ← live s x
      let c ← live s y
      swapVars s x y a c
  | .store x i v => do
      let a ← live s x
      let h ← store dbg s.heap a i v
      .ok ⟨h, s.var⟩
  | .poke b i v => do
      let h ← s.heap.write b i v
      .ok ⟨h, s.var⟩

/-- A history; each operation comes with the arbitrary contents of the memory it may allocate. Client histories: composes the operations cited in this file; no code of its own in /repo. -/
def run (dbg : Bool) (zero : α) : St α → List (Op α × (Nat → α)) → M (St α)
  | s, [] => .ok s
  | s, (op, junk) :: ops => step dbg zero junk s op >>= fun s' => run dbg zero s' ops

end Ublas.Adaptor
