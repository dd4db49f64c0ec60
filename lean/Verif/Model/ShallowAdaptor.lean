import Verif.Model.Storage
/-!
# shallow_array_adaptor: storage.hpp:779-1007 (with BOOST_UBLAS_SHALLOW_ARRAY_ADAPTOR)

A storage array whose copies share their elements through a `boost::shared_array`.  The reference counts are modelled: a control block holds the
number of `shared_array` objects that refer to it, the array, and whether the deleter releases the array (`delete []`) or does nothing (`leaker`,
storage.hpp:789-796).  Modelled on the heap of Model/Storage, which also holds the program's arrays.  Simplifications: `new` never throws; a pointer
handed to the adaptor is the start of an array of the program; iterators are pointers into the same array (940-999) and are not modelled separately;
the constructor and `resize` from `T (&data) [N]` (824-827, 880-889) are those from `(N, data)`; `std::copy` of an array onto itself changes nothing.
-/
namespace Ublas.Shallow
open Storage
variable {α : Type}

/-- The control block of a `shared_array`: use count, whether the deleter is `delete []`, and the array. boost::shared_array (Boost.SmartPtr), not code of /repo; used at storage.hpp:843-1004. -/
structure Ctl where
  count : Nat
  deletes : Bool
  ptr : Nat
  deriving DecidableEq

/-- A `boost::shared_array` object: the array and the control block. boost::shared_array (Boost.SmartPtr), not code of /repo; used at storage.hpp:843-1004. -/
structure Shared where
  ptr : Nat
  ctl : Nat
  deriving DecidableEq

/-- `size_`, `own_`, `data_`: storage.hpp:1002-1004. -/
structure SArr where
  size : Nat
  own : Bool
  data : Shared
  deriving DecidableEq

/-- Arrays and control blocks. Memory of the model; no code of its own in /repo. -/
structure Mem (α : Type) where
  heap : Heap α
  nextCtl : Nat
  ctl : Nat → Option Ctl

/-- Memory of the model; no code of its own in /repo. -/
def Mem.setCtl (m : Mem α) (c : Nat) (t : Option Ctl) : Mem α := { m with ctl := fun d => if d = c then t else m.ctl d }

/-- `shared_array (p)` / `shared_array (p, leaker)`: a control block with count 1. boost::shared_array (Boost.SmartPtr), not code of /repo; used at storage.hpp:843-1004. -/
def control (m : Mem α) (p : Nat) (deletes : Bool) : Shared × Mem α :=
  (⟨p, m.nextCtl⟩, { m with nextCtl := m.nextCtl + 1, ctl := fun d => if d = m.nextCtl then some ⟨1, deletes, p⟩ else m.ctl d })

/-- `shared_array (new value_type [n])`: storage.hpp:810, 814, 818, 843. -/
def newArray (m : Mem α) (junk : Nat → α) (n : Nat) : Shared × Mem α :=
  let (p, h) := m.heap.alloc junk n
  control { m with heap := h } p true

/-- The copy constructor of `shared_array`: one more reference. boost::shared_array (Boost.SmartPtr), not code of /repo; used at storage.hpp:843-1004. -/
def retain (m : Mem α) (s : Shared) : M (Mem α) :=
  match m.ctl s.ctl with
  | some t => .ok (m.setCtl s.ctl (some { t with count := t.count + 1 }))
  | none => .error .ub

/-- The destructor of `shared_array`: one reference less; the last one runs the deleter (`delete []` of an array that is not there is undefined). boost::shared_array (Boost.SmartPtr), not code of /repo; used at storage.hpp:843-1004. -/
def drop (m : Mem α) (s : Shared) : M (Mem α) :=
  match m.ctl s.ctl with
  | some t =>
      if t.count = 1 then
        if t.deletes then
          match m.heap.blk t.ptr with
          | some _ => .ok { m.setCtl s.ctl none with heap := { m.heap with blk := fun q => if q = t.ptr then none else m.heap.blk q } }
          | none => .error .ub
        else .ok (m.setCtl s.ctl none)
      else .ok (m.setCtl s.ctl (some { t with count := t.count - 1 }))
  | none => .error .ub

/-- `data_ = d` (`shared_array (d).swap (*this)`). boost::shared_array (Boost.SmartPtr), not code of /repo; used at storage.hpp:843-1004. -/
def assignShared (m : Mem α) (old d : Shared) : M (Mem α) := do
  let m ← retain m d
  drop m old

/-- `shallow_array_adaptor (size)`: storage.hpp:812-815 (and 809-811 with size 0). -/
def ctor (m : Mem α) (junk : Nat → α) (n : Nat) : M (SArr × Mem α) :=
  let (d, m) := newArray m junk n
  .ok (⟨n, true, d⟩, m)

/-- `shallow_array_adaptor (size, init)`: storage.hpp:817-820. -/
def ctorInit (m : Mem α) (junk : Nat → α) (n : Nat) (v : α) : M (SArr × Mem α) := do
  let (d, m) := newArray m junk n
  let h ← fillFrom m.heap (some d.ptr) 0 n v
  .ok (⟨n, true, d⟩, { m with heap := h })

/-- `shallow_array_adaptor (size, data)`: storage.hpp:822-823. -/
def adopt (m : Mem α) (n b : Nat) : M (SArr × Mem α) :=
  let (d, m) := control m b false
  .ok (⟨n, false, d⟩, m)

/-- Copy constructor: storage.hpp:830-832. -/
def copyCtor (m : Mem α) (c : SArr) : M (SArr × Mem α) := do
  let m ← retain m c.data
  .ok (⟨c.size, c.own, c.data⟩, m)

/-- `if (preserve) { std::copy (...); std::fill (...); }` into array `d`: storage.hpp:844-847, 855-858. -/
def preserveTo (m : Mem α) (a : SArr) (d n : Nat) (init : α) (preserve : Bool) : M (Mem α) :=
  if preserve then do
    let h ← copyN m.heap (some a.data.ptr) (some d) (min n a.size)
    let h ← fillFrom h (some d) (min n a.size) n init
    .ok { m with heap := h }
  else .ok m

/-- `resize_internal (size, init, preserve)`: storage.hpp:841-852; the local `data` is destroyed at the end of the block. -/
def resizeInternal (m : Mem α) (junk : Nat → α) (a : SArr) (n : Nat) (init : α) (preserve : Bool) : M (SArr × Mem α) :=
  if n ≠ a.size then do
    let (d, m) := newArray m junk n
    let m ← preserveTo m a d.ptr n init preserve
    let m ← assignShared m a.data d
    let m ← drop m d
    .ok (⟨n, true, d⟩, m)
  else .ok (a, m)

/-- `resize_internal (size, data, init, preserve)`: storage.hpp:854-862; `data_.reset (data, leaker)` is `shared_array (data, leaker).swap (data_)`. -/
def resizeAt (m : Mem α) (a : SArr) (n b : Nat) (init : α) (preserve : Bool) : M (SArr × Mem α) := do
  let m ← preserveTo m a b n init preserve
  let (d, m) := control m b false
  let m ← drop m a.data
  .ok (⟨n, false, d⟩, m)

/-- The body of `operator =` for different objects: storage.hpp:912-913. -/
def assign (m : Mem α) (junk : Nat → α) (zero : α) (a c : SArr) : M (SArr × Mem α) := do
  let (a, m) ← resizeInternal m junk a c.size zero false
  let h ← copyN m.heap (some c.data.ptr) (some a.data.ptr) c.size
  .ok (a, { m with heap := h })

/-- `x [i]`: storage.hpp:898-901. -/
def index (dbg : Bool) (m : Mem α) (a : SArr) (i : Nat) : M α := do
  check dbg (i < a.size) .badIndex
  m.heap.read a.data.ptr i
/-- `x [i] = v`: storage.hpp:903-906. -/
def store (dbg : Bool) (m : Mem α) (a : SArr) (i : Nat) (v : α) : M (Mem α) := do
  check dbg (i < a.size) .badIndex
  let h ← m.heap.write a.data.ptr i v
  .ok { m with heap := h }

/-- Named objects, arrays and control blocks. Client histories: composes the operations cited in this file; no code of its own in /repo. -/
structure St (α : Type) where
  mem : Mem α
  var : Nat → Option SArr

/-- Operations on the named objects, and writes of the program to its own arrays. Client histories: composes the operations cited in this file; no code of its own in /repo. -/
inductive Op (α : Type)
  | ctor (x n : Nat)                    -- shallow_array_adaptor x (n)
  | ctorInit (x n : Nat) (v : α)        -- shallow_array_adaptor x (n, v)
  | adopt (x n b : Nat)                 -- shallow_array_adaptor x (n, b)
  | copyCtor (x y : Nat)                -- shallow_array_adaptor x (y)
  | dtor (x : Nat)                      -- x.~shallow_array_adaptor ()
  | resize (x n : Nat)                  -- x.resize (n)
  | resizeInit (x n : Nat) (v : α)      -- x.resize (n, v)
  | attach (x n b : Nat)                -- x.resize (n, b)
  | attachInit (x n b : Nat) (v : α)    -- x.resize (n, b, v)
  | assign (x y : Nat)                  -- x = y
  | assignTemporary (x y : Nat)         -- x.assign_temporary (y)
  | swap (x y : Nat)                    -- x.swap (y)
  | store (x i : Nat) (v : α)           -- x [i] = v
  | poke (b i : Nat) (v : α)            -- b [i] = v

/-- The live object named `x`. Client histories: composes the operations cited in this file; no code of its own in /repo. -/
def live (s : St α) (x : Nat) : M SArr :=
  match s.var x with
  | some a => .ok a
  | none => .error .ub

/-- `x.swap (y)`: storage.hpp:928-934. -/
def swapVars (s : St α) (x y : Nat) (a c : SArr) : M (St α) :=
  if x = y then .ok s else .ok ⟨s.mem, setVar (setVar s.var x (some c)) y (some a)⟩

/-- `x = y`: storage.hpp:910-916. -/
def assignVars (zero : α) (junk : Nat → α) (s : St α) (x y : Nat) (a c : SArr) : M (St α) :=
  if x = y then .ok s else do
    let (a, m) ← assign s.mem junk zero a c
    .ok ⟨m, setVar s.var x (some a)⟩

/-- One operation.  `resize`: storage.hpp:865-879; destructor: 835-836 (destroys `data_`); `assign_temporary`: 918-924; the others as cited above.  `zero`
is `value_type ()`. -/
def step (dbg : Bool) (zero : α) (junk : Nat → α) (s : St α) : Op α → M (St α)
  | .ctor x n => do
      let (a, m) ← ctor s.mem junk n
      .ok ⟨m, setVar s.var x (some a)⟩
  | .ctorInit x n v => do
      let (a, m) ← ctorInit s.mem junk n v
      .ok ⟨m, setVar s.var x (some a)⟩
  | .adopt x n b => do
      let (a, m) ← adopt s.mem n b
      .ok ⟨m, setVar s.var x (some a)⟩
  | .copyCtor x y => do
      let c ← live s y
      let (a, m) ← copyCtor s.mem c
      .ok ⟨m, setVar s.var x (some a)⟩
  | .dtor x => do
      let a ← live s x
      let m ← drop s.mem a.data
      .ok ⟨m, setVar s.var x none⟩
  | .resize x n => do
      let a ← live s x
      let (a, m) ← resizeInternal s.mem junk a n zero false
      .ok ⟨m, setVar s.var x (some a)⟩
  | .resizeInit x n v => do
      let a ← live s x
      let (a, m) ← resizeInternal s.mem junk a n v true
      .ok ⟨m, setVar s.var x (some a)⟩
  | .attach x n b => do
      let a ← live s x
      let (a, m) ← resizeAt s.mem a n b zero false
      .ok ⟨m, setVar s.var x (some a)⟩
  | .attachInit x n b v => do
      let a ← live s x
      let (a, m) ← resizeAt s.mem a n b v true
      .ok ⟨m, setVar s.var x (some a)⟩
  | .assign x y => do
      let a ← live s x
      let c ← live s y
      assignVars zero junk s x y a c
  | .assignTemporary x y => do
      let a ← live s x
      let c ← live s y
      if a.own && c.own then swapVars s x y a c else assignVars zero junk s x y a c
  | .swap x y => do
      let a ← live s x
      let c ← live s y
      swapVars s x y a c
  | .store x i v => do
      let a ← live s x
      let m ← store dbg s.mem a i v
      .ok ⟨m, s.var⟩
  | .poke b i v => do
      let h ← s.mem.heap.write b i v
      .ok ⟨{ s.mem with heap := h }, s.var⟩

/-- A history; each operation comes with the arbitrary contents of the memory it may allocate. Client histories: composes the operations cited in this file; no code of its own in /repo. -/
def run (dbg : Bool) (zero : α) : St α → List (Op α × (Nat → α)) → M (St α)
  | s, [] => .ok s
  | s, (op, junk) :: ops => step dbg zero junk s op >>= fun s' => run dbg zero s' ops

end Ublas.Shallow
