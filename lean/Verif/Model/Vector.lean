import Verif.Spec.Vector
import Verif.Model.Storage
import Verif.Model.Search
import Verif.Model.Prod
import Verif.Model.Values
/-!
# vector<T, A> and bounded_vector (vector.hpp:53-824, 1604-1678)

The only member is the array `data_`; the operations on it are given by `ArrImpl`, once for `unbounded_array` (a list of elements; its heap is Model/Storage, C16) and
once for `bounded_array` (Model/Storage).  Simplifications: the type checks of debug builds (BOOST_UBLAS_TYPE_CHECK, C96) are left out; a container operand is the list
of its elements (what assignment does with sparse operands is C44, with expressions C42); C++ moves do not happen.
-/
namespace Ublas
open Search Storage

/-- The member functions of the storage array that vector calls; `J` is the arbitrary contents of fresh memory. Machinery of the model: no code of its own in /repo. -/
structure ArrImpl (ρ α : Type) where
  make : Bool → (Nat → α) → Nat → M ρ
  makeInit : Bool → (Nat → α) → Nat → α → M ρ
  size : ρ → Nat
  /-- `operator []` -/
  index : Bool → ρ → Nat → M α
  store : Bool → ρ → Nat → α → M ρ
  /-- through a pointer into the array -/
  deref : ρ → Nat → M α
  put : ρ → Nat → α → M ρ
  resize : Bool → (Nat → α) → ρ → Nat → M ρ
  resizeInit : Bool → (Nat → α) → ρ → Nat → α → M ρ
  copy : (Nat → α) → ρ → M ρ
  assign : Bool → (Nat → α) → ρ → ρ → M ρ
  swap : ρ → ρ → M (ρ × ρ)

variable {α ρ : Type}

/-- `unbounded_array`: storage.hpp:66-107 (constructors), 143-205 (`resize_internal`: fresh memory unless the size stays; preserving: copy the common part, then fill), 232-241
(`operator []`), 243-249 (`operator =`), 258-263 (`swap`). -/
def unboundedImpl (α : Type) : ArrImpl (List α) α where
  make _ junk n := .ok ((List.range n).map junk)
  makeInit _ junk n v := BArr.fill ((List.range n).map junk) 0 n v
  size l := l.length
  index dbg l i := rd dbg l i
  store dbg l i v := wr dbg l i v
  deref l i := rd false l i
  put l i v := wr false l i v
  resize _ junk l n := .ok (resizeRaw junk l n)
  resizeInit _ junk l n v :=
    if n ≠ l.length then
      if n < l.length then BArr.copy ((List.range n).map junk) l n
      else do
        let d ← BArr.copy ((List.range n).map junk) l l.length
        BArr.fill d l.length n v
    else .ok l
  copy junk l := Values.arrCopy junk l
  assign _ junk d l := Values.arrAssign junk d l
  swap a b := .ok (b, a)

/-- `bounded_array<T, N>`: storage.hpp:381-464; the buffer is part of the object, so fresh memory appears at construction only. -/
def boundedImpl (α : Type) (N : Nat) : ArrImpl (BArr α) α where
  make dbg junk n := BArr.ctor dbg N junk n
  makeInit dbg junk n v := BArr.ctorInit dbg N junk n v
  size a := a.size
  index dbg a i := a.index dbg i
  store dbg a i v := a.store dbg i v
  deref a i := rd false a.data i
  put a i v := do
    let d ← wr false a.data i v
    .ok ⟨a.size, d⟩
  resize dbg _ a n := a.resize dbg N n
  resizeInit dbg _ a n v := a.resizeInit dbg N n v
  copy junk a := BArr.copyCtor N junk a
  assign dbg _ a c := a.assign dbg N c
  swap a c := a.swap c

namespace DVec
open ProdFn

/-- The constructors: vector.hpp:84-87 (`vector ()` at 76-78 is the same with size 0; `bounded_vector ()`: 1614-1615), 111-113. -/
def ctor (A : ArrImpl ρ α) (dbg : Bool) (junk : Nat → α) : VecCtor α → M ρ
  | .sized n => A.make dbg junk n
  | .filled n t => A.makeInit dbg junk n t

/-- `operator () (i) const`, `operator [] const`, `*find_element (i)`: vector.hpp:210-212, 222-224, 237-239. -/
def get (A : ArrImpl ρ α) (dbg : Bool) (v : ρ) (i : Nat) : M α := A.index dbg v i

/-- `operator () (i) = t`, `operator [] (i) = t`, `*find_element (i) = t`, `insert_element`: vector.hpp:202-204, 230-232, 244-246, 257-259. -/
def set (A : ArrImpl ρ α) (dbg : Bool) (v : ρ) (i : Nat) (t : α) : M ρ := A.store dbg v i t

/-- `v (i) op= …`: vector.hpp:230-232 (the reference is read, then written). -/
def modify (A : ArrImpl ρ α) (dbg : Bool) (v : ρ) (i : Nat) (f : α → α) : M ρ := do
  let x ← A.index dbg v i
  A.store dbg v i (f x)

/-- `clear ()`: vector.hpp:274-276; `std::fill` through pointers. -/
def clear (A : ArrImpl ρ α) (zero : α) (v : ρ) : M ρ := loop (fun k v => A.put v k zero) (A.size v) v

/-- `resize (size, preserve)`: vector.hpp:187-192. -/
def resize (A : ArrImpl ρ α) (dbg : Bool) (junk : Nat → α) (zero : α) (v : ρ) (n : Nat) (preserve : Bool) : M ρ :=
  if preserve then A.resizeInit dbg junk v n zero else A.resize dbg junk v n

/-- `*it` for an iterator at position `k`: vector.hpp:588-591, 716-719. -/
def deref (A : ArrImpl ρ α) (dbg : Bool) (v : ρ) (k : Nat) : M α := do
  check dbg (k < A.size v) .badIndex
  A.deref v k

/-- `*it = t`: vector.hpp:716-719. -/
def derefPut (A : ArrImpl ρ α) (dbg : Bool) (v : ρ) (k : Nat) (t : α) : M ρ := do
  check dbg (k < A.size v) .badIndex
  A.put v k t

/-- `indexing_vector_assign_scalar` / `indexing_vector_assign`: detail/vector_assign.hpp:120-131, 259-271: `apply (v (i), …)`; `g i x` is the new value of element `i`. -/
def eachIndexed (A : ArrImpl ρ α) (dbg : Bool) (n : Nat) (g : ρ → Nat → α → M α) (v : ρ) : M ρ :=
  loop (fun i v => do
    let x ← A.index dbg v i
    let y ← g v i x
    A.store dbg v i y) n v

/-- `iterating_vector_assign_scalar` / `iterating_vector_assign`: detail/vector_assign.hpp:104-118, 241-257: `apply (*it, …), ++ it`. -/
def eachIterated (A : ArrImpl ρ α) (dbg : Bool) (n : Nat) (g : ρ → Nat → α → M α) (v : ρ) : M ρ := do
  check dbg (A.size v = n) .badSize
  loop (fun i v => do
    let x ← deref A dbg v i
    let y ← g v i x
    derefPut A dbg v i y) n v

/-- The dense dispatch; `g true` computes from an operand that is iterated, `g false` from one that is indexed: detail/vector_assign.hpp:136-149, 275-289. -/
def each (A : ArrImpl ρ α) (dbg : Bool) (mode : Mode) (n : Nat) (g : Bool → ρ → Nat → α → M α) (v : ρ) : M ρ :=
  match mode with
  | .indexing => eachIndexed A dbg n (g false) v
  | .iterating => eachIterated A dbg n (g true) v
  | .threshold b => if b ≤ n then eachIterated A dbg n (g true) v else eachIndexed A dbg n (g false) v

/-- `v = w` for another container: `resize (w.size (), false); assign (w)`: vector.hpp:307-311, 341-344 (the old value is read here, though `scalar_assign` ignores it). -/
def load (A : ArrImpl ρ α) (dbg : Bool) (mode : Mode) (junk : Nat → α) (v : ρ) (w : List α) : M ρ := do
  let v ← A.resize dbg junk v w.length
  let n ← same dbg (A.size v) w.length
  each A dbg mode n (fun it _ i _ => rd (dbg && !it) w i) v

/-- `v += w`, `v -= w`, `plus_assign`, `minus_assign` for another container: vector.hpp:371-374, 384-387, 409-412, 422-425. -/
def zip (A : ArrImpl ρ α) (dbg : Bool) (mode : Mode) (v : ρ) (f : α → α → α) (w : List α) : M ρ := do
  let n ← same dbg (A.size v) w.length
  each A dbg mode n (fun it _ i x => do
    let y ← rd (dbg && !it) w i
    .ok (f x y)) v

/-- The same with `w` the vector itself: no temporary, the operand is read while the target is being written. vector.hpp:371-374, 409-412. -/
def zipSelf (A : ArrImpl ρ α) (dbg : Bool) (mode : Mode) (v : ρ) (f : α → α → α) : M ρ := do
  let n ← same dbg (A.size v) (A.size v)
  each A dbg mode n (fun it w i x => do
    let y ← if it then deref A dbg w i else A.index dbg w i
    .ok (f x y)) v

/-- `v *= t`, `v /= t`: vector.hpp:434-438, 447-451. -/
def scale (A : ArrImpl ρ α) (dbg : Bool) (mode : Mode) (v : ρ) (f : α → α) : M ρ :=
  each A dbg mode (A.size v) (fun _ _ _ x => .ok (f x)) v

/-- One operation. Client histories: composes the operations cited in this file; no code of its own in /repo. -/
def step (A : ArrImpl ρ α) (dbg : Bool) (mode : Mode) (zero : α) (junk : Nat → α) (v : ρ) : VecOp α → M ρ
  | .set i t => set A dbg v i t
  | .modify i f => modify A dbg v i f
  | .put i t => derefPut A dbg v i t        -- vector.hpp:762-764 (`begin`), 700-703 (`+=`)
  | .erase i => A.store dbg v i zero        -- vector.hpp:264-266
  | .clear => clear A zero v
  | .resize n p => resize A dbg junk zero v n p
  | .scale f => scale A dbg mode v f
  | .load w => load A dbg mode junk v w
  | .zip f w => zip A dbg mode v f w
  | .zipSelf f => zipSelf A dbg mode v f

/-- Copying, `operator =` (const vector &), `swap`: vector.hpp:118-120, 295-298, 460-464 (with BOOST_UBLAS_MOVE_SEMANTICS, 286-289, assignment is a copy and a swap). -/
def ops (A : ArrImpl ρ α) (dbg : Bool) (mode : Mode) (zero : α) : Values.Ops ρ (VecOp α) (Nat → α) where
  step junk v o := step A dbg mode zero junk v o
  copy junk v := do
    let w ← A.copy junk v
    .ok (v, w)
  assign junk v w := A.assign dbg junk v w
  selfAssign v := .ok v
  swap a b := A.swap a b
  selfSwap v := .ok v

/-- `for (it = begin (); it != end (); ++ it)` reading `*it`: vector.hpp:496-498, 646-648, 658-660 (`begin`, `end`, `find`), 548-551 (`++`), 588-591. -/
def traverse (A : ArrImpl ρ α) (dbg : Bool) (v : ρ) : M (List α) :=
  loop (fun k acc => do
    let x ← deref A dbg v k
    .ok (acc ++ [x])) (A.size v) []

/-- `for (it = rbegin (); it != rend (); ++ it)` reading `*it`, that is `*-- tmp`: vector.hpp:778-780, 790-792; detail/iterator.hpp:322-343 (`std::reverse_iterator`). -/
def traverseBack (A : ArrImpl ρ α) (dbg : Bool) (v : ρ) : M (List α) :=
  loop (fun k acc => do
    let x ← deref A dbg v (A.size v - 1 - k)
    .ok (acc ++ [x])) (A.size v) []

/-- `empty ()`: vector.hpp:148-150. -/
def isEmpty (A : ArrImpl ρ α) (v : ρ) : Bool := A.size v == 0

end DVec
end Ublas
