import Verif.Model.Dense
/-!
# range, slice, indirect_array (storage.hpp:1012-1749) and the vector and matrix proxies built on them
(vector_proxy.hpp, matrix_proxy.hpp)

`size_type` values are naturals below 2^64; arithmetic that the code does in `size_type` is reduced modulo 2^64 by
`u64`.  `difference_type` strides are integers and their products are assumed not to overflow (signed overflow is
undefined behaviour in C++).
-/
namespace Ublas

/-- Conversion of an integer to the 64-bit `size_type`. C++ integer conversion. -/
def u64 (x : Int) : Nat := (x % 2 ^ 64).toNat

/-- `basic_range`: start_, size_ (storage.hpp:1229-1230). -/
structure Range where
  start : Nat
  size : Nat
  deriving DecidableEq, Repr

namespace Range
/-- `basic_range (start, stop)`: storage.hpp:1028-1031. -/
def make (dbg : Bool) (start stop : Nat) : M Range := do
  check dbg (start ≤ stop) .badIndex
  return ⟨start, u64 (stop - start)⟩
/-- `operator () (i)`: storage.hpp:1055-1058. -/
def at_ (dbg : Bool) (r : Range) (i : Nat) : M Nat := do
  check dbg (i < r.size) .badIndex
  return u64 (r.start + i)
/-- `compose`: storage.hpp:1062-1064. -/
def compose (dbg : Bool) (r s : Range) : M Range :=
  make dbg (r.start + s.start) (r.start + s.start + s.size)
end Range

/-- `basic_slice`: start_, stride_, size_ (storage.hpp:1464-1466). -/
structure Slice where
  start : Nat
  stride : Int
  size : Nat
  deriving DecidableEq, Repr

namespace Slice
/-- `operator () (i)`: storage.hpp:1285-1289. -/
def at_ (dbg : Bool) (s : Slice) (i : Nat) : M Nat := do
  check dbg (i < s.size) .badIndex
  check dbg (s.stride ≥ 0 ∨ s.start ≥ u64 (i * -s.stride)) .badIndex
  return u64 (s.start + i * s.stride)
/-- `compose (const basic_range &)`: storage.hpp:1293-1296. -/
def composeRange (dbg : Bool) (s : Slice) (r : Range) : M Slice := do
  check dbg (s.stride ≥ 0 ∨ s.start ≥ u64 (-s.stride * r.start)) .badIndex
  return ⟨u64 (s.start + s.stride * r.start), s.stride, r.size⟩
/-- `compose (const basic_slice &)`: storage.hpp:1298-1301. -/
def compose (dbg : Bool) (s t : Slice) : M Slice := do
  check dbg (s.stride ≥ 0 ∨ s.start ≥ u64 (-s.stride * t.start)) .badIndex
  return ⟨u64 (s.start + s.stride * t.start), s.stride * t.stride, t.size⟩
/-- Dereferencing the iterator at position `it`: storage.hpp:1371-1374. -/
def iterDeref (dbg : Bool) (s : Slice) (it : Nat) : M Nat := do
  check dbg (it < s.size) .badIndex
  return u64 (s.start + it * s.stride)
end Slice

/-- `indirect_array` with size_ equal to the size of data_ (storage.hpp:1494-1503, 1743-1744). -/
abbrev Indirect := List Nat

namespace Indirect
/-- `operator () (i)`: storage.hpp:1531-1534. -/
def at_ (dbg : Bool) (ia : Indirect) (i : Nat) : M Nat := do
  check dbg (i < ia.length) .badIndex
  rd dbg ia i
/-- Reading the selected cells in order: the loops at storage.hpp:1555-1556, 1563-1564, 1570-1573 (each iteration
first evaluates `pre k`). -/
def gather (dbg : Bool) (ia : Indirect) (pre : Nat → M Unit) (idx : Nat → Nat) : Nat → M (List Nat)
  | 0 => .ok []
  | n + 1 => do
      let l ← gather dbg ia pre idx n
      pre (idx n)
      let v ← rd dbg ia (idx n)
      return l ++ [v]
/-- `compose (range)`: storage.hpp:1552-1558. -/
def composeRange (dbg : Bool) (ia : Indirect) (r : Range) : M Indirect := do
  check dbg (r.start + r.size ≤ ia.length) .badSize
  gather dbg ia (fun _ => .ok ()) (fun i => r.start + i) r.size
/-- `compose (slice)`: storage.hpp:1560-1566.  The check compares the last index with `<=` in `size_type`. -/
def composeSlice (dbg : Bool) (ia : Indirect) (s : Slice) : M Indirect := do
  check dbg (u64 (s.start + s.stride * (s.size - (if s.size > 0 then 1 else 0))) ≤ ia.length) .badSize
  gather dbg ia (fun _ => .ok ()) (fun i => u64 (s.start + s.stride * i)) s.size
/-- `compose (indirect_array)`: storage.hpp:1568-1575 (the check is inside the loop, with `<=`). -/
def compose (dbg : Bool) (ia ib : Indirect) : M Indirect :=
  gather dbg ia (fun k => check dbg (k ≤ ia.length) .badSize) (fun i => ib.getD i 0) ib.length
end Indirect

/-- Any of the three selectors. storage.hpp:1012-1749: basic_range, basic_slice, indirect_array. -/
inductive Sel
  | range (r : Range)
  | slice (s : Slice)
  | indirect (ia : Indirect)

namespace Sel
/-- `operator () (i)`: storage.hpp:1055-1058 (range), 1285-1289 (slice), 1531-1534 (indirect). -/
def at_ (dbg : Bool) : Sel → Nat → M Nat
  | .range r, i => r.at_ dbg i
  | .slice s, i => s.at_ dbg i
  | .indirect ia, i => ia.at_ dbg i
/-- `size ()`: vector_proxy.hpp:82-84, 658-660, 1206-1208. -/
def size : Sel → Nat
  | .range r => r.size
  | .slice s => s.size
  | .indirect ia => ia.length
end Sel

/-- A selector argument as the user passes it: `all ()` is recognised by address (`preprocess`:
storage.hpp:1217-1221, 1452-1456, 1728-1735). -/
inductive SelArg
  | allRange | allSlice | allIndirect
  | given (s : Sel)

/-- `preprocess (size)`: storage.hpp:1217-1221, 1452-1456, 1728-1735. -/
def SelArg.preprocess : SelArg → Nat → Sel
  | .allRange, n => .range ⟨0, n⟩
  | .allSlice, n => .slice ⟨0, 1, n⟩
  | .allIndirect, n => .indirect (List.range n)
  | .given s, _ => s

/-- A vector or a vector proxy over it: `vector_range` (vector_proxy.hpp:34-502), `vector_slice` (605-1075),
`vector_indirect` (1164-1640), possibly nested. -/
inductive VRef
  | base
  | sel (inner : VRef) (s : Sel)

namespace VRef
variable {α : Type}
/-- `size ()`: vector_proxy.hpp:82-84, 658-660, 1206-1208; `n` is the size of the base vector. -/
def size (n : Nat) : VRef → Nat
  | .base => n
  | .sel _ s => s.size
/-- The base index denoted by element `i`: `data_ (r_ (i))`, vector_proxy.hpp:99-105, 675-681, 1231-1237. -/
def addr (dbg : Bool) : VRef → Nat → M Nat
  | .base, i => .ok i
  | .sel p s, i => do let k ← s.at_ dbg i; addr dbg p k
/-- Reading element `i` (the base is a `vector`, vector.hpp:222-232 `data () [i]`). -/
def read (dbg : Bool) (p : VRef) (l : List α) (i : Nat) : M α := do let k ← p.addr dbg i; rd dbg l k
/-- Writing element `i` through the proxy reference. The mutable `operator ()`: vector_proxy.hpp:99-120 (range), 675-700 (slice), 1231-1251 (indirect); matrix proxies matrix_proxy.hpp:2483-2500, 3483-3500, 4520-4535. -/
def write (dbg : Bool) (p : VRef) (l : List α) (i : Nat) (v : α) : M (List α) := do
  let k ← p.addr dbg i; wr dbg l k v
/-- Constructing a proxy on `p`: vector_proxy.hpp:62-67, 634-639, 1198-1199. -/
def construct (n : Nat) (p : VRef) (a : SelArg) : VRef := .sel p (a.preprocess (p.size n))
/-- `project (proxy, selector)`.  Members `project` (vector_proxy.hpp:131-133, 707-713, 1263-1273) compose the
selectors, preprocessing the argument with the size of the *underlying* vector; the remaining combinations use the
generic `project (V &, ...)` (543-545, 1100-1103, 1647-1650), which nests. -/
def project (dbg : Bool) (n : Nat) (p : VRef) (a : SelArg) : M VRef :=
  match p with
  | .sel q (.range r) =>
    match a.preprocess (q.size n) with
    | .range r' => do let c ← r.compose dbg r'; return .sel q (.range c)
    | _ => return construct n p a
  | .sel q (.slice s) =>
    match a.preprocess (q.size n) with
    | .range r' => do let c ← s.composeRange dbg r'; return .sel q (.slice c)
    | .slice s' => do let c ← s.compose dbg s'; return .sel q (.slice c)
    | _ => return construct n p a
  | .sel q (.indirect ia) =>
    match a.preprocess (q.size n) with
    | .range r' => do let c ← ia.composeRange dbg r'; return .sel q (.indirect c)
    | .slice s' => do let c ← ia.composeSlice dbg s'; return .sel q (.indirect c)
    | .indirect ib => do let c ← ia.compose dbg ib; return .sel q (.indirect c)
  | .base => return construct n p a
end VRef

/-- A matrix, or `matrix_range` (matrix_proxy.hpp:2406-3350), `matrix_slice` (3397-4360), `matrix_indirect`
(4442-5390) over one, possibly nested. -/
inductive MRef
  | base
  | sel (inner : MRef) (s1 s2 : Sel)

/-- Vector views of a matrix: `matrix_row` (matrix_proxy.hpp:28), `matrix_column` (501), and the diagonal-like
`matrix_vector_range` (973) / `_slice` (1444) / `_indirect` (1926). -/
inductive MVRef
  | row (m : MRef) (i : Nat)
  | column (m : MRef) (j : Nat)
  | along (m : MRef) (s1 s2 : Sel)

namespace MRef
variable {α : Type}
/-- `data_ (r1_ (i), r2_ (j))`: matrix_proxy.hpp:2483-2489, 3483-3489, 4520-4526. -/
def addr (dbg : Bool) : MRef → Nat → Nat → M (Nat × Nat)
  | .base, i, j => .ok (i, j)
  | .sel p s1 s2, i, j => do let a ← s1.at_ dbg i; let b ← s2.at_ dbg j; addr dbg p a b
/-- Element read through the proxy. The const `operator ()`: vector_proxy.hpp:99-120 (range), 675-700 (slice), 1231-1251 (indirect); matrix proxies matrix_proxy.hpp:2483-2500, 3483-3500, 4520-4535. -/
def read (dbg : Bool) (o : Orient) (p : MRef) (m : Dense α) (i j : Nat) : M α := do
  let (a, b) ← p.addr dbg i j; m.get dbg o a b
/-- Element write through the proxy. The mutable `operator ()`: vector_proxy.hpp:99-120 (range), 675-700 (slice), 1231-1251 (indirect); matrix proxies matrix_proxy.hpp:2483-2500, 3483-3500, 4520-4535. -/
def write (dbg : Bool) (o : Orient) (p : MRef) (m : Dense α) (i j : Nat) (v : α) : M (Dense α) := do
  let (a, b) ← p.addr dbg i j; m.set dbg o a b v
/-- `size1 ()`, `size2 ()` given the base shape: matrix_proxy.hpp:2458-2468, 3462-3468, 4483-4489. -/
def size1 (n1 : Nat) : MRef → Nat | .base => n1 | .sel _ s1 _ => s1.size
/-- `size2 ()`: matrix_proxy.hpp:2466-2468, 3466-3468, 4487-4489. -/
def size2 (n2 : Nat) : MRef → Nat | .base => n2 | .sel _ _ s2 => s2.size
/-- Composition of two selectors as used by the member `project`s (see `VRef.project`). storage.hpp:1062-1064, 1293-1301, 1552-1573. -/
def composeSel (dbg : Bool) : Sel → Sel → M (Option Sel)
  | .range r, .range r' => do let c ← r.compose dbg r'; return some (.range c)
  | .slice s, .range r' => do let c ← s.composeRange dbg r'; return some (.slice c)
  | .slice s, .slice s' => do let c ← s.compose dbg s'; return some (.slice c)
  | .indirect ia, .range r' => do let c ← ia.composeRange dbg r'; return some (.indirect c)
  | .indirect ia, .slice s' => do let c ← ia.composeSlice dbg s'; return some (.indirect c)
  | .indirect ia, .indirect ib => do let c ← ia.compose dbg ib; return some (.indirect c)
  | _, _ => return none
/-- `project (proxy, sel1, sel2)`: members at matrix_proxy.hpp:2501-2503, 3501-3507, 4538-4548 (compose, with the
arguments preprocessed by the *underlying* matrix sizes); otherwise nesting (3360-3362, 4374-4377, 5400-5403). -/
def project (dbg : Bool) (n1 n2 : Nat) (p : MRef) (a1 a2 : SelArg) : M MRef :=
  match p with
  | .base => return .sel .base (a1.preprocess n1) (a2.preprocess n2)
  | .sel q s1 s2 => do
    let c1 ← composeSel dbg s1 (a1.preprocess (q.size1 n1))
    let c2 ← composeSel dbg s2 (a2.preprocess (q.size2 n2))
    match c1, c2 with
    | some c1, some c2 => return .sel q c1 c2
    | _, _ => return .sel p (a1.preprocess (p.size1 n1)) (a2.preprocess (p.size2 n2))
end MRef

namespace MVRef
variable {α : Type}
/-- `data_ (i_, j)` matrix_proxy.hpp:83-89; `data_ (i, j_)` 556-562; `data_ (r1_ (i), r2_ (i))` 1037-1043,
1516-1522, 1997-2003. -/
def addr (dbg : Bool) : MVRef → Nat → M (Nat × Nat)
  | .row m i, j => m.addr dbg i j
  | .column m j, i => m.addr dbg i j
  | .along m s1 s2, i => do let a ← s1.at_ dbg i; let b ← s2.at_ dbg i; m.addr dbg a b
/-- Element read. The const `operator ()`: vector_proxy.hpp:99-120 (range), 675-700 (slice), 1231-1251 (indirect); matrix proxies matrix_proxy.hpp:2483-2500, 3483-3500, 4520-4535. -/
def read (dbg : Bool) (o : Orient) (p : MVRef) (m : Dense α) (i : Nat) : M α := do
  let (a, b) ← p.addr dbg i; m.get dbg o a b
/-- Element write. The mutable `operator ()`: vector_proxy.hpp:99-120 (range), 675-700 (slice), 1231-1251 (indirect); matrix proxies matrix_proxy.hpp:2483-2500, 3483-3500, 4520-4535. -/
def write (dbg : Bool) (o : Orient) (p : MVRef) (m : Dense α) (i : Nat) (v : α) : M (Dense α) := do
  let (a, b) ← p.addr dbg i; m.set dbg o a b v
end MVRef
end Ublas
