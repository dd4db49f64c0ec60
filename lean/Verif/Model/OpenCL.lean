import Verif.Model.Dense
/-!
# The OpenCL back end: opencl/{matrix,vector,transpose,prod,elementwise}.hpp

Device memory is a family of buffers.  A kernel is executed by work items that run concurrently: an execution is *any* interleaving of the items' steps (each item reads its source cells
one after the other and then writes its destination cell).  Commands of one queue run one after the other (every function ends with `queue.finish ()` or `clWaitForEvents`).  External code
is modelled by its documented effect: Boost.Compute `fill`, `copy`, `transform`, clBLAS `gemm` (status codes are ignored by the callers; invalid arguments leave
the buffers unchanged).  `assert` is modelled as a debug check.  Not modelled: complex element types, the device handles (all objects are on the device of the queue),
kernel compilation.  The reductions are in OpenCLReduce.
-/
namespace Ublas
namespace OpenCL
variable {R : Type}

/-- Device memory: contents of each buffer. Model of the OpenCL runtime and of Boost.Compute, not code of /repo. -/
abbrev Mem (R : Type) := Nat → List R
/-- A cell: buffer and offset. Model of the OpenCL runtime and of Boost.Compute, not code of /repo. -/
abbrev Cell := Nat × Nat

/-- Reading a cell; outside the buffer: undefined behaviour. Model of the OpenCL runtime and of Boost.Compute, not code of /repo. -/
def Mem.read (m : Mem R) (p : Cell) : M R := match (m p.1)[p.2]? with | some x => .ok x | none => .error .ub
/-- Writing a cell; outside the buffer: undefined behaviour. Model of the OpenCL runtime and of Boost.Compute, not code of /repo. -/
def Mem.write (m : Mem R) (p : Cell) (x : R) : M (Mem R) :=
  if p.2 < (m p.1).length then .ok (fun b => if b = p.1 then (m b).set p.2 x else m b) else .error .ub
/-- A new buffer with arbitrary contents (`buffer_allocator::allocate`): opencl/matrix.hpp:40-46, opencl/vector.hpp:34-36. -/
def Mem.alloc (m : Mem R) (b n : Nat) (junk : Nat → R) : Mem R := fun b' => if b' = b then (List.range n).map junk else m b'

/-- A kernel over `items` work items: item `x`, if `act x`, reads the cells `src x`, computes `fn x` of the values and writes the cell `dst x`. Model of the OpenCL runtime and of Boost.Compute, not code of /repo. -/
structure Kernel (R : Type) where
  items : Nat
  act : Nat → Bool
  src : Nat → List Cell
  fn : Nat → List R → R
  dst : Nat → Cell

/-- Execution state: memory, what each item has read so far, which items have written. Client histories: composes the operations cited in this file; no code of its own in /repo. -/
structure St (R : Type) where
  mem : Mem R
  regs : Nat → List R
  done : Nat → Bool

/-- One step of item `x`. Client histories: composes the operations cited in this file; no code of its own in /repo. -/
def Kernel.step (K : Kernel R) (st : St R) (x : Nat) : M (St R) :=
  if K.act x = false ∨ st.done x = true then .ok st
  else match (K.src x)[(st.regs x).length]? with
    | some p => do
      let v ← st.mem.read p
      .ok { st with regs := fun y => if y = x then st.regs x ++ [v] else st.regs y }
    | none => do
      let m ← st.mem.write (K.dst x) (K.fn x (st.regs x))
      .ok ⟨m, st.regs, fun y => if y = x then true else st.done y⟩

/-- Run a schedule (the sequence of items taking a step) and wait for completion. Client histories: composes the operations cited in this file; no code of its own in /repo. -/
def Kernel.run (K : Kernel R) (sched : List Nat) (m : Mem R) : M (Mem R) := do
  let st ← sched.foldlM K.step ⟨m, fun _ => [], fun _ => false⟩
  .ok st.mem

/-- A complete schedule: only the kernel's items, and each gets all its steps. Model of the OpenCL runtime and of Boost.Compute, not code of /repo. -/
def Kernel.Complete (K : Kernel R) (sched : List Nat) : Prop :=
  (∀ x ∈ sched, x < K.items) ∧ ∀ x, x < K.items → (K.src x).length < sched.count x

/-- What the OpenCL runtime decides: the interleaving of each kernel launch (numbered). Model of the OpenCL runtime and of Boost.Compute, not code of /repo. -/
abbrev Scheduler (R : Type) := Nat → Kernel R → List Nat
/-- The runtime completes every kernel. Model of the OpenCL runtime and of Boost.Compute, not code of /repo. -/
def Scheduler.Fair (sch : Scheduler R) : Prop := ∀ n (K : Kernel R), K.Complete (sch n K)

/-- A layout type: `basic_row_major<>` / `basic_column_major<>` (`std`) or the same with other size types: functional.hpp:1399-1401, 1577-1579. -/
structure Lay where
  o : Orient
  std : Bool
  deriving DecidableEq, Repr

/-- `std::is_same<L, ublas::basic_row_major<> >::value`: opencl/transpose.hpp:58, opencl/prod.hpp:54. -/
def Lay.isRow (l : Lay) : Bool := match l.o with | .row => l.std | .col => false

/-- `matrix<T, L, opencl::storage>`: opencl/matrix.hpp:28-119. -/
structure DMat where
  size1 : Nat
  size2 : Nat
  buf : Nat

/-- `vector<T, opencl::storage>`: opencl/vector.hpp:28-86. -/
structure DVec where
  size : Nat
  buf : Nat

/-- `layout_type::storage_size (size1, size2)`: functional.hpp:1408-1412, 1586-1590. -/
def DMat.len (m : DMat) : Nat := m.size1 * m.size2

/-- `compute::fill (begin, begin + n, value)`: opencl/matrix.hpp:77-82, opencl/vector.hpp:77-82. -/
def fillK (b n : Nat) (v : R) : Kernel R := ⟨n, fun _ => true, fun _ => [], fun _ _ => v, fun x => (b, x)⟩

/-- `compute::transform (a.begin (), a.end (), b.begin (), result.begin (), op)`. Boost.Compute; called at opencl/elementwise.hpp:33, 78. -/
def zipK [Zero R] (n a b r : Nat) (op : R → R → R) : Kernel R :=
  ⟨n, fun _ => true, fun x => [(a, x), (b, x)], fun _ l => op (l.getD 0 0) (l.getD 1 0), fun x => (r, x)⟩

/-- `compute::transform (m.begin (), m.end (), result.begin (), op)`. Boost.Compute; called at opencl/elementwise.hpp:171, 202, 285, 316, 399, 430. -/
def mapK [Zero R] (n a r : Nat) (op : R → R) : Kernel R :=
  ⟨n, fun _ => true, fun x => [(a, x)], fun _ l => op (l.getD 0 0), fun x => (r, x)⟩

/-- Conversion to `unsigned int`. C++ conversion of the sizes passed at opencl/prod.hpp:60-86, 135-161, 209-235. -/
def u32 (n : Nat) : Nat := n % 2 ^ 32

/-- OPENCL_TRANSPOSITION_KERNEL: opencl/transpose.hpp:18-29, launched with global size {width, height} (60-67, 108-115): item `column + width * row`.  All indices are `unsigned int`. -/
def transposeK [Zero R] (inp result width height : Nat) : Kernel R :=
  let w := u32 width
  let h := u32 height
  let col (x : Nat) := u32 (x % width)
  let row (x : Nat) := u32 (x / width)
  ⟨width * height, fun x => decide (col x < w) && decide (row x < h), fun x => [(inp, u32 (col x + w * row x))], fun _ l => l.getD 0 0,
    fun x => (result, u32 (row x + h * col x))⟩

/-- The device version of `change_layout`: opencl/transpose.hpp:34-69. -/
def changeLayout [Zero R] (dbg : Bool) (sch : Kernel R → List Nat) (l1 l2 : Lay) (m result : DMat) (mem : Mem R) : M (Mem R) := do
  check dbg (m.size1 = result.size1 ∧ m.size2 = result.size2) .internalLogic
  check dbg (l1 ≠ l2) .internalLogic
  let width := if l1.isRow then m.size2 else m.size1
  let height := if l1.isRow then m.size1 else m.size2
  let K := transposeK m.buf result.buf width height
  K.run (sch K) mem

/-- The device version of `trans`: opencl/transpose.hpp:83-117. -/
def trans [Zero R] (dbg : Bool) (sch : Kernel R → List Nat) (l : Lay) (m result : DMat) (mem : Mem R) : M (Mem R) := do
  check dbg (m.size1 = result.size2 ∧ m.size2 = result.size1) .internalLogic
  let width := if l.isRow then m.size2 else m.size1
  let height := if l.isRow then m.size1 else m.size2
  let K := transposeK m.buf result.buf width height
  K.run (sch K) mem

/-- The device version of `element_wise` for matrices (and with it element_add, element_prod, element_div): opencl/elementwise.hpp:22-40.  The layouts are not looked at. -/
def elementWise [Zero R] (dbg : Bool) (sch : Kernel R → List Nat) (op : R → R → R) (a b result : DMat) (mem : Mem R) : M (Mem R) := do
  check dbg (a.size1 = b.size1 ∧ a.size2 = b.size2) .internalLogic
  let K := zipK a.len a.buf b.buf result.buf op
  K.run (sch K) mem

/-- The device version of `element_wise` for vectors: opencl/elementwise.hpp:67-85. -/
def elementWiseVec [Zero R] (dbg : Bool) (sch : Kernel R → List Nat) (op : R → R → R) (a b result : DVec) (mem : Mem R) : M (Mem R) := do
  check dbg (a.size = b.size) .internalLogic
  let K := zipK a.size a.buf b.buf result.buf op
  K.run (sch K) mem

/-- element_add, element_sub, element_scale of a device matrix and a scalar: opencl/elementwise.hpp:164-173, 278-287, 392-401. -/
def elementScalar [Zero R] (dbg : Bool) (sch : Kernel R → List Nat) (op : R → R) (m result : DMat) (mem : Mem R) : M (Mem R) := do
  check dbg (m.size1 = result.size1 ∧ m.size2 = result.size2) .internalLogic
  let K := mapK m.len m.buf result.buf op
  K.run (sch K) mem

/-- Offset of element (i, p) in a BLAS matrix with leading dimension `ld`. Model of the OpenCL runtime and of Boost.Compute, not code of /repo. -/
def blasAt (row : Bool) (ld i p : Nat) : Nat := if row then i * ld + p else i + p * ld
/-- Cells a BLAS matrix of `r` rows and `c` columns needs. Model of the OpenCL runtime and of Boost.Compute, not code of /repo. -/
def blasNeed (row : Bool) (ld r c : Nat) : Nat := if row then (r - 1) * ld + c else r + (c - 1) * ld

section gemm
variable [Zero R] [Add R] [Mul R]

/-- The work of clBLAS `gemm` with alpha = beta = 1: one item per element of C. clBLAS; called at opencl/prod.hpp:60-86, 135-161, 209-235. -/
def gemmK (row : Bool) (m n k a lda b ldb c ldc : Nat) : Kernel R :=
  ⟨m * n, fun _ => true,
    fun x => (c, blasAt row ldc (x / n) (x % n)) :: ((List.range k).map fun p => (a, blasAt row lda (x / n) p)) ++ (List.range k).map fun p => (b, blasAt row ldb p (x % n)),
    fun _ l => l.getD 0 0 + ((List.range k).map fun p => l.getD (1 + p) 0 * l.getD (1 + k + p) 0).sum,
    fun x => (c, blasAt row ldc (x / n) (x % n))⟩

/-- clBLAS `gemm` (external): invalid dimensions, leading dimensions or buffers too small give an error status and change nothing. clBLAS; called at opencl/prod.hpp:60-86, 135-161, 209-235. -/
def gemm (sch : Kernel R → List Nat) (row : Bool) (m n k a lda b ldb c ldc : Nat) (mem : Mem R) : M (Mem R) :=
  if m = 0 ∨ n = 0 ∨ k = 0 then .ok mem
  else if lda < (if row then k else m) ∨ ldb < (if row then n else k) ∨ ldc < (if row then n else m) then .ok mem
  else if (mem a).length < blasNeed row lda m k ∨ (mem b).length < blasNeed row ldb k n ∨ (mem c).length < blasNeed row ldc m n then .ok mem
  else (gemmK row m n k a lda b ldb c ldc).run (sch (gemmK row m n k a lda b ldb c ldc)) mem

/-- `prod (a, b, result, queue)` on the device: opencl/prod.hpp:24-88.  `tmp` is the buffer of `*bl1`, whose contents are arbitrary (`junk`). -/
def prodMM (dbg : Bool) (sch : Scheduler R) (junk : Nat → R) (l1 l2 : Lay) (a b result : DMat) (tmp : Nat) (mem : Mem R) : M (Mem R) := do
  check dbg (a.size2 = b.size1) .internalLogic
  let mem ← (fillK result.buf result.len 0).run (sch 0 (fillK result.buf result.len 0)) mem
  let (mem, bb) ← (if l1 = l2 then .ok (mem, b.buf) else do
    let bl1 : DMat := ⟨b.size1, b.size2, tmp⟩
    let mem ← changeLayout dbg (sch 1) l2 l1 b bl1 (mem.alloc tmp bl1.len junk)
    .ok (mem, tmp) : M (Mem R × Nat))
  let row := l1.isRow
  let lda := if row then a.size2 else a.size1
  let ldb := if row then b.size2 else a.size2
  let ldc := if row then b.size2 else a.size1
  gemm (sch 2) row a.size1 b.size2 a.size2 a.buf lda bb ldb result.buf ldc mem

/-- `prod (matrix, vector, result, queue)` on the device: opencl/prod.hpp:115-163. -/
def prodMV (dbg : Bool) (sch : Scheduler R) (l : Lay) (a : DMat) (b result : DVec) (mem : Mem R) : M (Mem R) := do
  check dbg (a.size2 = b.size) .internalLogic
  let mem ← (fillK result.buf result.size 0).run (sch 0 (fillK result.buf result.size 0)) mem
  let row := l.isRow
  let lda := if row then a.size2 else a.size1
  let ldb := if row then 1 else a.size2
  let ldc := if row then 1 else a.size1
  gemm (sch 1) row a.size1 1 a.size2 a.buf lda b.buf ldb result.buf ldc mem

/-- `prod (vector, matrix, result, queue)` on the device: opencl/prod.hpp:190-237. -/
def prodVM (dbg : Bool) (sch : Scheduler R) (l : Lay) (a : DVec) (b : DMat) (result : DVec) (mem : Mem R) : M (Mem R) := do
  check dbg (a.size = b.size1) .internalLogic
  let mem ← (fillK result.buf result.size 0).run (sch 0 (fillK result.buf result.size 0)) mem
  let row := l.isRow
  let lda := if row then a.size else 1
  let ldb := if row then b.size2 else a.size
  let ldc := if row then b.size2 else 1
  gemm (sch 1) row 1 b.size2 a.size a.buf lda b.buf ldb result.buf ldc mem

/-- `outer_prod (a, b, result, queue)` on the device: opencl/prod.hpp:286-332. -/
def outerProd (sch : Scheduler R) (l : Lay) (a b : DVec) (result : DMat) (mem : Mem R) : M (Mem R) := do
  let mem ← (fillK result.buf result.len 0).run (sch 0 (fillK result.buf result.len 0)) mem
  let row := l.isRow
  let lda := if row then 1 else a.size
  let ldb := if row then b.size else 1
  let ldc := if row then b.size else a.size
  gemm (sch 1) row a.size b.size 1 a.buf lda b.buf ldb result.buf ldc mem

end gemm

/-! ## Host versions: copy to the device, run, copy back -/

/-- `compute::copy` of all cells of device buffer `b` to host storage, which is *not* resized: opencl/matrix.hpp:103-112, opencl/vector.hpp:66-75. -/
def toHost (dev host : List R) : M (List R) := if dev.length ≤ host.length then .ok (dev ++ host.drop dev.length) else .error .ub

/-- Buffers 0, 1: copies of the operands (`from_host`, opencl/matrix.hpp:58-63, 88-97); buffer 2: the result on the device, not initialised. -/
def hostMem (a b : List R) (n : Nat) (junk : Nat → R) : Mem R := fun i => if i = 0 then a else if i = 1 then b else if i = 2 then (List.range n).map junk else []

/-- `trans (m, result, queue)` for host matrices: opencl/transpose.hpp:119-129. -/
def transHost [Zero R] (dbg : Bool) (sch : Kernel R → List Nat) (junk : Nat → R) (l : Lay) (m result : Dense R) : M (Dense R) := do
  let rdev : DMat := ⟨result.size1, result.size2, 2⟩
  let mem ← trans dbg sch l ⟨m.size1, m.size2, 0⟩ rdev (hostMem m.data [] rdev.len junk)
  let d ← toHost (mem 2) result.data
  .ok { result with data := d }

/-- `prod (a, b, result, queue)` for host matrices: opencl/prod.hpp:90-102. -/
def prodMMHost [Zero R] [Add R] [Mul R] (dbg : Bool) (sch : Scheduler R) (junk : Nat → R) (l1 l2 : Lay) (a b result : Dense R) : M (Dense R) := do
  let rdev : DMat := ⟨a.size1, b.size2, 2⟩
  let mem ← prodMM dbg sch junk l1 l2 ⟨a.size1, a.size2, 0⟩ ⟨b.size1, b.size2, 1⟩ rdev 3 (hostMem a.data b.data rdev.len junk)
  let d ← toHost (mem 2) result.data
  .ok { result with data := d }

/-- `prod (a, b, queue)`: opencl/prod.hpp:104-113. -/
def prodMMNew [Zero R] [Add R] [Mul R] (dbg : Bool) (sch : Scheduler R) (junk : Nat → R) (l1 l2 : Lay) (a b : Dense R) : M (Dense R) :=
  prodMMHost dbg sch junk l1 l2 a b (Dense.mk' junk l1.o a.size1 b.size2)

/-- `element_wise (a, b, result, op, queue)` for host matrices: opencl/elementwise.hpp:42-54. -/
def elementWiseHost [Zero R] (dbg : Bool) (sch : Kernel R → List Nat) (junk : Nat → R) (op : R → R → R) (a b result : Dense R) : M (Dense R) := do
  let rdev : DMat := ⟨a.size1, b.size2, 2⟩
  let mem ← elementWise dbg sch op ⟨a.size1, a.size2, 0⟩ ⟨b.size1, b.size2, 1⟩ rdev (hostMem a.data b.data rdev.len junk)
  let d ← toHost (mem 2) result.data
  .ok { result with data := d }

/-- `element_wise (a, b, op, queue)` — element_add, element_sub, element_prod, element_div returning a matrix: opencl/elementwise.hpp:56-65, 130-136, 244-250, 358-364, 472-478. -/
def elementWiseNew [Zero R] (dbg : Bool) (sch : Kernel R → List Nat) (junk : Nat → R) (op : R → R → R) (l1 : Lay) (a b : Dense R) : M (Dense R) :=
  elementWiseHost dbg sch junk op a b (Dense.mk' junk l1.o a.size1 b.size2)

end OpenCL
end Ublas
