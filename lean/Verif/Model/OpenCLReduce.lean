import Verif.Model.OpenCL
/-!
# The reductions of the OpenCL back end: opencl/misc.hpp and `inner_prod` of opencl/prod.hpp

clBLAS and Boost.Compute are modelled by their documented effect.  Memory is a sequence of real words: a real element is one word, a complex element two (real and imaginary part); precision is
not modelled.  A clBLAS reduction over no elements is refused (`clblasInvalidDim`), and the event it was to create does not exist; the callers ignore the status and wait for that event, whose
variable is not initialised.  Not modelled: the scratch buffers (large enough in every call), devices and queues.
-/
namespace Ublas
namespace OpenCL
variable {R : Type}

/-- The element types these functions are enabled for: opencl/library.hpp:27-35. -/
inductive Num | float | double | complexFloat | complexDouble
  deriving DecidableEq, Repr

/-- Words of an element. Representation of C++ arithmetic types and std::complex, not code of /repo. -/
def Num.words : Num → Nat
  | .float | .double => 1
  | .complexFloat | .complexDouble => 2

/-- Σ f (word) over the words `0 … count - 1` of buffer `b`. Effect of the clBLAS kernels, not code of /repo. -/
def sumWords [Add R] [Zero R] (f : R → R) (m : Mem R) (b count : Nat) : M R :=
  loop (fun i s => do
    let x ← m.read (b, i)
    .ok (s + f x)) count 0

/-- `clblasSasum`, `clblasDasum` (`w` = 1), `clblasScasum`, `clblasDzasum` (`w` = 2): writes Σ |re| + |im| as one real word; the result tells whether the event was created. clBLAS; called at
opencl/misc.hpp:29, 40, 51, 62. -/
def clAsum [Add R] [Zero R] (abs : R → R) (w n v result : Nat) (m : Mem R) : M (Mem R × Bool) :=
  if n = 0 then .ok (m, false)
  else do
    let s ← sumWords abs m v (n * w)
    let m ← m.write (result, 0) s
    .ok (m, true)

/-- `clblasSnrm2`, `clblasDnrm2` (`w` = 1), `clblasScnrm2`, `clblasDznrm2` (`w` = 2): writes √ Σ |x|² as one real word. clBLAS; called at opencl/misc.hpp:117, 128, 139, 150. -/
def clNrm2 [Add R] [Mul R] [Zero R] (sqrt : R → R) (w n v result : Nat) (m : Mem R) : M (Mem R × Bool) :=
  if n = 0 then .ok (m, false)
  else do
    let s ← sumWords (fun x => x * x) m v (n * w)
    let m ← m.write (result, 0) (sqrt s)
    .ok (m, true)

/-- The words of element 0 of the result buffer (`return result_buffer[0]`): opencl/misc.hpp:73, 161. -/
def element0 (t : Num) (result : Nat) (m : Mem R) : M (List R) := (List.range t.words).mapM fun i => m.read (result, i)

/-- `a_sum (v, queue)` for a device vector: opencl/misc.hpp:19-74.  `tmp` is the result buffer, created with arbitrary contents (24). -/
def aSum [Add R] [Zero R] (abs : R → R) (junk : Nat → R) (t : Num) (v : DVec) (tmp : Nat) (m : Mem R) : M (List R) := do
  let m := m.alloc tmp t.words junk
  let (m, event) ← (match t with
    | .float => clAsum abs 1 v.size v.buf tmp m
    | .double => clAsum abs 1 v.size v.buf tmp m
    | .complexFloat => clAsum abs 2 v.size v.buf tmp m
    | .complexDouble => clAsum abs 2 v.size v.buf tmp m)
  if event = false then .error .ub
  else element0 t tmp m

/-- `norm_1 (v, queue)` for a device vector; only for real elements (89-91): opencl/misc.hpp:88-95. -/
def norm1 [Add R] [Zero R] (abs : R → R) (junk : Nat → R) (t : Num) (v : DVec) (tmp : Nat) (m : Mem R) : M (List R) := aSum abs junk t v tmp m

/-- `norm_2 (v, queue)` for a device vector: opencl/misc.hpp:107-162. -/
def norm2 [Add R] [Mul R] [Zero R] (sqrt : R → R) (junk : Nat → R) (t : Num) (v : DVec) (tmp : Nat) (m : Mem R) : M (List R) := do
  let m := m.alloc tmp t.words junk
  let (m, event) ← (match t with
    | .float => clNrm2 sqrt 1 v.size v.buf tmp m
    | .double => clNrm2 sqrt 1 v.size v.buf tmp m
    | .complexFloat => clNrm2 sqrt 2 v.size v.buf tmp m
    | .complexDouble => clNrm2 sqrt 2 v.size v.buf tmp m)
  if event = false then .error .ub
  else element0 t tmp m

/-- The host versions of `a_sum`, `norm_1`: copy to the device (`vdev (v, queue)`), then the device version: opencl/misc.hpp:76-82, 97-105. `words` are the words of the elements, `n` the number of elements. -/
def aSumHost [Add R] [Zero R] (abs : R → R) (junk : Nat → R) (t : Num) (n : Nat) (words : List R) : M (List R) :=
  aSum abs junk t ⟨n, 0⟩ 1 (hostMem words [] 0 junk)

/-- The host version of `norm_2`: opencl/misc.hpp:164-170. -/
def norm2Host [Add R] [Mul R] [Zero R] (sqrt : R → R) (junk : Nat → R) (t : Num) (n : Nat) (words : List R) : M (List R) :=
  norm2 sqrt junk t ⟨n, 0⟩ 1 (hostMem words [] 0 junk)

/-- `inner_prod (a, b, queue)` for device vectors of real elements; `compute::inner_product (a.begin (), a.end (), b.begin (), T (0))`: opencl/prod.hpp:264-273. -/
def innerProd [Add R] [Mul R] [Zero R] (dbg : Bool) (a b : DVec) (m : Mem R) : M R := do
  check dbg (a.size = b.size) .internalLogic
  loop (fun i s => do
    let x ← m.read (a.buf, i)
    let y ← m.read (b.buf, i)
    .ok (s + x * y)) a.size 0

/-- `inner_prod (a, b, queue)` for host vectors: opencl/prod.hpp:275-284. -/
def innerProdHost [Add R] [Mul R] [Zero R] (dbg : Bool) (junk : Nat → R) (a b : List R) : M R :=
  innerProd dbg ⟨a.length, 0⟩ ⟨b.length, 1⟩ (hostMem a b 0 junk)

end OpenCL
end Ublas
