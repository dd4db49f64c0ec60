import Verif.Model.MatrixTargets
import Verif.Model.Expr
import Verif.Model.Operands
/-!
# The assignment operators of matrices and matrix views, with right-hand sides that may read the target

`m = e`, `m += e`, `m -= e` and the same on views build a temporary first; `noalias`, `assign` and the *copy assignment of matrix views* do not.  Indices are
(major, minor) as in Model/MatrixAssign.
-/
namespace Ublas
variable {σ R : Type}

/-- The address of element (k, l) of a dense matrix with `c` elements per line: functional.hpp:1417-1424 (row_major: `i * size2 + j`), 1595-1602 (column_major: `i + j * size1`). -/
def denseAddr (c : Nat) (k l : Nat) : Nat := k * c + l

/-- A dense matrix or view on an array as an expression whose elements were all read from the array `data`: element access and iterators as in `MT.view`. matrix.hpp:237-260, 552-570; matrix_proxy.hpp views of it. -/
def arrExp (dbg : Bool) (r c : Nat) (addr : Nat → Nat → Nat) (data : List R) : M (MExp R) := do
  let ls ← (List.range r).mapM fun k => do
    let els ← walkIdx (fun l => rd dbg data (addr k l)) c 0 c
    .ok (k, els)
  .ok ⟨r, c, .dense, ls, fun k l => rd dbg data (addr k l)⟩

/-- A dense matrix expression that reads the target while it is being assigned: element (k, l), through an iterator or `operator ()`, is computed from the current state. What detail/matrix_assign.hpp:526-576 reads of its right-hand side. -/
structure MLazy (σ R : Type) where
  sizeM : Nat
  sizem : Nat
  at_ : Nat → Nat → σ → M R

namespace MAssign
variable [Add R] [Sub R] [Zero R]

/-- `iterating_matrix_assign`, rounds `0 … size1 - 1` of the outer loop, right-hand side evaluated lazily: matrix_assign.hpp:526-544, 558-576. -/
def lazyLines (T : MT σ R) (F : AssignF) (e : MLazy σ R) (size2 : Nat) : List Nat → List Nat → σ → M σ
  | k :: ls, q :: qs, s => do
    let s ← VAssign.zipLoop (T.line k) F ((T.its s k).take size2) ((List.range size2).map fun l => (l, e.at_ q l)) s
    lazyLines T F e size2 ls qs s
  | _, _, s => .ok s

/-- `iterating_matrix_assign`: matrix_assign.hpp:514-577.  The iterators of `e` visit everything; the size checks are those of the target. -/
def lazyIterating (dbg : Bool) (T : MT σ R) (F : AssignF) (e : MLazy σ R) (s : σ) : M σ := do
  let size1 ← same dbg (T.sizeM s) e.sizeM
  let size2 ← same dbg (T.sizem s) e.sizem
  check dbg (size2 = 0 ∨ (T.lines s).length = size1) .badSize
  if size2 = 0 then .ok s
  else lazyLines T F e size2 ((T.lines s).take size1) (List.range size1) s

/-- `indexing_matrix_assign`: matrix_assign.hpp:578-613. -/
def lazyIndexing (dbg : Bool) (T : MT σ R) (F : AssignF) (e : MLazy σ R) (s : σ) : M σ := do
  let size1 ← same dbg (T.sizeM s) e.sizeM
  let size2 ← same dbg (T.sizem s) e.sizem
  loop (fun i s => loop (fun j s => do
    let y ← e.at_ i j s
    let x ← T.get s i j
    T.ref s i j (F.apply x y)) size2 s) size1 s

/-- Dense (proxy) case: matrix_assign.hpp:615-635. -/
def lazyDense (dbg : Bool) (mode : ProdFn.Mode) (T : MT σ R) (F : AssignF) (e : MLazy σ R) (s : σ) : M σ :=
  match mode with
  | .indexing => lazyIndexing dbg T F e s
  | .iterating => lazyIterating dbg T F e s
  | .threshold n => do
    let size1 ← same dbg (T.sizeM s) e.sizeM
    let size2 ← same dbg (T.sizem s) e.sizem
    if n ≤ size1 ∧ n ≤ size2 then lazyIterating dbg T F e s else lazyIndexing dbg T F e s

variable [DecidableEq R]

/-- `matrix (ae)`: `data_ (layout_type::storage_size (size1_, size2_))` (uninitialised = `junk`), then `matrix_assign<scalar_assign>`: matrix.hpp:169-173. -/
def denseFrom (dbg : Bool) (mode : ProdFn.Mode) (junk : Nat → R) (e : MExp R) : M (List R) :=
  assign dbg mode .dense (MT.view dbg e.sizeM e.sizem (denseAddr e.sizem)) .assign e ((List.range (e.sizeM * e.sizem)).map junk)

/-- `m = ae`: `self_type temporary (ae); return assign_temporary (temporary);`: matrix.hpp:351-355; `ae` is evaluated while `m` is unchanged. -/
def matAssign (dbg : Bool) (mode : ProdFn.Mode) (junk : Nat → R) (e : List R → MExp R) (data : List R) : M (List R) :=
  denseFrom dbg mode junk (e data)

/-- `view = ae` for a matrix_range, matrix_slice or matrix_indirect of a dense matrix: `matrix_assign<scalar_assign> (*this, temporary (ae))`:
matrix_proxy.hpp:2515-2520, 3519-3524, 4560-4565. -/
def matViewAssign (dbg : Bool) (mode : ProdFn.Mode) (junk : Nat → R) (r c : Nat) (addr : Nat → Nat → Nat) (e : List R → MExp R) (data : List R) : M (List R) := do
  let t ← denseFrom dbg mode junk (e data)
  let q ← arrExp dbg (e data).sizeM (e data).sizem (denseAddr (e data).sizem) t
  assign dbg mode .denseProxy (MT.view dbg r c addr) .assign q data

/-- Line `k` of an expression as a vector: what its inner iterators visit there (nothing if the outer iterators skip the line). The inner iterators the loops of detail/matrix_assign.hpp:526-576 use. -/
def lineSeq (e : MExp R) (k : Nat) : Seq R :=
  ⟨e.sizem, e.cat, match e.lines.find? (fun q => q.1 == k) with | some q => q.2 | none => [], e.at_ k⟩

/-- `*this + ae` / `*this - ae` along the lines of the target, for a dense `*this` (`a`): matrix_expression.hpp:2044-2141, 2147-2480.  The outer iterators of `*this` visit every line,
hence so do the merged ones; each line merges those of the operands (`Expr.binEls`).  Simplified: without minor elements no line need be visited. -/
def sumExp (dbg : Bool) (f : R → R → R) (a b : MExp R) : M (MExp R) := do
  let size1 ← same dbg a.sizeM b.sizeM
  let size2 ← same dbg a.sizem b.sizem
  let ls ← (List.range size1).mapM fun k => do
    let els ← Expr.binEls f (lineSeq a k) (lineSeq b k) size2
    .ok (k, els)
  .ok ⟨size1, size2, a.cat.restrict b.cat, ls, fun k l => do
    let x ← a.at_ k l
    let y ← b.at_ k l
    .ok (f x y)⟩

/-- `m += ae` / `m -= ae`: `self_type temporary (*this + ae); return assign_temporary (temporary);`: matrix.hpp:362-367, 380-385. -/
def matOpAssign (dbg : Bool) (mode : ProdFn.Mode) (junk : Nat → R) (F : AssignF) (r c : Nat) (e : List R → MExp R) (data : List R) : M (List R) := do
  let a ← arrExp dbg r c (denseAddr c) data
  let q ← sumExp dbg F.apply a (e data)
  denseFrom dbg mode junk q

/-- `view += ae` / `view -= ae`: `matrix_assign<scalar_assign> (*this, temporary (*this + ae))`: matrix_proxy.hpp:2527-2532, 2539-2544, 3531-3536, 3543-3548, 4572-4577, 4584-4589. -/
def matViewOpAssign (dbg : Bool) (mode : ProdFn.Mode) (junk : Nat → R) (F : AssignF) (r c : Nat) (addr : Nat → Nat → Nat) (e : List R → MExp R) (data : List R) : M (List R) := do
  let a ← arrExp dbg r c addr data
  let q ← sumExp dbg F.apply a (e data)
  matViewAssign dbg mode junk r c addr (fun _ => q) data

/-- `compressed_matrix (ae, non_zeros)`: matrix_sparse.hpp:2888-2897; sizes of `e` are (major, minor). -/
def compressedMatFrom (dbg : Bool) (mode : ProdFn.Mode) (o : Orient) (IB : Nat) (junk : CMat.Junk R) (e : MExp R) (nz : Nat) : M (CMat R) := do
  let v ← CMat.ctor dbg o IB junk (o.indexM e.sizeM e.sizem) (o.indexm e.sizeM e.sizem) nz
  assign dbg mode .sparse (MT.compressed dbg o IB junk) .assign e v

/-- `m = ae` for a compressed_matrix: `self_type temporary (ae, capacity_)`: matrix_sparse.hpp:3159-3164. -/
def compressedMatAssign (dbg : Bool) (mode : ProdFn.Mode) (o : Orient) (IB : Nat) (junk : CMat.Junk R) (e : CMat R → MExp R) (v : CMat R) : M (CMat R) :=
  compressedMatFrom dbg mode o IB junk (e v) v.cap

omit [DecidableEq R]

/-- `noalias (m) = ae` / `+=` / `-=`, `m.assign (ae)`, `m.plus_assign (ae)`, `m.minus_assign (ae)` for a dense matrix or view and a dense `ae`: no temporary.
definitions.hpp:46-75, matrix.hpp:356-361, 374-379, 392-397, matrix_proxy.hpp:2521-2526. -/
def matNoalias (dbg : Bool) (mode : ProdFn.Mode) (F : AssignF) (r c : Nat) (addr : Nat → Nat → Nat) (e : MLazy (List R) R) (data : List R) : M (List R) :=
  lazyDense dbg mode (MT.view dbg r c addr) F e data

/-- A view (or matrix) on the same array as a lazy operand: reads `src k l`. matrix.hpp:237-260; matrix_proxy.hpp:2483-2500. -/
def lazyView (dbg : Bool) (r c : Nat) (src : Nat → Nat → Nat) : MLazy (List R) R :=
  ⟨r, c, fun k l s => do
    check dbg (k < r) .badIndex
    check dbg (l < c) .badIndex
    rd dbg s (src k l)⟩

/-- The copy assignment of a matrix_range, matrix_slice or matrix_indirect, both views on the same array: `matrix_assign<scalar_assign> (*this, mr)`, **no temporary**:
matrix_proxy.hpp:2506-2510, 3510-3514, 4551-4555. -/
def viewCopy (dbg : Bool) (mode : ProdFn.Mode) (r c : Nat) (addr : Nat → Nat → Nat) (r' c' : Nat) (src : Nat → Nat → Nat) (data : List R) : M (List R) :=
  lazyDense dbg mode (MT.view dbg r c addr) .assign (lazyView dbg r' c' src) data

end MAssign

/-- Address of element (k, l) of `project (m, range (a, …), range (b, …))` for a dense matrix with `c` elements per line: matrix_proxy.hpp:2470-2500. -/
def rangeAddr (c a b : Nat) (k l : Nat) : Nat := (a + k) * c + (b + l)

end Ublas
