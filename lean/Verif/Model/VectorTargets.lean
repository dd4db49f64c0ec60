import Verif.Model.VectorAssign
import Verif.Model.CompressedVector
import Verif.Model.PackedIter
import Verif.Model.Operands
import Verif.Model.Expr
/-! # Containers and views as targets of assignments, and the assignment operators -/
namespace Ublas
variable {R : Type}

/-- A view with `n` elements at the injective positions `addr 0, addr 1, …` of an array: `vector` itself (`addr i = i`, vector.hpp:214-250), `vector_range`
(start + i, vector_proxy.hpp:104-120), `vector_slice` (start + i * stride, vector_proxy.hpp:679-700), `matrix_row` / `matrix_column` of a dense matrix
(layout address, matrix_proxy.hpp:98-120).  `insert` and `clear`: vector.hpp:263-283. -/
def VT.view [Zero R] (dbg : Bool) (n : Nat) (addr : Nat → Nat) : VT (List R) R where
  size _ := n
  cat := .dense
  its _ := List.range n
  get s i := do
    check dbg (i < n) .badIndex
    rd dbg s (addr i)
  put s i t := do
    check dbg (i < n) .badIndex
    wr dbg s (addr i) t
  ref s i t := do
    check dbg (i < n) .badIndex
    wr dbg s (addr i) t
  clear s := loop (fun i s => wr dbg s (addr i) 0) n s
  insert s i t := do
    check dbg (i < n) .badIndex
    wr dbg s (addr i) t

/-- A compressed_vector (Model/CompressedVector).  Writing through an iterator standing at index `i` writes the value cell of that element:
vector_sparse.hpp:1353-1359. -/
def VT.compressed [Zero R] (dbg : Bool) (IB : Nat) (junk : CVec.Junk R) : VT (CVec R) R where
  size v := v.size
  cat := .sparse
  its v := (v.idx.take v.filled).map (· - IB)
  get v i := v.get dbg IB 0 i
  put v i t := do
    match ← v.slot IB i with
    | none => .error .ub
    | some n => do
      let val ← wr dbg v.val n t
      .ok { v with val := val }
  ref v i t := v.modify dbg IB 0 junk i (fun _ => t)
  clear v := v.clear dbg IB
  insert v i t := do
    let r ← v.insertElement dbg IB 0 junk i t
    .ok r.1

/-- Row `i` of a triangular_matrix as a `matrix_row` target: matrix_proxy.hpp:98-120, iterators `find2 (1, i, 0)` … `find2 (1, i, size2)` of the mutable
structure (triangular.hpp:327-342).  A matrix_row has no `clear` / `insert_element`. -/
def VT.triRow [Zero R] [One R] (dbg : Bool) (t : Tri) (o : Orient) (i : Nat) : VT (Packed.TMat R) R where
  size m := m.size2
  cat := .packed
  its m := List.range' (Packed.restrict2 .mut t i 0 m.size1 m.size2) (Packed.restrict2 .mut t i m.size2 m.size1 m.size2 - Packed.restrict2 .mut t i 0 m.size1 m.size2)
  get m j := m.get dbg t o i j
  put m j x := m.set dbg t o i j x
  ref m j x := m.set dbg t o i j x
  clear _ := .error .internalLogic
  insert _ _ _ := .error .internalLogic

namespace VAssign
variable [Add R] [Sub R] [Zero R] [DecidableEq R]

/-- `vector (ae)`: vector.hpp:126-133: `data_ (ae ().size ())` (uninitialised storage = `junk`), then `vector_assign<scalar_assign>`. -/
def vectorFrom (dbg : Bool) (mode : ProdFn.Mode) (junk : Nat → R) (e : Seq R) : M (List R) :=
  assign dbg mode .dense (VT.view dbg e.size id) .assign (VExpr.const e) ((List.range e.size).map junk)

/-- `v = ae`: `self_type temporary (ae); assign_temporary (temporary)`: vector.hpp:326-332; `ae` is evaluated while `v` is unchanged.  `v += ae` and `v -= ae`
build `*this ± ae` instead (vector.hpp:357-361, 395-399), which is the expression `e`. -/
def assignExpr (dbg : Bool) (mode : ProdFn.Mode) (junk : Nat → R) (e : List R → Seq R) (v : List R) : M (List R) :=
  vectorFrom dbg mode junk (e v)

/-- `noalias (v) = ae` / `v.assign (ae)`: definitions.hpp:56-60, vector.hpp:340-344 — no temporary. -/
def noaliasExpr (dbg : Bool) (mode : ProdFn.Mode) (e : VExpr (List R) R) (v : List R) : M (List R) :=
  assign dbg mode .dense (VT.view dbg v.length id) .assign e v

/-- `view = ae` for a vector_range, vector_slice, matrix_row or matrix_column: `vector_assign<scalar_assign> (*this, temporary (ae))`: vector_proxy.hpp:148-153,
728-733. -/
def viewAssignExpr (dbg : Bool) (mode : ProdFn.Mode) (junk : Nat → R) (n : Nat) (addr : Nat → Nat) (e : List R → Seq R) (data : List R) : M (List R) := do
  let t ← vectorFrom dbg mode junk (e data)
  let els ← denseVecEls dbg t
  assign dbg mode .denseProxy (VT.view dbg n addr) .assign (VExpr.const ⟨t.length, .dense, els, rd dbg t⟩) data

/-- The dense vector itself as an operand. vector.hpp:222-235, 496-668. -/
def denseSeq (dbg : Bool) (v : List R) : M (Seq R) := do
  let els ← denseVecEls dbg v
  .ok ⟨v.length, .dense, els, rd dbg v⟩

/-- The view itself as an operand: vector_proxy.hpp:104-135, 230-300. -/
def viewSeq (dbg : Bool) (n : Nat) (addr : Nat → Nat) (data : List R) : M (Seq R) := do
  let els ← walkIdx (fun i => rd dbg data (addr i)) n 0 n
  .ok ⟨n, .dense, els, fun i => rd dbg data (addr i)⟩

/-- `v += ae` / `v -= ae`: `self_type temporary (*this + ae); assign_temporary (temporary)`: vector.hpp:357-361, 395-399. -/
def opAssignExpr (dbg : Bool) (mode : ProdFn.Mode) (junk : Nat → R) (F : AssignF) (e : List R → Seq R) (v : List R) : M (List R) := do
  let a ← denseSeq dbg v
  let q ← Expr.binary dbg F.apply a (e v)
  vectorFrom dbg mode junk q

/-- `view += ae` / `view -= ae`: `vector_assign<scalar_assign> (*this, temporary (*this + ae))`: vector_proxy.hpp:160-165, 173-178, 739-744, 752-757. -/
def viewOpAssignExpr (dbg : Bool) (mode : ProdFn.Mode) (junk : Nat → R) (F : AssignF) (n : Nat) (addr : Nat → Nat) (e : List R → Seq R) (data : List R) : M (List R) := do
  let a ← viewSeq dbg n addr data
  let q ← Expr.binary dbg F.apply a (e data)
  viewAssignExpr dbg mode junk n addr (fun _ => q) data

/-- `compressed_vector (ae, non_zeros)`: vector_sparse.hpp:891-897. -/
def compressedFrom (dbg : Bool) (mode : ProdFn.Mode) (IB : Nat) (junk : CVec.Junk R) (e : Seq R) (nz : Nat) : M (CVec R) := do
  let v ← CVec.ctor dbg IB junk e.size nz
  assign dbg mode .sparse (VT.compressed dbg IB junk) .assign (VExpr.const e) v

/-- `v = ae` for a compressed_vector: vector_sparse.hpp:1107-1110. -/
def compressedAssign (dbg : Bool) (mode : ProdFn.Mode) (IB : Nat) (junk : CVec.Junk R) (e : CVec R → Seq R) (v : CVec R) : M (CVec R) :=
  compressedFrom dbg mode IB junk (e v) v.cap

/-- `v += ae` / `v -= ae` for a compressed_vector: vector_sparse.hpp:1120-1124, 1139-1142. -/
def compressedOpAssign (dbg : Bool) (mode : ProdFn.Mode) (IB : Nat) (junk : CVec.Junk R) (F : AssignF) (e : CVec R → Seq R) (v : CVec R) : M (CVec R) := do
  let els ← v.traverseFrom dbg IB 0
  let q ← Expr.binary dbg F.apply ⟨v.size, .sparse, els, v.get dbg IB 0⟩ (e v)
  compressedFrom dbg mode IB junk q v.cap

/-- `noalias (v) = ae` for a compressed_vector: definitions.hpp:56-60, vector_sparse.hpp:1113-1116. -/
def noaliasCompressed (dbg : Bool) (mode : ProdFn.Mode) (IB : Nat) (junk : CVec.Junk R) (e : VExpr (CVec R) R) (v : CVec R) : M (CVec R) :=
  assign dbg mode .sparse (VT.compressed dbg IB junk) .assign e v

end VAssign

/-- An element-wise expression that reads element `i` of the dense target to produce its element `i`, e.g. `2 * v + w`: `g i x = 2 * x + w i`.  `cat` is `sparse` if
one of the operands is (iterator_restrict_traits), although the merged iterators then still visit every index, since `v` is dense. Specialises the interface: vector_expression.hpp:248-545, 551-1000 with a dense operand that is the target. -/
def VExpr.elementwise (dbg : Bool) (cat : Cat) (n : Nat) (g : Nat → R → R) : VExpr (List R) R :=
  ⟨n, cat, fun _ => (List.range n).map fun i => (i, fun s => do
    let x ← rd dbg s i
    .ok (g i x)), fun i s => do
    let x ← rd dbg s i
    .ok (g i x)⟩

/-- `t * v` for a compressed_vector `v`, reading `v` when evaluated: vector_expression.hpp:1036-1050, 1075-1150 over vector_sparse.hpp:1195-1230. -/
def VExpr.scaledCompressed [Mul R] [Zero R] (dbg : Bool) (IB n : Nat) (t : R) : VExpr (CVec R) R :=
  ⟨n, .sparse, fun v => ((v.idx.take v.filled).map (· - IB)).map fun i => (i, fun s => do
    let x ← s.get dbg IB 0 i
    .ok (t * x)), fun i s => do
    let x ← s.get dbg IB 0 i
    .ok (t * x)⟩

/-- `prod (A, v)` for a dense target `v`, evaluated lazily (matrix_expression.hpp:4064-4090). -/
def VExpr.prodVec [Semiring R] (dbg : Bool) (A : MSeq R) : VExpr (List R) R :=
  let el (i : Nat) (s : List R) : M R := do
    let els ← denseVecEls dbg s
    ProdFn.mv1At dbg A ⟨s.length, .dense, els, rd dbg s⟩ i
  ⟨A.size1, .dense, fun _ => (List.range A.size1).map fun i => (i, el i), el⟩

/-! ## swap of packed views -/
namespace VSwap
open VAssign (advance)
variable [Zero R]

/-- `while (-- size >= 0) functor_type::apply (*it, *ite), ++ it, ++ ite;` with `scalar_swap`, both views on the same matrix. A client's loop; the iterator operations are cited at their definitions. -/
def swapLoop {σ : Type} (T1 T2 : VT σ R) : List Nat → List Nat → σ → M σ
  | i :: l, j :: r, s => do
    let x ← T1.get s i
    let y ← T2.get s j
    let s ← T1.put s i y
    let s ← T2.put s j x
    swapLoop T1 T2 l r s
  | _, _, s => .ok s

/-- The first offset branch: `ite` is advanced to the index of `it`; vector_assign.hpp:529-535. -/
def align (it ite : List Nat) : List Nat :=
  match it, ite with
  | i :: _, j :: _ => ite.drop (advance i j ite.length)
  | _, _ => ite

/-- The second offset branch: only `it_size` is reduced, `it` stays: vector_assign.hpp:536-541. -/
def remaining (it ite : List Nat) : Nat :=
  match it, ite with
  | i :: _, j :: _ => it.length - advance j i it.length
  | _, _ => it.length

/-- Packed (proxy) case of `vector_swap`: vector_assign.hpp:517-547. -/
def packed {σ : Type} (T1 T2 : VT σ R) (s : σ) : M σ :=
  let it := T1.its s
  let ite := align it (T2.its s)
  let size := min (remaining it ite) ite.length
  swapLoop T1 T2 (it.take size) (ite.take size) s

end VSwap
end Ublas
