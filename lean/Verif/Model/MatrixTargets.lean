import Verif.Model.MatrixAssign
import Verif.Model.CompressedMatrix
import Verif.Model.PackedIter
import Verif.Model.Prod
/-! # Matrices as targets of matrix assignment (indices are (major, minor), see Model/MatrixAssign) -/
namespace Ublas
variable {R : Type}

/-- A dense matrix or view with element (k, l) at position `addr k l` of an array: `matrix` (layout address, matrix.hpp:221-260, 279-299), `matrix_range` and
`matrix_slice` of a dense matrix (matrix_proxy.hpp).  The outer iterators of a matrix without minor elements visit nothing (begin and end are the same
address, functional.hpp:1459-1476); a view without minor elements may visit lines, but their inner loops are empty.  `clear` fills the array
(matrix.hpp:292-296). -/
def MT.view [Zero R] (dbg : Bool) (r c : Nat) (addr : Nat → Nat → Nat) : MT (List R) R where
  sizeM _ := r
  sizem _ := c
  cat := .dense
  lines _ := if c = 0 then [] else List.range r
  its _ _ := List.range c
  get s k l := do
    check dbg (k < r) .badIndex
    check dbg (l < c) .badIndex
    rd dbg s (addr k l)
  put s k l t := do
    check dbg (k < r) .badIndex
    check dbg (l < c) .badIndex
    wr dbg s (addr k l) t
  ref s k l t := do
    check dbg (k < r) .badIndex
    check dbg (l < c) .badIndex
    wr dbg s (addr k l) t
  clear s := loop (fun k s => loop (fun l s => wr dbg s (addr k l) 0) c s) r s
  insert s k l t := do
    check dbg (k < r) .badIndex
    check dbg (l < c) .badIndex
    wr dbg s (addr k l) t

/-- The minor indices stored in major line `k`: cells `index1_data_ [k]` … `index1_data_ [k + 1] - 1` of `index2_data_`, what the inner iterators along a line
visit (matrix_sparse.hpp:3289-3334, traversal proved in Props/CMatIter). -/
def CMat.lineIdx (IB : Nat) (v : CMat R) (k : Nat) : List Nat :=
  if k + 1 < v.filled1 then ((v.idx2.take (v.idx1.getD (k + 1) 0 - IB)).drop (v.idx1.getD k 0 - IB)).map (· - IB) else []

/-- A compressed_matrix, assigned along its own orientation: the outer iterators (rank 0) visit every line, also empty ones
(matrix_sparse.hpp:3313-3314, 3676-3685).  Writing through an iterator writes the
value cell of that element: matrix_sparse.hpp:3647-3659. -/
def MT.compressed [Zero R] (dbg : Bool) (o : Orient) (IB : Nat) (junk : CMat.Junk R) : MT (CMat R) R where
  sizeM v := o.sizeM v.size1 v.size2
  sizem v := o.sizem v.size1 v.size2
  cat := .sparse
  lines v := List.range (o.sizeM v.size1 v.size2)
  its v k := v.lineIdx IB k
  get v k l := v.get dbg o IB 0 (o.indexM k l) (o.indexm k l)
  put v k l t := do
    match ← v.slot o IB (o.indexM k l) (o.indexm k l) with
    | none => .error .ub
    | some n => do
      let val ← wr dbg v.val n t
      .ok { v with val := val }
  ref v k l t := v.modify dbg o IB 0 junk (o.indexM k l) (o.indexm k l) (fun _ => t)
  clear v := v.clear dbg o IB
  insert v k l t := do
    let r ← v.insertElement dbg o IB 0 junk (o.indexM k l) (o.indexm k l) t
    .ok r.1

/-- A triangular_matrix of kind lower or upper (not strict, not unit), assigned along its own orientation: the outer iterators visit every line
(`global_mutable_restrict`, functional.hpp:1955-1963), the inner ones the triangle's part of it (triangular.hpp:311-342). -/
def MT.tri [Zero R] [One R] (dbg : Bool) (u : Bool) (o : Orient) : MT (Packed.TMat R) R :=
  let t : Tri := ⟨.lower, u⟩
  { sizeM := fun m => o.sizeM m.size1 m.size2
    sizem := fun m => o.sizem m.size1 m.size2
    cat := .packed
    lines := fun m => List.range (o.sizeM m.size1 m.size2)
    its := fun m k => match o with
      | .row => List.range' (Packed.restrict2 .mut t k 0 m.size1 m.size2) (Packed.restrict2 .mut t k m.size2 m.size1 m.size2 - Packed.restrict2 .mut t k 0 m.size1 m.size2)
      | .col => List.range' (Packed.restrict1 .mut t 0 k m.size1 m.size2) (Packed.restrict1 .mut t m.size1 k m.size1 m.size2 - Packed.restrict1 .mut t 0 k m.size1 m.size2)
    get := fun m k l => m.get dbg t o (o.indexM k l) (o.indexm k l)
    put := fun m k l x => m.set dbg t o (o.indexM k l) (o.indexm k l) x
    ref := fun m k l x => m.set dbg t o (o.indexM k l) (o.indexm k l) x
    clear := fun m => .ok { m with data := List.replicate m.data.length 0 }
    insert := fun m k l x => m.set dbg t o (o.indexM k l) (o.indexm k l) x }

/-- An operand iterated by rows, as the right-hand side of a row_major assignment; `ls` are the rows the outer iterators visit. detail/matrix_assign.hpp:514-577 (row_major loops: `begin1` outside). -/
def MExp.byRows (A : MSeq R) (ls : List Nat) : MExp R := ⟨A.size1, A.size2, A.cat, ls.map fun i => (i, A.rowEls i), A.at_⟩
/-- An operand iterated by columns, as the right-hand side of a column_major assignment. detail/matrix_assign.hpp:514-577 (column_major loops: `begin2` outside). -/
def MExp.byCols (A : MSeq R) (ls : List Nat) : MExp R := ⟨A.size2, A.size1, A.cat, ls.map fun j => (j, A.colEls j), fun j i => A.at_ i j⟩

end Ublas
