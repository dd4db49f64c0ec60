import Verif.Model.Operation
/-!
# block_prod: operation_blocked.hpp

Modelled: the default build (BOOST_UBLAS_NO_CACHE not defined) with a dense result type (`vector<T>`, `matrix<T, L>`).  Not modelled: the BOOST_UBLAS_TYPE_CHECK
re-computation.
-/
namespace Ublas
variable {σ R : Type}

/-- `project (v, range (b, e))` of any vector expression: vector_proxy.hpp:102-120 (access), 244-250 (find), 280-400 (iterators, index () - start): what the iterators of `v`
visit between `find (b)` and `find (e)`. -/
def Seq.project (s : Seq R) (b e : Nat) : Seq R :=
  ⟨e - b, s.cat, (s.els.filter fun p => b ≤ p.1 ∧ p.1 < e).map fun p => (p.1 - b, p.2), fun i => s.at_ (b + i)⟩

/-- `project (m, range (b1, e1), range (b2, e2))` of any matrix expression: matrix_proxy.hpp:2470-2485 (access), 2624-2660 (find), 2690-2965 (iterators). -/
def MSeq.project (m : MSeq R) (b1 e1 b2 e2 : Nat) : MSeq R :=
  ⟨e1 - b1, e2 - b2, m.cat, fun i => ((m.row (b1 + i)).project b2 e2).els, fun j => ((m.col (b2 + j)).project b1 e1).els, fun i j => m.at_ (b1 + i) (b2 + j)⟩

/-- The lines the outer iterators of the projection visit, given those of the matrix: matrix_proxy.hpp:2624-2660, 2878-2890. -/
def projLines (ls : List Nat) (b e : Nat) : List Nat := (ls.filter fun i => b ≤ i ∧ i < e).map (· - b)

/-- A dense matrix as an operand of `prod`.  (Reading inside the sizes cannot fail: `dense_operand`.)  matrix.hpp:237-248 (access), 552-570, 875-893 (iteration). -/
def Dense.toMSeq (dbg : Bool) (o : Orient) (m : Dense R) : MSeq R :=
  ⟨m.size1, m.size2, .dense, fun i => (m.rowEls dbg o i).toOption.getD [], fun j => (m.colEls dbg o j).toOption.getD [], m.get dbg o⟩

/-- `prod (A, x)` of two dense operands as a vector expression (`matrix_vector_binary1`): matrix_expression.hpp:4064-4078, 4118-4175; one element per row. -/
def Expr.prodVec [Semiring R] (dbg : Bool) (mode : ProdFn.Mode) (A : MSeq R) (x : Seq R) : M (Seq R) := do
  let els ← (List.range A.size1).mapM fun i => do
    let t ← ProdFn.mv1It dbg mode A x i
    .ok (i, t)
  .ok ⟨A.size1, A.cat.restrict x.cat, els, ProdFn.mv1At dbg A x⟩

/-- `prod (x, A)` (`matrix_vector_binary2`): matrix_expression.hpp:4470-4484, 4524-4581. -/
def Expr.vecProd [Semiring R] (dbg : Bool) (mode : ProdFn.Mode) (x : Seq R) (A : MSeq R) : M (Seq R) := do
  let els ← (List.range A.size2).mapM fun j => do
    let t ← ProdFn.mv2It dbg mode x A j
    .ok (j, t)
  .ok ⟨A.size2, x.cat.restrict A.cat, els, ProdFn.mv2At dbg x A⟩

/-- `prod (A, B)` of two dense operands (`matrix_matrix_binary`), iterated along orientation `o`: matrix_expression.hpp:4883-4895, 4960-5060, 5222-5320. -/
def Expr.prodMat [Semiring R] (dbg : Bool) (mode : ProdFn.Mode) (o : Orient) (A B : MSeq R) : M (MExp R) := do
  let lines ← (List.range (o.sizeM A.size1 B.size2)).mapM fun k => do
    let l ← (List.range (o.sizem A.size1 B.size2)).mapM fun l => do
      let t ← ProdFn.mmIt dbg mode A B (o.indexM k l) (o.indexm k l)
      .ok (l, t)
    .ok (k, l)
  .ok ⟨o.sizeM A.size1 B.size2, o.sizem A.size1 B.size2, A.cat.restrict B.cat, lines, fun k l => ProdFn.mmAt dbg A B (o.indexM k l) (o.indexm k l)⟩

namespace Blocked

/-- `for (b = 0; b < n; b += BS) { e = b + min (n - b, BS); … }`: operation_blocked.hpp:44-45, 54-55, 99-100, 109-110, 156-159, 168-169, 217-220, 229-230.
`fuel` bounds the rounds. -/
def blocks (BS n : Nat) (body : Nat → Nat → σ → M σ) : (fuel : Nat) → Nat → σ → M σ
  | 0, _, _ => .error .diverge
  | f + 1, b, s => if b < n then do
      let s ← body b (b + min (n - b) BS) s
      blocks BS n body f (b + BS) s
    else .ok s

variable [CommRing R] [DecidableEq R]

/-- An uninitialised array of `n` cells. `unbounded_array` of an uninitialised result: storage.hpp:64-79. -/
def fresh (junk : Nat → R) (n : Nat) : List R := (List.range n).map junk

/-- `matrix<T, o> t (e)`: matrix.hpp:167-173. -/
def tempMat (dbg : Bool) (mode : ProdFn.Mode) (junk : Nat → R) (o : Orient) (A : MSeq R) (ls : List Nat) : M (Dense R) := do
  let e := match o with
    | .row => MExp.byRows A ls
    | .col => MExp.byCols A ls
  let data ← MAssign.assign dbg mode .dense
    (MT.view dbg (o.sizeM A.size1 A.size2) (o.sizem A.size1 A.size2) fun k l => o.elementRaw (o.indexM k l) A.size1 (o.indexm k l) A.size2) .assign e
    (fresh junk (A.size1 * A.size2))
  .ok ⟨A.size1, A.size2, data⟩

/-- `block_prod<V, BS> (A, x)`: operation_blocked.hpp:23-76.  `ls`: the rows the outer iterators of `A` visit. -/
def matVec (dbg : Bool) (mode : ProdFn.Mode) (junk : Nat → R) (BS : Nat) (A : MSeq R) (ls : List Nat) (x : Seq R) : M (List R) := do
  let v := fresh junk A.size1
  let i_size := A.size1
  let j_size ← same dbg A.size2 x.size
  blocks BS i_size (fun i_begin i_end v => do
    let v_range := fresh junk (i_end - i_begin)
    let T : VT (List R) R := VT.view dbg (i_end - i_begin) id
    let v_range ← VAssign.assign dbg mode .dense T .assign (VExpr.const (Seq.zero (i_end - i_begin))) v_range
    let v_range ← blocks BS j_size (fun j_begin j_end v_range => do
      let e1_range ← tempMat dbg mode junk .row (A.project i_begin i_end j_begin j_end) (projLines ls i_begin i_end)
      let e2_range ← Axpy.tempSeq dbg mode junk (x.project j_begin j_end)
      let p ← Expr.prodVec dbg mode (e1_range.toMSeq dbg .row) e2_range
      VAssign.assign dbg mode .dense T .plus (VExpr.const p) v_range) (j_size + 1) 0 v_range
    let q ← VAssign.denseSeq dbg v_range
    VAssign.assign dbg mode .denseProxy (VT.view dbg (i_end - i_begin) (i_begin + ·)) .assign (VExpr.const q) v) (i_size + 1) 0 v

/-- `block_prod<V, BS> (x, A)`: operation_blocked.hpp:78-130.  `ls`: the columns the outer iterators of `A` visit. -/
def vecMat (dbg : Bool) (mode : ProdFn.Mode) (junk : Nat → R) (BS : Nat) (x : Seq R) (A : MSeq R) (ls : List Nat) : M (List R) := do
  let v := fresh junk A.size2
  let i_size ← same dbg x.size A.size1
  let j_size := A.size2
  blocks BS j_size (fun j_begin j_end v => do
    let v_range := fresh junk (j_end - j_begin)
    let T : VT (List R) R := VT.view dbg (j_end - j_begin) id
    let v_range ← VAssign.assign dbg mode .dense T .assign (VExpr.const (Seq.zero (j_end - j_begin))) v_range
    let v_range ← blocks BS i_size (fun i_begin i_end v_range => do
      let e1_range ← Axpy.tempSeq dbg mode junk (x.project i_begin i_end)
      let e2_range ← tempMat dbg mode junk .col (A.project i_begin i_end j_begin j_end) (projLines ls j_begin j_end)
      let p ← Expr.vecProd dbg mode e1_range (e2_range.toMSeq dbg .col)
      VAssign.assign dbg mode .dense T .plus (VExpr.const p) v_range) (i_size + 1) 0 v_range
    let q ← VAssign.denseSeq dbg v_range
    VAssign.assign dbg mode .denseProxy (VT.view dbg (j_end - j_begin) (j_begin + ·)) .assign (VExpr.const q) v) (j_size + 1) 0 v

/-- The dense matrix `m_range` as the right-hand side of an assignment along its own orientation: its outer iterators visit every line (matrix.hpp:875-1000). -/
def denseExp (dbg : Bool) (o : Orient) (m : Dense R) : MExp R :=
  match o with
  | .row => MExp.byRows (m.toMSeq dbg .row) (List.range m.size1)
  | .col => MExp.byCols (m.toMSeq dbg .col) (List.range m.size2)

/-- One block of `block_prod<M, BS> (A, B)`: operation_blocked.hpp:160-186 and 221-247.  `b`, `e` delimit the major index, `b'`, `e'` the minor one.
`lsA`: the rows the outer iterators of `A` visit; `lsB`: the columns those of `B` visit. -/
def block (dbg : Bool) (mode : ProdFn.Mode) (junk : Nat → R) (BS : Nat) (o : Orient) (A B : MSeq R) (lsA lsB : List Nat) (i_size j_size k_size : Nat) (b e b' e' : Nat)
    (m : List R) : M (List R) := do
  let i_begin := o.indexM b b'
  let i_end := o.indexM e e'
  let j_begin := o.indexm b b'
  let j_end := o.indexm e e'
  let r := i_end - i_begin
  let c := j_end - j_begin
  let T : MT (List R) R := MT.view dbg (e - b) (e' - b') fun k l => o.elementRaw (o.indexM k l) r (o.indexm k l) c
  let m_range ← MAssign.assign dbg mode .dense T .assign (MExp.zero (e - b) (e' - b')) (fresh junk (r * c))
  let m_range ← blocks BS k_size (fun k_begin k_end m_range => do
    let e1_range ← tempMat dbg mode junk .row (A.project i_begin i_end k_begin k_end) (projLines lsA i_begin i_end)
    let e2_range ← tempMat dbg mode junk .col (B.project k_begin k_end j_begin j_end) (projLines lsB j_begin j_end)
    let p ← Expr.prodMat dbg mode o (e1_range.toMSeq dbg .row) (e2_range.toMSeq dbg .col)
    MAssign.assign dbg mode .dense T .plus p m_range) (k_size + 1) 0 m_range
  MAssign.assign dbg mode .denseProxy (MT.view dbg (e - b) (e' - b') fun k l => o.elementRaw (o.indexM (b + k) (b' + l)) i_size (o.indexm (b + k) (b' + l)) j_size)
    .assign (denseExp dbg o ⟨r, c, m_range⟩) m

/-- `block_prod<M, BS> (A, B)` for a row_major (operation_blocked.hpp:132-191) or column_major (193-252) result: the outer loop runs over the major blocks, the next
over the minor ones. -/
def matMat (dbg : Bool) (mode : ProdFn.Mode) (junk : Nat → R) (BS : Nat) (o : Orient) (A B : MSeq R) (lsA lsB : List Nat) : M (Dense R) := do
  let i_size := A.size1
  let j_size := B.size2
  let k_size ← same dbg A.size2 B.size1
  let data ← blocks BS (o.sizeM i_size j_size) (fun b e m => blocks BS (o.sizem i_size j_size) (fun b' e' m =>
    block dbg mode junk BS o A B lsA lsB i_size j_size k_size b e b' e' m) (o.sizem i_size j_size + 1) 0 m)
    (o.sizeM i_size j_size + 1) 0 (fresh junk (i_size * j_size))
  .ok ⟨i_size, j_size, data⟩

end Blocked
end Ublas
