import Verif.Model.Operation
/-!
# sparse_prod: operation_sparse.hpp

As in Model/Operation the two orientations are transposes of each other; `lines` are the nested iterators of the coefficient operand (`e1` for row_major, `e2` for
column_major), `line j` the row of `e2` (column of `e1`) number `j`.  The by-value overloads only construct the target and call the modelled ones
(operation_sparse.hpp:157-171, 186-197).
-/
namespace Ublas
variable {σ R : Type}
namespace SparseProd
variable [Add R] [Sub R] [Mul R] [Zero R] [DecidableEq R]

/-- The locals of one round: `temporary`, `jb`, `je`. operation_sparse.hpp:38-43, 97-102. -/
structure Acc3 (R : Type) where
  temporary : List R
  jb : Nat
  je : Nat

/-- `temporary (j) += *it2 * *itr; jb = min (jb, j); je = max (je, j);`: operation_sparse.hpp:57-63, 116-122. -/
def add (dbg : Bool) (t : R) (g : Acc3 R) (u : Nat × R) : M (Acc3 R) := do
  let x ← rd dbg g.temporary u.1
  let tmp ← wr dbg g.temporary u.1 (x + t * u.2)
  .ok ⟨tmp, min g.jb u.1, max g.je u.1⟩

/-- The loops over one line of the coefficient operand: operation_sparse.hpp:44-65, 103-124. -/
def gather (dbg : Bool) (line : Nat → Seq R) (els : List (Nat × R)) (temporary : List R) : M (Acc3 R) :=
  els.foldlM (fun g p => (line p.1).els.foldlM (add dbg p.2) g) ⟨temporary, temporary.length, 0⟩

/-- `for (j = jb; j < je + 1; ++ j) if (temporary (j) != 0) { if (other) m (i, j) = temporary (j); temporary (j) = 0; }`: operation_sparse.hpp:67-78, 126-137. -/
def flush (dbg : Bool) (other : Nat → Nat → Bool) (V : Acc σ (Nat × Nat) R) (k : Nat) (g : Acc3 R) (s : σ) : M (List R × σ) :=
  loop (fun d st => do
    let j := g.jb + d
    let t ← rd dbg st.1 j
    if t ≠ 0 then do
      let s ← (if other k j then V.set st.2 (k, j) t else .ok st.2 : M σ)
      let tmp ← wr dbg st.1 j 0
      .ok (tmp, s)
    else .ok st) (g.je + 1 - g.jb) (g.temporary, s)

/-- operation_sparse.hpp:23-82 and 84-141. -/
def run (dbg : Bool) (other : Nat → Nat → Bool) (sizem : Nat) (lines : List (Nat × List (Nat × R))) (line : Nat → Seq R) (V : Acc σ (Nat × Nat) R) (s : σ) : M σ := do
  let st ← lines.foldlM (fun st q => do
    let g ← gather dbg line q.2 st.1
    flush dbg other V q.1 g st.2) (List.replicate sizem 0, s)
  .ok st.2

/-- `sparse_prod (A, B, m[, TRI], init)`: operation_sparse.hpp:143-156, 172-185.  `o`: the orientation of `m`; `other`: the triangular restriction by (row, column); `ls`: the
lines the outer iterators of the coefficient operand visit. -/
def prod (dbg : Bool) (mode : ProdFn.Mode) (sc : StorageCat) (T : MT σ R) (o : Orient) (other : Nat → Nat → Bool) (A B : MSeq R) (ls : List Nat) (init : Bool) (s : σ) : M σ := do
  let s ← Axpy.initMat dbg mode sc T init (o.sizeM A.size1 B.size2) (o.sizem A.size1 B.size2) s
  match o with
  | .row => run dbg other B.size2 (MExp.byRows A ls).lines B.row T.acc s
  | .col => run dbg (fun k l => other l k) A.size1 (MExp.byCols B ls).lines A.col T.acc s

end SparseProd
end Ublas
