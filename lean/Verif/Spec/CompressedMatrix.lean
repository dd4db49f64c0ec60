import Verif.Spec.Sparse
import Verif.Model.CompressedMatrix
/-! Specification of compressed_matrix: a shape, a partial function of stored elements, and `opened`, the number of
leading major lines (rows of a row_major matrix) on which elements have been placed and which later removals
have not closed again.  `opened` only restricts which `push_back` calls are allowed. -/
namespace Ublas.SparseSpec
variable {α : Type}

structure CMatS (α : Type) where
  rows : Nat
  cols : Nat
  val : Nat × Nat → Option α
  opened : Nat

/-- Storage order: first by major, then by minor index. -/
def Before (o : Orient) (p q : Nat × Nat) : Prop :=
  o.indexM p.1 p.2 < o.indexM q.1 q.2 ∨ (o.indexM p.1 p.2 = o.indexM q.1 q.2 ∧ o.indexm p.1 p.2 < o.indexm q.1 q.2)

/-- `p` is the last stored element in storage order. -/
def IsLastM (o : Orient) (val : Nat × Nat → Option α) (p : Nat × Nat) : Prop :=
  val p ≠ none ∧ ∀ q, val q ≠ none → q = p ∨ Before o q p

open Classical in
/-- One past the major line of the last stored element (what a removal leaves open). -/
noncomputable def openLast (o : Orient) (val : Nat × Nat → Option α) (dflt : Nat) : Nat :=
  if h : ∃ p, IsLastM o val p then o.indexM h.choose.1 h.choose.2 + 1 else dflt

open Classical in
/-- Effect of an operation: every index pair not mentioned keeps its state. -/
noncomputable def cmstep (o : Orient) (zero : α) (s : CMatS α) : CMOp α → CMatS α
  | .modify i j f =>
      { s with val := fun p => if p = (i, j) then some (f ((s.val (i, j)).getD zero)) else s.val p
               opened := if s.val (i, j) = none then max s.opened (o.indexM i j + 1) else s.opened }
  | .insert i j t =>
      { s with val := fun p => if p = (i, j) then some t else s.val p
               opened := max s.opened (o.indexM i j + 1) }
  | .erase i j =>
      { s with val := fun p => if p = (i, j) then none else s.val p
               opened := if s.val (i, j) = none then s.opened else openLast o s.val s.opened }
  | .clear => { s with val := fun _ => none, opened := 0 }
  | .resize r c => { rows := r, cols := c, val := fun _ => none, opened := 0 }
  | .reserve _ true => s
  | .reserve _ false => { s with val := fun _ => none, opened := 0 }
  | .pushBack i j t =>
      { s with val := fun p => if p = (i, j) then some t else s.val p, opened := o.indexM i j + 1 }
  | .popBack =>
      { s with val := fun p => if IsLastM o s.val p then none else s.val p, opened := openLast o s.val s.opened }
  | .complete => { s with opened := o.sizeM s.rows s.cols }

/-- What the caller must respect. -/
def cmlegal (o : Orient) (s : CMatS α) : CMOp α → Prop
  | .modify i j _ => i < s.rows ∧ j < s.cols
  | .insert i j _ => i < s.rows ∧ j < s.cols ∧ s.val (i, j) = none
  | .erase i j => i < s.rows ∧ j < s.cols
  | .clear => True
  | .resize _ _ => True
  | .reserve n p => p = true → AtMost n s.val
  | .pushBack i j _ => i < s.rows ∧ j < s.cols ∧ s.opened ≤ o.indexM i j + 1 ∧ ∀ q, s.val q ≠ none → Before o q (i, j)
  | .popBack => ∃ p, s.val p ≠ none
  | .complete => True

noncomputable def cmrun (o : Orient) (zero : α) : CMatS α → List (CMOp α) → CMatS α
  | s, [] => s
  | s, op :: ops => cmrun o zero (cmstep o zero s op) ops

def cmlegalRun (o : Orient) (zero : α) : CMatS α → List (CMOp α) → Prop
  | _, [] => True
  | s, op :: ops => cmlegal o s op ∧ cmlegalRun o zero (cmstep o zero s op) ops

/-- The arrays are consistent compressed storage of `s`: there are offsets `off 0 = 0 ≤ off 1 ≤ …` such that cells
`off M … off (M+1) - 1` hold exactly the stored elements of major line `M`, by strictly increasing minor index. -/
def CSRConsistent (o : Orient) (IB : Nat) (v : CMat α) (s : CMatS α) : Prop :=
  ∃ off : Nat → Nat, off 0 = 0 ∧ off s.opened = v.filled2 ∧ (∀ k l, k ≤ l → off k ≤ off l) ∧
    v.filled1 = s.opened + 1 ∧ s.opened ≤ o.sizeM s.rows s.cols ∧ v.idx1.length = o.sizeM s.rows s.cols + 1 ∧
    v.filled2 ≤ v.cap ∧ v.idx2.length = v.cap ∧ v.val.length = v.cap ∧
    (∀ k, k ≤ s.opened → v.idx1[k]? = some (off k + IB)) ∧
    (∀ k n, k < s.opened → off k ≤ n → n < off (k + 1) →
      ∃ m x, v.idx2[n]? = some (m + IB) ∧ v.val[n]? = some x ∧ s.val (o.indexM k m, o.indexm k m) = some x) ∧
    (∀ k n n' x x', k < s.opened → off k ≤ n → n < n' → n' < off (k + 1) → v.idx2[n]? = some x → v.idx2[n']? = some x' → x < x') ∧
    (∀ i j x, s.val (i, j) = some x → o.indexM i j < s.opened ∧ ∃ n, off (o.indexM i j) ≤ n ∧ n < off (o.indexM i j + 1) ∧
      v.idx2[n]? = some (o.indexm i j + IB) ∧ v.val[n]? = some x)

/-- Everything a client can see of the matrix agrees with the specification: shape, element reads, `find_element`, and
the storage arrays. -/
def CMObserves (dbg : Bool) (o : Orient) (IB : Nat) (zero : α) (v : CMat α) (s : CMatS α) : Prop :=
  v.size1 = s.rows ∧ v.size2 = s.cols ∧
  (∀ i j, i < s.rows → j < s.cols → v.get dbg o IB zero i j = .ok ((s.val (i, j)).getD zero)) ∧
  (∀ i j, i < s.rows → j < s.cols → v.findElement dbg o IB i j = .ok (s.val (i, j))) ∧
  (∀ i j, ¬ (i < s.rows ∧ j < s.cols) → s.val (i, j) = none) ∧
  CSRConsistent o IB v s

end Ublas.SparseSpec
