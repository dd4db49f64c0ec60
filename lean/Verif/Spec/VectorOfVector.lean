import Verif.Spec.Sparse
import Verif.Model.VectorOfVector
/-! Specification of generalized_vector_of_vector: two sizes and a partial function of stored elements. -/
namespace Ublas.SparseSpec
variable {α : Type}

def vvstep (zero : α) (s : Mat α) : VVOp α → Mat α
  | .modify i j f => { s with val := fun p => if p = (i, j) then some (f ((s.val (i, j)).getD zero)) else s.val p }
  | .insert i j t => { s with val := fun p => if p = (i, j) then some t else s.val p }
  | .erase i j => { s with val := fun p => if p = (i, j) then none else s.val p }
  | .clear => { s with val := fun _ => none }
  | .resize r c true => { rows := r, cols := c, val := fun p => if p.1 < r ∧ p.2 < c then s.val p else none }
  | .resize r c false => { rows := r, cols := c, val := fun _ => none }

def vvlegal (s : Mat α) : VVOp α → Prop
  | .modify i j _ => i < s.rows ∧ j < s.cols
  | .insert i j _ => i < s.rows ∧ j < s.cols ∧ s.val (i, j) = none
  | .erase i j => i < s.rows ∧ j < s.cols
  | .clear => True
  | .resize _ _ _ => True

def vvrun (zero : α) : Mat α → List (VVOp α) → Mat α
  | s, [] => s
  | s, op :: ops => vvrun zero (vvstep zero s op) ops

def vvlegalRun (zero : α) : Mat α → List (VVOp α) → Prop
  | _, [] => True
  | s, op :: ops => vvlegal s op ∧ vvlegalRun zero (vvstep zero s op) ops

/-- `E` lists the stored elements of the matrix, ordered by `key` (strictly increasing, lexicographic). -/
def MLists (key : Nat × Nat → Nat × Nat) (E : List (Nat × Nat × α)) (val : Nat × Nat → Option α) : Prop :=
  E.Pairwise (fun a b => (key (a.1, a.2.1)).1 < (key (b.1, b.2.1)).1 ∨
      ((key (a.1, a.2.1)).1 = (key (b.1, b.2.1)).1 ∧ (key (a.1, a.2.1)).2 < (key (b.1, b.2.1)).2)) ∧
    ∀ i j x, (i, j, x) ∈ E ↔ val (i, j) = some x

/-- What a client sees that is as expected: sizes, element reads, the number of stored elements (within
the reported capacity), iteration over the whole matrix and along any line of the storage direction. -/
def VVObserves (dbg : Bool) (o : Orient) (IB : Nat) (zero : α) (v : VoV α) (s : Mat α) : Prop :=
  v.size1 = s.rows ∧ v.size2 = s.cols ∧
  (∀ i j, i < s.rows → j < s.cols → v.get dbg o IB zero i j = .ok ((s.val (i, j)).getD zero)) ∧
  (∃ E, v.traverse dbg o IB = .ok E ∧ MLists (fun p => (o.indexM p.1 p.2, o.indexm p.1 p.2)) E s.val ∧ v.nnz = E.length) ∧
  (∀ k, k < o.sizeM s.rows s.cols → ∃ E, v.traverseFast dbg o IB k = .ok E ∧
      MLists (fun p => (o.indexM p.1 p.2, o.indexm p.1 p.2)) E (fun p => if o.indexM p.1 p.2 = k then s.val p else none)) ∧
  v.nnz ≤ v.nnzCapacity ∧
  (∀ i j, ¬ (i < s.rows ∧ j < s.cols) → s.val (i, j) = none)

end Ublas.SparseSpec
