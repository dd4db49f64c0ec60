import Verif.Spec.Coo
import Verif.Spec.VectorOfVector
import Verif.Model.VoVCoord
/-! Specification of generalized_vector_of_vector over coordinate vectors: two sizes, a partial function of stored elements where `append_element` adds, and for
every line of the storage direction the bit whether it is sorted (nothing was inserted or appended since it was last sorted). -/
namespace Ublas.CooSpec
variable {α : Type}

structure VVCState (α : Type) where
  rows : Nat
  cols : Nat
  val : Nat × Nat → Option α
  sorted : Nat → Bool

/-- Effect of an operation: positions not mentioned keep their element, lines not mentioned their bit. -/
def vvcstep [Add α] [Zero α] (o : Orient) (s : VVCState α) : VVCOp α → VVCState α
  | .modify i j f => { s with val := fun p => if p = (i, j) then some (f ((s.val (i, j)).getD 0)) else s.val p,
                              sorted := fun k => if k = o.indexM i j then (s.val (i, j)).isSome else s.sorted k }
  | .insert i j t => { s with val := fun p => if p = (i, j) then some t else s.val p, sorted := fun k => if k = o.indexM i j then false else s.sorted k }
  | .append i j t => { s with val := fun p => if p = (i, j) then some ((s.val (i, j)).getD 0 + t) else s.val p,
                              sorted := fun k => if k = o.indexM i j then false else s.sorted k }
  | .erase i j => { s with val := fun p => if p = (i, j) then none else s.val p, sorted := fun k => if k = o.indexM i j then true else s.sorted k }
  | .clear => { s with val := fun _ => none, sorted := fun _ => true }
  | .sort => { s with sorted := fun _ => true }
  | .read i j => { s with sorted := fun k => if k = o.indexM i j then true else s.sorted k }
  | .resize r c true => ⟨r, c, fun p => if p.1 < r ∧ p.2 < c then s.val p else none, fun _ => true⟩
  | .resize r c false => ⟨r, c, fun _ => none, fun _ => true⟩

/-- What the caller must respect.  A preserving `resize` to fewer lines needs the first line it drops to be sorted (C126). -/
def vvclegal (o : Orient) (s : VVCState α) : VVCOp α → Prop
  | .modify i j _ => i < s.rows ∧ j < s.cols
  | .insert i j _ => i < s.rows ∧ j < s.cols ∧ s.val (i, j) = none
  | .append i j _ => i < s.rows ∧ j < s.cols
  | .erase i j => i < s.rows ∧ j < s.cols
  | .clear => True
  | .sort => True
  | .read i j => i < s.rows ∧ j < s.cols
  | .resize r c true => o.sizeM r c < o.sizeM s.rows s.cols → s.sorted (o.sizeM r c) = true
  | .resize _ _ false => True

def vvcrun [Add α] [Zero α] (o : Orient) : VVCState α → List (VVCOp α) → VVCState α
  | s, [] => s
  | s, op :: ops => vvcrun o (vvcstep o s op) ops

def vvclegalRun [Add α] [Zero α] (o : Orient) : VVCState α → List (VVCOp α) → Prop
  | _, [] => True
  | s, op :: ops => vvclegal o s op ∧ vvclegalRun o (vvcstep o s op) ops

open SparseSpec in
/-- What a client sees: sizes, element reads, iteration over the whole matrix and along any line of the storage direction (each in increasing order, every stored
element once, whatever the order of insertion), the number of stored elements once everything is sorted, and that it stays within the capacity. -/
def VVCObserves [Add α] [Zero α] (P : VVCPar α) (dbg : Bool) (o : Orient) (junk : VoVC.Junk α) (v : VoVC α) (s : VVCState α) : Prop :=
  v.size1 = s.rows ∧ v.size2 = s.cols ∧
  (∀ i j, i < s.rows → j < s.cols → (v.get P dbg o 0 i j).map (·.2) = .ok ((s.val (i, j)).getD 0)) ∧
  (∀ k, k < o.sizeM s.rows s.cols → ∃ E, v.traverseFast P dbg o 0 junk k = .ok E ∧
      MLists (fun p => (o.indexM p.1 p.2, o.indexm p.1 p.2)) E (fun p => if o.indexM p.1 p.2 = k then s.val p else none)) ∧
  (∃ E, v.traverse P dbg o 0 junk = .ok E ∧ MLists (fun p => (o.indexM p.1 p.2, o.indexm p.1 p.2)) E s.val ∧
    ∃ v', v.sort P dbg 0 junk = .ok v' ∧ v'.nnz = E.length) ∧
  v.nnz ≤ v.nnzCapacity ∧
  (∀ i j, ¬ (i < s.rows ∧ j < s.cols) → s.val (i, j) = none)

end Ublas.CooSpec
