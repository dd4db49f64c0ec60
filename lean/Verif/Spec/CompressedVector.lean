import Verif.Spec.Sparse
import Verif.Model.CompressedVector
/-! Specification of compressed_vector: a size and a partial function of stored elements. -/
namespace Ublas.SparseSpec
variable {α : Type}

/-- `j` is the greatest stored index. -/
def IsLast (val : Nat → Option α) (j : Nat) : Prop := val j ≠ none ∧ ∀ k, val k ≠ none → k ≤ j

open Classical in
/-- Effect of an operation: every index not mentioned keeps its state. -/
noncomputable def cvstep (zero : α) (s : Vec α) : CVOp α → Vec α
  | .modify i f => { s with val := fun j => if j = i then some (f ((s.val i).getD zero)) else s.val j }
  | .insert i t => { s with val := fun j => if j = i then some t else s.val j }
  | .erase i => { s with val := fun j => if j = i then none else s.val j }
  | .clear => { s with val := fun _ => none }
  | .resize n true => { size := n, val := fun j => if j < n then s.val j else none }
  | .resize n false => { size := n, val := fun _ => none }
  | .reserve _ true => s
  | .reserve _ false => { s with val := fun _ => none }
  | .pushBack i t => { s with val := fun j => if j = i then some t else s.val j }
  | .popBack => { s with val := fun j => if IsLast s.val j then none else s.val j }

/-- What the caller must respect. -/
def cvlegal (s : Vec α) : CVOp α → Prop
  | .modify i _ => i < s.size
  | .insert i _ => i < s.size ∧ s.val i = none
  | .erase _ => True
  | .clear => True
  | .resize _ _ => True
  | .reserve n p => p = true → AtMost n s.val
  | .pushBack i _ => i < s.size ∧ ∀ j, s.val j ≠ none → j < i
  | .popBack => ∃ j, s.val j ≠ none

noncomputable def cvrun (zero : α) : Vec α → List (CVOp α) → Vec α
  | s, [] => s
  | s, op :: ops => cvrun zero (cvstep zero s op) ops

def cvlegalRun (zero : α) : Vec α → List (CVOp α) → Prop
  | _, [] => True
  | s, op :: ops => cvlegal s op ∧ cvlegalRun zero (cvstep zero s op) ops

/-- Everything a client can see of the vector agrees with the specification: size, element reads,
`find_element`, iteration from any `find (i)`, number of non-zeros within the capacity. -/
def CVObserves (dbg : Bool) (IB : Nat) (zero : α) (v : CVec α) (s : Vec α) : Prop :=
  v.size = s.size ∧
  (∀ i, i < s.size → v.get dbg IB zero i = .ok ((s.val i).getD zero)) ∧
  (∀ i, v.findElement dbg IB i = .ok (s.val i)) ∧
  (∀ i, ∃ E, v.traverseFrom dbg IB i = .ok E ∧ Lists E (fun j => if i ≤ j then s.val j else none)) ∧
  (∃ E, v.traverseFrom dbg IB 0 = .ok E ∧ Lists E s.val ∧ v.filled = E.length) ∧
  v.filled ≤ v.cap ∧ (∀ i, s.size ≤ i → s.val i = none)

end Ublas.SparseSpec
