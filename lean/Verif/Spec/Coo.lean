import Verif.Spec.Sparse
import Verif.Model.Coo
/-! Specification of the coordinate containers: a partial function of stored elements, where `append_element`
adds to an element, plus the one bit of history the caller has to know about: whether something was appended
since the container was last sorted (every read, erase, sort or clear sorts). -/
namespace Ublas.CooSpec
open SparseSpec (AtMost)
variable {ι α : Type}

structure State (ι α : Type) where
  val : ι → Option α
  sorted : Bool

/-- `j` is the last stored index in the storage order `lt`. -/
def IsLast (lt : ι → ι → Prop) (val : ι → Option α) (j : ι) : Prop := val j ≠ none ∧ ∀ k, val k ≠ none → k = j ∨ lt k j

open Classical in
/-- Effect of an operation: every index not mentioned keeps its state. -/
noncomputable def step [Add α] [Zero α] (lt : ι → ι → Prop) (s : State ι α) : CooOp ι α → State ι α
  | .modify i f => ⟨fun j => if j = i then some (f ((s.val i).getD 0)) else s.val j, (s.val i).isSome⟩
  | .insert i t => ⟨fun j => if j = i then some t else s.val j, false⟩
  | .append i t => ⟨fun j => if j = i then some ((s.val i).getD 0 + t) else s.val j, false⟩
  | .erase i => ⟨fun j => if j = i then none else s.val j, true⟩
  | .clear => ⟨fun _ => none, true⟩
  | .reserve _ true => ⟨s.val, true⟩
  | .reserve _ false => ⟨fun _ => none, true⟩
  | .pushBack i t => ⟨fun j => if j = i then some t else s.val j, true⟩
  | .popBack => ⟨fun j => if IsLast lt s.val j then none else s.val j, true⟩
  | .sort => ⟨s.val, true⟩

/-- What the caller must respect.  `always`: the non-preserving `reserve` sorts first (coordinate_matrix).
`popBack` on unsorted contents or on the last element is C23; `reserve` below the number of stored elements
is C28; non-preserving `reserve` of an unsorted coordinate_vector is C63. -/
def legal (always : Bool) (lt : ι → ι → Prop) (inside : ι → Prop) (s : State ι α) : CooOp ι α → Prop
  | .modify i _ => inside i
  | .insert i _ => inside i ∧ s.val i = none
  | .append i _ => inside i
  | .erase _ => True
  | .clear => True
  | .reserve n true => AtMost n s.val
  | .reserve _ false => always = true ∨ s.sorted = true
  | .pushBack i _ => inside i ∧ s.sorted = true ∧ ∀ j, s.val j ≠ none → lt j i
  | .popBack => s.sorted = true ∧ ∃ i j, i ≠ j ∧ s.val i ≠ none ∧ s.val j ≠ none
  | .sort => True

/-! ### coordinate_vector -/
structure VState (α : Type) where
  size : Nat
  st : State Nat α

noncomputable def vstep [Add α] [Zero α] (s : VState α) : CoordVecOp α → VState α
  | .core op => ⟨s.size, step (· < ·) s.st op⟩
  | .resize n true => ⟨n, fun j => if j < n then s.st.val j else none, true⟩
  | .resize n false => ⟨n, fun _ => none, true⟩

def vlegal (s : VState α) : CoordVecOp α → Prop
  | .core op => legal false (· < ·) (· < s.size) s.st op
  | .resize _ true => True
  | .resize _ false => s.st.sorted = true

noncomputable def vrun [Add α] [Zero α] : VState α → List (CoordVecOp α) → VState α
  | s, [] => s
  | s, op :: ops => vrun (vstep s op) ops

def vlegalRun [Add α] [Zero α] : VState α → List (CoordVecOp α) → Prop
  | _, [] => True
  | s, op :: ops => vlegal s op ∧ vlegalRun (vstep s op) ops

/-! ### coordinate_matrix -/
structure MState (α : Type) where
  rows : Nat
  cols : Nat
  st : State (Nat × Nat) α

/-- Storage order: by rows for row-major matrices, by columns for column-major ones. -/
def order (o : Orient) (p q : Nat × Nat) : Prop :=
  match o with
  | .row => p.1 < q.1 ∨ (p.1 = q.1 ∧ p.2 < q.2)
  | .col => p.2 < q.2 ∨ (p.2 = q.2 ∧ p.1 < q.1)

noncomputable def mstep [Add α] [Zero α] (o : Orient) (s : MState α) : CoordMatOp α → MState α
  | .core op => ⟨s.rows, s.cols, step (order o) s.st op⟩
  | .resize r c _ => ⟨r, c, fun _ => none, true⟩

/-- The preserving `resize` is not implemented (C27). -/
def mlegal (o : Orient) (s : MState α) : CoordMatOp α → Prop
  | .core op => legal true (order o) (fun p => p.1 < s.rows ∧ p.2 < s.cols) s.st op
  | .resize _ _ p => p = false

noncomputable def mrun [Add α] [Zero α] (o : Orient) : MState α → List (CoordMatOp α) → MState α
  | s, [] => s
  | s, op :: ops => mrun o (mstep o s op) ops

def mlegalRun [Add α] [Zero α] (o : Orient) : MState α → List (CoordMatOp α) → Prop
  | _, [] => True
  | s, op :: ops => mlegal o s op ∧ mlegalRun o (mstep o s op) ops

end Ublas.CooSpec
