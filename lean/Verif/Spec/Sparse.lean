import Verif.Model.Mapped
/-! Specification of sparse containers: a size and a partial function of stored elements; the value of
an element is the stored one or zero. -/
namespace Ublas.SparseSpec
variable {α : Type}

structure Vec (α : Type) where
  size : Nat
  val : Nat → Option α

/-- "at most `n` elements are stored" -/
def AtMost {ι : Type} (n : Nat) (val : ι → Option α) : Prop :=
  ∀ L : List ι, L.Nodup → (∀ i ∈ L, val i ≠ none) → L.length ≤ n

def vstep (zero : α) (s : Vec α) : SVOp α → Vec α
  | .modify i f => { s with val := fun j => if j = i then some (f ((s.val i).getD zero)) else s.val j }
  | .insert i t => { s with val := fun j => if j = i then some t else s.val j }
  | .erase i => { s with val := fun j => if j = i then none else s.val j }
  | .clear => { s with val := fun _ => none }
  | .resize n true => { size := n, val := fun j => if j < n then s.val j else none }
  | .resize n false => { size := n, val := fun _ => none }
  | .reserve _ => s

def vlegal (s : Vec α) : SVOp α → Prop
  | .modify i _ => i < s.size
  | .insert i _ => i < s.size ∧ s.val i = none
  | .erase _ => True
  | .clear => True
  | .resize _ _ => True
  | .reserve n => AtMost n s.val

def vrun (zero : α) : Vec α → List (SVOp α) → Vec α
  | s, [] => s
  | s, op :: ops => vrun zero (vstep zero s op) ops

def vlegalRun (zero : α) : Vec α → List (SVOp α) → Prop
  | _, [] => True
  | s, op :: ops => vlegal s op ∧ vlegalRun zero (vstep zero s op) ops

/-- `E` is the list of stored (index, value) pairs in increasing index order. -/
def Lists (E : List (Nat × α)) (val : Nat → Option α) : Prop :=
  E.Pairwise (fun a b => a.1 < b.1) ∧ ∀ i v, (i, v) ∈ E ↔ val i = some v

structure Mat (α : Type) where
  rows : Nat
  cols : Nat
  val : Nat × Nat → Option α

def mstep (zero : α) (s : Mat α) : SMOp α → Mat α
  | .modify i j f => { s with val := fun p => if p = (i, j) then some (f ((s.val (i, j)).getD zero)) else s.val p }
  | .insert i j t => { s with val := fun p => if p = (i, j) then some t else s.val p }
  | .erase i j => { s with val := fun p => if p = (i, j) then none else s.val p }
  | .clear => { s with val := fun _ => none }
  | .resize r c => { rows := r, cols := c, val := fun _ => none }
  | .reserve _ => s

def mlegal (s : Mat α) : SMOp α → Prop
  | .modify i j _ => i < s.rows ∧ j < s.cols
  | .insert i j _ => i < s.rows ∧ j < s.cols ∧ s.val (i, j) = none
  | .erase i j => i < s.rows ∧ j < s.cols
  | .clear => True
  | .resize _ _ => True
  | .reserve n => AtMost n s.val

def mrun (zero : α) : Mat α → List (SMOp α) → Mat α
  | s, [] => s
  | s, op :: ops => mrun zero (mstep zero s op) ops

def mlegalRun (zero : α) : Mat α → List (SMOp α) → Prop
  | _, [] => True
  | s, op :: ops => mlegal s op ∧ mlegalRun zero (mstep zero s op) ops

end Ublas.SparseSpec
