import Verif.Model.Dense
/-! Specification of a dense matrix: a shape and a value (or "unspecified") for every index pair. -/
namespace Ublas.DenseSpec
variable {α : Type}

/-- Abstract matrix: `val i j = none` means the value is unspecified (never written since allocated). -/
structure Spec (α : Type) where
  rows : Nat
  cols : Nat
  val : Nat → Nat → Option α

/-- What each public operation is documented to do. -/
def step (zero : α) (s : Spec α) : Dense.Op α → Spec α
  | .insert i j t => { s with val := fun a b => if a = i ∧ b = j then some t else s.val a b }
  | .erase i j => { s with val := fun a b => if a = i ∧ b = j then some zero else s.val a b }
  | .clear => { s with val := fun _ _ => some zero }
  | .resize r c true =>
      { rows := r, cols := c, val := fun a b => if a < s.rows ∧ b < s.cols then s.val a b else none }
  | .resize r c false => { rows := r, cols := c, val := fun _ _ => none }

/-- The index preconditions of the operations. -/
def legal (s : Spec α) : Dense.Op α → Prop
  | .insert i j _ => i < s.rows ∧ j < s.cols
  | .erase i j => i < s.rows ∧ j < s.cols
  | .clear => True
  | .resize _ _ _ => True

/-- Every operation of a history is legal when it is executed. -/
def legalRun (zero : α) : Spec α → List (Dense.Op α × (Nat → α)) → Prop
  | _, [] => True
  | s, (op, _) :: ops => legal s op ∧ legalRun zero (step zero s op) ops

def run (zero : α) : Spec α → List (Dense.Op α × (Nat → α)) → Spec α
  | s, [] => s
  | s, (op, _) :: ops => run zero (step zero s op) ops

/-- A concrete matrix implements an abstract one: same shape, and each specified element is what
`m (i, j)` reads (in-range reads never fault). -/
def Implements (dbg : Bool) (o : Orient) (m : Dense α) (s : Spec α) : Prop :=
  m.size1 = s.rows ∧ m.size2 = s.cols ∧
  ∀ i j, i < s.rows → j < s.cols → ∃ v, m.get dbg o i j = .ok v ∧ ∀ w, s.val i j = some w → v = w

end Ublas.DenseSpec
