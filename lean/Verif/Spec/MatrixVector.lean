import Verif.Model.MatrixVector
/-! Specification of a matrix seen as a vector of lines: `count` lines of `width` elements; `none` is an unspecified value. -/
namespace Ublas
variable {α : Type}

structure Lines (α : Type) where
  count : Nat
  width : Nat
  val : Nat → Nat → Option α

namespace Lines

def step (s : Lines α) : LineOp α → Lines α
  | .set k j t => { s with val := fun a b => if a = k ∧ b = j then some t else s.val a b }
  | .resize n true => { s with count := n, val := fun a b => if a < s.count ∧ b < s.width then s.val a b else none }
  | .resize n false => { s with count := n, val := fun _ _ => none }

def legal (s : Lines α) : LineOp α → Prop
  | .set k j _ => k < s.count ∧ j < s.width
  | .resize _ _ => True

def run : Lines α → List (LineOp α × (Nat → α)) → Lines α
  | s, [] => s
  | s, (op, _) :: ops => run (s.step op) ops

def legalRun : Lines α → List (LineOp α × (Nat → α)) → Prop
  | _, [] => True
  | s, (op, _) :: ops => s.legal op ∧ legalRun (s.step op) ops

end Lines

/-- `v.size ()`, the size of each line and `v [k] (j)` are as specified. -/
def LineAxis.Shows (dbg : Bool) (o : Orient) (ax : LineAxis) (m : Dense α) (s : Lines α) : Prop :=
  ax.size m = s.count ∧ ax.width m = s.width ∧
  ∀ k j, k < s.count → j < s.width → ∃ x, (ax.line k).read dbg o m j = .ok x ∧ ∀ w, s.val k j = some w → x = w

end Ublas
