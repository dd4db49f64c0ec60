import Verif.Model.Banded
/-! Specification of a banded matrix: shape, bandwidths and a value for every band position. -/
namespace Ublas.BandSpec
variable {α : Type}

structure Spec (α : Type) where
  rows : Nat
  cols : Nat
  lower : Nat
  upper : Nat
  val : Nat → Nat → Option α

/-- (i,j) lies on a stored diagonal: `lower` diagonals below, `upper` above the main one. -/
def InBand (l u i j : Nat) : Prop := (j : Int) - i ≤ u ∧ (i : Int) - j ≤ l

def step [Zero α] (s : Spec α) : BMat.Op α → Spec α
  | .insert i j t => { s with val := fun a b => if a = i ∧ b = j then some t else s.val a b }
  | .erase i j => { s with val := fun a b => if a = i ∧ b = j then some 0 else s.val a b }
  | .clear => { s with val := fun _ _ => some 0 }
  | .resize r c l u => ⟨r, c, l, u, fun _ _ => none⟩

def legal (s : Spec α) : BMat.Op α → Prop
  | .insert i j _ => i < s.rows ∧ j < s.cols ∧ InBand s.lower s.upper i j
  | .erase i j => i < s.rows ∧ j < s.cols ∧ InBand s.lower s.upper i j
  | .clear => True
  | .resize _ _ _ _ => True

def run [Zero α] : Spec α → List (BMat.Op α × (Nat → α)) → Spec α
  | s, [] => s
  | s, (op, _) :: ops => run (step s op) ops
def legalRun [Zero α] : Spec α → List (BMat.Op α × (Nat → α)) → Prop
  | _, [] => True
  | s, (op, _) :: ops => legal s op ∧ legalRun (step s op) ops

/-- In-band elements hold the abstract value, off-band elements read zero. -/
def Implements [Zero α] (dbg : Bool) (o : Orient) (m : BMat α) (s : Spec α) : Prop :=
  m.size1 = s.rows ∧ m.size2 = s.cols ∧ m.lower = s.lower ∧ m.upper = s.upper ∧
  ∀ i j, i < s.rows → j < s.cols →
    (InBand s.lower s.upper i j → ∃ v, m.get dbg o i j = .ok v ∧ ∀ w, s.val i j = some w → v = w) ∧
    (¬ InBand s.lower s.upper i j → m.get dbg o i j = .ok 0)

end Ublas.BandSpec
