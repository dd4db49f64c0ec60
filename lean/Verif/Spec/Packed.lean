import Verif.Model.Packed
import Verif.Spec.Dense
/-! Specification of triangular, symmetric and hermitian matrices, in terms of index pairs only. -/
namespace Ublas.PackedSpec
open Packed
variable {α : Type}

/-- Positions whose value can be chosen. -/
def Mutable (t : Tri) (i j : Nat) : Prop :=
  match t.kind, t.upper with
  | .lower, false => j ≤ i
  | .lower, true => i ≤ j
  | _, false => j < i
  | _, true => i < j

instance (t : Tri) (i j : Nat) : Decidable (Mutable t i j) := by
  unfold Mutable; split <;> infer_instance

/-- The value at the other positions: one on the diagonal of a unit triangular matrix, zero elsewhere. -/
def fixedValue [Zero α] [One α] (t : Tri) (i j : Nat) : α := if t.kind = .unit ∧ i = j then 1 else 0

/-- Shapes that can be used: all of them in release builds and for lower/upper; with checks on the unit and
strict kinds need a non-empty shape which is not taller (lower) or wider (upper) than square (see C08). -/
def ShapeOk (dbg : Bool) (t : Tri) (r c : Nat) : Prop :=
  dbg = true → t.kind = .lower ∨ (r ≠ 0 ∧ c ≠ 0 ∧ if t.upper then c ≤ r else r ≤ c)

/-- Preconditions of the operations on a triangular matrix. -/
def legal (dbg : Bool) (t : Tri) (s : DenseSpec.Spec α) : Dense.Op α → Prop
  | .insert i j _ => i < s.rows ∧ j < s.cols ∧ Mutable t i j
  | .erase i j => i < s.rows ∧ j < s.cols ∧ Mutable t i j
  | .clear => True
  | .resize r c _ => ShapeOk dbg t r c

def legalRun [Zero α] (dbg : Bool) (t : Tri) : DenseSpec.Spec α → List (Dense.Op α × (Nat → α)) → Prop
  | _, [] => True
  | s, (op, _) :: ops => legal dbg t s op ∧ legalRun dbg t (DenseSpec.step 0 s op) ops

/-- A triangular_matrix implements an abstract matrix: mutable positions hold the abstract value,
the others the fixed one. -/
def Implements [Zero α] [One α] (dbg : Bool) (t : Tri) (o : Orient) (m : TMat α) (s : DenseSpec.Spec α) : Prop :=
  m.size1 = s.rows ∧ m.size2 = s.cols ∧
  ∀ i j, i < s.rows → j < s.cols →
    (Mutable t i j → ∃ v, m.get dbg t o i j = .ok v ∧ ∀ w, s.val i j = some w → v = w) ∧
    (¬ Mutable t i j → m.get dbg t o i j = .ok (fixedValue t i j))

/-- Abstract symmetric / hermitian matrix: a size and all elements (or unspecified). -/
structure SSpec (α : Type) where
  n : Nat
  val : Nat → Nat → Option α

/-- Effect of each operation on a symmetric matrix: writing (i,j) also writes (j,i). -/
def sstep [Zero α] (s : SSpec α) : SOp α → SSpec α
  | .insert i j t => { s with val := fun a b => if (a = i ∧ b = j) ∨ (a = j ∧ b = i) then some t else s.val a b }
  | .assign i j t => { s with val := fun a b => if (a = i ∧ b = j) ∨ (a = j ∧ b = i) then some t else s.val a b }
  | .erase i j => { s with val := fun a b => if (a = i ∧ b = j) ∨ (a = j ∧ b = i) then some 0 else s.val a b }
  | .clear => { s with val := fun _ _ => some 0 }
  | .resize n true => ⟨n, fun a b => if a < s.n ∧ b < s.n then s.val a b else none⟩
  | .resize n false => ⟨n, fun _ _ => none⟩

/-- Effect of each operation on a hermitian matrix: writing (i,j) writes the conjugate to (j,i). -/
def hstep [Zero α] (conj : α → α) (s : SSpec α) : SOp α → SSpec α
  | .insert i j t => { s with val := fun a b =>
      if a = i ∧ b = j then some t else if a = j ∧ b = i then some (conj t) else s.val a b }
  | .assign i j t => { s with val := fun a b =>
      if a = i ∧ b = j then some t else if a = j ∧ b = i then some (conj t) else s.val a b }
  | .erase i j => { s with val := fun a b =>
      if (a = i ∧ b = j) ∨ (a = j ∧ b = i) then some 0 else s.val a b }
  | .clear => { s with val := fun _ _ => some 0 }
  | .resize n true => ⟨n, fun a b => if a < s.n ∧ b < s.n then s.val a b else none⟩
  | .resize n false => ⟨n, fun _ _ => none⟩

def slegal (s : SSpec α) : SOp α → Prop
  | .insert i j _ => i < s.n ∧ j < s.n
  | .assign i j _ => i < s.n ∧ j < s.n
  | .erase i j => i < s.n ∧ j < s.n
  | .clear => True
  | .resize _ _ => True

/-- Hermitian preconditions.  `anyErase` is the full English precondition of `erase_element`; with it off, only stored
positions are erased. -/
def hlegal (anyErase : Bool) (t : Tri) (s : SSpec α) : SOp α → Prop
  | .insert i j _ => i < s.n ∧ j < s.n
  | .assign i j _ => i < s.n ∧ j < s.n
  | .erase i j => i < s.n ∧ j < s.n ∧ (anyErase = true ∨ Mutable t i j)
  | .clear => True
  | .resize _ _ => True

def srun [Zero α] : SSpec α → List (SOp α × (Nat → α)) → SSpec α
  | s, [] => s
  | s, (op, _) :: ops => srun (sstep s op) ops
def slegalRun [Zero α] : SSpec α → List (SOp α × (Nat → α)) → Prop
  | _, [] => True
  | s, (op, _) :: ops => slegal s op ∧ slegalRun (sstep s op) ops
def hrun [Zero α] (conj : α → α) : SSpec α → List (SOp α × (Nat → α)) → SSpec α
  | s, [] => s
  | s, (op, _) :: ops => hrun conj (hstep conj s op) ops
def hlegalRun [Zero α] (conj : α → α) (anyErase : Bool) (t : Tri) : SSpec α → List (SOp α × (Nat → α)) → Prop
  | _, [] => True
  | s, (op, _) :: ops => hlegal anyErase t s op ∧ hlegalRun conj anyErase t (hstep conj s op) ops

/-- A symmetric_matrix implements an abstract one, and is symmetric everywhere (also where unspecified). -/
def SImplements (dbg : Bool) (t : Tri) (o : Orient) (m : SMat α) (s : SSpec α) : Prop :=
  m.size = s.n ∧ ∀ i j, i < s.n → j < s.n →
    (∃ v, m.get dbg t o i j = .ok v ∧ ∀ w, s.val i j = some w → v = w) ∧
    m.get dbg t o i j = m.get dbg t o j i

/-- A hermitian_matrix implements an abstract one, and m(j,i) = conj m(i,j) off the diagonal. -/
def HImplements (conj : α → α) (dbg : Bool) (t : Tri) (o : Orient) (m : SMat α) (s : SSpec α) : Prop :=
  m.size = s.n ∧ ∀ i j, i < s.n → j < s.n →
    ∃ v, m.hget conj dbg t o i j = .ok v ∧ (∀ w, s.val i j = some w → v = w) ∧
      (i ≠ j → m.hget conj dbg t o j i = .ok (conj v))

end Ublas.PackedSpec
