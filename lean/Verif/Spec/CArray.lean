import Verif.Model.CArray
import Verif.Spec.MatrixAssign
import Verif.Spec.Prod
/-! # What a user expects of a container with a fixed capacity: sizes and elements; `none` marks elements whose value is not specified (not written yet) -/
namespace Ublas.CArraySpec
variable {R : Type}

/-- A matrix as the user knows it. -/
structure Mtx (R : Type) where
  rows : Nat
  cols : Nat
  val : Nat → Nat → Option R

/-- The c_matrix (capacity N x C) is the matrix `s`: sizes within the capacity, and element access returns every specified element. -/
def HoldsM (N C : Nat) (m : CMatx R) (s : Mtx R) : Prop :=
  m.data.length = N * C ∧ m.size1 = s.rows ∧ m.size2 = s.cols ∧ s.rows ≤ N ∧ s.cols ≤ C ∧
  ∀ dbg i j x, i < s.rows → j < s.cols → s.val i j = some x → m.get dbg C i j = .ok x

/-- A vector as the user knows it. -/
structure Vct (R : Type) where
  size : Nat
  val : Nat → Option R

/-- The c_vector (capacity N) is the vector `s`. -/
def HoldsV (N : Nat) (v : CVect R) (s : Vct R) : Prop :=
  v.data.length = N ∧ v.size = s.size ∧ s.size ≤ N ∧ ∀ dbg i x, i < s.size → s.val i = some x → v.get dbg i = .ok x

/-- Operations on a c_matrix; `src`: another c_matrix of the same type, `e`: an expression. -/
inductive MOp (R : Type)
  | set (i j : Nat) (t : R)
  | clear
  | resize (r c : Nat) (preserve : Bool)
  | copy (src : CMatx R)
  | assign (e : MExp R)

/-- The code that runs. -/
def MOp.run [Add R] [Sub R] [Zero R] [DecidableEq R] (dbg : Bool) (mode : ProdFn.Mode) (N C : Nat) (junk : Nat → R) (m : CMatx R) : MOp R → M (CMatx R)
  | .set i j t => m.set dbg C i j t
  | .clear => m.clear C
  | .resize r c p => m.resize dbg N C junk r c p
  | .copy src => m.copyAssign C src
  | .assign e => m.assignExpr dbg mode N C junk e

/-- What the operation does to the matrix the user knows, for operations within the capacity. -/
inductive MStep [Zero R] (N C : Nat) : Mtx R → MOp R → Mtx R → Prop
  | set (s : Mtx R) (i j : Nat) (t : R) : i < s.rows → j < s.cols →
      MStep N C s (.set i j t) { s with val := fun k l => if k = i ∧ l = j then some t else s.val k l }
  | clear (s : Mtx R) : MStep N C s .clear { s with val := fun _ _ => some 0 }
  | resize (s : Mtx R) (r c : Nat) (p : Bool) : r ≤ N → c ≤ C →
      MStep N C s (.resize r c p) ⟨r, c, fun k l => if p = true ∧ k < s.rows ∧ l < s.cols then s.val k l else none⟩
  | copy (s t : Mtx R) (src : CMatx R) : HoldsM N C src t → MStep N C s (.copy src) t
  | assign (s : Mtx R) (e : MExp R) (r c : Nat) (a : Nat → Nat → R) : r ≤ N → c ≤ C → e.Presents r c a → MStep N C s (.assign e) ⟨r, c, fun k l => some (a k l)⟩

/-- A history of operations. -/
inductive MHist [Zero R] (N C : Nat) : Mtx R → List (MOp R) → Mtx R → Prop
  | nil (s : Mtx R) : MHist N C s [] s
  | cons {s t u : Mtx R} {op : MOp R} {ops : List (MOp R)} : MStep N C s op t → MHist N C t ops u → MHist N C s (op :: ops) u

end Ublas.CArraySpec
