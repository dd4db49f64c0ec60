import Verif.Model.Fixed
import Verif.Spec.MatrixAssign
import Verif.Spec.Prod
/-! # What a user expects of a fixed_vector / fixed_matrix: a total table of elements that never changes its size -/
namespace Ublas.FixedSpec
variable {R : Type}

/-- The fixed_vector of size `N` has the elements `w`: element access returns them in every build. -/
def Vec (N : Nat) (v : List R) (w : Nat → R) : Prop := v.length = N ∧ ∀ dbg i, i < N → FVec.get dbg v i = .ok (w i)

/-- Operations; the right-hand side of those with a temporary may read the vector. -/
inductive Op (R : Type)
  | set (i : Nat) (t : R)
  | erase (i : Nat)
  | clear
  | copy (src : List R)
  | assignExpr (e : List R → Seq R)
  | opAssignExpr (F : AssignF) (e : List R → Seq R)
  | assign (F : AssignF) (e : Seq R)
  | scale (t : R)

/-- The code that runs. -/
def Op.run [Ring R] [DecidableEq R] (dbg : Bool) (mode : ProdFn.Mode) (v : List R) : Op R → M (List R)
  | .set i t => FVec.set dbg v i t
  | .erase i => FVec.erase dbg v i
  | .clear => .ok (FVec.clear v)
  | .copy src => .ok src
  | .assignExpr e => FVec.assignExpr dbg mode e v
  | .opAssignExpr F e => FVec.opAssignExpr dbg mode F e v
  | .assign F e => FVec.assign dbg mode F e v
  | .scale t => FVec.scale dbg mode (· * t) v

/-- What the operation does to the elements. -/
inductive Step [Ring R] (N : Nat) : (Nat → R) → Op R → (Nat → R) → Prop
  | set (w : Nat → R) (i : Nat) (t : R) : i < N → Step N w (.set i t) (fun k => if k = i then t else w k)
  | erase (w : Nat → R) (i : Nat) : i < N → Step N w (.erase i) (fun k => if k = i then 0 else w k)
  | clear (w : Nat → R) : Step N w .clear fun _ => 0
  | copy (w x : Nat → R) (src : List R) : Vec N src x → Step N w (.copy src) x
  | assignExpr (w x : Nat → R) (e : List R → Seq R) : (∀ v, Vec N v w → (e v).Presents N x) → Step N w (.assignExpr e) x
  | opAssignExpr (w x : Nat → R) (F : AssignF) (e : List R → Seq R) : (∀ v, Vec N v w → (e v).Presents N x) → Step N w (.opAssignExpr F e) fun k => F.apply (w k) (x k)
  | assign (w x : Nat → R) (F : AssignF) (e : Seq R) : e.Presents N x → Step N w (.assign F e) fun k => F.apply (w k) (x k)
  | scale (w : Nat → R) (t : R) : Step N w (.scale t) fun k => w k * t

/-- A history of operations. -/
inductive Hist [Ring R] (N : Nat) : (Nat → R) → List (Op R) → (Nat → R) → Prop
  | nil (w : Nat → R) : Hist N w [] w
  | cons {w x y : Nat → R} {op : Op R} {ops : List (Op R)} : Step N w op x → Hist N x ops y → Hist N w (op :: ops) y

/-- The m x n fixed_matrix has the elements `w`. -/
def Mat (o : Orient) (m n : Nat) (d : List R) (w : Nat → Nat → R) : Prop := d.length = m * n ∧ ∀ dbg i j, i < m → j < n → FMat.get dbg o m n d i j = .ok (w i j)

/-- The expression, read along the lines of the matrix, has the elements `a i j`. -/
def ExprIs [Zero R] (o : Orient) (e : MExp R) (m n : Nat) (a : Nat → Nat → R) : Prop :=
  e.Presents (o.sizeM m n) (o.sizem m n) fun k l => a (o.indexM k l) (o.indexm k l)

/-- Operations on a fixed_matrix. -/
inductive MOp (R : Type)
  | set (i j : Nat) (t : R)
  | erase (i j : Nat)
  | clear
  | copy (src : List R)
  | assignExpr (e : List R → MExp R)
  | opAssignExpr (F : AssignF) (e : List R → MExp R)
  | assign (F : AssignF) (e : MExp R)
  | scale (t : R)

/-- The code that runs. -/
def MOp.run [Ring R] [DecidableEq R] (dbg : Bool) (mode : ProdFn.Mode) (o : Orient) (m n : Nat) (d : List R) : MOp R → M (List R)
  | .set i j t => FMat.set dbg o m n d i j t
  | .erase i j => FMat.erase dbg o m n d i j
  | .clear => .ok (FMat.clear d)
  | .copy src => .ok src
  | .assignExpr e => FMat.assignExpr dbg mode o m n e d
  | .opAssignExpr F e => FMat.opAssignExpr dbg mode F o m n e d
  | .assign F e => FMat.assign dbg mode F o m n e d
  | .scale t => FMat.scale dbg mode o m n (· * t) d

/-- What the operation does to the elements. -/
inductive MStep [Ring R] (o : Orient) (m n : Nat) : (Nat → Nat → R) → MOp R → (Nat → Nat → R) → Prop
  | set (w : Nat → Nat → R) (i j : Nat) (t : R) : i < m → j < n → MStep o m n w (.set i j t) (fun k l => if k = i ∧ l = j then t else w k l)
  | erase (w : Nat → Nat → R) (i j : Nat) : i < m → j < n → MStep o m n w (.erase i j) (fun k l => if k = i ∧ l = j then 0 else w k l)
  | clear (w : Nat → Nat → R) : MStep o m n w .clear fun _ _ => 0
  | copy (w x : Nat → Nat → R) (src : List R) : Mat o m n src x → MStep o m n w (.copy src) x
  | assignExpr (w x : Nat → Nat → R) (e : List R → MExp R) : (∀ d, Mat o m n d w → ExprIs o (e d) m n x) → MStep o m n w (.assignExpr e) x
  | opAssignExpr (w x : Nat → Nat → R) (F : AssignF) (e : List R → MExp R) : (∀ d, Mat o m n d w → ExprIs o (e d) m n x) →
      MStep o m n w (.opAssignExpr F e) fun k l => F.apply (w k l) (x k l)
  | assign (w x : Nat → Nat → R) (F : AssignF) (e : MExp R) : ExprIs o e m n x → MStep o m n w (.assign F e) fun k l => F.apply (w k l) (x k l)
  | scale (w : Nat → Nat → R) (t : R) : MStep o m n w (.scale t) fun k l => w k l * t

/-- A history of operations. -/
inductive MHist [Ring R] (o : Orient) (m n : Nat) : (Nat → Nat → R) → List (MOp R) → (Nat → Nat → R) → Prop
  | nil (w : Nat → Nat → R) : MHist o m n w [] w
  | cons {w x y : Nat → Nat → R} {op : MOp R} {ops : List (MOp R)} : MStep o m n w op x → MHist o m n x ops y → MHist o m n w (op :: ops) y

end Ublas.FixedSpec
