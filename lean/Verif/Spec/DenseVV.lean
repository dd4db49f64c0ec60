import Verif.Model.DenseVV
import Verif.Spec.MatrixAssign
import Verif.Spec.CArray
/-! # What a user expects of a vector_of_vector matrix; `none` marks elements whose value is not specified -/
namespace Ublas.VVSpec
open CArraySpec (Mtx)
variable {R : Type}

/-- The matrix the user knows, and whether the spare line of the storage is known to be empty (`clean`): it is not after the number of lines has been reduced. -/
structure St (R : Type) where
  m : Mtx R
  clean : Bool

/-- The container is the matrix: sizes, and every specified element is returned by element access in both builds. -/
def Shows (o : Orient) (v : VV R) (s : Mtx R) : Prop :=
  v.size1 = s.rows ∧ v.size2 = s.cols ∧ ∀ dbg i j x, i < s.rows → j < s.cols → s.val i j = some x → v.get dbg o i j = .ok x

/-- How the container stores it: one array per line and a spare line. -/
def Stores (o : Orient) (v : VV R) (s : St R) : Prop :=
  v.size1 = s.m.rows ∧ v.size2 = s.m.cols ∧ v.data.length = o.sizeM s.m.rows s.m.cols + 1 ∧
  (∀ k, k < o.sizeM s.m.rows s.m.cols → ∃ ln, v.data[k]? = some ln ∧ ln.length = o.sizem s.m.rows s.m.cols ∧
    ∀ l x, l < o.sizem s.m.rows s.m.cols → s.m.val (o.indexM k l) (o.indexm k l) = some x → ln[l]? = some x) ∧
  (s.clean = true → v.data[o.sizeM s.m.rows s.m.cols]? = some [])

/-- Operations; expressions have (major, minor) indices. -/
inductive Op (R : Type)
  | set (i j : Nat) (t : R)
  | erase (i j : Nat)
  | clear
  | resize (r c : Nat) (preserve : Bool)
  | copy (src : VV R)
  | fromExpr (e : MExp R)
  | assignContainer (e : MExp R)
  | assign (F : AssignF) (e : MExp R)

/-- The code that runs (`m = ae` moves the constructed temporary in; `m = other` copies all members). -/
def Op.run [Add R] [Sub R] [Zero R] [DecidableEq R] (dbg : Bool) (mode : ProdFn.Mode) (o : Orient) (junk : Nat → R) (v : VV R) : Op R → M (VV R)
  | .set i j t => v.set dbg o i j t
  | .erase i j => v.erase dbg o i j
  | .clear => v.clear dbg o
  | .resize r c p => v.resize dbg o junk r c p
  | .copy src => .ok src
  | .fromExpr e => VV.fromExpr dbg mode o junk e
  | .assignContainer e => v.assignContainer dbg mode o junk e
  | .assign F e => v.assign dbg mode o F e

/-- The expression has the elements `a` of an r x c matrix. -/
def ExprIs [Zero R] (o : Orient) (e : MExp R) (r c : Nat) (a : Nat → Nat → R) : Prop :=
  e.Presents (o.sizeM r c) (o.sizem r c) fun k l => a (o.indexM k l) (o.indexm k l)

/-- Elements after a preserving resize: the common ones are kept, new ones are zero, except the first added line if it is not `known`. -/
def resized [Zero R] (o : Orient) (known : Bool) (s : Mtx R) (r c : Nat) : Mtx R :=
  ⟨r, c, fun i j => if i < s.rows ∧ j < s.cols then s.val i j else if known = false ∧ o.indexM i j = o.sizeM s.rows s.cols then none else some 0⟩

/-- What an operation does.  `ideal`: new elements are always zero. -/
inductive Step [Ring R] (ideal : Bool) (o : Orient) : St R → Op R → St R → Prop
  | set (s : St R) (i j : Nat) (t : R) : i < s.m.rows → j < s.m.cols →
      Step ideal o s (.set i j t) ⟨{ s.m with val := fun k l => if k = i ∧ l = j then some t else s.m.val k l }, s.clean⟩
  | erase (s : St R) (i j : Nat) : i < s.m.rows → j < s.m.cols →
      Step ideal o s (.erase i j) ⟨{ s.m with val := fun k l => if k = i ∧ l = j then some 0 else s.m.val k l }, s.clean⟩
  | clear (s : St R) : Step ideal o s .clear ⟨{ s.m with val := fun _ _ => some 0 }, s.clean⟩
  | resize (s : St R) (r c : Nat) : Step ideal o s (.resize r c true) ⟨resized o (ideal || s.clean) s.m r c,
      if o.sizeM r c > o.sizeM s.m.rows s.m.cols then true else if o.sizeM r c = o.sizeM s.m.rows s.m.cols then s.clean else false⟩
  | resizeAway (s : St R) (r c : Nat) : Step ideal o s (.resize r c false) ⟨⟨r, c, fun _ _ => none⟩, if o.sizeM r c = o.sizeM s.m.rows s.m.cols then s.clean else true⟩
  | copy (s t : St R) (src : VV R) : Stores o src t → Step ideal o s (.copy src) t
  | fromExpr (s : St R) (e : MExp R) (r c : Nat) (a : Nat → Nat → R) : ExprIs o e r c a → Step ideal o s (.fromExpr e) ⟨⟨r, c, fun i j => some (a i j)⟩, true⟩
  | assignContainer (s : St R) (e : MExp R) (r c : Nat) (a : Nat → Nat → R) : ExprIs o e r c a →
      Step ideal o s (.assignContainer e) ⟨⟨r, c, fun i j => some (a i j)⟩, if o.sizeM r c = o.sizeM s.m.rows s.m.cols then s.clean else true⟩
  | assign (s : St R) (F : AssignF) (e : MExp R) (a : Nat → Nat → R) : ExprIs o e s.m.rows s.m.cols a →
      Step ideal o s (.assign F e) ⟨{ s.m with val := fun i j => if F = .assign then some (a i j) else (s.m.val i j).map fun x => F.apply x (a i j) }, s.clean⟩

/-- A history of operations. -/
inductive Hist [Ring R] (ideal : Bool) (o : Orient) : St R → List (Op R) → St R → Prop
  | nil (s : St R) : Hist ideal o s [] s
  | cons {s t u : St R} {op : Op R} {ops : List (Op R)} : Step ideal o s op t → Hist ideal o t ops u → Hist ideal o s (op :: ops) u

end Ublas.VVSpec
