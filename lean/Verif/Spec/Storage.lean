import Verif.Model.Storage
/-! Specification of array variables: a name denotes either nothing (dead) or a list of elements,
each with a specified value or none (uninitialised).  Operations act on one name only. -/
namespace Ublas.StorageSpec
open Storage
variable {α : Type}

/-- Values of all variables. -/
abbrev Env (α : Type) := Nat → Option (List (Option α))

def upd (e : Env α) (x : Nat) (v : Option (List (Option α))) : Env α := fun y => if y = x then v else e y

/-- The documented effect of each operation. -/
def step (e : Env α) : Op α → Env α
  | .ctor x n => upd e x (some (List.replicate n none))
  | .ctorInit x n v => upd e x (some (List.replicate n (some v)))
  | .copyCtor x y => upd e x (e y)
  | .moveCtor x y => upd (upd e x (e y)) y (some [])
  | .dtor x => upd e x none
  | .resize x n => upd e x ((e x).map fun l => if l.length = n then l else List.replicate n none)
  | .resizeInit x n v => upd e x ((e x).map fun l => l.take n ++ List.replicate (n - l.length) (some v))
  | .assign x y => upd e x (e y)
  | .swap x y => upd (upd e x (e y)) y (e x)
  | .store x i v => upd e x ((e x).map fun l => l.set i (some v))

/-- Preconditions: constructors act on dead names, everything else on live ones, indices are in range. -/
def legal (e : Env α) : Op α → Prop
  | .ctor x _ => e x = none
  | .ctorInit x _ _ => e x = none
  | .copyCtor x y => e x = none ∧ e y ≠ none
  | .moveCtor x y => e x = none ∧ e y ≠ none
  | .dtor x => e x ≠ none
  | .resize x _ => e x ≠ none
  | .resizeInit x _ _ => e x ≠ none
  | .assign x y => e x ≠ none ∧ e y ≠ none
  | .swap x y => e x ≠ none ∧ e y ≠ none
  | .store x i _ => ∃ l, e x = some l ∧ i < l.length

def run : Env α → List (Op α × (Nat → α)) → Env α
  | e, [] => e
  | e, (op, _) :: ops => run (step e op) ops

def legalRun : Env α → List (Op α × (Nat → α)) → Prop
  | _, [] => True
  | e, (op, _) :: ops => legal e op ∧ legalRun (step e op) ops

/-- What a user observes of the program state: the live names are exactly those of `e`, sizes agree,
and `x [i]` never faults and gives the specified value when there is one. -/
def Observes (dbg : Bool) (s : St α) (e : Env α) : Prop :=
  ∀ x, (e x = none → s.var x = none) ∧
    ∀ l, e x = some l → ∃ a, s.var x = some a ∧ a.size = l.length ∧
      ∀ i, i < l.length → ∃ v, Storage.index dbg s.heap a i = .ok v ∧ ∀ w, l[i]? = some (some w) → v = w

/-- Memory accounting: every live block belongs to exactly one live non-empty array. -/
def NoLeak (s : St α) : Prop :=
  (∀ p, s.heap.blk p ≠ none → ∃ x a, s.var x = some a ∧ a.ptr = some p ∧ a.size ≠ 0) ∧
  (∀ x y a b p, s.var x = some a → s.var y = some b → a.ptr = some p → b.ptr = some p → x = y)

end Ublas.StorageSpec
