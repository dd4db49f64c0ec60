import Verif.Model.ExcStorage
/-! Specification of named arrays when operations may throw: a name denotes nothing (dead) or a list of elements. -/
namespace Ublas.Exc
open Storage (Op UArr setVar)
variable {α : Type}

/-- What the program sees: `v x` is the list of elements of the live array `x`. -/
abbrev View (α : Type) := Nat → Option (List α)

/-- The state shows `v`, and every array can be used and destroyed without undefined behaviour: each live name has the size and the elements of its list, in a block of its own in which every element is
constructed. -/
structure Shows (s : St α) (v : View α) : Prop where
  dead : ∀ x, v x = none → s.var x = none
  live : ∀ x L, v x = some L → ∃ a, s.var x = some a ∧ a.size = L.length ∧ (L ≠ [] → ∃ p, a.ptr = some p ∧ s.blk p = some (L.map some))
  apart : ∀ x y a b p, s.var x = some a → s.var y = some b → a.size ≠ 0 → b.size ≠ 0 → a.ptr = some p → b.ptr = some p → x = y
  fresh : ∀ p, s.next ≤ p → s.blk p = none

/-- Every allocated block belongs to a live non-empty array. -/
def NoLeak (s : St α) : Prop := ∀ p, s.blk p ≠ none → ∃ x a, s.var x = some a ∧ a.size ≠ 0 ∧ a.ptr = some p

/-- Preconditions: constructors act on dead names, everything else on live ones, indices are in range. -/
def Legal (v : View α) : Op α → Prop
  | .ctor x _ => v x = none
  | .ctorInit x _ _ => v x = none
  | .copyCtor x y => v x = none ∧ v y ≠ none
  | .moveCtor x y => v x = none ∧ v y ≠ none
  | .dtor x => v x ≠ none
  | .resize x _ => v x ≠ none
  | .resizeInit x _ _ => v x ≠ none
  | .assign x y => v x ≠ none ∧ v y ≠ none
  | .swap x y => v x ≠ none ∧ v y ≠ none
  | .store x i _ => ∃ L, v x = some L ∧ i < L.length

/-- The documented effect of an operation that completes (the elements after `ctor` and a changing `resize` are unspecified). -/
def Effect (v : View α) : Op α → View α → Prop
  | .ctor x n, v' => ∃ L, L.length = n ∧ v' = setVar v x (some L)
  | .ctorInit x n t, v' => v' = setVar v x (some (List.replicate n t))
  | .copyCtor x y, v' => v' = setVar v x (v y)
  | .moveCtor x y, v' => v' = setVar (setVar v x (v y)) y (some [])
  | .dtor x, v' => v' = setVar v x none
  | .resize x n, v' => ∃ L, L.length = n ∧ (∀ K, v x = some K → K.length = n → L = K) ∧ v' = setVar v x (some L)
  | .resizeInit x n t, v' => ∃ K, v x = some K ∧ v' = setVar v x (some (K.take n ++ List.replicate (n - K.length) t))
  | .assign x y, v' => v' = setVar v x (v y)
  | .swap x y, v' => v' = setVar (setVar v x (v y)) y (v x)
  | .store x i t, v' => ∃ K, v x = some K ∧ v' = setVar v x (some (K.set i t))

/-- The operations during which elements are neither constructed nor left half-copied in a new block. -/
def Stable (v : View α) : Op α → Prop
  | .ctor _ _ | .ctorInit _ _ _ | .copyCtor _ _ => True
  | .moveCtor _ _ | .dtor _ | .swap _ _ | .store _ _ _ => True
  | .resize x n | .resizeInit x n _ => ∀ L, v x = some L → (n = L.length ∨ n = 0)
  | .assign x y => ∀ L K, v x = some L → v y = some K → (K.length = L.length ∨ K.length = 0)

/-- The states of a program that starts without arrays, performs legal operations in any order, catches every exception and goes on. -/
inductive Reach (E : Env α) : St α → Prop
  | start (c n : Nat) : Reach E ⟨c, n, fun _ => none, fun _ => none⟩
  | step {s s' : St α} {v : View α} {op : Op α} : Reach E s → Shows s v → Legal v op → (step E op s = .ok () s' ∨ step E op s = .threw s') → Reach E s'

/-- The name an operation acts on. -/
def target : Op α → Nat
  | .ctor x _ | .ctorInit x _ _ | .copyCtor x _ | .moveCtor x _ | .dtor x | .resize x _ | .resizeInit x _ _ | .assign x _ | .swap x _ | .store x _ _ => x

/-- The constructors that allocate. -/
def isCtor : Op α → Bool
  | .ctor _ _ | .ctorInit _ _ _ | .copyCtor _ _ => true
  | _ => false

/-- The state as seen by a program that never mentions `x` again. -/
def forget (x : Nat) (s : St α) : St α := { s with var := setVar s.var x none }

end Ublas.Exc
