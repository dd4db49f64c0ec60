import Verif.Model.TensorLife
import Verif.Spec.Tensor
/-! # What programs over tensors mean

The value of a tensor is either empty or extents together with an element for every multi-index. -/
namespace Ublas.Tens.Life
variable {R : Type}

/-- `none`: no elements; `some (e, f)`: extents `e`, element `f i` at multi-index `i`. -/
abbrev Val (R : Type) := Option (List Nat × (List Nat → R))

/-- Named values. -/
abbrev Vals (R : Type) := Nat → Option (Val R)

def put (s : Vals R) (x : Nat) (v : Option (Val R)) : Vals R := fun y => if y = x then v else s y

/-- Extents that a tensor of this kind can have: positive, and `N` of them for a fixed number of extents. -/
def Shape (k : Kind) (e : List Nat) : Prop := (∀ n ∈ e, 0 < n) ∧ ∀ N, k = .rank N → e.length = N

instance (k : Kind) (e : List Nat) : Decidable (Shape k e) := decidable_of_iff ((∀ n ∈ e, 0 < n) ∧ (match k with | .dyn => true | .rank N => decide (e.length = N)) = true) (by
  unfold Shape; cases k <;> simp)

/-- A value with the given extents; no extents, no elements. -/
def val (e : List Nat) (f : List Nat → R) : Val R := if e = [] then none else some (e, f)

/-- The meaning of each statement: `none` for an exception. Element `k` of an array `a` is stored at the `k`-th multi-index in memory order. -/
def meaning (k : Kind) (L : Layout) (zero : R) (s : Vals R) : Op R → Option (Vals R)
  | .new x _ => some (put s x (some none))
  | .ofExtents x e v => if Shape k e then some (put s x (some (val e fun _ => v))) else none
  | .ofArray x e a => if Shape k e ∧ a.length = (if e = [] then 0 else count e) then some (put s x (some (val e fun i => a.getD (pos L e i) zero))) else none
  | .ofMatrix x m => if Shape k [m.size1, m.size2] then some (put s x (some (some ([m.size1, m.size2], fun i =>
      match m.get false (orient L) (i.getD 0 0) (i.getD 1 0) with | .ok v => v | .error _ => zero)))) else none
  | .ofVector x v =>
    if k = .rank 1 then (if v = [] then none else some (put s x (some (some ([v.length], fun i => v.getD (i.getD 0 0) zero)))))
    else if Shape k [v.length, 1] then some (put s x (some (some ([v.length, 1], fun i => v.getD (i.getD 0 0) zero)))) else none
  | .copy x y => some (put s x (s y))
  | .move x y => some (put (put s x (s y)) y (some none))
  | .destroy x => some (put s x none)
  | .assign x y => some (put s x (s y))
  | .assignMove x y => some (put (put s y (some none)) x (s y))
  | .swap x y => some (put (put s x (s y)) y (s x))
  | .fill x v => some (put s x ((s x).map fun w => w.map fun p => (p.1, fun _ => v)))
  | .assignArray x a => match s x with
    | some (some (e, _)) => if a.length = count e then some (put s x (some (some (e, fun i => a.getD (pos L e i) zero)))) else none
    | _ => if a = [] then some s else none
  | .put x i v => match s x with
    | some (some (e, f)) => some (put s x (some (some (e, Function.update f i v))))
    | _ => some s
  | .apply x y fn _ => match s x, s y with
    | some (some (e, f)), some (some (e', g)) => if e = e' then some (put s x (some (some (e, fun i => fn (f i) (g i))))) else none
    | some (some _), _ => none
    | _, some (some _) => none
    | _, _ => some s

/-- Statements a program may execute: objects are alive exactly when they have to be, matrices are matrices, element writes use indices inside the extents, and `order` is an order of the iterations of the
parallel loop over fewer than 2^32 elements. -/
def Legal (s : Vals R) : Op R → Prop
  | .new x _ => s x = none
  | .ofExtents x _ _ => s x = none
  | .ofArray x _ _ => s x = none
  | .ofMatrix x m => s x = none ∧ m.WF
  | .ofVector x _ => s x = none
  | .copy x y => s x = none ∧ s y ≠ none
  | .move x y => s x = none ∧ s y ≠ none
  | .destroy x => s x ≠ none
  | .assign x y => s x ≠ none ∧ s y ≠ none
  | .assignMove x y => s x ≠ none ∧ s y ≠ none
  | .swap x y => s x ≠ none ∧ s y ≠ none
  | .fill x _ => s x ≠ none
  | .assignArray x _ => s x ≠ none
  | .put x i _ => ∃ e f, s x = some (some (e, f)) ∧ Valid e i
  | .apply x y _ order => s y ≠ none ∧ ((s x = some none ∧ order = []) ∨ ∃ e f, s x = some (some (e, f)) ∧ count e < 2 ^ 32 ∧ order.Perm (List.range (count e)))

/-- The meaning of a program. -/
def meanings (k : Kind) (L : Layout) (zero : R) : Vals R → List (Op R) → Vals R × List Bool
  | s, [] => (s, [])
  | s, o :: os => match meaning k L zero s o with
    | some s' => let r := meanings k L zero s' os; (r.1, false :: r.2)
    | none => let r := meanings k L zero s os; (r.1, true :: r.2)

/-- Every statement is legal when it is executed. -/
def LegalAll (k : Kind) (L : Layout) (zero : R) : Vals R → List (Op R) → Prop
  | _, [] => True
  | s, o :: os => Legal s o ∧ LegalAll k L zero (match meaning k L zero s o with | some s' => s' | none => s) os

/-- A tensor object shows a value: `size ()` is the number of elements, `extents ()` the extents, `t (i)` the element at `i`; an empty tensor reports no element and extents without any multi-index. -/
def Shows (t : Tensor R) : Val R → Prop
  | none => t.data.length = 0 ∧ product t.extents = 0
  | some (e, f) => t.extents = e ∧ t.data.length = count e ∧ ∀ i, Valid e i → t.at_ i = .ok (f i)

end Ublas.Tens.Life

namespace Ublas.Tens.Life
variable {R : Type}

/-- The objects that have been moved from and not been given a value since, for tensors with a fixed number of extents. -/
def moved (k : Kind) (d : Nat → Bool) (o : Op R) : Nat → Bool := fun z =>
  match k, o with
  | .dyn, _ => d z
  | .rank _, .move _ y => if z = y then true else d z
  | .rank _, .assign x _ => if z = x then false else d z
  | .rank _, .assignMove x y => if z = x then false else if z = y then true else d z
  | .rank _, .destroy x => if z = x then false else d z
  | .rank _, _ => d z

/-- What programs over tensors with a fixed number of extents have to avoid: using a moved-from object (other than destroying it or assigning to it), copying an empty tensor with `assert` active, and
building a tensor of one extent from a vector. -/
def Careful (dbg : Bool) (k : Kind) (s : Vals R) (d : Nat → Bool) : Op R → Prop
  | .ofVector _ _ => k ≠ .rank 1
  | .copy _ y => d y = false ∧ (dbg = true → k ≠ .dyn → s y ≠ some none)
  | .move _ y => d y = false
  | .assign _ y => d y = false ∧ (dbg = true → k ≠ .dyn → s y ≠ some none)
  | .assignMove _ y => d y = false
  | .swap x y => d x = false ∧ d y = false
  | .fill x _ => d x = false
  | .assignArray x _ => d x = false
  | .put x _ _ => d x = false
  | .apply x y _ _ => d x = false ∧ d y = false
  | _ => True

/-- Every statement is careful; the last argument is the set of moved-from objects. -/
def CarefulAll (dbg : Bool) (k : Kind) (L : Layout) (zero : R) : Vals R → (Nat → Bool) → List (Op R) → Prop
  | _, _, [] => True
  | s, d, o :: os => Careful dbg k s d o ∧ match meaning k L zero s o with
    | some s' => CarefulAll dbg k L zero s' (moved k d o) os
    | none => CarefulAll dbg k L zero s d os

/-- The moved-from objects at the end. -/
def movedAll (k : Kind) (L : Layout) (zero : R) : Vals R → (Nat → Bool) → List (Op R) → Nat → Bool
  | _, d, [] => d
  | s, d, o :: os => match meaning k L zero s o with
    | some s' => movedAll k L zero s' (moved k d o) os
    | none => movedAll k L zero s d os

end Ublas.Tens.Life
