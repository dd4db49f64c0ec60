import Verif.Model.TensorExpr
import Verif.Model.Dense
/-!
# The life of tensors: construction, copy, move, assignment (tensor/tensor/tensor_dynamic.hpp, tensor/tensor/tensor_static_rank.hpp)

Programs over named tensors of one type: dynamic extents or `N` extents, elements in a std::vector, layout `L`.  Exceptions of the standard library are `Fault.stdException`; a failed `assert` is
`Fault.internalLogic`.  `dbg` says whether `assert` is active.  Not modelled here: the converting constructors from other tensor types (tensor_dynamic.hpp:156-165, tensor_static_rank.hpp:138-146),
which call a member function `container ()` that does not exist and cannot be instantiated; failing allocations.
-/
namespace Ublas.Tens.Life
variable {R : Type}

/-- `extents<>` or `extents<N>`. tensor/extents/extents_dynamic_size.hpp:35, extents_static_size.hpp:41. -/
inductive Kind
  | dyn
  | rank (N : Nat)
  deriving DecidableEq

/-- The constructors of `extents<>` and `extents<N>` from a list: extents_dynamic_size.hpp:57-82, extents_static_size.hpp:66-80. -/
def extentsOf (k : Kind) (e : List Nat) : M (List Nat) :=
  match k with
  | .dyn => mkExtents e
  | .rank N => if e.length ≠ N then .error .stdException else mkExtents e

/-- `tensor_core ()`: tensor_dynamic.hpp:87, tensor_static_rank.hpp:88; the extents of `extents<N>` are zero (extents_static_size.hpp:127). `junk` stands for the strides, which may be uninitialised. -/
def fresh (k : Kind) (junk : List Nat) : Tensor R :=
  match k with
  | .dyn => ⟨[], [], []⟩
  | .rank N => ⟨List.replicate N 0, junk, []⟩

/-- `tensor_core (e, v)`, `tensor_core (e)` and `tensor_core (is...)` with `v = V {}`: tensor_dynamic.hpp:95-102, 109-115, 123-129; tensor_static_rank.hpp:95-112. -/
def ofExtents (k : Kind) (L : Layout) (e : List Nat) (v : R) : M (Tensor R) := do
  let e ← extentsOf k e
  let w ← toStrides L e
  .ok ⟨e, w, List.replicate (product e) v⟩

/-- `tensor_core (e, a)`: tensor_dynamic.hpp:138-149, tensor_static_rank.hpp:121-132. -/
def ofArray (k : Kind) (L : Layout) (e : List Nat) (a : List R) : M (Tensor R) := do
  let e ← extentsOf k e
  let w ← toStrides L e
  if a.length ≠ product e then .error .stdException else .ok ⟨e, w, a⟩

/-- The orientation of `matrix_type`: `layout::first_order` is `column_major`, `layout::last_order` is `row_major`; tensor/layout.hpp:19-21, tensor_dynamic.hpp:78. -/
def orient : Layout → Orient
  | .first => .col
  | .last => .row

/-- `tensor_core (m)` for a matrix: tensor_dynamic.hpp:188-194, tensor_static_rank.hpp:170-176. -/
def ofMatrix (k : Kind) (L : Layout) (m : Dense R) : M (Tensor R) := do
  let e ← extentsOf k [m.size1, m.size2]
  let w ← toStrides L e
  .ok ⟨e, w, m.data⟩

/-- `tensor_core (v)` for a vector: tensor_dynamic.hpp:197-203, tensor_static_rank.hpp:179-185. -/
def ofVector (k : Kind) (L : Layout) (v : List R) : M (Tensor R) := do
  let e ← extentsOf k [v.length, 1]
  let w ← toStrides L e
  .ok ⟨e, w, v⟩

/-- `tensor_core (t)`: tensor_dynamic.hpp:242-247, tensor_static_rank.hpp:224-229; the copy constructor of `extents<N>` asserts `is_valid` (extents_static_size.hpp:96-100), that of `extents<>` does not
(extents_dynamic_size.hpp:85-88). -/
def copyOf (dbg : Bool) (k : Kind) (t : Tensor R) : M (Tensor R) :=
  match k with
  | .dyn => .ok t
  | .rank _ => do
    check dbg (isValid t.extents = true) .internalLogic
    .ok t

/-- What `tensor_core (std::move (t))` leaves in `t`: tensor_dynamic.hpp:255-260, tensor_static_rank.hpp:237-242; std::vectors become empty, std::arrays keep their elements. -/
def movedFrom (k : Kind) (t : Tensor R) : Tensor R :=
  match k with
  | .dyn => ⟨[], [], []⟩
  | .rank _ => ⟨t.extents, t.strides, []⟩

/-- Named tensors. Client histories: composes the operations cited in this file; no code of its own in /repo. -/
abbrev Objs (R : Type) := Nat → Option (Tensor R)

/-- Client histories: composes the operations cited in this file; no code of its own in /repo. -/
def setObj (s : Objs R) (x : Nat) (t : Option (Tensor R)) : Objs R := fun y => if y = x then t else s y

/-- The live object named `x`; using another one is undefined. Client histories: composes the operations cited in this file; no code of its own in /repo. -/
def obj (s : Objs R) (x : Nat) : M (Tensor R) :=
  match s x with
  | some t => .ok t
  | none => .error .ub

/-- Client histories: composes the operations cited in this file; no code of its own in /repo. -/
inductive Op (R : Type)
  | new (x : Nat) (junk : List Nat)
  | ofExtents (x : Nat) (e : List Nat) (v : R)
  | ofArray (x : Nat) (e : List Nat) (a : List R)
  | ofMatrix (x : Nat) (m : Dense R)
  | ofVector (x : Nat) (v : List R)
  | copy (x y : Nat)
  | move (x y : Nat)
  | destroy (x : Nat)
  | assign (x y : Nat)
  | assignMove (x y : Nat)
  | swap (x y : Nat)
  | fill (x : Nat) (v : R)
  | assignArray (x : Nat) (a : List R)
  | put (x : Nat) (i : List Nat) (v : R)
  | apply (x y : Nat) (fn : R → R → R) (order : List Nat)

/-- One statement. Client histories: composes the operations cited in this file; no code of its own in /repo. -/
def step (dbg : Bool) (k : Kind) (L : Layout) (s : Objs R) : Op R → M (Objs R)
  | .new x junk => .ok (setObj s x (some (fresh k junk)))
  | .ofExtents x e v => do
    let t ← ofExtents k L e v
    .ok (setObj s x (some t))
  | .ofArray x e a => do
    let t ← ofArray k L e a
    .ok (setObj s x (some t))
  | .ofMatrix x m => do
    let t ← ofMatrix k L m
    .ok (setObj s x (some t))
  | .ofVector x v => do
    let t ← ofVector k L v
    .ok (setObj s x (some t))
  | .copy x y => do
    let t ← obj s y
    let t ← copyOf dbg k t
    .ok (setObj s x (some t))
  | .move x y => do
    let t ← obj s y
    .ok (setObj (setObj s x (some t)) y (some (movedFrom k t)))
  | .destroy x => do
    let _ ← obj s x
    .ok (setObj s x none)
  -- `x = y`: the parameter `other` is a copy of `y`, swapped with `x`: tensor_dynamic.hpp:281-285, tensor_static_rank.hpp:263-267
  | .assign x y => do
    let t ← obj s y
    let _ ← obj s x
    let other ← copyOf dbg k t
    .ok (setObj s x (some other))
  -- `x = std::move (y)`: `other` is move constructed from `y`, swapped with `x`
  | .assignMove x y => do
    let t ← obj s y
    let _ ← obj s x
    let s := setObj s y (some (movedFrom k t))
    .ok (setObj s x (some t))
  -- tensor_dynamic.hpp:418-422, tensor_static_rank.hpp:398-402
  | .swap x y => do
    let t ← obj s x
    let u ← obj s y
    .ok (setObj (setObj s x (some u)) y (some t))
  -- `x = v`: tensor_dynamic.hpp:287-291, tensor_static_rank.hpp:280-284
  | .fill x v => do
    let t ← obj s x
    .ok (setObj s x (some { t with data := List.replicate t.data.length v }))
  -- `x = a` for a std::vector: tensor_static_rank.hpp:269-278; dynamic tensors have no such operator
  | .assignArray x a => do
    let t ← obj s x
    if a.length ≠ t.data.length then .error .stdException else .ok (setObj s x (some { t with data := a }))
  | .put x i v => do
    let t ← obj s x
    let t ← t.put i v
    .ok (setObj s x (some t))
  -- `x = y` as an expression, `x += y`, ...: expression_evaluation.hpp:263-273, 311-322
  | .apply x y fn order => do
    let t ← obj s x
    let u ← obj s y
    let t ← eval fn t (if x = y then .self L else .leaf L u) order
    .ok (setObj s x (some t))

/-- A statement inside `try { … } catch (std::exception const &) { }`: an exception leaves the objects as they are (the constructors have not created `x`, and the assignments throw before they write). Client histories: composes the operations cited in this file; no code of its own in /repo. -/
def stepC (dbg : Bool) (k : Kind) (L : Layout) (s : Objs R) (o : Op R) : M (Objs R × Bool) :=
  match step dbg k L s o with
  | .ok s' => .ok (s', false)
  | .error .stdException => .ok (s, true)
  | .error f => .error f

/-- A program; the second component lists which statements threw. Client histories: composes the operations cited in this file; no code of its own in /repo. -/
def run (dbg : Bool) (k : Kind) (L : Layout) : Objs R → List (Op R) → M (Objs R × List Bool)
  | s, [] => .ok (s, [])
  | s, o :: os => do
    let (s, b) ← stepC dbg k L s o
    let (s, bs) ← run dbg k L s os
    .ok (s, b :: bs)

end Ublas.Tens.Life
