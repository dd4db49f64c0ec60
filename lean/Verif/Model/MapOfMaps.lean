import Verif.Model.Mapped
import Verif.Model.MappedIter
/-!
# mapped_vector_of_mapped_vector (matrix_sparse.hpp:1425-2718)

A map from major indices to lines, each a map from minor indices to elements; the line at `size_M`, one past the last, always exists ("sentinel").
`nnz ()` and `nnz_capacity ()` (1496-1509) call `data_ ()` on an object that is not callable, so they do not compile when used; not modelled.
-/
namespace Ublas
open Search
variable {α σ τ : Type}

/-- `size1_`, `size2_`, `data_` (2786-2788). -/
structure MapMap (τ : Type) where
  size1 : Nat
  size2 : Nat
  map : τ

/-- Calls that change the container. Client histories: composes the operations cited in this file; no code of its own in /repo. -/
inductive MapMapOp (α : Type)
  | modify (i j : Nat) (f : α → α)
  | insert (i j : Nat) (t : α)
  | erase (i j : Nat)
  | clear
  | resize (r c : Nat)

namespace MapMap
variable (O : MapImpl τ σ) (I : MapImpl σ α) (dbg : Bool) (o : Orient) (zero : α)

/-- `data_ [k] = vector_data_value_type ()`: `operator []` inserts a default line if there is none, then the line is assigned. matrix_sparse.hpp:1461, 1467, 1478, 1524, 1605. -/
def putEmpty (m : τ) (k : Nat) : M τ := do
  let (m, _) ← O.insert dbg m k I.empty
  O.setAt m k I.empty

/-- Constructor `(size1, size2, non_zeros)`: 1464-1468. -/
def ctor (r c : Nat) : M (MapMap τ) := do
  let m ← putEmpty O I dbg O.empty (o.sizeM r c)
  .ok ⟨r, c, m⟩

/-- `resize (size1, size2, preserve)`: 1523-1530. -/
def resize (v : MapMap τ) (r c : Nat) (preserve : Bool) : M (MapMap τ) := do
  check dbg (preserve = false) .internalLogic
  let m ← O.clear dbg v.map
  let m ← putEmpty O I dbg m (o.sizeM r c)
  .ok ⟨r, c, m⟩

/-- `find_element`: 1537-1550. -/
def findElement (v : MapMap τ) (i j : Nat) : M (Option α) := do
  match ← O.find v.map (o.indexM i j) with
  | none => .ok none
  | some x => I.find x (o.indexm i j)

/-- `operator () const`: 1554-1566. -/
def get (v : MapMap τ) (i j : Nat) : M α := do
  match ← O.find v.map (o.indexM i j) with
  | none => .ok zero
  | some x =>
      match ← I.find x (o.indexm i j) with
      | none => .ok zero
      | some t => .ok t

/-- non-const `operator ()` and an update through the reference: 1568-1580. -/
def modify (v : MapMap τ) (i j : Nat) (f : α → α) : M (MapMap τ) := do
  let (m, _) ← O.insert dbg v.map (o.indexM i j) I.empty
  match ← O.find m (o.indexM i j) with
  | none => .error .ub
  | some x => do
      let (x, _) ← I.insert dbg x (o.indexm i j) zero
      match ← I.find x (o.indexm i j) with
      | none => .error .ub
      | some t => do
          let x ← I.setAt x (o.indexm i j) (f t)
          let m ← O.setAt m (o.indexM i j) x
          .ok { v with map := m }

/-- `insert_element`: 1584-1595. -/
def insertElement (v : MapMap τ) (i j : Nat) (t : α) : M (MapMap τ) := do
  (if dbg then do
      let p ← findElement O I o v i j
      check dbg (p.isNone = true) .badIndex
    else .ok () : M Unit)
  let (m, _) ← O.insert dbg v.map (o.indexM i j) I.empty
  match ← O.find m (o.indexM i j) with
  | none => .error .ub
  | some x => do
      let (x, b) ← I.insert dbg x (o.indexm i j) t
      let x ← (if ¬ b = true then I.setAt x (o.indexm i j) t else .ok x : M σ)
      let m ← O.setAt m (o.indexM i j) x
      .ok { v with map := m }

/-- `erase_element`: 1597-1605. -/
def eraseElement (v : MapMap τ) (i j : Nat) : M (MapMap τ) := do
  match ← O.find v.map (o.indexM i j) with
  | none => .ok v
  | some x =>
      match ← I.find x (o.indexm i j) with
      | none => .ok v
      | some _ => do
          let x ← I.eraseKey dbg x (o.indexm i j)
          let m ← O.setAt v.map (o.indexM i j) x
          .ok { v with map := m }

/-- `clear`: 1609-1612. -/
def clear (v : MapMap τ) : M (MapMap τ) := do
  let m ← O.clear dbg v.map
  let m ← putEmpty O I dbg m (o.sizeM v.size1 v.size2)
  .ok { v with map := m }

/-- Client histories: composes the operations cited in this file; no code of its own in /repo. -/
def step (v : MapMap τ) : MapMapOp α → M (MapMap τ)
  | .modify i j f => modify O I dbg o zero v i j f
  | .insert i j t => insertElement O I dbg o v i j t
  | .erase i j => eraseElement O I dbg o v i j
  | .clear => clear O I dbg o v
  | .resize r c => resize O I dbg o v r c false

/-- Client histories: composes the operations cited in this file; no code of its own in /repo. -/
def run : MapMap τ → List (MapMapOp α) → M (MapMap τ)
  | v, [] => .ok v
  | v, op :: ops => step O I dbg o zero v op >>= fun v' => run v' ops

end MapMap
end Ublas
