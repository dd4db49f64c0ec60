import Verif.Model.ElementProxy
/-! # Specification of element statements

A container is a partial function of stored elements; an element that is not stored reads as `zero`. -/
namespace Ublas.ElemSpec
variable {κ α : Type} [DecidableEq κ]

/-- The value of element `k`. -/
def at_ (zero : α) (val : κ → Option α) (k : κ) : α := (val k).getD zero

/-- Element `k` gets the value `x`; nothing else changes. -/
def put (val : κ → Option α) (k : κ) (x : α) : κ → Option α := fun j => if j = k then some x else val j

def step (zero : α) (val : κ → Option α) : ElemOp κ α → κ → Option α
  | .assign k d => put val k d
  | .update k g d => put val k (g (at_ zero val k) d)
  | .copy k l => put val k (at_ zero val l)
  | .combine k l g => put val k (g (at_ zero val k) (at_ zero val l))
  | .refer k f => put val k (f (at_ zero val k))

def run (zero : α) : (κ → Option α) → List (ElemOp κ α) → κ → Option α
  | val, [] => val
  | val, op :: ops => run zero (step zero val op) ops

/-- The elements a statement mentions are inside the container. -/
def legal (inside : κ → Prop) : ElemOp κ α → Prop
  | .assign k _ => inside k
  | .update k _ _ => inside k
  | .copy k l => inside k ∧ inside l
  | .combine k l _ => inside k ∧ inside l
  | .refer k _ => inside k

end Ublas.ElemSpec
