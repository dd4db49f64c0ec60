import Verif.Spec.MapArray
/-!
# Statements with the element references of a map, as a client understands them

`m [k]` names the element with key `k`, which comes into being as `zero` when it is named for the first time.
-/
namespace Ublas

/-- Statements with at most two element references. -/
inductive RefStmt (α : Type)
  | read (k : Nat)                               -- x = m [k]
  | assign (k : Nat) (d : α)                     -- m [k] = d
  | update (k : Nat) (g : α → α → α) (d : α)     -- m [k] += d, -=, *=, /=
  | copy (k l : Nat)                             -- m [k] = m [l]
  | combine (k l : Nat) (g : α → α → α)          -- m [k] += m [l], ...
  | exchange (k l : Nat)                         -- swap (m [k], m [l]), m [k].swap (m [l])
  | chain (k l : Nat) (d : α)                    -- m [k] = m [l] = d
  | nest (k l : Nat) (g : α → α → α) (d : α)     -- m [k] += (m [l] = d), ...
  | plain (o : MapArr.Op α)                      -- anything else

namespace RefSpec
variable {α : Type}

def touch (zero : α) (s : Nat → Option α) (k : Nat) : Nat → Option α := fun j => if j = k then some ((s k).getD zero) else s j
def put (s : Nat → Option α) (k : Nat) (x : α) : Nat → Option α := fun j => if j = k then some x else s j
def val (zero : α) (s : Nat → Option α) (k : Nat) : α := (s k).getD zero

def step (zero : α) (s : Nat → Option α) : RefStmt α → Nat → Option α
  | .read k => touch zero s k
  | .assign k d => put s k d
  | .update k g d => put s k (g (val zero s k) d)
  | .copy k l => put (touch zero s l) k (val zero s l)
  | .combine k l g => put (touch zero s l) k (g (val zero s k) (val zero s l))
  | .exchange k l => put (put s k (val zero s l)) l (val zero s k)
  | .chain k l d => put (put s l d) k d
  | .nest k l g d => put (put s l d) k (g (val zero (put s l d) k) d)
  | .plain o => MapSpec.step zero s o

/-- What the caller must respect: the rules of the other operations, and not both to change an element and to use it through another reference in one statement. -/
def legal (s : Nat → Option α) : RefStmt α → Prop
  | .nest k l _ _ => k ≠ l
  | .plain o => MapSpec.legal s o
  | _ => True

/-- The rules of the language only: a statement may use the element it has just changed. -/
def legalC (s : Nat → Option α) : RefStmt α → Prop
  | .plain o => MapSpec.legal s o
  | _ => True

def run (zero : α) : (Nat → Option α) → List (RefStmt α) → Nat → Option α
  | s, [] => s
  | s, o :: os => run zero (step zero s o) os

def legalRun (zero : α) : (Nat → Option α) → List (RefStmt α) → Prop
  | _, [] => True
  | s, o :: os => legal s o ∧ legalRun zero (step zero s o) os

end RefSpec
end Ublas
