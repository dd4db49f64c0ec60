import Mathlib.Algebra.Field.Defs
import Mathlib.Algebra.BigOperators.Group.Finset.Basic
/-! # What a triangular solve must deliver -/
namespace Ublas.Solve
open Finset
variable {R : Type} [Field R]

/-- Strictly inside the triangle. -/
def Strict (upper : Bool) (i j : Nat) : Prop := if upper = true then i < j else j < i

instance (upper : Bool) (i j : Nat) : Decidable (Strict upper i j) := by unfold Strict; infer_instance

/-- The triangle of `a` a tag names: lower or upper, with its own or a unit diagonal; zero elsewhere. -/
def tri (upper unit : Bool) (a : Nat → Nat → R) (i j : Nat) : R :=
  if i = j then (if unit then 1 else a i i) else if Strict upper i j then a i j else 0

end Ublas.Solve
