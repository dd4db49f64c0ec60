import Verif.Model.Oriented
/-!
The vocabulary of C120.
-/
namespace Ublas
variable {R : Type}

/-- `trans (trans (… e))`, `n` times. -/
def OMat.transN (e : OMat R) : Nat → OMat R
  | 0 => e
  | n + 1 => (e.transN n).trans

/-- Indices (row, column) of the element number `b` of line number `a` in storage order: for a row-major expression line `a` is row `a`, for a
column-major one it is column `a`. -/
def Ori.place : Ori → Nat → Nat → Nat × Nat
  | .col, a, b => (b, a)
  | _, a, b => (a, b)

/-- A nested loop over `n` lines of `k` elements each, element `b` of line `a` being `f a b`. -/
def nested (n k : Nat) (f : Nat → Nat → (Nat × Nat) × R) : List (Nat × List ((Nat × Nat) × R)) :=
  (List.range n).map fun a => (a, (List.range k).map fun b => f a b)

/-- The values a nested loop met, in the order it met them. -/
def met (T : List (Nat × List ((Nat × Nat) × R))) : List R := T.flatMap fun l => l.2.map fun x => x.2

end Ublas
