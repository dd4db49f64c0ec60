import Verif.Spec.Norms
import Verif.Model.Layout
/-! # What the self-checks of debug builds compare -/
namespace Ublas
open Finset
variable {R K : Type}

/-- `t` is the infinity norm (largest row sum of absolute values) of the matrix `f` with `r` lines of `c` elements, `f` being indexed by (major, minor): with row_major storage the
lines are the rows, with column_major storage the columns. -/
def InfNorm [AddCommMonoid K] [LE K] (abs : R → K) : Orient → Nat → Nat → (Nat → Nat → R) → K → Prop
  | .row, r, c, f, t => Norms.IsMax r (fun k => ∑ l ∈ range c, abs (f k l)) t
  | .col, r, c, f, t => Norms.IsMax c (fun l => ∑ k ∈ range r, abs (f k l)) t

end Ublas
