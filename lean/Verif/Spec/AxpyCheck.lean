import Verif.Spec.Norms
import Verif.Model.Layout
/-! # What the self-checks of axpy_prod measure -/
namespace Ublas
open Finset
variable {R K : Type}

/-- `t` is the 1-norm (largest column sum of absolute values) of the `r` by `c` matrix `f`. -/
def OneNorm [AddCommMonoid K] [LE K] (abs : R → K) (r c : Nat) (f : Nat → Nat → R) (t : K) : Prop := Norms.IsMax c (fun j => ∑ i ∈ range r, abs (f i j)) t

end Ublas
