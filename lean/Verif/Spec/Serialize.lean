import Verif.Model.Serialize
/-! # What saving and loading mean -/
namespace Ublas
namespace Ser
variable {R σ : Type}

/-- Saving `x` appends exactly `out` to any archive and leaves `x` as it is. -/
def Saves (ser : S R σ Unit) (x : σ) (out : List (Tok R)) : Prop := ∀ t, ser x ⟨false, t⟩ = .ok () x ⟨false, t ++ out⟩

/-- Loading into the object `y` an archive that begins with `out` consumes exactly `out` and leaves `x` in the object. -/
def Loads (ser : S R σ Unit) (y : σ) (out : List (Tok R)) (x : σ) : Prop := ∀ t, ser y ⟨true, out ++ t⟩ = .ok () x ⟨true, t⟩

/-- What `ser` wrote for `x`, `ser'` (the same function, possibly of another build) restores: into any object of the type (`Obj`), whatever it holds, an object for which `Same x` holds. -/
def RoundTrips' (ser ser' : S R σ Unit) (Obj : σ → Prop) (Same : σ → Prop) (x : σ) : Prop :=
  ∃ out, Saves ser x out ∧ ∀ y, Obj y → ∃ x', Same x' ∧ Loads ser' y out x'

/-- The restored object has the same members. -/
def RoundTrips (ser ser' : S R σ Unit) (Obj : σ → Prop) (x : σ) : Prop := ∃ out, Saves ser x out ∧ ∀ y, Obj y → Loads ser' y out x

/-- Loading any archive, however damaged or truncated, into an object that is in order ends with an object that is in order, with or without an exception, and without an access outside the storage. -/
def Robust (ser : S R σ Unit) (Obj : σ → Prop) : Prop := ∀ y tape, Obj y →
  (∃ y' t, ser y ⟨true, tape⟩ = .ok () y' ⟨true, t⟩ ∧ Obj y') ∨ ∃ f y', ser y ⟨true, tape⟩ = .thrown f y' ∧ f ≠ .ub ∧ f ≠ .diverge ∧ Obj y'

end Ser
end Ublas
