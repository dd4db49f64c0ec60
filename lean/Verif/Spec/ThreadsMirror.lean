import Verif.Spec.Threads
/-! # What threads may expect of a shared matrix in which (i, j) and (j, i) are two names of one element, the second of which shows its conjugate -/
namespace Ublas
namespace Threads
variable {R A : Type}

/-- After `m (p) = v`. -/
def mirrored (conj : R → R) (f : Nat × Nat → R) (p : Nat × Nat) (v : R) : Nat × Nat → R := fun q => if q = p then v else if q = p.swap then conj v else f q

/-- What a client computes, and the elements it leaves. -/
def Client.semM (conj : R → R) (f : Nat × Nat → R) : Client (Nat × Nat) R A → A × (Nat × Nat → R)
  | .done a => (a, f)
  | .get p k => (k (f p)).semM conj f
  | .set p v k => k.semM conj (mirrored conj f p v)

/-- The client reads only elements in `rdable` and writes only elements in `wrable`. -/
def Client.KeepsM (conj : R → R) (rdable wrable : Nat × Nat → Prop) (f : Nat × Nat → R) : Client (Nat × Nat) R A → Prop
  | .done _ => True
  | .get p k => rdable p ∧ (k (f p)).KeepsM conj rdable wrable f
  | .set p v k => wrable p ∧ k.KeepsM conj rdable wrable (mirrored conj f p v)

end Threads
end Ublas
