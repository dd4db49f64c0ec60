import Verif.Model.TensorExpr
/-! # real, imag, conj of tensor expressions (include/boost/numeric/ublas/tensor/function/{real,imag,conj}.hpp) -/
namespace Ublas.Tens
variable {R S : Type}

/-- The overloads that return a tensor of another element type: real.hpp:51-76, imag.hpp:53-78 (complex elements), conj.hpp:54-76 (real elements).
`fn` is std::real, std::imag or std::conj; `retrieve_extents` is applied outside an assignment. -/
def mapTensor (L : Layout) (zero : R) (zero' : S) (fn : R → S) (x : TExp R) (order : List Nat) : M (Tensor S) :=
  if x.extents [] = [] then .error .stdException else do
    let a ← construct L zero x order
    let c ← create L a.extents zero'
    let d ← loop (fun k d => do
      let v ← rd false a.data k
      wr false d k (fn v)) a.data.length c.data
    .ok { c with data := d }

/-- The overloads that return an expression: real.hpp:41-44, imag.hpp:42-45 (real elements), conj.hpp:41-47 (complex elements). -/
def mapExpr (fn : R → R) (x : TExp R) : TExp R := .unary fn x

end Ublas.Tens
