import Verif.Model.Vector
/-! # blas_1::swap (blas.hpp:95-106) -/
namespace Ublas.Blas
variable {σ Op J : Type}

/-- `swap (v1, v2)` for distinct objects is `v1.swap (v2)`: blas.hpp:102-106. -/
def swap (O : Values.Ops σ Op J) (v1 v2 : σ) : M (σ × σ) := O.swap v1 v2
/-- `swap (v, v)`: blas.hpp:102-106. -/
def swapSelf (O : Values.Ops σ Op J) (v : σ) : M σ := O.selfSwap v

end Ublas.Blas
