import Verif.Model.LU
import Verif.Model.TypeCheck
/-!
# The self-checks of LU factorisation and substitution in debug builds: lu.hpp

With BOOST_UBLAS_TYPE_CHECK (on in debug builds, detail/config.hpp:221-224) the functions of lu.hpp copy their argument first, and multiply back and compare at the end.
-/
namespace Ublas.LU
variable {σ τ R K : Type} [Field R] [DecidableEq R] [Add K] [Mul K] [Zero K] [LT K] [DecidableLT K] [LE K] [DecidableLE K]

/-- `prod (triangular_adaptor<matrix_type, unit_lower> (m), triangular_adaptor<matrix_type, upper> (m))`, element (i, j): lu.hpp:121-122, 166-167, 258-259. -/
def backProduct (V : Acc σ (Nat × Nat) R) (n1 n2 : Nat) (s : σ) (i j : Nat) : M R :=
  ProdFn.mmAt true ((blockSeq V s 0 0 n1 n2).triAdaptor true ⟨.unit, false⟩) ((blockSeq V s 0 0 n1 n2).triAdaptor true ⟨.lower, true⟩) i j

/-- `BOOST_UBLAS_CHECK (singular != 0 || detail::expression_type_check (prod (…), cm), internal_logic ());`: lu.hpp:120-123, 165-167, 257-259. -/
def checkBack (tc : TypeCheck R K) (V : Acc σ (Nat × Nat) R) (n1 n2 : Nat) (m cm : σ) (singular : Nat) : M Unit :=
  if singular ≠ 0 then .ok () else do
    let b ← tc.equalsM .row n1 n2 (backProduct V n1 n2 m) (fun i j => V.get cm (i, j))
    check true (b = true) .internalLogic

/-- `lu_factorize (m)` in a debug build: lu.hpp:91-126. -/
def factorizeDbg (tc : TypeCheck R K) (o : Orient) (V : Acc σ (Nat × Nat) R) (n1 n2 : Nat) (s : σ) : M (σ × Nat) := do
  let st ← factorize o V n1 n2 s
  checkBack tc V n1 n2 st.1 s st.2
  .ok st

/-- `lu_factorize (m, pm)` in a debug build: lu.hpp:128-170. -/
def factorizePivotDbg (tc : TypeCheck R K) (abs : R → K) (o : Orient) (V : Acc σ (Nat × Nat) R) (n1 n2 : Nat) (s : σ) (pm : List Nat) : M (PState σ) := do
  let st ← factorizePivot abs true o V n1 n2 s pm
  let cm ← swapRowsMat true st.pm V n2 s
  checkBack tc V n1 n2 st.m cm st.singular
  .ok st

/-- `axpy_lu_factorize (m, pm)` in a debug build: lu.hpp:172-262. -/
def axpyFactorizeDbg (tc : TypeCheck R K) (abs : R → K) (o : Orient) (V : Acc σ (Nat × Nat) R) (junk : Nat → R) (n1 n2 : Nat) (s : σ) (pm : List Nat) : M (PState σ) := do
  let st ← axpyFactorize abs true o V junk n1 n2 s pm
  let cm ← swapRowsMat true st.pm V n2 s
  checkBack tc V n1 n2 st.m cm st.singular
  .ok st

/-- The vector `e` as an operand. The vector operand of the products in lu.hpp:265-282, 307-323. -/
def vecSeq (T : Acc τ Nat R) (n : Nat) (t : τ) : Seq R := ⟨n, .dense, [], T.get t⟩

/-- `BOOST_UBLAS_CHECK (detail::expression_type_check (prod (triangular_adaptor<const_matrix_type, TRI> (m), e), cv), internal_logic ());`: lu.hpp:275, 280. -/
def checkSolved (tc : TypeCheck R K) (t : Tri) (A : MSeq R) (T : Acc τ Nat R) (n : Nat) (e cv : τ) : M Unit := do
  let b ← tc.equalsV n (fun i => ProdFn.mv1At true (A.triAdaptor true t) (vecSeq T n e) i) (T.get cv)
  check true (b = true) .internalLogic

/-- `lu_substitute (m, e)` for a vector in a debug build: lu.hpp:265-282. -/
def substVecDbg (tc : TypeCheck R K) (o : Orient) (A : MSeq R) (T : Acc τ Nat R) (n : Nat) (s : τ) : M τ := do
  let s1 ← Solve.inplace true false true o A T n s
  checkSolved tc ⟨.unit, false⟩ A T n s1 s
  let s2 ← Solve.inplace true true false o A T n s1
  checkSolved tc ⟨.lower, true⟩ A T n s2 s1
  .ok s2

end Ublas.LU
