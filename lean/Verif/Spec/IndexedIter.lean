import Verif.Model.IndexedIter
import Verif.Spec.RandomAccess
/-! # Vectors in a build with indexed iterators -/
namespace Ublas
variable {R : Type}

/-- A selector that is not a range, or a range starting at 0. -/
def Sel.FromZero : Sel → Prop
  | .range r => r.start = 0
  | _ => True

namespace RExp

/-- The model of the expression's iterators in a build with BOOST_UBLAS_USE_INDEXED_ITERATOR. -/
def indexed (dbg : Bool) : RExp R → RVec R
  | .dense data => RVec.denseIx dbg data
  | .scalar n v => RVec.scalarIx dbg n v
  | .line o ax m l => RVec.lineIx dbg o ax m l
  | .diag o m s t => RVec.diag dbg (m.get dbg o) (RVec.ofSelIx dbg s) (RVec.ofSelIx dbg t)
  | .proxy e s => RVec.proxyIx dbg (e.indexed dbg) s
  | .map f e => RVec.mapIx dbg f (e.indexed dbg)
  | .map2 f e e' => RVec.map2Ix dbg f (e.indexed dbg) (e'.indexed dbg)

/-- All ranges in the expression start at 0. -/
def FromZero : RExp R → Prop
  | .dense _ => True
  | .scalar _ _ => True
  | .line _ _ _ _ => True
  | .diag _ _ s t => s.FromZero ∧ t.FromZero
  | .proxy e s => e.FromZero ∧ s.FromZero
  | .map _ e => e.FromZero
  | .map2 _ e e' => e.FromZero ∧ e'.FromZero

end RExp
end Ublas
