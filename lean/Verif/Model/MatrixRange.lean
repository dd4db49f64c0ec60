import Verif.Model.MatrixTargets
import Verif.Model.Blocked
/-!
# matrix_range as a target: matrix_proxy.hpp:2423-2965

A range of any matrix target, in (major, minor) indices: lines `a` … `a + r - 1`, minor indices `b` … `b + c - 1`.
-/
namespace Ublas
variable {σ R : Type}

/-- `matrix_range<M>` (`project (m, range, range)`): element access through the two ranges (matrix_proxy.hpp:2470-2500; `range::operator ()` checks the index,
storage.hpp:1054-1058), `find1`/`find2` (2624-2660) and the iterators (2690-2965: `index () - start`).  A view has no `clear ()` or
`insert_element ()`.  Simplified: for `c = 0` the outer iterators of a range of a dense matrix may visit other lines (C83), whose inner loops are empty. -/
def MT.range (dbg : Bool) (T : MT σ R) (a r b c : Nat) : MT σ R where
  sizeM _ := r
  sizem _ := c
  cat := T.cat
  lines s := projLines (T.lines s) a (a + r)
  its s k := projLines (T.its s (a + k)) b (b + c)
  get s k l := do
    check dbg (k < r) .badIndex
    check dbg (l < c) .badIndex
    T.get s (a + k) (b + l)
  put s k l t := do
    check dbg (k < r) .badIndex
    check dbg (l < c) .badIndex
    T.put s (a + k) (b + l) t
  ref s k l t := do
    check dbg (k < r) .badIndex
    check dbg (l < c) .badIndex
    T.ref s (a + k) (b + l) t
  clear _ := .error .internalLogic
  insert _ _ _ _ := .error .internalLogic

/-- `storage_restrict_traits<M::storage_category, dense_proxy_tag>` (a sparse or packed container gives a sparse or packed view): traits.hpp:420-476,
matrix_proxy.hpp:2428-2429. -/
def StorageCat.proxy : StorageCat → StorageCat
  | .dense | .denseProxy => .denseProxy
  | .packed | .packedProxy => .packedProxy
  | .sparse | .sparseProxy => .sparseProxy

end Ublas
