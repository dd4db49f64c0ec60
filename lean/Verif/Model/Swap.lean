import Verif.Model.VectorTargets
import Verif.Model.MatrixTargets
/-!
# Swapping two vector views or two matrix views: detail/vector_assign.hpp:490-605, detail/matrix_assign.hpp:1388-1785

Both views are targets on one state (which may be a pair of containers).  The packed case is in Model/VectorTargets.  Not modelled: the
BOOST_UBLAS_TYPE_CHECK tails (vector_assign.hpp:592-595, matrix_assign.hpp:1565-1568, 1604-1627 and the transposed lines), which only advance iterators that are
not used afterwards.
-/
namespace Ublas
variable {σ R : Type}

/-- `scalar_swap::apply (*it, *ite)`: `std::swap` of the two references; functional.hpp:312-327. -/
def VSwap.swapAt (T1 T2 : VT σ R) (s : σ) (i j : Nat) : M σ := do
  let x ← T1.get s i
  let y ← T2.get s j
  let s ← T1.put s i y
  T2.put s j x

/-- Dense (proxy) case: vector_assign.hpp:505-516.  Advancing past the end of a range shorter than `size` is undefined behaviour. -/
def VSwap.dense [Zero R] (dbg : Bool) (T1 T2 : VT σ R) (s : σ) : M σ := do
  let size ← same dbg (T1.size s) (T2.size s)
  if (T1.its s).length < size ∨ (T2.its s).length < size then .error .ub
  else VSwap.swapLoop T1 T2 ((T1.its s).take size) ((T2.its s).take size) s

/-- A view as the expression that `make_conformant` walks: `size ()`, `begin ()` … `end ()`, `*ite`. detail/vector_assign.hpp:186-265 (make_conformant). -/
def VT.expr (T : VT σ R) (s : σ) : VExpr σ R :=
  ⟨T.size s, T.cat, fun s => (T.its s).map fun i => (i, fun s => T.get s i), fun i s => T.get s i⟩

/-- The merge of the sparse proxy case: vector_assign.hpp:560-590.  `fuel` bounds the rounds (running out is `diverge`). -/
def VSwap.mergeLoop (T1 T2 : VT σ R) : (fuel : Nat) → List Nat → List Nat → σ → M σ
  | 0, _, _, _ => .error .diverge
  | n + 1, it, ite, s => match it, ite with
    | i :: l, j :: r =>
      if i = j then do
        let s' ← VSwap.swapAt T1 T2 s i j
        VSwap.mergeLoop T1 T2 n l r s'
      else if i < j then VSwap.mergeLoop T1 T2 n (VAssign.incr T1.cat (i :: l) (j - i)) (j :: r) s
      else VSwap.mergeLoop T1 T2 n (i :: l) (VAssign.incr T2.cat (j :: r) (i - j)) s
    | _, _ => .ok s

/-- Sparse proxy case: vector_assign.hpp:547-596. -/
def VSwap.sparse [Zero R] [DecidableEq R] (dbg : Bool) (T1 T2 : VT σ R) (s : σ) : M σ := do
  check dbg (T1.size s = T2.size s) .badSize
  let s ← VAssign.makeConformant dbg T1 (T2.expr s) s
  let s ← VAssign.makeConformant dbg T2 (T1.expr s) s
  VSwap.mergeLoop T1 T2 ((T1.its s).length + (T2.its s).length + 1) (T1.its s) (T2.its s) s

/-- `vector_swap_traits` and the dispatcher: vector_assign.hpp:490-503, 598-605, for the storage category of the first view (a container category derives from
its proxy category, traits.hpp:410-419) and the iterator category of the second. -/
def VSwap.swap [Zero R] [DecidableEq R] (dbg : Bool) (sc : StorageCat) (T1 T2 : VT σ R) (s : σ) : M σ :=
  match sc, T2.cat with
  | .dense, _ => VSwap.dense dbg T1 T2 s
  | .denseProxy, .sparse => VSwap.sparse dbg T1 T2 s
  | .denseProxy, _ => VSwap.dense dbg T1 T2 s
  | .packedProxy, .sparse => VSwap.sparse dbg T1 T2 s
  | .packed, _ | .packedProxy, _ => VSwap.packed T1 T2 s
  | .sparse, _ | .sparseProxy, _ => VSwap.sparse dbg T1 T2 s

/-- `view1.swap (view2)`: the sizes are compared first; vector_proxy.hpp:209-223, 789-803, 1349-1363, matrix_proxy.hpp:185-199, 658-672. -/
def VSwap.member [Zero R] [DecidableEq R] (dbg : Bool) (sc : StorageCat) (T1 T2 : VT σ R) (s : σ) : M σ := do
  check dbg (T1.size s = T2.size s) .badSize
  VSwap.swap dbg sc T1 T2 s

/-- A vector-like part of one component of a pair of containers: the left one. Machinery of the model: the two operands of a swap as one pair of containers; no code of its own in /repo. -/
def VT.left {σ1 σ2 : Type} (T : VT σ1 R) : VT (σ1 × σ2) R where
  size s := T.size s.1
  cat := T.cat
  its s := T.its s.1
  get s i := T.get s.1 i
  put s i t := do .ok (← T.put s.1 i t, s.2)
  ref s i t := do .ok (← T.ref s.1 i t, s.2)
  clear s := do .ok (← T.clear s.1, s.2)
  insert s i t := do .ok (← T.insert s.1 i t, s.2)

/-- The right one. Machinery of the model: the two operands of a swap as one pair of containers; no code of its own in /repo. -/
def VT.right {σ1 σ2 : Type} (T : VT σ2 R) : VT (σ1 × σ2) R where
  size s := T.size s.2
  cat := T.cat
  its s := T.its s.2
  get s i := T.get s.2 i
  put s i t := do .ok (s.1, ← T.put s.2 i t)
  ref s i t := do .ok (s.1, ← T.ref s.2 i t)
  clear s := do .ok (s.1, ← T.clear s.2)
  insert s i t := do .ok (s.1, ← T.insert s.2 i t)

/-- The line loop of the dense case of `matrix_swap`, both orientations: matrix_assign.hpp:1414-1427, 1440-1453. -/
def MSwap.lineLoop [Zero R] (dbg : Bool) (T1 T2 : MT σ R) : List Nat → List Nat → σ → M σ
  | k :: l, k' :: r, s => do
    let size2 ← same dbg (T1.sizem s) (T2.its s k').length
    if (T1.its s k).length < size2 ∨ (T2.its s k').length < size2 then .error .ub
    else do
      let s ← VSwap.swapLoop (T1.line k) (T2.line k') ((T1.its s k).take size2) ((T2.its s k').take size2) s
      MSwap.lineLoop dbg T1 T2 l r s
  | _, _, s => .ok s

/-- Dense (proxy) case: matrix_assign.hpp:1403-1454.  Without minor elements the `size1` rounds do nothing (the inner count is `m.size2 ()`, in debug after a check that is
not reached when the lines of `e` are counted as none); otherwise advancing past the end of a range shorter than `size1` is undefined behaviour. -/
def MSwap.dense [Zero R] (dbg : Bool) (T1 T2 : MT σ R) (s : σ) : M σ := do
  let size1 ← same dbg (T1.sizeM s) (T2.lines s).length
  if T1.sizem s = 0 then .ok s
  else if (T1.lines s).length < size1 ∨ (T2.lines s).length < size1 then .error .ub
  else MSwap.lineLoop dbg T1 T2 ((T1.lines s).take size1) ((T2.lines s).take size1) s

/-- The line loop of the packed case of `matrix_swap`, both orientations: matrix_assign.hpp:1465-1478, 1490-1503. -/
def MSwap.packedLoop [Zero R] (dbg : Bool) (T1 T2 : MT σ R) : List Nat → List Nat → σ → M σ
  | k :: l, k' :: r, s => do
    let size2 ← same dbg (T1.its s k).length (T2.its s k').length
    if (T2.its s k').length < size2 then .error .ub
    else do
      let s ← VSwap.swapLoop (T1.line k) (T2.line k') ((T1.its s k).take size2) ((T2.its s k').take size2) s
      MSwap.packedLoop dbg T1 T2 l r s
  | _, _, s => .ok s

/-- Packed (proxy) case: matrix_assign.hpp:1455-1504. -/
def MSwap.packed [Zero R] (dbg : Bool) (T1 T2 : MT σ R) (s : σ) : M σ := do
  let size1 ← same dbg (T1.lines s).length (T2.lines s).length
  if (T2.lines s).length < size1 then .error .ub
  else MSwap.packedLoop dbg T1 T2 ((T1.lines s).take size1) ((T2.lines s).take size1) s

/-- What the iterators of a matrix view show in state `s`; `make_conformant` reads all of it before it writes anything (it collects the positions first,
matrix_assign.hpp:53-148), and uses neither element access nor the iterator category of its second argument. -/
def MT.shown (T : MT σ R) (s : σ) : M (MExp R) := do
  let ls ← (T.lines s).mapM fun k => do
    let els ← (T.its s k).mapM fun l => do
      let x ← T.get s k l
      .ok (l, x)
    .ok (k, els)
  .ok ⟨T.sizeM s, T.sizem s, .sparse, ls, T.get s⟩

/-- The merge of the sparse case of `matrix_swap`: matrix_assign.hpp:1524-1603, 1649-1728 (the body of the equal-line branch is the vector merge; under
BOOST_UBLAS_TYPE_CHECK unequal lines are skipped one at a time, otherwise with `increment`: the same for sparse iterators).  `fuel` bounds the rounds. -/
def MSwap.mergeLines (T1 T2 : MT σ R) : (fuel : Nat) → List Nat → List Nat → σ → M σ
  | 0, _, _, _ => .error .diverge
  | n + 1, it1, it1e, s => match it1, it1e with
    | k :: l, k' :: r =>
      if k = k' then do
        let s ← VSwap.mergeLoop (T1.line k) (T2.line k') ((T1.its s k).length + (T2.its s k').length + 1) (T1.its s k) (T2.its s k') s
        MSwap.mergeLines T1 T2 n l r s
      else if k < k' then MSwap.mergeLines T1 T2 n (VAssign.incr T1.cat (k :: l) (k' - k)) (k' :: r) s
      else MSwap.mergeLines T1 T2 n (k :: l) (VAssign.incr T2.cat (k' :: r) (k - k')) s
    | _, _ => .ok s

/-- Sparse (proxy) case: matrix_assign.hpp:1505-1753. -/
def MSwap.sparse [Zero R] [DecidableEq R] [Add R] [Sub R] (dbg : Bool) (T1 T2 : MT σ R) (s : σ) : M σ := do
  check dbg (T1.sizeM s = T2.sizeM s) .badSize
  check dbg (T1.sizem s = T2.sizem s) .badSize
  let e ← T2.shown s
  let s ← MAssign.makeConformant dbg T1 e s
  let m ← T1.shown s
  let s ← MAssign.makeConformant dbg T2 m s
  MSwap.mergeLines T1 T2 ((T1.lines s).length + (T2.lines s).length + 1) (T1.lines s) (T2.lines s) s

/-- `matrix_swap_traits` and the dispatcher: matrix_assign.hpp:1388-1401, 1755-1768. -/
def MSwap.swap [Zero R] [DecidableEq R] [Add R] [Sub R] (dbg : Bool) (sc : StorageCat) (T1 T2 : MT σ R) (s : σ) : M σ :=
  match sc, T2.cat with
  | .dense, _ => MSwap.dense dbg T1 T2 s
  | .denseProxy, .sparse => MSwap.sparse dbg T1 T2 s
  | .denseProxy, _ => MSwap.dense dbg T1 T2 s
  | .packedProxy, .sparse => MSwap.sparse dbg T1 T2 s
  | .packed, _ | .packedProxy, _ => MSwap.packed dbg T1 T2 s
  | .sparse, _ | .sparseProxy, _ => MSwap.sparse dbg T1 T2 s

/-- `view1.swap (view2)` of two matrix_range, matrix_slice or matrix_indirect: the sizes are compared first; matrix_proxy.hpp:2575-2587, 3579-3591, 4620-4632. -/
def MSwap.view [Zero R] [DecidableEq R] [Add R] [Sub R] (dbg : Bool) (sc : StorageCat) (T1 T2 : MT σ R) (s : σ) : M σ := do
  check dbg (T1.sizeM s = T2.sizeM s) .badSize
  check dbg (T1.sizem s = T2.sizem s) .badSize
  MSwap.swap dbg sc T1 T2 s

/-- A matrix-like part of one component of a pair of containers: the left one. Machinery of the model: the two operands of a swap as one pair of containers; no code of its own in /repo. -/
def MT.left {σ1 σ2 : Type} (T : MT σ1 R) : MT (σ1 × σ2) R where
  sizeM s := T.sizeM s.1
  sizem s := T.sizem s.1
  cat := T.cat
  lines s := T.lines s.1
  its s k := T.its s.1 k
  get s k l := T.get s.1 k l
  put s k l t := do .ok (← T.put s.1 k l t, s.2)
  ref s k l t := do .ok (← T.ref s.1 k l t, s.2)
  clear s := do .ok (← T.clear s.1, s.2)
  insert s k l t := do .ok (← T.insert s.1 k l t, s.2)

/-- The right one. Machinery of the model: the two operands of a swap as one pair of containers; no code of its own in /repo. -/
def MT.right {σ1 σ2 : Type} (T : MT σ2 R) : MT (σ1 × σ2) R where
  sizeM s := T.sizeM s.2
  sizem s := T.sizem s.2
  cat := T.cat
  lines s := T.lines s.2
  its s k := T.its s.2 k
  get s k l := T.get s.2 k l
  put s k l t := do .ok (s.1, ← T.put s.2 k l t)
  ref s k l t := do .ok (s.1, ← T.ref s.2 k l t)
  clear s := do .ok (s.1, ← T.clear s.2)
  insert s k l t := do .ok (s.1, ← T.insert s.2 k l t)

end Ublas
