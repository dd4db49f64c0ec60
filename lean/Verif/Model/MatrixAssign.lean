import Verif.Model.VectorAssign
/-!
# Assigning a matrix expression to a matrix or matrix view: detail/matrix_assign.hpp

The row_major and column_major variants in the source are transposes of each other (matrix_assign.hpp:46-149 and 150-252, 636-799 and 800-964, 965-1005 and
1006-1046, 1047-1201 and 1202-1356), so the model works with a *major* and a *minor* index: for a row_major assignment the major index is the row, for a
column_major one the column.  The target is seen through its public interface (`MT`).  The right-hand side does not read the target (it is what an assignment
operator passes on after building its temporary, or the operand of `noalias`/`plus_assign` without aliasing).  Only the unrestricted dispatcher
(matrix_assign.hpp:1358-1372) is modelled, not the one with a conformant restriction (1373-1386).  Not modelled here (but on top of this file, in Model/TypeCheck.lean): BOOST_UBLAS_TYPE_CHECK
re-computation, Duff-device loops.
-/
namespace Ublas
variable {σ R : Type}

/-- A matrix or matrix view as a target.  `lines s`: the major indices `[begin1 (), end1 ())` visits (`begin2 ()` … for column_major); `its s k`: the minor
indices `[it1.begin (), it1.end ())` visits in line `k`; the rest as in `VT`, with (major, minor) arguments. Interface: what detail/matrix_assign.hpp:514-1005 uses of its target. -/
structure MT (σ R : Type) where
  sizeM : σ → Nat
  sizem : σ → Nat
  cat : Cat
  lines : σ → List Nat
  its : σ → Nat → List Nat
  get : σ → Nat → Nat → M R
  put : σ → Nat → Nat → R → M σ
  ref : σ → Nat → Nat → R → M σ
  clear : σ → M σ
  insert : σ → Nat → Nat → R → M σ

/-- Line `k` of the target, as the nested iterators see it. Specialises the interface; the inner loops of detail/matrix_assign.hpp:526-544. -/
def MT.line (T : MT σ R) (k : Nat) : VT σ R :=
  ⟨T.sizem, T.cat, fun s => T.its s k, fun s => T.get s k, fun s => T.put s k, fun s => T.ref s k, T.clear, fun s => T.insert s k⟩

/-- A matrix expression: sizes, category, what the outer iterators and, for each line, the inner iterators visit, and `operator () (i, j)`. Interface: what detail/matrix_assign.hpp:514-1005 uses of its right-hand side. -/
structure MExp (R : Type) where
  sizeM : Nat
  sizem : Nat
  cat : Cat
  lines : List (Nat × List (Nat × R))
  at_ : Nat → Nat → M R

/-- The elements of one line, as a vector expression. Specialises the interface; the inner loops of detail/matrix_assign.hpp:526-544. -/
def MExp.line (e : MExp R) (q : Nat × List (Nat × R)) : VExpr σ R := VExpr.const ⟨e.sizem, e.cat, q.2, e.at_ q.1⟩

/-- `matrix_assign_traits`: matrix_assign.hpp:460-512; the same table as `vector_assign_traits`. -/
def massignTraits : StorageCat → (computed : Bool) → Cat → StorageCat
  | .dense, _, .packed => .packed
  | .dense, false, .sparse => .sparse
  | .dense, true, .sparse => .sparseProxy
  | .denseProxy, _, .packed => .packedProxy
  | .denseProxy, _, .sparse => .sparseProxy
  | .packed, false, .sparse => .sparse
  | .packed, true, .sparse => .sparseProxy
  | .packedProxy, _, .sparse => .sparseProxy
  | .sparse, true, _ => .sparseProxy
  | sc, _, _ => sc

namespace MAssign
variable [Add R] [Sub R] [Zero R]

/-- `while (-- size1 >= 0) { … inner loop … ++ it1, ++ it1e; }` of `iterating_matrix_assign`: matrix_assign.hpp:526-544, 558-576. -/
def iterLines (dbg : Bool) (T : MT σ R) (F : AssignF) (size2 : Nat) : List Nat → List (Nat × List (Nat × R)) → σ → M σ
  | k :: ls, q :: qs, s => do
    check dbg ((T.its s k).length = size2) .badSize
    check dbg (q.2.length = size2) .badSize
    let s ← (if (T.its s k).length < size2 ∨ q.2.length < size2 then .error .ub
      else VAssign.zipLoop (T.line k) F ((T.its s k).take size2) ((q.2.take size2).map fun p => (p.1, fun _ => .ok p.2)) s : M σ)
    iterLines dbg T F size2 ls qs s
  | _, _, s => .ok s

/-- `iterating_matrix_assign`: matrix_assign.hpp:514-577.  With no minor elements the `size1` rounds do nothing; otherwise advancing past the end of a range
shorter than `size1` is undefined behaviour. -/
def iterating (dbg : Bool) (T : MT σ R) (F : AssignF) (e : MExp R) (s : σ) : M σ := do
  let size1 ← same dbg (T.sizeM s) e.sizeM
  let size2 ← same dbg (T.sizem s) e.sizem
  check dbg (size2 = 0 ∨ (T.lines s).length = size1) .badSize
  check dbg (size2 = 0 ∨ e.lines.length = size1) .badSize
  if size2 = 0 then .ok s
  else if (T.lines s).length < size1 ∨ e.lines.length < size1 then .error .ub
  else iterLines dbg T F size2 ((T.lines s).take size1) (e.lines.take size1) s

/-- `indexing_matrix_assign`: matrix_assign.hpp:578-613. -/
def indexing (dbg : Bool) (T : MT σ R) (F : AssignF) (e : MExp R) (s : σ) : M σ := do
  let size1 ← same dbg (T.sizeM s) e.sizeM
  let size2 ← same dbg (T.sizem s) e.sizem
  loop (fun i s => loop (fun j s => do
    let y ← e.at_ i j
    let x ← T.get s i j
    T.ref s i j (F.apply x y)) size2 s) size1 s

/-- Dense (proxy) case: matrix_assign.hpp:615-635. -/
def dense (dbg : Bool) (mode : ProdFn.Mode) (T : MT σ R) (F : AssignF) (e : MExp R) (s : σ) : M σ :=
  match mode with
  | .indexing => indexing dbg T F e s
  | .iterating => iterating dbg T F e s
  | .threshold n => do
    let size1 ← same dbg (T.sizeM s) e.sizeM
    let size2 ← same dbg (T.sizem s) e.sizem
    if n ≤ size1 ∧ n ≤ size2 then iterating dbg T F e s else indexing dbg T F e s

/-- `while (-- size1 >= 0) { it2 = it1.begin (); … functor_type::apply (*it2, zero), ++ it2; ++ it1; }`: matrix_assign.hpp:682-694, 779-791, 1180-1193. -/
def zeroLines (T : MT σ R) (F : AssignF) : List Nat → σ → M σ
  | [], s => .ok s
  | k :: ls, s => do
    let s ← VAssign.zeroLoop (T.line k) F (T.its s k) s
    zeroLines T F ls s

/-- The common lines: matrix_assign.hpp:704-768; the body (716-766) is the vector algorithm without its size check. -/
def zipLines (T : MT σ R) (F : AssignF) (e : MExp R) : List Nat → List (Nat × List (Nat × R)) → σ → M σ
  | k :: ls, q :: qs, s => do
    let s ← VAssign.packed false (T.line k) F (e.line q) s
    zipLines T F e ls qs s
  | _, _, s => .ok s

/-- The first offset branch: matrix_assign.hpp:663-669. -/
def skipE (it1 : List Nat) (it1e : List (Nat × List (Nat × R))) : List (Nat × List (Nat × R)) :=
  match it1, it1e with
  | i :: _, q :: _ => it1e.drop (VAssign.advance i q.1 it1e.length)
  | _, _ => it1e

/-- The second offset branch: matrix_assign.hpp:670-671. -/
def skipT (it1 : List Nat) (it1e : List (Nat × List (Nat × R))) : Nat :=
  match it1, it1e with
  | i :: _, q :: _ => VAssign.advance q.1 i it1.length
  | _, _ => 0

/-- Packed (proxy) case: matrix_assign.hpp:636-799. -/
def packed (dbg : Bool) (T : MT σ R) (F : AssignF) (e : MExp R) (s : σ) : M σ := do
  check dbg (T.sizeM s = e.sizeM) .badSize
  check dbg (T.sizem s = e.sizem) .badSize
  let it1 := T.lines s
  let it1e := skipE it1 e.lines
  let skip := skipT it1 it1e
  let s ← (if F.computed then .ok s else zeroLines T F (it1.take skip) s : M σ)
  let it1 := it1.drop skip
  let s ← zipLines T F e it1 it1e s
  if F.computed then .ok s else zeroLines T F (it1.drop it1e.length) s

/-- `while (it2e != it2e_end) { value_type t (*it2e); if (t != zero) m.insert_element (…, t); ++ it2e; }` for every line: matrix_assign.hpp:989-1004. -/
def insertLines [DecidableEq R] (T : MT σ R) (e : MExp R) : List (Nat × List (Nat × R)) → σ → M σ
  | [], s => .ok s
  | q :: qs, s => do
    let s ← VAssign.insertLoop (T.line q.1) ((e.line q : VExpr σ R).begin_ s) s
    insertLines T e qs s

/-- Sparse case: matrix_assign.hpp:965-1046. -/
def sparse [DecidableEq R] (dbg : Bool) (T : MT σ R) (e : MExp R) (s : σ) : M σ := do
  check dbg (T.sizeM s = e.sizeM) .badSize
  check dbg (T.sizem s = e.sizem) .badSize
  let s ← T.clear s
  insertLines T e e.lines s

/-- The elements of one line of the expression that are not zero: matrix_assign.hpp:121-126, 138-143. -/
def tailLine [DecidableEq R] (e : MExp R) (s : σ) (q : Nat × List (Nat × R)) : M (List (Nat × Nat)) := do
  let l ← VAssign.missingTail s ((e.line q : VExpr σ R).begin_ s)
  .ok (l.map fun j => (q.1, j))

/-- The remaining lines of the expression: matrix_assign.hpp:130-145. -/
def tailLines [DecidableEq R] (e : MExp R) (s : σ) : List (Nat × List (Nat × R)) → M (List (Nat × Nat))
  | [] => .ok []
  | q :: qs => do
    let a ← tailLine e s q
    let b ← tailLines e s qs
    .ok (a ++ b)

/-- The positions `make_conformant` collects: matrix_assign.hpp:56-145; the body of the equal-line branch (75-109) is the vector algorithm.  `fuel` bounds the
rounds. -/
def missing [DecidableEq R] (T : MT σ R) (e : MExp R) (s : σ) : (fuel : Nat) → List Nat → List (Nat × List (Nat × R)) → M (List (Nat × Nat))
  | 0, _, _ => .error .diverge
  | n + 1, ls, qs => match ls, qs with
    | k :: ls', q :: qs' =>
      if k = q.1 then do
        let a ← VAssign.missing T.cat s ((T.its s k).length + q.2.length + 1) (T.its s k) ((e.line q : VExpr σ R).begin_ s)
        let b ← missing T e s n ls' qs'
        .ok ((a.map fun j => (q.1, j)) ++ b)
      else if k < q.1 then missing T e s n (VAssign.incr T.cat (k :: ls') (q.1 - k)) (q :: qs')
      else do
        let a ← tailLine e s q
        let b ← missing T e s n (k :: ls') qs'
        .ok (a ++ b)
    | _, qs => tailLines e s qs

/-- `make_conformant`: matrix_assign.hpp:46-149. -/
def makeConformant [DecidableEq R] (dbg : Bool) (T : MT σ R) (e : MExp R) (s : σ) : M σ := do
  check dbg (T.sizeM s = e.sizeM) .badSize
  check dbg (T.sizem s = e.sizem) .badSize
  let index ← missing T e s ((T.lines s).length + e.lines.length + 1) (T.lines s) e.lines
  index.foldlM (fun s p => T.ref s p.1 p.2 0) s

/-- The outer merge: matrix_assign.hpp:1072-1196; the body of the equal-line branch (1086-1140) is the vector algorithm. -/
def mergeLines (T : MT σ R) (F : AssignF) (e : MExp R) : (fuel : Nat) → List Nat → List (Nat × List (Nat × R)) → σ → M σ
  | 0, _, _, _ => .error .diverge
  | n + 1, ls, qs, s => match ls, qs with
    | k :: ls', q :: qs' =>
      if k = q.1 then do
        let s ← VAssign.mergeLoop (T.line k) e.cat F ((T.its s k).length + q.2.length + 1) (T.its s k) ((e.line q : VExpr σ R).begin_ s) s
        mergeLines T F e n ls' qs' s
      else if k < q.1 then
        if F.computed then mergeLines T F e n (VAssign.incr T.cat (k :: ls') (q.1 - k)) (q :: qs') s
        else do
          let s ← VAssign.zeroLoop (T.line k) F (T.its s k) s
          mergeLines T F e n ls' (q :: qs') s
      else mergeLines T F e n (k :: ls') (VAssign.incr e.cat (q :: qs') (k - q.1)) s
    | ls, _ => if F.computed then .ok s else zeroLines T F ls s

/-- Sparse proxy or functional case: matrix_assign.hpp:1047-1201. -/
def sparseProxy [DecidableEq R] (dbg : Bool) (T : MT σ R) (F : AssignF) (e : MExp R) (s : σ) : M σ := do
  check dbg (T.sizeM s = e.sizeM) .badSize
  check dbg (T.sizem s = e.sizem) .badSize
  let s ← makeConformant dbg T e s
  mergeLines T F e ((T.lines s).length + e.lines.length + 1) (T.lines s) e.lines s

/-- Dispatcher: matrix_assign.hpp:1358-1372; the static assertion (977, 1018) is a compile-time error, here `internalLogic`. -/
def assign [DecidableEq R] (dbg : Bool) (mode : ProdFn.Mode) (sc : StorageCat) (T : MT σ R) (F : AssignF) (e : MExp R) (s : σ) : M σ :=
  match massignTraits sc F.computed e.cat with
  | .dense | .denseProxy => dense dbg mode T F e s
  | .packed | .packedProxy => packed dbg T F e s
  | .sparse => if F.computed then .error .internalLogic else sparse dbg T e s
  | .sparseProxy => sparseProxy dbg T F e s

end MAssign
end Ublas
