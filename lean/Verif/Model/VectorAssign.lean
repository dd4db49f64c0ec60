import Verif.Model.Prod
/-!
# Assigning a vector expression to a vector or vector view: detail/vector_assign.hpp

The target is seen through its public interface (`VT`): size, the indices its mutable iterators visit, reading and writing through an iterator,
element access, `clear ()` and `insert_element ()`.  The right-hand side is evaluated lazily: every `*ite` and `e () (i)` reads the current state of
the target, so that expressions which read the target are covered; `begin ()` is evaluated when the code calls it.  Not modelled: the
BOOST_UBLAS_TYPE_CHECK re-computation (it is modelled on top of this file in Model/TypeCheck.lean) (vector_assign.hpp:297-301, 355-359, 377-381, 391-395, 407-411, 473-477), which only compares, and the Duff-device
loops (off by default).  Differences of indices are exact integers.
-/
namespace Ublas
variable {σ R : Type}

/-- A vector or vector view as the target of an assignment.  `its s`: the indices `[begin (), end ())` visits; `get`: reading `*it` / `v (i)`;
`put`: `*it = t` for an iterator standing at an index in `its s`; `ref`: `v (i) = t`; `clear`: `v.clear ()`; `insert`: `v.insert_element (i, t)`. Interface: what detail/vector_assign.hpp:270-490 uses of its target. -/
structure VT (σ R : Type) where
  size : σ → Nat
  cat : Cat
  its : σ → List Nat
  get : σ → Nat → M R
  put : σ → Nat → R → M σ
  ref : σ → Nat → R → M σ
  clear : σ → M σ
  insert : σ → Nat → R → M σ

/-- A vector expression that may read the target: every element is a function of the target's current state. Interface: what detail/vector_assign.hpp:270-490 uses of its right-hand side. -/
structure VExpr (σ R : Type) where
  size : Nat
  cat : Cat
  begin_ : σ → List (Nat × (σ → M R))
  at_ : Nat → σ → M R

/-- An expression that does not read the target. Specialises the interface; no code of its own in /repo. -/
def VExpr.const (s : Seq R) : VExpr σ R := ⟨s.size, s.cat, fun _ => s.els.map fun p => (p.1, fun _ => .ok p.2), fun i _ => s.at_ i⟩

/-- The assignment functors `scalar_assign`, `scalar_plus_assign`, `scalar_minus_assign`: functional.hpp:188-261. -/
inductive AssignF | assign | plus | minus
  deriving DecidableEq, Repr

/-- `functor_type::computed`: functional.hpp:196, 223, 250. -/
def AssignF.computed : AssignF → Bool | .assign => false | _ => true
/-- `functor_type::apply (t1, t2)`: the new value of `t1`; functional.hpp:200-202, 227-229, 254-256. -/
def AssignF.apply [Add R] [Sub R] : AssignF → R → R → R
  | .assign, _, y => y
  | .plus, x, y => x + y
  | .minus, x, y => x - y

/-- Storage categories: traits.hpp:410-419. -/
inductive StorageCat | dense | denseProxy | packed | packedProxy | sparse | sparseProxy
  deriving DecidableEq, Repr

/-- `vector_assign_traits`: vector_assign.hpp:180-236. -/
def assignTraits : StorageCat → (computed : Bool) → Cat → StorageCat
  | .dense, _, .packed => .packed
  | .dense, false, .sparse => .sparse
  | .dense, true, .sparse => .sparseProxy
  | .denseProxy, _, .packed => .packedProxy
  | .denseProxy, _, .sparse => .sparseProxy
  | .packed, false, .sparse => .sparse
  | .packed, true, .sparse => .sparseProxy
  | .packedProxy, _, .sparse => .sparseProxy
  | .sparse, true, _ => .sparseProxy
  | sc, _, _ => sc

namespace VAssign
variable [Add R] [Sub R] [Zero R]

/-- `functor_type::apply (*it, *ite)`. detail/vector_assign.hpp:255-270 and the iterating loops below; functional.hpp:188-261. -/
def applyAt (T : VT σ R) (F : AssignF) (s : σ) (i : Nat) (d : σ → M R) : M σ := do
  let y ← d s
  let x ← T.get s i
  T.put s i (F.apply x y)

/-- `while (-- size >= 0) functor_type::apply (*it, *ite), ++ it, ++ ite;` for as many elements as both ranges have:
vector_assign.hpp:250-251, 338-339. -/
def zipLoop (T : VT σ R) (F : AssignF) : List Nat → List (Nat × (σ → M R)) → σ → M σ
  | i :: l, q :: r, s => do
    let s' ← applyAt T F s i q.2
    zipLoop T F l r s'
  | _, _, s => .ok s

/-- `while (-- size >= 0) functor_type::apply (*it, value_type ()), ++ it;`: vector_assign.hpp:328-329, 350-351, 466-469. -/
def zeroLoop (T : VT σ R) (F : AssignF) : List Nat → σ → M σ
  | [], s => .ok s
  | i :: l, s => do
    let x ← T.get s i
    let s' ← T.put s i (F.apply x 0)
    zeroLoop T F l s'

/-- `iterating_vector_assign`: vector_assign.hpp:239-255.  Advancing past the end of a range shorter than `size` is undefined behaviour. -/
def iterating (dbg : Bool) (T : VT σ R) (F : AssignF) (e : VExpr σ R) (s : σ) : M σ := do
  let size ← same dbg (T.size s) e.size
  let it := T.its s
  check dbg (it.length = size) .badSize
  let ite := e.begin_ s
  check dbg (ite.length = size) .badSize
  if it.length < size ∨ ite.length < size then .error .ub else zipLoop T F (it.take size) (ite.take size) s

/-- `indexing_vector_assign`: vector_assign.hpp:256-270. -/
def indexing (dbg : Bool) (T : VT σ R) (F : AssignF) (e : VExpr σ R) (s : σ) : M σ := do
  let size ← same dbg (T.size s) e.size
  loop (fun i s => do
    let y ← e.at_ i s
    let x ← T.get s i
    T.ref s i (F.apply x y)) size s

/-- Dense (proxy) case: vector_assign.hpp:272-288. -/
def dense (dbg : Bool) (mode : ProdFn.Mode) (T : VT σ R) (F : AssignF) (e : VExpr σ R) (s : σ) : M σ :=
  match mode with
  | .indexing => indexing dbg T F e s
  | .iterating => iterating dbg T F e s
  | .threshold n => do
    let size ← same dbg (T.size s) e.size
    if n ≤ size then iterating dbg T F e s else indexing dbg T F e s

/-- `difference_type size ((std::min) (difference_type (a.index () - b.index ()), b_size)); if (size > 0)`: how far the range starting at index `b`
with `n` elements is advanced towards index `a`: detail/vector_assign.hpp:309-320. -/
def advance (a b n : Nat) : Nat := (min ((a : Int) - b) n).toNat

/-- Packed (proxy) case: vector_assign.hpp:290-360. -/
def packed (dbg : Bool) (T : VT σ R) (F : AssignF) (e : VExpr σ R) (s : σ) : M σ := do
  check dbg (T.size s = e.size) .badSize
  let it := T.its s
  let ite := e.begin_ s
  let ite := match it, ite with
    | i :: _, q :: _ => ite.drop (advance i q.1 ite.length)
    | _, _ => ite
  let skip := match it, ite with
    | i :: _, q :: _ => advance q.1 i it.length
    | _, _ => 0
  let s ← (if F.computed then .ok s else zeroLoop T F (it.take skip) s : M σ)
  let it := it.drop skip
  let s ← zipLoop T F it ite s
  if F.computed then .ok s else zeroLoop T F (it.drop ite.length) s

/-- The loop of the sparse case: vector_assign.hpp:385-390. -/
def insertLoop [DecidableEq R] (T : VT σ R) : List (Nat × (σ → M R)) → σ → M σ
  | [], s => .ok s
  | q :: r, s => do
    let t ← q.2 s
    let s' ← (if t ≠ 0 then T.insert s q.1 t else .ok s : M σ)
    insertLoop T r s'

/-- Sparse case: vector_assign.hpp:361-396. -/
def sparse [DecidableEq R] (dbg : Bool) (T : VT σ R) (e : VExpr σ R) (s : σ) : M σ := do
  check dbg (T.size s = e.size) .badSize
  let s ← T.clear s
  insertLoop T (e.begin_ s) s

/-- `increment (it, it_end, compare)`: traits.hpp:566-580. -/
def incr {β : Type} (c : Cat) (l : List β) (compare : Nat) : List β :=
  match c with
  | .sparse => l.drop 1
  | _ => l.drop (min compare l.length)

/-- `while (ite != ite_end) { if (*ite != zero) index.push_back (ite.index ()); ++ ite; }`: vector_assign.hpp:84-88. -/
def missingTail [DecidableEq R] (s : σ) : List (Nat × (σ → M R)) → M (List Nat)
  | [] => .ok []
  | q :: r => do
    let t ← q.2 s
    let l ← missingTail s r
    return if t ≠ 0 then q.1 :: l else l

/-- The indices `make_conformant` collects: vector_assign.hpp:54-88.  `fuel` bounds the rounds (running out is `diverge`). -/
def missing [DecidableEq R] (c : Cat) (s : σ) : (fuel : Nat) → List Nat → List (Nat × (σ → M R)) → M (List Nat)
  | 0, _, _ => .error .diverge
  | n + 1, it, ite => match it, ite with
    | i :: l, q :: r =>
      if i = q.1 then missing c s n l r
      else if i < q.1 then missing c s n (incr c (i :: l) (q.1 - i)) (q :: r)
      else do
        let t ← q.2 s
        let l' ← missing c s n (i :: l) r
        return if t ≠ 0 then q.1 :: l' else l'
    | _, ite => missingTail s ite

/-- `make_conformant`: vector_assign.hpp:47-92. -/
def makeConformant [DecidableEq R] (dbg : Bool) (T : VT σ R) (e : VExpr σ R) (s : σ) : M σ := do
  check dbg (T.size s = e.size) .badSize
  let index ← missing T.cat s ((T.its s).length + (e.begin_ s).length + 1) (T.its s) (e.begin_ s)
  index.foldlM (fun s k => T.ref s k 0) s

/-- The merge of the sparse proxy case: vector_assign.hpp:418-472. -/
def mergeLoop (T : VT σ R) (ce : Cat) (F : AssignF) : (fuel : Nat) → List Nat → List (Nat × (σ → M R)) → σ → M σ
  | 0, _, _, _ => .error .diverge
  | n + 1, it, ite, s => match it, ite with
    | i :: l, q :: r =>
      if i = q.1 then do
        let s' ← applyAt T F s i q.2
        mergeLoop T ce F n l r s'
      else if i < q.1 then
        if F.computed then mergeLoop T ce F n (incr T.cat (i :: l) (q.1 - i)) (q :: r) s
        else do
          let x ← T.get s i
          let s' ← T.put s i (F.apply x 0)
          mergeLoop T ce F n l (q :: r) s'
      else mergeLoop T ce F n (i :: l) (incr ce (q :: r) (i - q.1)) s
    | it, _ => if F.computed then .ok s else zeroLoop T F it s

/-- Sparse proxy or functional case: vector_assign.hpp:397-478. -/
def sparseProxy [DecidableEq R] (dbg : Bool) (T : VT σ R) (F : AssignF) (e : VExpr σ R) (s : σ) : M σ := do
  check dbg (T.size s = e.size) .badSize
  let s ← makeConformant dbg T e s
  mergeLoop T e.cat F ((T.its s).length + (e.begin_ s).length + 1) (T.its s) (e.begin_ s) s

/-- Dispatcher: vector_assign.hpp:480-488; the static assertion of line 372 is a compile-time error, here `internalLogic`. -/
def assign [DecidableEq R] (dbg : Bool) (mode : ProdFn.Mode) (sc : StorageCat) (T : VT σ R) (F : AssignF) (e : VExpr σ R) (s : σ) : M σ :=
  match assignTraits sc F.computed e.cat with
  | .dense | .denseProxy => dense dbg mode T F e s
  | .packed | .packedProxy => packed dbg T F e s
  | .sparse => if F.computed then .error .internalLogic else sparse dbg T e s
  | .sparseProxy => sparseProxy dbg T F e s

end VAssign
end Ublas
