import Verif.Model.ScalarAssign
/-!
# Duff's device: detail/duff.hpp, used by every dense loop when BOOST_UBLAS_USE_DUFF_DEVICE is defined (detail/config.hpp:265-266; off by default)

`DD (n, d, r, expr)` jumps into a `do … while` loop unrolled `d` times.  Its counter is `unsigned r`; `W` is the number of values of the type `unsigned` (2³² usually).
-/
namespace Ublas
variable {σ R : Type}

/-- `k` copies of the body one after another. detail/duff.hpp:24-52. -/
def times (body : σ → M σ) : Nat → σ → M σ
  | 0, s => .ok s
  | k + 1, s => body s >>= times body k

/-- `do { … } while (-- (r) > 0)`: the rounds that remain when the counter, already decremented, is `r`: duff.hpp:23-26. -/
def duffRounds (d : Nat) (body : σ → M σ) : Nat → σ → M σ
  | 0, s => .ok s
  | r + 1, s => times body d s >>= duffRounds d body r

/-- `DD (n, d, r, expr)`: duff.hpp:16-53.  `switch ((n) % (d))` enters the first round at `case 0` (all `d` copies) or at `case k` (the last `k` copies). -/
def duff (W n d : Nat) (body : σ → M σ) (s : σ) : M σ := do
  let r := ((n + d - 1) / d) % W
  let s ← times body (if n % d = 0 then d else n % d) s
  duffRounds d body ((r + W - 1) % W) s

/-- `size_type i (0); DD (n, d, r, (body (i), ++ i))`. The use in detail/vector_assign.hpp and detail/matrix_assign.hpp under BOOST_UBLAS_USE_DUFF_DEVICE. -/
def duffLoop (W n d : Nat) (f : Nat → σ → M σ) (s : σ) : M σ := do
  let p ← duff W n d (fun p : σ × Nat => do
    let s ← f p.2 p.1
    .ok (s, p.2 + 1)) (s, 0)
  .ok p.1

/-- `DD (n, d, r, (body (*it), ++ it))` where `it` runs over `l`; using an end iterator is undefined. The use in detail/vector_assign.hpp and detail/matrix_assign.hpp under BOOST_UBLAS_USE_DUFF_DEVICE. -/
def duffIter {β : Type} (W n d : Nat) (f : β → σ → M σ) (l : List β) (s : σ) : M σ := do
  let p ← duff W n d (fun p : σ × List β => match p.2 with
    | [] => .error .ub
    | x :: l => do
      let s ← f x p.1
      .ok (s, l)) (s, l)
  .ok p.1

namespace VAssign

/-- `indexing_vector_assign_scalar`: vector_assign.hpp:117-131, line 129. -/
def indexingScalarDuff (W : Nat) (T : VT σ R) (F : R → R) (s : σ) : M σ :=
  duffLoop W (T.size s) 4 (fun i s => do
    let x ← T.get s i
    T.ref s i (F x)) s

/-- `iterating_vector_assign_scalar`: vector_assign.hpp:101-116, line 114. -/
def iteratingScalarDuff (W : Nat) (dbg : Bool) (T : VT σ R) (F : R → R) (s : σ) : M σ := do
  let size := T.size s
  let it := T.its s
  check dbg (it.length = size) .badSize
  duffIter W size 4 (fun i s => do
    let x ← T.get s i
    T.put s i (F x)) it s

variable [Add R] [Sub R] [Zero R]

/-- `indexing_vector_assign`: vector_assign.hpp:256-270, line 268. -/
def indexingDuff (W : Nat) (dbg : Bool) (T : VT σ R) (F : AssignF) (e : VExpr σ R) (s : σ) : M σ := do
  let size ← same dbg (T.size s) e.size
  duffLoop W size 2 (fun i s => do
    let y ← e.at_ i s
    let x ← T.get s i
    T.ref s i (F.apply x y)) s

/-- `iterating_vector_assign`: vector_assign.hpp:239-255, line 253. -/
def iteratingDuff (W : Nat) (dbg : Bool) (T : VT σ R) (F : AssignF) (e : VExpr σ R) (s : σ) : M σ := do
  let size ← same dbg (T.size s) e.size
  let it := T.its s
  check dbg (it.length = size) .badSize
  let ite := e.begin_ s
  check dbg (ite.length = size) .badSize
  duffIter W size 2 (fun q s => applyAt T F s q.1 q.2.2) (it.zip ite) s

end VAssign

namespace MAssign

/-- `indexing_matrix_assign_scalar`: matrix_assign.hpp:312-346, lines 325, 343. -/
def indexingScalarDuff (W : Nat) (T : MT σ R) (F : R → R) (s : σ) : M σ :=
  loop (fun i s => duffLoop W (T.sizem s) 4 (fun j s => do
    let x ← T.get s i j
    T.ref s i j (F x)) s) (T.sizeM s) s

/-- The lines of `iterating_matrix_assign_scalar`: matrix_assign.hpp:267-282, 294-309 with lines 279, 306. -/
def iterScalarLinesDuff (W : Nat) (dbg : Bool) (T : MT σ R) (F : R → R) (size2 : Nat) : List Nat → σ → M σ
  | [], s => .ok s
  | k :: ls, s => do
    check dbg ((T.its s k).length = size2) .badSize
    let s ← duffIter W size2 4 (fun j s => do
      let x ← (T.line k).get s j
      (T.line k).put s j (F x)) (T.its s k) s
    iterScalarLinesDuff W dbg T F size2 ls s

/-- `iterating_matrix_assign_scalar`: matrix_assign.hpp:256-311, lines 279, 306.  With lines of length 0 the outer iterators may visit nothing and `it1.begin ()` need not exist; the first use of an end
iterator is undefined. -/
def iteratingScalarDuff (W : Nat) (dbg : Bool) (T : MT σ R) (F : R → R) (s : σ) : M σ := do
  let size1 := T.sizeM s
  let size2 := T.sizem s
  check dbg (size2 = 0 ∨ (T.lines s).length = size1) .badSize
  if (T.lines s).length < size1 then .error .ub
  else iterScalarLinesDuff W dbg T F size2 ((T.lines s).take size1) s

variable [Add R] [Sub R] [Zero R]

/-- The lines of `iterating_matrix_assign`: matrix_assign.hpp:526-544, 558-576 with lines 541, 573. -/
def iterLinesDuff (W : Nat) (dbg : Bool) (T : MT σ R) (F : AssignF) (size2 : Nat) : List Nat → List (Nat × List (Nat × R)) → σ → M σ
  | k :: ls, q :: qs, s => do
    check dbg ((T.its s k).length = size2) .badSize
    check dbg (q.2.length = size2) .badSize
    let s ← duffIter W size2 2 (fun x s => VAssign.applyAt (T.line k) F s x.1 (fun _ => .ok x.2.2)) ((T.its s k).zip q.2) s
    iterLinesDuff W dbg T F size2 ls qs s
  | _, _, s => .ok s

/-- `iterating_matrix_assign`: matrix_assign.hpp:514-577, lines 541, 573. -/
def iteratingDuff (W : Nat) (dbg : Bool) (T : MT σ R) (F : AssignF) (e : MExp R) (s : σ) : M σ := do
  let size1 ← same dbg (T.sizeM s) e.sizeM
  let size2 ← same dbg (T.sizem s) e.sizem
  check dbg (size2 = 0 ∨ (T.lines s).length = size1) .badSize
  check dbg (size2 = 0 ∨ e.lines.length = size1) .badSize
  if (T.lines s).length < size1 ∨ e.lines.length < size1 then .error .ub
  else iterLinesDuff W dbg T F size2 ((T.lines s).take size1) (e.lines.take size1) s

/-- `indexing_matrix_assign`: matrix_assign.hpp:578-613, lines 592, 610. -/
def indexingDuff (W : Nat) (dbg : Bool) (T : MT σ R) (F : AssignF) (e : MExp R) (s : σ) : M σ := do
  let size1 ← same dbg (T.sizeM s) e.sizeM
  let size2 ← same dbg (T.sizem s) e.sizem
  loop (fun i s => duffLoop W size2 2 (fun j s => do
    let y ← e.at_ i j
    let x ← T.get s i j
    T.ref s i j (F.apply x y)) s) size1 s

end MAssign

namespace ProdFn
variable [Semiring R]

/-- `inner_prod`, `prod` by indexing: functional.hpp:744, 881, 1049, 1227. -/
def byIndexDuff (W : Nat) (dbg : Bool) (a b : Seq R) : M R := do
  let size ← same dbg a.size b.size
  duffLoop W size 4 (fun k t => do
    let x ← a.at_ k
    let y ← b.at_ k
    return t + x * y) 0

/-- The dense iterator version: functional.hpp:757, 894, 1062, 1240. -/
def denseDuff (W : Nat) (size : Nat) (l1 l2 : List (Nat × R)) : M R :=
  duffIter W size 4 (fun q t => .ok (t + q.1.2 * q.2.2)) (l1.zip l2) 0

end ProdFn
end Ublas
