import Verif.Basic
import Mathlib.Algebra.Ring.Defs
/-!
# inner_prod and prod: functional.hpp:693-1306 with the dispatch of vector_expression.hpp:1676-1714 and matrix_expression.hpp:4064-4196,
4470-4602, 4884-5056, 5250-5318

Operands are seen through their public interface only: the size, the iterator category, the elements the iterators of one line visit
(index and value, in order) and element access.  Floating-point rounding is not modelled: elements come from a semiring.  Indices and
differences are unbounded integers.  The SIMD, bindings and Duff-device alternatives (off by default) are not modelled.
-/
namespace Ublas
variable {R : Type}

/-- Iterator categories: fwd.hpp, iterator tags `dense_random_access`, `packed_random_access`, `sparse_bidirectional`. -/
inductive Cat | dense | packed | sparse
  deriving DecidableEq, Repr

/-- `iterator_restrict_traits`: traits.hpp:534-564. -/
def Cat.restrict : Cat → Cat → Cat
  | .packed, .sparse => .sparse
  | .sparse, .packed => .sparse
  | .dense, .sparse => .sparse
  | .sparse, .dense => .sparse
  | .dense, .packed => .packed
  | .packed, .dense => .packed
  | a, _ => a

/-- One vector-like operand (a vector expression, or a row or column of a matrix expression): `size ()`, the iterator category, what
`[begin (), end ())` visits and `operator () (i)`. Interface: what functional.hpp:693-900 and vector_expression.hpp:1676-1714 use of an operand. -/
structure Seq (R : Type) where
  size : Nat
  cat : Cat
  els : List (Nat × R)
  at_ : Nat → M R

/-- A matrix expression: sizes, category, what `[it1.begin (), it1.end ())` visits for the row at `it1`, what `[it2.begin (), it2.end ())`
visits for the column at `it2`, and `operator () (i, j)`. Interface: what functional.hpp:900-1306 and matrix_expression.hpp:4064-5420 use of an operand. -/
structure MSeq (R : Type) where
  size1 : Nat
  size2 : Nat
  cat : Cat
  rowEls : Nat → List (Nat × R)
  colEls : Nat → List (Nat × R)
  at_ : Nat → Nat → M R

/-- Row `i` seen as a vector operand (inner iterator of axis two). functional.hpp:900-960 (the row loops). -/
def MSeq.row (m : MSeq R) (i : Nat) : Seq R := ⟨m.size2, m.cat, m.rowEls i, m.at_ i⟩
/-- Column `j` seen as a vector operand. functional.hpp:1010-1100 (the column loops). -/
def MSeq.col (m : MSeq R) (j : Nat) : Seq R := ⟨m.size1, m.cat, m.colEls j, fun i => m.at_ i j⟩

/-- BOOST_UBLAS_SAME: exception.hpp:266-283 (the smaller of two sizes that were checked to be equal, i.e. the first), 284-293 (release: the first, unchecked). -/
def same (dbg : Bool) (a b : Nat) : M Nat := do
  check dbg (a = b) .badArgument
  return a

namespace ProdFn
variable [Semiring R]

/-- Indexing version: functional.hpp:734-747 (inner), 871-884 (A x), 1039-1052 (x A), 1217-1230 (A B). -/
def byIndex (dbg : Bool) (a b : Seq R) : M R := do
  let size ← same dbg a.size b.size
  loop (fun k t => do
    let x ← a.at_ k
    let y ← b.at_ k
    return t + x * y) size 0

/-- `while (-- size >= 0) t += *it1 * *it2, ++ it1, ++ it2`: functional.hpp:754-755, 891-892, 1059-1060, 1237-1238; dereferencing an
end iterator is undefined behaviour. -/
def dotLoop : (size : Nat) → List (Nat × R) → List (Nat × R) → R → M R
  | 0, _, _, t => .ok t
  | n + 1, p :: l1, q :: l2, t => dotLoop n l1 l2 (t + p.2 * q.2)
  | _ + 1, _, _, _ => .error .ub

/-- Dense version: functional.hpp:749-760, 886-897, 1054-1065, 1232-1243. -/
def dense (size : Nat) (l1 l2 : List (Nat × R)) : M R := dotLoop size l1 l2 0

/-- Packed version: functional.hpp:762-790, 899-926, 1067-1094, 1245-1272.  `diff` is a signed difference. -/
def packed (l1 l2 : List (Nat × R)) : M R :=
  let diff : Int := match l1, l2 with
    | p :: _, q :: _ => (q.1 : Int) - p.1
    | _, _ => 0
  -- `if (diff != 0)`: advance it1 by min (diff, it1_size) when positive
  let s1 : Int := if diff ≠ 0 then min diff l1.length else 0
  let l1' := if 0 < s1 then l1.drop s1.toNat else l1
  let diff' := if 0 < s1 then diff - s1 else diff
  let s2 : Int := if diff ≠ 0 then min (- diff') l2.length else 0
  let l2' := if 0 < s2 then l2.drop s2.toNat else l2
  dotLoop (min l1'.length l2'.length) l1' l2' 0

/-- `increment (it, it_end, compare)`: traits.hpp:566-580; by random access `it += min (compare, it_end - it)`, else `++ it`. -/
def increment (c : Cat) (l : List (Nat × R)) (compare : Nat) : List (Nat × R) :=
  match c with
  | .sparse => l.drop 1
  | _ => l.drop (min compare l.length)

/-- The `for (;;)` of the sparse version; `fuel` bounds the rounds (running out is `diverge`).  An empty list is an end iterator, on
which the loop has already stopped. A client's loop; the iterator operations are cited at their definitions. -/
def mergeLoop (c1 c2 : Cat) : (fuel : Nat) → List (Nat × R) → List (Nat × R) → R → M R
  | 0, _, _, _ => .error .diverge
  | n + 1, l1, l2, t => match l1, l2 with
    | p :: r1, q :: r2 =>
      if p.1 = q.1 then
        let t := t + p.2 * q.2
        if r1.isEmpty ∨ r2.isEmpty then .ok t else mergeLoop c1 c2 n r1 r2 t
      else if p.1 < q.1 then
        let l1' := increment c1 (p :: r1) (q.1 - p.1)
        if l1'.isEmpty then .ok t else mergeLoop c1 c2 n l1' (q :: r2) t
      else
        let l2' := increment c2 (q :: r2) (p.1 - q.1)
        if l2'.isEmpty then .ok t else mergeLoop c1 c2 n (p :: r1) l2' t
    | _, _ => .error .ub

/-- Sparse version: functional.hpp:792-814, 928-960, 1096-1128, 1274-1305. -/
def sparse (c1 c2 : Cat) (l1 l2 : List (Nat × R)) : M R :=
  if l1.isEmpty ∨ l2.isEmpty then .ok 0 else mergeLoop c1 c2 (l1.length + l2.length) l1 l2 0

/-- Sparse-packed version: `t += *it1 * e2 (it1.index ())` over the sparse operand: functional.hpp:962-972, 1142-1152. -/
def sparsePacked (b : Nat → M R) : List (Nat × R) → R → M R
  | [], t => .ok t
  | p :: l, t => do
    let y ← b p.1
    sparsePacked b l (t + p.2 * y)

/-- Packed-sparse version: `t += e1 (it2.index ()) * *it2`: functional.hpp:974-984, 1130-1140. -/
def packedSparse (a : Nat → M R) : List (Nat × R) → R → M R
  | [], t => .ok t
  | q :: l, t => do
    let x ← a q.1
    packedSparse a l (t + x * q.2)

/-- Build configuration of the dense dispatch: BOOST_UBLAS_USE_INDEXING, BOOST_UBLAS_USE_ITERATING, or neither, in which case
sizes below BOOST_UBLAS_ITERATOR_THRESHOLD are indexed. detail/config.hpp:269-275. -/
inductive Mode | indexing | iterating | threshold (n : Nat)

/-- Dense dispatch: vector_expression.hpp:1688-1699, matrix_expression.hpp:4140-4159, 4546-4565, 4997-5016, 5259-5278. -/
def denseCase (dbg : Bool) (mode : Mode) (a b : Seq R) : M R :=
  match mode with
  | .indexing => byIndex dbg a b
  | .iterating => do
    let size ← same dbg a.size b.size
    dense size a.els b.els
  | .threshold n => do
    let size ← same dbg a.size b.size
    if n ≤ size then dense size a.els b.els else byIndex dbg a b

/-- `inner_prod (a, b)` converted to its value: vector_expression.hpp:1676-1714. -/
def inner (dbg : Bool) (mode : Mode) (a b : Seq R) : M R := do
  check dbg (a.size = b.size) .externalLogic
  match a.cat.restrict b.cat with
  | .dense => denseCase dbg mode a b
  | .packed => packed a.els b.els
  | .sparse => sparse a.cat b.cat a.els b.els

/-- The dispatcher on both categories in the sparse case of `prod (A, x)` and `prod (x, A)`: functional.hpp:985-993, 1153-1161. -/
def mvSparse (a b : Seq R) : M R :=
  match a.cat, b.cat with
  | .sparse, .sparse => sparse a.cat b.cat a.els b.els
  | .sparse, _ => sparsePacked b.at_ a.els 0
  | _, _ => packedSparse a.at_ b.els 0

/-- `*it` of `prod (A, x)` / `prod (x, A)` where `a`, `b` are the line of the matrix at `it` and the vector, in the order of the
product: matrix_expression.hpp:4136-4196, 4542-4602. -/
def mvDeref (dbg : Bool) (mode : Mode) (a b : Seq R) : M R :=
  match a.cat.restrict b.cat with
  | .dense => denseCase dbg mode a b
  | .packed => packed a.els b.els
  | .sparse => mvSparse a b

/-- `*it` of `prod (A, B)` at a row of A and a column of B: matrix_expression.hpp:4993-5056, 5255-5318. -/
def mmDeref (dbg : Bool) (mode : Mode) (a b : Seq R) : M R :=
  match a.cat.restrict b.cat with
  | .dense => denseCase dbg mode a b
  | .packed => packed a.els b.els
  | .sparse => sparse a.cat b.cat a.els b.els

/-- `prod (A, x) (i)`: matrix_expression.hpp:4066-4068. -/
def mv1At (dbg : Bool) (A : MSeq R) (x : Seq R) (i : Nat) : M R := byIndex dbg (A.row i) x
/-- `*it` of `prod (A, x)` at row `i`. matrix_expression.hpp:4095-4175. -/
def mv1It (dbg : Bool) (mode : Mode) (A : MSeq R) (x : Seq R) (i : Nat) : M R := mvDeref dbg mode (A.row i) x
/-- `prod (x, A) (j)`: matrix_expression.hpp:4472-4474. -/
def mv2At (dbg : Bool) (x : Seq R) (A : MSeq R) (j : Nat) : M R := byIndex dbg x (A.col j)
/-- `*it` of `prod (x, A)` at column `j`. matrix_expression.hpp:4501-4581. -/
def mv2It (dbg : Bool) (mode : Mode) (x : Seq R) (A : MSeq R) (j : Nat) : M R := mvDeref dbg mode x (A.col j)
/-- `prod (A, B) (i, j)`: matrix_expression.hpp:4885-4887. -/
def mmAt (dbg : Bool) (A B : MSeq R) (i j : Nat) : M R := byIndex dbg (A.row i) (B.col j)
/-- `*it` of `prod (A, B)` at row `i`, column `j`. matrix_expression.hpp:4980-5420. -/
def mmIt (dbg : Bool) (mode : Mode) (A B : MSeq R) (i j : Nat) : M R := mmDeref dbg mode (A.row i) (B.col j)

end ProdFn
end Ublas
