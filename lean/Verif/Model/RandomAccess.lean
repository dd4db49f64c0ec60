import Verif.Model.ProxyIter
/-!
# Random-access iterator arithmetic (`+=`, `-=`, `-`, `<`, `[]`) of dense vectors, selectors, proxies, expressions and matrix lines

`RVec` records what the iterators of a vector (or of a selector, seen as a vector of indices) do; every proxy and expression is a function
from such records to such records.  `size_type` counters are naturals below 2^64 and wrap; `difference_type` is a signed 64-bit integer.
The checks that the two iterators of a comparison belong to one container hold for the iterators considered here (one container) and are
omitted.  Const and mutable iterators have the same bodies; reads only.
-/
namespace Ublas
variable {R : Type}

/-- Conversion of a `size_type` value to the 64-bit `difference_type`. C++ integer conversion. -/
def i64 (n : Nat) : Int := if n < 2 ^ 63 then n else n - 2 ^ 64

/-- The random-access iterator interface of a vector: `find (i)`, `++`, `--`, `+=`, `-=`, `it - it`, `==`, `<`, `index ()`, `*`, `it [n]`,
and element access `v (i)`. Interface: what vector_proxy.hpp and vector_expression.hpp use of the underlying iterators' arithmetic. -/
structure RVec (R : Type) where
  size : Nat
  Pos : Type
  find : Nat → M Pos
  next : Pos → M Pos
  prev : Pos → M Pos
  plus : Pos → Int → M Pos
  minus : Pos → Int → M Pos
  diff : Pos → Pos → M Int
  eq : Pos → Pos → M Bool
  lt : Pos → Pos → M Bool
  index : Pos → M Nat
  deref : Pos → M R
  sub : Pos → Int → M R
  at_ : Nat → M R

namespace RVec

/-- `it != it2`: detail/iterator.hpp:285-288. -/
def ne (V : RVec R) (p q : V.Pos) : M Bool := do let b ← V.eq p q; .ok (!b)
/-- `it <= it2`: detail/iterator.hpp:290-293 (`! (it2 < it)`). -/
def le (V : RVec R) (p q : V.Pos) : M Bool := do let b ← V.lt q p; .ok (!b)
/-- `it >= it2`: detail/iterator.hpp:295-298 (`! (it < it2)`). -/
def ge (V : RVec R) (p q : V.Pos) : M Bool := do let b ← V.lt p q; .ok (!b)
/-- `it > it2`: detail/iterator.hpp:300-303 (`it2 < it`). -/
def gt (V : RVec R) (p q : V.Pos) : M Bool := V.lt q p

/-- A pointer into an array of `n` elements moved to offset `k`: a pointer may stand on an element or one past the last. C++ pointer arithmetic; the dense iterators (vector.hpp:516-800) are pointers. -/
def ptr (n : Nat) (k : Int) : M Nat := if 0 ≤ k ∧ k ≤ n then .ok k.toNat else .error .ub

/-- `vector` (vector.hpp:496-502 `find`, 548-575, 579-582, 588-608, 623-635, and 690-751 for the mutable iterator), `bounded_vector`,
`c_vector` (vector.hpp:2666-2672, 2706-2748), `fixed_vector` (1335-1490): the iterator is a pointer into the storage (a `c_vector` of
size below its capacity has room for the pointer to move a little further; treated as undefined here).  `it [n]` is `*(it_ + n)` on the
bare pointer, without a check (598-600, 721-724). -/
def dense (dbg : Bool) (data : List R) : RVec R where
  size := data.length
  Pos := Nat
  find i := ptr data.length i
  next p := ptr data.length (p + 1)
  prev p := ptr data.length (p - 1)
  plus p n := ptr data.length (p + n)
  minus p n := ptr data.length (p - n)
  diff p q := .ok ((p : Int) - q)
  eq p q := .ok (decide (p = q))
  lt p q := .ok (decide (p < q))
  index p := do
    check dbg (p < data.length) .badIndex
    .ok p
  deref p := do
    check dbg (p < data.length) .badIndex
    rd false data p
  sub p n := do
    let q ← ptr data.length (p + n)
    rd false data q
  at_ i := rd dbg data i

/-- `scalar_vector`: vector.hpp:2271-2273 (`find`), 2296-2319, 2323-2337, 2349-2357, 2221-2223 (`operator ()`); the iterator is a counter. -/
def scalar (dbg : Bool) (n : Nat) (v : R) : RVec R where
  size := n
  Pos := Nat
  find i := .ok i
  next p := .ok (u64 (p + 1))
  prev p := .ok (u64 (p - 1))
  plus p d := .ok (u64 (p + d))
  minus p d := .ok (u64 (p - d))
  diff p q := .ok (i64 (u64 (p - q)))
  eq p q := .ok (decide (p = q))
  lt p q := .ok (decide (p < q))
  index p := do
    check dbg (p < n) .badIndex
    .ok p
  deref p := do
    check dbg (p < n) .badIndex
    check dbg (p < n) .badIndex
    .ok v
  sub p d := do
    let q := u64 (p + d)
    check dbg (q < n) .badIndex
    check dbg (q < n) .badIndex
    .ok v
  at_ _ := .ok v

/-- The counter of a selector iterator: the `--`, `+=`, `-=` shared by `basic_range` (storage.hpp:1105-1130, 1164-1172) and `basic_slice`
(1342-1367, 1399-1407) with their checks, and by `indirect_array` (1623-1645, 1675-1683), which has none (`guard = false`). -/
def counter (guard : Bool) (size first : Nat) (index star at_ : Nat → M Nat) : RVec Nat where
  size := size
  Pos := Nat
  find i := do
    let d := i64 i
    check guard (d ≥ 0 ∨ first ≥ u64 (-d)) .badIndex
    .ok (u64 (first + d))
  next p := .ok (u64 (p + 1))
  prev p := do
    check guard (p > 0) .badIndex
    .ok (u64 (p - 1))
  plus p d := do
    check guard (d ≥ 0 ∨ p ≥ u64 (-d)) .badIndex
    .ok (u64 (p + d))
  minus p d := do
    check guard (d ≤ 0 ∨ p ≥ u64 d) .badIndex
    .ok (u64 (p - d))
  diff p q := .ok (i64 (u64 (p - q)))
  eq p q := .ok (decide (p = q))
  lt p q := .ok (decide (p < q))
  index := index
  deref := star
  sub p d := do
    check guard (d ≥ 0 ∨ p ≥ u64 (-d)) .badIndex
    star (u64 (p + d))
  at_ := at_

/-- The iterators of a selector; `find (i)` stands for `begin () + i` (vector_proxy.hpp:823-829, 1382-1388; matrix_proxy.hpp:1168-1170), so
`find (0)` is `begin ()`; `end ()` is the counter `start_ + size_` (storage.hpp:1188-1190) or `size_` (1423-1425, 1699-1701), the same
value.  `basic_range`: storage.hpp:1105-1190; `basic_slice`: 1342-1425; `indirect_array`: 1623-1701.  `index ()`, `*`: `VIter.Picker`. -/
def ofSel (dbg : Bool) : Sel → RVec Nat
  | .range r => counter dbg r.size r.start (VIter.Picker.ofRange dbg r).index (VIter.Picker.ofRange dbg r).star (r.at_ dbg)
  | .slice s => counter dbg s.size 0 (VIter.Picker.ofSlice dbg s).index (VIter.Picker.ofSlice dbg s).star (s.at_ dbg)
  | .indirect ia => counter false ia.length 0 (VIter.Picker.ofIndirect dbg ia).index (VIter.Picker.ofIndirect dbg ia).star (ia.at_ dbg)

/-- `vector_range`: vector_proxy.hpp:244-251 (`find`), 286-309, 313-320, 324-326, 338-346, 99-101. -/
def range (dbg : Bool) (V : RVec R) (r : Range) : RVec R :=
  let deref := fun p => do
    let _ ← (if dbg = true then do
        let k ← V.index p
        check dbg (u64 (k - r.start) < r.size) .badIndex
      else .ok () : M Unit)
    V.deref p
  { size := r.size
    Pos := V.Pos
    find := fun i => V.find (u64 (r.start + i))
    next := V.next
    prev := V.prev
    plus := V.plus
    minus := V.minus
    diff := V.diff
    eq := V.eq
    lt := V.lt
    index := fun p => do
      let k ← V.index p
      .ok (u64 (k - r.start))
    deref := deref
    sub := fun p n => do
      let q ← V.plus p n
      deref q
    at_ := fun i => do
      let k ← r.at_ dbg i
      V.at_ k }

/-- `vector_slice` (vector_proxy.hpp:823-829 `find`, 863-886, 890-904, 916-924, 675-677) and `vector_indirect` (1382-1388, 1424-1447,
1451-1465, 1477-1485, 1231-1233): the iterator is the one of the selector `S`, elements are read from the vector behind. -/
def picked (dbg : Bool) (V : RVec R) (S : RVec Nat) : RVec R :=
  let deref := fun p => do
    let _ ← (if dbg = true then do
        let k ← S.index p
        check dbg (k < S.size) .badIndex
      else .ok () : M Unit)
    let k ← S.deref p
    V.at_ k
  { size := S.size
    Pos := S.Pos
    find := S.find
    next := S.next
    prev := S.prev
    plus := S.plus
    minus := S.minus
    diff := S.diff
    eq := S.eq
    lt := S.lt
    index := S.index
    deref := deref
    sub := fun p n => do
      let q ← S.plus p n
      deref q
    at_ := fun i => do
      let k ← S.at_ i
      V.at_ k }

/-- The proxy of a selector: `vector_range`, `vector_slice`, `vector_indirect`. The arithmetic of the proxies' iterators: vector_proxy.hpp:244-480 (vector_range), 823-1060 (vector_slice), 1382-1620 (vector_indirect). -/
def proxy (dbg : Bool) (V : RVec R) : Sel → RVec R
  | .range r => V.range dbg r
  | .slice s => V.picked dbg (ofSel dbg (.slice s))
  | .indirect ia => V.picked dbg (ofSel dbg (.indirect ia))

/-- `vector_unary` (vector_expression.hpp:371-430, 296-298), `vector_binary_scalar1` (1109-1175), `vector_binary_scalar2` (1352-1418): `f` is the
functor with the scalar operand filled in. -/
def map (f : R → R) (V : RVec R) : RVec R :=
  let deref := fun p => do
    let x ← V.deref p
    .ok (f x)
  { size := V.size
    Pos := V.Pos
    find := V.find
    next := V.next
    prev := V.prev
    plus := V.plus
    minus := V.minus
    diff := V.diff
    eq := V.eq
    lt := V.lt
    index := V.index
    deref := deref
    sub := fun p n => do
      let q ← V.plus p n
      deref q
    at_ := fun i => do
      let x ← V.at_ i
      .ok (f x) }

/-- The position of a `vector_binary` iterator: i_, it1_, it2_ (the ends it1_end_, it2_end_ are not used by the dense specialisations):
vector_expression.hpp:894-898. -/
structure Two (P Q : Type) where
  i : Nat
  p : P
  q : Q

/-- One half of `find`: `it != it_end ? it.index () : size ()`, vector_expression.hpp:638-639. -/
def headIndex (V : RVec R) (size : Nat) (p e : V.Pos) : M Nat := do
  let b ← V.ne p e
  if b = true then V.index p else .ok size

/-- `vector_binary` with two dense operands: vector_expression.hpp:580-582 (`size`; the operands have equal sizes, or a checked build
fails), 598-600, 633-645 (`find`), 677-695, 828-891. -/
def map2 (dbg : Bool) (f : R → R → R) (V W : RVec R) : RVec R :=
  let deref := fun t : Two V.Pos W.Pos => do
    let x ← V.deref t.p
    let y ← W.deref t.q
    .ok (f x y)
  let plus := fun (t : Two V.Pos W.Pos) n => do
    let p ← V.plus t.p n
    let q ← W.plus t.q n
    .ok (⟨u64 (t.i + n), p, q⟩ : Two V.Pos W.Pos)
  { size := V.size
    Pos := Two V.Pos W.Pos
    find := fun i => do
      let p ← V.find i
      let n ← same dbg V.size W.size
      let pe ← V.find n
      let q ← W.find i
      let qe ← W.find n
      let a ← V.headIndex n p pe
      let b ← W.headIndex n q qe
      .ok ⟨min a b, p, q⟩
    next := fun t => do
      let p ← V.next t.p
      let q ← W.next t.q
      .ok ⟨u64 (t.i + 1), p, q⟩
    prev := fun t => do
      let p ← V.prev t.p
      let q ← W.prev t.q
      .ok ⟨u64 (t.i - 1), p, q⟩
    plus := plus
    minus := fun t n => do
      let p ← V.minus t.p n
      let q ← W.minus t.q n
      .ok ⟨u64 (t.i - n), p, q⟩
    diff := fun t u => .ok (i64 (u64 (t.i - u.i)))
    eq := fun t u => .ok (decide (t.i = u.i))
    lt := fun t u => .ok (decide (t.i < u.i))
    index := fun t => .ok t.i
    deref := deref
    sub := fun t n => do
      let u ← plus t n
      deref u
    at_ := fun i => do
      let x ← V.at_ i
      let y ← W.at_ i
      .ok (f x y) }

/-- Distance in `data ()` between neighbours along `ax`: `increment_i`, `increment_j`, functional.hpp:1472-1474, 1496-1498, 1650-1652, 1674-1676. -/
def stride (o : Orient) (ax : Axis) (m : Dense R) : Nat :=
  match o, ax with
  | .row, .one => m.size2
  | .row, .two => 1
  | .col, .one => 1
  | .col, .two => m.size1

/-- `distance_i` / `distance_j`: functional.hpp:1439-1446, 1617-1624.  In the direction that strides over whole lines the signed `k` is
divided by an unsigned size, i.e. after conversion to `size_type`, and the quotient is converted back. -/
def distance (o : Orient) (ax : Axis) (m : Dense R) (k : Int) : Int :=
  match o, ax with
  | .row, .one => if m.size2 ≠ 0 then i64 (u64 k / m.size2) else 0
  | .row, .two => k
  | .col, .one => k
  | .col, .two => if m.size1 ≠ 0 then i64 (u64 k / m.size1) else 0

/-- The iterators of one line of a dense `matrix`: `iterator1` on column `l` (`ax = .one`, matrix.hpp:450-464 `find1`, 510-545, 610-638) or
`iterator2` on row `l` (`ax = .two`, 466-480, 833-868, 933-961), and those of `matrix_column` / `matrix_row`, which pass every operation on
to them (matrix_proxy.hpp:220-227, 262-302, 314-322; 693-700, 735-795) after one more check in `*` (289-292).  `increment` by `n`:
functional.hpp:1478-1492, 1502-1516, 1656-1670, 1680-1694 (`n * size` is computed in `size_type`).
Simplifications: the pointer is an offset modulo 2^64 and may lie anywhere (in C++ a pointer far outside the array is already undefined). -/
def line (dbg : Bool) (o : Orient) (ax : Axis) (m : Dense R) (l : Nat) : RVec R :=
  let at' := fun (k : Nat) => (match ax with | .one => (k, l) | .two => (l, k) : Nat × Nat)
  let deref := fun (p : Nat) => do
    check dbg (CMat.along ax (o.indexI p m.size1 m.size2) (o.indexJ p m.size1 m.size2) < CMat.along ax m.size1 m.size2) .badIndex
    check dbg (o.indexI p m.size1 m.size2 < m.size1) .badIndex
    check dbg (o.indexJ p m.size1 m.size2 < m.size2) .badIndex
    rd false m.data p
  let plus := fun (p : Nat) (n : Int) => (.ok (u64 (p + u64 (n * stride o ax m))) : M Nat)
  { size := CMat.along ax m.size1 m.size2
    Pos := Nat
    find := fun k => o.address dbg (at' k).1 m.size1 (at' k).2 m.size2
    next := fun p => .ok (u64 (p + stride o ax m))
    prev := fun p => .ok (u64 (p - stride o ax m))
    plus := plus
    minus := fun p n => .ok (u64 (p - u64 (n * stride o ax m)))
    diff := fun p q => .ok (distance o ax m (p - q))
    eq := fun p q => .ok (decide (p = q))
    lt := fun p q => .ok (decide (p < q))
    index := fun p => .ok (CMat.along ax (o.indexI p m.size1 m.size2) (o.indexJ p m.size1 m.size2))
    deref := deref
    sub := fun p n => do
      let q ← plus p n
      deref q
    at_ := fun k => m.get dbg o (at' k).1 (at' k).2 }

/-- BOOST_UBLAS_SAME on any integer type: exception.hpp:266-283, 284-293. -/
def sameInt (dbg : Bool) (a b : Int) : M Int := do
  check dbg (a = b) .badArgument
  .ok (if dbg = true then (if a < b then a else b) else a)

/-- `matrix_vector_range`, `matrix_vector_slice`, `matrix_vector_indirect` on a matrix read by `get`: matrix_proxy.hpp:1168-1170 (`find`), 1203-1230,
1234-1247, 1260-1268, 1020-1022 (`size`), 1037-1039 (`operator ()`); slice: 1499-1501, 1516-1518, 1647-1649, 1684-1749; indirect: 1964-1966, 1997-1999,
2128-2130, 2165-2230.  The position is the pair of selector iterators. -/
def diag (dbg : Bool) (get : Nat → Nat → M R) (S T : RVec Nat) : RVec R :=
  let deref := fun pq : S.Pos × T.Pos => do
    let i ← S.deref pq.1
    let j ← T.deref pq.2
    get i j
  let plus := fun (pq : S.Pos × T.Pos) n => do
    let p ← S.plus pq.1 n
    let q ← T.plus pq.2 n
    .ok ((p, q) : S.Pos × T.Pos)
  { size := S.size
    Pos := S.Pos × T.Pos
    find := fun i => do
      let p ← S.find i
      let q ← T.find i
      .ok (p, q)
    next := fun pq => do
      let p ← S.next pq.1
      let q ← T.next pq.2
      .ok (p, q)
    prev := fun pq => do
      let p ← S.prev pq.1
      let q ← T.prev pq.2
      .ok (p, q)
    plus := plus
    minus := fun pq n => do
      let p ← S.minus pq.1 n
      let q ← T.minus pq.2 n
      .ok (p, q)
    diff := fun pq rs => do
      let a ← S.diff pq.1 rs.1
      let b ← T.diff pq.2 rs.2
      sameInt dbg a b
    eq := fun pq rs => do
      let a ← S.eq pq.1 rs.1
      if a = true then T.eq pq.2 rs.2 else .ok false
    lt := fun pq rs => do
      let a ← S.lt pq.1 rs.1
      if a = true then T.lt pq.2 rs.2 else .ok false
    index := fun pq => do
      let a ← S.index pq.1
      let b ← T.index pq.2
      same dbg a b
    deref := deref
    sub := fun pq n => do
      let r ← plus pq n
      deref r
    at_ := fun k => do
      let i ← S.at_ k
      let j ← T.at_ k
      get i j }

/-- `reverse_iterator_base` on the iterators of `V`: detail/iterator.hpp:341-367 (`++`, `--`, `+=`, `-=`), 385-387 (`-`), 395-398 (`index ()`);
`*`, `[]`, `==`, `<` are those of `std::reverse_iterator` (`*--tmp`, `*(*this + n)`, the base iterators compared, swapped for `<`).  `rbegin ()` is
built from `end ()`, `rend ()` from `begin ()`: `find (k)` is the reverse iterator with base `find (size () - k)`. -/
def rev (V : RVec R) : RVec R :=
  let deref := fun p => do
    let q ← V.prev p
    V.deref q
  { size := V.size
    Pos := V.Pos
    find := fun k => V.find (V.size - k)
    next := V.prev
    prev := V.next
    plus := V.minus
    minus := V.plus
    diff := fun p q => V.diff q p
    eq := V.eq
    lt := fun p q => V.gt p q
    index := fun p => do
      let q ← V.prev p
      V.index q
    deref := deref
    sub := fun p n => do
      let q ← V.minus p n
      deref q
    at_ := V.at_ }

end RVec
end Ublas
