import Verif.Model.Select
import Verif.Model.Operands
import Verif.Model.CMatIter
import Verif.Model.PackedIter
/-!
# Iterators of vector and matrix proxies (vector_proxy.hpp, matrix_proxy.hpp)

A proxy's iterators are built from those of the container behind it, so containers appear as the record of what their iterators do
(`VIter` for vectors, `MIter` for matrices) and every proxy is a function from such records to such records.  `same_closure` checks
(debug builds) compare the containers of the two iterators; only iterators of one proxy are compared here, so they hold and are omitted.
Const and mutable iterators have the same bodies; reads only.
-/
namespace Ublas
open Packed
variable {R : Type}

/-- The iterator interface of a vector: `find (i)`, `++`, `--`, `==`, `index ()`, `*`, and element access `v (i)`. Interface: what the proxies' iterators use of the underlying ones: vector_proxy.hpp:244-480 (vector_range), 823-1060 (vector_slice), 1382-1620 (vector_indirect). -/
structure VIter (R : Type) where
  size : Nat
  Pos : Type
  find : Nat → M Pos
  next : Pos → M Pos
  prev : Pos → M Pos
  eq : Pos → Pos → M Bool
  index : Pos → M Nat
  deref : Pos → M R
  at_ : Nat → M R

namespace VIter

/-- `for (; it != e; ++ it) record (it.index (), *it)`.  `fuel` bounds the number of rounds. A client's loop; the iterator operations are cited at their definitions. -/
def walk (V : VIter R) (e : V.Pos) : (fuel : Nat) → V.Pos → M (List (Nat × R))
  | 0, _ => .error .diverge
  | fuel + 1, p => do
      let b ← V.eq p e
      if b = true then .ok [] else do
        let i ← V.index p
        let x ← V.deref p
        let q ← V.next p
        let l ← V.walk e fuel q
        .ok ((i, x) :: l)

/-- Reverse iterators from `rbegin ()` to `rend ()`: `for (it = e; it != b;) { -- it; record … }` (iterator.hpp:205-295: `operator *` is
`*--it`, `++` is `--`). -/
def walkBack (V : VIter R) (b : V.Pos) : (fuel : Nat) → V.Pos → M (List (Nat × R))
  | 0, _ => .error .diverge
  | fuel + 1, p => do
      let c ← V.eq p b
      if c = true then .ok [] else do
        let q ← V.prev p
        let i ← V.index q
        let x ← V.deref q
        let l ← V.walkBack b fuel q
        .ok ((i, x) :: l)

/-- `begin () = find (0)` to `end () = find (size ())`: vector_proxy.hpp:354-363, 932-941, 1493-1502; matrix_proxy.hpp:330-339, 1276-1285. -/
def els (V : VIter R) : M (List (Nat × R)) := do
  let b ← V.find 0
  let e ← V.find V.size
  V.walk e (V.size + 1) b

/-- `rbegin ()` to `rend ()`: vector_proxy.hpp:474-484, 1054-1064, 1615-1625. -/
def elsBack (V : VIter R) : M (List (Nat × R)) := do
  let b ← V.find 0
  let e ← V.find V.size
  V.walkBack b (V.size + 1) e

/-- `vector`: iterators are offsets into `data ()`; vector.hpp:428-560 (`find`, `++`, `--`, `index` with its checks, `*` with its checks). -/
def dense (dbg : Bool) (data : List R) : VIter R where
  size := data.length
  Pos := Nat
  find i := .ok i
  next p := .ok (p + 1)
  prev p := if p = 0 then .error .ub else .ok (p - 1)
  eq p q := .ok (decide (p = q))
  index p := do
    check dbg (p < data.length) .badIndex
    .ok p
  deref p := do
    check dbg (p < data.length) .badIndex
    rd false data p
  at_ i := rd dbg data i

/-- `compressed_vector`: iterators are positions in `index_data_`; vector_sparse.hpp:1224-1300. -/
def compressed (dbg : Bool) (IB : Nat) (zero : R) (v : CVec R) : VIter R where
  size := v.size
  Pos := Nat
  find i := v.find IB i
  next p := .ok (p + 1)
  prev p := if p = 0 then .error .ub else .ok (p - 1)
  eq p q := .ok (decide (p = q))
  index p := do
    let x ← v.deref dbg IB p
    .ok x.1
  deref p := do
    let x ← v.deref dbg IB p
    .ok x.2
  at_ i := v.get dbg IB zero i

/-- `vector_range`: vector_proxy.hpp:244-251 (`find`), 286-289, 291-294, 313-316 (`*`), 324-326 (`index`), 338-341 (`==`), 99-101. -/
def range (dbg : Bool) (V : VIter R) (r : Range) : VIter R where
  size := r.size
  Pos := V.Pos
  find i := V.find (u64 (r.start + i))
  next := V.next
  prev := V.prev
  eq := V.eq
  index p := do
    let k ← V.index p
    .ok (u64 (k - r.start))
  deref p := do
    let _ ← (if dbg = true then do
        let k ← V.index p
        check dbg (u64 (k - r.start) < r.size) .badIndex
      else .ok () : M Unit)
    V.deref p
  at_ i := do
    let k ← r.at_ dbg i
    V.at_ k

/-- The selector iterators that the index-like proxies count with: `first` is the value of `begin ()`'s counter, `index`, `star` and `back`
are `index ()`, `*` and `--`. Range: the underlying iterators themselves, vector_proxy.hpp:244-260; slice: storage.hpp:1322-1460; indirect: storage.hpp:1603-1740. -/
structure Picker where
  first : Nat
  size : Nat
  index : Nat → M Nat
  star : Nat → M Nat
  back : Nat → M Nat

/-- `basic_range::const_iterator`: storage.hpp:1105-1151, 1180-1190. -/
def Picker.ofRange (dbg : Bool) (r : Range) : Picker where
  first := r.start
  size := r.size
  index p := do
    check dbg (r.start ≤ p) .badIndex
    check dbg (p < r.start + r.size) .badIndex
    .ok (u64 (p - r.start))
  star p := do
    check dbg (r.start ≤ p) .badIndex
    check dbg (p < r.start + r.size) .badIndex
    .ok p
  back p := do
    check dbg (p > 0) .badIndex
    .ok (u64 (p - 1))

/-- `basic_slice::const_iterator`: storage.hpp:1342-1386, 1415-1425. -/
def Picker.ofSlice (dbg : Bool) (s : Slice) : Picker where
  first := 0
  size := s.size
  index p := do
    check dbg (p < s.size) .badIndex
    .ok p
  star p := s.iterDeref dbg p
  back p := do
    check dbg (p > 0) .badIndex
    .ok (u64 (p - 1))

/-- `indirect_array::const_iterator`: storage.hpp:1623-1662, 1691-1701. -/
def Picker.ofIndirect (dbg : Bool) (ia : Indirect) : Picker where
  first := 0
  size := ia.length
  index p := .ok p
  star p := ia.at_ dbg p
  back p := .ok (u64 (p - 1))

/-- `vector_slice` (vector_proxy.hpp:823-829, 863-871, 890-894, 902-904, 916-919, 675-677) and `vector_indirect` (1382-1388, 1424-1432,
1451-1455, 1463-1465, 1477-1480, 1231-1233); `sel` is `s_ (i)` / `ia_ (i)`. -/
def picked (dbg : Bool) (V : VIter R) (P : Picker) (sel : Nat → M Nat) : VIter R where
  size := P.size
  Pos := Nat
  find i := .ok (P.first + i)
  next p := .ok (p + 1)
  prev p := P.back p
  eq p q := .ok (decide (p = q))
  index p := P.index p
  deref p := do
    let _ ← (if dbg = true then do
        let k ← P.index p
        check dbg (k < P.size) .badIndex
      else .ok () : M Unit)
    let k ← P.star p
    V.at_ k
  at_ i := do
    let k ← sel i
    V.at_ k

/-- The proxy of a selector: `vector_range`, `vector_slice`, `vector_indirect`. Vector proxies: vector_proxy.hpp:244-480 (vector_range), 823-1060 (vector_slice), 1382-1620 (vector_indirect); matrix proxies: matrix_proxy.hpp:2624-3380 (matrix_range), 3625-4400 (matrix_slice), 4665-5440 (matrix_indirect). -/
def proxy (dbg : Bool) (V : VIter R) : Sel → VIter R
  | .range r => V.range dbg r
  | .slice s => V.picked dbg (.ofSlice dbg s) (s.at_ dbg)
  | .indirect ia => V.picked dbg (.ofIndirect dbg ia) (Indirect.at_ dbg ia)

/-- A (nested) proxy. Nesting of the proxies above; no code of its own in /repo. -/
def view (dbg : Bool) (V : VIter R) : VRef → VIter R
  | .base => V
  | .sel p s => (V.view dbg p).proxy dbg s

end VIter

/-- The iterator interface of a matrix.  `Axis.one` stands for iterator1, `Axis.two` for iterator2; `innerBegin`, `innerEnd` are the
members `begin ()`, `end ()` of an iterator. Interface: what the proxies' iterators use of the underlying ones: matrix_proxy.hpp:2624-3380 (matrix_range), 3625-4400 (matrix_slice), 4665-5440 (matrix_indirect). -/
structure MIter (R : Type) where
  size1 : Nat
  size2 : Nat
  Pos : Type
  find : Axis → (rank : Nat) → Nat → Nat → M Pos
  next : Axis → Pos → M Pos
  prev : Axis → Pos → M Pos
  eq : Axis → Pos → Pos → M Bool
  index1 : Axis → Pos → M Nat
  index2 : Axis → Pos → M Nat
  deref : Axis → Pos → M R
  innerBegin : Axis → Pos → M Pos
  innerEnd : Axis → Pos → M Pos
  at_ : Nat → Nat → M R

namespace MIter

/-- Number of lines of axis `ax` (`size1` for iterator1). `size1 ()` / `size2 ()`. -/
def len (X : MIter R) (ax : Axis) : Nat := CMat.along ax X.size1 X.size2

/-- The index an iterator of axis `ax` moves. `index1 ()` / `index2 ()` as called in matrix_proxy.hpp:2624-3380 (matrix_range), 3625-4400 (matrix_slice), 4665-5440 (matrix_indirect). -/
def indexAlong (X : MIter R) (ax : Axis) (p : X.Pos) : M Nat :=
  match ax with
  | .one => X.index1 .one p
  | .two => X.index2 .two p
/-- The index an iterator of axis `ax` keeps. `index2 ()` / `index1 ()` as called in matrix_proxy.hpp:2624-3380 (matrix_range), 3625-4400 (matrix_slice), 4665-5440 (matrix_indirect). -/
def indexAcross (X : MIter R) (ax : Axis) (p : X.Pos) : M Nat :=
  match ax with
  | .one => X.index2 .one p
  | .two => X.index1 .two p

/-- `find1 (rank, k, l)` / `find2 (rank, l, k)`: position `k` along, `l` across. As called in matrix_proxy.hpp:2624-3380 (matrix_range), 3625-4400 (matrix_slice), 4665-5440 (matrix_indirect). -/
def look (X : MIter R) (ax : Axis) (rank k l : Nat) : M X.Pos :=
  match ax with
  | .one => X.find .one rank k l
  | .two => X.find .two rank l k

/-- An inner loop: `for (; it != e; ++ it) record (index along, index across, *it)`. A client's loop; the iterator operations are cited at their definitions. -/
def walk (X : MIter R) (ax : Axis) (e : X.Pos) : (fuel : Nat) → X.Pos → M (List ((Nat × Nat) × R))
  | 0, _ => .error .diverge
  | fuel + 1, p => do
      let b ← X.eq ax p e
      if b = true then .ok [] else do
        let i ← X.index1 ax p
        let j ← X.index2 ax p
        let x ← X.deref ax p
        let q ← X.next ax p
        let l ← X.walk ax e fuel q
        .ok (((i, j), x) :: l)

/-- The outer loop. A client's loop; the iterator operations are cited at their definitions. -/
def walkOuter (X : MIter R) (ax : Axis) (e : X.Pos) : (fuel : Nat) → X.Pos → M (List (Nat × List ((Nat × Nat) × R)))
  | 0, _ => .error .diverge
  | fuel + 1, p => do
      let b ← X.eq ax p e
      if b = true then .ok [] else do
        let k ← X.indexAlong ax p
        let ib ← X.innerBegin ax p
        let ie ← X.innerEnd ax p
        let l ← X.walk ax.other ie (X.len ax.other + 1) ib
        let q ← X.next ax p
        let r ← X.walkOuter ax e fuel q
        .ok ((k, l) :: r)

/-- `for (it = begin1 (); it != end1 (); ++ it) for (it2 = it.begin (); it2 != it.end (); ++ it2) …` (`ax = one`) or by columns:
`begin1 () = find1 (0, 0, 0)`, `end1 () = find1 (0, size1 (), 0)`, matrix_proxy.hpp:2819-2829, 3131-3140, 3821-3831, 4141-4150, 4862-4871. -/
def traverse (X : MIter R) (ax : Axis) : M (List (Nat × List ((Nat × Nat) × R))) := do
  let b ← X.look ax 0 0 0
  let e ← X.look ax 0 (X.len ax) 0
  X.walkOuter ax e (X.len ax + 1) b

/-- `matrix`: iterators are offsets into `data ()` (matrix.hpp:450-480, 505-620, 828-950, see `DenseIter`); `begin ()` of an iterator1 is
`find2 (1, index1 (), 0)` (552-570). -/
def dense (dbg : Bool) (o : Orient) (m : Dense R) : MIter R where
  size1 := m.size1
  size2 := m.size2
  Pos := Nat
  find _ _ i j := DenseIter.find dbg o m i j
  next ax p := .ok (p + (match ax with | .one => DenseIter.inc1 o m | .two => DenseIter.inc2 o m))
  prev ax p := .ok (p - (match ax with | .one => DenseIter.inc1 o m | .two => DenseIter.inc2 o m))
  eq _ p q := .ok (decide (p = q))
  index1 _ p := .ok (o.indexI p m.size1 m.size2)
  index2 _ p := .ok (o.indexJ p m.size1 m.size2)
  deref _ p := do
    let x ← DenseIter.deref dbg o m p
    .ok x.2.2
  innerBegin ax p := match ax with
    | .one => DenseIter.find dbg o m (o.indexI p m.size1 m.size2) 0
    | .two => DenseIter.find dbg o m 0 (o.indexJ p m.size1 m.size2)
  innerEnd ax p := match ax with
    | .one => DenseIter.find dbg o m (o.indexI p m.size1 m.size2) m.size2
    | .two => DenseIter.find dbg o m m.size1 (o.indexJ p m.size1 m.size2)
  at_ i j := m.get dbg o i j

/-- `compressed_matrix`: see `Model/CMatIter`. matrix_sparse.hpp:3300-4185. -/
def compressed (dbg : Bool) (o : Orient) (IB : Nat) (zero : R) (v : CMat R) : MIter R where
  size1 := v.size1
  size2 := v.size2
  Pos := CMIter
  find ax rank i j := v.find o IB ax true rank i j
  next ax p := v.next dbg o IB ax p
  prev ax p := v.prev o IB ax p
  eq _ p q := .ok (CMat.iterEq p q)
  index1 ax p := v.index1 dbg o IB ax p
  index2 ax p := v.index2 dbg o IB ax p
  deref ax p := v.deref dbg o IB zero ax p
  innerBegin ax p := v.innerBegin dbg o IB ax p
  innerEnd ax p := v.innerEnd dbg o IB ax p
  at_ i j := v.get dbg o IB zero i j

/-- Matrices whose "iterators simply are indices": an iterator is the pair (it1_, it2_), `f ax rank i j` is the index `find1` / `find2` moves to along
`ax`; `++`, `--` change it1_ (it2_), `*` is `(*this) () (it1_, it2_)`, `begin ()` of an iterator1 is `find2 (1, it1_, 0)`, `end ()` is
`find2 (1, it1_, size2 ())`, `==` compares it1_ and checks it2_ (triangular.hpp:372-500, banded.hpp:496-629, symmetric.hpp:329-462). -/
def indexed (dbg : Bool) (n1 n2 : Nat) (f : Axis → Nat → Nat → Nat → M Nat) (get : Nat → Nat → M R) : MIter R where
  size1 := n1
  size2 := n2
  Pos := Nat × Nat
  find ax rank i j := do
    let k ← f ax rank i j
    .ok (CMat.setAlong ax i j k)
  next ax p := .ok (match ax with | .one => (p.1 + 1, p.2) | .two => (p.1, p.2 + 1))
  prev ax p := .ok (match ax with | .one => (p.1 - 1, p.2) | .two => (p.1, p.2 - 1))
  eq ax p q := match ax with
    | .one => do
      check dbg (p.2 = q.2) .externalLogic
      .ok (decide (p.1 = q.1))
    | .two => do
      check dbg (p.1 = q.1) .externalLogic
      .ok (decide (p.2 = q.2))
  index1 _ p := .ok p.1
  index2 _ p := .ok p.2
  deref _ p := get p.1 p.2
  innerBegin ax p := match ax with
    | .one => do
      let k ← f .two 1 p.1 0
      .ok (p.1, k)
    | .two => do
      let k ← f .one 1 0 p.2
      .ok (k, p.2)
  innerEnd ax p := match ax with
    | .one => do
      let k ← f .two 1 p.1 n2
      .ok (p.1, k)
    | .two => do
      let k ← f .one 1 n1 p.2
      .ok (k, p.2)
  at_ i j := get i j

/-- `find1`, `find2` of `triangular_matrix`, triangular.hpp:311-342: rank 1 restricts to the line, rank 0 to the lines with elements; `a` selects the
const (312-318, 328-334) or the mutable (320-326, 336-342) overloads. -/
def triFind (dbg : Bool) (a : Packed.Access) (t : Tri) (n1 n2 : Nat) (ax : Axis) (rank i j : Nat) : M Nat :=
  match ax with
  | .one => if rank = 1 then .ok (Packed.restrict1 a t i j n1 n2) else Packed.grestrict1 dbg a t i n1 j n2
  | .two => if rank = 1 then .ok (Packed.restrict2 a t i j n1 n2) else Packed.grestrict2 dbg a t i n1 j n2

/-- `triangular_matrix`, const iterators (the mutable ones of the plain matrix: `Packed.TMat.traverse`). triangular.hpp:312-343, 347-1000. -/
def triangular [Zero R] [One R] (dbg : Bool) (t : Tri) (o : Orient) (m : TMat R) : MIter R :=
  indexed dbg m.size1 m.size2 (triFind dbg .const t m.size1 m.size2) (m.get dbg t o)

/-- `banded_matrix`, const iterators: `find1`, `find2` are banded.hpp:429-437, 449-457 (rank 0 leaves the index alone). -/
def banded [Zero R] (dbg : Bool) (o : Orient) (m : BMat R) : MIter R :=
  indexed dbg m.size1 m.size2 (fun ax rank i j => .ok (match ax with
    | .one => if rank = 1 then m.find1 i j else i
    | .two => if rank = 1 then m.find2 i j else j)) (m.get dbg o)

/-- `symmetric_matrix`: the const `find1`, `find2` leave the indices alone (symmetric.hpp:278-280, 290-292), the mutable ones restrict to the stored
triangle (282-288, 294-300); `*` is `(*this) () (it1_, it2_)` in both (359-361, 533-535). -/
def symmetric (dbg : Bool) (a : Packed.Access) (t : Tri) (o : Orient) (m : SMat R) : MIter R :=
  indexed dbg m.size m.size (match a with
    | .const => fun ax _ i j => .ok (CMat.along ax i j)
    | .mut => triFind dbg .mut t m.size m.size) (m.get dbg t o)

/-- `hermitian_matrix`, const iterators: hermitian.hpp:511-513, 523-525, 592-594. -/
def hermitian (conj : R → R) (dbg : Bool) (t : Tri) (o : Orient) (m : SMat R) : MIter R :=
  indexed dbg m.size m.size (fun ax _ i j => .ok (CMat.along ax i j)) (m.hget conj dbg t o)

/-- `matrix_range`: matrix_proxy.hpp:2624-2658 (`find1`, `find2`), 2687-2695, 2714-2716, 2727-2745 (`begin ()`, `end ()` through `find2`),
2785-2791 (`index1`, `index2`), 2803-2806, 2998-3116 (iterator2), 2483-2485. -/
def range (dbg : Bool) (X : MIter R) (r1 r2 : Range) : MIter R where
  size1 := r1.size
  size2 := r2.size
  Pos := X.Pos
  find ax rank i j := X.find ax rank (u64 (r1.start + i)) (u64 (r2.start + j))
  next := X.next
  prev := X.prev
  eq := X.eq
  index1 ax p := do
    let k ← X.index1 ax p
    .ok (u64 (k - r1.start))
  index2 ax p := do
    let k ← X.index2 ax p
    .ok (u64 (k - r2.start))
  deref := X.deref
  innerBegin ax p := match ax with
    | .one => do
      let k ← X.index1 .one p
      X.find .two 1 (u64 (r1.start + u64 (k - r1.start))) (u64 (r2.start + 0))
    | .two => do
      let k ← X.index2 .two p
      X.find .one 1 (u64 (r1.start + 0)) (u64 (r2.start + u64 (k - r2.start)))
  innerEnd ax p := match ax with
    | .one => do
      let k ← X.index1 .one p
      X.find .two 1 (u64 (r1.start + u64 (k - r1.start))) (u64 (r2.start + r2.size))
    | .two => do
      let k ← X.index2 .two p
      X.find .one 1 (u64 (r1.start + r1.size)) (u64 (r2.start + u64 (k - r2.start)))
  at_ i j := do
    let a ← r1.at_ dbg i
    let b ← r2.at_ dbg j
    X.at_ a b

/-- `matrix_slice` (matrix_proxy.hpp:3625-3655 `find1`, `find2`; 3685-3693; 3713-3716; 3727-3744 `begin ()`, `end ()`; 3783-3789; 3802-3806
with the debug check on the other counter; 3483-3485) and `matrix_indirect` (4665-4695, 4725-4733, 4753-4756, 4767-4784, 4823-4829,
4842-4846, 4520-4522). -/
def picked (dbg : Bool) (X : MIter R) (P1 P2 : VIter.Picker) (sel1 sel2 : Nat → M Nat) : MIter R where
  size1 := P1.size
  size2 := P2.size
  Pos := Nat × Nat
  find _ _ i j := .ok (P1.first + i, P2.first + j)
  next ax p := .ok (match ax with | .one => (p.1 + 1, p.2) | .two => (p.1, p.2 + 1))
  prev ax p := match ax with
    | .one => do
      let k ← P1.back p.1
      .ok (k, p.2)
    | .two => do
      let k ← P2.back p.2
      .ok (p.1, k)
  eq ax p q := match ax with
    | .one => do
      check dbg (p.2 = q.2) .externalLogic
      .ok (decide (p.1 = q.1))
    | .two => do
      check dbg (p.1 = q.1) .externalLogic
      .ok (decide (p.2 = q.2))
  index1 _ p := P1.index p.1
  index2 _ p := P2.index p.2
  deref _ p := do
    let a ← P1.star p.1
    let b ← P2.star p.2
    X.at_ a b
  innerBegin ax p := match ax with
    | .one => .ok (p.1, P2.first)
    | .two => .ok (P1.first, p.2)
  innerEnd ax p := match ax with
    | .one => .ok (p.1, P2.first + P2.size)
    | .two => .ok (P1.first + P1.size, p.2)
  at_ i j := do
    let a ← sel1 i
    let b ← sel2 j
    X.at_ a b

/-- `matrix_row` (matrix_proxy.hpp:220-236 `find` is `find2 (1, i_, j)`, 262-270, 289-292, 300-302 `index` is `index2`, 314-317, 83-85) for
`ax = two`, and `matrix_column` (691-707 `find1 (1, i, j_)`, 733-741, 760-763, 771-773, 785-788, 556-558) for `ax = one`. -/
def line (dbg : Bool) (X : MIter R) (ax : Axis) (l : Nat) : VIter R where
  size := X.len ax
  Pos := X.Pos
  find k := X.look ax 1 k l
  next := X.next ax
  prev := X.prev ax
  eq := X.eq ax
  index p := X.indexAlong ax p
  deref p := do
    let _ ← (if dbg = true then do
        let k ← X.indexAlong ax p
        check dbg (k < X.len ax) .badIndex
      else .ok () : M Unit)
    X.deref ax p
  at_ k := match ax with
    | .one => X.at_ k l
    | .two => X.at_ l k

/-- `matrix_vector_range` (matrix_proxy.hpp:1020-1022 `size` with BOOST_UBLAS_SAME, 1168-1170, 1203-1213, 1234-1237, 1245-1247, 1260-1263,
1037-1039), `matrix_vector_slice` (1647-1649, 1684-1694, 1715-1718, 1726-1728, 1741-1744, 1516-1518), `matrix_vector_indirect` (2128-2130,
2165-2175, 2196-2199, 2207-2209, 2222-2225, 1997-1999).  The size is that of the first selector (BOOST_UBLAS_SAME checks equality in debug
builds, exception.hpp:277-283, 292). -/
def diag (dbg : Bool) (X : MIter R) (P1 P2 : VIter.Picker) (sel1 sel2 : Nat → M Nat) : VIter R where
  size := P1.size
  Pos := Nat × Nat
  find i := .ok (P1.first + i, P2.first + i)
  next p := .ok (p.1 + 1, p.2 + 1)
  prev p := do
    let a ← P1.back p.1
    let b ← P2.back p.2
    .ok (a, b)
  eq p q := .ok (decide (p.1 = q.1 ∧ p.2 = q.2))
  index p := do
    let a ← P1.index p.1
    let _ ← (if dbg = true then do
        let b ← P2.index p.2
        check dbg (a = b) .badArgument
      else .ok () : M Unit)
    .ok a
  deref p := do
    let a ← P1.star p.1
    let b ← P2.star p.2
    X.at_ a b
  at_ i := do
    let a ← sel1 i
    let b ← sel2 i
    X.at_ a b

end MIter

/-- The picker of a selector. Range: vector_proxy.hpp:244-260; slice: storage.hpp:1322-1460; indirect: storage.hpp:1603-1740. -/
def VIter.Picker.of (dbg : Bool) : Sel → VIter.Picker
  | .range r => .ofRange dbg r
  | .slice s => .ofSlice dbg s
  | .indirect ia => .ofIndirect dbg ia

namespace MIter

/-- The matrix proxy of two selectors of one kind (there is no proxy mixing kinds; the last case is never used by the theorems). Vector proxies: vector_proxy.hpp:244-480 (vector_range), 823-1060 (vector_slice), 1382-1620 (vector_indirect); matrix proxies: matrix_proxy.hpp:2624-3380 (matrix_range), 3625-4400 (matrix_slice), 4665-5440 (matrix_indirect). -/
def proxy (dbg : Bool) (X : MIter R) : Sel → Sel → MIter R
  | .range r1, .range r2 => X.range dbg r1 r2
  | s1, s2 => X.picked dbg (.of dbg s1) (.of dbg s2) (s1.at_ dbg) (s2.at_ dbg)

/-- A (nested) matrix proxy. Nesting of the proxies above; no code of its own in /repo. -/
def view (dbg : Bool) (X : MIter R) : MRef → MIter R
  | .base => X
  | .sel p s1 s2 => (X.view dbg p).proxy dbg s1 s2

/-- A vector view of a (nested) matrix proxy. Nesting of the proxies above; no code of its own in /repo. -/
def vview (dbg : Bool) (X : MIter R) : MVRef → VIter R
  | .row p i => (X.view dbg p).line dbg .two i
  | .column p j => (X.view dbg p).line dbg .one j
  | .along p s1 s2 => (X.view dbg p).diag dbg (.of dbg s1) (.of dbg s2) (s1.at_ dbg) (s2.at_ dbg)

end MIter
end Ublas
