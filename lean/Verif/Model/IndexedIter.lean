import Verif.Model.RandomAccess
/-!
# The iterators of a build with BOOST_UBLAS_USE_INDEXED_ITERATOR

In such a build (config.hpp's option) the dense containers, proxies and expressions take their iterators from `indexed_iterator`,
`indexed_const_iterator`, `indexed_iterator1` and `indexed_iterator2` (detail/iterator.hpp): the iterator is a counter, and `*` is the element
access of the container.  What differs from class to class is which counter `find` (and so `begin ()` and `end ()`) starts from.
Simplifications as in `Model/RandomAccess.lean`.
-/
namespace Ublas
variable {R : Type}
namespace RVec

/-- `indexed_iterator` and `indexed_const_iterator` (detail/iterator.hpp:677-742, 789-855): `++`, `--`, `+=`, `-=` (677-695), `-` (697-700), `*`
(704-707), `[]` (709-711: `*(*this + n)`), `index ()` (715-717, no check), `==`, `<` (731-739), for a container of size `n` with element
access `at_` whose `find (i)` puts the counter at `find i`. -/
def indexed (dbg : Bool) (n : Nat) (find : Nat → M Nat) (at_ : Nat → M R) : RVec R :=
  let deref := fun (p : Nat) => do
    check dbg (p < n) .badIndex
    at_ p
  { size := n
    Pos := Nat
    find := find
    next := fun p => .ok (u64 (p + 1))
    prev := fun p => .ok (u64 (p - 1))
    plus := fun p d => .ok (u64 (p + d))
    minus := fun p d => .ok (u64 (p - d))
    diff := fun p q => .ok (i64 (u64 (p - q)))
    eq := fun p q => .ok (decide (p = q))
    lt := fun p q => .ok (decide (p < q))
    index := fun p => .ok p
    deref := deref
    sub := fun p d => deref (u64 (p + d))
    at_ := at_ }

/-- `find` of a view of another vector `V`: the counter is `it.index ()` of the iterator `it` that `V.find (i)` returns. vector_proxy.hpp:244-260 (`find` of a view in an indexed build). -/
def indexOfFind (V : RVec R) (i : Nat) : M Nat := do
  let it ← V.find i
  V.index it

/-- `vector`, `fixed_vector`, `c_vector`: vector.hpp:481-513 (typedefs, `find`), 1252-1284, 2656-2688; `operator ()`: 230-232. -/
def denseIx (dbg : Bool) (data : List R) : RVec R := indexed dbg data.length (fun i => .ok i) (rd dbg data)

/-- `scalar_vector`: vector.hpp:2262-2276, 2221-2223. -/
def scalarIx (dbg : Bool) (n : Nat) (v : R) : RVec R := indexed dbg n (fun i => .ok i) (fun _ => .ok v)

/-- One line of a dense matrix: `iterator1` on column `l` / `iterator2` on row `l` (matrix.hpp:432-482 `find1`, `find2`; detail/iterator.hpp:909-958:
`*` checks both indices), and `matrix_column` / `matrix_row`, whose counter is the moving index of those (matrix_proxy.hpp:206-236, 679-709;
`operator ()`: `data_ (i_, j)`, which makes the same checks). -/
def lineIx (dbg : Bool) (o : Orient) (ax : Axis) (m : Dense R) (l : Nat) : RVec R :=
  indexed dbg (CMat.along ax m.size1 m.size2) (fun i => .ok i) fun k => do
    check dbg (l < CMat.along ax m.size2 m.size1) .badIndex
    match ax with
    | .one => m.get dbg o k l
    | .two => m.get dbg o l k

/-- The iterators of a selector; `find (i)` stands for `begin () + i`.  `basic_range`: storage.hpp:1082-1083, 1182-1190 (`begin ()` is the counter
`start_`, `end ()` is `start_ + size_`), 1054-1058 (`operator ()`); `basic_slice`: 1319-1320, 1414-1425; `indirect_array`: 1600-1601, 1691-1701
(both count from 0). -/
def ofSelIx (dbg : Bool) : Sel → RVec Nat
  | .range r => indexed dbg r.size (fun i => .ok (u64 (r.start + i64 i))) (r.at_ dbg)
  | .slice s => indexed dbg s.size (fun i => .ok (u64 (i64 i))) (s.at_ dbg)
  | .indirect ia => indexed dbg ia.length (fun i => .ok (u64 (i64 i))) (ia.at_ dbg)

/-- `vector_range` (vector_proxy.hpp:232-261: `find (i)` takes `it.index ()` of `data_.find (start () + i)`; 99-101), `vector_slice`
(811-838: the counter is `i`; 675-677), `vector_indirect` (1371-1397; 1231-1233). -/
def proxyIx (dbg : Bool) (V : RVec R) : Sel → RVec R
  | .range r => indexed dbg r.size (fun i => V.indexOfFind (u64 (r.start + i))) (fun i => do let k ← r.at_ dbg i; V.at_ k)
  | .slice s => indexed dbg s.size (fun i => .ok i) (fun i => do let k ← s.at_ dbg i; V.at_ k)
  | .indirect ia => indexed dbg ia.length (fun i => .ok i) (fun i => do let k ← ia.at_ dbg i; V.at_ k)

/-- `vector_unary` (vector_expression.hpp:326-344, 296-298), `vector_binary_scalar1` (1065-1085), `vector_binary_scalar2` (1308-1328). -/
def mapIx (dbg : Bool) (f : R → R) (V : RVec R) : RVec R :=
  indexed dbg V.size V.indexOfFind (fun i => do let x ← V.at_ i; .ok (f x))

/-- `vector_binary`: vector_expression.hpp:622-645, 580-582, 598-600. -/
def map2Ix (dbg : Bool) (f : R → R → R) (V W : RVec R) : RVec R :=
  indexed dbg V.size
    (fun i => do
      let p ← V.find i
      let n ← same dbg V.size W.size
      let pe ← V.find n
      let q ← W.find i
      let qe ← W.find n
      let a ← V.headIndex n p pe
      let b ← W.headIndex n q qe
      .ok (min a b))
    (fun i => do
      let x ← V.at_ i
      let y ← W.at_ i
      .ok (f x y))

/-- `iterator1` on column `l` (`ax = .one`) or `iterator2` on row `l` of a `matrix_range` of a dense matrix: matrix_proxy.hpp:2602-2659 (`find1`, `find2`
take `index1 ()` and `index2 ()` of the iterator of the matrix behind at `start1 () + i`, `start2 () + j`), detail/iterator.hpp:909-958 (`*`),
matrix_proxy.hpp:2482-2489 (`operator ()`: `data_ (r1_ (i), r2_ (j))`). -/
def rangeLineIx (dbg : Bool) (o : Orient) (ax : Axis) (m : Dense R) (r1 r2 : Range) (l : Nat) : RVec R :=
  let along := match ax with | .one => r1 | .two => r2
  let across := match ax with | .one => r2 | .two => r1
  let fixed := u64 (across.start + l)
  indexed dbg along.size (fun i => .ok (u64 (along.start + i))) fun k => do
    check dbg (fixed < across.size) .badIndex
    let a ← along.at_ dbg k
    let c ← across.at_ dbg fixed
    match ax with
    | .one => m.get dbg o a c
    | .two => m.get dbg o c a

end RVec
end Ublas
