import Verif.Model.Prod
/-!
# Element-wise vector and matrix expressions: vector_expression.hpp:247-1500, matrix_expression.hpp:320-4000

An expression is seen, like every operand, through its size, iterator category, elements visited by its iterators and element access (`Seq`, `MSeq`).
An iterator of an operand is the position in its list of visited elements.  Type promotion is not modelled (one element type), nor the
BOOST_UBLAS_USE_INDEXED_ITERATOR / USE_INVARIANT_HOISTING alternatives (off by default).
-/
namespace Ublas
variable {R : Type}
namespace Expr

/-- `vector_unary`: vector_expression.hpp:280-298, 337-342, 371-410 (`- v`, `conj`, `real`, `imag`, `trans`, `herm`).  Also `vector_binary_scalar1`
(`t * v`, vector_expression.hpp:1036-1050, 1075-1150) and `vector_binary_scalar2` (`v * t`, `v / t`, vector_expression.hpp:1281-1295, 1318-1393), with `F = (t * ·)`,
`(· * t)`, `(· / t)`. -/
def unary (F : R → R) (a : Seq R) : Seq R :=
  ⟨a.size, a.cat, a.els.map fun p => (p.1, F p.2), fun i => do
    let x ← a.at_ i
    .ok (F x)⟩

/-- `const_iterator` of `vector_binary`: the index `i_` and the positions of `it1_` and `it2_` (vector_expression.hpp:893-898). -/
structure BIt where
  i : Nat
  p1 : Nat
  p2 : Nat
  deriving DecidableEq, Repr

/-- `it != it_end ? it.index () : size ()`. vector_expression.hpp:865-872 (`index ()`), 693-880: where the position of an operand stands. -/
def idxAt (l : List (Nat × R)) (p n : Nat) : Nat := match l[p]? with
  | some q => q.1
  | none => n

/-- `if (it != it_end) if (it.index () <= i_) ++ it;`: vector_expression.hpp:700-705, 757-759, 764-766. -/
def adv (l : List (Nat × R)) (p i : Nat) : Nat := match l[p]? with
  | some q => if q.1 ≤ i then p + 1 else p
  | none => p

/-- `if (it != it_end) if (i_ <= it.index ()) -- it;`: vector_expression.hpp:710-715, 775-777, 782-784; decrementing `begin ()` is undefined. -/
def back (l : List (Nat × R)) (p i : Nat) : M Nat := match l[p]? with
  | some q => if i ≤ q.1 then (if p = 0 then .error .ub else .ok (p - 1)) else .ok p
  | none => .ok p

/-- `increment`: vector_expression.hpp:677-679 (dense), 699-707 (packed), 755-771 (sparse); matrix_expression.hpp:2176-2178, 2198-2206, 2258-2274, 2527-2529 and the
`const_iterator2` counterparts. -/
def inc (c : Cat) (n : Nat) (a b : List (Nat × R)) (s : BIt) : BIt := match c with
  | .dense => ⟨s.i + 1, s.p1 + 1, s.p2 + 1⟩
  | .packed => ⟨s.i + 1, adv a s.p1 s.i, adv b s.p2 s.i⟩
  | .sparse => ⟨min (idxAt a (adv a s.p1 s.i) n) (idxAt b (adv b s.p2 s.i) n), adv a s.p1 s.i, adv b s.p2 s.i⟩

/-- `decrement`: vector_expression.hpp:681-683 (dense), 709-717 (packed), 773-789 (sparse). -/
def dec (c : Cat) (n : Nat) (a b : List (Nat × R)) (s : BIt) : M BIt := match c with
  | .dense => .ok ⟨s.i - 1, s.p1 - 1, s.p2 - 1⟩
  | .packed => do
    let p1 ← back a s.p1 s.i
    let p2 ← back b s.p2 s.i
    .ok ⟨s.i - 1, p1, p2⟩
  | .sparse => do
    let p1 ← back a s.p1 s.i
    let p2 ← back b s.p2 s.i
    .ok ⟨max (idxAt a p1 n) (idxAt b p2 n), p1, p2⟩

/-- `if (it != it_end) if (it.index () == i_) t = *it;` with `t` zero before. vector_expression.hpp:741-755, 813-826. -/
def valAt [Zero R] (l : List (Nat × R)) (p i : Nat) : R := match l[p]? with
  | some q => if q.1 = i then q.2 else 0
  | none => 0

/-- `dereference`: vector_expression.hpp:693-695, 741-751, 813-823; matrix_expression.hpp:2192-2194, 2240-2254, 2316-2330. -/
def deref [Zero R] (c : Cat) (f : R → R → R) (a b : List (Nat × R)) (s : BIt) : M R := match c with
  | .dense => match a[s.p1]?, b[s.p2]? with
    | some x, some y => .ok (f x.2 y.2)
    | _, _ => .error .ub
  | _ => .ok (f (valAt a s.p1 s.i) (valAt b s.p2 s.i))

/-- `begin ()` = `find (0)`: vector_expression.hpp:633-644, 903-905. -/
def begin_ (n : Nat) (a b : List (Nat × R)) : BIt := ⟨min (idxAt a 0 n) (idxAt b 0 n), 0, 0⟩
/-- `end ()` = `find (size ())`: vector_expression.hpp:633-644, 911-913. -/
def end_ (n : Nat) (a b : List (Nat × R)) : BIt := ⟨n, a.length, b.length⟩

/-- `for (it = cur; it != end (); ++ it)` collecting index and value; iterators compare by index (vector_expression.hpp:883-886).  `fuel` bounds the rounds. -/
def walk [Zero R] (c : Cat) (f : R → R → R) (n : Nat) (a b : List (Nat × R)) : (fuel : Nat) → BIt → M (List (Nat × R))
  | 0, _ => .error .diverge
  | k + 1, s => if s.i = n then .ok [] else do
    let x ← deref c f a b s
    let l ← walk c f n a b k (inc c n a b s)
    return (s.i, x) :: l

/-- `for (it = rbegin (); it != rend (); ++ it)`: `reverse_iterator_base` (detail/iterator.hpp:319-399): `++` is `--` of the base, `*` and `index ()` look at the
decremented base. -/
def walkBack [Zero R] (c : Cat) (f : R → R → R) (n : Nat) (a b : List (Nat × R)) (stop : Nat) : (fuel : Nat) → BIt → M (List (Nat × R))
  | 0, _ => .error .diverge
  | k + 1, s => if s.i = stop then .ok [] else do
    let s' ← dec c n a b s
    let x ← deref c f a b s'
    let l ← walkBack c f n a b stop k s'
    return (s'.i, x) :: l

/-- What `[begin (), end ())` of the merged expression visits. A client's loop over the iterator of vector_expression.hpp:693-880. -/
def binEls [Zero R] (f : R → R → R) (a b : Seq R) (n : Nat) : M (List (Nat × R)) :=
  walk (a.cat.restrict b.cat) f n a.els b.els (n + 1) (begin_ n a.els b.els)

/-- What `[rbegin (), rend ())` visits. A client's loop over the reverse iterator: vector_expression.hpp:923-937 (`--`: 833-840). -/
def binRev [Zero R] (f : R → R → R) (a b : Seq R) (n : Nat) : M (List (Nat × R)) :=
  walkBack (a.cat.restrict b.cat) f n a.els b.els (begin_ n a.els b.els).i (n + 1) (end_ n a.els b.els)

/-- `vector_binary` (`+`, `-`, `element_prod`, `element_div`): vector_expression.hpp:575-600, 633-1000. -/
def binary [Zero R] (dbg : Bool) (f : R → R → R) (a b : Seq R) : M (Seq R) := do
  let n ← same dbg a.size b.size
  let els ← binEls f a b n
  return ⟨n, a.cat.restrict b.cat, els, fun i => do
    let x ← a.at_ i
    let y ← b.at_ i
    .ok (f x y)⟩

/-- Expression trees over vector operands. Trees of vector_unary (248), vector_binary (551), vector_binary_scalar1/2 (1004, 1249): vector_expression.hpp:247-1500. -/
inductive VE (R : Type)
  | leaf (s : Seq R)
  | un (F : R → R) (e : VE R)
  | bin (f : R → R → R) (e1 e2 : VE R)

/-- The operand an expression tree presents to the code that evaluates it. Composition of the nodes above (vector_expression.hpp:247-1500). -/
def VE.build [Zero R] (dbg : Bool) : VE R → M (Seq R)
  | .leaf s => .ok s
  | .un F e => do
    let a ← e.build dbg
    .ok (unary F a)
  | .bin f e1 e2 => do
    let a ← e1.build dbg
    let b ← e2.build dbg
    binary dbg f a b

/-! ## Matrices -/

/-- `matrix_unary1` (`-m`, `conj`, …) and the scalar forms: matrix_expression.hpp:985-1025, 3001-3045, 3529-3573. -/
def munary (F : R → R) (m : MSeq R) : MSeq R :=
  ⟨m.size1, m.size2, m.cat, fun i => (unary F (m.row i)).els, fun j => (unary F (m.col j)).els, fun i j => do
    let x ← m.at_ i j
    .ok (F x)⟩

/-- `matrix_unary2` (`trans`, `herm`): rows are columns; matrix_expression.hpp:1505-1525, 1572-1590. -/
def mtrans (F : R → R) (m : MSeq R) : MSeq R :=
  ⟨m.size2, m.size1, m.cat, fun i => (unary F (m.col i)).els, fun j => (unary F (m.row j)).els, fun i j => do
    let x ← m.at_ j i
    .ok (F x)⟩

/-- Row `i` of `outer_prod (v, w)`: `find2 (1, i, 0)` … `find2 (1, i, size2)`: matrix_expression.hpp:434-452, 694-728.  When `v` has no element at `i`, or a
zero one, the row is empty. -/
def outerRow [Mul R] [Zero R] [DecidableEq R] (v w : Seq R) (i : Nat) : List (Nat × R) :=
  match v.els.find? (fun p => decide (i ≤ p.1)) with
  | some p => if p.1 ≠ i ∨ p.2 = 0 then [] else w.els.map fun q => (q.1, p.2 * q.2)
  | none => []
/-- Column `j` of `outer_prod (v, w)`: matrix_expression.hpp:414-432, 493-530. -/
def outerCol [Mul R] [Zero R] [DecidableEq R] (v w : Seq R) (j : Nat) : List (Nat × R) :=
  match w.els.find? (fun q => decide (j ≤ q.1)) with
  | some q => if q.1 ≠ j ∨ q.2 = 0 then [] else v.els.map fun p => (p.1, p.2 * q.2)
  | none => []

/-- `outer_prod (v, w)` (`vector_matrix_binary`): matrix_expression.hpp:345-372, 458-466, 659-666. -/
def outer [Mul R] [Zero R] [DecidableEq R] (v w : Seq R) : MSeq R :=
  ⟨v.size, w.size, v.cat.restrict w.cat, outerRow v w, outerCol v w, fun i j => do
    let x ← v.at_ i
    let y ← w.at_ j
    .ok (x * y)⟩

/-- `m` is what `matrix_binary` over `a` and `b` presents: every row and column merges those of the operands (matrix_expression.hpp:2044-2141, 2147-2680). -/
def MBinary [Zero R] (dbg : Bool) (f : R → R → R) (a b m : MSeq R) : Prop :=
  same dbg a.size1 b.size1 = .ok m.size1 ∧ same dbg a.size2 b.size2 = .ok m.size2 ∧ m.cat = a.cat.restrict b.cat ∧
  (∀ i, i < m.size1 → binEls f (a.row i) (b.row i) m.size2 = .ok (m.rowEls i)) ∧
  (∀ j, j < m.size2 → binEls f (a.col j) (b.col j) m.size1 = .ok (m.colEls j)) ∧
  m.at_ = fun i j => do
    let x ← a.at_ i j
    let y ← b.at_ i j
    .ok (f x y)

/-- Expression trees over matrix operands. Trees of matrix_unary1/2, matrix_binary, matrix_binary_scalar1/2: matrix_expression.hpp:922-4000. -/
inductive ME (R : Type)
  | leaf (m : MSeq R)
  | un (F : R → R) (e : ME R)
  | tr (F : R → R) (e : ME R)
  | bin (f : R → R → R) (e1 e2 : ME R)

/-- `e.Builds m`: the expression tree `e` presents itself as `m`. Composition of the nodes above (matrix_expression.hpp:922-4000). -/
inductive ME.Builds [Zero R] (dbg : Bool) : ME R → MSeq R → Prop
  | leaf (m) : Builds dbg (.leaf m) m
  | un {F e m} : Builds dbg e m → Builds dbg (.un F e) (munary F m)
  | tr {F e m} : Builds dbg e m → Builds dbg (.tr F e) (mtrans F m)
  | bin {f e1 e2 a b m} : Builds dbg e1 a → Builds dbg e2 b → MBinary dbg f a b m → Builds dbg (.bin f e1 e2) m

end Expr
end Ublas
