import Verif.Model.Select
/-! # matrix_row_vector and matrix_column_vector (include/boost/numeric/ublas/matrix_vector.hpp) over a dense matrix

The two classes hold a pointer to the matrix; the matrix itself is the state the operations act on.  Positions are `std::size_t`
in the code and natural numbers here, offsets `std::ptrdiff_t` and integers; overflow of either is not modelled.  Not modelled: `crend ()` of matrix_row_vector
(183-185: returns `end ()`, which does not convert to a reverse iterator) and the constant `operator []` over a mutable matrix
(203-205, 356-358: matrix_row<Matrix> does not convert to matrix_row<Matrix const>), neither of which compiles. -/
namespace Ublas
variable {α σ : Type}

/-- Which of the two classes: matrix_vector.hpp:107-219 (rows), 260-372 (columns). -/
inductive LineAxis | rows | columns
  deriving DecidableEq

namespace LineAxis

/-- `value_type (*matrix_, index)`: matrix_vector.hpp:188-200, 341-353; `Reference (*matrix_, position_)`: 89-91. -/
def line : LineAxis → Nat → MVRef
  | rows, k => .row .base k
  | columns, k => .column .base k

/-- `size ()`: matrix_vector.hpp:208-210, 361-363. -/
def size : LineAxis → Dense α → Nat
  | rows, m => m.size1
  | columns, m => m.size2

/-- `size ()` of a line: matrix_proxy.hpp:62-64, 535-537. -/
def width : LineAxis → Dense α → Nat
  | rows, m => m.size2
  | columns, m => m.size1

/-- `resize (size, preserve)`: matrix_vector.hpp:213-215, 366-368. -/
def resize (dbg : Bool) (o : Orient) (junk : Nat → α) (m : Dense α) (n : Nat) (preserve : Bool) : LineAxis → M (Dense α)
  | rows => m.resize dbg o junk n m.size2 preserve
  | columns => m.resize dbg o junk m.size1 n preserve

end LineAxis

/-- matrix_vector_iterator: matrix_vector.hpp:93-94; `mat` identifies the matrix pointed to. -/
structure LineIt where
  mat : Nat
  pos : Int
  deriving DecidableEq

namespace LineIt

/-- `begin ()`: matrix_vector.hpp:128-140, 281-293. -/
def begin_ (mat : Nat) : LineIt := ⟨mat, 0⟩
/-- `end ()`: matrix_vector.hpp:143-155, 296-308. -/
def end_ (ax : LineAxis) (mat : Nat) (m : Dense α) : LineIt := ⟨mat, ax.size m⟩
/-- `increment`, `decrement`, `advance`: matrix_vector.hpp:60-72. -/
def inc (it : LineIt) : LineIt := { it with pos := it.pos + 1 }
/-- matrix_vector.hpp:65-67. -/
def dec (it : LineIt) : LineIt := { it with pos := it.pos - 1 }
/-- matrix_vector.hpp:70-72. -/
def advance (it : LineIt) (n : Int) : LineIt := { it with pos := it.pos + n }
/-- `distance_to`: matrix_vector.hpp:76-79. -/
def distanceTo (dbg : Bool) (it other : LineIt) : M Int := do
  check dbg (it.mat = other.mat) .externalLogic
  .ok (other.pos - it.pos)
/-- `equal`: matrix_vector.hpp:83-86. -/
def equal (dbg : Bool) (it other : LineIt) : M Bool := do
  check dbg (it.mat = other.mat) .externalLogic
  .ok (decide (it.pos = other.pos))
/-- `dereference`: matrix_vector.hpp:89-91 (a proxy for a line; the proxy's constructor checks nothing,
matrix_proxy.hpp:54-58, 527-531). -/
def deref (ax : LineAxis) (it : LineIt) : MVRef := ax.line it.pos.toNat

/-- `for (; it != last; ++ it) body (*it)`; `fuel` bounds the number of rounds and running out is `diverge`. A client's loop; the iterator operations are cited at their definitions. -/
def forEach (dbg : Bool) (ax : LineAxis) (body : MVRef → σ → M σ) : (fuel : Nat) → LineIt → LineIt → σ → M σ
  | 0, it, last, s => do let e ← it.equal dbg last; if e then .ok s else .error .diverge
  | f + 1, it, last, s => do
      let e ← it.equal dbg last
      if e then .ok s else do
        let s ← body (it.deref ax) s
        forEach dbg ax body f it.inc last s

/-- `for (it = rbegin (); it != rend (); ++ it) body (*it)` with boost::reverse_iterator (158-180, 311-338): the
base starts at `end ()`, dereferencing looks one position before the base, `++` moves the base down. -/
def forEachReverse (dbg : Bool) (ax : LineAxis) (body : MVRef → σ → M σ) : (fuel : Nat) → LineIt → LineIt → σ → M σ
  | 0, it, last, s => do let e ← it.equal dbg last; if e then .ok s else .error .diverge
  | f + 1, it, last, s => do
      let e ← it.equal dbg last
      if e then .ok s else do
        let s ← body (it.dec.deref ax) s
        forEachReverse dbg ax body f it.dec last s

end LineIt

/-- Changes a client makes through the vector of lines: `v [k] (j) = t` and `v.resize (n, preserve)`. Client histories: composes the operations cited in this file; no code of its own in /repo. -/
inductive LineOp (α : Type)
  | set (k j : Nat) (t : α)
  | resize (n : Nat) (preserve : Bool)

/-- `v [k] (j) = t` (188-200, 341-353, then the proxy's element access) and `resize`. -/
def LineAxis.step (dbg : Bool) (o : Orient) (junk : Nat → α) (ax : LineAxis) (m : Dense α) : LineOp α → M (Dense α)
  | .set k j t => (ax.line k).write dbg o m j t
  | .resize n p => ax.resize dbg o junk m n p

/-- A history; `junk` is what each reallocation finds in memory. Client histories: composes the operations cited in this file; no code of its own in /repo. -/
def LineAxis.run (dbg : Bool) (o : Orient) (ax : LineAxis) : Dense α → List (LineOp α × (Nat → α)) → M (Dense α)
  | m, [] => .ok m
  | m, (op, junk) :: ops => ax.step dbg o junk m op >>= fun m' => LineAxis.run dbg o ax m' ops

end Ublas
