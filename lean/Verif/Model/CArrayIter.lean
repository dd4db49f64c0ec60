import Verif.Model.RandomAccess
import Verif.Model.CArray
/-! # The iterators of c_matrix (matrix.hpp:5234-5278, 5281-5450, 5452-5590, 5600-5900), default build -/
namespace Ublas
variable {R : Type}
namespace RVec

/-- Distance in the array between neighbours along `ax`: `it_ += M` (matrix.hpp:5305-5306, 5484-5485), `++ it_` (5629-5630, 5807-5808). -/
def cstride (C : Nat) : Axis → Nat
  | .one => C
  | .two => 1

/-- `it1 - it2`: matrix.hpp:5329-5332, 5508-5511 (`(it_ - it.it_) / M`: `M` is a std::size_t, so the signed offset is divided as an unsigned number), 5653-5656, 5831-5834 (the offset). -/
def cdistance (C : Nat) (ax : Axis) (k : Int) : Int :=
  match ax with
  | .one => i64 (u64 k / C)
  | .two => k

/-- The iterators of one line of a `c_matrix<T, N, C>`: `iterator1` on column `l` (`ax = .one`: matrix.hpp:5235-5250 `find1`, 5303-5344, 5407-5416, 5427-5437; mutable 5482-5523, 5562-5571, 5582-5592)
or `iterator2` on row `l` (`.two`: 5252-5278 `find2`, 5627-5668, 5731-5740, 5751-5761; mutable 5805-5846, 5885-5894, 5905-5915).
Simplifications: the pointer is an offset modulo 2^64 and may lie anywhere (in C++ a pointer far outside the array is already undefined). -/
def cline (dbg : Bool) (C : Nat) (ax : Axis) (m : CMatx R) (l : Nat) : RVec R :=
  let at' := fun (k : Nat) => (match ax with | .one => (k, l) | .two => (l, k) : Nat × Nat)
  let deref := fun (p : Nat) => do
    check dbg (p / C < m.size1) .badIndex
    check dbg (p % C < m.size2) .badIndex
    rd false m.data p
  let plus := fun (p : Nat) (n : Int) => (.ok (u64 (p + u64 (n * cstride C ax))) : M Nat)
  { size := CMat.along ax m.size1 m.size2
    Pos := Nat
    find := fun k => .ok ((at' k).1 * C + (at' k).2)
    next := fun p => .ok (u64 (p + cstride C ax))
    prev := fun p => .ok (u64 (p - cstride C ax))
    plus := plus
    minus := fun p n => .ok (u64 (p - u64 (n * cstride C ax)))
    diff := fun p q => .ok (cdistance C ax (p - q))
    eq := fun p q => .ok (decide (p = q))
    lt := fun p q => .ok (decide (p < q))
    index := fun p => .ok (CMat.along ax (p / C) (p % C))
    deref := deref
    sub := fun p n => do
      let q ← plus p n
      deref q
    at_ := fun k => m.get dbg C (at' k).1 (at' k).2 }

end RVec
end Ublas
