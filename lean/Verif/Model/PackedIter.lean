import Verif.Model.Packed
import Verif.Model.Banded
import Verif.Model.CMatIter
/-!
# Iterators of triangular_matrix (triangular.hpp:310-1030) and banded_matrix (banded.hpp:427-1160)

"Iterators simply are indices" (triangular.hpp:344, banded.hpp:469): an iterator is the pair (it1, it2); `++` moves one of them.
-/
namespace Ublas
variable {α : Type}

/-- `for (it = b; it != e; ++ it) record (it, get (it))` over an index that only moves up.  `fuel` bounds the number of rounds; starting past
the end never meets it (`diverge`). A client's loop; the iterator operations are cited at their definitions. -/
def walkIdx {β : Type} (get : Nat → M β) : (fuel b e : Nat) → M (List (Nat × β))
  | 0, b, e => if b = e then .ok [] else .error .diverge
  | n + 1, b, e => if b = e then .ok [] else do
    let v ← get b
    let l ← walkIdx get n (b + 1) e
    return (b, v) :: l

namespace Packed

/-- `restrict1`: functional.hpp:1917-1919 (lower, inherited by unit), 2067-2069 (strict, through 2002-2004). -/
def lrestrict1 (k : LKind) (i j s1 _s2 : Nat) : Nat :=
  match k with
  | .lower => max j (min s1 i)
  | .unit => max j (min s1 i)
  | .strict => max (j + 1) (min s1 i)
/-- `restrict2`: functional.hpp:1923-1925, 2072-2074 (strict, through 2007-2009). -/
def lrestrict2 (k : LKind) (i j _s1 _s2 : Nat) : Nat :=
  match k with
  | .lower => max 0 (min (i + 1) j)
  | .unit => max 0 (min (i + 1) j)
  | .strict => max 0 (min i j)
/-- `mutable_restrict1`: functional.hpp:1929-1931, 2002-2004. -/
def lmrestrict1 (k : LKind) (i j s1 _s2 : Nat) : Nat :=
  match k with
  | .lower => max j (min s1 i)
  | _ => max (j + 1) (min s1 i)
/-- `mutable_restrict2`: functional.hpp:1935-1937, 2007-2009. -/
def lmrestrict2 (k : LKind) (i j _s1 _s2 : Nat) : Nat :=
  match k with
  | .lower => max 0 (min (i + 1) j)
  | _ => max 0 (min i j)
/-- `global_mutable_restrict1`: functional.hpp:1955-1957, 2014-2016. -/
def lgmrestrict1 (_dbg : Bool) (k : LKind) (i s1 _j _s2 : Nat) : M Nat :=
  match k with
  | .lower => .ok (max 0 (min s1 i))
  | _ => .ok (max 1 (min s1 i))
/-- `global_mutable_restrict2`: functional.hpp:1961-1963, 2020-2023; without checks `size2 - 1` of an empty matrix is the largest
size_type, so the minimum is `index2`. -/
def lgmrestrict2 (dbg : Bool) (k : LKind) (_i _s1 j s2 : Nat) : M Nat :=
  match k with
  | .lower => .ok (max 0 (min s2 j))
  | _ => do
    check dbg (1 ≤ s2) .externalLogic
    return max 0 (if s2 = 0 then j else min (s2 - 1) j)
/-- `global_restrict1`: functional.hpp:1942-1944 (lower, inherited by unit), 2079-2081 (strict). -/
def lgrestrict1 (dbg : Bool) (k : LKind) (i s1 j s2 : Nat) : M Nat :=
  match k with
  | .strict => lgmrestrict1 dbg .unit i s1 j s2
  | _ => .ok (max 0 (min s1 i))
/-- `global_restrict2`: functional.hpp:1948-1950, 2085-2087. -/
def lgrestrict2 (dbg : Bool) (k : LKind) (i s1 j s2 : Nat) : M Nat :=
  match k with
  | .strict => lgmrestrict2 dbg .unit i s1 j s2
  | _ => .ok (max 0 (min s2 j))

/-- Which iterators: `const_iterator` or the mutable `iterator`. triangular.hpp:300-303 (const_iterator1/2, iterator1/2). -/
inductive Access | const | mut
  deriving DecidableEq, Repr

/-- `restrict1` / `mutable_restrict1` of any structure, with the transposition of functional.hpp:1838-1856 for upper ones. -/
def restrict1 (a : Access) (t : Tri) (i j s1 s2 : Nat) : Nat :=
  match a, t.upper with
  | .const, false => lrestrict1 t.kind i j s1 s2
  | .const, true => lrestrict2 t.kind j i s2 s1
  | .mut, false => lmrestrict1 t.kind i j s1 s2
  | .mut, true => lmrestrict2 t.kind j i s2 s1
/-- `restrict2` / `mutable_restrict2`. functional.hpp:1923-1925, 1935-1937, 2007-2009, 2072-2074. -/
def restrict2 (a : Access) (t : Tri) (i j s1 s2 : Nat) : Nat :=
  match a, t.upper with
  | .const, false => lrestrict2 t.kind i j s1 s2
  | .const, true => lrestrict1 t.kind j i s2 s1
  | .mut, false => lmrestrict2 t.kind i j s1 s2
  | .mut, true => lmrestrict1 t.kind j i s2 s1
/-- `global_restrict1` / `global_mutable_restrict1`: transposition functional.hpp:1859-1877. -/
def grestrict1 (dbg : Bool) (a : Access) (t : Tri) (i s1 j s2 : Nat) : M Nat :=
  match a, t.upper with
  | .const, false => lgrestrict1 dbg t.kind i s1 j s2
  | .const, true => lgrestrict2 dbg t.kind j s2 i s1
  | .mut, false => lgmrestrict1 dbg t.kind i s1 j s2
  | .mut, true => lgmrestrict2 dbg t.kind j s2 i s1
/-- `global_restrict2` / `global_mutable_restrict2`. functional.hpp:1948-1950, 1961-1963, 2020-2022, 2085-2087. -/
def grestrict2 (dbg : Bool) (a : Access) (t : Tri) (i s1 j s2 : Nat) : M Nat :=
  match a, t.upper with
  | .const, false => lgrestrict2 dbg t.kind i s1 j s2
  | .const, true => lgrestrict1 dbg t.kind j s2 i s1
  | .mut, false => lgmrestrict2 dbg t.kind i s1 j s2
  | .mut, true => lgmrestrict1 dbg t.kind j s2 i s1

variable [Zero α] [One α]

/-- `[it1.begin (), it1.end ())` of row `i` (`find2 (1, i, 0)` … `find2 (1, i, size2)`): triangular.hpp:414-430, 327-342. -/
def TMat.rowEls (dbg : Bool) (a : Access) (t : Tri) (o : Orient) (m : TMat α) (i : Nat) : M (List (Nat × α)) :=
  walkIdx (m.get dbg t o i) (m.size1 + m.size2 + 1) (restrict2 a t i 0 m.size1 m.size2) (restrict2 a t i m.size2 m.size1 m.size2)
/-- `[it2.begin (), it2.end ())` of column `j`: triangular.hpp:311-326 (`find1`), 760-790. -/
def TMat.colEls (dbg : Bool) (a : Access) (t : Tri) (o : Orient) (m : TMat α) (j : Nat) : M (List (Nat × α)) :=
  walkIdx (fun i => m.get dbg t o i j) (m.size1 + m.size2 + 1) (restrict1 a t 0 j m.size1 m.size2) (restrict1 a t m.size1 j m.size1 m.size2)

/-- The nested traversal by rows (`ax = one`: `begin1 () = find1 (0, 0, 0)` to `end1 () = find1 (0, size1_, 0)`, triangular.hpp:507-522) or by
columns: the visited (outer, line) pairs. -/
def TMat.traverse (dbg : Bool) (a : Access) (t : Tri) (o : Orient) (m : TMat α) (ax : Axis) : M (List (Nat × List (Nat × α))) :=
  match ax with
  | .one => do
    let b ← grestrict1 dbg a t 0 m.size1 0 m.size2
    let e ← grestrict1 dbg a t m.size1 m.size1 0 m.size2
    walkIdx (m.rowEls dbg a t o) (m.size1 + m.size2 + 1) b e
  | .two => do
    let b ← grestrict2 dbg a t 0 m.size1 0 m.size2
    let e ← grestrict2 dbg a t 0 m.size1 m.size2 m.size2
    walkIdx (m.colEls dbg a t o) (m.size1 + m.size2 + 1) b e

end Packed

namespace BMat
variable [Zero α]

/-- `find1 (1, i, j)`: banded.hpp:429-437; `difference_type (j - upper_)` is the signed difference. -/
def find1 (m : BMat α) (i j : Nat) : Nat :=
  let lower_i := j - m.upper
  let upper_i := min (j + 1 + m.lower) m.size1
  min (max i lower_i) upper_i
/-- `find2 (1, i, j)`: banded.hpp:449-457. -/
def find2 (m : BMat α) (i j : Nat) : Nat :=
  let lower_j := i - m.lower
  let upper_j := min (i + 1 + m.upper) m.size2
  min (max j lower_j) upper_j

/-- `[it1.begin (), it1.end ())` of row `i`: banded.hpp:539-555. -/
def rowEls (dbg : Bool) (o : Orient) (m : BMat α) (i : Nat) : M (List (Nat × α)) :=
  walkIdx (m.get dbg o i) (m.size1 + m.size2 + 1) (m.find2 i 0) (m.find2 i m.size2)
/-- `[it2.begin (), it2.end ())` of column `j`. A client's loop over the iterators of triangular.hpp:312-343, 347-1000. -/
def colEls (dbg : Bool) (o : Orient) (m : BMat α) (j : Nat) : M (List (Nat × α)) :=
  walkIdx (fun i => m.get dbg o i j) (m.size1 + m.size2 + 1) (m.find1 0 j) (m.find1 m.size1 j)
/-- The nested traversal: the outer range is all rows / columns (`find1 (0, …)` changes nothing): banded.hpp:632-643. -/
def traverse (dbg : Bool) (o : Orient) (m : BMat α) (ax : Axis) : M (List (Nat × List (Nat × α))) :=
  match ax with
  | .one => walkIdx (m.rowEls dbg o) (m.size1 + m.size2 + 1) 0 m.size1
  | .two => walkIdx (m.colEls dbg o) (m.size1 + m.size2 + 1) 0 m.size2

end BMat
end Ublas
