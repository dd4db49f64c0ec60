import Verif.Model.ProxyIter
/-!
# Orientation-generic access: `size<tag>`, `num_rows`, `num_columns`, `begin<tag>`, `end<tag>` (operation/*.hpp) and `trans`
-/
namespace Ublas
variable {R : Type}

/-- `row_major_tag`, `column_major_tag`, `unknown_orientation_tag`: fwd.hpp:121-123. -/
inductive Ori | row | col | unknown
  deriving DecidableEq, Repr

/-- The orientation category of a layout: functional.hpp:1403, 1581. -/
def Orient.ori : Orient → Ori
  | .row => .row
  | .col => .col

/-- `orientation_category` of `matrix_unary2` (`trans (e)`, `herm (e)`): matrix_expression.hpp:1487-1493. -/
def Ori.swap : Ori → Ori
  | .row => .col
  | .col => .row
  | .unknown => .unknown

/-- The dimension tags: tags.hpp:23-32. -/
inductive DimTag | major | minor | leading
  deriving DecidableEq, Repr

/-- Iterators of `trans (e)`: `matrix_unary2` with `scalar_identity`, matrix_expression.hpp:1505-1511 (`size1`, `size2`), 1523-1525
(`operator ()`), 1572-1588 (`find1`, `find2`), 1618-1626 (`++`, `--`), 1645-1647 (`*`), 1658-1660, 1672-1674 (`begin ()`, `end ()` of an
iterator1 go through `find2`), 1714-1720 (`index1`, `index2`), 1732-1735 (`==`), 1789-1797, 1816-1818, 1829-1831, 1843-1845, 1884-1890, 1902-1905
(iterator2).  An iterator1 of `trans (e)` holds an iterator2 of `e`. -/
def MIter.trans (X : MIter R) : MIter R where
  size1 := X.size2
  size2 := X.size1
  Pos := X.Pos
  find ax rank i j := X.find ax.other rank j i
  next ax p := X.next ax.other p
  prev ax p := X.prev ax.other p
  eq ax p q := X.eq ax.other p q
  index1 ax p := X.index2 ax.other p
  index2 ax p := X.index1 ax.other p
  deref ax p := X.deref ax.other p
  innerBegin ax p := match ax with
    | .one => do
      let k ← X.index2 .two p
      X.find .one 1 0 k
    | .two => do
      let k ← X.index1 .one p
      X.find .two 1 k 0
  innerEnd ax p := match ax with
    | .one => do
      let k ← X.index2 .two p
      X.find .one 1 X.size1 k
    | .two => do
      let k ← X.index1 .one p
      X.find .two 1 k X.size2
  at_ i j := X.at_ j i

/-- A matrix expression with its orientation category. matrix_expression.hpp:1487-1493 (orientation_category) and the members of matrix_expression. -/
structure OMat (R : Type) where
  ori : Ori
  it : MIter R

namespace OMat

/-- A dense `matrix<T, L>`: matrix.hpp:116 (`orientation_category` of `L`). -/
def dense (dbg : Bool) (o : Orient) (m : Dense R) : OMat R := ⟨o.ori, .dense dbg o m⟩

/-- `trans (e)`: matrix_expression.hpp:1984-2006. -/
def trans (e : OMat R) : OMat R := ⟨e.ori.swap, e.it.trans⟩

/-- Proxies keep the orientation of what they select from: matrix_proxy.hpp:2430, 3422, 4468. -/
def view (dbg : Bool) (e : OMat R) (p : MRef) : OMat R := ⟨e.ori, e.it.view dbg p⟩

/-- `begin1 ()`, `begin2 ()`: `find1 (0, 0, 0)`, `find2 (0, 0, 0)`: matrix.hpp:648-650, 971-973, matrix_expression.hpp:1748-1750, 1919-1921. -/
def begin1 (e : OMat R) : M e.it.Pos := e.it.find .one 0 0 0
/-- `begin2 ()` of a dense matrix: matrix.hpp:971-973, 1121-1123. -/
def begin2 (e : OMat R) : M e.it.Pos := e.it.find .two 0 0 0
/-- `end1 ()`, `end2 ()`: `find1 (0, size1 (), 0)`, `find2 (0, 0, size2 ())`: matrix.hpp:656-658, 979-981, matrix_expression.hpp:1756-1758,
1927-1929. -/
def end1 (e : OMat R) : M e.it.Pos := e.it.find .one 0 e.it.size1 0
/-- `end2 ()` of a dense matrix: matrix.hpp:979-981, 1125-1127. -/
def end2 (e : OMat R) : M e.it.Pos := e.it.find .two 0 0 e.it.size2

/-- `num_rows (e)`: operation/num_rows.hpp:36-39. -/
def numRows (e : OMat R) : Nat := e.it.size1
/-- `num_columns (e)`: operation/num_columns.hpp:36-39. -/
def numColumns (e : OMat R) : Nat := e.it.size2

/-- `size<Dim> (e)`: operation/size.hpp:106-144, 320-325; there is no specialisation for another `Dim` (`none`: does not compile). -/
def sizeDim (e : OMat R) : (dim : Nat) → Option Nat
  | 1 => some e.it.size1
  | 2 => some e.it.size2
  | _ => none

/-- `size<tag> (e)`: operation/size.hpp:147-264 and 267-273 (unknown orientation is treated as row-major), 336-345. -/
def sizeTag (e : OMat R) : DimTag → Nat
  | .major => match e.ori with | .row => e.it.size1 | .col => e.it.size2 | .unknown => e.it.size1
  | .minor => match e.ori with | .row => e.it.size2 | .col => e.it.size1 | .unknown => e.it.size2
  | .leading => match e.ori with | .row => e.it.size2 | .col => e.it.size1 | .unknown => e.it.size2

/-- Which iterator type `iterator_type<E, tag>` is (traits/iterator_type.hpp:44-75, 105-121; traits/const_iterator_type.hpp likewise); no
specialisation for the leading dimension or an unknown orientation. -/
def iterAxis (e : OMat R) : DimTag → Option Axis
  | .major => match e.ori with | .row => some .one | .col => some .two | .unknown => none
  | .minor => match e.ori with | .row => some .two | .col => some .one | .unknown => none
  | .leading => none

/-- `begin<tag> (e)`: operation/begin.hpp:77-217, 259-281. -/
def beginTag (e : OMat R) : DimTag → Option (M e.it.Pos)
  | .major => match e.ori with | .row => some e.begin1 | .col => some e.begin2 | .unknown => none
  | .minor => match e.ori with | .row => some e.begin2 | .col => some e.begin1 | .unknown => none
  | .leading => none

/-- `end<tag> (e)`: operation/end.hpp:78-217, 259-281. -/
def endTag (e : OMat R) : DimTag → Option (M e.it.Pos)
  | .major => match e.ori with | .row => some e.end1 | .col => some e.end2 | .unknown => none
  | .minor => match e.ori with | .row => some e.end2 | .col => some e.end1 | .unknown => none
  | .leading => none

/-- The generic loop (operation/begin.hpp:284-313, operation/end.hpp:284-313 for the inner `begin (it)`, `end (it)`):
`for (it = begin<tag> (e); it != end<tag> (e); ++ it) for (it2 = begin (it); it2 != end (it); ++ it2) record (it2.index1 (), it2.index2 (), *it2)`.
`none`: the program does not compile. -/
def traverse (e : OMat R) (tag : DimTag) : Option (M (List (Nat × List ((Nat × Nat) × R)))) :=
  match e.iterAxis tag, e.beginTag tag, e.endTag tag with
  | some ax, some b, some f => some do
      let b ← b
      let f ← f
      e.it.walkOuter ax f (e.it.len ax + 1) b
  | _, _, _ => none

end OMat
end Ublas
