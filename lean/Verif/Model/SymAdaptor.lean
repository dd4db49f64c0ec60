import Verif.Model.Packed
/-!
# `symmetric_adaptor` (symmetric.hpp:983-2300) and `hermitian_adaptor` (hermitian.hpp:1228-2520)

The two class templates are the same text except that the hermitian one conjugates the element when it comes from the mirrored
place; they are modelled once, with the conjugation `cj` as a parameter (`id` for `symmetric_adaptor`).

The adapted matrix is a dense square matrix, given by its elements `a i j`.  Its iterators are represented by the place (row, column)
they stand on (the offset arithmetic behind them is modelled in `Model/DenseIter` and `Model/Machine`); a place outside the
matrix can be formed but not read.  Only the triangular types `lower` and `upper` are considered.
-/
namespace Ublas.SymAd
open Packed
variable {R : Type}

/-- The two triangular types: `lower` (functional.hpp:1881) or `upper` (2092). -/
def tri (upper : Bool) : Tri := ⟨.lower, upper⟩

/-- The elements of the adapted matrix, as a function of the place; reading outside it is a failed check of the base in a debug
build and undefined behaviour otherwise. The adapted dense matrix: matrix.hpp:237-260, 450-480, 516-1130. -/
def base (dbg : Bool) (n : Nat) (a : Nat → Nat → R) (i j : Int) : M R :=
  if 0 ≤ i ∧ i < n ∧ 0 ≤ j ∧ j < n then .ok (a i.toNat j.toNat) else .error (if dbg then .badIndex else .ub)

/-- `operator () (i, j) const`: symmetric.hpp:1069-1076, hermitian.hpp:1318-1328. -/
def read (dbg upper : Bool) (cj : R → R) (n : Nat) (a : Nat → Nat → R) (i j : Nat) : M R := do
  check dbg (i < n) .badIndex
  check dbg (j < n) .badIndex
  if other (tri upper) i j then base dbg n a i j
  else do
    let x ← base dbg n a j i
    return cj x

/-- Storing into the adapted matrix. The adapted dense matrix: matrix.hpp:237-260, 450-480, 516-1130. -/
def store (dbg : Bool) (n : Nat) (a : Nat → Nat → R) (i j : Nat) (x : R) : M (Nat → Nat → R) :=
  if i < n ∧ j < n then .ok (fun p q => if p = i ∧ q = j then x else a p q)
  else .error (if dbg then .badIndex else .ub)

/-- `sa (i, j) = x` through the reference of `operator () (i, j)`: symmetric.hpp:1078-1085. -/
def writeSym (dbg upper : Bool) (n : Nat) (a : Nat → Nat → R) (i j : Nat) (x : R) : M (Nat → Nat → R) := do
  check dbg (i < n) .badIndex
  check dbg (j < n) .badIndex
  if other (tri upper) i j then store dbg n a i j x else store dbg n a j i x

/-- `ha.insert_element (i, j, x)`: hermitian.hpp:1348-1358. -/
def insertHerm (dbg upper : Bool) (cj : R → R) (n : Nat) (a : Nat → Nat → R) (i j : Nat) (x : R) : M (Nat → Nat → R) := do
  check dbg (i < n) .badIndex
  check dbg (j < n) .badIndex
  if other (tri upper) i j then store dbg n a i j x else store dbg n a j i (cj x)

/-- A hermitian_adaptor as the container of its element proxies (default configuration, BOOST_UBLAS_STRICT_HERMITIAN): the non-const `operator ()` (hermitian.hpp:1330-1345) reads as the const one. -/
def hcont (dbg upper : Bool) (cj : R → R) (n : Nat) : HCont (Nat → Nat → R) R where
  load := fun a i j => read dbg upper cj n a i j
  insert := fun a i j x => insertHerm dbg upper cj n a i j x

/-- `ha (i, j) = x` through the proxy. hermitian.hpp:64-68 with 59-62, 1340-1358. -/
def writeHerm (dbg upper : Bool) (cj : R → R) (n : Nat) (a : Nat → Nat → R) (i j : Nat) (x : R) : M (Nat → Nat → R) :=
  (hcont dbg upper cj n).exec true a (.value i j (fun _ x => x) x)

/-- `ha (i, j) = x` through the reference of `operator () (i, j)`: hermitian.hpp:1330-1339 (with BOOST_UBLAS_NO_ELEMENT_PROXIES:
a place outside the stored triangle raises external_logic in every build). -/
def writeHermLoose (dbg upper : Bool) (n : Nat) (a : Nat → Nat → R) (i j : Nat) (x : R) : M (Nat → Nat → R) := do
  check dbg (i < n) .badIndex
  check dbg (j < n) .badIndex
  if other (tri upper) i j then store dbg n a i j x else .error .externalLogic

/-- An iterator of the adapted matrix: the place it stands on. The adapted dense matrix: matrix.hpp:237-260, 450-480, 516-1130. -/
structure Sub where
  row : Int
  col : Int
  deriving DecidableEq, Repr

/-- `it1 += k` on an iterator1 of the adapted matrix. The adapted dense matrix: matrix.hpp:237-260, 450-480, 516-1130. -/
def Sub.down (s : Sub) (k : Int) : Sub := ⟨s.row + k, s.col⟩
/-- `it2 += k` on an iterator2 of the adapted matrix. The adapted dense matrix: matrix.hpp:237-260, 450-480, 516-1130. -/
def Sub.right (s : Sub) (k : Int) : Sub := ⟨s.row, s.col + k⟩

/-- Offset of a place in the storage of an n × n matrix: functional.hpp:1433-1448 (row), 1611-1626 (column). -/
def Sub.offset (o : Orient) (n : Nat) (s : Sub) : Int :=
  match o with
  | .row => s.row * n + s.col
  | .col => s.row + s.col * n

/-- `x - y` of two iterator1 of the adapted matrix: matrix.hpp:530-533 with `distance_i`, functional.hpp:1450-1457, 1628-1635. -/
def Sub.diff1 (o : Orient) (n : Nat) (x y : Sub) : Int :=
  match o with
  | .row => (x.offset o n - y.offset o n).tdiv n
  | .col => x.offset o n - y.offset o n

/-- `x - y` of two iterator2 of the adapted matrix: matrix.hpp:853-856 with `distance_j`. -/
def Sub.diff2 (o : Orient) (n : Nat) (x y : Sub) : Int :=
  match o with
  | .row => x.offset o n - y.offset o n
  | .col => (x.offset o n - y.offset o n).tdiv n

/-- Data members of `const_iterator1` and `const_iterator2`: symmetric.hpp:1585-1593, 2068-2076.  `begin`, `fin`, `cur` are the
`int`s `begin_`, `end_`, `current_` (they only take the values 0 and 1 once constructed from a container). -/
structure It where
  begin : Nat
  fin : Nat
  cur : Nat
  b1 : Sub
  e1 : Sub
  c1 : Sub
  b2 : Sub
  e2 : Sub
  c2 : Sub
  deriving DecidableEq, Repr

/-- The constructor from a container: symmetric.hpp:1291-1308, 1774-1791; hermitian.hpp:1599-1616, 2089-2106. -/
def It.make (dbg : Bool) (begin fin : Nat) (b1 e1 b2 e2 : Sub) : M It := do
  let cur := if begin = 0 ∧ b1 = e1 then 1 else begin
  let cur := if cur = 1 ∧ b2 = e2 then 0 else cur
  let cur := if (cur = 0 ∧ b1 = e1) ∨ (cur = 1 ∧ b2 = e2) then fin else cur
  check dbg (cur = fin ∨ (cur = 0 ∧ b1 ≠ e1) ∨ (cur = 1 ∧ b2 ≠ e2)) .internalLogic
  return ⟨begin, fin, cur, b1, e1, b1, b2, e2, b2⟩

/-- `find1 (rank, i, j) const`: symmetric.hpp:1206-1228, hermitian.hpp:1508-1530. -/
def find1 (dbg upper : Bool) (n : Nat) (i j : Nat) : M It :=
  let t := tri upper
  if other t i j then
    if other t n j then It.make dbg 0 0 ⟨i, j⟩ ⟨n, j⟩ ⟨n, n⟩ ⟨n, n⟩
    else It.make dbg 0 1 ⟨i, j⟩ ⟨j, j⟩ ⟨j, j⟩ ⟨j, n⟩
  else
    if other t n j then It.make dbg 1 0 ⟨j, j⟩ ⟨n, j⟩ ⟨j, i⟩ ⟨j, j⟩
    else It.make dbg 1 1 ⟨n, n⟩ ⟨n, n⟩ ⟨j, i⟩ ⟨j, n⟩

/-- `find2 (rank, i, j) const`: symmetric.hpp:1236-1258, hermitian.hpp:1540-1562. -/
def find2 (dbg upper : Bool) (n : Nat) (i j : Nat) : M It :=
  let t := tri upper
  if other t i j then
    if other t i n then It.make dbg 1 1 ⟨n, n⟩ ⟨n, n⟩ ⟨i, j⟩ ⟨i, n⟩
    else It.make dbg 1 0 ⟨i, i⟩ ⟨n, i⟩ ⟨i, j⟩ ⟨i, i⟩
  else
    if other t i n then It.make dbg 0 1 ⟨j, i⟩ ⟨i, i⟩ ⟨i, i⟩ ⟨i, n⟩
    else It.make dbg 0 0 ⟨j, i⟩ ⟨n, i⟩ ⟨n, n⟩ ⟨n, n⟩

/-- `operator ++`: symmetric.hpp:1324-1342, 1807-1825; hermitian.hpp:1632-1650, 2122-2140. -/
def It.next (dbg : Bool) (p : It) : M It :=
  if p.cur = 0 then do
    check dbg (p.c1 ≠ p.e1) .internalLogic
    let c1 := p.c1.down 1
    return if c1 = p.e1 ∧ p.fin = 1 then { p with c1 := c1, c2 := p.b2, cur := 1 } else { p with c1 := c1 }
  else do
    check dbg (p.c2 ≠ p.e2) .internalLogic
    let c2 := p.c2.right 1
    return if c2 = p.e2 ∧ p.fin = 0 then { p with c2 := c2, c1 := p.b1, cur := 0 } else { p with c2 := c2 }

/-- `operator --`: symmetric.hpp:1344-1366, 1827-1849; hermitian.hpp:1652-1674, 2142-2164. -/
def It.prev (dbg : Bool) (p : It) : M It :=
  if p.cur = 0 then
    if p.c1 = p.b1 ∧ p.begin = 1 then do
      check dbg (p.e2 ≠ p.b2) .internalLogic
      return { p with c2 := p.e2.right (-1), cur := 1 }
    else return { p with c1 := p.c1.down (-1) }
  else
    if p.c2 = p.b2 ∧ p.begin = 0 then do
      check dbg (p.e1 ≠ p.b1) .internalLogic
      return { p with c1 := p.e1.down (-1), cur := 0 }
    else return { p with c2 := p.c2.right (-1) }

/-- `operator += (k)`: symmetric.hpp:1368-1395, 1851-1878; hermitian.hpp:1676-1703, 2166-2193.  The unsigned `d` is used only in
additions and subtractions, where it acts as the signed number it was converted from. -/
def It.plus (dbg : Bool) (o : Orient) (n : Nat) (p : It) (k : Int) : M It :=
  if p.cur = 0 then do
    let d := min k (p.e1.diff1 o n p.c1)
    let c1 := p.c1.down d
    let k := k - d
    if k > 0 ∨ (p.fin = 1 ∧ c1 = p.e1) then do
      check dbg (p.fin = 1) .externalLogic
      let d := min k (p.e2.diff2 o n p.b2)
      check dbg (k - d = 0) .externalLogic
      return { p with c1 := c1, c2 := p.b2.right d, cur := 1 }
    else do
      check dbg (k = 0) .externalLogic
      return { p with c1 := c1 }
  else do
    let d := min k (p.e2.diff2 o n p.c2)
    let c2 := p.c2.right d
    let k := k - d
    if k > 0 ∨ (p.fin = 0 ∧ c2 = p.e2) then do
      check dbg (p.fin = 0) .externalLogic
      let d := min k (p.e1.diff1 o n p.b1)
      check dbg (k - d = 0) .externalLogic
      return { p with c2 := c2, c1 := p.b1.down d, cur := 0 }
    else do
      check dbg (k = 0) .externalLogic
      return { p with c2 := c2 }

/-- `operator -= (k)`: symmetric.hpp:1397-1424, 1880-1907; hermitian.hpp:1705-1732, 2195-2222. -/
def It.minus (dbg : Bool) (o : Orient) (n : Nat) (p : It) (k : Int) : M It :=
  if p.cur = 0 then do
    let d := min k (p.c1.diff1 o n p.b1)
    let c1 := p.c1.down (-d)
    let k := k - d
    if k > 0 then do
      check dbg (p.fin = 1) .externalLogic
      let d := min k (p.e2.diff2 o n p.b2)
      check dbg (k - d = 0) .externalLogic
      return { p with c1 := c1, c2 := p.e2.right (-d), cur := 1 }
    else do
      check dbg (k = 0) .externalLogic
      return { p with c1 := c1 }
  else do
    let d := min k (p.c2.diff2 o n p.b2)
    let c2 := p.c2.right (-d)
    let k := k - d
    if k > 0 then do
      check dbg (p.fin = 0) .externalLogic
      let d := min k (p.e1.diff1 o n p.b1)
      check dbg (k - d = 0) .externalLogic
      return { p with c2 := c2, c1 := p.e1.down (-d), cur := 0 }
    else do
      check dbg (k = 0) .externalLogic
      return { p with c2 := c2 }

/-- `x - y`: symmetric.hpp:1426-1450, 1909-1933; hermitian.hpp:1734-1757, 2224-2247. -/
def It.diff (dbg : Bool) (o : Orient) (n : Nat) (x y : It) : M Int := do
  check dbg (x.fin = y.fin) .internalLogic
  if x.cur = 0 ∧ y.cur = 0 then return x.c1.diff1 o n y.c1
  else if x.cur = 0 ∧ y.cur = 1 then
    if x.fin = 1 ∧ y.fin = 1 then return x.c1.diff1 o n y.e1 + y.b2.diff2 o n y.c2
    else return x.c1.diff1 o n y.b1 + y.e2.diff2 o n y.c2
  else if x.cur = 1 ∧ y.cur = 0 then
    if x.fin = 1 ∧ y.fin = 1 then return x.c2.diff2 o n y.b2 + y.e1.diff1 o n y.c1
    else return x.c2.diff2 o n y.e2 + y.b1.diff1 o n y.c1
  else return x.c2.diff2 o n y.c2

/-- `operator ==`: symmetric.hpp:1570-1577, 2053-2060; hermitian.hpp:1883-1890, 2373-2380. -/
def It.eq (dbg : Bool) (x y : It) : M Bool := do
  check dbg (x.fin = y.fin) .internalLogic
  return decide ((x.cur = 0 ∧ y.cur = 0 ∧ x.c1 = y.c1) ∨ (x.cur = 1 ∧ y.cur = 1 ∧ x.c2 = y.c2))

/-- Which of the two iterator classes: `true` is const_iterator1, `false` const_iterator2. symmetric.hpp:1269-1500, 1752-1990; hermitian.hpp:1575-1820, 2065-2310. -/
abbrev One := Bool

/-- `(index1 (), index2 ())`: symmetric.hpp:1530-1550 (const_iterator1: the second segment is mirrored), 2013-2033
(const_iterator2: the first segment is mirrored); hermitian.hpp:1843-1863, 2333-2353. -/
def It.index (dbg : Bool) (one : One) (p : It) : M (Int × Int) :=
  if p.cur = 0 then do
    check dbg (p.c1 ≠ p.e1) .internalLogic
    return if one then (p.c1.row, p.c1.col) else (p.c1.col, p.c1.row)
  else do
    check dbg (p.c2 ≠ p.e2) .internalLogic
    return if one then (p.c2.col, p.c2.row) else (p.c2.row, p.c2.col)

/-- `other` at a place that may lie outside the matrix (only formed by `operator *` of the hermitian iterators). hermitian.hpp:1761, 2251 (`operator *`). -/
def otherI (upper : Bool) (i j : Int) : Bool := if upper then i ≤ j else j ≤ i

/-- `operator *`: symmetric.hpp:1454-1463, 1937-1946; hermitian.hpp:1761-1776, 2251-2266 (conjugated unless
`triangular_type::other (index1 (), index2 ())`). -/
def It.deref (dbg upper : Bool) (cj : R → R) (n : Nat) (a : Nat → Nat → R) (one : One) (p : It) : M R := do
  let ij ← p.index dbg one
  let x ← (if p.cur = 0 then base dbg n a p.c1.row p.c1.col else base dbg n a p.c2.row p.c2.col : M R)
  return if otherI upper ij.1 ij.2 then x else cj x

/-- `for (; it != e; ++ it) visit (it)`, collecting what `visit` returns. A client's loop; the iterator operations are cited at their definitions. -/
def walk {β : Type} (dbg : Bool) (visit : It → M β) (e : It) : (fuel : Nat) → It → M (List β)
  | 0, _ => .error .diverge
  | fuel + 1, p => do
    let q ← p.eq dbg e
    if q then return []
    else do
      let x ← visit p
      let p ← p.next dbg
      let xs ← walk dbg visit e fuel p
      return x :: xs

/-- `for (r = rbegin; r != rend; ++ r) visit (r)` with `rbegin = reverse (e)`, `rend = reverse (b)`: `*r` and `r.index ()` look at
the place before the held iterator (iterator.hpp:395-640, 660-900: `It tmp = base (); return * -- tmp`). -/
def walkBack {β : Type} (dbg : Bool) (visit : It → M β) (b : It) : (fuel : Nat) → It → M (List β)
  | 0, _ => .error .diverge
  | fuel + 1, p => do
    let q ← p.eq dbg b
    if q then return []
    else do
      let p ← p.prev dbg
      let x ← visit p
      let xs ← walkBack dbg visit b fuel p
      return x :: xs

/-- What a loop body sees: the two indices and the element. What a client sees: `*it`, `index1 ()`, `index2 ()`. -/
def see (dbg upper : Bool) (cj : R → R) (n : Nat) (a : Nat → Nat → R) (one : One) (p : It) : M ((Int × Int) × R) := do
  let ij ← p.index dbg one
  let x ← p.deref dbg upper cj n a one
  return (ij, x)

/-- The inner begin of line `l`: `it2.begin ()` is `find1 (1, 0, index2 ())` (symmetric.hpp:1957-1959), `it1.begin ()` is
`find2 (1, index1 (), 0)` (1474-1476).  `one` says which class the inner iterator has. -/
def lineBegin (dbg upper : Bool) (n : Nat) (one : One) (l : Nat) : M It :=
  if one then find1 dbg upper n 0 l else find2 dbg upper n l 0
/-- The inner end of line `l`: symmetric.hpp:1971-1973, 1488-1490. -/
def lineEnd (dbg upper : Bool) (n : Nat) (one : One) (l : Nat) : M It :=
  if one then find1 dbg upper n n l else find2 dbg upper n l n

/-- The inner loop over line `l`. A client's loop; the iterator operations are cited at their definitions. -/
def line (dbg upper : Bool) (cj : R → R) (n : Nat) (a : Nat → Nat → R) (one : One) (fuel : Nat) (l : Nat) :
    M (List ((Int × Int) × R)) := do
  let b ← lineBegin dbg upper n one l
  let e ← lineEnd dbg upper n one l
  walk dbg (see dbg upper cj n a one) e fuel b

/-- The inner loop over line `l` with reverse iterators. A client's loop; the iterator operations are cited at their definitions. -/
def lineBack (dbg upper : Bool) (cj : R → R) (n : Nat) (a : Nat → Nat → R) (one : One) (fuel : Nat) (l : Nat) :
    M (List ((Int × Int) × R)) := do
  let b ← lineBegin dbg upper n one l
  let e ← lineEnd dbg upper n one l
  walkBack dbg (see dbg upper cj n a one) b fuel e

/-- The nested loop.  The outer iterator has class `one` and runs from `begin1 ()` = `find1 (0, 0, 0)` to `end1 ()` =
`find1 (0, size1 (), 0)` (symmetric.hpp:1598-1608; begin2, end2 2081-2091), that is along line 0 of its class. -/
def traverse (dbg upper : Bool) (cj : R → R) (n : Nat) (a : Nat → Nat → R) (one : One) (fuel : Nat) :
    M (List (List ((Int × Int) × R))) := do
  let b ← lineBegin dbg upper n one 0
  let e ← lineEnd dbg upper n one 0
  walk dbg (fun p => do
    let ij ← p.index dbg one
    line dbg upper cj n a (!one) fuel (if one then ij.1 else ij.2).toNat) e fuel b

end Ublas.SymAd
