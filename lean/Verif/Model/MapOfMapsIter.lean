import Verif.Model.MapOfMaps
import Verif.Model.ProxyIter
/-!
# Iterators of mapped_vector_of_mapped_vector (matrix_sparse.hpp:1737-2718), default storage `map_std` of `map_std`

`const_iterator1`, `iterator1`, `const_iterator2` and `iterator2` are the same text up to the exchange of the two indices; they are modelled once, parameterised
by the axis they move along.  A `std::map` is the list of its elements in key order; an iterator into it is a position, its length being `end ()`.  Incrementing or
dereferencing `end ()` and decrementing `begin ()` is `ub`.  Reads only.
-/
namespace Ublas
variable {α : Type}

/-- Data members: 2125-2129 (`it_` is an iterator into the line at place `line` of the outer map). -/
structure MapMapIter where
  rank : Nat
  i : Nat
  j : Nat
  itv : Nat
  line : Nat
  it : Nat
  deriving DecidableEq

/-- The default storage. matrix_sparse.hpp:1424-1425 with the default template arguments of fwd.hpp. -/
abbrev MapMapStd (α : Type) := MapMap (List (Nat × List (Nat × α)))

namespace MapMap
open CMat (along setAlong)

/-- `lower_bound (k)` of a `std::map`. C++ standard library, not code of /repo. -/
def lower {β : Type} (m : List (Nat × β)) (k : Nat) : Nat := m.countP fun x => decide (x.1 < k)

/-- `*it`.  matrix_sparse.hpp:2008-2013, 2218-2224 (`operator *`). -/
def entry {β : Type} (m : List (Nat × β)) (n : Nat) : M (Nat × β) := rd false m n

/-- `find1 (rank, i, j, direction)` (1739-1835) for axis one, `find2` (1837-1933) for axis two; `fwd` is `direction > 0`.  `fuel` bounds the rounds of `for (;;)`. -/
def findIt (o : Orient) (v : MapMapStd α) (ax : Axis) (fwd : Bool) (rank : Nat) : (fuel i j : Nat) → M MapMapIter
  | 0, _, _ => .error .diverge
  | fuel + 1, i, j =>
      let itv := lower v.map (o.indexM i j)
      if itv = v.map.length then do
        -- `(*(-- itv)).second.end ()`
        if itv = 0 then .error .ub else do
          let e ← entry v.map (itv - 1)
          .ok ⟨rank, i, j, itv, itv - 1, e.2.length⟩
      else do
        let e ← entry v.map itv
        let it := lower e.2 (o.indexm i j)
        if rank = 0 then do
          let m ← (if it = e.2.length then .ok (o.sizem v.size1 v.size2) else do
            let x ← entry e.2 it
            .ok x.1 : M Nat)
          let k := match ax with | .one => o.indexM e.1 m | .two => o.indexm e.1 m
          .ok ⟨rank, (setAlong ax i j k).1, (setAlong ax i j k).2, itv, itv, it⟩
        else do
          let hit ← (if it = e.2.length then .ok false else do
            let x ← entry e.2 it
            .ok (decide (x.1 = o.indexm i j)) : M Bool)
          if hit = true then .ok ⟨rank, i, j, itv, itv, it⟩ else
            match fwd, o.fast ax with
            | true, true =>
                if it = e.2.length then .ok ⟨rank, i, j, itv, itv, it⟩ else do
                  let x ← entry e.2 it
                  findIt o v ax fwd rank fuel (setAlong ax i j x.1).1 (setAlong ax i j x.1).2
            | true, false =>
                if along ax i j ≥ along ax v.size1 v.size2 then .ok ⟨rank, i, j, itv, itv, it⟩ else
                  findIt o v ax fwd rank fuel (setAlong ax i j (along ax i j + 1)).1 (setAlong ax i j (along ax i j + 1)).2
            | false, true =>
                if it = 0 then .ok ⟨rank, i, j, itv, itv, it⟩ else do
                  let x ← entry e.2 (it - 1)
                  findIt o v ax fwd rank fuel (setAlong ax i j x.1).1 (setAlong ax i j x.1).2
            | false, false =>
                if along ax i j = 0 then .ok ⟨rank, i, j, itv, itv, it⟩ else
                  findIt o v ax fwd rank fuel (setAlong ax i j (along ax i j - 1)).1 (setAlong ax i j (along ax i j - 1)).2

/-- `find1` / `find2` as called (1740: the check that the map is not empty). matrix_sparse.hpp:1739-1935. -/
def lookup (dbg : Bool) (o : Orient) (v : MapMapStd α) (ax : Axis) (fwd : Bool) (rank i j : Nat) : M MapMapIter := do
  check dbg (v.map.length ≠ 0) .internalLogic
  findIt o v ax fwd rank (v.size1 + v.size2 + 2) i j

/-- `operator ==`: 2114-2122. -/
def iterEq (p q : MapMapIter) : Bool :=
  if p.rank = 1 ∨ q.rank = 1 then decide (p.line = q.line ∧ p.it = q.it) else decide (p.i = q.i ∧ p.j = q.j)

variable (dbg : Bool) (o : Orient) (v : MapMapStd α)

/-- The debug check of the index moved along: `*this != find1 (0, size1 (), j_)`, 2082; `find2 (0, i_, size2 ())` for iterator2. matrix_sparse.hpp:2082, 2265, 2482, 2665. -/
def notEnd (ax : Axis) (p : MapMapIter) : M Unit :=
  if dbg = true then do
    let e ← v.lookup dbg o ax true 0 (setAlong ax p.i p.j (along ax v.size1 v.size2)).1 (setAlong ax p.i p.j (along ax v.size1 v.size2)).2
    check dbg (iterEq p e = false) .badIndex
  else .ok ()

/-- `((*itv_).first, (*it_).first)`.  matrix_sparse.hpp:2081-2100. -/
def keys (p : MapMapIter) : M (Nat × Nat) := do
  let x ← entry v.map p.itv
  let l ← entry v.map p.line
  let y ← entry l.2 p.it
  .ok (x.1, y.1)

/-- `index1 ()`: 2081-2089 (iterator1; iterator2 has no end check). -/
def index1 (ax : Axis) (p : MapMapIter) : M Nat := do
  let _ ← (if ax = .one then v.notEnd dbg o ax p else .ok () : M Unit)
  if p.rank = 1 then do
    let k ← v.keys p
    check dbg (o.indexM k.1 k.2 < v.size1) .badIndex
    .ok (o.indexM k.1 k.2)
  else .ok p.i

/-- `index2 ()`: 2091-2098 (iterator1 has no end check; iterator2 has). -/
def index2 (ax : Axis) (p : MapMapIter) : M Nat := do
  let _ ← (if ax = .two then v.notEnd dbg o ax p else .ok () : M Unit)
  if p.rank = 1 then do
    let k ← v.keys p
    check dbg (o.indexm k.1 k.2 < v.size2) .badIndex
    .ok (o.indexm k.1 k.2)
  else .ok p.j

/-- The index moved along. matrix_sparse.hpp:2081-2089, 2481-2489. -/
def indexAlong (ax : Axis) (p : MapMapIter) : M Nat :=
  match ax with
  | .one => v.index1 dbg o ax p
  | .two => v.index2 dbg o ax p

/-- The other index. matrix_sparse.hpp:2091-2099, 2472-2480. -/
def indexAcross (ax : Axis) (p : MapMapIter) : M Nat :=
  match ax with
  | .one => v.index2 dbg o ax p
  | .two => v.index1 dbg o ax p

/-- `operator ++`: 1961-1981. -/
def next (ax : Axis) (p : MapMapIter) : M MapMapIter :=
  if p.rank = 1 ∧ o.fast ax = true then do
    let l ← entry v.map p.line
    if p.it ≥ l.2.length then .error .ub else .ok { p with it := p.it + 1 }
  else if p.rank = 0 then do
    if p.itv ≥ v.map.length then .error .ub else do
      let e ← entry v.map (p.itv + 1)
      .ok { p with itv := p.itv + 1, i := (setAlong ax p.i p.j e.1).1, j := (setAlong ax p.i p.j e.1).2 }
  else do
    let k ← v.indexAlong dbg o ax p
    let i := (setAlong ax p.i p.j (k + 1)).1
    let j := (setAlong ax p.i p.j (k + 1)).2
    if p.itv ≥ v.map.length then .error .ub else do
      let e ← v.lookup dbg o ax true 0 (setAlong ax 0 0 (along ax v.size1 v.size2)).1 (setAlong ax 0 0 (along ax v.size1 v.size2)).2
      if p.itv + 1 = e.itv then v.lookup dbg o ax true p.rank i j else do
        let l ← entry v.map (p.itv + 1)
        let q : MapMapIter := { p with i := i, j := j, itv := p.itv + 1, line := p.itv + 1, it := 0 }
        if l.2.length = 0 then v.lookup dbg o ax true p.rank i j else do
          let c ← v.indexAcross dbg o ax q
          if c ≠ along ax.other i j then v.lookup dbg o ax true p.rank i j else .ok q

/-- `operator --`: 1983-2004; `index1 () - 1` is of type `size_type`. -/
def prev (ax : Axis) (p : MapMapIter) : M MapMapIter :=
  if p.rank = 1 ∧ o.fast ax = true then
    (if p.it = 0 then .error .ub else .ok { p with it := p.it - 1 })
  else if p.rank = 0 then do
    if p.itv = 0 then .error .ub else do
      let e ← entry v.map (p.itv - 1)
      .ok { p with itv := p.itv - 1, i := (setAlong ax p.i p.j e.1).1, j := (setAlong ax p.i p.j e.1).2 }
  else do
    let k ← v.indexAlong dbg o ax p
    let i := (setAlong ax p.i p.j (u64 ((k : Int) - 1))).1
    let j := (setAlong ax p.i p.j (u64 ((k : Int) - 1))).2
    if p.itv = 0 then .error .ub else do
      let e ← v.lookup dbg o ax true 0 (setAlong ax 0 0 (along ax v.size1 v.size2)).1 (setAlong ax 0 0 (along ax v.size1 v.size2)).2
      if p.itv - 1 = e.itv then v.lookup dbg o ax false p.rank i j else do
        let l ← entry v.map (p.itv - 1)
        let q : MapMapIter := { p with i := i, j := j, itv := p.itv - 1, line := p.itv - 1, it := 0 }
        if l.2.length = 0 then v.lookup dbg o ax false p.rank i j else do
          let c ← v.indexAcross dbg o ax q
          if c ≠ along ax.other i j then v.lookup dbg o ax false p.rank i j else .ok q

/-- `operator *`: 2008-2016. -/
def deref (zero : α) (ax : Axis) (p : MapMapIter) : M α := do
  let _ ← (if dbg = true then do
      let i ← v.index1 dbg o ax p
      check dbg (i < v.size1) .badIndex
      let j ← v.index2 dbg o ax p
      check dbg (j < v.size2) .badIndex
    else .ok () : M Unit)
  if p.rank = 1 then do
    let l ← entry v.map p.line
    let x ← entry l.2 p.it
    .ok x.2
  else v.get stdMapImpl stdMapImpl o zero p.i p.j

end MapMap

/-- `begin ()` of an iterator1 is `find2 (1, index1 (), 0)` (2023-2026), `end ()` is `find2 (1, index1 (), size2 ())` (2038-2041). -/
def MIter.mapOfMaps (dbg : Bool) (o : Orient) (zero : α) (v : MapMapStd α) : MIter α where
  size1 := v.size1
  size2 := v.size2
  Pos := MapMapIter
  find ax rank i j := v.lookup dbg o ax true rank i j
  next ax p := v.next dbg o ax p
  prev ax p := v.prev dbg o ax p
  eq _ p q := .ok (MapMap.iterEq p q)
  index1 ax p := v.index1 dbg o ax p
  index2 ax p := v.index2 dbg o ax p
  deref ax p := v.deref dbg o zero ax p
  innerBegin ax p := do
    let k ← v.indexAlong dbg o ax p
    v.lookup dbg o ax.other true 1 (CMat.setAlong ax 0 0 k).1 (CMat.setAlong ax 0 0 k).2
  innerEnd ax p := do
    let k ← v.indexAlong dbg o ax p
    v.lookup dbg o ax.other true 1 (CMat.setAlong ax v.size1 v.size2 k).1 (CMat.setAlong ax v.size1 v.size2 k).2
  at_ i j := v.get stdMapImpl stdMapImpl o zero i j

end Ublas
