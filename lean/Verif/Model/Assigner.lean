import Verif.Model.Operation
import Verif.Model.CompressedMatrix
/-!
# Comma assignment: assignment.hpp

`v <<= a, b, …` and `A <<= a, b, …` create an assigner that holds a pointer to the target and a cursor; every further comma item is handed to `operator,`.  Operands that are vector or matrix expressions
do not read the target.  Cursors are size_t: relative moves wrap around modulo 2^64, `++` is not wrapped (an element has just been written at that index).
-/
namespace Ublas.Assigner
variable {σ ι R : Type}

/-- The fill policies: assignment.hpp:609-721. -/
inductive Fill
  | assign | plus | minus | pushBack | insert
  deriving DecidableEq, Repr

/-- What a fill policy does with the target. Machinery: the four operations used by the policies of assignment.hpp:609-721. -/
abbrev Target (σ ι R : Type) := Fill → σ → ι → R → M σ

/-- `e () (i) = v`, `e () (i) += v`, `e () (i) -= v`, `e ().push_back (i, v)`, `e ().insert_element (i, v)`: assignment.hpp:619-719. -/
def Target.ofAcc [Add R] [Sub R] (A : Acc σ ι R) (push ins : σ → ι → R → M σ) : Target σ ι R
  | .assign, s, i, x => A.set s i x
  | .plus, s, i, x => A.add s i x
  | .minus, s, i, x => do
    let y ← A.get s i
    A.set s i (y - x)
  | .pushBack, s, i, x => push s i x
  | .insert, s, i, x => ins s i x

/-- A compressed_vector as target. vector_sparse.hpp:1013-1031 (`operator () (i) =`), 1042-1057 (`insert_element`), 1187-1200 (`push_back`), called from assignment.hpp:619-719. -/
def Target.compressedVector [Add R] [Sub R] (dbg : Bool) (IB : Nat) (zero : R) (junk : CVec.Junk R) : Target (CVec R) Nat R
  | .assign, v, i, x => v.modify dbg IB zero junk i fun _ => x
  | .plus, v, i, x => v.modify dbg IB zero junk i (· + x)
  | .minus, v, i, x => v.modify dbg IB zero junk i (· - x)
  | .pushBack, v, i, x => v.pushBack dbg IB zero junk i x
  | .insert, v, i, x => do let r ← v.insertElement dbg IB zero junk i x; .ok r.1

/-- A compressed_matrix as target. matrix_sparse.hpp:3045-3058 (`operator () (i, j) =`), 3063-3100 (`insert_element`), 3242-3265 (`push_back`), called from assignment.hpp:628, 650, 672, 695, 716. -/
def Target.compressedMatrix [Add R] [Sub R] (dbg : Bool) (o : Orient) (IB : Nat) (zero : R) (junk : CMat.Junk R) : Target (CMat R) (Nat × Nat) R
  | .assign, v, p, x => v.modify dbg o IB zero junk p.1 p.2 fun _ => x
  | .plus, v, p, x => v.modify dbg o IB zero junk p.1 p.2 (· + x)
  | .minus, v, p, x => v.modify dbg o IB zero junk p.1 p.2 (· - x)
  | .pushBack, v, p, x => v.pushBack dbg o IB zero junk p.1 p.2 x
  | .insert, v, p, x => do let r ← v.insertElement dbg o IB zero junk p.1 p.2 x; .ok r.1

/-- `k += d` and `k = k + d` for a size_t `k` and a signed `d`: assignment.hpp:135, 181, 332-333, 385-386. -/
def shift (k : Nat) (d : Int) : Nat := (((k : Int) + d) % 2 ^ 64).toNat

/-- What can stand between the commas of a vector assignment: a value, a vector expression (size and element access), `move_to (k)`, `move (d)`, a fill policy. The overloads of `operator,`: assignment.hpp:962-987. -/
inductive VItem (R : Type)
  | val (x : R)
  | vec (n : Nat) (at_ : Nat → M R)
  | moveTo (k : Nat)
  | move (d : Int)
  | fill (f : Fill)

/-- `vector_expression_assigner`: the fill policy is a type parameter; assignment.hpp:929-999. -/
structure VAsg (σ : Type) where
  target : σ
  fill : Fill
  i : Nat

/-- `apply (val)`: assignment.hpp:991-994. -/
def VAsg.apply (T : Target σ Nat R) (a : VAsg σ) (x : R) : M (VAsg σ) := do
  let s ← T a.fill a.target a.i x
  .ok { a with target := s, i := a.i + 1 }

/-- `operator, (…)`: assignment.hpp:963-987, with the manipulators 54, 94, 135, 178-182. -/
def VAsg.comma (T : Target σ Nat R) (a : VAsg σ) : VItem R → M (VAsg σ)
  | .val x => a.apply T x
  | .vec n at_ => loop (fun k a => do
      let x ← at_ k
      a.apply T x) n a
  | .moveTo k => .ok { a with i := k }
  | .move d => .ok { a with i := shift a.i d }
  | .fill f => .ok { a with fill := f }

/-- `v <<= item, item, …`: assignment.hpp:936-960 and 1052-1095; the first item goes through the same `operator,` (or only selects the fill policy) with the cursor at 0. -/
def vassign (T : Target σ Nat R) (s : σ) (items : List (VItem R)) : M σ := do
  let a ← items.foldlM (VAsg.comma T) ⟨s, .assign, 0⟩
  .ok a.target

/-- `by_row_policy` / `by_column_policy` with `wrap` or `no_wrap`: assignment.hpp:733-879. -/
structure Trav where
  byRow : Bool
  wrap : Bool
  deriving DecidableEq, Repr

/-- `Wrap::apply1 (s, i1, i2)`: assignment.hpp:745-748, 768-775. -/
def apply1 (wrap : Bool) (s i1 i2 : Nat) : Nat × Nat :=
  if wrap then (if i2 ≥ s then (i1 + 1, 0) else (i1, i2)) else (i1, i2)

/-- `Wrap::apply2 (s1, s2, i1, i2)`: assignment.hpp:753-756, 780-785. -/
def apply2 (wrap : Bool) (s1 s2 i1 i2 : Nat) : Nat × Nat :=
  if wrap then (if i2 ≥ s2 then (i1, 0) else (i1 - s1, i2)) else (i1, i2)

/-- `apply_wrap (e, i, j)`: assignment.hpp:827-831, 873-877; the target has `r` rows and `c` columns. -/
def Trav.applyWrap (t : Trav) (r c i j : Nat) : Nat × Nat :=
  if t.byRow then apply1 t.wrap c i j
  else let p := apply1 t.wrap r j i; (p.2, p.1)

/-- `advance (i, j)`: assignment.hpp:806, 852. -/
def Trav.advance (t : Trav) (i j : Nat) : Nat × Nat := if t.byRow then (i, j + 1) else (i + 1, j)

/-- Cursor in the target and in the block. `i`, `j` of the assigner: assignment.hpp:1205; `k`, `l` of the block: 1195-1200. -/
structure Pos where
  i : Nat
  j : Nat
  k : Nat
  l : Nat

/-- `next (e, me, i, j, i0, j0, k, l)`: assignment.hpp:808-825, 854-871; the block has `s1` rows and `s2` columns. -/
def Trav.next (t : Trav) (s1 s2 r c i0 j0 : Nat) (p : Pos) : Bool × Pos :=
  if t.byRow then
    let l := p.l + 1
    let j := p.j + 1
    if l ≥ s2 then
      let k := p.k + 1
      let i := p.i + 1
      if k ≥ s1 then
        let q := apply2 t.wrap s1 c i (j0 + s2)
        (false, ⟨q.1, q.2, k, 0⟩)
      else (true, ⟨i, j0, k, 0⟩)
    else (true, ⟨p.i, j, p.k, l⟩)
  else
    let k := p.k + 1
    let i := p.i + 1
    if k ≥ s1 then
      let l := p.l + 1
      let j := p.j + 1
      if l ≥ s2 then
        let q := apply2 t.wrap s2 r j (i0 + s1)
        (false, ⟨q.2, q.1, 0, l⟩)
      else (true, ⟨i0, j, 0, l⟩)
    else (true, ⟨i, p.j, k, p.l⟩)

/-- What can stand between the commas of a matrix assignment: a value, a vector expression, a matrix expression (sizes and element access), the manipulators `move_to (i, j)`, `move (d, e)`,
`begin1 ()`, `begin2 ()`, `next_row ()`, `next_column ()`, a fill policy, a traverse policy. The overloads of `operator,`: assignment.hpp:1142-1180. -/
inductive MItem (R : Type)
  | val (x : R)
  | vec (n : Nat) (at_ : Nat → M R)
  | mat (s1 s2 : Nat) (at_ : Nat → Nat → M R)
  | moveTo (i j : Nat)
  | move (d e : Int)
  | begin1
  | begin2
  | nextRow
  | nextColumn
  | fill (f : Fill)
  | traverse (t : Trav)

/-- `matrix_expression_assigner`: the policies are type parameters; assignment.hpp:1105-1206. -/
structure MAsg (σ : Type) where
  target : σ
  fill : Fill
  trav : Trav
  i : Nat
  j : Nat

/-- `operator, (val)`: assignment.hpp:1142-1145, 1185-1189. -/
def MAsg.value (T : Target σ (Nat × Nat) R) (r c : Nat) (a : MAsg σ) (x : R) : M (MAsg σ) := do
  let p := a.trav.applyWrap r c a.i a.j
  let s ← T a.fill a.target p x
  let q := a.trav.advance p.1 p.2
  .ok { a with target := s, i := q.1, j := q.2 }

/-- The `while` loop of `apply (nme)`: assignment.hpp:1198-1199. -/
def MAsg.blockLoop (T : Target σ (Nat × Nat) R) (r c s1 s2 : Nat) (at_ : Nat → Nat → M R) (f : Fill) (t : Trav) (bi bj : Nat) : (fuel : Nat) → σ → Pos → M (σ × Pos)
  | 0, _, _ => .error .diverge
  | fuel + 1, s, p => do
    let q := t.next s1 s2 r c bi bj p
    if q.1 then
      let x ← at_ q.2.k q.2.l
      let s ← T f s (q.2.i, q.2.j) x
      blockLoop T r c s1 s2 at_ f t bi bj fuel s q.2
    else .ok (s, q.2)

/-- `apply (nme)`: assignment.hpp:1191-1201. -/
def MAsg.block (T : Target σ (Nat × Nat) R) (r c : Nat) (a : MAsg σ) (s1 s2 : Nat) (at_ : Nat → Nat → M R) : M (MAsg σ) := do
  let x ← at_ 0 0
  let s ← T a.fill a.target (a.i, a.j) x
  let q ← blockLoop T r c s1 s2 at_ a.fill a.trav a.i a.j (s1 * s2 + s1 + s2 + 1) s ⟨a.i, a.j, 0, 0⟩
  .ok { a with target := q.1, i := q.2.i, j := q.2.j }

/-- `operator, (…)`: assignment.hpp:1142-1181, with the manipulators 229-232, 282-285, 331-334, 382-387, 434, 478, 522-525, 566-569. -/
def MAsg.comma (T : Target σ (Nat × Nat) R) (r c : Nat) (a : MAsg σ) : MItem R → M (MAsg σ)
  | .val x => a.value T r c x
  | .vec n at_ => loop (fun k a => do
      let x ← at_ k
      a.value T r c x) n a
  | .mat s1 s2 at_ => a.block T r c s1 s2 at_
  | .moveTo i j => .ok { a with i := i, j := j }
  | .move d e => .ok { a with i := shift a.i d, j := shift a.j e }
  | .begin1 => .ok { a with i := 0 }
  | .begin2 => .ok { a with j := 0 }
  | .nextRow => .ok { a with i := a.i + 1, j := 0 }
  | .nextColumn => .ok { a with i := 0, j := a.j + 1 }
  | .fill f => .ok { a with fill := f }
  | .traverse t => let p := a.trav.applyWrap r c a.i a.j; .ok { a with trav := t, i := p.1, j := p.2 }

/-- `A <<= item, item, …` for a target of `r` rows and `c` columns: assignment.hpp:1111-1139 and 1215-1284; `DEFAULT_TRAVERSE_POLICY` is by_row_policy<wrap> (880-890). -/
def massign (T : Target σ (Nat × Nat) R) (r c : Nat) (s : σ) (items : List (MItem R)) : M σ := do
  let a ← items.foldlM (MAsg.comma T r c) ⟨s, .assign, ⟨true, true⟩, 0, 0⟩
  .ok a.target

end Ublas.Assigner
