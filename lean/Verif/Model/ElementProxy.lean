import Verif.Model.Mapped
import Verif.Model.CompressedVector
import Verif.Model.CompressedMatrix
import Verif.Model.Coo
/-!
# The element proxies of sparse containers: vector_sparse.hpp:52-175, matrix_sparse.hpp:27-152

With the default configuration (detail/config.hpp:287-288) the non-const `operator ()` of a sparse container returns a `sparse_vector_element` / `sparse_matrix_element`, which stores the container
and the index and looks the element up again on every use.  A proxy is therefore modelled by its index; the cached `d_` is always overwritten before it is used, and is not modelled as a
member.
-/
namespace Ublas
variable {σ κ π α : Type}

/-- What a proxy uses of its container: `find_element` (a coordinate container sorts itself meanwhile), reading and writing through the pointer it returned, and `insert_element`; and the index check made
when the proxy is created. Interface: what vector_sparse.hpp:66-80 and matrix_sparse.hpp:42-56 call. -/
structure ElemIface (σ κ π α : Type) where
  create : σ → κ → M Unit
  find : σ → κ → M (σ × Option π)
  load : σ → π → M α
  save : σ → π → α → M σ
  insert : σ → κ → α → M σ

namespace ElemIface
variable (C : ElemIface σ κ π α) (zero : α)

/-- `get_d ()`: vector_sparse.hpp:66-72, matrix_sparse.hpp:42-48. -/
def getD (c : σ) (k : κ) : M (σ × α) := do
  let (c, p) ← C.find c k
  match p with
  | some p => do let x ← C.load c p; .ok (c, x)
  | none => .ok (c, zero)

/-- `set (s)`: vector_sparse.hpp:74-80, matrix_sparse.hpp:50-56. -/
def set (c : σ) (k : κ) (s : α) : M σ := do
  let (c, p) ← C.find c k
  match p with
  | none => C.insert c k s
  | some p => C.save c p s

/-- `ref ()` followed by a use of the reference that replaces `x` by `f x`: vector_sparse.hpp:164-170, matrix_sparse.hpp:141-147.  After an insertion the returned reference is that of the new element,
found here by looking it up. -/
def ref (c : σ) (k : κ) (f : α → α) : M σ := do
  let (c, p) ← C.find c k
  match p with
  | some p => do let x ← C.load c p; C.save c p (f x)
  | none => do
    let c ← C.insert c k zero
    let (c, p) ← C.find c k
    match p with
    | some p => do let x ← C.load c p; C.save c p (f x)
    | none => .error .ub

end ElemIface

/-- Statements written with proxies. Client histories: composes the operations cited in this file; no code of its own in /repo. -/
inductive ElemOp (κ α : Type)
  | assign (k : κ) (d : α)                    -- c (k) = d
  | update (k : κ) (g : α → α → α) (d : α)    -- c (k) += d, -=, *=, /=
  | copy (k l : κ)                            -- c (k) = c (l)
  | combine (k l : κ) (g : α → α → α)         -- c (k) += c (l), ...
  | refer (k : κ) (f : α → α)                 -- ref (c (k)) = f (ref (c (k)))

/-- One statement: vector_sparse.hpp:96-139, 157-170, matrix_sparse.hpp:73-116, 134-147.  The operand `c (l)` is converted to a value (`get_d`) inside the compound assignment, after `get_d` of the
left-hand side. -/
def ElemIface.step (C : ElemIface σ κ π α) (zero : α) (c : σ) : ElemOp κ α → M σ
  | .assign k d => do
      C.create c k
      C.set c k d
  | .update k g d => do
      C.create c k
      let (c, x) ← C.getD zero c k
      C.set c k (g x d)
  | .copy k l => do
      C.create c k
      C.create c l
      let (c, y) ← C.getD zero c l
      C.set c k y
  | .combine k l g => do
      C.create c k
      C.create c l
      let (c, x) ← C.getD zero c k
      let (c, y) ← C.getD zero c l
      C.set c k (g x y)
  | .refer k f => do
      C.create c k
      C.ref zero c k f

/-- A sequence of statements; each comes with the arbitrary contents `J` of memory it may allocate. Client histories: composes the operations cited in this file; no code of its own in /repo. -/
def ElemIface.run {J : Type} (C : J → ElemIface σ κ π α) (zero : α) : σ → List (ElemOp κ α × J) → M σ
  | c, [] => .ok c
  | c, (op, j) :: ops => (C j).step zero c op >>= fun c' => ElemIface.run C zero c' ops

/-- Reading through a proxy: `operator const_reference`: vector_sparse.hpp:157-160, matrix_sparse.hpp:134-137. -/
def ElemIface.read (C : ElemIface σ κ π α) (zero : α) (c : σ) (k : κ) : M α := do
  C.create c k
  let (_, x) ← C.getD zero c k
  .ok x

/-- The comparisons of a proxy with a value: vector_sparse.hpp:144-153, matrix_sparse.hpp:121-130. -/
def ElemIface.eqValue [DecidableEq α] (C : ElemIface σ κ π α) (zero : α) (c : σ) (k : κ) (d : α) : M Bool := do
  let x ← C.read zero c k
  .ok (decide (x = d))

/-! ### The containers -/

/-- mapped_vector: vector_sparse.hpp:405-416, 436-443, 456-463.  The pointer is into the map's node for the key. -/
def MappedVec.elem (I : MapImpl σ α) (dbg : Bool) : ElemIface (MappedVec σ) Nat Nat α where
  create v i := check dbg (i < v.size) .badIndex
  find v i := do
    let r ← I.find v.map i
    .ok (v, r.map fun _ => i)
  load v k := do
    match ← I.find v.map k with
    | some x => .ok x
    | none => .error .ub
  save v k x := do
    let m ← I.setAt v.map k x
    .ok ⟨v.size, m⟩
  insert v i t := v.insertElement I dbg i t

/-- mapped_matrix: matrix_sparse.hpp:376-388, 401-422.  The layout function checks the indices in debug builds. -/
def MappedMat.elem (I : MapImpl σ α) (dbg : Bool) (o : Orient) : ElemIface (MappedMat σ) (Nat × Nat) Nat α where
  create _ _ := .ok ()
  find v p := do
    let r ← v.findElement I dbg o p.1 p.2
    .ok (v, r.map fun _ => o.elementRaw p.1 v.size1 p.2 v.size2)
  load v k := do
    match ← I.find v.map k with
    | some x => .ok x
    | none => .error .ub
  save v k x := do
    let m ← I.setAt v.map k x
    .ok ⟨v.size1, v.size2, m⟩
  insert v p t := v.insertElement I dbg o p.1 p.2 t

/-- compressed_vector: vector_sparse.hpp:991-1001, 1022-1029, 1042-1059.  Raw pointers into `value_data_`. -/
def CVec.elem (dbg : Bool) (IB : Nat) (zero : α) (junk : CVec.Junk α) : ElemIface (CVec α) Nat Nat α where
  create v i := check dbg (i < v.size) .badIndex
  find v i := do
    let r ← v.slot IB i
    .ok (v, r)
  load v n := rd false v.val n
  save v n x := do
    let val ← wr false v.val n x
    .ok { v with val := val }
  insert v i t := do
    let (v, _) ← v.insertElement dbg IB zero junk i t
    .ok v

/-- compressed_matrix: matrix_sparse.hpp:3013-3033, 3045-3093. -/
def CMat.elem (dbg : Bool) (o : Orient) (IB : Nat) (zero : α) (junk : CMat.Junk α) : ElemIface (CMat α) (Nat × Nat) Nat α where
  create _ _ := .ok ()
  find v p := do
    let r ← v.slot o IB p.1 p.2
    .ok (v, r)
  load v n := rd false v.val n
  save v n x := do
    let val ← wr false v.val n x
    .ok { v with val := val }
  insert v p t := do
    let (v, _) ← v.insertElement dbg o IB zero junk p.1 p.2 t
    .ok v

/-- coordinate_vector: vector_sparse.hpp:1656-1671, 1692-1699, 1712-1727. -/
def CoordVec.elem [Add α] (srt : List (Nat × α) → List (Nat × α)) (full dbg : Bool) (IB : Nat) (zero : α) (junk : Coo.Junk Nat α) : ElemIface (CoordVec α) Nat Nat α where
  create v i := check dbg (i < v.size) .badIndex
  find v i := do
    let r ← v.coo.find dbg (CoordVec.par srt full IB v.size) (i + IB)
    .ok (⟨v.size, r.1⟩, r.2)
  load v n := rd false v.coo.val n
  save v n x := do
    let val ← wr false v.coo.val n x
    .ok ⟨v.size, { v.coo with val := val }⟩
  insert v i t := do
    let c ← v.coo.insert dbg (CoordVec.par srt full IB v.size) zero junk (i + IB) t
    .ok ⟨v.size, c⟩

/-- coordinate_matrix: matrix_sparse.hpp:4448-4467, 4479-4511. -/
def CoordMat.elem [Add α] (srt : List ((Nat × Nat) × α) → List ((Nat × Nat) × α)) (full dbg : Bool) (o : Orient) (IB : Nat) (zero : α) (junk : Coo.Junk (Nat × Nat) α) :
    ElemIface (CoordMat α) (Nat × Nat) Nat α where
  create _ _ := .ok ()
  find v p := do
    let r ← v.coo.find dbg (CoordMat.par srt full v.size1 v.size2) (CoordMat.key o IB p)
    .ok (⟨v.size1, v.size2, r.1⟩, r.2)
  load v n := rd false v.coo.val n
  save v n x := do
    let val ← wr false v.coo.val n x
    .ok ⟨v.size1, v.size2, { v.coo with val := val }⟩
  insert v p t := do
    let c ← v.coo.insert dbg (CoordMat.par srt full v.size1 v.size2) zero junk (CoordMat.key o IB p) t
    .ok ⟨v.size1, v.size2, c⟩

end Ublas
