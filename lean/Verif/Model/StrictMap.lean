import Verif.Spec.StrictMap
import Verif.Model.MapArray
/-!
# map_array with BOOST_UBLAS_STRICT_MAP_ARRAY (storage_sparse.hpp:69-196, 231-235, 331-342)

`operator []` returns a proxy that keeps a copy of the element and writes it back when it is destroyed, at the end of the full expression if it is a temporary.
The order in which the two proxies of a statement come into being, or in which the parameters of `swap` are destroyed, is a parameter.  Not modelled: the constructor from an
iterator (a pointer into the array, dangling once the array grows), `operator []` of an element that is itself an array, the comparisons.
-/
namespace Ublas
variable {α : Type}

/-- The members of `sparse_storage_element`: storage_sparse.hpp:191-194; `it_` is null throughout. -/
structure SElem (α : Type) where
  i : Nat
  d : α
  dirty : Bool

namespace SElem

/-- The constructor from an index: storage_sparse.hpp:88-95 (`operator []`: 340). -/
def create (dbg : Bool) (zero : α) (m : MapArr α) (i : Nat) : M (MapArr α × SElem α) := do
  let it ← m.find i
  let (m, it) ← (if it = m.size then do
      let (m, it, _) ← m.insert dbg zero i zero
      .ok (m, it)
    else .ok (m, it) : M (MapArr α × Nat))
  let d ← m.value it
  .ok (m, ⟨i, d, false⟩)

/-- The destructor: storage_sparse.hpp:97-104. -/
def destroy (dbg : Bool) (m : MapArr α) (p : SElem α) : M (MapArr α) :=
  if p.dirty then do
    let it ← m.find p.i
    check dbg (it ≠ m.size) .internalLogic
    m.assign it p.d
  else .ok m

/-- `operator = (d)` for a value: storage_sparse.hpp:122-128. -/
def set (p : SElem α) (d : α) : SElem α := { p with d := d, dirty := true }
/-- `operator = (p)` for another reference: storage_sparse.hpp:115-120. -/
def copyFrom (p q : SElem α) : SElem α := { p with d := q.d, dirty := true }
/-- `operator +=, -=, *=, /=`: storage_sparse.hpp:129-156. -/
def apply (p : SElem α) (g : α → α → α) (d : α) : SElem α := { p with d := g p.d d, dirty := true }

/-- Two proxies come into being, `m [k]` first if `first`. Order of evaluation: a parameter; no code of its own in /repo. -/
def two (dbg : Bool) (zero : α) (first : Bool) (m : MapArr α) (k l : Nat) : M (MapArr α × SElem α × SElem α) :=
  if first then do
    let (m, p) ← create dbg zero m k
    let (m, q) ← create dbg zero m l
    .ok (m, p, q)
  else do
    let (m, q) ← create dbg zero m l
    let (m, p) ← create dbg zero m k
    .ok (m, p, q)

/-- They are destroyed in the reverse order. The language's rule; no code of its own in /repo. -/
def endTwo (dbg : Bool) (first : Bool) (m : MapArr α) (p q : SElem α) : M (MapArr α) :=
  if first then do
    let m ← destroy dbg m q
    destroy dbg m p
  else do
    let m ← destroy dbg m p
    destroy dbg m q

/-- `swap (p)`, whose parameter is a copy: storage_sparse.hpp:176-183; the copy `p` ends with the call. -/
def swapWith (dbg : Bool) (m : MapArr α) (self q : SElem α) : M (MapArr α × SElem α) := do
  let p : SElem α := q
  let self' : SElem α := ⟨self.i, p.d, true⟩
  let p : SElem α := ⟨p.i, self.d, true⟩
  let m ← destroy dbg m p
  .ok (m, self')

/-- One statement; `first` decides unspecified orders of evaluation. Client histories: composes the operations cited in this file; no code of its own in /repo. -/
def step (dbg : Bool) (zero : α) (first : Bool) (m : MapArr α) : RefStmt α → M (MapArr α)
  | .read k => do
    let (m, p) ← create dbg zero m k
    destroy dbg m p
  | .assign k d => do
    let (m, p) ← create dbg zero m k
    destroy dbg m (p.set d)
  | .update k g d => do
    let (m, p) ← create dbg zero m k
    destroy dbg m (p.apply g d)
  | .copy k l => do
    let (m, p, q) ← two dbg zero first m k l
    endTwo dbg first m (p.copyFrom q) q
  | .combine k l g => do
    let (m, p, q) ← two dbg zero first m k l
    endTwo dbg first m (p.apply g q.d) q
  | .exchange k l => do
    let (m, p, q) ← two dbg zero first m k l
    let (m, p) ← swapWith dbg m p q
    endTwo dbg first m p q
  | .chain k l d => do
    let (m, p, q) ← two dbg zero first m k l
    let q := q.set d
    endTwo dbg first m (p.copyFrom q) q
  | .nest k l g d => do
    let (m, p, q) ← two dbg zero first m k l
    let q := q.set d
    endTwo dbg first m (p.apply g q.d) q
  | .plain o => MapArr.step dbg zero m o

/-- A program; `os` pairs each statement with its order of evaluation. Client histories; no code of its own in /repo. -/
def run (dbg : Bool) (zero : α) : MapArr α → List (RefStmt α × Bool) → M (MapArr α)
  | m, [] => .ok m
  | m, o :: os => do
    let m ← step dbg zero o.2 m o.1
    run dbg zero m os

end SElem
end Ublas
