import Verif.Model.Layout
/-!
# `matrix<T, L, A>` (matrix.hpp:77-1208): dense matrix over an unbounded array
-/
namespace Ublas

/-- State of a dense `matrix`: size1_, size2_, data_ (matrix.hpp:1205-1207). -/
structure Dense (α : Type) where
  size1 : Nat
  size2 : Nat
  data : List α
  deriving DecidableEq, Repr

namespace Dense
variable {α : Type}

/-- `matrix (size1, size2)`: matrix.hpp:131-134.  The array constructor leaves trivially constructible
elements uninitialised (storage.hpp:66-85), so the contents are an arbitrary function `junk`. -/
def mk' (junk : Nat → α) (o : Orient) (s1 s2 : Nat) : Dense α :=
  ⟨s1, s2, (List.range (o.storageSize s1 s2)).map junk⟩

/-- `matrix (size1, size2, init)`: matrix.hpp:142-146 (every element equals `init`). -/
def filled (o : Orient) (s1 s2 : Nat) (init : α) : Dense α :=
  ⟨s1, s2, List.replicate (o.storageSize s1 s2) init⟩

/-- `operator () (i, j) const`: matrix.hpp:237-239. -/
def get (dbg : Bool) (o : Orient) (m : Dense α) (i j : Nat) : M α := do
  let k ← o.element dbg i m.size1 j m.size2
  rd dbg m.data k

/-- `at_element (i, j) = t` / `insert_element (i, j, t)`: matrix.hpp:247-249, 294-296. -/
def set (dbg : Bool) (o : Orient) (m : Dense α) (i j : Nat) (t : α) : M (Dense α) := do
  let k ← o.element dbg i m.size1 j m.size2
  let d ← wr dbg m.data k t
  return { m with data := d }

/-- `erase_element (i, j)`: matrix.hpp:305-307. -/
def erase (dbg : Bool) (o : Orient) (zero : α) (m : Dense α) (i j : Nat) : M (Dense α) :=
  set dbg o m i j zero

/-- `clear ()`: matrix.hpp:316-318. -/
def clear (zero : α) (m : Dense α) : Dense α :=
  { m with data := m.data.map fun _ => zero }

/-- Body of the inner loop of `matrix_resize_preserve`: matrix.hpp:65-71. -/
def resizeBody (dbg : Bool) (o : Orient) (m : Dense α) (s1 s2 : Nat) (major minor : Nat)
    (d : List α) : M (List α) := do
  let i1 := o.indexM major minor
  let i2 := o.indexm major minor
  let kt ← o.element dbg i1 s1 i2 s2
  let km ← o.element dbg i1 m.size1 i2 m.size2
  let v ← rd dbg m.data km
  wr dbg d kt v

/-- `matrix_resize_preserve (m, temporary)`: matrix.hpp:50-74.  `temporary` is the freshly built
matrix of the new size; the final `assign_temporary` swaps it in (matrix.hpp:346-349). -/
def resizePreserve (dbg : Bool) (o : Orient) (m tmp : Dense α) : M (Dense α) := do
  let s1min := min tmp.size1 m.size1
  let s2min := min tmp.size2 m.size2
  let d ← loop (fun major d => loop (fun minor d => resizeBody dbg o m tmp.size1 tmp.size2 major minor d)
    (o.sizem s1min s2min) d) (o.sizeM s1min s2min) tmp.data
  return ⟨tmp.size1, tmp.size2, d⟩

/-- `data ().resize (n)` without preservation: unbounded_array::resize (storage.hpp:207-210 →
resize_internal with preserve = false, 143-205): same size keeps the array, otherwise fresh storage. -/
def arrayResize (junk : Nat → α) (d : List α) (n : Nat) : List α :=
  if n = d.length then d else (List.range n).map junk

/-- `resize (size1, size2, preserve)`: matrix.hpp:217-227. -/
def resize (dbg : Bool) (o : Orient) (junk : Nat → α) (m : Dense α) (s1 s2 : Nat) (preserve : Bool) :
    M (Dense α) :=
  if preserve then resizePreserve dbg o m (mk' junk o s1 s2)
  else .ok ⟨s1, s2, arrayResize junk m.data (o.storageSize s1 s2)⟩

/-- Representation invariant of every constructed matrix (matrix.hpp:122-146). -/
def WF (m : Dense α) : Prop := m.data.length = m.size1 * m.size2

/-- The mutating operations of the public interface considered in histories. Client histories: composes the operations cited in this file; no code of its own in /repo. -/
inductive Op (α : Type)
  | insert (i j : Nat) (t : α)
  | erase (i j : Nat)
  | clear
  | resize (s1 s2 : Nat) (preserve : Bool)

/-- One public operation on a matrix. Client histories: composes the operations cited in this file; no code of its own in /repo. -/
def step (dbg : Bool) (o : Orient) (zero : α) (junk : Nat → α) (m : Dense α) : Op α → M (Dense α)
  | .insert i j t => set dbg o m i j t
  | .erase i j => erase dbg o zero m i j
  | .clear => .ok (clear zero m)
  | .resize s1 s2 p => resize dbg o junk m s1 s2 p

/-- A history of operations; `junk` is what each reallocation finds in memory. Client histories: composes the operations cited in this file; no code of its own in /repo. -/
def run (dbg : Bool) (o : Orient) (zero : α) : Dense α → List (Op α × (Nat → α)) → M (Dense α)
  | m, [] => .ok m
  | m, (op, junk) :: ops => step dbg o zero junk m op >>= fun m' => run dbg o zero m' ops

end Dense
end Ublas
