import Verif.Basic
/-!
# The matrix a client has in mind

A table with a number of rows, a number of columns and an element, possibly unspecified (`none`), at every place.  Nothing here knows of arrays, layouts or addresses.
-/
namespace Ublas

/-- A table; `val i j` is meant for `i < rows`, `j < cols`. -/
structure Tab (α : Type) where
  rows : Nat
  cols : Nat
  val : Nat → Nat → Option α

/-- Another container: every element has a value. -/
structure Grid (α : Type) where
  rows : Nat
  cols : Nat
  val : Nat → Nat → α

/-- What a client may do with one matrix `m`. -/
inductive TabOp (α : Type)
  | set (i j : Nat) (t : α)               -- m (i, j) = t, m.at_element (i, j) = t, m.insert_element (i, j, t)
  | modify (i j : Nat) (f : α → α)        -- m (i, j) += ...
  | putRow (i j : Nat) (t : α)            -- *((m.begin1 () + i).begin () + j) = t
  | putColumn (i j : Nat) (t : α)         -- *((m.begin2 () + j).begin () + i) = t
  | erase (i j : Nat)                     -- m.erase_element (i, j)
  | clear                                 -- m.clear ()
  | resize (r c : Nat) (preserve : Bool)  -- m.resize (r, c, preserve)
  | scale (f : α → α)                     -- m *= t, m /= t
  | load (w : Grid α)                     -- m = w for another container w
  | zip (f : α → α → α) (w : Grid α)      -- m += w, m -= w, m.plus_assign (w), m.minus_assign (w)
  | zipSelf (f : α → α → α)               -- m += m, m -= m

/-- How a matrix comes into being. -/
inductive TabCtor (α : Type)
  | sized (r c : Nat)                     -- matrix (r, c); matrix () is (0, 0), bounded_matrix<T, M, N> () is (M, N)
  | filled (r c : Nat) (t : α)            -- matrix (r, c, t)

namespace TabSpec
variable {α : Type}

def start : TabCtor α → Tab α
  | .sized r c => ⟨r, c, fun _ _ => none⟩
  | .filled r c t => ⟨r, c, fun _ _ => some t⟩

/-- Element (i, j) becomes `x`, all others stay. -/
def upd (s : Tab α) (i j : Nat) (x : Option α) : Tab α := ⟨s.rows, s.cols, fun a b => if a = i ∧ b = j then x else s.val a b⟩

def step (zero : α) (s : Tab α) : TabOp α → Tab α
  | .set i j t => upd s i j (some t)
  | .modify i j f => upd s i j ((s.val i j).map f)
  | .putRow i j t => upd s i j (some t)
  | .putColumn i j t => upd s i j (some t)
  | .erase i j => upd s i j (some zero)
  | .clear => ⟨s.rows, s.cols, fun _ _ => some zero⟩
  | .resize r c true => ⟨r, c, fun a b => if a < s.rows ∧ b < s.cols then s.val a b else none⟩
  | .resize r c false => ⟨r, c, fun _ _ => none⟩
  | .scale f => ⟨s.rows, s.cols, fun a b => (s.val a b).map f⟩
  | .load w => ⟨w.rows, w.cols, fun a b => some (w.val a b)⟩
  | .zip f w => ⟨s.rows, s.cols, fun a b => (s.val a b).map fun x => f x (w.val a b)⟩
  | .zipSelf f => ⟨s.rows, s.cols, fun a b => (s.val a b).map fun x => f x x⟩

/-- Every element has been given a value. -/
def Specified (s : Tab α) : Prop := ∀ i j : Nat, i < s.rows → j < s.cols → ∃ x : α, s.val i j = some x

/-- What the caller must respect: indices in range, numbers of elements the storage can hold, no arithmetic on unspecified elements. -/
def legal (fits : Nat → Prop) (s : Tab α) : TabOp α → Prop
  | .set i j _ => i < s.rows ∧ j < s.cols
  | .modify i j _ => i < s.rows ∧ j < s.cols ∧ ∃ x : α, s.val i j = some x
  | .putRow i j _ => i < s.rows ∧ j < s.cols
  | .putColumn i j _ => i < s.rows ∧ j < s.cols
  | .erase i j => i < s.rows ∧ j < s.cols
  | .clear => True
  | .resize r c _ => fits (r * c)
  | .scale _ => Specified s
  | .load w => fits (w.rows * w.cols)
  | .zip _ w => w.rows = s.rows ∧ w.cols = s.cols ∧ Specified s
  | .zipSelf _ => Specified s

/-- The lines `L` are the table read by rows: as many lines as rows, of as many elements as columns, the right ones where they are specified. -/
def ByRows (L : List (List α)) (s : Tab α) : Prop :=
  L.length = s.rows ∧ ∀ i, i < s.rows → ∃ r, L[i]? = some r ∧ r.length = s.cols ∧ ∀ (j : Nat) (x : α), j < s.cols → s.val i j = some x → r[j]? = some x

/-- The same by columns. -/
def ByColumns (L : List (List α)) (s : Tab α) : Prop := ByRows L ⟨s.cols, s.rows, fun j i => s.val i j⟩

end TabSpec
end Ublas
