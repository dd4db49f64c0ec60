import Verif.Basic
/-!
# The vector a client has in mind

A list of elements, some of which may be unspecified (`none`): those a non-preserving resize or a construction without a value leaves behind.  Nothing here knows of
arrays or buffers.
-/
namespace Ublas

/-- What a client may do with one vector `v`. -/
inductive VecOp (α : Type)
  | set (i : Nat) (t : α)              -- v (i) = t, v [i] = t, *v.find_element (i) = t, v.insert_element (i, t)
  | modify (i : Nat) (f : α → α)       -- v (i) += ..., v [i] *= ...
  | put (i : Nat) (t : α)              -- *(v.begin () + i) = t
  | erase (i : Nat)                    -- v.erase_element (i)
  | clear                              -- v.clear ()
  | resize (n : Nat) (preserve : Bool) -- v.resize (n, preserve)
  | scale (f : α → α)                  -- v *= t, v /= t
  | load (w : List α)                  -- v = w for another container w
  | zip (f : α → α → α) (w : List α)   -- v += w, v -= w, v.plus_assign (w), v.minus_assign (w) for another container w
  | zipSelf (f : α → α → α)            -- v += v, v -= v

/-- How a vector comes into being. -/
inductive VecCtor (α : Type)
  | sized (n : Nat)                    -- vector (n); vector () is vector (0), bounded_vector<T, N> () is (N)
  | filled (n : Nat) (t : α)           -- vector (n, t)

namespace VecSpec
variable {α : Type}

def start : VecCtor α → List (Option α)
  | .sized n => List.replicate n none
  | .filled n t => List.replicate n (some t)

/-- The documentation of `vector (size)`: "By default, its elements are initialized to 0." -/
def documentedStart (zero : α) : VecCtor α → List (Option α)
  | .sized n => List.replicate n (some zero)
  | .filled n t => List.replicate n (some t)

def step (zero : α) (l : List (Option α)) : VecOp α → List (Option α)
  | .set i t => l.set i (some t)
  | .modify i f => l.modify i (Option.map f)
  | .put i t => l.set i (some t)
  | .erase i => l.set i (some zero)
  | .clear => l.map fun _ => some zero
  | .resize n true => l.take n ++ List.replicate (n - l.length) (some zero)
  | .resize n false => List.replicate n none
  | .scale f => l.map (Option.map f)
  | .load w => w.map some
  | .zip f w => List.zipWith (fun x y => x.map fun x => f x y) l w
  | .zipSelf f => l.map (Option.map fun x => f x x)

/-- Every element has been given a value. -/
def Specified (l : List (Option α)) : Prop := ∀ i : Nat, i < l.length → ∃ x : α, l[i]? = some (some x)

/-- What the caller must respect: indices below the size, sizes the storage can hold, no arithmetic on unspecified elements. -/
def legal (fits : Nat → Prop) (l : List (Option α)) : VecOp α → Prop
  | .set i _ => i < l.length
  | .modify i _ => ∃ x : α, l[i]? = some (some x)
  | .put i _ => i < l.length
  | .erase i => i < l.length
  | .clear => True
  | .resize n _ => fits n
  | .scale _ => Specified l
  | .load w => fits w.length
  | .zip _ w => w.length = l.length ∧ Specified l
  | .zipSelf _ => Specified l

/-- `E` is the vector `l`, whatever the unspecified elements are. -/
def Shows (E : List α) (l : List (Option α)) : Prop :=
  E.length = l.length ∧ ∀ (i : Nat) (x : α), l[i]? = some (some x) → E[i]? = some x

end VecSpec
end Ublas
