import Verif.Basic
/-!
# Tensors: extents, strides, storage, element access

Extents and strides are lists of natural numbers (`size_t` arithmetic is not wrapped: products of extents are assumed to fit).
Exceptions of the standard library (`std::length_error`, `std::out_of_range`, ...) are all `Fault.stdException`.
-/
namespace Ublas.Tens

/-- layout::first_order / layout::last_order: tensor/layout.hpp. -/
inductive Layout
  | first | last
  deriving DecidableEq, Repr

/-- `is_valid (e)`: tensor/extents/extents_functions.hpp:51-54. -/
def isValid (e : List Nat) : Bool := e.all fun a => decide (0 < a)

/-- `is_scalar (e)`: extents_functions.hpp:58-61. -/
def isScalar (e : List Nat) : Bool := decide (0 < e.length) && e.all fun a => a == 1

/-- `is_vector (e)`: extents_functions.hpp:65-78. -/
def isVector (e : List Nat) : Bool :=
  match e with
  | [] => false
  | [a] => decide (1 ≤ a)
  | a :: b :: t => (decide (1 ≤ a) || decide (1 ≤ b)) && (a == 1 || b == 1) && t.all fun x => x == 1

/-- The constructors of `extents<>` and `extents<N>` from their elements: extents_dynamic_size.hpp:57-64, 75-82; extents_static_size.hpp:56-63, 66-80. -/
def mkExtents (e : List Nat) : M (List Nat) := if isValid e then .ok e else .error .stdException

/-- `product (e)`: extents_functions.hpp:109-116. -/
def product (e : List Nat) : Nat := if e = [] then 0 else e.foldl (· * ·) 1

/-- `std::transform (begin (e), end (e) - 1, s.begin (), s.begin () + 1, std::multiplies<> {})`: extents_functions.hpp:160, 177. -/
def cumulate (e s : List Nat) : M (List Nat) :=
  loop (fun k s => do
    let x ← rd false e k
    let y ← rd false s k
    wr false s (k + 1) (x * y)) (e.length - 1) s

/-- `to_strides (e, L {})`: extents_functions.hpp:151-165, 167-182; the reverse iterators of line 162 walk over the reversed sequences. -/
def toStrides (L : Layout) (e : List Nat) : M (List Nat) :=
  let s := List.replicate e.length 1
  if e = [] ∨ isVector e = true ∨ isScalar e = true then .ok s
  else match L with
    | .first => cumulate e s
    | .last => do
      let t ← cumulate e.reverse s.reverse
      .ok t.reverse

/-- `to_index (w, i)`: std::inner_product over the elements of `i`; tensor/index_functions.hpp:34-37, 40-43, 54-59. -/
def toIndex (w i : List Nat) : M Nat :=
  loop (fun k acc => do
    let x ← rd false i k
    let y ← rd false w k
    .ok (acc + x * y)) i.length 0

/-- The data members of `tensor_core`: tensor/tensor/tensor_dynamic.hpp:451-454. -/
structure Tensor (R : Type) where
  extents : List Nat
  strides : List Nat
  data : List R
  deriving DecidableEq, Repr

variable {R : Type}

/-- `tensor_core (extents_type e, value_type i)`, and with `i = V {}` also `tensor_core (extents_type e)`: tensor_dynamic.hpp:109-115, 123-129 (`e` has been built by a constructor of extents). -/
def create (L : Layout) (e : List Nat) (i : R) : M (Tensor R) := do
  let e ← mkExtents e
  let w ← toStrides L e
  .ok ⟨e, w, List.replicate (product e) i⟩

/-- `tensor_core (extents_type e, container_type a)`: tensor_dynamic.hpp:138-149. -/
def createFrom (L : Layout) (e : List Nat) (a : List R) : M (Tensor R) := do
  let e ← mkExtents e
  let w ← toStrides L e
  if a.length ≠ product e then .error .stdException else .ok ⟨e, w, a⟩

/-- `_container.at (i)` of std::vector. C++ standard library, not code of /repo. -/
def vectorAt (l : List R) (i : Nat) : M R :=
  match l[i]? with
  | some x => .ok x
  | none => .error .stdException

/-- The position at which `t.at (i1, i2, is...)` looks: the index itself for one index (tensor_dynamic.hpp:384-386, 394-396), else `to_index (_strides, i...)` after the test of the number of
indices (300-310, 319-329). -/
def Tensor.flat (t : Tensor R) (i : List Nat) : M Nat :=
  match i with
  | [k] => .ok k
  | _ => if i.length ≠ t.extents.length then .error .stdException else toIndex t.strides i

/-- `t.at (i1, i2, is...)`, `t (i1, i2, is...)`: tensor_dynamic.hpp:300-310, 339-342, 384-386. -/
def Tensor.at_ (t : Tensor R) (i : List Nat) : M R := do
  let k ← t.flat i
  vectorAt t.data k

/-- `t.at (i1, i2, is...) = x`: tensor_dynamic.hpp:319-329, 351-355, 394-396. -/
def Tensor.put (t : Tensor R) (i : List Nat) (x : R) : M (Tensor R) := do
  let k ← t.flat i
  if k < t.data.length then .ok { t with data := t.data.set k x } else .error .stdException

/-- `reshape (t, e, v)`: tensor/function/reshape.hpp:51-83 (`std::copy` and `std::fill_n` over the flat containers). -/
def reshape (L : Layout) (t : Tensor R) (e : List Nat) (zero v : R) : M (Tensor R) := do
  let e ← mkExtents e
  if t.extents = e then .ok t
  else do
    let r ← create L e zero
    let m := min (product e) (product t.extents)
    let d ← loop (fun k d => do
      let x ← rd false t.data k
      wr false d k x) m r.data
    let d ← loop (fun k d => wr false d (m + k) v) (product e - m) d
    .ok { r with data := d }

/-- A counted loop `for (auto i = 0u; i < n; ++i)`: `i` is an `unsigned int` (32 bits), compared with a 64 bit `n`; from 2^32 on the counter wraps around and the loop does not end. A client's loop; the iterator operations are cited at their definitions. -/
def loop32 {σ : Type} (f : Nat → σ → M σ) (n : Nat) (s : σ) : M σ := if n < 2 ^ 32 then loop f n s else .error .diverge

end Ublas.Tens
