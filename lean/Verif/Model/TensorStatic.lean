import Verif.Model.TensorExpr
import Verif.Model.TensorMul
/-!
# Tensors of static rank and static tensors: comparison of extents, metafunctions on extents, construction

`extents<>` (dynamic), `extents<n>` (static rank, `n` run-time extents) and `extents<e1, e2, ...>` (all extents in the type) are three classes with one set of operators.
A metafunction on packs of extents is a function on lists with values in `Option`: `none` stands for a program that is rejected by the compiler (failed `static_assert`, or an index sequence of a
length that has wrapped around).
`size_t` products are not wrapped, as in `Model/Tensor`.
-/
namespace Ublas.Tens
variable {R : Type}

/-! ## Comparison of extents objects -/

/-- The three class templates: extents_dynamic_size.hpp:35, extents_static_size.hpp:41, extents_static.hpp:37. -/
inductive ExtKind
  | dynamic | ranked | fixed
  deriving DecidableEq, Repr

/-- An extents object: its class and its elements (`base ()`). tensor/extents/extents_dynamic_size.hpp:35, extents_static_size.hpp:41, extents_static.hpp:37. -/
structure Ext where
  kind : ExtKind
  dims : List Nat
  deriving DecidableEq, Repr

/-- `lhs == rhs`: extents_functions.hpp:189-197 (two static ranks: `if constexpr (m != n) return false;` and `std::equal`), extents_static_functions.hpp (end of file: `std::is_same_v`), else
extents_functions.hpp:209-215 (`size (lhs) == size (rhs) && std::equal (...)`). -/
def Ext.eq (l r : Ext) : Bool :=
  match l.kind, r.kind with
  | .ranked, .ranked => if r.dims.length ≠ l.dims.length then false else l.dims == r.dims
  | .fixed, .fixed => l.dims == r.dims
  | _, _ => l.dims.length == r.dims.length && l.dims == r.dims

/-- `lhs != rhs`: extents_functions.hpp:199-207 (two static ranks: `if constexpr (m == n) return false; return !(lhs == rhs);`), extents_static_functions.hpp (end of file), else
extents_functions.hpp:217-223. -/
def Ext.ne (l r : Ext) : Bool :=
  match l.kind, r.kind with
  | .ranked, .ranked => if r.dims.length = l.dims.length then false else !(l.eq r)
  | _, _ => !(l.eq r)

/-- `compare (lhs, rhs, pred)` for two tensors whose extents are of the classes `ka`, `kb`: operators_comparison.hpp:33-60 with the `operator!=` that overload resolution selects in line 42.
(`Tens.compare` is the same function for dynamic extents.) -/
def compareK [LinearOrder R] (ka kb : ExtKind) (c : Cmp) (a b : Tensor R) : M Bool :=
  if Ext.ne ⟨ka, a.extents⟩ ⟨kb, b.extents⟩ = true then
    if c ≠ .eq ∧ c ≠ .ne then .error .stdException else .ok false
  else if (c = .gt ∨ c = .lt) ∧ a.data = [] then .ok false
  else do
    let r ← compareFrom c.pred a.data b.data (min a.data.length (2 ^ 32)) 0
    if r = true ∧ 2 ^ 32 ≤ a.data.length then .error .diverge else .ok r

/-- `inner_prod (a, b)` for two tensors whose extents are of the classes `ka`, `kb`: function/inner_prod.hpp:41-65 with the `operator!=` that overload resolution selects in line 58. -/
def innerProdK [Add R] [Mul R] (ka kb : ExtKind) (zero : R) (a b : Tensor R) : M R :=
  if a.extents.length ≠ b.extents.length then .error .stdException
  else if a.data = [] ∨ b.data = [] then .error .stdException
  else if Ext.ne ⟨ka, a.extents⟩ ⟨kb, b.extents⟩ = true then .error .stdException
  else inner a.extents.length a.extents a.data a.strides b.data b.strides zero

/-! ## Metafunctions on packs of extents -/

/-- `get_impl_t<j, k, n, extents<...>>::value`: extents_static_functions.hpp:76-98. Both operands of `?:` are instantiated. -/
def getImpl (j : Nat) : Nat → Nat → List Nat → Option Nat
  | _, _, [] => some 0
  | k, n, [e] => if j < n ∧ k < n then some e else none
  | k, n, e1 :: e2 :: es =>
    if k < n ∧ j < n then (getImpl j (k + 1) n (e2 :: es)).bind fun x => some (if j = k then e1 else x) else none

/-- `get_v<E, j>`: extents_static_functions.hpp:105-106. -/
def getV (e : List Nat) (j : Nat) : Option Nat := getImpl j 0 e.length e

/-- `cat_t<EL, ER>`: extents_static_functions.hpp:109-134. -/
def catT (l r : List Nat) : Option (List Nat) := do
  let x ← (List.range l.length).mapM (getV l)
  let y ← (List.range r.length).mapM (getV r)
  some (x ++ y)

/-- `for_each_t<S, UnaryOp>` on an index sequence and on extents: extents_static_functions.hpp:138-161. -/
def forEachT (op : Nat → Nat) (e : List Nat) : List Nat := e.map op

/-- `select_t<E, std::index_sequence<is...>>`: extents_static_functions.hpp:193-213. -/
def selectT (e is : List Nat) : Option (List Nat) := if is.length ≤ e.length then is.mapM (getV e) else none

/-- `set_t<j, e, E>`: extents_static_functions.hpp:230-260; `n - j - 1` is a `size_t`: for `n ≤ j` an index sequence of about 2^64 elements is asked for. -/
def setT (j v : Nat) (e : List Nat) : Option (List Nat) :=
  if e.length < j + 1 then none
  else do
    let head ← selectT e (List.range j)
    let tail ← selectT e (forEachT (fun k => k + (j + 1)) (List.range (e.length - j - 1)))
    let x ← catT head [v]
    catT x tail

/-- `reverse_t<E>`: extents_static_functions.hpp:266-285. -/
def reverseT (e : List Nat) : Option (List Nat) := (List.range e.length).mapM fun j => getV e (e.length - j - 1)

/-- `accumulate_impl_t<E, i, op>::value`: extents_static_functions.hpp:325-342. -/
def accumulateImpl (op : Nat → Nat → Nat) (i : Nat) : List Nat → Nat
  | [] => i
  | [e] => op e i
  | e :: es => op e (accumulateImpl op i es)

/-- `accumulate_v<E, I, BinaryOp>`: extents_static_functions.hpp:345-346. -/
def accumulateV (op : Nat → Nat → Nat) (i : Nat) (e : List Nat) : Option Nat := do
  let r ← reverseT e
  some (accumulateImpl op i r)

/-- `product_v<E>`: extents_static_functions.hpp:350-361. -/
def productV (e : List Nat) : Option Nat := if e = [] then some 0 else accumulateV (· * ·) 1 e

/-- `all_of_v<E, UnaryPred>`: extents_static_functions.hpp:367-385. -/
def allOfV (p : Nat → Bool) (e : List Nat) : Bool :=
  match e.map p with
  | [] => true
  | b :: bs => b && bs.foldr (· && ·) true

/-- `any_of_v<E, UnaryPred>`: extents_static_functions.hpp:390-404. -/
def anyOfV (p : Nat → Bool) (e : List Nat) : Bool :=
  match e.map p with
  | [] => true
  | b :: bs => b || bs.foldr (· || ·) false

/-- `is_valid_v<E>`: extents_static_functions.hpp:410-428. -/
def isValidV : List Nat → Bool
  | [] => true
  | e => allOfV (fun n => decide (0 < n)) e

/-- `is_scalar_v<E>`: extents_static_functions.hpp:434-449. -/
def isScalarV (e : List Nat) : Bool := isValidV e && !(e.length == 0) && allOfV (fun n => n == 1) e

/-- `is_vector_v<E>`: extents_static_functions.hpp:454-482. -/
def isVectorV : List Nat → Bool
  | [] => false
  | [e] => decide (1 ≤ e)
  | e1 :: e2 :: es => isValidV (e1 :: e2 :: es) && anyOfV (fun n => decide (0 < n)) [e1, e2] && anyOfV (fun n => n == 1) [e1, e2] && allOfV (fun n => n == 1) es

/-- `is_matrix_v<E>`: extents_static_functions.hpp:488-518. -/
def isMatrixV : List Nat → Bool
  | [] => false
  | [_] => true
  | e1 :: e2 :: es => isValidV (e1 :: e2 :: es) && allOfV (fun n => decide (0 < n)) [e1, e2] && allOfV (fun n => n == 1) es

/-- `is_tensor_v<E>`: extents_static_functions.hpp:523-552. -/
def isTensorV : List Nat → Bool
  | [] => false
  | [_] => false
  | e1 :: e2 :: es => isValidV (e1 :: e2 :: es) && decide (2 < (e1 :: e2 :: es).length) && anyOfV (fun n => decide (1 < n)) es

/-- `is_matrix (e)` for run-time extents: extents_functions.hpp:82-90. -/
def isMatrix : List Nat → Bool
  | [] => false
  | [e] => decide (1 ≤ e)
  | e1 :: e2 :: es => [e1, e2].any (fun n => decide (1 ≤ n)) && es.all fun n => n == 1

/-- `is_tensor (e)` for run-time extents: extents_functions.hpp:96-102. -/
def isTensor (e : List Nat) : Bool :=
  decide (2 < e.length) && (e.take 2).all (fun n => decide (1 ≤ n)) && (e.drop 2).any fun n => decide (1 < n)

/-- `to_strides_v<E, L>`: extents_static_functions.hpp:574-600; for an empty pack `size_v<E> - 1` wraps around. -/
def toStridesV (L : Layout) (e : List Nat) : Option (List Nat) :=
  if isValidV e = false ∨ e.length = 0 then none
  else do
    let adjusted ← (match L with
      | .first => some e
      | .last => reverseT e)
    let tail ← (List.range (e.length - 1)).mapM fun i => do
      let s ← selectT adjusted (List.range (i + 1))
      productV s
    match L with
    | .first => some (1 :: tail)
    | .last => reverseT (1 :: tail)

/-! ## Static tensors -/

/-- `t.at (i1, i2, is...)`, `t (i1, i2, is...)`: tensor_static.hpp:278-283, 308-312 (`_container[idx]` of a std::array); one index: 353-355 (`_container.at (i)`).
The extents, the layout and so the strides are part of the type. -/
def fixedAt (L : Layout) (e : List Nat) (data : List R) (i : List Nat) : M R :=
  match i with
  | [k] => vectorAt data k
  | _ =>
    match toStridesV L e with
    | none => .error .stdException
    | some w => do
      let k ← toIndex w i
      rd false data k

/-- `t.at (i1, i2, is...) = x`, `t (i) = x`: tensor_static.hpp:293-298, 321-325, 363-365. -/
def fixedPut (L : Layout) (e : List Nat) (data : List R) (i : List Nat) (x : R) : M (List R) :=
  match i with
  | [k] => if k < data.length then .ok (data.set k x) else .error .stdException
  | _ =>
    match toStridesV L e with
    | none => .error .stdException
    | some w => do
      let k ← toIndex w i
      wr false data k x

/-- `std::copy (m.begin (), m.end (), this->begin ())` into the array `junk` whose elements the constructor has left indeterminate. C++ standard library, not code of /repo. -/
def copyInto (junk src : List R) : M (List R) :=
  loop (fun k d => do
    let x ← rd false src k
    wr false d k x) src.length junk

/-- `tensor_core (matrix_type const& m)`: tensor_static.hpp:167-174; `m` has the sizes `s1`, `s2` and the storage `d`. `_container` is default-initialised: its elements are those of `junk`. -/
def fixedFromMatrix (e : List Nat) (junk : List R) (s1 s2 : Nat) (d : List R) : M (List R) :=
  match e with
  | e0 :: e1 :: _ => if s1 ≠ e0 ∨ s2 ≠ e1 then .error .stdException else copyInto junk d
  | _ => .error .stdException

/-- `tensor_core (vector_type const& v)`: tensor_static.hpp:177-185. -/
def fixedFromVector (e : List Nat) (junk v : List R) : M (List R) :=
  match e with
  | e0 :: e1 :: _ => if v.length ≠ e0 ∧ v.length ≠ e1 then .error .stdException else copyInto junk v
  | _ => .error .stdException

/-- `tensor_core (tensor_core<OtherTE> const& other)`: tensor_static.hpp:131-144; `other` has the extents `eo`, the strides `wo` and the memory `d`. -/
def fixedFromTensor (L : Layout) (e : List Nat) (zero : R) (eo wo : List Nat) (d : List R) : M (List R) :=
  if e ≠ eo then .error .stdException
  else match toStridesV L e with
    | none => .error .stdException
    | some w => copy e.length e (List.replicate (product e) zero) w d wo

/-- `tensor_core (value_type v)`: tensor_static.hpp:107-111. -/
def fixedFill (e : List Nat) (junk : List R) (v : R) : M (List R) := loop (fun k d => wr false d k v) (product e) junk

/-- `init<V, L, n> {} (extents<> e)`, `init_static_rank` (`ones`, `zeros`): function/init.hpp:28-33, 60-67. -/
def initE (L : Layout) (n : R) (e : List Nat) : M (Tensor R) := createFrom L e (List.replicate (product e) n)

/-- `init<V, L, n> {} (n1, n2, ...)`: function/init.hpp:36-41, 70-78 (the product is a fold expression from 1). -/
def initN (L : Layout) (n : R) (e : List Nat) : M (Tensor R) := createFrom L e (List.replicate (e.foldl (· * ·) 1) n)

/-- `init_static<V, L, k> {} (extents<...>)`: function/init.hpp:88-109; the elements are `k * (is + 1) / (is + 1)` in `size_t` arithmetic. -/
def initFixed (k : Nat) (e : List Nat) : Option (List Nat) := do
  let p ← productV e
  some ((List.range p).map fun i => k * (i + 1) / (i + 1))

end Ublas.Tens
