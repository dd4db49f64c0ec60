import Verif.Model.RandomAccess
import Verif.Spec.Select
/-!
# What a random-access iterator must do

An iterator of a sequence of `n` elements is a number between 0 (`begin ()`) and `n` (`end ()`).
-/
namespace Ublas
variable {R : Type}

/-- One iterator operation: `++ it`, `-- it`, `it += d`, `it -= d`. -/
inductive Move
  | next | prev
  | plus (d : Int)
  | minus (d : Int)

/-- What the operation does to the position. -/
def Move.step (k : Int) : Move → Int
  | .next => k + 1
  | .prev => k - 1
  | .plus d => k + d
  | .minus d => k - d

/-- The position after a sequence of operations. -/
def dest (k : Int) : List Move → Int
  | [] => k
  | m :: ms => dest (m.step k) ms

/-- No operation of the sequence leaves the positions `0 … n`. -/
def Stays (n : Nat) (k : Int) : List Move → Prop
  | [] => True
  | m :: ms => 0 ≤ m.step k ∧ m.step k ≤ n ∧ Stays n (m.step k) ms

namespace RVec

/-- Performing one operation on an iterator of `V`. -/
def move (V : RVec R) (p : V.Pos) : Move → M V.Pos
  | .next => V.next p
  | .prev => V.prev p
  | .plus d => V.plus p d
  | .minus d => V.minus p d

/-- Performing a sequence of operations. -/
def run (V : RVec R) : List Move → V.Pos → M V.Pos
  | [], p => .ok p
  | m :: ms, p => do
      let q ← V.move p m
      V.run ms q

/-- `begin ()` (`false`) or `end ()` (`true`) of `V`. -/
def bound (V : RVec R) (atEnd : Bool) : M V.Pos := if atEnd = true then V.find V.size else V.find 0

/-- The iterator obtained from `begin ()` or `end ()` by the operations `ms`. -/
def reach (V : RVec R) (atEnd : Bool) (ms : List Move) : M V.Pos := do
  let b ← V.bound atEnd
  V.run ms b

/-- The position of `begin ()` or `end ()`. -/
def origin (n : Nat) (atEnd : Bool) : Int := if atEnd = true then n else 0

/-- **The iterators of `V` are random-access iterators over the sequence `x 0, …, x (n - 1)`**, where the element at position `k` has index
`ix k`.  For any two iterators obtained from `begin ()` or `end ()` by operations that stay inside, both exist, and with `k`, `m` the
positions reached: the six comparisons and the difference are those of `k` and `m`; if `k` is not the end, `index ()` and `*` give the index
and the element, and `it [d]` gives the element `d` further whenever there is one.  `anyDiff = false` restricts the claim on the
difference to `m ≤ k`. -/
def RandomAccess (V : RVec R) (n : Nat) (x : Nat → R) (ix : Nat → Nat) (anyDiff : Bool) : Prop :=
  ∀ s ms s' ms', Stays n (origin n s) ms → Stays n (origin n s') ms' →
    ∃ p q, V.reach s ms = .ok p ∧ V.reach s' ms' = .ok q ∧
      let k := dest (origin n s) ms
      let m := dest (origin n s') ms'
      V.eq p q = .ok (decide (k = m)) ∧ V.ne p q = .ok (decide (k ≠ m)) ∧
      V.lt p q = .ok (decide (k < m)) ∧ V.le p q = .ok (decide (k ≤ m)) ∧
      V.gt p q = .ok (decide (k > m)) ∧ V.ge p q = .ok (decide (k ≥ m)) ∧
      ((anyDiff = true ∨ m ≤ k) → V.diff p q = .ok (k - m)) ∧
      (k < n → V.index p = .ok (ix k.toNat) ∧ V.deref p = .ok (x k.toNat)) ∧
      (∀ d, 0 ≤ k + d → k + d < n → V.sub p d = .ok (x (k + d).toNat))

/-- In a checked build `*` at the end, and (if `subs`) `it [d]` when it means the end, raise `bad_index`. -/
def EndRefused (V : RVec R) (n : Nat) (subs : Bool) : Prop :=
  ∀ s ms, Stays n (origin n s) ms → ∃ p, V.reach s ms = .ok p ∧
    (dest (origin n s) ms = n → V.deref p = .error .badIndex) ∧
    (subs = true → V.sub p (n - dest (origin n s) ms) = .error .badIndex)

end RVec

/-- A selector that stays inside a container of size `N`, an empty range included. -/
def Sel.Inside (s : Sel) (N : Nat) : Prop :=
  s.Valid N ∧ s.size < 2 ^ 63 ∧ match s with | .range r => r.start + r.size ≤ N | _ => True

/-- Vectors with random-access iterators: dense containers, `scalar_vector`, lines of a dense matrix (`iterator1` of a column, `iterator2` of a
row, `matrix_column`, `matrix_row`), a matrix seen through two selectors (`matrix_vector_range` …), and proxies and expressions of these. -/
inductive RExp (R : Type)
  | dense (data : List R)
  | scalar (n : Nat) (v : R)
  | line (o : Orient) (ax : Axis) (m : Dense R) (l : Nat)
  | diag (o : Orient) (m : Dense R) (s t : Sel)
  | proxy (e : RExp R) (s : Sel)
  | map (f : R → R) (e : RExp R)
  | map2 (f : R → R → R) (e e' : RExp R)

namespace RExp

/-- Number of elements. -/
def size : RExp R → Nat
  | .dense data => data.length
  | .scalar n _ => n
  | .line _ ax m _ => CMat.along ax m.size1 m.size2
  | .diag _ _ s _ => s.size
  | .proxy _ s => s.size
  | .map _ e => e.size
  | .map2 _ e _ => e.size

/-- Element `k`. -/
def val [Inhabited R] : RExp R → Nat → R
  | .dense data, k => data.getD k default
  | .scalar _ v, _ => v
  | .line o .one m l, k => m.data.getD (o.elementRaw k m.size1 l m.size2) default
  | .line o .two m l, k => m.data.getD (o.elementRaw l m.size1 k m.size2) default
  | .diag o m s t, k => m.data.getD (o.elementRaw (s.index k).toNat m.size1 (t.index k).toNat m.size2) default
  | .proxy e s, k => e.val (s.index k).toNat
  | .map f e, k => f (e.val k)
  | .map2 f e e', k => f (e.val k) (e'.val k)

/-- The expression makes sense: selected indices exist, the operands of a binary operation have the same size, storage and selectors stay below 2^63. -/
def Ok : RExp R → Prop
  | .dense data => data.length < 2 ^ 63
  | .scalar n _ => n < 2 ^ 63
  | .line _ ax m l => m.data.length = m.size1 * m.size2 ∧ l < CMat.along ax m.size2 m.size1 ∧ (m.size1 + 1) * (m.size2 + 1) < 2 ^ 63
  | .diag _ m s t => m.data.length = m.size1 * m.size2 ∧ m.size1 < 2 ^ 63 ∧ m.size2 < 2 ^ 63 ∧ s.Inside m.size1 ∧ t.Inside m.size2 ∧ s.size = t.size
  | .proxy e s => e.Ok ∧ s.Inside e.size
  | .map _ e => e.Ok
  | .map2 _ e e' => e.Ok ∧ e'.Ok ∧ e.size = e'.size

/-- The model of the expression's iterators. -/
def iters (dbg : Bool) : RExp R → RVec R
  | .dense data => RVec.dense dbg data
  | .scalar n v => RVec.scalar dbg n v
  | .line o ax m l => RVec.line dbg o ax m l
  | .diag o m s t => RVec.diag dbg (m.get dbg o) (RVec.ofSel dbg s) (RVec.ofSel dbg t)
  | .proxy e s => (e.iters dbg).proxy dbg s
  | .map f e => (e.iters dbg).map f
  | .map2 f e e' => RVec.map2 dbg f (e.iters dbg) (e'.iters dbg)

/-- Differences of both signs are right: everything but the lines that stride over storage (and what is made of them by ranges and functions of
one operand). -/
def anyDiff : RExp R → Bool
  | .dense _ => true
  | .scalar _ _ => true
  | .line .row .one _ _ => false
  | .line .row .two _ _ => true
  | .line .col .one _ _ => true
  | .line .col .two _ _ => false
  | .diag _ _ _ _ => true
  | .proxy e (.range _) => e.anyDiff
  | .proxy _ _ => true
  | .map _ e => e.anyDiff
  | .map2 _ _ _ => true

/-- A checked build notices `*` at the end: everything but the lines that are contiguous in storage, where the end of one line is the start of the
next, and what is made of them by ranges and functions. -/
def guarded : RExp R → Bool
  | .dense _ => true
  | .scalar _ _ => true
  | .line .row .one _ _ => true
  | .line .row .two _ _ => false
  | .line .col .one _ _ => false
  | .line .col .two _ _ => true
  | .diag _ _ _ _ => true
  | .proxy e (.range _) => e.guarded
  | .proxy _ _ => true
  | .map _ e => e.guarded
  | .map2 _ e e' => e.guarded && e'.guarded

/-- A checked build notices `it [d]` at the end: not on a bare dense container. -/
def guardedSub : RExp R → Bool
  | .dense _ => false
  | _ => true

end RExp
end Ublas
