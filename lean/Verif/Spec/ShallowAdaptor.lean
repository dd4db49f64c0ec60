import Verif.Model.ShallowAdaptor
/-! # Specification of shallow_array_adaptor variables

A name denotes nothing or the first `size` elements of an array, which other names may denote too.  In the specification arrays are numbered in the order
of creation and never go away.  Cells left uninitialised by `new` hold the arbitrary values `junk`. -/
namespace Ublas.ShallowSpec
open Shallow
variable {α : Type}

/-- What a name denotes; `own` says whether its last array came from `new` (only `assign_temporary` depends on it). -/
structure Ref where
  size : Nat
  own : Bool
  arr : Nat

/-- The arrays and the adaptors; the next new array is number `next`. -/
structure Env (α : Type) where
  next : Nat
  mem : Nat → Option (List α)
  var : Nat → Option Ref

def Env.set (e : Env α) (x : Nat) (r : Option Ref) : Env α := { e with var := fun y => if y = x then r else e.var y }
/-- Array `b` now holds `l`. -/
def Env.put (e : Env α) (b : Nat) (l : List α) : Env α := { e with mem := fun c => if c = b then some l else e.mem c }
/-- Array `b` with its first cells overwritten by `c`. -/
def Env.over (e : Env α) (b : Nat) (c : List α) : Env α := e.put b (c ++ ((e.mem b).getD []).drop c.length)
/-- `x` becomes the only name of a new array holding `l`. -/
def Env.new (e : Env α) (x : Nat) (l : List α) : Env α := ({ e.put e.next l with next := e.next + 1 }).set x (some ⟨l.length, true, e.next⟩)

/-- The elements of `x` (none if there is no such object). -/
def shown (e : Env α) (x : Nat) : List α :=
  match e.var x with
  | some r => ((e.mem r.arr).getD []).take r.size
  | none => []

/-- `l` cut or extended by `v` to `n` elements. -/
def fit (l : List α) (n : Nat) (v : α) : List α := l.take n ++ List.replicate (n - l.length) v

/-- `x = y`: with equal sizes the elements are copied into the array of `x`, for all its names; otherwise `x` gets a new array. -/
def assign (e : Env α) (x y : Nat) : Env α :=
  if x = y then e
  else match e.var x with
    | some r => if r.size = (shown e y).length then e.over r.arr (shown e y) else e.new x (shown e y)
    | none => e

def swap (e : Env α) (x y : Nat) : Env α := (e.set x (e.var y)).set y (e.var x)

/-- The effect of each operation. -/
def step (junk : Nat → α) (e : Env α) : Op α → Env α
  | .ctor x n => e.new x ((List.range n).map junk)
  | .ctorInit x n v => e.new x (List.replicate n v)
  | .adopt x n b => e.set x (some ⟨n, false, b⟩)
  | .copyCtor x y => e.set x (e.var y)
  | .dtor x => e.set x none
  | .resize x n => if (shown e x).length = n then e else e.new x ((List.range n).map junk)
  | .resizeInit x n v => if (shown e x).length = n then e else e.new x (fit (shown e x) n v)
  | .attach x n b => e.set x (some ⟨n, false, b⟩)
  | .attachInit x n b v => (e.over b (fit (shown e x) n v)).set x (some ⟨n, false, b⟩)
  | .assign x y => assign e x y
  | .assignTemporary x y =>
      match e.var x, e.var y with
      | some r, some q => if r.own && q.own then swap e x y else assign e x y
      | _, _ => e
  | .swap x y => swap e x y
  | .store x i v =>
      match e.var x with
      | some r => e.put r.arr (((e.mem r.arr).getD []).set i v)
      | none => e
  | .poke b i v => e.put b (((e.mem b).getD []).set i v)

/-- `b` is an array of the program (`prog`) with at least `n` elements. -/
def Has (prog : Nat → Prop) (e : Env α) (b n : Nat) : Prop := prog b ∧ ∃ l, e.mem b = some l ∧ n ≤ l.length

/-- Preconditions: constructors act on dead names, everything else on live ones; arrays handed over are large enough; indices are in range. -/
def legal (prog : Nat → Prop) (e : Env α) : Op α → Prop
  | .ctor x _ => e.var x = none
  | .ctorInit x _ _ => e.var x = none
  | .adopt x n b => e.var x = none ∧ Has prog e b n
  | .copyCtor x y => e.var x = none ∧ e.var y ≠ none
  | .dtor x => e.var x ≠ none
  | .resize x _ => e.var x ≠ none
  | .resizeInit x _ _ => e.var x ≠ none
  | .attach x n b => e.var x ≠ none ∧ Has prog e b n
  | .attachInit x n b _ => e.var x ≠ none ∧ Has prog e b n
  | .assign x y => e.var x ≠ none ∧ e.var y ≠ none
  | .assignTemporary x y => e.var x ≠ none ∧ e.var y ≠ none
  | .swap x y => e.var x ≠ none ∧ e.var y ≠ none
  | .store x i _ => e.var x ≠ none ∧ i < (shown e x).length
  | .poke b i _ => Has prog e b (i + 1)

def run : Env α → List (Op α × (Nat → α)) → Env α
  | e, [] => e
  | e, (op, junk) :: ops => run (step junk e op) ops

def legalRun (prog : Nat → Prop) : Env α → List (Op α × (Nat → α)) → Prop
  | _, [] => True
  | e, (op, junk) :: ops => legal prog e op ∧ legalRun prog (step junk e op) ops

/-- What the program observes: the live names, their sizes and every element of every adaptor, and every element of its own arrays. -/
def Observes (dbg : Bool) (prog : Nat → Prop) (s : St α) (e : Env α) : Prop :=
  (∀ x, (e.var x = none → s.var x = none) ∧ (e.var x ≠ none → ∃ a, s.var x = some a ∧ a.size = (shown e x).length ∧
    ∀ i v, (shown e x)[i]? = some v → Shallow.index dbg s.mem a i = .ok v)) ∧
  ∀ b, prog b → s.mem.heap.blk b = e.mem b

/-- Memory accounting: the arrays in memory are the program's and those some live adaptor refers to - no others, and none of these is missing; the control
blocks are those of live adaptors. -/
def Exact (prog : Nat → Prop) (s : St α) (e : Env α) : Prop :=
  (∀ p, s.mem.heap.blk p ≠ none ↔ prog p ∨ ∃ x r, e.var x = some r ∧ r.arr = p) ∧
  ∀ c, s.mem.ctl c ≠ none ↔ ∃ x a, s.var x = some a ∧ a.data.ctl = c

end Ublas.ShallowSpec
