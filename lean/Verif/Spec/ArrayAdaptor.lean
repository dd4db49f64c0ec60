import Verif.Model.ArrayAdaptor
/-! # Specification of array_adaptor variables

A name denotes nothing, an array of its own, or the first `n` elements of an array of the program.  Cells left uninitialised by `new` hold the arbitrary values `junk`. -/
namespace Ublas.AdaptorSpec
open Adaptor
variable {α : Type}

inductive Obj (α : Type)
  | own (l : List α)
  | at_ (b n : Nat)

/-- The program's arrays and the adaptors. -/
structure Env (α : Type) where
  mem : Nat → Option (List α)
  obj : Nat → Option (Obj α)

def Obj.cells (e : Env α) : Obj α → List α
  | .own l => l
  | .at_ b n => ((e.mem b).getD []).take n

def setObj (e : Env α) (x : Nat) (o : Option (Obj α)) : Env α := { e with obj := fun y => if y = x then o else e.obj y }
def setMem (e : Env α) (b : Nat) (l : List α) : Env α := { e with mem := fun c => if c = b then some l else e.mem c }

/-- `l` with the cells from `k` on overwritten by `c`. -/
def put (l : List α) (k : Nat) (c : List α) : List α := l.take k ++ c ++ l.drop (k + c.length)

/-- What `x` shows (nothing if there is no such object). -/
def shown (e : Env α) (x : Nat) : List α := ((e.obj x).map (Obj.cells e)).getD []

/-- Store the cells `c` where `x` has its elements. -/
def write (e : Env α) (x : Nat) (c : List α) : Env α :=
  match e.obj x with
  | some (.own _) => setObj e x (some (.own c))
  | some (.at_ b _) => setMem e b (put ((e.mem b).getD []) 0 c)
  | none => e

/-- `x = y`: the elements are copied.  If the sizes agree they are copied to where `x` has its elements (so to the program's array if `x` refers to one), otherwise `x` gets an array of
its own. -/
def assign (e : Env α) (x y : Nat) : Env α :=
  if x = y then e
  else if (shown e x).length = (shown e y).length then write e x (shown e y)
  else setObj e x (some (.own (shown e y)))

def swap (e : Env α) (x y : Nat) : Env α := setObj (setObj e x (e.obj y)) y (e.obj x)

/-- The effect of each operation. -/
def step (zero : α) (junk : Nat → α) (e : Env α) : Op α → Env α
  | .ctor x n => setObj e x (some (.own ((List.range n).map junk)))
  | .ctorInit x n v => setObj e x (some (.own (List.replicate n v)))
  | .adopt x n b => setObj e x (some (.at_ b n))
  | .copyCtor x y => setObj e x (some (.own (shown e y)))
  | .dtor x => setObj e x none
  | .resize x n => if (shown e x).length = n then e else setObj e x (some (.own ((List.range n).map junk)))
  | .resizeInit x n v => if (shown e x).length = n then e else setObj e x (some (.own ((shown e x).take n ++ List.replicate (n - (shown e x).length) v)))
  | .attach x n b =>
      match e.obj x with
      | some (.at_ c k) => if c = b then setObj (setMem e b (put ((e.mem b).getD []) k (List.replicate (n - k) zero))) x (some (.at_ b n)) else setObj e x (some (.at_ b n))
      | _ => setObj e x (some (.at_ b n))
  | .attachInit x n b v =>
      let moved := setObj (setMem e b (put ((e.mem b).getD []) 0 ((shown e x).take n ++ List.replicate (n - (shown e x).length) v))) x (some (.at_ b n))
      match e.obj x with
      | some (.at_ c k) => if c = b then setObj (setMem e b (put ((e.mem b).getD []) k (List.replicate (n - k) v))) x (some (.at_ b n)) else moved
      | _ => moved
  | .assign x y => assign e x y
  | .assignTemporary x y =>
      match e.obj x, e.obj y with
      | some (.own _), some (.own _) => swap e x y
      | _, _ => assign e x y
  | .swap x y => swap e x y
  | .store x i v => write e x ((shown e x).set i v)
  | .poke b i v => setMem e b (((e.mem b).getD []).set i v)

/-- The program's array `b` has at least `n` elements. -/
def Has (e : Env α) (b n : Nat) : Prop := ∃ l, e.mem b = some l ∧ n ≤ l.length

/-- Preconditions: constructors act on dead names, everything else on live ones; arrays handed over are large enough; indices are in range. -/
def legal (e : Env α) : Op α → Prop
  | .ctor x _ => e.obj x = none
  | .ctorInit x _ _ => e.obj x = none
  | .adopt x n b => e.obj x = none ∧ Has e b n
  | .copyCtor x y => e.obj x = none ∧ e.obj y ≠ none
  | .dtor x => e.obj x ≠ none
  | .resize x _ => e.obj x ≠ none
  | .resizeInit x _ _ => e.obj x ≠ none
  | .attach x n b => e.obj x ≠ none ∧ Has e b n
  | .attachInit x n b _ => e.obj x ≠ none ∧ Has e b n
  | .assign x y => e.obj x ≠ none ∧ e.obj y ≠ none
  | .assignTemporary x y => e.obj x ≠ none ∧ e.obj y ≠ none
  | .swap x y => e.obj x ≠ none ∧ e.obj y ≠ none
  | .store x i _ => e.obj x ≠ none ∧ i < (shown e x).length
  | .poke b i _ => Has e b (i + 1)

def run (zero : α) : Env α → List (Op α × (Nat → α)) → Env α
  | e, [] => e
  | e, (op, junk) :: ops => run zero (step zero junk e op) ops

def legalRun (zero : α) : Env α → List (Op α × (Nat → α)) → Prop
  | _, [] => True
  | e, (op, junk) :: ops => legal e op ∧ legalRun zero (step zero junk e op) ops

/-- What the program observes: the live names, the sizes, every element of every adaptor, and every element of its own arrays. -/
def Observes (dbg : Bool) (s : St α) (e : Env α) : Prop :=
  (∀ x, (e.obj x = none → s.var x = none) ∧ (e.obj x ≠ none → ∃ a, s.var x = some a ∧ a.size = (shown e x).length ∧
    ∀ i v, (shown e x)[i]? = some v → Adaptor.index dbg s.heap a i = .ok v)) ∧
  ∀ b l, e.mem b = some l → s.heap.blk b = some l

/-- Memory accounting: every live block is an array of the program or the array of exactly one adaptor. -/
def NoLeak (s : St α) (e : Env α) : Prop :=
  (∀ p, s.heap.blk p ≠ none → e.mem p ≠ none ∨ ∃ x n, s.var x = some ⟨n, true, p⟩) ∧
  ∀ x y n m p, s.var x = some ⟨n, true, p⟩ → s.var y = some ⟨m, true, p⟩ → x = y

end Ublas.AdaptorSpec
