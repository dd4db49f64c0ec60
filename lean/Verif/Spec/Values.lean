import Verif.Basic
/-!
# Containers as values: what copying, assigning and swapping named variables of one container type means

Variables are numbered.  The specification knows nothing of arrays, capacities or invariants: a copy or an assignment makes the left variable denote what the
right one denotes, a swap exchanges the two denotations, and any other operation touches the variable it is applied to and no other.
-/
namespace Ublas

/-- What a client may write, over variables named by numbers. -/
inductive ValOp (Op : Type)
  | op (x : Nat) (o : Op)        -- x.o (...)
  | copy (x y : Nat)             -- T x (y), replacing the variable x
  | assign (x y : Nat)           -- x = y
  | swap (x y : Nat)             -- x.swap (y), swap (x, y), x.assign_temporary (y)

/-- The statement does not construct a copy. -/
def ValOp.NoCopy {Op : Type} : ValOp Op → Prop
  | .copy _ _ => False
  | _ => True

namespace ValSpec
variable {τ Op : Type}

/-- What every variable denotes afterwards. -/
def step (next : τ → Op → τ) (e : Nat → τ) : ValOp Op → Nat → τ
  | .op x o => fun z => if z = x then next (e x) o else e z
  | .copy x y => fun z => if z = x then e y else e z
  | .assign x y => fun z => if z = x then e y else e z
  | .swap x y => fun z => if z = x then e y else if z = y then e x else e z

/-- `o` must be legal for what `x` denotes; an object is not constructed from itself; everything else is allowed, `x = x` and `x.swap (x)` included. -/
def legal (ok : τ → Op → Prop) (e : Nat → τ) : ValOp Op → Prop
  | .op x o => ok (e x) o
  | .copy x y => x ≠ y
  | .assign _ _ => True
  | .swap _ _ => True

def run (next : τ → Op → τ) (e : Nat → τ) : List (ValOp Op) → Nat → τ
  | [] => e
  | o :: os => run next (step next e o) os

def legalRun (ok : τ → Op → Prop) (next : τ → Op → τ) (e : Nat → τ) : List (ValOp Op) → Prop
  | [] => True
  | o :: os => legal ok e o ∧ legalRun ok next (step next e o) os

end ValSpec
end Ublas
