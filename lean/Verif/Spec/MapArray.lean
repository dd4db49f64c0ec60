import Verif.Model.MapArray
/-! Specification of a map: a partial function from keys to values. -/
namespace Ublas.MapSpec
variable {α : Type}

def step (zero : α) (s : Nat → Option α) : MapArr.Op α → Nat → Option α
  | .modify k f => fun j => if j = k then some (f ((s k).getD zero)) else s j
  | .insert k v => fun j => if j = k then some ((s k).getD v) else s j
  | .eraseKey k => fun j => if j = k then none else s j
  | .eraseBetween a b => fun j => if a ≤ j ∧ j < b then none else s j
  | .pushBack k v => fun j => if j = k then some v else s j
  | .clear => fun _ => none
  | .reserve _ => s

/-- Preconditions.  `push_back` needs a key above all present ones; a capacity must not be smaller than
the number of elements (`L` ranges over lists of distinct present keys). -/
def legal (s : Nat → Option α) : MapArr.Op α → Prop
  | .pushBack k _ => ∀ j, s j ≠ none → j < k
  | .eraseBetween a b => a ≤ b
  | .reserve n => ∀ L : List Nat, L.Nodup → (∀ i ∈ L, s i ≠ none) → L.length ≤ n
  | _ => True

def run (zero : α) : (Nat → Option α) → List (MapArr.Op α) → Nat → Option α
  | s, [] => s
  | s, op :: ops => run zero (step zero s op) ops

def legalRun (zero : α) : (Nat → Option α) → List (MapArr.Op α) → Prop
  | _, [] => True
  | s, op :: ops => legal s op ∧ legalRun zero (step zero s op) ops

/-- What a client observes: look-ups agree with `s`; traversal lists exactly the graph of `s` with
strictly increasing keys; the size is the number of traversed elements and within the capacity. -/
def Observes (m : MapArr α) (s : Nat → Option α) : Prop :=
  (∀ k, m.lookup k = .ok (s k)) ∧
  (∃ E, m.traverse = .ok E ∧ E.length = m.size ∧ E.Pairwise (fun a b => a.1 < b.1) ∧ ∀ k v, (k, v) ∈ E ↔ s k = some v) ∧
  m.size ≤ m.cap

end Ublas.MapSpec
