import Verif.Model.HermitianProxy
/-! Elements of a hermitian matrix as ordinary variables: writing (i, j) writes the conjugate to (j, i). -/
namespace Ublas.HermSpec
variable {α : Type}

/-- Writing `v` to element (i, j). -/
def hput (conj : α → α) (i j : Nat) (v : α) (A : Nat → Nat → α) : Nat → Nat → α :=
  fun a b => if a = i ∧ b = j then v else if a = j ∧ b = i then conj v else A a b

/-- The meaning of a statement on variables. -/
def stmt (conj : α → α) (A : Nat → Nat → α) : HStmt α → Nat → Nat → α
  | .value i j F x => hput conj i j (F (A i j) x) A
  | .elem i j F k l => hput conj i j (F (A i j) (A k l)) A
  | .swap i j k l => hput conj k l (A i j) (hput conj i j (A k l) A)
  | .chain i j k l x => hput conj i j x (hput conj k l x A)

def stmts (conj : α → α) : (Nat → Nat → α) → List (HStmt α) → Nat → Nat → α
  | A, [] => A
  | A, x :: xs => stmts conj (stmt conj A x) xs

/-- All elements mentioned exist. -/
def legal (n : Nat) : HStmt α → Prop
  | .value i j _ _ => i < n ∧ j < n
  | .elem i j _ k l => i < n ∧ j < n ∧ k < n ∧ l < n
  | .swap i j k l => i < n ∧ j < n ∧ k < n ∧ l < n
  | .chain i j k l _ => i < n ∧ j < n ∧ k < n ∧ l < n

/-- The case C102 excludes: `m (i, j) = m (j, i) = x` with a non-real x off the diagonal, right operand evaluated first. -/
def crossed (conj : α → α) (rightFirst : Bool) : HStmt α → Prop
  | .chain i j k l x => rightFirst = true ∧ k = j ∧ l = i ∧ i ≠ j ∧ conj x ≠ x
  | _ => False

/-- The meaning of a block whose names are aliases of elements. -/
def act (conj : α → α) (names : List (Nat × Nat)) (A : Nat → Nat → α) (a : HAct α) : Nat → Nat → α :=
  match names[a.p]? with
  | none => A
  | some (i, j) =>
    let x := match a.x with
      | .const x => x
      | .name q => match names[q]? with
        | none => A i j
        | some (k, l) => A k l
    hput conj i j (a.F (A i j) x) A

def acts (conj : α → α) (names : List (Nat × Nat)) : (Nat → Nat → α) → List (HAct α) → Nat → Nat → α
  | A, [] => A
  | A, a :: as => acts conj names (act conj names A a) as

/-- The body uses bound names only. -/
def actLegal (names : List (Nat × Nat)) (a : HAct α) : Prop :=
  a.p < names.length ∧ match a.x with
    | .const _ => True
    | .name q => q < names.length

/-- Two places are the same element or mirror images. -/
def SamePlace (x y : Nat × Nat) : Prop := x = y ∨ x = (y.2, y.1)

end Ublas.HermSpec
