import Verif.Model.TensorOut
import Verif.Spec.Tensor
/-! Specification of the printed form of a tensor of rank two or more (Matlab notation): the last index outermost. -/
namespace Ublas.Tens
variable {R : Type}

/-- `x0 sep x1 sep ... sep xk`. -/
def joinTok (sep : Tok R) : List (List (Tok R)) → List (Tok R)
  | [] => []
  | [x] => x
  | x :: y :: t => x ++ [sep] ++ joinTok sep (y :: t)

/-- A printed row or element: the value and a blank. -/
def cellTok (x : R) : List (Tok R) := [.elem x, .text " "]

/-- The printed form of the elements `g i`, with `i` ranging over the indices below the first `r + 1` extents `n`: the rows of a matrix separated by
semicolons, and above that the slices of the last index in order, separated by commas in a `cat`. -/
def rendered (n : List Nat) : (r : Nat) → (g : List Nat → R) → List (Tok R)
  | 0, g | 1, g => [.text "[ ... \n"] ++
      joinTok (.text "; \n") ((List.range (n.getD 0 0)).map fun i => (List.range (n.getD 1 0)).flatMap fun j => cellTok (g [i, j])) ++ [.text "]"]
  | r + 2, g => [.text s!"cat({r + 3},...\n"] ++
      joinTok (.text ",...\n") ((List.range (n.getD (r + 2) 0)).map fun d => rendered n (r + 1) fun i => g (i ++ [d])) ++ [.text ")"]

/-- The elements in a printed text, in order. -/
def elemsOf : List (Tok R) → List R
  | [] => []
  | .elem x :: l => x :: elemsOf l
  | .text _ :: l => elemsOf l

/-- The reading order of a printed tensor of rank two or more: the last index slowest, down to the third, then row by row. -/
def readOrder (n : List Nat) : Nat → List (List Nat)
  | 0 | 1 => (List.range (n.getD 0 0)).flatMap fun i => (List.range (n.getD 1 0)).map fun j => [i, j]
  | r + 2 => (List.range (n.getD (r + 2) 0)).flatMap fun d => (readOrder n (r + 1)).map (· ++ [d])

/-- Index number `k` of a tensor shaped like a vector: `k` on the one axis that may be longer than one. -/
def vecIndex : List Nat → Nat → List Nat
  | a :: _ :: t, k => if a = 1 then 0 :: k :: t.map (fun _ => 0) else k :: 0 :: t.map (fun _ => 0)
  | _, k => [k]

end Ublas.Tens
