import Verif.Model.IO
/-! # Specification of the text format -/
namespace Ublas.IO
variable {R : Type}

/-- Tokens of the text format. -/
inductive Tok (R : Type)
  | ch (c : Char)
  | size (n : Nat)
  | elem (x : R)

/-- The input starts with these tokens (each after optional white space) and `rest` follows. -/
def Scan (E : ElemIO R) : List (Tok R) → List Char → List Char → Prop
  | [], b, rest => b = rest
  | .ch c :: ts, b, rest => ∃ b', skipWs b = c :: b' ∧ Scan E ts b' rest
  | .size n :: ts, b, rest => ∃ b', readSize b = some (n, b') ∧ Scan E ts b' rest
  | .elem x :: ts, b, rest => ∃ b', E.read b = some (x, b') ∧ Scan E ts b' rest

/-- Groups of tokens separated by commas. -/
def sepBy : List (List (Tok R)) → List (Tok R)
  | [] => []
  | [x] => x
  | x :: y :: r => x ++ .ch ',' :: sepBy (y :: r)

/-- `( item , item , … )`; with `extra`, a comma after the last item. -/
def list (items : List (List (Tok R))) (extra : Bool) : List (Tok R) := .ch '(' :: sepBy items ++ (if extra then [.ch ','] else []) ++ [.ch ')']

/-- `[n](x1,…,xn)`. -/
def vectorText (xs : List R) (extra : Bool) : List (Tok R) := [.ch '[', .size xs.length, .ch ']'] ++ list (xs.map fun x => [.elem x]) extra

/-- `[r,c]((x11,…),…)`; `extras` tells for every row whether a comma follows its last element. -/
def matrixText (c : Nat) (rows : List (List R)) (extras : List Bool) (extra : Bool) : List (Tok R) :=
  [.ch '[', .size rows.length, .ch ',', .size c, .ch ']'] ++ list ((rows.zip extras).map fun p => list (p.1.map fun x => [.elem x]) p.2) extra

/-- The rows of a matrix with the elements `f`. -/
def rowsOf (r c : Nat) (f : Nat × Nat → R) : List (List R) := (List.range r).map fun i => (List.range c).map fun j => f (i, j)

/-- Elements are written as they are read, up to a comma or a closing parenthesis. -/
def ElemIO.RoundTrips (E : ElemIO R) : Prop := ∀ x c rest, c = ',' ∨ c = ')' → E.read (E.print x ++ c :: rest) = some (x, c :: rest)

end Ublas.IO
