import Verif.Model.Tensor
/-! # Printing a tensor (include/boost/numeric/ublas/tensor/ostream.hpp)

The output is a sequence of tokens: the elements and the texts between them.  How one element is written (27-37, with the blank that follows
it) is left to the element type.  A pointer into the container is a position; forming a pointer past the end of the container by the last
`p += w` of a loop is not reported. -/
namespace Ublas.Tens
variable {R : Type}

/-- What is sent to the stream. The `out << …` of tensor/ostream.hpp:29-73. -/
inductive Tok (R : Type)
  | elem (x : R)
  | text (s : String)
  deriving DecidableEq

/-- The matrix part of `print (out, r, p, w, n)`: ostream.hpp:46-59. -/
def printMatrix (d : List R) (w n : List Nat) (p : Nat) (out : List (Tok R)) : M (List (Tok R)) := do
  let n0 ← rd false n 0
  let n1 ← rd false n 1
  let w0 ← rd false w 0
  let w1 ← rd false w 1
  let out := out ++ [Tok.text "[ ... \n"]
  let (_, out) ← loop32 (fun row (st : Nat × List (Tok R)) => do
      let (_, out) ← loop32 (fun _ (st : Nat × List (Tok R)) => do
          let x ← rd false d st.1
          .ok (st.1 + w1, st.2 ++ [Tok.elem x, Tok.text " "])) n1 (st.1, st.2)
      .ok (st.1 + w0, if row < n0 - 1 then out ++ [Tok.text "; \n"] else out)) n0 (p, out)
  .ok (out ++ [Tok.text "]"])

/-- `print (out, r, p, w, n)`: ostream.hpp:40-73.  With `n[r] = 0` the bound `n[r] - 1` wraps around and the loop leaves the container. -/
def printRec (d : List R) (w n : List Nat) : (r p : Nat) → List (Tok R) → M (List (Tok R))
  | 0, p, out => printMatrix d w n p out
  | 1, p, out => printMatrix d w n p out
  | r + 2, p, out => do
      let out := out ++ [Tok.text s!"cat({r + 3},...\n"]
      let nr ← rd false n (r + 2)
      if nr = 0 then .error .ub else do
        let wr ← rd false w (r + 2)
        let (p, out) ← loop32 (fun _ (st : Nat × List (Tok R)) => do
            let out ← printRec d w n (r + 1) st.1 st.2
            .ok (st.1 + wr, out ++ [Tok.text ",...\n"])) (nr - 1) (p, out)
        let out ← printRec d w n (r + 1) p out
        .ok (out ++ [Tok.text ")"])

/-- `out << t`: ostream.hpp:91-118.  `n.at (1)` throws std::out_of_range for extents of rank one; `t.rank () - 1` wraps around for rank zero. -/
def print (t : Tensor R) : M (List (Tok R)) :=
  if isScalar t.extents then do
    let x ← rd false t.data 0
    .ok [.text "[", .elem x, .text " ", .text "]"]
  else if isVector t.extents then
    match t.extents with
    | a :: b :: _ => do
        let cat := if a > b then ";" else ","
        let size := t.data.length
        if size = 0 then .error .ub else do
          let out ← loop32 (fun i out => do
              let x ← rd false t.data i
              .ok (out ++ [Tok.elem x, Tok.text " ", Tok.text (cat ++ " ")])) (size - 1) [Tok.text "["]
          let x ← rd false t.data (size - 1)
          .ok (out ++ [Tok.elem x, Tok.text " ", Tok.text "]"])
    | _ => .error .stdException
  else if t.extents.length = 0 then .error .ub
  else printRec t.data t.strides t.extents (t.extents.length - 1) 0 []

end Ublas.Tens
