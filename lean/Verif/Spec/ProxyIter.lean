import Verif.Spec.Select
import Verif.Model.CMatIter
/-!
What the iterators of a (nested) view must enumerate: pairs (index in the view, element), in increasing order of the index.  A range shows the
shown elements of the container behind it whose index falls in the range, renumbered from zero (so a range of a sparse vector shows the
stored elements); slices and indirect arrays show every element.
-/
namespace Ublas
variable {R : Type}

/-- The part of `L` with indices in `[s, s + n)`, renumbered. -/
def window (s n : Nat) (L : List (Nat × R)) : List (Nat × R) :=
  (L.filter fun x => decide (s ≤ x.1 ∧ x.1 < s + n)).map fun x => (x.1 - s, x.2)

/-- `L` is what the container shows, `v` its elements. -/
def VRef.shown (v : Nat → R) (L : List (Nat × R)) : VRef → List (Nat × R)
  | .base => L
  | .sel p (.range r) => window r.start r.size (p.shown v L)
  | .sel p s => (List.range s.size).map fun k => (k, v ((VRef.sel p s).index k))

/-- Every selector stays inside what it selects from; an empty range may start at the end, not beyond. -/
def VRef.Fits (n : Nat) : VRef → Prop
  | .base => True
  | .sel p (.range r) => p.Fits n ∧ r.start + r.size ≤ p.size n
  | .sel p s => p.Fits n ∧ s.Valid (p.size n) ∧ s.size < 2 ^ 64

/-- Two selectors make a matrix proxy when they are of one kind. -/
def MRef.Fits (n1 n2 : Nat) : MRef → Prop
  | .base => True
  | .sel p (.range r1) (.range r2) => p.Fits n1 n2 ∧ r1.start + r1.size ≤ p.size1 n1 ∧ r2.start + r2.size ≤ p.size2 n2
  | .sel p (.slice s1) (.slice s2) => p.Fits n1 n2 ∧ (Sel.slice s1).Valid (p.size1 n1) ∧ (Sel.slice s2).Valid (p.size2 n2) ∧ s1.size < 2 ^ 64 ∧ s2.size < 2 ^ 64
  | .sel p (.indirect s1) (.indirect s2) => p.Fits n1 n2 ∧ (Sel.indirect s1).Valid (p.size1 n1) ∧ (Sel.indirect s2).Valid (p.size2 n2) ∧ s1.length < 2 ^ 64 ∧ s2.length < 2 ^ 64
  | _ => False

/-- What the iterators of axis `ax` of a (nested) matrix view enumerate across line `l`: along a column (`ax = one`) or a row (`ax = two`).
`L` is what the matrix behind shows, `a` its elements. -/
def MRef.shown (a : Nat → Nat → R) (L : Axis → Nat → List (Nat × R)) : MRef → Axis → Nat → List (Nat × R)
  | .base, ax, l => L ax l
  | .sel p (.range r1) (.range r2), .one, l => window r1.start r1.size (p.shown a L .one (r2.start + l))
  | .sel p (.range r1) (.range r2), .two, l => window r2.start r2.size (p.shown a L .two (r1.start + l))
  | .sel p s1 s2, .one, l => (List.range s1.size).map fun k => (k, a ((MRef.sel p s1 s2).index k l).1 ((MRef.sel p s1 s2).index k l).2)
  | .sel p s1 s2, .two, l => (List.range s2.size).map fun k => (k, a ((MRef.sel p s1 s2).index l k).1 ((MRef.sel p s1 s2).index l k).2)

/-- Which lines the outer iterators of axis `ax` visit; `K` is what those of the matrix behind visit. -/
def MRef.shownLines (K : Axis → List (Nat × Unit)) : MRef → Axis → List (Nat × Unit)
  | .base, ax => K ax
  | .sel p (.range r1) (.range _), .one => window r1.start r1.size (p.shownLines K .one)
  | .sel p (.range _) (.range r2), .two => window r2.start r2.size (p.shownLines K .two)
  | .sel _ s1 _, .one => (List.range s1.size).map fun k => (k, ())
  | .sel _ _ s2, .two => (List.range s2.size).map fun k => (k, ())

open Classical in
/-- The elements a structured matrix shows: along column `l` (`ax = one`) or row `l` (`ax = two`) those at the positions `sh`, in order. -/
noncomputable def structural (n1 n2 : Nat) (sh : Nat → Nat → Prop) (a : Nat → Nat → R) : Axis → Nat → List (Nat × R)
  | .one, l => ((List.range n1).filter fun i => decide (sh i l)).map fun i => (i, a i l)
  | .two, l => ((List.range n2).filter fun j => decide (sh l j)).map fun j => (j, a l j)

end Ublas
