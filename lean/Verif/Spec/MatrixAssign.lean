import Verif.Model.MatrixAssign
import Mathlib.Algebra.Group.Defs
import Mathlib.Logic.Function.Basic
/-! # What a matrix target and a matrix expression stand for (indices are (major, minor)) -/
namespace Ublas
variable {σ R : Type} [Zero R]

/-- `w` with element (k, l) replaced by `t`. -/
def update2 (w : Nat → Nat → R) (k l : Nat) (t : R) : Nat → Nat → R := fun i j => if i = k ∧ j = l then t else w i j

/-- `Rep s r c w Ls S`: in state `s` the target has `r` lines of `c` elements, element (k, l) is `w k l`, the outer iterators visit the lines `Ls`, the inner ones
of line `k` the indices `S k`. -/
abbrev MRep (σ R : Type) := σ → Nat → Nat → (Nat → Nat → R) → List Nat → (Nat → List Nat) → Prop

/-- The target behaves as a matrix of fixed size; elements that the iterators do not visit are zero. -/
structure MT.Lawful (T : MT σ R) (Rep : MRep σ R) : Prop where
  sizes : ∀ s r c w Ls S, Rep s r c w Ls S → T.sizeM s = r ∧ T.sizem s = c
  lines : ∀ s r c w Ls S, Rep s r c w Ls S → T.lines s = Ls ∧ Ls.Pairwise (· < ·) ∧ ∀ k ∈ Ls, k < r
  its : ∀ s r c w Ls S, Rep s r c w Ls S → ∀ k ∈ Ls, T.its s k = S k ∧ (S k).Pairwise (· < ·) ∧ ∀ l ∈ S k, l < c
  off : ∀ s r c w Ls S, Rep s r c w Ls S → ∀ k l, k < r → l < c → ¬ (k ∈ Ls ∧ l ∈ S k) → w k l = 0
  get : ∀ s r c w Ls S, Rep s r c w Ls S → ∀ k ∈ Ls, ∀ l ∈ S k, T.get s k l = .ok (w k l)
  put : ∀ s r c w Ls S, Rep s r c w Ls S → ∀ k ∈ Ls, ∀ l ∈ S k, ∀ t, ∃ s', T.put s k l t = .ok s' ∧ Rep s' r c (update2 w k l t) Ls S
  consec : ∀ s r c w Ls S, Rep s r c w Ls S → T.cat ≠ .sparse → (∃ off, Ls = List.range' off Ls.length) ∧ ∀ k ∈ Ls, ∃ off, S k = List.range' off (S k).length

/-- The iterators visit every element (of a matrix that has any) and element access writes in place: dense matrices and views of them. -/
structure MT.Full (T : MT σ R) (Rep : MRep σ R) : Prop where
  all : ∀ s r c w Ls S, Rep s r c w Ls S → (c ≠ 0 → Ls = List.range r) ∧ ∀ k ∈ Ls, S k = List.range c
  ref : ∀ s r c w Ls S, Rep s r c w Ls S → ∀ k l, k < r → l < c → ∀ t, ∃ s', T.ref s k l t = .ok s' ∧ Rep s' r c (update2 w k l t) Ls S

/-- `m (i, j) = t` stores at every position, adding it to the visited ones if needed. -/
def MT.Grows (T : MT σ R) (Rep : MRep σ R) : Prop :=
  ∀ s r c w Ls S, Rep s r c w Ls S → ∀ k l, k < r → l < c → ∀ t, ∃ s' Ls' S', T.ref s k l t = .ok s' ∧ Rep s' r c (update2 w k l t) Ls' S' ∧
    ∀ i j, i < r → j < c → ((i ∈ Ls' ∧ j ∈ S' i) ↔ (i = k ∧ j = l) ∨ (i ∈ Ls ∧ j ∈ S i))

/-- `clear ()` zeroes every element and `insert_element (i, j, t)` stores `t` at a position not yet stored (at any position of a dense matrix). -/
structure MT.Inserts (T : MT σ R) (Rep : MRep σ R) : Prop where
  clear : ∀ s r c w Ls S, Rep s r c w Ls S → ∃ s' Ls' S', T.clear s = .ok s' ∧ Rep s' r c (fun _ _ => 0) Ls' S' ∧
    ((∀ i j, i < r → j < c → ¬ (i ∈ Ls' ∧ j ∈ S' i)) ∨ T.Full Rep)
  insert : ∀ s r c w Ls S, Rep s r c w Ls S → ∀ k l, k < r → l < c → (¬ (k ∈ Ls ∧ l ∈ S k) ∨ T.Full Rep) → ∀ t, ∃ s' Ls' S', T.insert s k l t = .ok s' ∧
    Rep s' r c (update2 w k l t) Ls' S' ∧ ∀ i j, i < r → j < c → ((i ∈ Ls' ∧ j ∈ S' i) ↔ (i = k ∧ j = l) ∨ (i ∈ Ls ∧ j ∈ S i))

/-- What a storage category promises about a target. -/
def MT.Supports (T : MT σ R) (sc : StorageCat) (Rep : MRep σ R) : Prop :=
  T.Lawful Rep ∧ match sc with
    | .dense => T.Full Rep ∧ T.Inserts Rep ∧ T.cat = .dense
    | .denseProxy => T.Full Rep ∧ T.cat = .dense
    | .packed | .packedProxy => T.cat = .packed
    | .sparse => T.Grows Rep ∧ T.Inserts Rep ∧ T.cat = .sparse
    | .sparseProxy => T.Grows Rep ∧ T.cat = .sparse

/-- The expression denotes the matrix `a` with `r` lines of `c` elements: element access returns it, the iterators visit lines and elements in increasing order
with the right values and skip only zeros; packed iterators visit consecutive indices, dense ones everything. -/
structure MExp.Presents (e : MExp R) (r c : Nat) (a : Nat → Nat → R) : Prop where
  sizes : e.sizeM = r ∧ e.sizem = c
  at_ : ∀ k l, k < r → l < c → e.at_ k l = .ok (a k l)
  sorted : (e.lines.map (·.1)).Pairwise (· < ·)
  lt : ∀ q ∈ e.lines, q.1 < r
  inner : ∀ q ∈ e.lines, (q.2.map (·.1)).Pairwise (· < ·) ∧ ∀ p ∈ q.2, p.1 < c ∧ p.2 = a q.1 p.1
  skipped : ∀ k l, k < r → l < c → (∀ q ∈ e.lines, q.1 = k → l ∉ q.2.map (·.1)) → a k l = 0
  packed : e.cat ≠ .sparse → (∃ off, e.lines.map (·.1) = List.range' off e.lines.length) ∧ ∀ q ∈ e.lines, ∃ off, q.2.map (·.1) = List.range' off q.2.length
  dense : e.cat = .dense → c ≠ 0 → e.lines.map (·.1) = List.range r ∧ ∀ q ∈ e.lines, q.2.map (·.1) = List.range c

end Ublas
