import Verif.Model.VectorAssign
import Mathlib.Algebra.Group.Defs
import Mathlib.Logic.Function.Basic
/-! # What a target and an expression stand for -/
namespace Ublas
variable {σ R : Type} [Zero R]

/-- `T` behaves as a vector of fixed size whose mutable iterators visit a fixed increasing list of indices.  `Rep s n w S` says: the target in state
`s` has size `n`, element `i` is `w i`, and the iterators visit `S`; elements that are not visited are zero. -/
structure VT.Lawful (T : VT σ R) (Rep : σ → Nat → (Nat → R) → List Nat → Prop) : Prop where
  size : ∀ s n w S, Rep s n w S → T.size s = n
  its : ∀ s n w S, Rep s n w S → T.its s = S
  sorted : ∀ s n w S, Rep s n w S → S.Pairwise (· < ·)
  lt : ∀ s n w S, Rep s n w S → ∀ i ∈ S, i < n
  off : ∀ s n w S, Rep s n w S → ∀ i, i < n → i ∉ S → w i = 0
  get : ∀ s n w S, Rep s n w S → ∀ i ∈ S, T.get s i = .ok (w i)
  put : ∀ s n w S, Rep s n w S → ∀ i ∈ S, ∀ t, ∃ s', T.put s i t = .ok s' ∧ Rep s' n (Function.update w i t) S
  consec : ∀ s n w S, Rep s n w S → T.cat ≠ .sparse → ∃ off, S = List.range' off S.length

/-- The iterators visit every index and element access writes in place: dense vectors and views. -/
structure VT.Full (T : VT σ R) (Rep : σ → Nat → (Nat → R) → List Nat → Prop) : Prop where
  all : ∀ s n w S, Rep s n w S → S = List.range n
  ref : ∀ s n w S, Rep s n w S → ∀ i, i < n → ∀ t, ∃ s', T.ref s i t = .ok s' ∧ Rep s' n (Function.update w i t) S

/-- `v (i) = t` stores at every index, adding it to the visited ones if needed. -/
def VT.Grows (T : VT σ R) (Rep : σ → Nat → (Nat → R) → List Nat → Prop) : Prop :=
  ∀ s n w S, Rep s n w S → ∀ i, i < n → ∀ t, ∃ s' S', T.ref s i t = .ok s' ∧ Rep s' n (Function.update w i t) S' ∧ ∀ k, k ∈ S' ↔ k = i ∨ k ∈ S

/-- `clear ()` zeroes every element and `insert_element (i, t)` stores `t` at an index not yet stored (at any index of a dense vector). -/
structure VT.Inserts (T : VT σ R) (Rep : σ → Nat → (Nat → R) → List Nat → Prop) : Prop where
  clear : ∀ s n w S, Rep s n w S → ∃ s' S', T.clear s = .ok s' ∧ Rep s' n (fun _ => 0) S' ∧ (S' = [] ∨ T.Full Rep)
  insert : ∀ s n w S, Rep s n w S → ∀ i, i < n → (i ∉ S ∨ T.Full Rep) → ∀ t, ∃ s' S', T.insert s i t = .ok s' ∧
    Rep s' n (Function.update w i t) S' ∧ (∀ k, k ∈ S' ↔ k = i ∨ k ∈ S)

/-- The expression has size `n` and element `i` evaluates to `g i x` whenever the target holds `x` at index `i`: it reads the target at most at the
index being evaluated (`g i` is constant for an expression that does not read the target).  Its iterators visit `I` and skip only zeros. -/
structure VExpr.Reads (e : VExpr σ R) (Rep : σ → Nat → (Nat → R) → List Nat → Prop) (n : Nat) (I : List Nat) (g : Nat → R → R) : Prop where
  size : e.size = n
  begin_ : ∀ s w S, Rep s n w S → (e.begin_ s).map (·.1) = I
  deref : ∀ s w S s0 w0 S0, Rep s n w S → Rep s0 n w0 S0 → ∀ q ∈ e.begin_ s0, q.2 s = .ok (g q.1 (w q.1))
  at_ : ∀ s w S, Rep s n w S → ∀ i, i < n → e.at_ i s = .ok (g i (w i))
  sorted : I.Pairwise (· < ·)
  lt : ∀ i ∈ I, i < n
  skipped : ∀ i, i < n → i ∉ I → ∀ x, g i x = 0
  packed : e.cat ≠ .sparse → ∃ off, I = List.range' off I.length
  dense : e.cat = .dense → I = List.range n

/-- What a storage category promises about a target. -/
def VT.Supports (T : VT σ R) (sc : StorageCat) (Rep : σ → Nat → (Nat → R) → List Nat → Prop) : Prop :=
  T.Lawful Rep ∧ match sc with
    | .dense => T.Full Rep ∧ T.Inserts Rep ∧ T.cat = .dense
    | .denseProxy => T.Full Rep ∧ T.cat = .dense
    | .packed | .packedProxy => T.cat = .packed
    | .sparse => T.Grows Rep ∧ T.Inserts Rep ∧ T.cat = .sparse
    | .sparseProxy => T.Grows Rep ∧ T.cat = .sparse

end Ublas
