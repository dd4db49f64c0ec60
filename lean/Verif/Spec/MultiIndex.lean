import Mathlib.Data.List.Range
/-! # Label matching between two tuples of index labels (0 is the placeholder `_`, which matches nothing) -/
namespace Ublas.Tens.MI

/-- Positions `i` of `ia` and `j` of `ib` carry the same label, not the placeholder. -/
def Match (ia ib : List Nat) (i j : Nat) : Prop := ∃ l, l ≠ 0 ∧ ia[i]? = some l ∧ ib[j]? = some l

instance (ia ib : List Nat) (i j : Nat) : Decidable (Match ia ib i j) :=
  decidable_of_iff (ia[i]? ≠ some 0 ∧ ia[i]? ≠ none ∧ ib[j]? = ia[i]?) (by
    unfold Match
    cases h : ia[i]? with
    | none => simp
    | some l =>
      constructor
      · rintro ⟨h1, _, h3⟩; exact ⟨l, fun e => h1 (by rw [e]), rfl, h3⟩
      · rintro ⟨l', h1, h2, h3⟩; cases h2; exact ⟨fun e => h1 (by cases e; rfl), by simp, h3⟩)

/-- All matching pairs of positions, by position in `ia`, then in `ib`. -/
def allMatches (ia ib : List Nat) : List (Nat × Nat) :=
  ((List.range ia.length).flatMap fun i => (List.range ib.length).map fun j => (i, j)).filter fun p => Match ia ib p.1 p.2

/-- The matching pairs whose second position is the first one with that label. -/
def firstMatches (ia ib : List Nat) : List (Nat × Nat) :=
  (allMatches ia ib).filter fun p => decide (∀ j < p.2, ¬ Match ia ib p.1 j)

/-- No label but the placeholder occurs at two positions. -/
def Distinct (ls : List Nat) : Prop := ∀ i j l : Nat, i ≠ j → ls[i]? = some l → ls[j]? = some l → l = 0

end Ublas.Tens.MI
