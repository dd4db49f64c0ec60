import Verif.Basic
/-! Specification used by C107: what it means for a debug build to refuse a call. -/
namespace Ublas
variable {β : Type}

/-- The call threw `bad_index`. -/
def BadIndex (x : M β) : Prop := x = .error .badIndex

/-- The call threw one of the library's exceptions: it neither returned, nor ran into undefined behaviour, nor looped for ever. -/
def Refused (x : M β) : Prop := ∃ e, x = .error e ∧ e ≠ .ub ∧ e ≠ .diverge

/-- The place (i, j) is not in an r × c matrix. -/
def Outside (r c i j : Nat) : Prop := ¬ (i < r ∧ j < c)

end Ublas
