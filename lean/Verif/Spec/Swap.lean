import Verif.Spec.VectorAssign
import Verif.Spec.MatrixAssign
/-! # Two views that do not share elements -/
namespace Ublas
variable {σ R : Type} [Zero R]

/-- `P s n w1 S1 w2 S2`: in state `s` both views have size `n`, the first holds `w1` and visits `S1`, the second holds `w2` and visits `S2`.  Writing through one
view leaves the other one alone. -/
abbrev PRep (σ R : Type) := σ → Nat → (Nat → R) → List Nat → (Nat → R) → List Nat → Prop

/-- Each view behaves as a vector while the other one does not change. -/
structure VT.Pair (T1 T2 : VT σ R) (P : PRep σ R) : Prop where
  fst : ∀ w2 S2, T1.Lawful fun s n w S => P s n w S w2 S2
  snd : ∀ w1 S1, T2.Lawful fun s n w S => P s n w1 S1 w S

/-- Each view takes new elements while the other one does not change. -/
structure VT.PairGrows (T1 T2 : VT σ R) (P : PRep σ R) : Prop where
  fst : ∀ w2 S2, T1.Grows fun s n w S => P s n w S w2 S2
  snd : ∀ w1 S1, T2.Grows fun s n w S => P s n w1 S1 w S

/-- Both views visit every index. -/
def PRep.Full (P : PRep σ R) : Prop := ∀ s n w1 S1 w2 S2, P s n w1 S1 w2 S2 → S1 = List.range n ∧ S2 = List.range n

/-- `P s r c w1 L1 S1 w2 L2 S2`: in state `s` both matrix views have `r` lines of `c` elements, the first holds `w1` (outer iterators visit `L1`, those of line `k`
visit `S1 k`), the second `w2`.  Writing through one view leaves the other one alone. -/
abbrev MPRep (σ R : Type) := σ → Nat → Nat → (Nat → Nat → R) → List Nat → (Nat → List Nat) → (Nat → Nat → R) → List Nat → (Nat → List Nat) → Prop

/-- Each view behaves as a matrix while the other one does not change. -/
structure MT.Pair (T1 T2 : MT σ R) (P : MPRep σ R) : Prop where
  fst : ∀ w2 L2 S2, T1.Lawful fun s r c w L S => P s r c w L S w2 L2 S2
  snd : ∀ w1 L1 S1, T2.Lawful fun s r c w L S => P s r c w1 L1 S1 w L S

/-- Each view takes new elements while the other one does not change. -/
structure MT.PairGrows (T1 T2 : MT σ R) (P : MPRep σ R) : Prop where
  fst : ∀ w2 L2 S2, T1.Grows fun s r c w L S => P s r c w L S w2 L2 S2
  snd : ∀ w1 L1 S1, T2.Grows fun s r c w L S => P s r c w1 L1 S1 w L S

end Ublas
