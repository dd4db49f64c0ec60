import Verif.Model.Select
/-! Which index a selector or proxy is supposed to denote, as plain integer arithmetic. -/
namespace Ublas

/-- Element `i` of a range is start + i, of a slice start + i·stride, of an indirect array its i-th entry. -/
def Sel.index : Sel → Nat → Int
  | .range r, i => r.start + i
  | .slice s, i => s.start + i * s.stride
  | .indirect ia, i => ia.getD i 0

/-- All denoted indices are indices of a container of size `N`. -/
def Sel.Valid (s : Sel) (N : Nat) : Prop := ∀ i, i < s.size → 0 ≤ s.index i ∧ s.index i < N

/-- The base element denoted by element `i` of a (nested) vector proxy. -/
def VRef.index : VRef → Nat → Nat
  | .base, i => i
  | .sel p s, i => p.index (s.index i).toNat

/-- Every selector stays inside the container it selects from. -/
def VRef.Valid (n : Nat) : VRef → Prop
  | .base => True
  | .sel p s => p.Valid n ∧ s.Valid (p.size n) ∧ s.size < 2 ^ 64

/-- The base element denoted by element (i,j) of a (nested) matrix proxy. -/
def MRef.index : MRef → Nat → Nat → Nat × Nat
  | .base, i, j => (i, j)
  | .sel p s1 s2, i, j => p.index (s1.index i).toNat (s2.index j).toNat

def MRef.Valid (n1 n2 : Nat) : MRef → Prop
  | .base => True
  | .sel p s1 s2 => p.Valid n1 n2 ∧ s1.Valid (p.size1 n1) ∧ s2.Valid (p.size2 n2) ∧
      s1.size < 2 ^ 64 ∧ s2.size < 2 ^ 64

/-- The matrix element denoted by element `i` of a row, column or diagonal-like view. -/
def MVRef.index : MVRef → Nat → Nat × Nat
  | .row m i, j => m.index i j
  | .column m j, i => m.index i j
  | .along m s1 s2, i => m.index (s1.index i).toNat (s2.index i).toNat

def MVRef.size (n1 n2 : Nat) : MVRef → Nat
  | .row m _ => m.size2 n2
  | .column m _ => m.size1 n1
  | .along _ s1 s2 => min s1.size s2.size

def MVRef.Valid (n1 n2 : Nat) : MVRef → Prop
  | .row m i => m.Valid n1 n2 ∧ i < m.size1 n1
  | .column m j => m.Valid n1 n2 ∧ j < m.size2 n2
  | .along m s1 s2 => m.Valid n1 n2 ∧ s1.Valid (m.size1 n1) ∧ s2.Valid (m.size2 n2)

end Ublas
