/-!
# What an adaptor shows

`stored upper i j`: the place (i, j) lies in the triangle the adaptor refers to (diagonal included).  `shown`: the matrix the adaptor
presents - the element itself inside that triangle, the conjugate (`cj`, the identity for `symmetric_adaptor`) of the mirrored
element outside it.
-/
namespace Ublas.SymAdSpec

/-- The triangle the adaptor refers to. -/
def stored (upper : Bool) (i j : Nat) : Prop := if upper then i ≤ j else j ≤ i

instance (upper : Bool) (i j : Nat) : Decidable (stored upper i j) := by unfold stored; infer_instance

/-- The presented matrix. -/
def shown {R : Type} (upper : Bool) (cj : R → R) (a : Nat → Nat → R) (i j : Nat) : R :=
  if stored upper i j then a i j else cj (a j i)

/-- Line `l` in order: `one` = true is column `l` (walked by const_iterator1), false is row `l` (const_iterator2). -/
def shownLine {R : Type} (upper : Bool) (cj : R → R) (n : Nat) (a : Nat → Nat → R) (one : Bool) (l : Nat) :
    List ((Int × Int) × R) :=
  (List.range n).map fun (k : Nat) =>
    if one then (((k : Int), (l : Int)), shown upper cj a k l) else (((l : Int), (k : Int)), shown upper cj a l k)

end Ublas.SymAdSpec
