import Verif.Props.Serialize
/-! # C116, C117 for fixed_vector and fixed_matrix -/
namespace Ublas
namespace Ser
variable {R : Type}

theorem roundtrip_builtin (N : Nat) (x : List R) (hx : x.length = N) :
    RoundTrips (builtin (ampE : S R R Unit) 0 N) (builtin ampE 0 N) (fun y => y.length = N) x := by
  obtain ⟨o, ho⟩ := tr_builtin (f := (ampE : S R R Unit)) (f' := ampE) (x := x) (fun a _ => good_elt a) 0 N (by omega)
  have key : ∀ y : List R, y.length = N → Tr (builtin ampE 0 N) (builtin ampE 0 N) x o () y x := by
    intro y hy
    obtain ⟨z, hz, hl, hg⟩ := ho y (by omega)
    have e : z = x := by
      apply List.ext_getElem?; intro i; rw [hg i]
      by_cases c : i < N
      · rw [if_pos ⟨Nat.zero_le _, by omega⟩]
      · rw [if_neg (by omega), List.getElem?_eq_none (by omega), List.getElem?_eq_none (by omega)]
    rw [e] at hz
    exact hz
  exact ⟨o, (key x hx).save, fun y hy => (key y hy).load⟩

theorem robust_builtin (N : Nat) : Robust (builtin (ampE : S R R Unit) 0 N) (fun l => l.length = N) := by
  refine robust_of_keeps ?_
  refine Keeps.bind (keeps_local _) fun c => Keeps.bind (Q := fun _ l => c ≤ N ∧ l.length = N) (keeps_whenLoading ?_) fun _ => ?_
  · intro l tape hl
    by_cases e : c > N
    · exact .inr ⟨.stdException, l, by simp [Ser.test, e], by simp, by simp, hl⟩
    · exact .inl ⟨(), l, tape, by simp [Ser.test, e], by omega, hl⟩
  · by_cases c' : c ≤ N
    · exact (keeps_fixed keeps_elt N c 0 (by omega)).conseq (fun _ h => h.2) (fun _ _ h => h) fun _ h => h
    · exact fun l _ hl => absurd hl.1 c'

/-- **C116** for fixed_vector. -/
theorem C116_fixed_vector (N : Nat) (x : List R) (hx : x.length = N) : RoundTrips (fixedVector (ampE : S R R Unit) N) (fixedVector ampE N) (fun y => y.length = N) x :=
  roundtrip_builtin N x hx

/-- **C116** for fixed_matrix, whose sizes are part of the type. -/
theorem C116_fixed_matrix (M N : Nat) (x : List R) (hx : x.length = M * N) :
    RoundTrips (fixedMatrix (ampE : S R R Unit) M N) (fixedMatrix ampE M N) (fun y => y.length = M * N) x := roundtrip_builtin (M * N) x hx

/-- **C117** for fixed_vector and fixed_matrix: loading any archive keeps the object in order. -/
theorem C117_fixed_partial (M N : Nat) : Robust (fixedVector (ampE : S R R Unit) N) (fun l => l.length = N) ∧ Robust (fixedMatrix (ampE : S R R Unit) M N) (fun l => l.length = M * N) :=
  ⟨robust_builtin N, robust_builtin (M * N)⟩

/-- A 2 × 2 matrix saved and loaded into one that holds other elements. -/
example : fixedMatrix (ampE : S Int Int Unit) 2 2 [1, 2, 3, 4] ⟨false, []⟩ = .ok () [1, 2, 3, 4] ⟨false, [.num 4, .elt 1, .elt 2, .elt 3, .elt 4]⟩ ∧
    fixedMatrix (ampE : S Int Int Unit) 2 2 [7, 7, 7, 7] ⟨true, [.num 4, .elt 1, .elt 2, .elt 3, .elt 4]⟩ = .ok () [1, 2, 3, 4] ⟨true, []⟩ := ⟨rfl, rfl⟩

end Ser
end Ublas
