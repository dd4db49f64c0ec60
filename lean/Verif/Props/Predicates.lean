import Verif.Model.Predicates
import Verif.Props.Symmetric
/-! # C127: is_symmetric and is_hermitian -/
namespace Ublas
open PackedSpec Packed
variable {R : Type} [DecidableEq R]

theorem mirrorRow_spec (conj : R → R) (get : Nat → Nat → M R) (A : Nat → Nat → R) (n i : Nat) (hi : i < n) (hget : ∀ i j, i < n → j < n → get i j = .ok (A i j)) :
    ∀ fuel j, j + fuel = n → ∃ b, mirrorRow conj get i fuel j = .ok b ∧ (b = true ↔ ∀ l, j ≤ l → l < n → A i l = conj (A l i)) := by
  intro fuel
  induction fuel with
  | zero => intro j hj; exact ⟨true, rfl, by simp; omega⟩
  | succ fuel ih =>
    intro j hj
    have hjn : j < n := by omega
    simp only [mirrorRow, hget i j hi hjn, hget j i hjn hi, bind_ok]
    by_cases e : A i j = conj (A j i)
    · obtain ⟨b, b1, b2⟩ := ih (j + 1) (by omega)
      refine ⟨b, by rw [if_neg (not_not_intro e)]; exact b1, b2.trans ⟨fun h l hl hn => ?_, fun h l hl hn => h l (by omega) hn⟩⟩
      by_cases c : l = j
      · rw [c]; exact e
      · exact h l (by omega) hn
    · exact ⟨false, by rw [if_pos e], by simp; exact ⟨j, le_refl _, hjn, e⟩⟩

theorem mirrorRows_spec (conj : R → R) (get : Nat → Nat → M R) (A : Nat → Nat → R) (n : Nat) (hget : ∀ i j, i < n → j < n → get i j = .ok (A i j)) :
    ∀ fuel i, i + fuel = n → ∃ b, mirrorRows conj get n fuel i = .ok b ∧ (b = true ↔ ∀ k, i ≤ k → ∀ l, k ≤ l → l < n → A k l = conj (A l k)) := by
  intro fuel
  induction fuel with
  | zero => intro i hi; exact ⟨true, rfl, by simp; omega⟩
  | succ fuel ih =>
    intro i hi
    obtain ⟨b, b1, b2⟩ := mirrorRow_spec conj get A n i (by omega) hget (n - i) i (by omega)
    simp only [mirrorRows, b1, bind_ok]
    cases b with
    | false =>
      exact ⟨false, by simp, fun h => absurd h (by simp), fun h => absurd (b2.2 (h i (le_refl _))) (by simp)⟩
    | true =>
      obtain ⟨b', c1, c2⟩ := ih (i + 1) (by omega)
      refine ⟨b', by simpa using c1, c2.trans ⟨fun h k hk => ?_, fun h k hk => h k (by omega)⟩⟩
      by_cases c : k = i
      · rw [c]; exact b2.1 rfl
      · exact h k (by omega)

/-- **C127**.  `is_hermitian (m)` reads no element outside the matrix and answers whether the matrix is square and every element is the conjugate of its mirror. -/
theorem C127_is_hermitian (conj : R → R) (hc : ∀ x, conj (conj x) = x) (get : Nat → Nat → M R) (A : Nat → Nat → R) (r c : Nat)
    (hget : ∀ i j, i < r → j < c → get i j = .ok (A i j)) :
    ∃ b, isHermitian conj get r c = .ok b ∧ (b = true ↔ r = c ∧ ∀ i j, i < r → j < r → A i j = conj (A j i)) := by
  by_cases e : r = c
  · subst e
    obtain ⟨b, b1, b2⟩ := mirrorRows_spec conj get A r hget r 0 (by omega)
    refine ⟨b, by simp only [isHermitian, ne_eq, not_true, if_false, b1], b2.trans ⟨fun h => ⟨rfl, fun i j hi hj => ?_⟩, fun h k _ l hl hn => h.2 k l (by omega) hn⟩⟩
    by_cases hij : i ≤ j
    · exact h i (Nat.zero_le _) j hij hj
    · rw [h j (Nat.zero_le _) i (by omega) hi, hc]
  · exact ⟨false, by simp only [isHermitian, ne_eq, e, not_false_eq_true, if_true], by simp [e]⟩

/-- **C127**.  `is_symmetric (m)` answers whether the matrix is square and every element equals its mirror. -/
theorem C127_is_symmetric (get : Nat → Nat → M R) (A : Nat → Nat → R) (r c : Nat) (hget : ∀ i j, i < r → j < c → get i j = .ok (A i j)) :
    ∃ b, isSymmetric get r c = .ok b ∧ (b = true ↔ r = c ∧ ∀ i j, i < r → j < r → A i j = A j i) :=
  C127_is_hermitian id (fun _ => rfl) get A r c hget

/-- **C127** (symmetric_matrix).  Whatever was done to it, a symmetric_matrix is symmetric. -/
theorem C127_symmetric_matrix [Zero R] (dbg : Bool) (t : Tri) (hk : t.kind = .lower) (o : Orient) (n : Nat) (junk0 : Nat → R) (ops : List (SOp R × (Nat → R)))
    (hl : slegalRun ⟨n, fun _ _ => none⟩ ops) :
    ∃ m m', SMat.make dbg t junk0 n = .ok m ∧ m.run dbg t o ops = .ok m' ∧ isSymmetric (m'.get dbg t o) m'.size m'.size = .ok true := by
  obtain ⟨m, m', h1, h2, hsz, h3⟩ := C09_symmetric_history dbg t hk o n junk0 ops hl
  refine ⟨m, m', h1, h2, ?_⟩
  rw [← hsz] at h3
  have hex : ∀ i j, ∃ v, i < m'.size → j < m'.size → m'.get dbg t o i j = .ok v := by
    intro i j
    by_cases c : i < m'.size ∧ j < m'.size
    · obtain ⟨⟨v, hv, _⟩, _⟩ := h3 i j c.1 c.2; exact ⟨v, fun _ _ => hv⟩
    · exact ⟨junk0 0, fun a b => absurd ⟨a, b⟩ c⟩
  choose A hA using hex
  obtain ⟨b, b1, b2⟩ := C127_is_symmetric (m'.get dbg t o) A m'.size m'.size (fun i j hi hj => hA i j hi hj)
  rw [b1, b2.2 ⟨rfl, fun i j hi hj => ?_⟩]
  have := (h3 i j hi hj).2
  rw [hA i j hi hj, hA j i hj hi] at this
  exact Except.ok.inj this

/-- **C127** (hermitian_matrix).  After any history without an erase outside the stored triangle (C10), a hermitian_matrix passes `is_hermitian` exactly when
its diagonal elements are their own conjugates: nothing keeps a client from storing others. -/
theorem C127_hermitian_matrix [Zero R] (conj : R → R) (hc : ∀ x, conj (conj x) = x) (hc0 : conj 0 = 0) (dbg : Bool) (t : Tri) (hk : t.kind = .lower) (o : Orient)
    (n : Nat) (junk0 : Nat → R) (ops : List (SOp R × (Nat → R))) (hl : hlegalRun conj false t ⟨n, fun _ _ => none⟩ ops) :
    ∃ m m' b, SMat.make dbg t junk0 n = .ok m ∧ m.hrun conj dbg t o ops = .ok m' ∧ isHermitian conj (m'.hget conj dbg t o) m'.size m'.size = .ok b ∧
      (b = true ↔ ∀ i, i < m'.size → ∃ v, m'.hget conj dbg t o i i = .ok v ∧ conj v = v) := by
  obtain ⟨m, m', h1, h2, hsz, h3⟩ := C10_hermitian_history_partial conj hc hc0 dbg t hk o n junk0 ops hl
  rw [← hsz] at h3
  have hex : ∀ i j, ∃ v, i < m'.size → j < m'.size → m'.hget conj dbg t o i j = .ok v := by
    intro i j
    by_cases c : i < m'.size ∧ j < m'.size
    · obtain ⟨v, hv, _⟩ := h3 i j c.1 c.2; exact ⟨v, fun _ _ => hv⟩
    · exact ⟨junk0 0, fun a b => absurd ⟨a, b⟩ c⟩
  choose A hA using hex
  obtain ⟨b, b1, b2⟩ := C127_is_hermitian conj hc (m'.hget conj dbg t o) A m'.size m'.size (fun i j hi hj => hA i j hi hj)
  refine ⟨m, m', b, h1, h2, b1, b2.trans ⟨fun h i hi => ⟨A i i, hA i i hi hi, (h.2 i i hi hi).symm⟩, fun h => ⟨rfl, fun i j hi hj => ?_⟩⟩⟩
  by_cases e : i = j
  · subst e
    obtain ⟨v, v1, v2⟩ := h i hi
    rw [hA i i hi hi] at v1; rw [Except.ok.inj v1]
    exact v2.symm
  · obtain ⟨v, v1, _, v3⟩ := h3 j i hj hi
    have v3 := v3 (Ne.symm e)
    rw [hA j i hj hi] at v1; rw [hA i j hi hj] at v3
    rw [← Except.ok.inj v1] at v3
    exact Except.ok.inj v3

/-- A history that stores a diagonal element which is not its own conjugate: the matrix of class hermitian_matrix is not hermitian (elements are pairs, conjugation
negates the second). -/
theorem C127_diagonal_refuted : ∃ (m m' : SMat (Int × Int)), SMat.make true ⟨.lower, false⟩ (fun _ => (0, 0)) 1 = .ok m ∧
    m.hrun (fun z => (z.1, -z.2)) true ⟨.lower, false⟩ .row [(.insert 0 0 (1, 5), fun _ => (0, 0))] = .ok m' ∧
    isHermitian (fun z => (z.1, -z.2)) (m'.hget (fun z => (z.1, -z.2)) true ⟨.lower, false⟩ .row) 1 1 = .ok false :=
  ⟨⟨1, [(0, 0)]⟩, ⟨1, [(1, 5)]⟩, by decide, by decide, by decide⟩

example : isSymmetric (fun i j => (.ok ((i : Int) * j + i + j) : M Int)) 3 3 = .ok true ∧ isSymmetric (fun i j => (.ok ((i : Int) - j) : M Int)) 2 2 = .ok false ∧
    isSymmetric (fun _ _ => (.error .ub : M Int)) 2 3 = .ok false := ⟨by decide, by decide, by decide⟩
example : hlegalRun (fun z : Int × Int => (z.1, -z.2)) false ⟨.lower, false⟩ ⟨2, fun _ _ => none⟩ [(.insert 0 1 (7, 3), fun _ => (0, 0)), (.resize 3 true, fun _ => (0, 0))] := by
  simp [hlegalRun, hlegal]

end Ublas
