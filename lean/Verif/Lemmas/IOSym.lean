import Verif.Lemmas.IOMatrix
import Mathlib.Tactic.Set
/-! # Reading symmetric matrices -/
namespace Ublas.IO
variable {σ R : Type} [DecidableEq R]

/-- One element of a symmetric matrix: set on and above the diagonal, compared below. -/
def SymStep (A : Acc σ (Nat × Nat) R) (i j : Nat) (x : σ) (a : R) (x' : σ) : Prop :=
  (i ≤ j ∧ A.set x (i, j) a = .ok x') ∨ (j < i ∧ A.get x (i, j) = .ok a ∧ x' = x)

theorem symLoop_step {E : ElemIO R} {n : Nat} {A : Acc σ (Nat × Nat) R} {i k j : Nat} {x y : σ} {a : R} {b b' : List Char} (h : SymStep A i j x a y) (hr : E.read b = some (a, b'))
    (hd : ¬ ((IS.differs ',' ⟨b', true⟩).1 = true ∧ j < n - 1)) :
    symLoop E n A i (k + 1) j x ⟨b, true⟩ = symLoop E n A i k (j + 1) y (IS.differs ',' ⟨b', true⟩).2 := by
  simp only [symLoop, extract_ok hr, if_neg hd]
  rcases h with ⟨h1, h2⟩ | ⟨h1, h2, rfl⟩
  · rw [if_pos h1, h2]; rfl
  · rw [if_neg (by omega), h2]
    simp

theorem symLoop_reads {E : ElemIO R} {n : Nat} {Inv : σ → Prop} {A : Acc σ (Nat × Nat) R} {i : Nat} (hg : ∀ x j, Inv x → j < n → ∃ a, A.get x (i, j) = .ok a)
    (hp : ∀ x j a, Inv x → j < n → ∃ y, A.set x (i, j) a = .ok y ∧ Inv y) :
    ∀ k j, j + k = n → LoopReads E Inv (Chain (Tel (SymStep A) i) k j) (symLoop E n A i k j) := by
  intro k
  induction k with
  | zero =>
    intro j _
    refine ⟨?_, ?_⟩
    · intro x tss x' extra b b' _ hC he hs
      obtain ⟨rfl, rfl⟩ := hC
      have : extra = false := by cases extra; rfl; exact absurd rfl (he rfl)
      subst this
      rw [tail_nil] at hs
      obtain ⟨b1, e1, e2⟩ := hs
      exact ⟨b, rfl, by rw [e1, e2]⟩
    · intro x s hx
      exact ⟨x, s, rfl, hx, fun hk => ⟨hk, fun b' hb => ⟨[], false, ⟨rfl, rfl⟩, by simp, by rw [tail_nil]; exact ⟨b', hb, rfl⟩⟩⟩⟩
  | succ k ih =>
    intro j hj
    have ih := ih (j + 1) (by omega)
    refine ⟨?_, ?_⟩
    · intro x tss x' extra b b' hx hC he hs
      obtain ⟨ts, r, y, rfl, ⟨a, rfl, hT⟩, hC⟩ := hC
      have hy : Inv y := by
        rcases hT with ⟨h1, h2⟩ | ⟨h1, h2, rfl⟩
        · obtain ⟨z, e, hz⟩ := hp x j a hx (by omega)
          rw [e] at h2
          exact Except.ok.inj h2 ▸ hz
        · exact hx
      cases r with
      | nil =>
        have hk : k = 0 := (chain_ne hC).1 rfl
        subst hk
        obtain ⟨-, rfl⟩ := hC
        cases extra with
        | false =>
          rw [tail_one, scan_append] at hs
          obtain ⟨b1, ⟨b0, h0, rfl⟩, b2, h2, h3⟩ := hs
          have hd := differs_ne h2 (show (')' : Char) ≠ ',' by decide)
          refine ⟨skipWs b0, ?_, by rw [skipWs_idem, h2, h3]⟩
          rw [symLoop_step hT h0 (by omega), hd]
          rfl
        | true =>
          rw [tail_one_comma, scan_append] at hs
          obtain ⟨b1, ⟨b0, h0, rfl⟩, b2, h2, b3, h3, h4⟩ := hs
          refine ⟨b2, ?_, by rw [h3, h4]⟩
          rw [symLoop_step hT h0 (by omega), differs_eq h2]
          rfl
      | cons u r =>
        rw [tail_cons, scan_append] at hs
        obtain ⟨b1, ⟨b0, h0, rfl⟩, b2, h2, h3⟩ := hs
        obtain ⟨b4, e4, h4⟩ := ih.accept y (u :: r) x' extra b2 b' hy hC (by simp) h3
        refine ⟨b4, ?_, h4⟩
        rw [symLoop_step hT h0 (by simp [differs_eq h2]), differs_eq h2, e4]
    · intro x s hx
      rcases extract_cases E.read s with ⟨e1, e2⟩ | ⟨a, hk, e1, e2, e3⟩
      · obtain ⟨x', s', e', h1, h2⟩ := ih.total x (s.extract E.read).2 hx
        have hd : (s.extract E.read).2.differs ',' = (false, (s.extract E.read).2) := by
          rw [IS.eta_failed e2, differs_failed]
        refine ⟨x', s', ?_, h1, fun hk => ?_⟩
        · simp only [symLoop, hd, e1]
          simpa using e'
        · have := (h2 hk).1
          rw [e2] at this; simp at this
      · rw [IS.eta_ok hk]
        simp only
        have e3' : E.read s.buf = some (a, (s.extract E.read).2.buf) := e3
        set b1 := (s.extract E.read).2.buf with hb1
        by_cases hdl : (IS.differs ',' ⟨b1, true⟩).1 = true ∧ j < n - 1
        · refine ⟨x, (IS.differs ',' ⟨b1, true⟩).2.fail, ?_, hx, by simp [IS.fail]⟩
          simp only [symLoop, extract_ok e3', if_pos hdl]
        · have hstep : (∃ y, SymStep A i j x a y ∧ Inv y) ∨ (symLoop E n A i (k + 1) j x ⟨s.buf, true⟩ = .ok (x, (IS.differs ',' ⟨b1, true⟩).2.fail)) := by
            by_cases hij : i ≤ j
            · obtain ⟨y, ey, hy⟩ := hp x j a hx (by omega)
              exact Or.inl ⟨y, Or.inl ⟨hij, ey⟩, hy⟩
            · obtain ⟨g, eg⟩ := hg x j hx (by omega)
              by_cases hga : g = a
              · exact Or.inl ⟨x, Or.inr ⟨by omega, hga ▸ eg, rfl⟩, hx⟩
              · right
                simp only [symLoop, extract_ok e3', if_neg hdl, if_neg hij, eg, bind_ok]
                rw [if_pos hga]
          rcases hstep with ⟨y, hT, hy⟩ | he
          swap
          · exact ⟨x, _, he, hx, by simp [IS.fail]⟩
          rw [symLoop_step hT e3' hdl]
          obtain ⟨x', s', e', h1, h2⟩ := ih.total y (IS.differs ',' ⟨b1, true⟩).2 hy
          refine ⟨x', s', e', h1, fun hk => ⟨by simp, fun b' hb => ?_⟩⟩
          obtain ⟨k1, k2⟩ := h2 hk
          rcases differs_cases ',' ⟨b1, true⟩ with ⟨d1, d2⟩ | ⟨d1, d2, d3, d4⟩ | ⟨d1, d2, d3, d4, d5⟩
          · rw [d2] at k1; simp at k1
          · obtain ⟨tss, extra, c1, c2, c3⟩ := k2 b' hb
            cases tss with
            | nil =>
              have : extra = false := by cases extra; rfl; exact absurd rfl (c2 rfl)
              subst this
              refine ⟨[[.elem a]], true, ⟨_, [], y, rfl, ⟨a, rfl, hT⟩, c1⟩, by simp, ?_⟩
              rw [tail_one_comma, scan_append]
              exact ⟨b1, ⟨b1, e3', rfl⟩, _, d4, by rw [← tail_nil]; exact c3⟩
            | cons u r =>
              refine ⟨[.elem a] :: u :: r, extra, ⟨_, u :: r, y, rfl, ⟨a, rfl, hT⟩, c1⟩, by simp, ?_⟩
              rw [tail_cons, scan_append]
              exact ⟨b1, ⟨b1, e3', rfl⟩, _, d4, c3⟩
          · have hk0 : k = 0 := by
              have : ¬ j < n - 1 := fun h => hdl ⟨d2, h⟩
              omega
            subst hk0
            simp only [symLoop, Except.ok.injEq, Prod.mk.injEq] at e'
            obtain ⟨rfl, rfl⟩ := e'
            refine ⟨[[.elem a]], false, ⟨_, [], y, rfl, ⟨a, rfl, hT⟩, rfl, rfl⟩, by simp, ?_⟩
            rw [tail_one, scan_append]
            refine ⟨b1, ⟨b1, e3', rfl⟩, b', ?_, rfl⟩
            rw [d4, skipWs_idem] at hb
            exact hb

end Ublas.IO
