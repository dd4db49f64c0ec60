import Verif.Model.LU
import Verif.Spec.LU
import Verif.Props.Norms
import Verif.Props.Solve
/-! # Loops of the LU factorisations -/
namespace Ublas.LU
open Finset
variable {σ ι R K : Type}

/-- A loop that sets one cell per step. -/
theorem loop_cells [DecidableEq ι] {V : Acc σ ι R} {In : ι → Prop} {H : σ → (ι → R) → Prop} (hV : V.Lawful In H) {n : Nat} {idx : Nat → ι} {body : Nat → σ → M σ}
    (w T : ι → R) (hin : ∀ k, k < n → In (idx k)) (hT : ∀ p, (∀ j, j < n → p ≠ idx j) → T p = w p)
    (hbody : ∀ k s w', k < n → H s w' → (∀ p, (∀ j, j < k → p ≠ idx j) → w' p = w p) → body k s = V.set s (idx k) (T (idx k))) {s : σ} (hs : H s w) :
    ∃ s', loop body n s = .ok s' ∧ H s' T := by
  obtain ⟨s', e, w', h1, h2, h3⟩ := loop_inv (f := body) (n := n) (s := s)
    (fun k s => ∃ w', H s w' ∧ (∀ p, (∀ j, j < k → p ≠ idx j) → w' p = w p) ∧ ∀ j, j < k → w' (idx j) = T (idx j))
    ⟨w, hs, fun _ _ => rfl, fun j hj => by omega⟩ (by
      rintro k t hk ⟨w', h1, h2, h3⟩
      obtain ⟨t', e, h⟩ := hV.set t w' h1 (idx k) (hin k hk) (T (idx k))
      refine ⟨t', by rw [hbody k t w' hk h1 h2, e], _, h, fun p hp => ?_, fun j hj => ?_⟩
      · rw [Function.update_of_ne (hp k (by omega))]
        exact h2 p fun j hj => hp j (by omega)
      · by_cases hjk : idx j = idx k
        · rw [hjk, Function.update_self]
        · rw [Function.update_of_ne hjk]
          refine h3 j ?_
          by_contra hge
          exact hjk (by rw [show j = k by omega]))
  refine ⟨s', e, ?_⟩
  convert h1 using 1
  funext p
  by_cases hp : ∃ j, j < n ∧ p = idx j
  · obtain ⟨j, hj, rfl⟩ := hp
    exact (h3 j hj).symm
  · rw [hT p fun j hj e => hp ⟨j, hj, e⟩, h2 p fun j hj e => hp ⟨j, hj, e⟩]

theorem swapCells_ok [DecidableEq ι] {V : Acc σ ι R} {In : ι → Prop} {H : σ → (ι → R) → Prop} (hV : V.Lawful In H) {p q : ι} (hp : In p) (hq : In q) {s : σ} {w : ι → R} (hs : H s w) :
    ∃ s', swapCells V p q s = .ok s' ∧ H s' (fun i => w (Equiv.swap p q i)) := by
  obtain ⟨s1, e1, h1⟩ := hV.set s w hs p hp (w q)
  obtain ⟨s2, e2, h2⟩ := hV.set s1 _ h1 q hq (w p)
  refine ⟨s2, by simp only [swapCells, hV.get s w hs p hp, hV.get s w hs q hq, bind_ok, e1, e2], ?_⟩
  convert h2 using 1
  funext i
  simp only [Function.update_apply, Equiv.swap_apply_def]
  by_cases h : i = p
  · subst h
    by_cases h' : i = q
    · subst h'; simp
    · simp [h']
  · by_cases h' : i = q
    · subst h'; simp [h]
    · simp [h, h']

section mat
variable {V : Acc σ (Nat × Nat) R} {n1 n2 : Nat} {H : σ → (Nat × Nat → R) → Prop} (hV : V.Lawful (fun p => p.1 < n1 ∧ p.2 < n2) H)
include hV

/-- Exchanging two rows in the columns `lo … hi - 1`. -/
theorem swapRow_ok {p q lo hi : Nat} (hp : p < n1) (hq : q < n1) (hh : hi ≤ n2) {s : σ} {w : Nat × Nat → R} (hs : H s w) :
    ∃ s', swapRow V p q lo hi s = .ok s' ∧ H s' (fun x => if lo ≤ x.2 ∧ x.2 < hi then w (Equiv.swap p q x.1, x.2) else w x) := by
  obtain ⟨s', e, h⟩ := loop_inv (f := fun k s => swapCells V (p, lo + k) (q, lo + k) s) (n := hi - lo) (s := s)
    (fun k s => H s (fun x => if lo ≤ x.2 ∧ x.2 < lo + k then w (Equiv.swap p q x.1, x.2) else w x)) (by
      convert hs using 2 with x
      rw [if_neg (by omega)]) (by
      intro k t hk ht
      obtain ⟨t', e, h'⟩ := swapCells_ok hV (p := (p, lo + k)) (q := (q, lo + k)) ⟨hp, by show lo + k < n2; omega⟩ ⟨hq, by show lo + k < n2; omega⟩ ht
      refine ⟨t', e, ?_⟩
      convert h' using 2 with x
      obtain ⟨r, c⟩ := x
      by_cases hc : c = lo + k
      · subst hc
        have e2 : (Equiv.swap (p, lo + k) (q, lo + k) (r, lo + k)) = (Equiv.swap p q r, lo + k) := by
          simp only [Equiv.swap_apply_def, Prod.mk.injEq, and_true]
          split
          · rfl
          · split <;> rfl
        rw [e2]
        simp only
        rw [if_pos (by omega), if_neg (by omega)]
      · have e2 : (Equiv.swap (p, lo + k) (q, lo + k) (r, c)) = (r, c) := by
          rw [Equiv.swap_apply_of_ne_of_ne] <;> simp [hc]
        rw [e2]
        simp only
        by_cases hl : lo ≤ c ∧ c < lo + k
        · rw [if_pos hl, if_pos (by omega)]
        · rw [if_neg hl, if_neg (by omega)])
  refine ⟨s', e, ?_⟩
  convert h using 2 with x
  by_cases hl : lo ≤ x.2 ∧ x.2 < hi
  · rw [if_pos hl, if_pos (by omega)]
  · rw [if_neg hl, if_neg (by omega)]

/-- `for (major) for (minor) set cell`: every cell of the block gets its value, provided no step depends on cells already written. -/
theorem loop_block (o : Orient) {r0 c0 r c : Nat} (hr : r0 + r ≤ n1) (hc : c0 + c ≤ n2) {body : Nat → Nat → σ → M σ} (w T : Nat × Nat → R)
    (hT : ∀ p, ¬ (r0 ≤ p.1 ∧ p.1 < r0 + r ∧ c0 ≤ p.2 ∧ p.2 < c0 + c) → T p = w p)
    (hbody : ∀ i j s w', i < r → j < c → H s w' → (∀ p, ¬ (r0 ≤ p.1 ∧ p.1 < r0 + r ∧ c0 ≤ p.2 ∧ p.2 < c0 + c) → w' p = w p) → w' (r0 + i, c0 + j) = w (r0 + i, c0 + j) →
      body i j s = V.set s (r0 + i, c0 + j) (T (r0 + i, c0 + j))) {s : σ} (hs : H s w) :
    ∃ s', loop (fun M s => loop (fun m s => body (o.indexM M m) (o.indexm M m) s) (o.sizem r c) s) (o.sizeM r c) s = .ok s' ∧ H s' T := by
  have hlt : ∀ {k l}, k < o.sizeM r c → l < o.sizem r c → o.indexM k l < r ∧ o.indexm k l < c := by
    intro k l hk hl; cases o <;> first | exact ⟨hk, hl⟩ | exact ⟨hl, hk⟩
  -- cells of the lines before `k` are done
  let Done : Nat → Nat × Nat → Prop := fun k p => (r0 ≤ p.1 ∧ p.1 < r0 + r ∧ c0 ≤ p.2 ∧ p.2 < c0 + c) ∧ o.indexM (p.1 - r0) (p.2 - c0) < k
  haveI : ∀ k p, Decidable (Done k p) := fun k p => by unfold Done; infer_instance
  obtain ⟨s', e, h⟩ := loop_inv (f := fun M s => loop (fun m s => body (o.indexM M m) (o.indexm M m) s) (o.sizem r c) s) (n := o.sizeM r c) (s := s)
    (fun k s => H s (fun p => if Done k p then T p else w p)) (by
      convert hs using 2 with p
      rw [if_neg]; rintro ⟨_, h⟩; omega) (by
      intro k t hk ht
      refine loop_cells hV (idx := fun l => (r0 + o.indexM k l, c0 + o.indexm k l)) _ _ (fun l hl => ?_) (fun p hp => ?_) (fun l s w' hl hs' hw' => ?_) ht
      · have := hlt hk hl
        exact ⟨by show r0 + _ < n1; omega, by show c0 + _ < n2; omega⟩
      · by_cases hd : Done k p
        · have hd' : Done (k + 1) p := ⟨hd.1, by have := hd.2; omega⟩
          simp only [if_pos hd, if_pos hd']
        · have hd' : ¬ Done (k + 1) p := by
            rintro ⟨hin, h2⟩
            have h3 : o.indexM (p.1 - r0) (p.2 - c0) = k := by
              have : ¬ o.indexM (p.1 - r0) (p.2 - c0) < k := fun h => hd ⟨hin, h⟩
              omega
            refine hp (o.indexm (p.1 - r0) (p.2 - c0)) ?_ ?_
            · cases o <;> simp only [Orient.indexm, Orient.sizem] <;> omega
            · cases o <;> simp only [Orient.indexM] at h3 <;> simp only [Orient.indexM, Orient.indexm] <;> ext <;> simp only <;> omega
          simp only [if_neg hd, if_neg hd']
      · have hl' := hlt hk hl
        have hin : r0 ≤ r0 + o.indexM k l ∧ r0 + o.indexM k l < r0 + r ∧ c0 ≤ c0 + o.indexm k l ∧ c0 + o.indexm k l < c0 + c := by omega
        have hidx : o.indexM (r0 + o.indexM k l - r0) (c0 + o.indexm k l - c0) = k := by
          rw [Nat.add_sub_cancel_left, Nat.add_sub_cancel_left]; cases o <;> rfl
        have hd1 : Done (k + 1) (r0 + o.indexM k l, c0 + o.indexm k l) := ⟨hin, by simp only [hidx]; omega⟩
        have hd0 : ¬ Done k (r0 + o.indexM k l, c0 + o.indexm k l) := fun h => by have := h.2; simp only [hidx] at this; omega
        rw [if_pos hd1]
        refine hbody _ _ s w' hl'.1 hl'.2 hs' (fun p hp => ?_) ?_
        · rw [hw' p, if_neg fun h => hp h.1]
          rintro j hj rfl
          have := hlt hk (Nat.lt_trans hj hl)
          exact hp (by simp only; omega)
        · rw [hw', if_neg hd0]
          intro j hj he
          cases o <;> simp only [Orient.indexM, Orient.indexm, Prod.mk.injEq] at he <;> omega)
  refine ⟨s', e, ?_⟩
  convert h using 2 with p
  by_cases hin : r0 ≤ p.1 ∧ p.1 < r0 + r ∧ c0 ≤ p.2 ∧ p.2 < c0 + c
  · rw [if_pos]
    refine ⟨hin, ?_⟩
    cases o <;> simp only [Orient.indexM, Orient.sizeM] <;> omega
  · rw [if_neg fun h => hin h.1, hT p hin]

variable [Field R] [DecidableEq R]

omit [DecidableEq R] in
theorem scaleColumn_ok {i : Nat} (hi : i < n1) (hi2 : i < n2) (y : R) {s : σ} {w : Nat × Nat → R} (hs : H s w) :
    ∃ s', scaleColumn V n1 i y s = .ok s' ∧ H s' (fun p => if i < p.1 ∧ p.1 < n1 ∧ p.2 = i then w p * y else w p) := by
  unfold scaleColumn
  refine loop_cells hV (idx := fun k => (i + 1 + k, i)) w _ (fun k hk => ⟨by show i + 1 + k < n1; omega, hi2⟩) (fun p hp => if_neg ?_) (fun k t w' hk ht hw => ?_) hs
  · rintro ⟨h1, h2, h3⟩
    exact hp (p.1 - (i + 1)) (by omega) (by ext <;> simp only <;> omega)
  · have hin : i + 1 + k < n1 ∧ i < n2 := ⟨by omega, hi2⟩
    rw [hV.get t w' ht (i + 1 + k, i) hin, bind_ok, hw, if_pos ⟨by simp only; omega, hin.1, rfl⟩]
    intro j hj he
    simp only [Prod.mk.injEq] at he
    omega

omit [DecidableEq R] in
theorem eliminate_ok (o : Orient) {i : Nat} (hi : i < n1) (hi2 : i < n2) {s : σ} {w : Nat × Nat → R} (hs : H s w) :
    ∃ s', eliminate o V n1 n2 i s = .ok s' ∧ H s' (fun p => if i < p.1 ∧ p.1 < n1 ∧ i < p.2 ∧ p.2 < n2 then w p - w (p.1, i) * w (i, p.2) else w p) := by
  unfold eliminate
  refine loop_block hV o (r0 := i + 1) (c0 := i + 1) (by omega) (by omega) (body := fun a b s => elimCell V i (i + 1 + a) (i + 1 + b) s) w _ (fun p hp => if_neg ?_)
    (fun a b t w' ha hb ht h1 h2 => ?_) hs
  · rintro ⟨h1, h2, h3, h4⟩
    exact hp ⟨by omega, by omega, by omega, by omega⟩
  · have e1 := hV.get t w' ht (i + 1 + a, i) ⟨by show i + 1 + a < n1; omega, hi2⟩
    have e2 := hV.get t w' ht (i, i + 1 + b) ⟨hi, by show i + 1 + b < n2; omega⟩
    have e3 := hV.get t w' ht (i + 1 + a, i + 1 + b) ⟨by show i + 1 + a < n1; omega, by show i + 1 + b < n2; omega⟩
    simp only [elimCell, e1, e2, e3, bind_ok, h2]
    rw [h1 (i + 1 + a, i) (by simp only; omega), h1 (i, i + 1 + b) (by simp only; omega), if_pos ⟨by omega, by omega, by omega, by omega⟩]

end mat
end Ublas.LU
