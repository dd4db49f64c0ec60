import Verif.Model.Solve
import Verif.Spec.Solve
import Verif.Lemmas.Operation
import Mathlib.Tactic.Ring
import Mathlib.Tactic.FieldSimp
/-! # Triangular solvers -/
namespace Ublas.Solve
open Finset
variable {σ R : Type} [Field R] [DecidableEq R]

theorem ord_lt {upper : Bool} {n k : Nat} (h : k < n) : ord upper n k < n := by
  unfold ord; split <;> omega

theorem ord_ord {upper : Bool} {n k : Nat} (h : k < n) : ord upper n (ord upper n k) = k := by
  unfold ord; split <;> omega

theorem ord_inj {upper : Bool} {n k l : Nat} (h : k < n) (h' : l < n) : ord upper n k = ord upper n l ↔ k = l := by
  unfold ord; split <;> omega

theorem strict_ord {upper : Bool} {n k l : Nat} (h : k < n) (h' : l < n) : Strict upper (ord upper n k) (ord upper n l) ↔ l < k := by
  cases upper <;> simp [Strict, ord] <;> omega

theorem sum_ord (upper : Bool) (n : Nat) (f : Nat → R) : ∑ m ∈ range n, f m = ∑ k ∈ range n, f (ord upper n k) := by
  cases upper with
  | false => simp [ord]
  | true => simp only [ord, if_true]; exact (sum_range_reflect f n).symm

/-- The matrix operand presents the triangle `t`. -/
structure Side (upper : Bool) (W : MSeq R) (n : Nat) (t : Nat → Nat → R) : Prop where
  size1 : W.size1 = n
  size2 : W.size2 = n
  at_ : ∀ i j, i < n → j < n → (i = j ∨ Strict upper i j) → W.at_ i j = .ok (t i j)
  rows : ∀ i, i < n → ((W.rowEls i).map (·.1)).Pairwise (· < ·) ∧ (∀ p ∈ W.rowEls i, Strict upper i p.1 → p.1 < n ∧ p.2 = t i p.1) ∧
    ∀ j, j < n → Strict upper i j → j ∉ (W.rowEls i).map (·.1) → t i j = 0
  cols : ∀ j, j < n → ((W.colEls j).map (·.1)).Pairwise (· < ·) ∧ (∀ p ∈ W.colEls j, Strict upper p.1 j → p.1 < n ∧ p.2 = t p.1 j) ∧
    ∀ i, i < n → Strict upper i j → i ∉ (W.colEls j).map (·.1) → t i j = 0
  zero : ∀ i j, i < n → j < n → i ≠ j → ¬ Strict upper i j → t i j = 0

theorem sub_ok {ι : Type} [DecidableEq ι] {V : Acc σ ι R} {In : ι → Prop} {H : σ → (ι → R) → Prop} (hV : V.Lawful In H) {s : σ} {w : ι → R} (hs : H s w) {i : ι} (hi : In i) (y : R) :
    ∃ s', sub V s i y = .ok s' ∧ H s' (fun k => w k + if k = i then -y else 0) := by
  have : sub V s i y = Acc.add V s i (-y) := by simp only [sub, Acc.add, sub_eq_add_neg]
  rw [this]; exact hV.add hs hi _

/-- What subtracting along a list of elements does. -/
theorem list_upd {V : Acc σ Nat R} {H : σ → (Nat → R) → Prop} {n : Nat} (hV : V.Lawful (· < n) H) (L : List (Nat × R)) (hL : ∀ p ∈ L, p.1 < n) (t : R) {s : σ} {w : Nat → R} (h : H s w) :
    ∃ s', L.foldlM (fun s p => sub V s p.1 (p.2 * t)) s = .ok s' ∧ H s' (fun i => w i - ProdFn.val L i * t) := by
  obtain ⟨s', e, h'⟩ := foldlM_add (Rep := H) (f := fun s p => sub V s p.1 (p.2 * t)) (g := fun p i => if i = p.1 then -(p.2 * t) else 0) L s w
    (fun s w p hp hs => sub_ok hV hs (hL p hp) _) h
  refine ⟨s', e, ?_⟩
  have : (fun i => w i - ProdFn.val L i * t) = fun i => w i + (L.map fun p => if i = p.1 then -(p.2 * t) else 0).sum := by
    funext i
    clear h' e hL
    rw [sub_eq_add_neg]
    congr 1
    induction L with
    | nil => simp
    | cons p L ih =>
      rw [ProdFn.val_cons, List.map_cons, List.sum_cons, ← ih, add_mul, neg_add]
      congr 1
      by_cases hp : p.1 = i
      · simp [hp]
      · have : ¬ i = p.1 := fun e => hp e.symm
        simp [hp, this]
  rw [this]; exact h'

theorem val_reverse (L : List (Nat × R)) (i : Nat) : ProdFn.val L.reverse i = ProdFn.val L i := by
  unfold ProdFn.val; rw [List.map_reverse]; exact List.sum_reverse _

/-- The elements of a filtered line. -/
theorem val_filter {L : List (Nat × R)} (hs : (L.map (·.1)).Pairwise (· < ·)) {P : Nat → Bool} {v : Nat → R} {k : Nat} (hv : ∀ p ∈ L, P p.1 = true → p.2 = v p.1)
    (hz : P k = true → k ∉ L.map (·.1) → v k = 0) : ProdFn.val (L.filter fun p => P p.1) k = if P k = true then v k else 0 := by
  have hs' : ((L.filter fun p => P p.1).map (·.1)).Pairwise (· < ·) := by
    rw [List.pairwise_map] at hs ⊢
    exact List.Pairwise.filter _ hs
  by_cases hk : P k = true
  · rw [if_pos hk]
    by_cases hm : k ∈ L.map (·.1)
    · obtain ⟨p, hp, rfl⟩ := List.mem_map.1 hm
      rw [ProdFn.val_mem hs' (List.mem_filter.2 ⟨hp, hk⟩), hv p hp hk]
    · rw [hz hk hm]
      refine ProdFn.val_zero fun h => hm ?_
      obtain ⟨p, hp, e⟩ := List.mem_map.1 h
      exact e ▸ List.mem_map_of_mem (List.mem_filter.1 hp).1
  · rw [if_neg hk]
    refine ProdFn.val_zero fun h => hk ?_
    obtain ⟨p, hp, rfl⟩ := List.mem_map.1 h
    exact (List.mem_filter.1 hp).2

/-- Subtracting column `k` (strictly inside the triangle) times `x`. -/
def Upd (H : σ → (Nat → R) → Prop) (upper : Bool) (n : Nat) (t : Nat → Nat → R) (upd : Nat → R → σ → M σ) : Prop :=
  ∀ k x s w, k < n → H s w → ∃ s', upd k x s = .ok s' ∧ H s' (fun m => w m - (if m < n ∧ Strict upper m k then t m k else 0) * x)

/-- Reducing with row `k` (strictly inside the triangle). -/
def Red (H : σ → (Nat → R) → Prop) (upper : Bool) (n : Nat) (t : Nat → Nat → R) (red : Nat → R → σ → M R) : Prop :=
  ∀ k x s w, k < n → H s w → red k x s = .ok (x - ∑ m ∈ range n, (if Strict upper k m then t k m else 0) * w m)

section ops
variable {V : Acc σ Nat R} {H : σ → (Nat → R) → Prop} {n : Nat} {upper : Bool} {W : MSeq R} {t : Nat → Nat → R}

theorem colIter_upd (hV : V.Lawful (· < n) H) (hW : Side upper W n t) : Upd H upper n t (colIter upper W V n) := by
  intro k x s w hk hs
  obtain ⟨c1, c2, c3⟩ := hW.cols k hk
  have key : ∀ (L : List (Nat × R)), (∀ p ∈ L, p.1 < n) → (∀ m, ProdFn.val L m = if m < n ∧ Strict upper m k then t m k else 0) →
      ∃ s', L.foldlM (fun s p => sub V s p.1 (p.2 * x)) s = .ok s' ∧ H s' (fun m => w m - (if m < n ∧ Strict upper m k then t m k else 0) * x) := by
    intro L h1 h2
    obtain ⟨s', e, h'⟩ := list_upd hV L h1 x hs
    exact ⟨s', e, by simpa only [h2] using h'⟩
  cases upper with
  | true =>
    simp only [colIter, if_true]
    refine key _ (fun p hp => ?_) fun m => ?_
    · have := (List.mem_filter.1 (List.mem_reverse.1 hp)).2
      simp only [decide_eq_true_eq] at this; omega
    · rw [val_reverse, val_filter (P := fun i => decide (0 ≤ i ∧ i < k)) (v := fun i => t i k) c1
        (fun p hp hP => (c2 p hp (by simpa [Strict] using hP)).2) (fun hP hm => c3 m (by simp at hP; omega) (by simpa [Strict] using hP) hm)]
      simp only [decide_eq_true_eq, Strict, if_true]
      congr 1
      simp; omega
  | false =>
    simp only [colIter, Bool.false_eq_true, if_false]
    refine key _ (fun p hp => ?_) fun m => ?_
    · have := (List.mem_filter.1 hp).2
      simp only [decide_eq_true_eq] at this; omega
    · rw [val_filter (P := fun i => decide (k + 1 ≤ i ∧ i < n)) (v := fun i => t i k) c1
        (fun p hp hP => (c2 p hp (by simp [Strict] at hP ⊢; omega)).2) (fun hP hm => c3 m (by simp at hP; omega) (by simp [Strict] at hP ⊢; omega) hm)]
      simp only [decide_eq_true_eq, Strict, Bool.false_eq_true, if_false]
      congr 1
      simp; omega

theorem colDense_upd (hV : V.Lawful (· < n) H) (hW : Side upper W n t) : Upd H upper n t (colDense upper W V n) := by
  intro k x s w hk hs
  cases upper with
  | true =>
    simp only [colDense, if_true]
    obtain ⟨s', e, h'⟩ := loop_add (n := k) (Rep := H) (f := fun i s => (do
      let a ← W.at_ (k - 1 - i) k
      sub V s (k - 1 - i) (a * x) : M σ)) (g := fun i m => if m = k - 1 - i then -(t (k - 1 - i) k * x) else 0) (by
        intro i s w hi hs
        simp only [hW.at_ (k - 1 - i) k (by omega) hk (.inr (by simp [Strict]; omega)), bind_ok]
        exact sub_ok hV hs (by omega) _) hs
    refine ⟨s', e, ?_⟩
    convert h' using 2 with m
    rw [sub_eq_add_neg]
    congr 1
    by_cases hm : m < n ∧ Strict true m k
    · rw [if_pos hm]
      have hm' : m < k := by simpa [Strict] using hm.2
      rw [sum_eq_single (k - 1 - m)]
      · rw [if_pos (by omega), show k - 1 - (k - 1 - m) = m by omega]
      · intro i hi hne
        have : i < k := by simpa using hi
        rw [if_neg (by omega)]
      · intro h; exact absurd (by simp; omega) h
    · rw [if_neg hm, zero_mul, neg_zero, sum_eq_zero]
      intro i hi
      have : i < k := by simpa using hi
      have hm' : ¬ (m < n ∧ m < k) := by simpa [Strict] using hm
      rw [if_neg (by omega)]
  | false =>
    simp only [colDense, Bool.false_eq_true, if_false]
    obtain ⟨s', e, h'⟩ := loop_add (n := n - (k + 1)) (Rep := H) (f := fun i s => (do
      let a ← W.at_ (k + 1 + i) k
      sub V s (k + 1 + i) (a * x) : M σ)) (g := fun i m => if m = k + 1 + i then -(t (k + 1 + i) k * x) else 0) (by
        intro i s w hi hs
        simp only [hW.at_ (k + 1 + i) k (by omega) hk (.inr (by simp [Strict]; omega)), bind_ok]
        exact sub_ok hV hs (by omega) _) hs
    refine ⟨s', e, ?_⟩
    convert h' using 2 with m
    rw [sub_eq_add_neg]
    congr 1
    by_cases hm : m < n ∧ Strict false m k
    · rw [if_pos hm]
      have hm' : k < m := by simpa [Strict] using hm.2
      rw [sum_eq_single (m - (k + 1))]
      · rw [if_pos (by omega), show k + 1 + (m - (k + 1)) = m by omega]
      · intro i hi hne
        rw [if_neg (by omega)]
      · intro h; exact absurd (by simp; omega) h
    · rw [if_neg hm, zero_mul, neg_zero, sum_eq_zero]
      intro i hi
      have : i < n - (k + 1) := by simpa using hi
      have hm' : ¬ (m < n ∧ k < m) := by simpa [Strict] using hm
      rw [if_neg (by omega)]

theorem rowIter_red (hV : V.Lawful (· < n) H) (hW : Side upper W n t) : Red H upper n t (rowIter upper W V) := by
  intro k x s w hk hs
  obtain ⟨c1, c2, c3⟩ := hW.rows k hk
  have key : ∀ (L : List (Nat × R)), (∀ p ∈ L, p.1 < n) → ∀ x, L.foldlM (fun t p => (do
      let y ← V.get s p.1
      .ok (t - p.2 * y) : M R)) x = .ok (x - dot n (ProdFn.val L) w) := by
    intro L
    induction L with
    | nil => intro _ x; simp [ProdFn.dot_nil_left]
    | cons p L ih =>
      intro hL x
      simp only [List.foldlM_cons, hV.get s w hs p.1 (hL p (by simp)), bind_ok]
      rw [ih fun q hq => hL q (by simp [hq]), ProdFn.dot_cons_left (hL p (by simp))]
      congr 1; ring
  have fin : ∀ (L : List (Nat × R)), (∀ m, m < n → ProdFn.val L m = if Strict upper k m then t k m else 0) →
      dot n (ProdFn.val L) w = ∑ m ∈ range n, (if Strict upper k m then t k m else 0) * w m := by
    intro L hL
    exact ProdFn.dot_congr hL fun _ _ => rfl
  unfold rowIter
  cases upper with
  | true =>
    simp only [if_true, hW.size2]
    rw [key _ (fun p hp => by have := (List.mem_filter.1 hp).2; simp only [decide_eq_true_eq] at this; omega), fin]
    intro m hm
    rw [val_filter (P := fun i => decide (k + 1 ≤ i ∧ i < n)) (v := t k) c1
        (fun p hp hP => (c2 p hp (by simp [Strict] at hP ⊢; omega)).2) (fun hP hm' => c3 m hm (by simp [Strict] at hP ⊢; omega) hm')]
    simp only [decide_eq_true_eq, Strict, if_true]
    congr 1
    simp; omega
  | false =>
    simp only [Bool.false_eq_true, if_false]
    rw [key _ (fun p hp => by have := (List.mem_filter.1 hp).2; simp only [decide_eq_true_eq] at this; omega), fin]
    intro m hm
    rw [val_filter (P := fun i => decide (0 ≤ i ∧ i < k)) (v := t k) c1
        (fun p hp hP => (c2 p hp (by simp [Strict] at hP ⊢; omega)).2) (fun hP hm' => c3 m hm (by simp [Strict] at hP ⊢; omega) hm')]
    simp only [decide_eq_true_eq, Strict, Bool.false_eq_true, if_false]
    congr 1
    simp

theorem rowDense_red (hV : V.Lawful (· < n) H) (hW : Side true W n t) : Red H true n t (rowDense W V) := by
  intro k x s w hk hs
  simp only [rowDense, hW.size2]
  obtain ⟨y, e, h'⟩ := loop_inv (n := n - (k + 1)) (s := x) (f := fun i y => (do
    let a ← W.at_ k (k + 1 + i)
    let z ← V.get s (k + 1 + i)
    .ok (y - a * z) : M R)) (fun i y => y = x - ∑ j ∈ range i, t k (k + 1 + j) * w (k + 1 + j)) (by simp) (by
      rintro i y hi rfl
      simp only [hW.at_ k (k + 1 + i) hk (by omega) (.inr (by simp [Strict]; omega)), hV.get s w hs (k + 1 + i) (by omega), bind_ok]
      exact ⟨_, rfl, by rw [sum_range_succ]; ring⟩)
  rw [e, h']
  congr 2
  have h1 : (∑ m ∈ range n, (if Strict true k m then t k m else 0) * w m) = ∑ m ∈ Ico (k + 1) n, t k m * w m := by
    rw [← sum_filter_add_sum_filter_not (range n) (fun m => Strict true k m)]
    rw [show (∑ m ∈ range n with ¬ Strict true k m, (if Strict true k m then t k m else 0) * w m) = 0 from sum_eq_zero fun m hm => by
      rw [if_neg (mem_filter.1 hm).2, zero_mul], add_zero]
    refine sum_congr ?_ fun m hm => ?_
    · ext m; simp [Strict]; omega
    · have : Strict true k m := by simp at hm; simp [Strict]; omega
      rw [if_pos this]
  rw [h1, sum_Ico_eq_sum_range]

end ops

/-! ## Invariants -/

/-- The rows done so far are solved. -/
def Done (upper : Bool) (n : Nat) (t : Nat → Nat → R) (b : Nat → R) (k : Nat) (w : Nat → R) : Prop :=
  ∀ j, j < k → ∑ i ∈ range (j + 1), t (ord upper n j) (ord upper n i) * w (ord upper n i) = b (ord upper n j)

/-- Column-oriented: the remaining rows have the known part already subtracted. -/
def ColInv (upper : Bool) (n : Nat) (t : Nat → Nat → R) (b : Nat → R) (k : Nat) (w : Nat → R) : Prop :=
  Done upper n t b k w ∧ ∀ j, k ≤ j → j < n → w (ord upper n j) + ∑ i ∈ range k, t (ord upper n j) (ord upper n i) * w (ord upper n i) = b (ord upper n j)

/-- Row-oriented: the remaining rows are untouched. -/
def RowInv (upper : Bool) (n : Nat) (t : Nat → Nat → R) (b : Nat → R) (k : Nat) (w : Nat → R) : Prop :=
  Done upper n t b k w ∧ ∀ j, k ≤ j → j < n → w (ord upper n j) = b (ord upper n j)

theorem Done.solved {upper : Bool} {n : Nat} {t : Nat → Nat → R} {b w : Nat → R} (h : Done upper n t b n w)
    (hz : ∀ i j, i < n → j < n → i ≠ j → ¬ Strict upper i j → t i j = 0) : ∀ m, m < n → ∑ j ∈ range n, t m j * w j = b m := by
  intro m hm
  have h1 := h (ord upper n m) (ord_lt hm)
  rw [ord_ord hm] at h1
  rw [sum_ord upper, ← h1]
  symm
  refine sum_subset (fun i hi => ?_) fun i hi hn => ?_
  · have := ord_lt (upper := upper) hm
    simp at hi ⊢; omega
  · have hi' : i < n := by simpa using hi
    have hn' : ord upper n m < i := by simp at hn; omega
    rw [hz m (ord upper n i) hm (ord_lt hi'), zero_mul]
    · intro e; rw [e, ord_ord hi'] at hn'; omega
    · rw [← ord_ord (upper := upper) hm, strict_ord (ord_lt hm) hi']; omega

section steps
variable {V : Acc σ Nat R} {H : σ → (Nat → R) → Prop} {n : Nat} {upper : Bool} {W : MSeq R} {t : Nat → Nat → R} {b : Nat → R}

theorem colStep_ok (hV : V.Lawful (· < n) H) (hW : Side upper W n t) {upd : Nat → R → σ → M σ} (hu : Upd H upper n t upd) {k : Nat} (hk : k < n)
    (hd : t (ord upper n k) (ord upper n k) ≠ 0) {s : σ} {w : Nat → R} (hs : H s w) (hI : ColInv upper n t b k w) :
    ∃ s' w', colStep W V upd (ord upper n k) s = .ok s' ∧ H s' w' ∧ ColInv upper n t b (k + 1) w' := by
  have hk' := ord_lt (upper := upper) hk
  obtain ⟨x, hx0⟩ : ∃ x, w (ord upper n k) / t (ord upper n k) (ord upper n k) = x := ⟨_, rfl⟩
  obtain ⟨s1, e1, h1⟩ := hV.set s w hs (ord upper n k) hk' x
  have main : ∃ s', (if x ≠ 0 then upd (ord upper n k) x s1 else .ok s1) = .ok s' ∧
      H s' (fun m => Function.update w (ord upper n k) x m - (if m < n ∧ Strict upper m (ord upper n k) then t m (ord upper n k) else 0) * x) := by
    by_cases hx : x = 0
    · refine ⟨s1, by simp [hx], ?_⟩
      convert h1 using 2 with m
      rw [hx, mul_zero, sub_zero]
    · obtain ⟨s', e, h'⟩ := hu (ord upper n k) x s1 _ hk' h1
      exact ⟨s', by simp [hx, e], h'⟩
  obtain ⟨s', e2, h2⟩ := main
  refine ⟨s', _, ?_, h2, ?_⟩
  · simp only [colStep, hW.at_ _ _ hk' hk' (.inl rfl), hV.get s w hs _ hk', bind_ok, quot, if_neg hd, hx0, e1]
    exact e2
  · have hw : ∀ j, j < n → (Function.update w (ord upper n k) x (ord upper n j) -
        (if ord upper n j < n ∧ Strict upper (ord upper n j) (ord upper n k) then t (ord upper n j) (ord upper n k) else 0) * x) =
        if j < k then w (ord upper n j) else if j = k then x else w (ord upper n j) - t (ord upper n j) (ord upper n k) * x := by
      intro j hj
      simp only [Function.update_apply, ord_inj hj hk, strict_ord hj hk]
      rcases Nat.lt_trichotomy j k with c | c | c
      · rw [if_pos c, if_neg (by omega), if_neg (by omega), zero_mul, sub_zero]
      · subst c; simp
      · have a1 : ¬ j = k := by omega
        have a2 : ¬ j < k := by omega
        simp only [a1, a2, c, ord_lt hj, and_self, if_true, if_false]
    have hsum : ∀ (f : Nat → R) j, j ≤ k → (∑ i ∈ range j, f i * (Function.update w (ord upper n k) x (ord upper n i) -
        (if ord upper n i < n ∧ Strict upper (ord upper n i) (ord upper n k) then t (ord upper n i) (ord upper n k) else 0) * x)) = ∑ i ∈ range j, f i * w (ord upper n i) := by
      intro f j hj
      refine sum_congr rfl fun i hi => ?_
      have hi' : i < j := by simpa using hi
      rw [hw i (by omega), if_pos (by omega)]
    refine ⟨fun j hj => ?_, fun j hj hjn => ?_⟩
    · rcases Nat.lt_or_ge j k with c | c
      · rw [hsum _ (j + 1) (by omega)]; exact hI.1 j c
      · have : j = k := by omega
        subst this
        beta_reduce
        rw [sum_range_succ, hsum _ j (Nat.le_refl _), hw j hk, if_neg (by omega), if_pos rfl]
        have := hI.2 j (Nat.le_refl _) hk
        rw [← hx0, mul_div_cancel₀ _ hd, add_comm]; exact this
    · beta_reduce
      rw [sum_range_succ, hsum _ k (Nat.le_refl _), hw j hjn, hw k hk, if_neg (by omega), if_neg (by omega), if_neg (by omega), if_pos rfl]
      have := hI.2 j (by omega) hjn
      rw [← this]; ring

theorem rowStep_ok (hV : V.Lawful (· < n) H) (hW : Side upper W n t) {red : Nat → R → σ → M R} (hr : Red H upper n t red) {k : Nat} (hk : k < n)
    (hd : t (ord upper n k) (ord upper n k) ≠ 0) {s : σ} {w : Nat → R} (hs : H s w) (hI : RowInv upper n t b k w) :
    ∃ s' w', (do
      let x ← V.get s (ord upper n k)
      let x ← red (ord upper n k) x s
      let d ← W.at_ (ord upper n k) (ord upper n k)
      let y ← quot x d
      V.set s (ord upper n k) y) = .ok s' ∧ H s' w' ∧ RowInv upper n t b (k + 1) w' := by
  have hk' := ord_lt (upper := upper) hk
  have hred := hr (ord upper n k) (w (ord upper n k)) s w hk' hs
  have hs1 : (∑ m ∈ range n, (if Strict upper (ord upper n k) m then t (ord upper n k) m else 0) * w m) = ∑ i ∈ range k, t (ord upper n k) (ord upper n i) * w (ord upper n i) := by
    rw [sum_ord upper]
    symm
    refine sum_subset_zero_on_sdiff (fun i hi => ?_) (fun i hi => ?_) fun i hi => ?_
    · simp at hi ⊢; omega
    · simp at hi
      rw [if_neg, zero_mul]
      rw [strict_ord hk hi.1]; omega
    · have hi' : i < k := by simpa using hi
      rw [if_pos]
      rw [strict_ord hk (by omega)]; exact hi'
  rw [hs1] at hred
  obtain ⟨s', e, h'⟩ := hV.set s w hs (ord upper n k) hk' ((w (ord upper n k) - ∑ i ∈ range k, t (ord upper n k) (ord upper n i) * w (ord upper n i)) / t (ord upper n k) (ord upper n k))
  refine ⟨s', _, ?_, h', ?_⟩
  · simp only [hV.get s w hs _ hk', hred, hW.at_ _ _ hk' hk' (.inl rfl), bind_ok, quot, if_neg hd, e]
  · have hne : ∀ i, i < n → i ≠ k → ord upper n i ≠ ord upper n k := fun i hi hne e => hne ((ord_inj hi hk).1 e)
    have hsum : ∀ (f : Nat → R) (y : R) j, j ≤ k → (∑ i ∈ range j, f i * Function.update w (ord upper n k) y (ord upper n i)) = ∑ i ∈ range j, f i * w (ord upper n i) := by
      intro f y j hj
      refine sum_congr rfl fun i hi => ?_
      have hi' : i < j := by simpa using hi
      rw [Function.update_of_ne (hne i (by omega) (by omega))]
    refine ⟨fun j hj => ?_, fun j hj hjn => ?_⟩
    · rcases Nat.lt_or_ge j k with c | c
      · rw [hsum _ _ (j + 1) (by omega)]; exact hI.1 j c
      · have : j = k := by omega
        subst this
        rw [sum_range_succ, hsum _ _ j (Nat.le_refl _), Function.update_self, mul_div_cancel₀ _ hd, hI.2 j (Nat.le_refl _) hk]
        ring
    · rw [Function.update_of_ne (hne j hjn (by omega))]; exact hI.2 j (by omega) hjn

theorem checkDiag_ok (hW : Side upper W n t) (dbg : Bool) {i : Nat} (hi : i < n) (hd : t i i ≠ 0) : checkDiag dbg W i = .ok () := by
  cases dbg with
  | false => rfl
  | true => simp only [checkDiag, if_true, hW.at_ i i hi hi (.inl rfl), bind_ok]; exact check_true hd

theorem checkDiag_error (hW : Side upper W n t) {i : Nat} (hi : i < n) (hd : t i i = 0) : checkDiag true W i = .error .singular := by
  simp only [checkDiag, if_true, hW.at_ i i hi hi (.inl rfl), bind_ok, check, hd]
  simp

theorem colSolve_upto (hV : V.Lawful (· < n) H) (hW : Side upper W n t) {upd : Nat → R → σ → M σ} (hu : Upd H upper n t upd) (dbg : Bool) {k : Nat} (hk : k ≤ n)
    (hd : ∀ j, j < k → t (ord upper n j) (ord upper n j) ≠ 0) {s : σ} (hs : H s b) :
    ∃ s', loop (fun k s => (do
      let n := ord upper n k
      checkDiag dbg W n
      colStep W V upd n s : M σ)) k s = .ok s' ∧ ∃ w, H s' w ∧ ColInv upper n t b k w := by
  refine loop_inv (fun k s => ∃ w, H s w ∧ ColInv upper n t b k w) ⟨b, hs, fun j hj => by omega, fun j _ _ => by simp⟩ ?_
  rintro j s hj ⟨w, h1, h2⟩
  obtain ⟨s', w', e, h3, h4⟩ := colStep_ok hV hW hu (by omega : j < n) (hd j hj) h1 h2
  exact ⟨s', by simp only [checkDiag_ok hW dbg (ord_lt (by omega)) (hd j hj), bind_ok, e], w', h3, h4⟩

theorem rowSolve_upto (hV : V.Lawful (· < n) H) (hW : Side upper W n t) {red : Nat → R → σ → M R} (hr : Red H upper n t red) (dbg : Bool) {k : Nat} (hk : k ≤ n)
    (hd : ∀ j, j < k → t (ord upper n j) (ord upper n j) ≠ 0) {s : σ} (hs : H s b) :
    ∃ s', loop (fun k s => (do
      let n := ord upper n k
      checkDiag dbg W n
      let t ← V.get s n
      let t ← red n t s
      let d ← W.at_ n n
      let x ← quot t d
      V.set s n x : M σ)) k s = .ok s' ∧ ∃ w, H s' w ∧ RowInv upper n t b k w := by
  refine loop_inv (fun k s => ∃ w, H s w ∧ RowInv upper n t b k w) ⟨b, hs, fun j hj => by omega, fun j _ _ => rfl⟩ ?_
  rintro j s hj ⟨w, h1, h2⟩
  obtain ⟨s', w', e, h3, h4⟩ := rowStep_ok hV hW hr (by omega : j < n) (hd j hj) h1 h2
  exact ⟨s', by simp only [checkDiag_ok hW dbg (ord_lt (by omega)) (hd j hj), bind_ok]; exact e, w', h3, h4⟩

end steps

theorem loop_error {f : Nat → σ → M σ} {n k : Nat} {s s' : σ} {e : Fault} (hk : k < n) (h : loop f k s = .ok s') (he : f k s' = .error e) : loop f n s = .error e := by
  induction n with
  | zero => omega
  | succ n ih =>
    rw [loop]
    rcases Nat.lt_or_ge k n with c | c
    · rw [ih c]; rfl
    · have : k = n := by omega
      subst this
      rw [h]; exact he

end Ublas.Solve
