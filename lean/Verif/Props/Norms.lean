import Verif.Model.Norms
import Verif.Spec.Norms
import Verif.Props.Prod
import Verif.Lemmas.Operation
import Mathlib.Algebra.Order.Field.Basic
import Mathlib.Algebra.Order.Field.Rat
import Mathlib.Tactic.Linarith
import Mathlib.Tactic.FieldSimp
import Mathlib.Tactic.Positivity
/-! # C46, C47: reductions -/
namespace Ublas.Norms
open Finset
variable {R K T : Type}

/-! ## Every dispatch folds over the elements -/

/-- All elements with their indices. -/
def full (n : Nat) (v : Nat → R) : List (Nat × R) := (List.range n).map fun i => (i, v i)

theorem full_succ (n : Nat) (v : Nat → R) : full (n + 1) v = full n v ++ [(n, v n)] := by simp [full, List.range_succ]

theorem foldlM_pure (f : T → Nat × R → T) : ∀ (L : List (Nat × R)) (t : T), L.foldlM (fun t p => (.ok (f t p) : M T)) t = .ok (L.foldl f t)
  | [], t => rfl
  | p :: L, t => by rw [List.foldlM_cons, bind_ok, foldlM_pure f L]; rfl

theorem loop_full {n : Nat} {v : Nat → R} {g : Nat → T → M T} (f : T → Nat × R → T) (hg : ∀ i t, i < n → g i t = .ok (f t (i, v i))) (t : T) :
    loop g n t = .ok ((full n v).foldl f t) := by
  induction n with
  | zero => rfl
  | succ n ih =>
    rw [loop, ih fun i t hi => hg i t (by omega), bind_ok, hg n _ (by omega), full_succ, List.foldl_append]; rfl

/-- Skipping elements on which the step does nothing. -/
theorem foldl_skip (f : T → Nat × R → T) (P : T → Prop) [Zero R] {v : Nat → R} (hP : ∀ t p, P t → P (f t p)) (h0 : ∀ t i, P t → f t (i, 0) = t) :
    ∀ (m : Nat) (off : Nat) (L : List (Nat × R)) (t : T), P t → (L.map (·.1)).Pairwise (· < ·) → (∀ p ∈ L, off ≤ p.1 ∧ p.1 < off + m ∧ p.2 = v p.1) →
      (∀ i, off ≤ i → i < off + m → i ∉ L.map (·.1) → v i = 0) → L.foldl f t = ((List.range' off m).map fun i => (i, v i)).foldl f t := by
  intro m
  induction m with
  | zero =>
    intro off L t _ _ hL _
    cases L with
    | nil => rfl
    | cons p L => have := hL p (by simp); omega
  | succ m ih =>
    intro off L t ht hs hL hz
    rw [List.range'_succ, List.map_cons, List.foldl_cons]
    have step : ∀ (L : List (Nat × R)), (L.map (·.1)).Pairwise (· < ·) → (∀ p ∈ L, off + 1 ≤ p.1 ∧ p.1 < off + 1 + m ∧ p.2 = v p.1) →
        (∀ i, off + 1 ≤ i → i < off + 1 + m → i ∉ L.map (·.1) → v i = 0) → ∀ t, P t → L.foldl f t = ((List.range' (off + 1) m).map fun i => (i, v i)).foldl f t :=
      fun L a b c t d => ih (off + 1) L t d a b c
    cases L with
    | nil =>
      have h := hz off (by omega) (by omega) (by simp)
      rw [h, h0 t off ht]
      exact step [] (by simp) (by simp) (fun i h1 h2 _ => hz i (by omega) (by omega) (by simp)) t ht
    | cons p L =>
      have hp := hL p (by simp)
      rw [List.map_cons, List.pairwise_cons] at hs
      by_cases hpo : p.1 = off
      · have : p = (off, v off) := by ext <;> simp [← hpo, hp.2.2]
        rw [List.foldl_cons, this]
        refine step L hs.2 (fun q hq => ?_) (fun i h1 h2 h3 => ?_) _ (hP _ _ ht)
        · have h1 := hL q (by simp [hq])
          have h2 := hs.1 q.1 (List.mem_map_of_mem hq)
          exact ⟨by omega, by omega, h1.2.2⟩
        · exact hz i (by omega) (by omega) (by rw [List.map_cons, List.mem_cons]; rintro (h | h); · omega
                                               · exact h3 h)
      · have hz0 := hz off (by omega) (by omega) (by
          rw [List.map_cons, List.mem_cons]
          rintro (h | h)
          · omega
          · have := hs.1 off h; omega)
        rw [hz0, h0 t off ht]
        refine step (p :: L) (by rw [List.map_cons, List.pairwise_cons]; exact hs) (fun q hq => ?_) (fun i h1 h2 h3 => hz i (by omega) (by omega) h3) t ht
        have h1 := hL q hq
        refine ⟨?_, by omega, h1.2.2⟩
        rcases List.mem_cons.1 hq with rfl | hq
        · omega
        · have := hs.1 q.1 (List.mem_map_of_mem hq); omega

theorem dense_els [Semiring R] {s : Seq R} {n : Nat} {v : Nat → R} (h : s.Presents n v) (hc : s.cat = .dense) : s.els = full n v := by
  have h1 := h.dense hc
  have h2 : s.els.map (fun p => (p.1, v p.1)) = s.els := by
    conv_rhs => rw [← List.map_id s.els]
    exact List.map_congr_left fun p hp => by rw [← (h.vals p hp).2]; rfl
  rw [← h2, full, ← h1, List.map_map]; rfl

/-- What `evaluate` computes, whatever the category and the evaluation mode. -/
theorem evaluate_eq [Semiring R] (mode : ProdFn.Mode) {s : Seq R} {n : Nat} {v : Nat → R} (h : s.Presents n v) (f : T → Nat × R → T) (P : T → Prop) {t : T} (ht : P t)
    (hP : ∀ t p, P t → P (f t p)) (h0 : ∀ t i, P t → f t (i, 0) = t) : evaluate mode s (fun t p => .ok (f t p)) t = .ok ((full n v).foldl f t) := by
  unfold evaluate
  split
  · next hc =>
    split
    · rw [h.size]
      exact loop_full f (fun i t hi => by rw [h.at_ i hi]; rfl) t
    · rw [h.size]
      refine loop_full f (fun i t hi => ?_) t
      rw [dense_els h hc]
      simp [full, hi]
  · rw [foldlM_pure]
    congr 1
    rw [full, List.range_eq_range']
    exact foldl_skip f P hP h0 n 0 s.els t ht h.sorted (fun p hp => ⟨by omega, by simpa using (h.vals p hp).1, (h.vals p hp).2⟩) fun i _ hi hn => h.skipped i (by omega) hn

theorem foldl_full_sum {K : Type} [AddCommMonoid K] (g : R → K) (n : Nat) (v : Nat → R) (t : K) : (full n v).foldl (fun t p => t + g p.2) t = t + ∑ i ∈ range n, g (v i) := by
  induction n with
  | zero => simp [full]
  | succ n ih => rw [full_succ, List.foldl_append, ih, sum_range_succ, ← add_assoc]; rfl

/-- **C46**, `sum (v)`. -/
theorem C46_sum [Semiring R] (mode : ProdFn.Mode) {s : Seq R} {n : Nat} {v : Nat → R} (h : s.Presents n v) : sum mode s = .ok (∑ i ∈ range n, v i) := by
  unfold sum
  rw [evaluate_eq mode h (fun t p => t + p.2) (fun _ => True) trivial (fun _ _ _ => trivial) (fun t i _ => add_zero t), foldl_full_sum (fun x => x)]
  simp

section loops
variable [CommRing K] [LinearOrder K]

theorem loop_sum {g : Nat → K → M K} {n : Nat} {f : Nat → K} (hg : ∀ i t, i < n → g i t = .ok (t + f i)) (t : K) : loop g n t = .ok (t + ∑ i ∈ range n, f i) := by
  induction n with
  | zero => simp [loop]
  | succ n ih => rw [loop, ih fun i t hi => hg i t (by omega), bind_ok, hg n _ (by omega), sum_range_succ, add_assoc]

theorem loop_max {g : Nat → K → M K} {n : Nat} {f : Nat → K} (hf : ∀ i, i < n → 0 ≤ f i) (hg : ∀ i t, i < n → g i t = .ok (if f i > t then f i else t)) :
    ∃ t, loop g n 0 = .ok t ∧ IsMax n f t := by
  induction n with
  | zero => exact ⟨0, rfl, .inl ⟨rfl, rfl⟩⟩
  | succ n ih =>
    obtain ⟨t, e, h⟩ := ih (fun i hi => hf i (by omega)) fun i t hi => hg i t (by omega)
    refine ⟨_, by rw [loop, e, bind_ok, hg n t (by omega)], .inr ?_⟩
    rcases h with ⟨rfl, rfl⟩ | ⟨⟨i, hi, h1⟩, h2⟩
    · refine ⟨⟨0, by omega, ?_⟩, fun j hj => ?_⟩
      · split
        · rfl
        · next hc => exact le_antisymm (not_lt.1 hc) (hf 0 (by omega))
      · have : j = 0 := by omega
        subst this
        split
        · exact le_rfl
        · next hc => exact not_lt.1 hc
    · split
      · next hc =>
        refine ⟨⟨n, by omega, rfl⟩, fun j hj => ?_⟩
        rcases Nat.lt_or_ge j n with c | c
        · exact (h2 j c).trans hc.le
        · have : j = n := by omega
          subst this; exact le_rfl
      · next hc =>
        refine ⟨⟨i, by omega, h1⟩, fun j hj => ?_⟩
        rcases Nat.lt_or_ge j n with c | c
        · exact h2 j c
        · have : j = n := by omega
          subst this; exact not_lt.1 hc

end loops

section norm1
variable [Semiring R] [CommRing K] [LinearOrder K] [IsStrictOrderedRing K] {abs : R → K} (habs0 : abs 0 = 0)
include habs0

/-- **C46**, `norm_1 (v)`: Σ |v_i|. -/
theorem C46_norm_1 (mode : ProdFn.Mode) {s : Seq R} {n : Nat} {v : Nat → R} (h : s.Presents n v) : norm1 abs mode s = .ok (∑ i ∈ range n, abs (v i)) := by
  unfold norm1
  rw [evaluate_eq mode h (fun t p => t + abs p.2) (fun _ => True) trivial (fun _ _ _ => trivial) (fun t i _ => by simp [habs0]), foldl_full_sum abs]
  simp

end norm1

section real
variable [Semiring R] [Field K] [LinearOrder K] [IsStrictOrderedRing K] {abs : R → K} (habs0 : abs 0 = 0)
include habs0

/-- **C46**, `norm_2_square (v)` and the radicand of `norm_2 (v)`: Σ |v_i|². -/
theorem C46_norm_2 (mode : ProdFn.Mode) (sqrt : K → K) {s : Seq R} {n : Nat} {v : Nat → R} (h : s.Presents n v) :
    norm2Square abs mode s = .ok (∑ i ∈ range n, abs (v i) ^ 2) ∧ norm2 abs sqrt mode s = .ok (sqrt (∑ i ∈ range n, abs (v i) ^ 2)) := by
  have : evaluate mode s (fun t p => .ok (t + abs p.2 * abs p.2)) 0 = .ok (∑ i ∈ range n, abs (v i) ^ 2) := by
    rw [evaluate_eq mode h (fun t p => t + abs p.2 * abs p.2) (fun _ => True) trivial (fun _ _ _ => trivial) (fun t i _ => by simp [habs0]),
      foldl_full_sum (fun x => abs x * abs x)]
    simp [pow_two]
  exact ⟨this, by simp only [norm2, this, bind_ok]⟩

omit habs0 in
theorem max_full (hpos : ∀ x, 0 ≤ abs x) (n : Nat) (v : Nat → R) :
    let r := (full n v).foldl (fun t p => if abs p.2 > t.2 then (p.1, abs p.2) else t) ((0, 0) : Nat × K)
    IsMax n (fun i => abs (v i)) r.2 ∧ IsFirstMax n (fun i => abs (v i)) r.1 ∧ (0 < n → r.2 = abs (v r.1)) := by
  induction n with
  | zero => simp [full, IsMax, IsFirstMax]
  | succ n ih =>
    simp only [full_succ, List.foldl_append, List.foldl_cons, List.foldl_nil]
    simp only at ih
    generalize (full n v).foldl (fun t p => if abs p.2 > t.2 then (p.1, abs p.2) else t) ((0, 0) : Nat × K) = r at ih
    obtain ⟨h1, h2, h3⟩ := ih
    rcases h1 with ⟨rfl, h1⟩ | ⟨⟨i, hi, h1⟩, h1'⟩
    · have hk : r.1 = 0 := by
        rcases h2 with h2 | h2
        · exact h2.2
        · omega
      have key : (if abs (v 0) > r.2 then (0, abs (v 0)) else r) = (0, abs (v 0)) := by
        split
        · rfl
        · next hc =>
          rw [h1] at hc
          ext
          · exact hk
          · rw [h1]; exact le_antisymm (hpos _) (not_lt.1 hc)
      rw [key]
      refine ⟨.inr ⟨⟨0, by omega, rfl⟩, fun j hj => ?_⟩, .inr ⟨by omega, fun j hj => ?_, fun j hj => by simp at hj⟩, fun _ => rfl⟩
      · have : j = 0 := by omega
        subst this; exact le_rfl
      · have : j = 0 := by omega
        subst this; exact le_rfl
    · have hn : 0 < n := by omega
      obtain ⟨k1, k2, k3⟩ : r.1 < n ∧ (∀ j, j < n → abs (v j) ≤ abs (v r.1)) ∧ ∀ j, j < r.1 → abs (v j) < abs (v r.1) := by
        rcases h2 with h2 | h2
        · omega
        · exact h2
      have h3' := h3 hn
      split
      · next hc =>
        refine ⟨.inr ⟨⟨n, by omega, rfl⟩, fun j hj => ?_⟩, .inr ⟨by simp, fun j hj => ?_, fun j hj => ?_⟩, fun _ => rfl⟩
        · rcases Nat.lt_or_ge j n with c | c
          · exact (h1' j c).trans hc.le
          · have : j = n := by omega
            subst this; exact le_rfl
        · rcases Nat.lt_or_ge j n with c | c
          · exact (h1' j c).trans hc.le
          · have : j = n := by omega
            subst this; exact le_rfl
        · exact lt_of_le_of_lt (h1' j hj) hc
      · next hc =>
        have hc' := not_lt.1 hc
        refine ⟨.inr ⟨⟨i, by omega, h1⟩, fun j hj => ?_⟩, .inr ⟨by omega, fun j hj => ?_, k3⟩, fun _ => h3'⟩
        · rcases Nat.lt_or_ge j n with c | c
          · exact h1' j c
          · have : j = n := by omega
            subst this; exact hc'
        · rcases Nat.lt_or_ge j n with c | c
          · exact k2 j c
          · have : j = n := by omega
            subst this; exact hc'.trans h3'.le

omit habs0 in
theorem fold_snd (L : List (Nat × R)) (t : Nat × K) :
    (L.foldl (fun t p => if abs p.2 > t.2 then (p.1, abs p.2) else t) t).2 = L.foldl (fun t p => if abs p.2 > t then abs p.2 else t) t.2 := by
  induction L generalizing t with
  | nil => rfl
  | cons p L ih =>
    rw [List.foldl_cons, List.foldl_cons, ih]
    congr 1
    split <;> rfl

/-- **C46**, `norm_inf (v)`: max |v_i|, zero for the empty vector. -/
theorem C46_norm_inf (hpos : ∀ x, 0 ≤ abs x) (mode : ProdFn.Mode) {s : Seq R} {n : Nat} {v : Nat → R} (h : s.Presents n v) :
    ∃ t, normInf abs mode s = .ok t ∧ IsMax n (fun i => abs (v i)) t := by
  refine ⟨_, ?_, (max_full hpos n v).1⟩
  unfold normInf
  rw [evaluate_eq mode h (fun t p => if abs p.2 > t then abs p.2 else t) (0 ≤ ·) le_rfl (fun t p ht => by split; exacts [hpos _, ht])
    (fun t i ht => by rw [if_neg]; simp only [habs0]; exact not_lt.2 ht), fold_snd]

/-- **C46**, `index_norm_inf (v)`: the first index at which |v_i| is maximal, zero for the empty vector. -/
theorem C46_index_norm_inf (hpos : ∀ x, 0 ≤ abs x) (mode : ProdFn.Mode) {s : Seq R} {n : Nat} {v : Nat → R} (h : s.Presents n v) :
    ∃ k, indexNormInf abs mode s = .ok k ∧ IsFirstMax n (fun i => abs (v i)) k := by
  refine ⟨_, ?_, (max_full hpos n v).2.1⟩
  unfold indexNormInf
  rw [evaluate_eq mode h (fun t p => if abs p.2 > t.2 then (p.1, abs p.2) else t) (0 ≤ ·.2) le_rfl (fun t p ht => by split; exacts [hpos _, ht])
    (fun t i ht => by rw [if_neg]; simp only [habs0]; exact not_lt.2 ht), bind_ok]

omit habs0

/-- **C46**, matrices: `norm_1` is the largest column sum, `norm_inf` the largest row sum of |a_ij| (zero for an empty matrix), `norm_frobenius` the root of Σ |a_ij|². -/
theorem C46_matrix (hpos : ∀ x, 0 ≤ abs x) (sqrt : K → K) {m : MSeq R} {r c : Nat} {a : Nat → Nat → R} (h : m.Presents r c a) :
    (∃ t, matNorm1 abs m = .ok t ∧ IsMax c (fun j => ∑ i ∈ range r, abs (a i j)) t) ∧
    (∃ t, matNormInf abs m = .ok t ∧ IsMax r (fun i => ∑ j ∈ range c, abs (a i j)) t) ∧
    matFrobenius abs sqrt m = .ok (sqrt (∑ i ∈ range r, ∑ j ∈ range c, abs (a i j) ^ 2)) := by
  have hat : ∀ i j, i < r → j < c → m.at_ i j = .ok (a i j) := fun i j hi hj => (h.rows i hi).at_ j hj
  refine ⟨?_, ?_, ?_⟩
  · simp only [matNorm1, h.size1, h.size2]
    refine loop_max (fun j _ => sum_nonneg fun i _ => hpos _) fun j t hj => ?_
    rw [loop_sum (f := fun i => abs (a i j)) (fun i u hi => by rw [hat i j hi hj, bind_ok]), bind_ok, zero_add]
  · simp only [matNormInf, h.size1, h.size2]
    refine loop_max (fun j _ => sum_nonneg fun i _ => hpos _) fun i t hi => ?_
    rw [loop_sum (f := fun j => abs (a i j)) (fun j u hj => by rw [hat i j hi hj, bind_ok]), bind_ok, zero_add]
  · simp only [matFrobenius, h.size1, h.size2]
    rw [loop_sum (f := fun i => ∑ j ∈ range c, abs (a i j) ^ 2) (fun i t hi => by
      rw [loop_sum (f := fun j => abs (a i j) ^ 2) (fun j u hj => by rw [hat i j hi hj, bind_ok, pow_two])]), bind_ok, zero_add]

/-! ## C47 -/

/-- The scaled sum of squares represents `S`. -/
def Scaled (st : K × K) (S : K) : Prop := 0 ≤ st.1 ∧ 1 ≤ st.2 ∧ st.1 ^ 2 * st.2 = S

theorem scaledStep_ok {st : K × K} {S u : K} (h : Scaled st S) (hu : 0 < u) : ∃ st', scaledStep st u = .ok st' ∧ Scaled st' (S + u ^ 2) := by
  obtain ⟨h1, h2, h3⟩ := h
  unfold scaledStep
  split
  · next hc =>
    refine ⟨_, by rw [quot, if_neg hu.ne', bind_ok], hu.le, ?_, ?_⟩
    · have : 0 ≤ st.2 * (st.1 / u) * (st.1 / u) := by
        have : 0 ≤ st.1 / u := div_nonneg h1 hu.le
        positivity
      show (1 : K) ≤ _ + 1
      linarith
    · show u ^ 2 * (st.2 * (st.1 / u) * (st.1 / u) + 1) = _
      rw [← h3]
      field_simp
  · next hc =>
    have hs : 0 < st.1 := lt_of_lt_of_le hu (not_lt.1 hc)
    refine ⟨(st.1, st.2 + u / st.1 * (u / st.1)), by rw [quot, if_neg hs.ne', bind_ok], h1, ?_, ?_⟩
    · have : 0 ≤ (u / st.1) * (u / st.1) := mul_self_nonneg _
      show (1 : K) ≤ st.2 + _
      linarith
    · show st.1 ^ 2 * (st.2 + u / st.1 * (u / st.1)) = _
      rw [← h3]
      field_simp

/-- **C47**, indexed: with BOOST_UBLAS_SCALED_NORM and the indexing evaluation of a dense vector, `norm_2` never divides by zero and its square is Σ |v_i|², for any correct
square root. -/
theorem C47_indexed_partial (hpos : ∀ x, 0 ≤ abs x) (sqrt : K → K) (hsq : ∀ x, 0 ≤ x → 0 ≤ sqrt x ∧ sqrt x ^ 2 = x) (mode : ProdFn.Mode) {s : Seq R} {n : Nat}
    {v : Nat → R} (h : s.Presents n v) (hc : s.cat = .dense) (hm : indexed mode s.size = true) :
    ∃ t, scaledNorm2 abs sqrt mode s = .ok t ∧ 0 ≤ t ∧ t ^ 2 = ∑ i ∈ range n, abs (v i) ^ 2 := by
  unfold scaledNorm2 evaluate
  rw [if_pos hc, if_pos hm, h.size]
  obtain ⟨st, e, h1⟩ := loop_inv (n := n) (s := ((0, 1) : K × K)) (f := fun i st => (do
      let x ← s.at_ i
      (if s.cat = .dense ∧ indexed mode n = true ∧ 0 = abs (i, x).2 then .ok st else scaledStep st (abs (i, x).2)) : M (K × K)))
    (fun k st => Scaled st (∑ i ∈ range k, abs (v i) ^ 2)) ⟨le_rfl, le_rfl, by simp⟩ (by
      intro k st hk hs
      rw [h.at_ k hk, bind_ok]
      split
      · next h0 => exact ⟨st, rfl, by rw [sum_range_succ, ← h0.2.2]; simpa using hs⟩
      · next h0 =>
        have hne : abs (v k) ≠ 0 := fun e => h0 ⟨hc, h.size ▸ hm, e.symm⟩
        rw [sum_range_succ]
        exact scaledStep_ok hs (lt_of_le_of_ne (hpos _) hne.symm))
  rw [e, bind_ok]
  obtain ⟨a1, a2, a3⟩ := h1
  obtain ⟨b1, b2⟩ := hsq st.2 (zero_le_one.trans a2)
  exact ⟨_, rfl, mul_nonneg a1 b1, by rw [mul_pow, b2]; exact a3⟩

omit [Semiring R] in
/-- The loop of the iterator versions when the first element visited is not zero. -/
theorem scaled_foldl (hpos : ∀ x, 0 ≤ abs x) (L : List (Nat × R)) (u : Nat × R) (hu : abs u.2 ≠ 0) :
    ∃ st, (u :: L).foldlM (fun st p => scaledStep st (abs p.2)) ((0, 1) : K × K) = .ok st ∧ Scaled st (((u :: L).map fun p => abs p.2 ^ 2).sum) := by
  have hu' : 0 < abs u.2 := lt_of_le_of_ne (hpos _) hu.symm
  have hgo : ∀ (L : List (Nat × R)) (st : K × K) (S : K), Scaled st S → 0 < st.1 → ∃ st', L.foldlM (fun st p => scaledStep st (abs p.2)) st = .ok st' ∧ Scaled st' (S + (L.map fun p => abs p.2 ^ 2).sum) := by
    intro L
    induction L with
    | nil => intro st S h _; exact ⟨st, rfl, by simpa using h⟩
    | cons p L ih =>
      intro st S h hs
      have step : ∃ st', scaledStep st (abs p.2) = .ok st' ∧ Scaled st' (S + abs p.2 ^ 2) ∧ 0 < st'.1 := by
        rcases eq_or_lt_of_le (hpos p.2) with h0 | h0
        · refine ⟨(st.1, st.2 + abs p.2 / st.1 * (abs p.2 / st.1)), ?_, ?_, hs⟩
          · unfold scaledStep; rw [if_neg (by rw [← h0]; exact not_lt.2 hs.le), quot, if_neg hs.ne', bind_ok]
          · rw [← h0]; simpa using h
        · obtain ⟨st', e, h'⟩ := scaledStep_ok h h0
          refine ⟨st', e, h', lt_of_le_of_ne h'.1 fun e0 => ?_⟩
          have hS : 0 ≤ S := by
            rw [← h.2.2]
            have := h.2.1
            positivity
          have h2 := h'.2.2
          rw [← e0] at h2
          have h3 : (0 : K) < abs p.2 ^ 2 := by positivity
          have h4 : (0 : K) ^ 2 * st'.2 = 0 := by simp
          rw [h4] at h2
          linarith
      obtain ⟨st', e, h', hs'⟩ := step
      obtain ⟨st'', e2, h2⟩ := ih st' _ h' hs'
      exact ⟨st'', by rw [List.foldlM_cons, e, bind_ok, e2], by rw [List.map_cons, List.sum_cons, ← add_assoc]; exact h2⟩
  have h0 : Scaled ((0, 1) : K × K) 0 := ⟨le_rfl, le_rfl, by simp⟩
  have e1 : scaledStep ((0, 1) : K × K) (abs u.2) = .ok (abs u.2, 1 * (0 / abs u.2) * (0 / abs u.2) + 1) := by
    unfold scaledStep; rw [if_pos hu', quot, if_neg hu, bind_ok]
  obtain ⟨st1, e1', h1⟩ := scaledStep_ok h0 hu'
  have e2 : st1.1 = abs u.2 := by rw [e1] at e1'; rw [← Except.ok.inj e1']
  obtain ⟨st, e, h⟩ := hgo L st1 _ h1 (e2 ▸ hu')
  exact ⟨st, by rw [List.foldlM_cons, e1', bind_ok, e], by rw [List.map_cons, List.sum_cons]; simpa using h⟩

omit [Semiring R] [Field K] [LinearOrder K] [IsStrictOrderedRing K] in
theorem loop_list (step : T → Nat × R → M T) (L : List (Nat × R)) (t : T) : loop (fun i t => match L[i]? with
    | some p => step t p
    | none => .error .ub) L.length t = L.foldlM step t := by
  induction L using List.reverseRecOn with
  | nil => rfl
  | append_singleton L p ih =>
    rw [List.length_append, List.length_singleton, loop, List.foldlM_append, ← ih]
    rw [loop_congr (g := fun i t => match L[i]? with
      | some p => step t p
      | none => .error .ub) fun i t hi => by rw [List.getElem?_append_left hi]]
    congr 1
    funext t'
    simp
    cases step t' p <;> rfl

/-- **C47** for the iterator versions (sparse and packed expressions in every mode, dense ones when iterating): the result is right if the first element visited, if any, is not zero. -/
theorem C47_iterated_partial (habs0 : abs 0 = 0) (hpos : ∀ x, 0 ≤ abs x) (sqrt : K → K) (hsq : ∀ x, 0 ≤ x → 0 ≤ sqrt x ∧ sqrt x ^ 2 = x) (mode : ProdFn.Mode) {s : Seq R} {n : Nat}
    {v : Nat → R} (h : s.Presents n v) (hm : s.cat ≠ .dense ∨ indexed mode s.size = false) (hfirst : ∀ u L, s.els = u :: L → abs u.2 ≠ 0) :
    ∃ t, scaledNorm2 abs sqrt mode s = .ok t ∧ 0 ≤ t ∧ t ^ 2 = ∑ i ∈ range n, abs (v i) ^ 2 := by
  have hsum : ∑ i ∈ range n, abs (v i) ^ 2 = (s.els.map fun p => abs p.2 ^ 2).sum := by
    have e1 := foldl_full_sum (fun x => abs x ^ 2) n v 0
    have e2 := foldl_skip (fun (t : K) p => t + abs p.2 ^ 2) (fun _ => True) (v := v) (fun _ _ _ => trivial) (fun t i _ => by simp [habs0]) n 0 s.els 0 trivial h.sorted
      (fun p hp => ⟨Nat.zero_le _, by simpa using (h.vals p hp).1, (h.vals p hp).2⟩) fun i _ hi hn => h.skipped i (by omega) hn
    rw [full, List.range_eq_range', ← e2, zero_add] at e1
    rw [← e1]
    clear e1 e2 hm hfirst h
    have : ∀ (L : List (Nat × R)) (t : K), L.foldl (fun t p => t + abs p.2 ^ 2) t = t + (L.map fun p => abs p.2 ^ 2).sum := by
      intro L
      induction L with
      | nil => intro t; simp
      | cons p L ih => intro t; rw [List.foldl_cons, ih, List.map_cons, List.sum_cons, add_assoc]
    rw [this, zero_add]
  have hnot : ∀ x : K, ¬ (s.cat = .dense ∧ indexed mode s.size = true ∧ 0 = x) := by
    rintro x ⟨h1, h2, _⟩
    rcases hm with h | h
    · exact h h1
    · rw [h] at h2; cases h2
  have hev : evaluate mode s (fun st p => if s.cat = .dense ∧ indexed mode s.size = true ∧ 0 = abs p.2 then .ok st else scaledStep st (abs p.2)) ((0, 1) : K × K) =
      s.els.foldlM (fun st p => scaledStep st (abs p.2)) ((0, 1) : K × K) := by
    simp only [if_neg (hnot _)]
    unfold evaluate
    split
    · next hc =>
      rw [if_neg (by rcases hm with h | h; exacts [absurd hc h, by rw [h]; simp])]
      have hl : s.size = s.els.length := by rw [h.size, dense_els h hc, full]; simp
      rw [hl]
      exact loop_list _ _ _
    · rfl
  obtain ⟨st, e, h1⟩ : ∃ st, s.els.foldlM (fun st p => scaledStep st (abs p.2)) ((0, 1) : K × K) = .ok st ∧ Scaled st ((s.els.map fun p => abs p.2 ^ 2).sum) := by
    cases hL : s.els with
    | nil => exact ⟨(0, 1), rfl, le_rfl, le_rfl, by simp⟩
    | cons u L => exact scaled_foldl hpos L u (hfirst u L hL)
  unfold scaledNorm2
  rw [hev, e, bind_ok, hsum]
  obtain ⟨a1, a2, a3⟩ := h1
  obtain ⟨b1, b2⟩ := hsq st.2 (zero_le_one.trans a2)
  exact ⟨_, rfl, mul_nonneg a1 b1, by rw [mul_pow, b2]; exact a3⟩

omit [Semiring R] in
/-- **C47** refuted for every iterator version (sparse and packed expressions in every mode, dense ones when iterating): if the first element visited is zero, the loop divides
zero by zero. -/
theorem C47_leading_zero_refuted (mode : ProdFn.Mode) (sqrt : K → K) (s : Seq R) (u : Nat × R) (L : List (Nat × R)) (hu : abs u.2 = 0) (hL : s.els = u :: L)
    (hv : s.cat ≠ .dense ∨ (indexed mode s.size = false ∧ 0 < s.size)) : scaledNorm2 abs sqrt mode s = .error .ub := by
  have hnot : ¬ (s.cat = .dense ∧ indexed mode s.size = true ∧ 0 = abs u.2) := by
    rintro ⟨h1, h2, _⟩
    rcases hv with h | h
    · exact h h1
    · rw [h.1] at h2; cases h2
  have hstep : (if s.cat = .dense ∧ indexed mode s.size = true ∧ 0 = abs u.2 then .ok ((0, 1) : K × K) else scaledStep (0, 1) (abs u.2)) = .error .ub := by
    rw [if_neg hnot, scaledStep, if_neg (by rw [hu]; exact lt_irrefl _), quot, if_pos rfl, bind_error]
  unfold scaledNorm2 evaluate
  rcases hv with hv | ⟨hm, hn⟩
  · rw [if_neg hv, hL, List.foldlM_cons, hstep]; rfl
  · by_cases hc : s.cat = .dense
    · rw [if_pos hc, if_neg (by rw [hm]; simp)]
      have key : ∀ (g : Nat → K × K → M (K × K)), g 0 (0, 1) = .error .ub → ∀ n, 0 < n → loop g n ((0, 1) : K × K) = .error .ub := by
        intro g hg n hn
        induction n with
        | zero => omega
        | succ n ih =>
          rw [loop]
          rcases Nat.eq_zero_or_pos n with rfl | hn'
          · simp only [loop, bind_ok]; exact hg
          · rw [ih hn']; rfl
      rw [key _ _ _ hn]
      · rfl
      · simp only [hL, List.getElem?_cons_zero]; exact hstep
    · rw [if_neg hc, hL, List.foldlM_cons, hstep]; rfl

end real

/-! ## Concrete cases -/
def ex : Seq ℚ := ⟨4, .dense, [(0, 0), (1, -3), (2, 1), (3, 3)], fun i => .ok ([0, -3, 1, 3].getD i 0)⟩
def exSparse : Seq ℚ := ⟨4, .sparse, [(1, -3), (2, 1), (3, 3)], fun i => .ok ([0, -3, 1, 3].getD i 0)⟩

example : norm1 (fun x : ℚ => |x|) .indexing ex = .ok 7 ∧ normInf (fun x : ℚ => |x|) .iterating exSparse = .ok 3 ∧
    indexNormInf (fun x : ℚ => |x|) .iterating ex = .ok 1 ∧ indexNormInf (fun x : ℚ => |x|) .indexing exSparse = .ok 1 ∧ sum .indexing exSparse = .ok 1 := by decide +kernel
example : scaledNorm2 (fun x : ℚ => |x|) (fun x => x) .indexing ex = .ok (19 / 3) := by decide +kernel
example : scaledNorm2 (fun x : ℚ => |x|) (fun x => x) .iterating ex = .error .ub := by decide +kernel
example : scaledNorm2 (fun x : ℚ => |x|) (fun x => x) .iterating exSparse = .ok (19 / 3) := by decide +kernel

end Ublas.Norms
