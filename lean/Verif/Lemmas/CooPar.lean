import Verif.Lemmas.Coo
/-! The two instances meet the contracts of the generic coordinate core. -/
namespace Ublas
open Search Coo
variable {α : Type} [AddCommMonoid α]

theorem natOrd : KeyOrd (fun a b : Nat => decide (a < b)) :=
  { irrefl := by simp, trans := by simp; omega, total := by simp; omega }

theorem lexOrd : KeyOrd lexLt :=
  { irrefl := by simp [lexLt]
    trans := by rintro ⟨a, b⟩ ⟨c, d⟩ ⟨e, f⟩; simp [lexLt]; omega
    total := by rintro ⟨a, b⟩ ⟨c, d⟩; simp [lexLt]; omega }

omit [AddCommMonoid α] in
theorem CoordVec.search_spec (idx : List Nat) (A : List (Nat × α)) (k : Nat) (hi : idx.take A.length = A.map (·.1))
    (hs : Strict (fun a b : Nat => decide (a < b)) A) :
    ∃ r, CoordVec.search idx A.length k = .ok r ∧ (∀ n, r = some n → ∃ h : n < A.length, A[n].1 = k) ∧ (r = none → k ∉ A.map (·.1)) := by
  have hl : A.length ≤ idx.length := by have := congrArg List.length hi; simp at this; omega
  have conv : ∀ (i : Nat) (h : i < A.length), idx[i]? = some A[i].1 := by
    intro i h
    have := congrArg (fun l => l[i]?) hi
    simpa [h] using this
  have hmono : ∀ (i j : Nat) (hi : i < A.length) (hj : j < A.length), i < j → A[i].1 < A[j].1 := by
    intro i j hi hj hij
    have := List.pairwise_iff_getElem.1 hs i j hi hj hij
    simpa using this
  have hso : SortedOn idx 0 A.length := by
    intro i j x y _ hij hj hx hy
    rw [conv i (by omega)] at hx; rw [conv j hj] at hy
    simp only [Option.some.injEq] at hx hy
    rcases Nat.eq_or_lt_of_le hij with e | e
    · subst e; omega
    · have := hmono i j (by omega) hj e; omega
  obtain ⟨r, hr, h1, h2, h3, h4⟩ := lowerBound_spec idx 0 A.length k (Nat.zero_le _) hl hso
  unfold CoordVec.search
  rw [hr, bind_ok]
  have nf : (∀ (h : r < A.length), A[r].1 ≠ k) → k ∉ A.map (·.1) := by
    intro hne hm
    obtain ⟨p, hp, e⟩ := List.mem_map.1 hm
    obtain ⟨n, hn, e2⟩ := List.mem_iff_getElem.1 hp
    subst e2
    rcases Nat.lt_trichotomy n r with c | c | c
    · have := h3 n _ (Nat.zero_le _) c (conv n hn); omega
    · subst c; exact hne hn e
    · have a := h4 r _ (Nat.le_refl _) (by omega) (conv r (by omega))
      have b := hmono r n (by omega) hn c
      omega
  by_cases hc : r = A.length
  · rw [if_pos hc]
    exact ⟨none, rfl, by simp, fun _ => nf (fun h => by omega)⟩
  · rw [if_neg hc, rd_eq_ok.2 (conv r (by omega)), bind_ok]
    by_cases hk : A[r].1 ≠ k
    · rw [if_pos hk]; exact ⟨none, rfl, by simp, fun _ => nf (fun _ => hk)⟩
    · rw [if_neg hk]; exact ⟨some r, rfl, by intro n hn; cases hn; exact ⟨by omega, by simpa using hk⟩, by simp⟩

theorem CoordVec.parOk (srt : List (Nat × α) → List (Nat × α)) (hsrt : SortOk (fun a b : Nat => decide (a < b)) srt) (full : Bool) (IB size : Nat) :
    ParOk (CoordVec.par srt full IB size) :=
  { ord := natOrd, srt := hsrt, search := fun idx A k h1 h2 => CoordVec.search_spec idx A k h1 h2 }

namespace Search

/-- Position `r` splits the keys at positions [b, e) into those at most `k` and the greater ones. -/
def SplitsUp (keys : List Nat) (b e k r : Nat) : Prop :=
  b ≤ r ∧ r ≤ e ∧ (∀ (i : Nat) (x : Nat), b ≤ i → i < r → keys[i]? = some x → x ≤ k) ∧
    (∀ (i : Nat) (x : Nat), r ≤ i → i < e → keys[i]? = some x → k < x)

theorem stdUpperBound_spec (keys : List Nat) (k : Nat) (b e : Nat) (he : e ≤ keys.length) (hs : SortedOn keys b e) :
    ∀ (fuel first len : Nat), len ≤ fuel → b ≤ first → first + len ≤ e →
      (∀ (i x : Nat), b ≤ i → i < first → keys[i]? = some x → x ≤ k) →
      (∀ (i x : Nat), first + len ≤ i → i < e → keys[i]? = some x → k < x) →
      ∃ r, stdUpperBound keys k fuel first len = .ok r ∧ SplitsUp keys b e k r := by
  intro fuel
  induction fuel with
  | zero =>
    intro first len h1 h2 h3 h4 h5
    have : len = 0 := by omega
    subst this
    exact ⟨first, by simp [stdUpperBound], h2, by omega, h4, by simpa using h5⟩
  | succ fuel ih =>
    intro first len h1 h2 h3 h4 h5
    rw [stdUpperBound]
    by_cases hz : len = 0
    · rw [if_pos hz]; subst hz
      exact ⟨first, rfl, h2, by omega, h4, by simpa using h5⟩
    · rw [if_neg hz]
      have hlt : first + len / 2 < keys.length := by omega
      simp only [rd_ok hlt, bind_ok]
      by_cases hk : k < keys[first + len / 2]
      · rw [if_pos hk]
        refine ih first (len / 2) (by omega) h2 (by omega) h4 ?_
        intro i x hi hie hx
        have := hs (first + len / 2) i _ x (by omega) hi hie (List.getElem?_eq_getElem hlt) hx
        omega
      · rw [if_neg hk]
        refine ih _ _ (by omega) (by omega) (by omega) ?_ ?_
        · intro i x hbi hi hx
          have := hs i (first + len / 2) x _ hbi (by omega) (by omega) hx (List.getElem?_eq_getElem hlt)
          omega
        · intro i x hi hie hx; exact h5 i x (by omega) hie hx

theorem upperBound_spec (keys : List Nat) (b e k : Nat) (hbe : b ≤ e) (he : e ≤ keys.length) (hs : SortedOn keys b e) :
    ∃ r, upperBound keys b e k = .ok r ∧ SplitsUp keys b e k r := by
  unfold upperBound
  by_cases h : b = e
  · rw [if_pos h]; exact ⟨b, rfl, Nat.le_refl _, hbe, fun i x h1 h2 _ => by omega, fun i x h1 h2 _ => by omega⟩
  · rw [if_neg h, rd_ok (show b < keys.length by omega), bind_ok]
    by_cases h1 : k < keys[b]'(by omega)
    · rw [if_pos h1]
      refine ⟨b, rfl, Nat.le_refl _, hbe, fun i x h1 h2 _ => by omega, ?_⟩
      intro i x hi hie hx
      have := hs b i _ x (Nat.le_refl _) hi hie (List.getElem?_eq_getElem (by omega)) hx
      omega
    · rw [if_neg h1, rd_ok (show e - 1 < keys.length by omega), bind_ok]
      by_cases h2 : ¬ k < keys[e - 1]'(by omega)
      · rw [if_pos h2]
        refine ⟨e, rfl, hbe, Nat.le_refl _, ?_, fun i x h1 h2 _ => by omega⟩
        intro i x hi hie hx
        have := hs i (e - 1) x _ hi (by omega) (by omega) hx (List.getElem?_eq_getElem (by omega))
        omega
      · rw [if_neg h2]
        exact stdUpperBound_spec keys k b e he hs _ _ _ (Nat.le_refl _) (Nat.le_refl _) (by omega) (fun i x h1 h2 _ => by omega)
          (fun i x h1 h2 _ => by omega)

end Search

omit [AddCommMonoid α] in
theorem CoordMat.search_spec (idx : List (Nat × Nat)) (A : List ((Nat × Nat) × α)) (k : Nat × Nat) (hi : idx.take A.length = A.map (·.1))
    (hs : Strict lexLt A) :
    ∃ r, CoordMat.search idx A.length k = .ok r ∧ (∀ n, r = some n → ∃ h : n < A.length, A[n].1 = k) ∧ (r = none → k ∉ A.map (·.1)) := by
  have hl : A.length ≤ idx.length := by have := congrArg List.length hi; simp at this; omega
  have conv : ∀ (i : Nat) (h : i < A.length), idx[i]? = some A[i].1 := by
    intro i h
    have := congrArg (fun l => l[i]?) hi
    simpa [h] using this
  have conv1 : ∀ (i : Nat) (h : i < A.length), (idx.map (·.1))[i]? = some A[i].1.1 := by
    intro i h; rw [List.getElem?_map, conv i h]; rfl
  have conv2 : ∀ (i : Nat) (h : i < A.length), (idx.map (·.2))[i]? = some A[i].1.2 := by
    intro i h; rw [List.getElem?_map, conv i h]; rfl
  have hmono : ∀ (i j : Nat) (hi : i < A.length) (hj : j < A.length), i < j →
      A[i].1.1 < A[j].1.1 ∨ (A[i].1.1 = A[j].1.1 ∧ A[i].1.2 < A[j].1.2) := by
    intro i j hi hj hij
    have := List.pairwise_iff_getElem.1 hs i j hi hj hij
    simpa [lexLt] using this
  have hso : SortedOn (idx.map (·.1)) 0 A.length := by
    intro i j x y _ hij hj hx hy
    rw [conv1 i (by omega)] at hx; rw [conv1 j hj] at hy
    simp only [Option.some.injEq] at hx hy
    rcases Nat.eq_or_lt_of_le hij with e | e
    · subst e; omega
    · have := hmono i j (by omega) hj e; omega
  obtain ⟨b, hb, b1, b2, b3, b4⟩ := lowerBound_spec (idx.map (·.1)) 0 A.length k.1 (Nat.zero_le _) (by simpa using hl) hso
  obtain ⟨e, he, e1, e2, e3, e4⟩ := upperBound_spec (idx.map (·.1)) 0 A.length k.1 (Nat.zero_le _) (by simpa using hl) hso
  have hbe : b ≤ e := by
    by_contra hc
    have hlt : e < A.length := by omega
    have a := b3 e _ (Nat.zero_le _) (by omega) (conv1 e hlt)
    have c := e4 e _ (Nat.le_refl _) hlt (conv1 e hlt)
    omega
  have inside : ∀ n (hn : n < A.length), A[n].1.1 = k.1 → b ≤ n ∧ n < e := by
    intro n hn heq
    constructor
    · by_contra hc
      have := b3 n _ (Nat.zero_le _) (by omega) (conv1 n hn); omega
    · by_contra hc
      have := e4 n _ (by omega) hn (conv1 n hn); omega
  have major : ∀ n, b ≤ n → (hn : n < e) → (A[n]'(by omega)).1.1 = k.1 := by
    intro n h1 h2
    have a := b4 n _ h1 (by omega) (conv1 n (by omega))
    have c := e3 n _ (Nat.zero_le _) h2 (conv1 n (by omega))
    omega
  unfold CoordMat.search
  rw [hb, bind_ok, he, bind_ok]
  have nf : (∀ n (hn : n < A.length), A[n].1 ≠ k) → k ∉ A.map (·.1) := by
    intro hne hm
    obtain ⟨p, hp, e⟩ := List.mem_map.1 hm
    obtain ⟨n, hn, e2⟩ := List.mem_iff_getElem.1 hp
    subst e2; exact hne n hn e
  by_cases hc : b = e
  · rw [if_pos hc]
    refine ⟨none, rfl, by simp, fun _ => nf (fun n hn heq => ?_)⟩
    have := inside n hn (by rw [heq]); omega
  · rw [if_neg hc]
    have hso2 : SortedOn (idx.map (·.2)) b e := by
      intro i j x y hbi hij hj hx hy
      rw [conv2 i (by omega)] at hx; rw [conv2 j (by omega)] at hy
      simp only [Option.some.injEq] at hx hy
      rcases Nat.eq_or_lt_of_le hij with e | e
      · subst e; omega
      · have := hmono i j (by omega) (by omega) e
        have := major i hbi (by omega); have := major j (by omega) hj; omega
    obtain ⟨r, hr, h1, h2, h3, h4⟩ := lowerBound_spec (idx.map (·.2)) b e k.2 hbe (by simp; omega) hso2
    rw [hr, bind_ok]
    have nf2 : (∀ (h : r < e), (A[r]'(by omega)).1.2 ≠ k.2) → k ∉ A.map (·.1) := by
      intro hne
      refine nf (fun n hn heq => ?_)
      obtain ⟨i1, i2⟩ := inside n hn (by rw [heq])
      have hk2 : A[n].1.2 = k.2 := by rw [heq]
      rcases Nat.lt_trichotomy n r with c | c | c
      · have := h3 n _ i1 c (conv2 n hn); omega
      · subst c; exact hne i2 hk2
      · have a := h4 r _ (Nat.le_refl _) (by omega) (conv2 r (by omega))
        have d := hmono r n (by omega) hn c
        have := major r h1 (by omega); have := major n i1 i2
        omega
    by_cases hc : r = e
    · rw [if_pos hc]
      exact ⟨none, rfl, by simp, fun _ => nf2 (fun h => by omega)⟩
    · rw [if_neg hc, rd_eq_ok.2 (conv2 r (by omega)), bind_ok]
      by_cases hk : (A[r]'(by omega)).1.2 ≠ k.2
      · rw [if_pos hk]; exact ⟨none, rfl, by simp, fun _ => nf2 (fun _ => hk)⟩
      · rw [if_neg hk]
        refine ⟨some r, rfl, ?_, by simp⟩
        intro n hn; cases hn
        exact ⟨by omega, Prod.ext (major r h1 (by omega)) (by simpa using hk)⟩

theorem CoordMat.parOk (srt : List ((Nat × Nat) × α) → List ((Nat × Nat) × α)) (hsrt : SortOk lexLt srt) (full : Bool) (r c : Nat) :
    ParOk (CoordMat.par srt full r c) :=
  { ord := lexOrd, srt := hsrt, search := fun idx A k h1 h2 => CoordMat.search_spec idx A k h1 h2 }

end Ublas
