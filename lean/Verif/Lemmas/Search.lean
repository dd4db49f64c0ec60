import Verif.Model.Search
namespace Ublas.Search
variable {α : Type}

/-- Position `r` splits the keys at positions [b, e) into those below `k` and the others. -/
def Splits (keys : List Nat) (b e k r : Nat) : Prop :=
  b ≤ r ∧ r ≤ e ∧ (∀ (i : Nat) (x : Nat), b ≤ i → i < r → keys[i]? = some x → x < k) ∧
    (∀ (i : Nat) (x : Nat), r ≤ i → i < e → keys[i]? = some x → k ≤ x)

/-- Keys at positions [b, e) are non-decreasing. -/
def SortedOn (keys : List Nat) (b e : Nat) : Prop :=
  ∀ (i j x y : Nat), b ≤ i → i ≤ j → j < e → keys[i]? = some x → keys[j]? = some y → x ≤ y

theorem stdLowerBound_spec (keys : List Nat) (k : Nat) (b e : Nat) (he : e ≤ keys.length) (hs : SortedOn keys b e) :
    ∀ (fuel first len : Nat), len ≤ fuel → b ≤ first → first + len ≤ e →
      (∀ (i x : Nat), b ≤ i → i < first → keys[i]? = some x → x < k) →
      (∀ (i x : Nat), first + len ≤ i → i < e → keys[i]? = some x → k ≤ x) →
      ∃ r, stdLowerBound keys k fuel first len = .ok r ∧ Splits keys b e k r := by
  intro fuel
  induction fuel with
  | zero =>
    intro first len h1 h2 h3 h4 h5
    have : len = 0 := by omega
    subst this
    exact ⟨first, by simp [stdLowerBound], h2, by omega, h4, by simpa using h5⟩
  | succ fuel ih =>
    intro first len h1 h2 h3 h4 h5
    by_cases hl : len = 0
    · subst hl
      exact ⟨first, by simp [stdLowerBound], h2, by omega, h4, by simpa using h5⟩
    · have hin : first + len / 2 < keys.length := by omega
      have hx : keys[first + len / 2]? = some keys[first + len / 2] := by simp [hin]
      simp only [stdLowerBound, if_neg hl, rd_ok hin, bind_ok]
      by_cases hc : keys[first + len / 2] < k
      · rw [if_pos hc]
        apply ih
        · omega
        · omega
        · omega
        · intro i x hi1 hi2 hx'
          have := hs i (first + len / 2) x _ hi1 (by omega) (by omega) hx' hx
          omega
        · intro i x hi1 hi2 hx'
          exact h5 i x (by omega) hi2 hx'
      · rw [if_neg hc]
        apply ih
        · omega
        · omega
        · omega
        · exact h4
        · intro i x hi1 hi2 hx'
          have := hs (first + len / 2) i _ x (by omega) (by omega) hi2 hx hx'
          omega

theorem lowerBound_spec (keys : List Nat) (b e k : Nat) (hbe : b ≤ e) (he : e ≤ keys.length) (hs : SortedOn keys b e) :
    ∃ r, lowerBound keys b e k = .ok r ∧ Splits keys b e k r := by
  unfold lowerBound
  by_cases h : b = e
  · rw [if_pos h]
    exact ⟨b, rfl, Nat.le_refl _, by omega, fun i x h1 h2 => by omega, fun i x h1 h2 => by omega⟩
  · have hb : b < keys.length := by omega
    have he1 : e - 1 < keys.length := by omega
    simp only [if_neg h, rd_ok hb, rd_ok he1, bind_ok]
    have hxb : keys[b]? = some keys[b] := by simp [hb]
    have hxe : keys[e - 1]? = some keys[e - 1] := by simp [he1]
    by_cases h1 : keys[b] < k
    · rw [if_neg (by simpa using h1)]
      by_cases h2 : keys[e - 1] < k
      · rw [if_pos h2]
        refine ⟨e, rfl, hbe, Nat.le_refl _, ?_, fun i x h1 h2 => by omega⟩
        intro i x hi1 hi2 hx
        have := hs i (e - 1) x _ hi1 (by omega) (by omega) hx hxe
        omega
      · rw [if_neg h2]
        apply stdLowerBound_spec keys k b e he hs <;> (first | omega | (intro i x h3 h4; omega))
    · rw [if_pos h1]
      refine ⟨b, rfl, Nat.le_refl _, hbe, fun i x h3 h4 => by omega, ?_⟩
      intro i x h3 h4 hx
      have := hs b i _ x (Nat.le_refl _) h3 h4 hxb hx
      omega

theorem copyBackward_spec (l : List α) (b e : Nat) (hbe : b ≤ e) (he : e < l.length) :
    ∃ l', copyBackward l b e = .ok l' ∧ l'.length = l.length ∧
      ∀ i : Nat, l'[i]? = if b < i ∧ i ≤ e then l[i - 1]? else l[i]? := by
  obtain ⟨t, h1, h2, h3⟩ := loop_inv (f := fun j (l : List α) => (rd false l (e - j - 1) >>= fun x => wr false l (e - j) x : M (List α)))
    (n := e - b) (s := l)
    (fun k t => t.length = l.length ∧ ∀ i : Nat, t[i]? = if e - k < i ∧ i ≤ e then l[i - 1]? else l[i]?)
    ⟨rfl, fun i => by rw [if_neg (by omega)]⟩
    (by
      rintro k t hk ⟨g1, g2⟩
      have i1 : e - k - 1 < t.length := by omega
      refine ⟨t.set (e - k) t[e - k - 1], by rw [rd_ok i1, bind_ok, wr_ok (by omega)], by simpa using g1, ?_⟩
      intro i
      have q : some t[e - k - 1] = l[e - k - 1]? := by
        rw [← List.getElem?_eq_getElem i1, g2, if_neg (by omega)]
      rw [List.getElem?_set]
      by_cases hi : e - k = i
      · subst hi
        rw [if_pos rfl, if_pos (by omega), if_pos (by omega), q]
      · rw [if_neg hi, g2]
        by_cases hc : e - k < i ∧ i ≤ e
        · rw [if_pos hc, if_pos (by omega)]
        · rw [if_neg hc, if_neg (by omega)])
  refine ⟨t, h1, h2, fun i => ?_⟩
  rw [h3]
  by_cases hc : b < i ∧ i ≤ e
  · rw [if_pos hc, if_pos (by omega)]
  · rw [if_neg hc, if_neg (by omega)]

theorem copyForward_spec (l : List α) (b e d : Nat) (hbe : b ≤ e) (he : e ≤ l.length) (hd : d ≤ b) :
    ∃ l', copyForward l b e d = .ok l' ∧ l'.length = l.length ∧
      ∀ i : Nat, l'[i]? = if d ≤ i ∧ i < d + (e - b) then l[i + (b - d)]? else l[i]? := by
  obtain ⟨t, h1, h2, h3⟩ := loop_inv (f := fun j (l : List α) => (rd false l (b + j) >>= fun x => wr false l (d + j) x : M (List α)))
    (n := e - b) (s := l)
    (fun k t => t.length = l.length ∧ ∀ i : Nat, t[i]? = if d ≤ i ∧ i < d + k then l[i + (b - d)]? else l[i]?)
    ⟨rfl, fun i => by rw [if_neg (by omega)]⟩
    (by
      rintro k t hk ⟨g1, g2⟩
      have i1 : b + k < t.length := by omega
      refine ⟨t.set (d + k) t[b + k], by rw [rd_ok i1, bind_ok, wr_ok (by omega)], by simpa using g1, ?_⟩
      intro i
      have q : some t[b + k] = l[b + k]? := by
        rw [← List.getElem?_eq_getElem i1, g2]
        split
        · rename_i hh
          have : b = d := by omega
          subst this; simp
        · rfl
      rw [List.getElem?_set]
      by_cases hi : d + k = i
      · subst hi
        rw [if_pos rfl, if_pos (by omega), if_pos (by omega), q]
        congr 1; omega
      · rw [if_neg hi, g2]
        by_cases hc : d ≤ i ∧ i < d + k
        · rw [if_pos hc, if_pos (by omega)]
        · rw [if_neg hc, if_neg (by omega)])
  exact ⟨t, h1, h2, h3⟩

/-- Copy-backward followed by writing position `n` inserts `x` at `n` in the first `f` elements. -/
theorem insert_prefix (l : List α) (n f : Nat) (x : α) (hn : n ≤ f) (hf : f < l.length) :
    ∃ l1 l2, copyBackward l n f = .ok l1 ∧ wr false l1 n x = .ok l2 ∧ l2.length = l.length ∧
      l2.take (f + 1) = (l.take f).take n ++ x :: (l.take f).drop n := by
  obtain ⟨l1, h1, h2, h3⟩ := copyBackward_spec l n f hn hf
  refine ⟨l1, l1.set n x, h1, wr_ok (by omega), by simpa using h2, ?_⟩
  apply List.ext_getElem?
  intro i
  rw [List.getElem?_take, List.getElem?_set, h3, List.getElem?_append]
  simp only [List.length_take]
  have hm : min n (min f l.length) = n := by omega
  rw [hm]
  by_cases h : i < n
  · rw [if_pos h, if_pos (by omega), if_neg (by omega), if_neg (by omega), List.getElem?_take, if_pos h, List.getElem?_take, if_pos (by omega)]
  · rw [if_neg h]
    by_cases h' : n = i
    · subst h'; rw [if_pos (by omega), if_pos rfl, if_pos (by omega)]; simp
    · rw [if_neg h']
      obtain ⟨j, hj⟩ : ∃ j, i - n = j + 1 := ⟨i - n - 1, by omega⟩
      rw [hj, List.getElem?_cons_succ, List.getElem?_drop, List.getElem?_take]
      by_cases hif : i < f + 1
      · rw [if_pos hif, if_pos (by omega), if_pos (by omega)]; congr 1; omega
      · rw [if_neg hif, if_neg (by omega)]

/-- Moving down the elements after position `n` removes element `n` of the first `f`. -/
theorem erase_prefix (l : List α) (n f : Nat) (hn : n < f) (hf : f ≤ l.length) :
    ∃ l1, copyForward l (n + 1) f n = .ok l1 ∧ l1.length = l.length ∧
      l1.take (f - 1) = (l.take f).take n ++ (l.take f).drop (n + 1) := by
  obtain ⟨l1, h1, h2, h3⟩ := copyForward_spec l (n + 1) f n (by omega) hf (by omega)
  refine ⟨l1, h1, h2, ?_⟩
  apply List.ext_getElem?
  intro i
  rw [List.getElem?_take, h3, List.getElem?_append]
  simp only [List.length_take]
  have hm : min n (min f l.length) = n := by omega
  rw [hm]
  by_cases h : i < n
  · rw [if_pos h, if_pos (by omega), if_neg (by omega), List.getElem?_take, if_pos h, List.getElem?_take, if_pos (by omega)]
  · rw [if_neg h, List.getElem?_drop, List.getElem?_take]
    by_cases hif : i < f - 1
    · rw [if_pos hif, if_pos (by omega), if_pos (by omega)]; congr 1; omega
    · rw [if_neg hif, if_neg (by omega)]

/-- Removing a whole block [n, m) of the first `f` elements. -/
theorem erase_block (l : List α) (n m f : Nat) (hn : n ≤ m) (hm : m ≤ f) (hf : f ≤ l.length) :
    ∃ l1, copyForward l m f n = .ok l1 ∧ l1.length = l.length ∧
      l1.take (f - (m - n)) = (l.take f).take n ++ (l.take f).drop m := by
  obtain ⟨l1, h1, h2, h3⟩ := copyForward_spec l m f n hm hf hn
  refine ⟨l1, h1, h2, ?_⟩
  apply List.ext_getElem?
  intro i
  rw [List.getElem?_take, h3, List.getElem?_append]
  simp only [List.length_take]
  have hm' : min n (min f l.length) = n := by omega
  rw [hm']
  by_cases h : i < n
  · rw [if_pos h, if_pos (by omega), if_neg (by omega), List.getElem?_take, if_pos h, List.getElem?_take, if_pos (by omega)]
  · rw [if_neg h, List.getElem?_drop, List.getElem?_take]
    by_cases hif : i < f - (m - n)
    · rw [if_pos hif, if_pos (by omega), if_pos (by omega)]; congr 1; omega
    · rw [if_neg hif, if_neg (by omega)]

end Ublas.Search
