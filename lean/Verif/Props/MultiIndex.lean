import Verif.Model.MultiIndex
import Verif.Spec.MultiIndex
import Verif.Props.TensorEin
/-! # C121: multi-indices and label matching -/
namespace Ublas.Tens.MI

theorem hasIndex_eq (l : Nat) (rs : List Nat) : hasIndex l rs = decide (l ∈ rs) := by
  induction rs with
  | nil => rfl
  | cons r rs ih =>
    cases rs with
    | nil => simp [hasIndex]
    | cons r' rs => rw [hasIndex, ih]; simp; intro h; cases h

/-- **C121** (labels): `i == k` and `i != k` of two index objects tell whether they are the same label. -/
theorem C121_labels (i k : Nat) : (labelEq i k = true ↔ i = k) ∧ (labelNe i k = true ↔ i ≠ k) := by
  simp [labelEq, labelNe]

/-- `has_index` is true exactly if the label occurs in the tuple. -/
theorem C121_has_index (l : Nat) (rs : List Nat) : hasIndex l rs = true ↔ ∃ j : Nat, rs[j]? = some l := by
  rw [hasIndex_eq, decide_eq_true_iff, List.mem_iff_getElem?]

theorem distinct_cons (l : Nat) (ls : List Nat) : Distinct (l :: ls) ↔ (l ∈ ls → l = 0) ∧ Distinct ls := by
  constructor
  · intro h
    constructor
    · intro hm
      obtain ⟨j, hj⟩ := List.mem_iff_getElem?.1 hm
      exact h 0 (j + 1) l (by omega) rfl (by simpa using hj)
    · intro i j x hij hi hj
      exact h (i + 1) (j + 1) x (by omega) (by simpa using hi) (by simpa using hj)
  · rintro ⟨h0, h⟩ i j x hij hi hj
    cases i with
    | zero =>
      cases j with
      | zero => omega
      | succ j =>
        simp at hi hj
        subst hi
        exact h0 (List.mem_iff_getElem?.2 ⟨j, hj⟩)
    | succ i =>
      cases j with
      | zero =>
        simp at hi hj
        subst hj
        exact h0 (List.mem_iff_getElem?.2 ⟨i, hi⟩)
      | succ j => exact h i j x (by omega) (by simpa using hi) (by simpa using hj)

/-- `valid_multi_index` is true exactly if no label other than the placeholder occurs twice. -/
theorem C121_valid (ls : List Nat) : validMultiIndex ls = true ↔ Distinct ls := by
  induction ls with
  | nil => simp [validMultiIndex, Distinct]
  | cons l ls ih =>
    rw [distinct_cons, ← ih]
    cases ls with
    | nil => simp [validMultiIndex]
    | cons l' ls => rw [validMultiIndex, hasIndex_eq]; simp; intro _; tauto; simp

theorem numberEqual_link (ia ib : List Nat) : numberEqualIndexes ia ib = numberEqual ia ib := by
  induction ia with
  | nil => rfl
  | cons l ls ih => simp only [numberEqualIndexes, numberEqual, ih, hasIndex_eq]; simp

theorem indexPositionImpl_link (l : Nat) (pre t : List Nat) :
    indexPositionImpl l (pre ++ t) t.length pre.length = pre.length + Tens.indexPosition l t := by
  induction t generalizing pre with
  | nil => simp [indexPositionImpl, Tens.indexPosition]
  | cons x xs ih =>
    have := ih (pre ++ [x])
    simp only [List.append_assoc, List.singleton_append, List.length_append, List.length_singleton] at this
    simp only [List.length_cons, indexPositionImpl, Tens.indexPosition, this]
    simp only [List.getElem?_append_right (Nat.le_refl _), Nat.sub_self, List.getElem?_cons_zero, Option.some.injEq]
    by_cases h : l = x
    · rw [if_pos h.symm, if_pos h]; omega
    · rw [if_neg (fun e => h e.symm), if_neg h]; omega

theorem indexPosition_link (l : Nat) (t : List Nat) : indexPosition l t = Tens.indexPosition l t := by
  have := indexPositionImpl_link l [] t
  simpa [indexPosition] using this

theorem position_first (l : Nat) (t : List Nat) :
    (∀ j < Tens.indexPosition l t, t[j]? ≠ some l) ∧ (Tens.indexPosition l t < t.length → t[Tens.indexPosition l t]? = some l) ∧
      Tens.indexPosition l t ≤ t.length := by
  induction t with
  | nil => simp [Tens.indexPosition]
  | cons x xs ih =>
    unfold Tens.indexPosition
    by_cases h : l = x
    · simp [h]
    · rw [if_neg h]
      refine ⟨?_, ?_, ?_⟩
      · intro j hj
        cases j with
        | zero => simpa using fun e => h e.symm
        | succ j => simpa using ih.1 j (by omega)
      · intro h'; simpa using ih.2.1 (by simpa using h')
      · simpa using ih.2.2

/-- `index_position` is the first position of the label, or the size of the tuple if the label does not occur. -/
theorem C121_position (l : Nat) (t : List Nat) (k : Nat) : indexPosition l t = k ↔
    (t[k]? = some l ∧ ∀ j < k, t[j]? ≠ some l) ∨ (k = t.length ∧ ∀ j : Nat, t[j]? ≠ some l) := by
  rw [indexPosition_link]
  obtain ⟨h1, h2, h3⟩ := position_first l t
  constructor
  · rintro rfl
    by_cases h : Tens.indexPosition l t < t.length
    · exact .inl ⟨h2 h, h1⟩
    · refine .inr ⟨by omega, fun j e => ?_⟩
      have hj : j < t.length := by
        by_contra hc
        rw [List.getElem?_eq_none (by omega)] at e
        cases e
      exact h1 j (by omega) e
  · rintro (⟨e, he⟩ | ⟨rfl, he⟩)
    · have hk : k < t.length := by
        by_contra hc
        rw [List.getElem?_eq_none (by omega)] at e
        cases e
      rcases Nat.lt_trichotomy (Tens.indexPosition l t) k with h | h | h
      · exact absurd (h2 (by omega)) (he _ h)
      · exact h
      · exact absurd e (h1 k h)
    · by_contra hc
      exact he _ (h2 (by omega))

/-- What position `i` with label `l` contributes. -/
def cell (ib : List Nat) (i l : Nat) : List (Nat × Nat) := if l ∈ ib ∧ l ≠ 0 then [(i, Tens.indexPosition l ib)] else []

theorem positionPairs_flat (ib : List Nat) (r : Nat) (ls : List Nat) :
    positionPairs r ls ib = (List.range ls.length).flatMap fun i => cell ib (r + i) (ls.getD i 0) := by
  induction ls generalizing r with
  | nil => rfl
  | cons l ls ih =>
    rw [positionPairs, ih, List.length_cons, List.range_succ_eq_map, List.flatMap_cons, List.flatMap_map]
    simp only [Nat.add_zero, List.getD_cons_zero, List.getD_cons_succ, cell, Nat.add_succ]
    by_cases h : l ∈ ib ∧ l ≠ 0
    · simp only [if_pos h, List.singleton_append, Nat.succ_add]
    · simp only [if_neg h, List.nil_append, Nat.succ_add]

theorem match_lt {ia ib : List Nat} {i j : Nat} (h : Match ia ib i j) : i < ia.length ∧ j < ib.length := by
  obtain ⟨l, _, h1, h2⟩ := h
  constructor
  · by_contra hc; rw [List.getElem?_eq_none (by omega)] at h1; cases h1
  · by_contra hc; rw [List.getElem?_eq_none (by omega)] at h2; cases h2

theorem filter_one {m j0 : Nat} (h : j0 < m) {p : Nat → Bool} (hp : ∀ j < m, p j = decide (j = j0)) : (List.range m).filter p = [j0] := by
  rw [List.filter_congr (q := fun j => j == j0) (fun j hj => by rw [hp j (List.mem_range.1 hj)]; exact (beq_eq_decide j j0).symm), List.filter_beq,
    List.count_eq_one_of_mem List.nodup_range (List.mem_range.2 h)]
  rfl

theorem firstMatches_eq (ia ib : List Nat) : firstMatches ia ib = positionPairs 0 ia ib := by
  rw [positionPairs_flat, firstMatches, allMatches, List.filter_filter, List.filter_flatMap]
  refine List.flatMap_congr fun i hi => ?_
  have hi := List.mem_range.1 hi
  rw [List.filter_map]
  have hl : ia[i]? = some (ia.getD i 0) := by rw [List.getD_eq_getElem?_getD, List.getElem?_eq_getElem hi]; rfl
  generalize ia.getD i 0 = l at hl
  have hm : ∀ j, Match ia ib i j ↔ l ≠ 0 ∧ ib[j]? = some l := by
    intro j
    constructor
    · rintro ⟨l', h1, h2, h3⟩
      rw [hl] at h2; cases h2
      exact ⟨h1, h3⟩
    · rintro ⟨h1, h2⟩; exact ⟨l, h1, hl, h2⟩
  obtain ⟨p1, p2, p3⟩ := position_first l ib
  rw [cell, Nat.zero_add]
  by_cases h : l ∈ ib ∧ l ≠ 0
  · have hlt := (indexPosition_ok h.1).1
    rw [if_pos h, filter_one hlt]
    · rfl
    · intro j hj
      simp only [Function.comp_apply, ← Bool.decide_and, decide_eq_decide]
      simp only [hm]
      constructor
      · rintro ⟨a, b, c⟩
        rcases Nat.lt_trichotomy (Tens.indexPosition l ib) j with h' | h' | h'
        · exact absurd ⟨b, p2 hlt⟩ (a _ h')
        · exact h'.symm
        · exact absurd c (p1 j h')
      · rintro rfl
        exact ⟨fun j hj hc => p1 j hj hc.2, h.2, p2 hlt⟩
  · rw [if_neg h, List.map_eq_nil_iff, List.filter_eq_nil_iff]
    intro j hj
    simp only [Function.comp_apply, ← Bool.decide_and, decide_eq_true_eq]
    rintro ⟨_, hc⟩
    rw [hm] at hc
    exact h ⟨List.mem_iff_getElem?.2 ⟨j, hc.2⟩, hc.1⟩

theorem pairStep_ok {lhs rhs : List Nat} {r l : Nat} (hl : lhs[r - 1]? = some l) (pre post : List (Nat × Nat)) (x : Nat × Nat) :
    pairStep lhs rhs r pre.length (if l ∈ rhs ∧ l ≠ 0 then pre ++ x :: post else pre ++ post)
      = .ok (pre ++ cell rhs (r - 1) l ++ post, (pre ++ cell rhs (r - 1) l).length) := by
  rw [pairStep, rd_eq_ok.2 hl, bind_ok, hasIndex_eq, ← Bool.decide_and, cell]
  simp only [decide_eq_true_eq]
  by_cases h : l ∈ rhs ∧ l ≠ 0
  · simp only [if_pos h, indexPosition_link]
    simp [wr]
  · simp only [if_neg h]
    simp

theorem numberEqual_cell (rhs : List Nat) (l r : Nat) (ls : List Nat) :
    numberEqual (l :: ls) rhs = (cell rhs r l).length + numberEqual ls rhs := by
  rw [numberEqual, cell]; split <;> rfl

theorem replicate_cell (rhs : List Nat) (l r : Nat) (k : Nat) (pre : List (Nat × Nat)) :
    pre ++ List.replicate ((cell rhs r l).length + k) (0, 0) =
      if l ∈ rhs ∧ l ≠ 0 then pre ++ (0, 0) :: List.replicate k (0, 0) else pre ++ List.replicate k (0, 0) := by
  rw [cell]; split
  · simp [Nat.add_comm 1 k, List.replicate_succ]
  · simp

theorem positionPairs_cons (rhs : List Nat) (l r : Nat) (ls : List Nat) :
    positionPairs r (l :: ls) rhs = cell rhs r l ++ positionPairs (r + 1) ls rhs := by
  rw [positionPairs, cell]; split <;> rfl

theorem pairsRun_ok (lhs rhs : List Nat) : ∀ (fuel r : Nat) (pre : List (Nat × Nat)), 1 ≤ r → lhs.length = r + fuel →
    pairsRun lhs rhs fuel r pre.length (pre ++ List.replicate (numberEqual (lhs.drop (r - 1)) rhs) (0, 0))
      = .ok (pre ++ positionPairs (r - 1) (lhs.drop (r - 1)) rhs) := by
  intro fuel
  induction fuel with
  | zero =>
    intro r pre hr hlen
    have hlt : r - 1 < lhs.length := by omega
    have hd : lhs.drop (r - 1) = [lhs[r - 1]] := by
      rw [List.drop_eq_getElem_cons hlt, List.drop_eq_nil_of_le (by omega)]
    rw [pairsRun, hd, numberEqual_cell (r := r - 1), replicate_cell, pairStep_ok (List.getElem?_eq_getElem hlt), bind_ok, positionPairs_cons]
    simp [numberEqual, positionPairs]
  | succ fuel ih =>
    intro r pre hr hlen
    have hlt : r - 1 < lhs.length := by omega
    have hd : lhs.drop (r - 1) = lhs[r - 1] :: lhs.drop (r + 1 - 1) := by
      rw [List.drop_eq_getElem_cons hlt]; congr 2; omega
    rw [pairsRun, hd, numberEqual_cell (r := r - 1), replicate_cell, pairStep_ok (List.getElem?_eq_getElem hlt), bind_ok, positionPairs_cons]
    dsimp only
    rw [ih (r + 1) _ (by omega) (by omega), List.append_assoc]
    congr 3
    rw [show r - 1 + 1 = r + 1 - 1 by omega]

theorem pairs_link (ia ib : List Nat) : indexPositionPairs ia ib = .ok (positionPairs 0 ia ib) := by
  unfold indexPositionPairs
  by_cases h : ia.length = 0
  · rw [List.length_eq_zero_iff.1 h]; rfl
  · have := pairsRun_ok ia ib (ia.length - 1) 1 [] (by omega) (by omega)
    simpa [h, numberEqual_link] using this

/-- `index_position_pairs` stays inside its array and lists, for every position of the left tuple whose label is shared, that position and the
first position of the label in the right tuple, in the order of the left tuple. -/
theorem C121_pairs (ia ib : List Nat) : indexPositionPairs ia ib = .ok (firstMatches ia ib) := by
  rw [pairs_link, firstMatches_eq]

/-- If the right tuple is a valid multi-index, these are all pairs of positions with a common label. -/
theorem C121_pairs_valid (ia ib : List Nat) (h : validMultiIndex ib = true) : indexPositionPairs ia ib = .ok (allMatches ia ib) := by
  rw [C121_pairs, firstMatches, List.filter_eq_self.2]
  rw [C121_valid] at h
  rintro ⟨i, j⟩ hp
  rw [decide_eq_true_iff]
  rintro j' hj' ⟨l, h0, h1, h2⟩
  have := (List.mem_filter.1 hp).2
  rw [decide_eq_true_iff] at this
  obtain ⟨l', h0', h1', h2'⟩ := this
  dsimp only at h1 h1' h2' hj'
  rw [h1] at h1'; cases h1'
  exact h0 (h j' j l (by omega) h2 h2')

/-- `number_equal_indexes` is the number of these pairs. -/
theorem C121_number (ia ib : List Nat) : numberEqualIndexes ia ib = (firstMatches ia ib).length := by
  rw [numberEqual_link, firstMatches_eq]
  generalize 0 = r
  induction ia generalizing r with
  | nil => rfl
  | cons l ls ih => rw [numberEqual_cell (r := r), positionPairs_cons, List.length_append, ih (r + 1)]

/-- A `multi_index<N>` can be made exactly of `N` ≥ 1 indices none of which is repeated; it holds them. -/
theorem C121_make (N : Nat) (is m : List Nat) : make N is = some m ↔ m = is ∧ is.length = N ∧ 0 < N ∧ Distinct is := by
  unfold make
  rw [← C121_valid]
  constructor
  · intro h
    split at h
    · rename_i h'
      cases h
      refine ⟨rfl, h'.2.1, ?_, h'.2.2⟩
      rw [← h'.2.1]; exact List.length_pos_iff.2 h'.1
    · cases h
  · rintro ⟨rfl, h1, h2, h3⟩
    rw [if_pos ⟨List.length_pos_iff.1 (by omega), h1, h3⟩]

/-- Reading a position gives its label, or throws if there is no such position. -/
theorem C121_at (m : List Nat) (i : Nat) : at_ m i = if h : i < m.length then .ok m[i] else .error .stdException := by
  unfold at_
  split
  · rename_i l h
    obtain ⟨h1, h2⟩ := List.getElem?_eq_some_iff.1 h
    rw [dif_pos h1, h2]
  · rename_i h
    rw [dif_neg (by simpa using h)]

/-- The two vectors of one-based positions that belong to a list of pairs. -/
def oneBased (ps : List (Nat × Nat)) : List Nat × List Nat := (ps.map fun p => p.1 + 1, ps.map fun p => p.2 + 1)

theorem toVectorStep_ok {ia ib : List Nat} {i j : Nat} (hi : i < ia.length) (hj : j < ib.length) (ps : List (Nat × Nat)) :
    toVectorStep ia ib i j (oneBased ps) = .ok (oneBased (ps ++ if Match ia ib i j then [(i, j)] else [])) := by
  have ei : at_ ia i = .ok ia[i] := by rw [C121_at, dif_pos hi]
  have ej : at_ ib j = .ok ib[j] := by rw [C121_at, dif_pos hj]
  have hm : Match ia ib i j ↔ ia[i] = ib[j] ∧ ia[i] ≠ 0 := by
    unfold Match
    rw [List.getElem?_eq_getElem hi, List.getElem?_eq_getElem hj]
    constructor
    · rintro ⟨l, h0, h1, h2⟩; cases h1; exact ⟨(Option.some.inj h2).symm, h0⟩
    · rintro ⟨h1, h2⟩; exact ⟨ia[i], h2, rfl, by rw [h1]⟩
  simp only [toVectorStep, ei, ej, bind_ok]
  by_cases h1 : ia[i] = ib[j]
  · by_cases h2 : ia[i] ≠ 0
    · rw [if_pos h1, if_pos h2, if_pos (hm.2 ⟨h1, h2⟩)]; simp [oneBased]
    · rw [if_pos h1, if_neg h2, if_neg (fun h => h2 (hm.1 h).2)]; simp
  · rw [if_neg h1, if_neg (fun h => h1 (hm.1 h).1)]; simp

theorem inner_ok {ia ib : List Nat} {i : Nat} (hi : i < ia.length) (ps : List (Nat × Nat)) :
    ∀ n, n ≤ ib.length → loop (fun j s => toVectorStep ia ib i j s) n (oneBased ps)
      = .ok (oneBased (ps ++ ((List.range n).map fun j => (i, j)).filter fun p => Match ia ib p.1 p.2)) := by
  intro n
  induction n with
  | zero => intro _; simp [loop]
  | succ n ih =>
    intro hn
    rw [loop, ih (by omega), bind_ok, toVectorStep_ok hi (by omega), List.range_succ, List.map_append, List.filter_append, List.append_assoc]
    congr 4
    by_cases h : Match ia ib i n <;> simp [h]

theorem outer_ok {ia ib : List Nat} (h : ia.length = ib.length) : ∀ n, n ≤ ia.length →
    loop (fun i s => loop (fun j s => toVectorStep ia ib i j s) ia.length s) n (oneBased [])
      = .ok (oneBased (((List.range n).flatMap fun i => (List.range ib.length).map fun j => (i, j)).filter fun p => Match ia ib p.1 p.2)) := by
  intro n
  induction n with
  | zero => intro _; simp [loop]
  | succ n ih =>
    intro hn
    rw [loop, ih (by omega), bind_ok, inner_ok (by omega) _ _ (by omega), List.range_succ, List.flatMap_append, List.filter_append, h]
    simp

/-- `array_to_vector` of two multi-indices **of the same size** gives the one-based positions of all pairs with a common label.  Partial: with
different sizes it throws (`C121_to_vector_refuted`). -/
theorem C121_to_vector_partial (ia ib : List Nat) (h : ia.length = ib.length) :
    arrayToVector ia ib = .ok ((allMatches ia ib).map (fun p => p.1 + 1), (allMatches ia ib).map fun p => p.2 + 1) := by
  have := outer_ok h ia.length (Nat.le_refl _)
  rw [arrayToVector, ← h]
  exact this

theorem loop_fails {σ : Type} {f : Nat → σ → M σ} {E : Fault} {n : Nat} (hf : ∀ i s, f i s = .error E ∨ ∃ s', f i s = .ok s')
    {k : Nat} (hk : k < n) (hE : ∀ s, f k s = .error E) (s : σ) : loop f n s = .error E := by
  have all : ∀ n s, loop f n s = .error E ∨ ∃ s', loop f n s = .ok s' := by
    intro n
    induction n with
    | zero => intro s; exact .inr ⟨s, rfl⟩
    | succ n ih =>
      intro s
      rw [loop]
      rcases ih s with e | ⟨s', e⟩
      · rw [e]; exact .inl rfl
      · rw [e]; exact hf n s'
  induction n with
  | zero => omega
  | succ n ih =>
    rw [loop]
    by_cases h : k = n
    · subst h
      rcases all k s with e | ⟨s', e⟩
      · rw [e]; rfl
      · rw [e]; exact hE s'
    · rw [ih (by omega)]; rfl

theorem loop_either {σ : Type} {f : Nat → σ → M σ} {E : Fault} (hf : ∀ i s, f i s = .error E ∨ ∃ s', f i s = .ok s') (n : Nat) (s : σ) :
    loop f n s = .error E ∨ ∃ s', loop f n s = .ok s' := by
  induction n generalizing s with
  | zero => exact .inr ⟨s, rfl⟩
  | succ n ih =>
    rw [loop]
    rcases ih s with e | ⟨s', e⟩
    · rw [e]; exact .inl rfl
    · rw [e]; exact hf n s'

theorem step_either (ia ib : List Nat) (i j : Nat) (s : List Nat × List Nat) :
    toVectorStep ia ib i j s = .error .stdException ∨ ∃ s', toVectorStep ia ib i j s = .ok s' := by
  unfold toVectorStep
  rw [C121_at, C121_at]
  by_cases hi : i < ia.length <;> by_cases hj : j < ib.length
  · rw [dif_pos hi, dif_pos hj]
    simp only [bind_ok]
    split
    · split
      · exact .inr ⟨_, rfl⟩
      · exact .inr ⟨_, rfl⟩
    · exact .inr ⟨_, rfl⟩
  · rw [dif_pos hi, dif_neg hj]; exact .inl rfl
  · rw [dif_neg hi]; exact .inl rfl
  · rw [dif_neg hi]; exact .inl rfl

/-- **The claim fails whenever the sizes differ**: the two loop bounds are exchanged, so `array_to_vector` of multi-indices of different sizes
always throws `std::out_of_range`, whatever the labels. -/
theorem C121_to_vector_refuted (ia ib : List Nat) (ha : ia ≠ []) (hb : ib ≠ []) (h : ia.length ≠ ib.length) :
    arrayToVector ia ib = .error .stdException := by
  have ha := List.length_pos_iff.2 ha
  have hb := List.length_pos_iff.2 hb
  rw [arrayToVector]
  by_cases hlt : ia.length < ib.length
  · refine loop_fails (fun i s => loop_either (step_either ia ib i) _ s) hlt (fun s => ?_) _
    refine loop_fails (step_either ia ib _) ha (fun s => ?_) s
    rw [toVectorStep, C121_at, dif_neg (Nat.lt_irrefl _)]; rfl
  · refine loop_fails (fun i s => loop_either (step_either ia ib i) _ s) hb (fun s => ?_) _
    refine loop_fails (k := ib.length) (step_either ia ib 0) (by omega) (fun s => ?_) s
    rw [toVectorStep, C121_at, dif_pos ha, bind_ok, C121_at, dif_neg (Nat.lt_irrefl _)]; rfl

/-- The operator `*` of the Einstein notation (C73) decides by these functions. -/
theorem C121_einstein (ia ib : List Nat) :
    numberEqual ia ib = numberEqualIndexes ia ib ∧ indexPositionPairs ia ib = .ok (positionPairs 0 ia ib) :=
  ⟨(numberEqual_link ia ib).symm, pairs_link ia ib⟩

/-- `(_b, _a, _, _d)` and `(_a, _b, _)`: two shared labels. -/
example : validMultiIndex [2, 1, 0, 4] = true ∧ validMultiIndex [1, 2, 0, 0] = true ∧ validMultiIndex [1, 2, 1] = false ∧
    indexPositionPairs [2, 1, 0, 4] [1, 2, 0] = .ok [(0, 1), (1, 0)] ∧ firstMatches [2, 1, 0, 4] [1, 2, 0] = [(0, 1), (1, 0)] ∧
    arrayToVector [2, 1, 0] [1, 2, 0] = .ok ([1, 2], [2, 1]) ∧
    arrayToVector [2, 1, 0, 4] [1, 2, 0] = .error .stdException ∧ make 3 [1, 2, 0] = some [1, 2, 0] ∧ make 2 [1, 1] = none := by decide
/-- A right tuple with a repeated label: the first position counts. -/
example : indexPositionPairs [1] [2, 1, 1] = .ok [(0, 1)] ∧ allMatches [1] [2, 1, 1] = [(0, 1), (0, 2)] := by decide

end Ublas.Tens.MI
