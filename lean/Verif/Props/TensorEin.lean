import Verif.Model.TensorEin
import Verif.Props.TensorInner
/-! # C73: products in Einstein notation -/
namespace Ublas.Tens
variable {R : Type}

/-- The labels (other than the anonymous 0) that occur in both multi-indices, in the order of the left one. -/
def sharedLabels (ia ib : List Nat) : List Nat := ia.filter fun l => l ∈ ib ∧ l ≠ 0

/-- No label other than 0 occurs twice. -/
def Proper (l : List Nat) : Prop := (l.filter (· ≠ 0)).Nodup

theorem numberEqual_eq (ia ib : List Nat) : numberEqual ia ib = (sharedLabels ia ib).length := by
  induction ia with
  | nil => rfl
  | cons l ls ih =>
    rw [numberEqual, ih]
    unfold sharedLabels
    rw [List.filter_cons]
    by_cases h : l ∈ ib ∧ l ≠ 0
    · rw [if_pos h, if_pos (by simpa using h), List.length_cons]; omega
    · rw [if_neg h, if_neg (by simpa using h)]; omega

theorem indexPosition_ok {l : Nat} {xs : List Nat} (h : l ∈ xs) : indexPosition l xs < xs.length ∧ xs.getD (indexPosition l xs) 0 = l := by
  induction xs with
  | nil => simp at h
  | cons x xs ih =>
    rw [indexPosition]
    by_cases hx : l = x
    · rw [if_pos hx]; simp [hx]
    · rw [if_neg hx]
      have := ih (by simpa [hx] using h)
      exact ⟨by simpa using this.1, by rw [List.getD_cons_succ]; exact this.2⟩

theorem pairs_spec (full : List Nat) : ∀ (ls pre ib : List Nat), full = pre ++ ls →
    pick ((positionPairs pre.length ls ib).map fun p => p.1 + 1) full = sharedLabels ls ib ∧ pick ((positionPairs pre.length ls ib).map fun p => p.2 + 1) ib = sharedLabels ls ib ∧
    (∀ p ∈ positionPairs pre.length ls ib, pre.length ≤ p.1 ∧ p.1 < full.length ∧ p.2 < ib.length) ∧ ((positionPairs pre.length ls ib).map fun p => p.1 + 1).Nodup := by
  intro ls
  induction ls with
  | nil => intro pre ib _; simp [positionPairs, pick, sharedLabels]
  | cons l ls ih =>
    intro pre ib h
    obtain ⟨i1, i2, i3, i4⟩ := ih (pre ++ [l]) ib (by simp [h])
    simp only [List.length_append, List.length_singleton] at i1 i2 i3 i4
    have hlen : full.length = pre.length + (ls.length + 1) := by rw [h]; simp
    rw [positionPairs]
    by_cases hl : l ∈ ib ∧ l ≠ 0
    · obtain ⟨p1, p2⟩ := indexPosition_ok hl.1
      rw [if_pos hl]
      have hs : sharedLabels (l :: ls) ib = l :: sharedLabels ls ib := by rw [sharedLabels, List.filter_cons, if_pos (by simpa using hl)]; rfl
      have hg : full.getD pre.length 0 = l := by rw [h, List.getD_eq_getElem?_getD, List.getElem?_append_right (le_refl _)]; simp
      refine ⟨?_, ?_, ?_, ?_⟩
      · rw [hs, ← i1]; simp [pick]; simpa using hg
      · rw [hs, ← i2]; simp [pick]; simpa using p2
      · intro p hp
        rcases List.mem_cons.1 hp with rfl | hp
        · exact ⟨le_refl _, by omega, p1⟩
        · have := i3 p hp; exact ⟨by omega, this.2⟩
      · rw [List.map_cons, List.nodup_cons]
        refine ⟨fun hc => ?_, i4⟩
        obtain ⟨p, hp, he⟩ := List.mem_map.1 hc
        have := i3 p hp
        omega
    · rw [if_neg hl]
      have hs : sharedLabels (l :: ls) ib = sharedLabels ls ib := by rw [sharedLabels, List.filter_cons, if_neg (by simpa using hl)]; rfl
      rw [hs]
      exact ⟨i1, i2, fun p hp => by have := i3 p hp; exact ⟨by omega, this.2⟩, i4⟩

theorem shared_nodup {ia ib : List Nat} (h : Proper ia) : (sharedLabels ia ib).Nodup := by
  have : sharedLabels ia ib = (ia.filter (· ≠ 0)).filter fun l => l ∈ ib := by
    rw [List.filter_filter, sharedLabels]
    exact List.filter_congr fun x _ => by simp
  rw [this]
  exact List.Nodup.filter _ h

/-- The modes that are contracted. -/
theorem pairs_modes {ia ib : List Nat} (ha : Proper ia) :
    ∃ P Q, (positionPairs 0 ia ib).map (fun p => p.1 + 1) = P ∧ (positionPairs 0 ia ib).map (fun p => p.2 + 1) = Q ∧ Modes ia.length P ∧ Modes ib.length Q ∧ P.length = Q.length ∧
      pick P ia = sharedLabels ia ib ∧ pick Q ib = sharedLabels ia ib := by
  obtain ⟨h1, h2, h3, h4⟩ := pairs_spec ia ia [] ib rfl
  simp only [List.length_nil] at h1 h2 h3 h4
  refine ⟨_, _, rfl, rfl, ⟨h4, fun t ht => ?_⟩, ⟨?_, fun t ht => ?_⟩, by simp, h1, h2⟩
  · obtain ⟨p, hp, rfl⟩ := List.mem_map.1 ht
    have := h3 p hp; omega
  · have hn := shared_nodup (ib := ib) ha
    rw [← h2, pick] at hn
    exact List.Nodup.of_map _ hn
  · obtain ⟨p, hp, rfl⟩ := List.mem_map.1 ht
    have := h3 p hp; omega

/-- **C73**, contraction: when some but not all labels agree, or all do in another order, the product is the tensor whose modes are the unshared modes of `A` and then those of `B`, and whose elements
are the sums over the shared labels (`P`, `Q` list the modes of `A` and `B` that carry the shared labels). With two static ranks, two free modes must remain. -/
theorem C73_contraction_partial [NonUnitalNonAssocSemiring R] {dyn : Bool} {La Lb : Layout} {a b : Tensor R} {ea eb ia ib : List Nat} {f g : List Nat → R} (ha : Holds La a ea f) (hb : Holds Lb b eb g)
    (hsa : ∀ n ∈ ea, n < 2 ^ 32) (hsb : ∀ n ∈ eb, n < 2 ^ 32) (hia : ia.length = ea.length) (hib : ib.length = eb.length) (hpa : Proper ia) (hsome : sharedLabels ia ib ≠ []) (hne : ia ≠ ib ∨ 0 ∈ ia)
    (hext : ∀ r s, r < ia.length → s < ib.length → ia.getD r 0 = ib.getD s 0 → ia.getD r 0 ≠ 0 → ea.getD r 0 = eb.getD s 0)
    (hdyn : dyn = true ∨ 2 ≤ (ea.length - (sharedLabels ia ib).length) + (eb.length - (sharedLabels ia ib).length)) :
    ∃ P Q c, Modes ea.length P ∧ Modes eb.length Q ∧ pick P ia = sharedLabels ia ib ∧ pick Q ib = sharedLabels ia ib ∧ einstein dyn 0 La Lb a ia b ib = .ok (.tensor c) ∧
      Holds La c (prodExtents ea P eb Q) (fun j => sumBox (pick P ea) fun z =>
        f (place (rest ea.length P ++ P) (j.take (ea.length - P.length) ++ z)) * g (place (rest eb.length Q ++ Q) ((j.drop (ea.length - P.length)).take (eb.length - Q.length) ++ z))) := by
  obtain ⟨P, Q, hP, hQ, mP, mQ, hl, h1, h2⟩ := pairs_modes (ib := ib) hpa
  rw [hia] at mP
  rw [hib] at mQ
  have hPl : P.length = (sharedLabels ia ib).length := by rw [← h1, pick_length]
  have hpe : pick P ea = pick Q eb := by
    refine ext_getD (by rw [pick_length, pick_length, hl]) fun k hk => ?_
    rw [pick_length] at hk
    have m1 := mP.2 _ (getD_mem hk)
    have m2 := mQ.2 _ (getD_mem (show k < Q.length by omega))
    have e1 : ia.getD (P.getD k 0 - 1) 0 = (sharedLabels ia ib).getD k 0 := by rw [← h1, pick_getD hk]
    have e2 : ib.getD (Q.getD k 0 - 1) 0 = (sharedLabels ia ib).getD k 0 := by rw [← h2, pick_getD (by omega)]
    have hmem : (sharedLabels ia ib).getD k 0 ∈ sharedLabels ia ib := getD_mem (by omega)
    have hnz : (sharedLabels ia ib).getD k 0 ≠ 0 := by
      rw [sharedLabels, List.mem_filter] at hmem
      have := hmem.2
      simp only [decide_eq_true_eq] at this
      exact this.2
    rw [pick_getD hk, pick_getD (by omega)]
    exact hext _ _ (by omega) (by omega) (by rw [e1, e2]) (by rw [e1]; exact hnz)
  obtain ⟨c, c1, c2⟩ := C55_prod_partial (dyn := dyn) (L := La) ha hb hsa hsb mP mQ hl hpe (by rw [← hl, hPl]; exact hdyn)
  refine ⟨P, Q, c, mP, mQ, h1, h2, ?_, c2⟩
  rw [einstein, Tensor.label, if_neg (by rw [ha.extents]; simpa using hia), bind_ok]
  simp only [Tensor.label]
  rw [if_neg (by rw [hb.extents]; simpa using hib), bind_ok]
  simp only
  rw [if_neg (by rw [numberEqual_eq]; simpa using hsome), if_neg, hP, hQ, c1, bind_ok]
  rintro ⟨k1, k2⟩
  rcases hne with hne | hne
  · exact hne k2
  · rw [numberEqual_eq, sharedLabels, List.length_filter_eq_length_iff] at k1
    have := k1 0 hne
    simp at this

/-- **C73**, equal multi-indices: the product is the number `∑ i, A (i) * B (i)` (rank two or more). -/
theorem C73_equal_partial [NonUnitalNonAssocSemiring R] {dyn : Bool} {La Lb : Layout} {a b : Tensor R} {e i : List Nat} {f g : List Nat → R} (ha : Holds La a e f) (hb : Holds Lb b e g) (hr : 2 ≤ e.length)
    (hs : ∀ n ∈ e, n < 2 ^ 32) (hi : i.length = e.length) (h0 : 0 ∉ i) : einstein dyn 0 La Lb a i b i = .ok (.scalar (sumBox e fun k => f k * g k)) := by
  have hsh : sharedLabels i i = i := by
    rw [sharedLabels, List.filter_eq_self]
    intro l hl
    simp only [decide_eq_true_eq]
    exact ⟨hl, fun hc => h0 (hc ▸ hl)⟩
  rw [einstein, Tensor.label, if_neg (by rw [ha.extents]; simpa using hi), bind_ok]
  simp only [Tensor.label]
  rw [if_neg (by rw [hb.extents]; simpa using hi), bind_ok]
  simp only
  rw [if_neg (by rw [numberEqual_eq, hsh]; omega), if_pos ⟨by rw [numberEqual_eq, hsh], trivial⟩, C55_inner_partial ha hb hr hs, bind_ok]

/-- **C73**: a wrong number of labels is refused. -/
theorem C73_wrong_rank [Add R] [Mul R] {dyn : Bool} {La Lb : Layout} {a b : Tensor R} {ia ib : List Nat} (h : ia.length ≠ a.extents.length ∨ ib.length ≠ b.extents.length) (zero : R) :
    einstein dyn zero La Lb a ia b ib = .error .stdException := by
  rw [einstein, Tensor.label]
  by_cases h1 : ia.length ≠ a.extents.length
  · rw [if_pos h1, bind_error]
  · rw [if_neg h1, bind_ok]
    simp only [Tensor.label]
    rw [if_pos (by omega), bind_error]

/-- **C73** refuted when no label is shared. In Einstein notation this is the outer product `C (i, j) = A (i) * B (j)`; for two tensors of one layout the operator gives an expression that evaluates
to the element-wise product if the extents agree, and throws otherwise. -/
theorem C73_disjoint_refuted [NonUnitalNonAssocSemiring R] {dyn : Bool} {L : Layout} {a b : Tensor R} {ea eb ia ib : List Nat} {f g : List Nat → R} (ha : Holds L a ea f) (hb : Holds L b eb g)
    (hia : ia.length = ea.length) (hib : ib.length = eb.length) (hno : sharedLabels ia ib = []) (hs : count ea < 2 ^ 32) :
    ∃ x, einstein dyn 0 L L a ia b ib = .ok (.expr x) ∧
      (ea = eb → ∃ c, construct L 0 x (List.range (count ea)) = .ok c ∧ Holds L c ea fun i => f i * g i) ∧
      (ea ≠ eb → construct L 0 x (List.range (count ea)) = .error .stdException) := by
  refine ⟨.binary (· * ·) (.leaf L a) (.leaf L b), ?_, fun he => ?_, fun he => ?_⟩
  · rw [einstein, Tensor.label, if_neg (by rw [ha.extents]; simpa using hia), bind_ok]
    simp only [Tensor.label]
    rw [if_neg (by rw [hb.extents]; simpa using hib), bind_ok]
    simp only
    rw [if_pos (by rw [numberEqual_eq, hno]; rfl), TExp.combine, if_neg (by simp [TExp.layout]), bind_ok]
  · subst he
    exact C72_construct_same_layout_partial 0 (.binary (· * ·) (.leaf ha) (.leaf hb)) ha.positive ha.rank (by simp [TExp.extents, TExp.isTensor, ha.extents]) hs (List.Perm.refl _)
  · obtain ⟨t, h1, h2⟩ := create_holds L ha.positive ha.rank (0 : R)
    rw [construct]
    simp only [TExp.extents, TExp.isTensor, Bool.true_eq_false, false_and, if_false, ha.extents, h1, bind_ok]
    rw [eval, if_pos]
    simp only [TExp.allEqual, TExp.layout, if_true, h2.extents, ha.extents, hb.extents, BEq.rfl, Bool.true_and]
    exact beq_eq_false_iff_ne.2 (Ne.symm he)

/-- `A (_a, _) * B (_c, _a, _)`-like products: matrix product and full contraction with exchanged labels. -/
example : (do
    let a ← createFrom .first [2, 3] [1, 2, 3, 4, 5, 6]
    let b ← createFrom .first [3, 2] [1, 0, 2, 0, 1, 1]
    let c ← einstein true 0 .first .first a [1, 2] b [2, 3]
    match c with
    | .tensor t => .ok (t.extents, t.data)
    | _ => .error .ub : M (List Nat × List Int)) = .ok ([2, 2], [11, 14, 8, 10]) := by decide
example : sharedLabels [1, 2] [2, 3] = [2] ∧ Proper [1, 2] ∧ sharedLabels [1, 2] [3, 0] = [] := by
  refine ⟨by decide, ?_, by decide⟩
  unfold Proper; decide

end Ublas.Tens
