import Verif.Props.ProxyIterSparse
import Verif.Model.MappedIter
/-! # Lines of a matrix kept as a list of (address, value) pairs in address order -/
namespace Ublas
open Search Assoc SparseSpec CMat MappedMat
variable {R : Type}

theorem get_cnt {E : List (Nat × R)} (h : Inc E) {a : Nat} {w : R} (hm : (a, w) ∈ E) : E[cnt E a]? = some (a, w) := by
  obtain ⟨n, hn, e⟩ := List.mem_iff_getElem.1 hm
  have hb : before E a = n := by
    refine before_at h hn (by rw [e]) ?_
    intro x _
    rw [e]
    exact Nat.lt_or_ge _ _
  rw [cnt_eq_before, hb, List.getElem?_eq_getElem hn, e]

theorem before_succ {L : List (Nat × R)} (h : Inc L) {k : Nat} (hk : k < L.length) : before L (L[k].1 + 1) = k + 1 := by
  by_cases hk1 : k + 1 < L.length
  · have hlt := List.pairwise_iff_getElem.1 h k (k + 1) hk hk1 (by omega)
    refine before_at h hk1 hlt ?_
    intro x hx
    obtain ⟨j, hj, rfl⟩ := List.mem_iff_getElem.1 hx
    rcases Nat.lt_trichotomy j (k + 1) with c | c | c
    · rcases Nat.lt_or_ge j k with c' | c'
      · have := List.pairwise_iff_getElem.1 h j k hj hk c'
        left; omega
      · have : j = k := by omega
        subst this
        left; omega
    · subst c; right; exact Nat.le_refl _
    · right
      exact Nat.le_of_lt (List.pairwise_iff_getElem.1 h (k + 1) j hk1 hj c)
  · have hlast : k + 1 = L.length := by omega
    rw [hlast]
    refine before_all ?_
    intro x hx
    obtain ⟨j, hj, rfl⟩ := List.mem_iff_getElem.1 hx
    rcases Nat.lt_or_ge j k with c' | c'
    · have := List.pairwise_iff_getElem.1 h j k hj hk c'
      omega
    · have : j = k := by omega
      subst this
      omega

theorem cnt_lt {E : List (Nat × R)} (h : Inc E) {a b : Nat} {w : R} (hm : (a, w) ∈ E) (hab : a < b) : cnt E a < cnt E b := by
  obtain ⟨n, hn, e⟩ := List.mem_iff_getElem.1 hm
  have h1 := before_succ h hn
  rw [e] at h1
  have h2 : before E a = n := before_at h hn (by rw [e]) (by intro x _; rw [e]; exact Nat.lt_or_ge _ _)
  have h3 := cnt_mono E (show a + 1 ≤ b from hab)
  simp only [cnt_eq_before] at h3 ⊢
  simp only at h1
  omega

theorem cnt_ge {E : List (Nat × R)} (h : Inc E) {b n : Nat} {x : Nat × R} (hn : cnt E b ≤ n) (he : E[n]? = some x) : b ≤ x.1 := by
  by_contra hc
  obtain ⟨hl, e⟩ := List.getElem?_eq_some_iff.1 he
  have hm : (x.1, x.2) ∈ E := by rw [← e]; exact List.getElem_mem hl
  have h1 := get_cnt h hm
  have h2 := cnt_lt h hm (show x.1 < b by omega)
  obtain ⟨hl', e'⟩ := List.getElem?_eq_some_iff.1 h1
  rcases Nat.lt_trichotomy (cnt E x.1) n with c | c | c
  · have := List.pairwise_iff_getElem.1 h _ n hl' hl c
    rw [e', e] at this; simp only at this; omega
  · omega
  · omega

theorem cnt_end {E : List (Nat × R)} (h : Inc E) {b : Nat} (hn : cnt E b = E.length) : ∀ x ∈ E, x.1 < b := by
  intro x hx
  by_contra hc
  have h1 := get_cnt h (show (x.1, x.2) ∈ E from hx)
  have h2 := cnt_mono E (show b ≤ x.1 by omega)
  have := (List.getElem?_eq_some_iff.1 h1).1
  omega

theorem before_skip {L : List (Nat × R)} {k : Nat} (h : ∀ x ∈ L, x.1 ≠ k) : before L (k + 1) = before L k := by
  unfold before
  refine List.countP_congr ?_
  intro x hx
  have := h x hx
  simp only [decide_eq_true_eq]
  omega

/-- The entry numbered `before L k` is the first at or after `k`. -/
theorem before_get {L : List (Nat × R)} (h : Inc L) {k : Nat} (hk : before L k < L.length) : k ≤ L[before L k].1 ∧ ∀ x ∈ L, k ≤ x.1 → L[before L k].1 ≤ x.1 := by
  refine ⟨cnt_ge h (Nat.le_refl _) (List.getElem?_eq_getElem hk), ?_⟩
  intro x hx hkx
  obtain ⟨j, hj, rfl⟩ := List.mem_iff_getElem.1 hx
  rcases Nat.lt_trichotomy j (before L k) with c | c | c
  · exfalso
    have h1 : cnt L L[j].1 = j := by
      have := get_cnt h (show (L[j].1, L[j].2) ∈ L from List.getElem_mem hj)
      obtain ⟨hl, e⟩ := List.getElem?_eq_some_iff.1 this
      rcases Nat.lt_trichotomy (cnt L L[j].1) j with c | c | c
      · have := List.pairwise_iff_getElem.1 h _ j hl hj c
        rw [e] at this; simp only at this; omega
      · exact c
      · have := List.pairwise_iff_getElem.1 h j _ hj hl c
        rw [e] at this; simp only at this; omega
    have h2 := cnt_mono L hkx
    rw [h1, cnt_eq_before] at h2
    omega
  · subst c; exact Nat.le_refl _
  · exact Nat.le_of_lt (List.pairwise_iff_getElem.1 h _ _ hk hj c)

theorem before_none_ge {L : List (Nat × R)} (h : Inc L) {k : Nat} (hk : before L k = L.length) : ∀ x ∈ L, x.1 < k := cnt_end h hk

namespace MIter

theorem key_spec (o : Orient) {n1 n2 e : Nat} (ax : Axis) (he : e < n1 * n2) :
    e = addr o n1 n2 ax (keyAcross o n1 n2 ax e) (keyAlong o n1 n2 ax e) ∧ keyAlong o n1 n2 ax e < CMat.along ax n1 n2 ∧
      keyAcross o n1 n2 ax e < CMat.along ax.other n1 n2 := by
  obtain ⟨h1, h2, h3⟩ := elementRaw_index o he
  cases ax <;> exact ⟨h3.symm, by assumption, by assumption⟩

theorem addr_key (o : Orient) {n1 n2 : Nat} (ax : Axis) {k l : Nat} (hk : k < CMat.along ax n1 n2) (hl : l < CMat.along ax.other n1 n2) :
    keyAlong o n1 n2 ax (addr o n1 n2 ax l k) = k ∧ keyAcross o n1 n2 ax (addr o n1 n2 ax l k) = l ∧ addr o n1 n2 ax l k < n1 * n2 := by
  cases ax <;> simp only [CMat.along, Axis.other] at hk hl <;> simp only [keyAcross, keyAlong, addr, coord, CMat.along, Axis.other]
  · exact ⟨indexI_elementRaw o hk hl, indexJ_elementRaw o hk hl, elementRaw_lt o hk hl⟩
  · exact ⟨indexJ_elementRaw o hl hk, indexI_elementRaw o hl hk, elementRaw_lt o hl hk⟩

theorem addr_eq (o : Orient) (n1 n2 : Nat) (ax : Axis) (l k : Nat) :
    addr o n1 n2 ax l k = if o.fast ax = true then l * o.sizem n1 n2 + k else k * o.sizem n1 n2 + l := by
  cases ax <;> cases o <;> simp [addr, coord, Orient.elementRaw, Orient.fast, Orient.sizem, Nat.add_comm]

theorem addr_mono (o : Orient) (n1 n2 : Nat) (ax : Axis) (l : Nat) {k k' : Nat} (h : k ≤ k') : addr o n1 n2 ax l k ≤ addr o n1 n2 ax l k' := by
  rw [addr_eq, addr_eq]
  split
  · omega
  · have := Nat.mul_le_mul_right (o.sizem n1 n2) h
    omega

theorem addr_lt' (o : Orient) {n1 n2 : Nat} (ax : Axis) {l : Nat} (hl : l < CMat.along ax.other n1 n2) {k k' : Nat} (h : k < k') :
    addr o n1 n2 ax l k < addr o n1 n2 ax l k' := by
  have h1 := addr_mono o n1 n2 ax l (show k ≤ k' by omega)
  have h2 := addr_inj o ax (k := k) (k' := k') hl
  by_contra hc
  have := h2.1 (by omega)
  omega

theorem addr_le_key (o : Orient) {n1 n2 e : Nat} (ax : Axis) (he : e < n1 * n2) (k : Nat) :
    addr o n1 n2 ax (keyAcross o n1 n2 ax e) k ≤ e ↔ k ≤ keyAlong o n1 n2 ax e := by
  obtain ⟨h1, h2, h3⟩ := key_spec o ax he
  constructor
  · intro h
    by_contra hc
    have := addr_lt' o ax h3 (show keyAlong o n1 n2 ax e < k by omega)
    omega
  · intro h
    have := addr_mono o n1 n2 ax (keyAcross o n1 n2 ax e) h
    omega

theorem fast_between (o : Orient) {n1 n2 e : Nat} (ax : Axis) (hf : o.fast ax = true) (he : e < n1 * n2) {l k k' : Nat} (hk' : k' ≤ CMat.along ax n1 n2)
    (h1 : addr o n1 n2 ax l k ≤ e) (h2 : e < addr o n1 n2 ax l k') : keyAcross o n1 n2 ax e = l := by
  rw [addr_eq, if_pos hf] at h1 h2
  obtain ⟨g1, g2, g3⟩ := key_spec o ax he
  rw [addr_eq, if_pos hf] at g1
  rw [fast_size hf] at hk' g2
  generalize keyAcross o n1 n2 ax e = a at *
  generalize keyAlong o n1 n2 ax e = b at *
  generalize o.sizem n1 n2 = sm at *
  rcases Nat.lt_trichotomy a l with c | c | c
  · have := Nat.mul_le_mul_right sm (show a + 1 ≤ l from c)
    rw [Nat.add_mul, Nat.one_mul] at this
    omega
  · exact c
  · have := Nat.mul_le_mul_right sm (show l + 1 ≤ a from c)
    rw [Nat.add_mul, Nat.one_mul] at this
    omega

/-- The stored entries along `ax` in line `l`. -/
def keyLine (o : Orient) (n1 n2 : Nat) (E : List (Nat × R)) (ax : Axis) (l : Nat) : List (Nat × R) :=
  (E.filter fun x => decide (keyAcross o n1 n2 ax x.1 = l)).map fun x => (keyAlong o n1 n2 ax x.1, x.2)

variable {o : Orient} {n1 n2 : Nat} {E : List (Nat × R)}

theorem keyLine_mem (hb : ∀ x ∈ E, x.1 < n1 * n2) (ax : Axis) {l : Nat} (hl : l < CMat.along ax.other n1 n2) (k : Nat) (w : R) :
    (k, w) ∈ keyLine o n1 n2 E ax l ↔ k < CMat.along ax n1 n2 ∧ (addr o n1 n2 ax l k, w) ∈ E := by
  simp only [keyLine, List.mem_map, List.mem_filter, decide_eq_true_eq, Prod.exists, Prod.mk.injEq]
  constructor
  · rintro ⟨a, b, ⟨hE, rfl⟩, rfl, rfl⟩
    obtain ⟨g1, g2, g3⟩ := key_spec o ax (hb _ hE)
    exact ⟨g2, by rw [← g1]; exact hE⟩
  · rintro ⟨hk, hE⟩
    obtain ⟨g1, g2, g3⟩ := addr_key o ax hk hl
    exact ⟨_, w, ⟨hE, g2⟩, g1, rfl⟩

theorem keyLine_inc (h : Inc E) (hb : ∀ x ∈ E, x.1 < n1 * n2) (ax : Axis) (l : Nat) : Inc (keyLine o n1 n2 E ax l) := by
  unfold keyLine Inc
  rw [List.pairwise_map]
  refine List.Pairwise.imp_of_mem ?_ (h.filter _)
  intro a b ha hb' hab
  simp only [List.mem_filter, decide_eq_true_eq] at ha hb'
  obtain ⟨g1, g2, g3⟩ := key_spec o ax (hb _ ha.1)
  obtain ⟨g1', g2', g3'⟩ := key_spec o ax (hb _ hb'.1)
  rw [ha.2] at g1
  rw [hb'.2] at g1'
  simp only
  by_contra hc
  have := addr_mono o n1 n2 ax l (Nat.le_of_not_lt hc)
  omega

/-- Where in the list the `k`-th entry of the line is; for `k` past the last, where a search for the end of the line arrives. -/
def slot (o : Orient) (n1 n2 : Nat) (E : List (Nat × R)) (ax : Axis) (l k : Nat) : Nat :=
  cnt E (addr o n1 n2 ax l (match (keyLine o n1 n2 E ax l)[k]? with | some x => x.1 | none => CMat.along ax n1 n2))

theorem slot_at (ax : Axis) (l : Nat) {k : Nat} (hk : k < (keyLine o n1 n2 E ax l).length) :
    slot o n1 n2 E ax l k = cnt E (addr o n1 n2 ax l (keyLine o n1 n2 E ax l)[k].1) := by
  simp only [slot, List.getElem?_eq_getElem hk]

theorem slot_end (ax : Axis) (l : Nat) : slot o n1 n2 E ax l (keyLine o n1 n2 E ax l).length = cnt E (addr o n1 n2 ax l (CMat.along ax n1 n2)) := by
  simp [slot]

theorem keyLine_stored (hb : ∀ x ∈ E, x.1 < n1 * n2) (ax : Axis) {l : Nat} (hl : l < CMat.along ax.other n1 n2) {k : Nat}
    (hk : k < (keyLine o n1 n2 E ax l).length) :
    (keyLine o n1 n2 E ax l)[k].1 < CMat.along ax n1 n2 ∧ (addr o n1 n2 ax l (keyLine o n1 n2 E ax l)[k].1, (keyLine o n1 n2 E ax l)[k].2) ∈ E :=
  (keyLine_mem hb ax hl _ _).1 (List.getElem_mem hk)

theorem slot_get (h : Inc E) (hb : ∀ x ∈ E, x.1 < n1 * n2) (ax : Axis) {l : Nat} (hl : l < CMat.along ax.other n1 n2) {k : Nat}
    (hk : k < (keyLine o n1 n2 E ax l).length) :
    E[slot o n1 n2 E ax l k]? = some (addr o n1 n2 ax l (keyLine o n1 n2 E ax l)[k].1, (keyLine o n1 n2 E ax l)[k].2) := by
  rw [slot_at ax l hk]
  exact get_cnt h (keyLine_stored hb ax hl hk).2

theorem slot_lt (h : Inc E) (hb : ∀ x ∈ E, x.1 < n1 * n2) (ax : Axis) {l : Nat} (hl : l < CMat.along ax.other n1 n2) {a b : Nat}
    (hab : a < b) (hbl : b ≤ (keyLine o n1 n2 E ax l).length) : slot o n1 n2 E ax l a < slot o n1 n2 E ax l b := by
  have ha : a < (keyLine o n1 n2 E ax l).length := by omega
  obtain ⟨s1, s2⟩ := keyLine_stored hb ax hl ha
  rw [slot_at ax l ha]
  by_cases hbb : b < (keyLine o n1 n2 E ax l).length
  · rw [slot_at ax l hbb]
    exact cnt_lt h s2 (addr_lt' o ax hl (List.pairwise_iff_getElem.1 (keyLine_inc h hb ax l) a b ha hbb hab))
  · have : b = (keyLine o n1 n2 E ax l).length := by omega
    subst this
    rw [slot_end]
    exact cnt_lt h s2 (addr_lt' o ax hl s1)

theorem slot_inj (h : Inc E) (hb : ∀ x ∈ E, x.1 < n1 * n2) (ax : Axis) {l : Nat} (hl : l < CMat.along ax.other n1 n2) {a b : Nat}
    (ha : a ≤ (keyLine o n1 n2 E ax l).length) (hbl : b ≤ (keyLine o n1 n2 E ax l).length) :
    slot o n1 n2 E ax l a = slot o n1 n2 E ax l b ↔ a = b := by
  constructor
  · intro e
    rcases Nat.lt_trichotomy a b with c | c | c
    · have := slot_lt h hb ax hl c hbl; omega
    · exact c
    · have := slot_lt h hb ax hl c ha; omega
  · rintro rfl; rfl

/-- Along the storage order a search for any place of the line arrives at the slot of the first entry at or after it. -/
theorem slot_fast (h : Inc E) (hb : ∀ x ∈ E, x.1 < n1 * n2) {ax : Axis} (hf : o.fast ax = true) {l : Nat} (hl : l < CMat.along ax.other n1 n2) {k : Nat}
    (hk : k ≤ CMat.along ax n1 n2) : cnt E (addr o n1 n2 ax l k) = slot o n1 n2 E ax l (before (keyLine o n1 n2 E ax l) k) := by
  have key : ∀ x, k ≤ x → x ≤ CMat.along ax n1 n2 → (∀ y ∈ keyLine o n1 n2 E ax l, y.1 < k ∨ x ≤ y.1) → cnt E (addr o n1 n2 ax l k) = cnt E (addr o n1 n2 ax l x) := by
    intro x hkx hx hy
    unfold cnt
    refine List.countP_congr ?_
    intro e he
    have hm := addr_mono o n1 n2 ax l hkx
    simp only [decide_eq_true_eq]
    constructor
    · intro; omega
    · intro h2
      by_contra hc
      have hac := fast_between o ax hf (hb _ he) hx (Nat.le_of_not_lt hc) h2
      obtain ⟨g1, g2, g3⟩ := key_spec o ax (hb _ he)
      have hmem : (keyAlong o n1 n2 ax e.1, e.2) ∈ keyLine o n1 n2 E ax l := by
        rw [keyLine_mem hb ax hl]
        refine ⟨g2, ?_⟩
        rw [← hac, ← g1]; exact he
      have h3 := (addr_le_key o ax (hb _ he) k).1 (by rw [hac]; omega)
      have h4 : ¬ x ≤ keyAlong o n1 n2 ax e.1 := by
        intro hh
        have := (addr_le_key o ax (hb _ he) x).2 hh
        rw [hac] at this
        omega
      have := hy _ hmem
      simp only at this
      omega
  by_cases hn : before (keyLine o n1 n2 E ax l) k < (keyLine o n1 n2 E ax l).length
  · obtain ⟨b1, b2⟩ := before_get (keyLine_inc h hb ax l) hn
    rw [slot_at ax l hn]
    refine key _ b1 (Nat.le_of_lt (keyLine_stored hb ax hl hn).1) ?_
    intro y hy
    rcases Nat.lt_or_ge y.1 k with c | c
    · exact Or.inl c
    · exact Or.inr (b2 y hy c)
  · have hle := before_le (keyLine o n1 n2 E ax l) k
    have e : before (keyLine o n1 n2 E ax l) k = (keyLine o n1 n2 E ax l).length := by omega
    rw [e, slot_end]
    refine key _ hk (Nat.le_refl _) ?_
    intro y hy
    exact Or.inl (before_none_ge (keyLine_inc h hb ax l) e y hy)

/-- Along the storage order the entries of a line are adjacent. -/
theorem slot_succ (h : Inc E) (hb : ∀ x ∈ E, x.1 < n1 * n2) {ax : Axis} (hf : o.fast ax = true) {l : Nat} (hl : l < CMat.along ax.other n1 n2) {k : Nat}
    (hk : k < (keyLine o n1 n2 E ax l).length) : slot o n1 n2 E ax l k + 1 = slot o n1 n2 E ax l (k + 1) := by
  obtain ⟨s1, s2⟩ := keyLine_stored hb ax hl hk
  have e := slot_fast h hb hf hl (k := (keyLine o n1 n2 E ax l)[k].1 + 1) s1
  rw [before_succ (keyLine_inc h hb ax l) hk] at e
  rw [← e, slot_at ax l hk]
  have ha : addr o n1 n2 ax l ((keyLine o n1 n2 E ax l)[k].1 + 1) = addr o n1 n2 ax l (keyLine o n1 n2 E ax l)[k].1 + 1 := by
    rw [addr_eq, addr_eq, if_pos hf, if_pos hf]; omega
  rw [ha]
  obtain ⟨n, hn, en⟩ := List.mem_iff_getElem.1 s2
  have h1 := before_succ h hn
  rw [en] at h1
  have h2 : before E (addr o n1 n2 ax l (keyLine o n1 n2 E ax l)[k].1) = n := before_at h hn (by rw [en]) (by intro x _; rw [en]; exact Nat.lt_or_ge _ _)
  rw [cnt_eq_before, cnt_eq_before, h1, h2]

/-- The lines of a reachable matrix list its stored elements. -/
theorem keyLine_lists {r c : Nat} {val : Nat × Nat → Option R} {E : List (Nat × R)} (h : Inc E)
    (hE : ∀ i j w, i < r → j < c → ((o.elementRaw i r j c, w) ∈ E ↔ val (i, j) = some w)) (hb : ∀ x ∈ E, x.1 < r * c)
    (hn : ∀ i j, ¬ (i < r ∧ j < c) → val (i, j) = none) (ax : Axis) {l : Nat} (hl : l < CMat.along ax.other r c) :
    Lists (keyLine o r c E ax l) fun k => val (coord ax k l) := by
  refine ⟨keyLine_inc h hb ax l, fun k w => ?_⟩
  rw [keyLine_mem hb ax hl]
  constructor
  · rintro ⟨hk, hw⟩
    have hin : (coord ax k l).1 < r ∧ (coord ax k l).2 < c := by cases ax <;> simp only [coord, along, Axis.other] at hk hl ⊢ <;> omega
    exact (hE _ _ w hin.1 hin.2).1 hw
  · intro hw
    have hin : (coord ax k l).1 < r ∧ (coord ax k l).2 < c := by
      by_cases hij : (coord ax k l).1 < r ∧ (coord ax k l).2 < c
      · exact hij
      · have := hn _ _ hij
        simp only [Prod.eta] at this
        simp only [this] at hw
        cases hw
    refine ⟨by cases ax <;> simp only [coord, along] at hin ⊢ <;> omega, (hE _ _ w hin.1 hin.2).2 hw⟩

end MIter
end Ublas
