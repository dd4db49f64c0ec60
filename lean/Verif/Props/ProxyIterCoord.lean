import Verif.Props.ProxyIterMapped
import Verif.Model.CoordIter
import Verif.Props.Coo
/-! # C86: iterators of coordinate_matrix (and coordinate_vector, C82) -/
namespace Ublas
open Search Assoc SparseSpec CMat Coo
variable {R : Type}

theorem countP_of_split {β : Type} {P : β → Bool} : ∀ {A : List β} {r : Nat}, r ≤ A.length → (∀ i (h : i < A.length), i < r → P A[i] = true) →
    (∀ i (h : i < A.length), r ≤ i → P A[i] = false) → A.countP P = r := by
  intro A
  induction A with
  | nil => intro r h _ _; simp at h; simp [h]
  | cons a A ih =>
    intro r h h1 h2
    cases r with
    | zero =>
      rw [List.countP_eq_zero]
      intro x hx
      obtain ⟨i, hi, rfl⟩ := List.mem_iff_getElem.1 hx
      rw [h2 i hi (Nat.zero_le _)]; simp
    | succ r =>
      have := h1 0 (by simp) (by omega)
      simp only [List.getElem_cons_zero] at this
      rw [List.countP_cons, this, ih (r := r) (by simp at h; omega)]
      · simp
      · intro i hi hr
        have := h1 (i + 1) (by simp; omega) (by omega)
        simpa using this
      · intro i hi hr
        have := h2 (i + 1) (by simp; omega) (by omega)
        simpa using this

namespace CoordMat

/-- Sorted arrays holding the records `A`, all inside an `n1 × n2` matrix. -/
structure Laid (o : Orient) (IB n1 n2 : Nat) (c : Coo (Nat × Nat) R) (A : List ((Nat × Nat) × R)) : Prop where
  len : A.length = c.filled
  holds : Coo.Holds c.idx c.val A
  strict : Strict lexLt A
  inside : ∀ p ∈ A, ∃ i : Nat × Nat, (i.1 < n1 ∧ i.2 < n2) ∧ p.1 = key o IB i

/-- The records by address. -/
def flatten (o : Orient) (IB n1 n2 : Nat) (A : List ((Nat × Nat) × R)) : List (Nat × R) :=
  A.map fun p => (o.elementRaw (unkey o IB p.1).1 n1 (unkey o IB p.1).2 n2, p.2)

theorem unkey_key (o : Orient) (IB : Nat) (p : Nat × Nat) : unkey o IB (key o IB p) = p := by
  cases p; cases o <;> simp [unkey, key, Orient.indexM, Orient.indexm]

variable {o : Orient} {IB n1 n2 : Nat} {c : Coo (Nat × Nat) R} {A : List ((Nat × Nat) × R)}

theorem elementRaw_eq (o : Orient) (n1 n2 i j : Nat) : o.elementRaw i n1 j n2 = o.indexM i j * o.sizem n1 n2 + o.indexm i j := by
  cases o <;> simp [Orient.elementRaw, Orient.indexM, Orient.indexm, Orient.sizem, Nat.add_comm]

/-- Lexicographic comparison of keys is comparison of addresses. -/
theorem lex_addr {sm M m M' m' : Nat} (h' : m' < sm) (h : m ≤ sm) : (M' < M ∨ (M' = M ∧ m' < m)) ↔ M' * sm + m' < M * sm + m := by
  rcases Nat.lt_trichotomy M' M with c | c | c
  · have := Nat.mul_le_mul_right sm (show M' + 1 ≤ M from c)
    rw [Nat.add_mul, Nat.one_mul] at this
    simp only [c, true_or, true_iff]; omega
  · subst c; simp
  · have := Nat.mul_le_mul_right sm (show M + 1 ≤ M' from c)
    rw [Nat.add_mul, Nat.one_mul] at this
    constructor
    · rintro (h | h) <;> omega
    · omega

theorem indexm_lt {i : Nat × Nat} (h : i.1 < n1 ∧ i.2 < n2) : o.indexm i.1 i.2 < o.sizem n1 n2 := by
  cases o <;> simp [Orient.indexm, Orient.sizem] <;> omega

theorem flatten_inc (h : Laid o IB n1 n2 c A) : Inc (flatten o IB n1 n2 A) := by
  unfold flatten Inc
  rw [List.pairwise_map]
  refine List.Pairwise.imp_of_mem ?_ h.strict
  intro a b ha hb hab
  obtain ⟨i, hi, ei⟩ := h.inside a ha
  obtain ⟨j, hj, ej⟩ := h.inside b hb
  simp only [ei, ej, unkey_key, elementRaw_eq]
  rw [← lex_addr (indexm_lt hi) (Nat.le_of_lt (indexm_lt hj))]
  simpa [lexLt, ei, ej, key] using hab

theorem flatten_below (h : Laid o IB n1 n2 c A) : ∀ x ∈ flatten o IB n1 n2 A, x.1 < n1 * n2 := by
  intro x hx
  obtain ⟨p, hp, rfl⟩ := List.mem_map.1 hx
  obtain ⟨i, hi, ei⟩ := h.inside p hp
  simp only [ei, unkey_key]
  exact elementRaw_lt o hi.1 hi.2

theorem flatten_get (h : Laid o IB n1 n2 c A) {i j : Nat} (hi : i < n1) (hj : j < n2) {n : Nat} {w : R} :
    (flatten o IB n1 n2 A)[n]? = some (o.elementRaw i n1 j n2, w) ↔ A[n]? = some (key o IB (i, j), w) := by
  unfold flatten
  rw [List.getElem?_map, Option.map_eq_some_iff]
  constructor
  · rintro ⟨p, hp, e⟩
    obtain ⟨q, hq, eq⟩ := h.inside p (List.mem_of_getElem? hp)
    simp only [eq, unkey_key, Prod.mk.injEq] at e
    have h1 := congrArg (fun a => o.indexI a n1 n2) e.1
    have h2 := congrArg (fun a => o.indexJ a n1 n2) e.1
    simp only [indexI_elementRaw o hq.1 hq.2, indexI_elementRaw o hi hj, indexJ_elementRaw o hq.1 hq.2, indexJ_elementRaw o hi hj] at h1 h2
    have : q = (i, j) := Prod.ext h1 h2
    rw [hp, ← this, ← eq, ← e.2]
  · intro hp
    exact ⟨_, hp, by simp only [unkey_key]⟩

/-- The three binary searches of a `find`. -/
theorem search3 (h : Laid o IB n1 n2 c A) {i j : Nat} (hm : o.indexm i j ≤ o.sizem n1 n2) :
    ∃ b e, lowerBound (c.idx.map (·.1)) 0 c.filled (o.indexM i j + IB) = .ok b ∧ upperBound (c.idx.map (·.1)) 0 c.filled (o.indexM i j + IB) = .ok e ∧
      lowerBound (c.idx.map (·.2)) b e (o.indexm i j + IB) = .ok (cnt (flatten o IB n1 n2 A) (o.elementRaw i n1 j n2)) ∧
      cnt (flatten o IB n1 n2 A) (o.elementRaw i n1 j n2) ≤ e ∧ e ≤ A.length ∧
      e = cnt (flatten o IB n1 n2 A) (o.indexM i j * o.sizem n1 n2 + o.sizem n1 n2) ∧
      (∀ n (hn : n < A.length), cnt (flatten o IB n1 n2 A) (o.elementRaw i n1 j n2) ≤ n → n < e → A[n].1.1 = o.indexM i j + IB) := by
  have hl : A.length ≤ c.idx.length := h.holds.len.1
  have conv1 : ∀ (i : Nat) (hi : i < A.length), (c.idx.map (·.1))[i]? = some A[i].1.1 := by
    intro i hi; rw [List.getElem?_map, h.holds.idxAt hi]; rfl
  have conv2 : ∀ (i : Nat) (hi : i < A.length), (c.idx.map (·.2))[i]? = some A[i].1.2 := by
    intro i hi; rw [List.getElem?_map, h.holds.idxAt hi]; rfl
  have hmono : ∀ (i j : Nat) (hi : i < A.length) (hj : j < A.length), i < j →
      A[i].1.1 < A[j].1.1 ∨ (A[i].1.1 = A[j].1.1 ∧ A[i].1.2 < A[j].1.2) := by
    intro i j hi hj hij
    have := List.pairwise_iff_getElem.1 h.strict i j hi hj hij
    simpa [lexLt] using this
  have hso : SortedOn (c.idx.map (·.1)) 0 A.length := by
    intro i j x y _ hij hj hx hy
    rw [conv1 i (by omega)] at hx; rw [conv1 j hj] at hy
    simp only [Option.some.injEq] at hx hy
    rcases Nat.eq_or_lt_of_le hij with e | e
    · subst e; omega
    · have := hmono i j (by omega) hj e; omega
  rw [← h.len]
  obtain ⟨b, hb, b1, b2, b3, b4⟩ := lowerBound_spec (c.idx.map (·.1)) 0 A.length (o.indexM i j + IB) (Nat.zero_le _) (by simpa using hl) hso
  obtain ⟨e, he, e1, e2, e3, e4⟩ := upperBound_spec (c.idx.map (·.1)) 0 A.length (o.indexM i j + IB) (Nat.zero_le _) (by simpa using hl) hso
  have hbe : b ≤ e := by
    by_contra hc
    have hlt : e < A.length := by omega
    have a := b3 e _ (Nat.zero_le _) (by omega) (conv1 e hlt)
    have c := e4 e _ (Nat.le_refl _) hlt (conv1 e hlt)
    omega
  have major : ∀ n, b ≤ n → (hn : n < e) → (A[n]'(by omega)).1.1 = o.indexM i j + IB := by
    intro n h1 h2
    have a := b4 n _ h1 (by omega) (conv1 n (by omega))
    have c := e3 n _ (Nat.zero_le _) h2 (conv1 n (by omega))
    omega
  have hso2 : SortedOn (c.idx.map (·.2)) b e := by
    intro i j x y hbi hij hj hx hy
    rw [conv2 i (by omega)] at hx; rw [conv2 j (by omega)] at hy
    simp only [Option.some.injEq] at hx hy
    rcases Nat.eq_or_lt_of_le hij with e | e
    · subst e; omega
    · have := hmono i j (by omega) (by omega) e
      have := major i hbi (by omega); have := major j (by omega) hj; omega
  obtain ⟨r, hr, h1, h2, h3, h4⟩ := lowerBound_spec (c.idx.map (·.2)) b e (o.indexm i j + IB) hbe (by simp; omega) hso2
  have hA : ∀ n (hn : n < A.length), ∃ q : Nat × Nat, (q.1 < n1 ∧ q.2 < n2) ∧ A[n].1 = key o IB q := fun n hn => h.inside _ (List.getElem_mem hn)
  have hcnt : ∀ (M m r : Nat), m ≤ o.sizem n1 n2 → r ≤ A.length → (∀ n (hn : n < A.length), n < r → A[n].1.1 < M + IB ∨ (A[n].1.1 = M + IB ∧ A[n].1.2 < m + IB)) →
      (∀ n (hn : n < A.length), r ≤ n → ¬ (A[n].1.1 < M + IB ∨ (A[n].1.1 = M + IB ∧ A[n].1.2 < m + IB))) → cnt (flatten o IB n1 n2 A) (M * o.sizem n1 n2 + m) = r := by
    intro M m r hm hr g1 g2
    unfold cnt flatten
    rw [List.countP_map]
    refine countP_of_split hr ?_ ?_
    · intro n hn hnr
      obtain ⟨q, hq, eq⟩ := hA n hn
      have := g1 n hn hnr
      simp only [Function.comp, eq, unkey_key, elementRaw_eq, decide_eq_true_eq] at this ⊢
      rw [← lex_addr (indexm_lt hq) hm]
      simpa [key] using this
    · intro n hn hnr
      obtain ⟨q, hq, eq⟩ := hA n hn
      have := g2 n hn hnr
      simp only [Function.comp, eq, unkey_key, elementRaw_eq, decide_eq_false_iff_not] at this ⊢
      rw [← lex_addr (indexm_lt hq) hm]
      simpa [key] using this
  have hit : cnt (flatten o IB n1 n2 A) (o.elementRaw i n1 j n2) = r := by
    rw [elementRaw_eq]
    refine hcnt _ _ r hm (by omega) ?_ ?_
    · intro n hn hnr
      rcases Nat.lt_or_ge n b with c | c
      · exact Or.inl (b3 n _ (Nat.zero_le _) c (conv1 n hn))
      · exact Or.inr ⟨major n c (by omega), h3 n _ c hnr (conv2 n hn)⟩
    · intro n hn hnr hc
      rcases Nat.lt_or_ge n e with d | d
      · have a := major n (by omega) d
        have := h4 n _ hnr d (conv2 n hn)
        omega
      · have := e4 n _ d hn (conv1 n hn)
        omega
  refine ⟨b, e, hb, he, by rw [hit]; exact hr, by omega, e2, ?_, fun n hn hbn hne => major n (by omega) hne⟩
  symm
  refine hcnt _ _ e (Nat.le_refl _) e2 ?_ ?_
  · intro n hn hne
    have a := e3 n _ (Nat.zero_le _) hne (conv1 n hn)
    rcases Nat.lt_or_ge A[n].1.1 (o.indexM i j + IB) with d | d
    · exact Or.inl d
    · obtain ⟨q, hq, eq⟩ := hA n hn
      have := indexm_lt (o := o) hq
      rw [eq] at a d ⊢
      simp only [key] at a d ⊢
      omega
  · intro n hn hne hc
    have := e4 n _ hne hn (conv1 n hn)
    omega

end CoordMat

namespace MIter
open CoordMat
variable {o : Orient} {IB n1 n2 : Nat} {c : Coo (Nat × Nat) R} {A : List ((Nat × Nat) × R)}

theorem addr_coord (o : Orient) (n1 n2 : Nat) (ax : Axis) (l k : Nat) : o.elementRaw (coord ax k l).1 n1 (coord ax k l).2 n2 = addr o n1 n2 ax l k := rfl

theorem coord_indexm (ax : Axis) {k l : Nat} (hk : k ≤ CMat.along ax n1 n2) (hl : l < CMat.along ax.other n1 n2) :
    o.indexm (coord ax k l).1 (coord ax k l).2 ≤ o.sizem n1 n2 := by
  cases ax <;> cases o <;> simp only [coord, CMat.along, Axis.other, Orient.indexm, Orient.sizem] at * <;> omega

theorem coord_setAlong (ax : Axis) (k l x : Nat) : CMat.setAlong ax (coord ax k l).1 (coord ax k l).2 x = coord ax x l := by cases ax <;> rfl
theorem coord_along (ax : Axis) (k l : Nat) : CMat.along ax (coord ax k l).1 (coord ax k l).2 = k := by cases ax <;> rfl
theorem coord_across (ax : Axis) (k l : Nat) : CMat.along ax.other (coord ax k l).1 (coord ax k l).2 = l := by cases ax <;> rfl

/-- The record in a slot of a line. -/
theorem coordinate_slot (h : Laid o IB n1 n2 c A) (ax : Axis) {l : Nat} (hl : l < CMat.along ax.other n1 n2) {k : Nat}
    (hk : k < (keyLine o n1 n2 (flatten o IB n1 n2 A) ax l).length) :
    A[slot o n1 n2 (flatten o IB n1 n2 A) ax l k]? =
      some (key o IB (coord ax (keyLine o n1 n2 (flatten o IB n1 n2 A) ax l)[k].1 l), (keyLine o n1 n2 (flatten o IB n1 n2 A) ax l)[k].2) := by
  have hx := (keyLine_stored (flatten_below h) ax hl hk).1
  have hs := slot_get (flatten_inc h) (flatten_below h) ax hl hk
  have hin : (coord ax (keyLine o n1 n2 (flatten o IB n1 n2 A) ax l)[k].1 l).1 < n1 ∧ (coord ax (keyLine o n1 n2 (flatten o IB n1 n2 A) ax l)[k].1 l).2 < n2 := by
    cases ax <;> simp only [coord, CMat.along, Axis.other] at hx hl ⊢ <;> omega
  rw [← addr_coord] at hs
  exact (flatten_get h hin.1 hin.2).1 hs

/-- Positions inside the range the third search runs over are in the line. -/
theorem coordinate_find1 (h : Laid o IB n1 n2 c A) (ax : Axis) {l : Nat} (hl : l < CMat.along ax.other n1 n2) :
    ∀ fuel k, k ≤ CMat.along ax n1 n2 → CMat.along ax n1 n2 + 1 < k + fuel →
      ∃ k', k' ≤ CMat.along ax n1 n2 ∧ findIt o IB n1 n2 c ax true 1 fuel (coord ax k l).1 (coord ax k l).2 =
        .ok ⟨1, (coord ax k' l).1, (coord ax k' l).2, slot o n1 n2 (flatten o IB n1 n2 A) ax l (before (keyLine o n1 n2 (flatten o IB n1 n2 A) ax l) k),
          slot o n1 n2 (flatten o IB n1 n2 A) ax l (before (keyLine o n1 n2 (flatten o IB n1 n2 A) ax l) k)⟩ := by
  have hE := flatten_inc h
  have hb := flatten_below h
  have hinc := keyLine_inc (o := o) hE hb ax l
  intro fuel
  induction fuel with
  | zero => intro k hk hf; omega
  | succ f ih =>
    intro k hk hf
    obtain ⟨b, e, s1, s2, s3, s4, s5, s6, s7⟩ := search3 h (coord_indexm (o := o) ax hk hl)
    rw [addr_coord] at s3 s4 s7
    rw [CoordMat.findIt]
    simp only [s1, s2, s3, bind_ok]
    rw [if_neg (by decide)]
    generalize hL : keyLine o n1 n2 (flatten o IB n1 n2 A) ax l = L at *
    have hlen : (flatten o IB n1 n2 A).length = A.length := by simp [flatten]
    by_cases hmem : ∃ w, (k, w) ∈ L
    · obtain ⟨w, hw⟩ := hmem
      have hwE := ((keyLine_mem hb ax hl k w).1 (by rw [hL]; exact hw))
      have hg := get_cnt hE hwE.2
      have hin : (coord ax k l).1 < n1 ∧ (coord ax k l).2 < n2 := by
        have := hwE.1
        cases ax <;> simp only [coord, CMat.along, Axis.other] at this hl ⊢ <;> omega
      have hAe := hg
      rw [← addr_coord, flatten_get h hin.1 hin.2] at hAe
      rw [addr_coord] at hAe
      obtain ⟨hn, hAe'⟩ := List.getElem?_eq_some_iff.1 hAe
      have hne : cnt (flatten o IB n1 n2 A) (addr o n1 n2 ax l k) ≠ e := by
        rw [s6]
        have := cnt_lt hE hwE.2 (show addr o n1 n2 ax l k < o.indexM (coord ax k l).1 (coord ax k l).2 * o.sizem n1 n2 + o.sizem n1 n2 by
          rw [← addr_coord, elementRaw_eq]
          have := indexm_lt (o := o) hin
          omega)
        omega
      rw [if_neg hne, rd_eq_ok.2 (h.holds.idxAt hn)]
      simp only [bind_ok, hAe', key, Nat.add_sub_cancel, decide_true, if_true]
      refine ⟨k, hk, ?_⟩
      have hbk : before L k < L.length ∧ L[before L k]? = some (k, w) := by
        have := get_cnt hinc hw
        rw [cnt_eq_before] at this
        exact ⟨(List.getElem?_eq_some_iff.1 this).1, this⟩
      have hsl : slot o n1 n2 (flatten o IB n1 n2 A) ax l (before L k) = cnt (flatten o IB n1 n2 A) (addr o n1 n2 ax l k) := by
        have hk1 : before L k < (keyLine o n1 n2 (flatten o IB n1 n2 A) ax l).length := by rw [hL]; exact hbk.1
        rw [slot_at ax l hk1]
        simp only [hL]
        rw [(List.getElem?_eq_some_iff.1 hbk.2).2]
      rw [hsl]
    · have hmiss : (if cnt (flatten o IB n1 n2 A) (addr o n1 n2 ax l k) = e then Except.ok false else
          (do let x ← rd false c.idx (cnt (flatten o IB n1 n2 A) (addr o n1 n2 ax l k))
              Except.ok (decide (x.2 - IB = o.indexm (coord ax k l).1 (coord ax k l).2)) : M Bool)) = .ok false := by
        by_cases he : cnt (flatten o IB n1 n2 A) (addr o n1 n2 ax l k) = e
        · rw [if_pos he]
        · have hn : cnt (flatten o IB n1 n2 A) (addr o n1 n2 ax l k) < A.length := by omega
          rw [if_neg he, rd_eq_ok.2 (h.holds.idxAt hn), bind_ok]
          congr 1
          rw [decide_eq_false_iff_not]
          intro hc
          have g1 := s7 _ hn (Nat.le_refl _) (by omega)
          obtain ⟨q, hq, eq⟩ := h.inside _ (List.getElem_mem hn)
          rw [eq] at g1 hc
          simp only [key, Nat.add_sub_cancel, Nat.add_right_cancel_iff] at g1 hc
          have hqc : q = coord ax k l := by
            refine key_inj o 0 q (coord ax k l) ?_
            simp only [key, g1, hc]
          have hk' : k < CMat.along ax n1 n2 := by
            rw [hqc] at hq
            cases ax <;> simp only [coord, CMat.along] at hq ⊢ <;> omega
          apply hmem
          refine ⟨(A[cnt (flatten o IB n1 n2 A) (addr o n1 n2 ax l k)]).2, ?_⟩
          rw [← hL, keyLine_mem hb ax hl]
          refine ⟨hk', ?_⟩
          refine List.mem_map.2 ⟨_, List.getElem_mem hn, ?_⟩
          rw [eq, unkey_key, hqc]; rfl
      rw [hmiss, bind_ok, if_neg (by decide)]
      cases hf' : o.fast ax with
      | true =>
        simp only
        have hsf := slot_fast hE hb hf' hl hk
        rw [hL] at hsf
        by_cases hn : before L k < L.length
        · have hlt := slot_lt hE hb ax hl (a := before L k) (b := L.length) hn (by rw [hL])
          have hse := slot_end (o := o) (n1 := n1) (n2 := n2) (E := flatten o IB n1 n2 A) ax l
          rw [hL] at hse
          have hee : e = cnt (flatten o IB n1 n2 A) (addr o n1 n2 ax l (CMat.along ax n1 n2)) := by
            rw [s6, addr_eq, if_pos hf', fast_size hf']
            congr 2
            cases ax <;> cases o <;> simp_all [Orient.fast, coord, Orient.indexM]
          rw [if_neg (by rw [hsf, hee, ← hse]; omega)]
          obtain ⟨b1, b2⟩ := before_get hinc hn
          have hA := coordinate_slot h ax hl (k := before L k) (by rw [hL]; exact hn)
          simp only [hL] at hA
          obtain ⟨hnA, hA'⟩ := List.getElem?_eq_some_iff.1 hA
          rw [hsf, rd_eq_ok.2 (h.holds.idxAt hnA), bind_ok]
          simp only [hA']
          have hx : (key o IB (coord ax L[before L k].1 l)).2 - IB = L[before L k].1 := by
            cases ax <;> cases o <;> simp_all [Orient.fast, coord, Orient.indexm, key]
          rw [hx, coord_setAlong]
          have hxl : L[before L k].1 < CMat.along ax n1 n2 := ((keyLine_mem hb ax hl _ _).1 (by rw [hL]; exact List.getElem_mem hn)).1
          have hbx : before L L[before L k].1 = before L k := before_at hinc hn (Nat.le_refl _) (fun x _ => Nat.lt_or_ge _ _)
          have hgoal := ih L[before L k].1 (Nat.le_of_lt hxl)
          rw [hbx] at hgoal
          refine hgoal ?_
          have : L[before L k].1 ≠ k := fun hh => hmem ⟨L[before L k].2, by
            have e : (k, L[before L k].2) = L[before L k] := Prod.ext hh.symm rfl
            rw [e]; exact List.getElem_mem hn⟩
          omega
        · have hle := before_le L k
          have hbe : before L k = L.length := by omega
          have hse := slot_end (o := o) (n1 := n1) (n2 := n2) (E := flatten o IB n1 n2 A) ax l
          rw [hL] at hse
          have hee : e = cnt (flatten o IB n1 n2 A) (addr o n1 n2 ax l (CMat.along ax n1 n2)) := by
            rw [s6, addr_eq, if_pos hf', fast_size hf']
            congr 2
            cases ax <;> cases o <;> simp_all [Orient.fast, coord, Orient.indexM]
          rw [if_pos (by rw [hsf, hee, ← hse, hbe]), hsf]
          exact ⟨k, hk, rfl⟩
      | false =>
        simp only [coord_along]
        by_cases hkk : k = CMat.along ax n1 n2
        · rw [if_pos (by omega)]
          have hbe : before L k = L.length := by
            refine before_all ?_
            intro x hx
            rw [hkk]
            exact ((keyLine_mem hb ax hl x.1 x.2).1 (by rw [hL]; exact hx)).1
          have hse := slot_end (o := o) (n1 := n1) (n2 := n2) (E := flatten o IB n1 n2 A) ax l
          rw [hL] at hse
          refine ⟨k, hk, ?_⟩
          rw [hbe, hse, hkk]
        · rw [if_neg (by omega), coord_setAlong]
          have hskip : before L (k + 1) = before L k := before_skip (fun x hx hxk => hmem ⟨x.2, by rw [← hxk]; exact hx⟩)
          rw [← hskip]
          refine ih (k + 1) (by omega) ?_
          omega

theorem coordinate_find0 (h : Laid o IB n1 n2 c A) (fwd : Bool) (ax : Axis) {k l : Nat} (hk : k ≤ CMat.along ax n1 n2) (hl : l < CMat.along ax.other n1 n2) (fuel : Nat) :
    CoordMat.findIt o IB n1 n2 c ax fwd 0 (fuel + 1) (coord ax k l).1 (coord ax k l).2 =
      .ok ⟨0, (coord ax k l).1, (coord ax k l).2, cnt (flatten o IB n1 n2 A) (addr o n1 n2 ax l k), cnt (flatten o IB n1 n2 A) (addr o n1 n2 ax l k)⟩ := by
  obtain ⟨b, e, s1, s2, s3, s4, s5, s6, s7⟩ := search3 h (coord_indexm (o := o) ax hk hl)
  rw [addr_coord] at s3
  rw [CoordMat.findIt]
  simp only [s1, s2, s3, bind_ok, if_true]

/-- Where an inner iterator of a coordinate matrix stands. -/
def cooAt1 (o : Orient) (IB n1 n2 : Nat) (idx : List (Nat × Nat)) (E : List (Nat × R)) (ax : Axis) (l k : Nat) (p : CMIter) : Prop :=
  p.rank = 1 ∧ p.it = slot o n1 n2 E ax l k ∧ CMat.along ax.other p.i p.j = l ∧
    (∀ hk : k < (keyLine o n1 n2 E ax l).length, ∃ x, idx[p.itv]? = some x ∧
      x.1 = o.indexM (coord ax (keyLine o n1 n2 E ax l)[k].1 l).1 (coord ax (keyLine o n1 n2 E ax l)[k].1 l).2 + IB)

def cooAt0 (ax : Axis) (l k : Nat) (p : CMIter) : Prop := p.rank = 0 ∧ (p.i, p.j) = coord ax k l

variable [AddCommMonoid R] {v : CoordMat R}

theorem sort_sorted (dbg : Bool) (P : CooPar (Nat × Nat) R) {c : Coo (Nat × Nat) R} (h : c.sorted = true) : c.sort dbg P = .ok c := by
  unfold Coo.sort
  rw [if_neg (by rw [h]; simp)]

theorem coordinate_stands (srt : List ((Nat × Nat) × R) → List ((Nat × Nat) × R)) (full dbg : Bool) (zero : R) (hs : v.coo.sorted = true)
    (h : Laid o IB v.size1 v.size2 v.coo A) :
    (MIter.coordinate srt full dbg o IB zero v).Stands (flines v.size1 v.size2) (keyLine o v.size1 v.size2 (flatten o IB v.size1 v.size2 A)) cooAt0
      (cooAt1 o IB v.size1 v.size2 v.coo.idx (flatten o IB v.size1 v.size2 A)) := by
  have hE := flatten_inc h
  have hb := flatten_below h
  generalize hEq : flatten o IB v.size1 v.size2 A = E at *
  have hlook1 : ∀ ax k l, k ≤ CMat.along ax v.size1 v.size2 → l < CMat.along ax.other v.size1 v.size2 →
      ∃ p, v.lookup srt full dbg o IB ax true 1 (coord ax k l).1 (coord ax k l).2 = .ok p ∧
        cooAt1 o IB v.size1 v.size2 v.coo.idx E ax l (before (keyLine o v.size1 v.size2 E ax l) k) p := by
    intro ax k l hk hl
    obtain ⟨k', hk', e⟩ := coordinate_find1 h ax hl (v.size1 + v.size2 + 2) k hk (by cases ax <;> simp only [CMat.along] <;> omega)
    rw [hEq] at e
    refine ⟨_, by unfold CoordMat.lookup; rw [sort_sorted _ _ hs, bind_ok]; exact e, rfl, rfl, coord_across ax k' l, ?_⟩
    intro hn
    have := coordinate_slot h ax hl (k := before (keyLine o v.size1 v.size2 E ax l) k) (by rw [hEq]; exact hn)
    simp only [hEq] at this
    obtain ⟨hnA, hA⟩ := List.getElem?_eq_some_iff.1 this
    refine ⟨_, h.holds.idxAt hnA, ?_⟩
    rw [hA]; rfl
  have hlook0 : ∀ ax k l, k ≤ CMat.along ax v.size1 v.size2 → l < CMat.along ax.other v.size1 v.size2 →
      v.lookup srt full dbg o IB ax true 0 (coord ax k l).1 (coord ax k l).2 =
        .ok ⟨0, (coord ax k l).1, (coord ax k l).2, cnt E (addr o v.size1 v.size2 ax l k), cnt E (addr o v.size1 v.size2 ax l k)⟩ := by
    intro ax k l hk hl
    unfold CoordMat.lookup
    rw [sort_sorted _ _ hs, bind_ok, coordinate_find0 h true ax hk hl, hEq]
  have hbelow : ∀ ax l, l < CMat.along ax.other v.size1 v.size2 → ∀ x ∈ keyLine o v.size1 v.size2 E ax l, x.1 < CMat.along ax v.size1 v.size2 :=
    fun ax l hl x hx => ((keyLine_mem hb ax hl x.1 x.2).1 hx).1
  have hset : ∀ ax (i j x : Nat), CMat.setAlong ax i j x = coord ax x (CMat.along ax.other i j) := by intro ax i j x; cases ax <;> rfl
  have hsee0 : ∀ ax l k p, k < CMat.along ax v.size1 v.size2 → l < CMat.along ax.other v.size1 v.size2 → cooAt0 ax l k p →
      v.indexAlong srt full dbg o IB ax p = .ok k := by
    intro ax l k p hk hl hp
    obtain ⟨hr, hp⟩ := hp
    have hlp : CMat.along ax.other p.i p.j = l := by
      cases ax <;> simp only [coord, Prod.mk.injEq] at hp <;> simp [CMat.along, Axis.other, hp]
    have hne : v.notEnd srt full dbg o IB ax p = .ok () := by
      unfold CoordMat.notEnd
      rw [hset, hlp, hlook0 ax _ l (Nat.le_refl _) hl, bind_ok, check_true, ite_self]
      simp only [CMat.iterEq, hr]
      cases ax <;> simp only [coord, CMat.along, Prod.mk.injEq] at hp hk ⊢ <;> simp [hp] <;> omega
    unfold CoordMat.indexAlong CoordMat.index1 CoordMat.index2
    cases ax <;> simp only [hne, if_true, bind_ok, hr] <;> simp only [coord, Prod.mk.injEq] at hp <;> simp [hp]
  have hsee1 : ∀ ax l k p (hk : k < (keyLine o v.size1 v.size2 E ax l).length), l < CMat.along ax.other v.size1 v.size2 →
      cooAt1 o IB v.size1 v.size2 v.coo.idx E ax l k p →
      v.index1 srt full dbg o IB ax p = .ok (coord ax (keyLine o v.size1 v.size2 E ax l)[k].1 l).1 ∧
      v.index2 srt full dbg o IB ax p = .ok (coord ax (keyLine o v.size1 v.size2 E ax l)[k].1 l).2 ∧
      v.deref srt full dbg o IB zero ax p = .ok (keyLine o v.size1 v.size2 E ax l)[k].2 := by
    intro ax l k p hk hl hp
    obtain ⟨hr, p1, p2, p3⟩ := hp
    have hx := (keyLine_stored hb ax hl hk).1
    have hsl := coordinate_slot h ax hl (k := k) (by rw [hEq]; exact hk)
    simp only [hEq] at hsl
    obtain ⟨hnA, hA⟩ := List.getElem?_eq_some_iff.1 hsl
    have hidx := h.holds.idxAt hnA
    have hval := h.holds.valAt hnA
    rw [hA] at hidx hval
    rw [← p1] at hidx hval
    obtain ⟨x, x1, x2⟩ := p3 hk
    have hne : v.notEnd srt full dbg o IB ax p = .ok () := by
      unfold CoordMat.notEnd
      rw [hset, p2, hlook0 ax _ l (Nat.le_refl _) hl, bind_ok, check_true, ite_self]
      simp only [CMat.iterEq, hr, true_or, if_true, decide_eq_false_iff_not, p1]
      have := slot_lt hE hb ax hl hk (Nat.le_refl _)
      rw [slot_end] at this
      omega
    generalize (keyLine o v.size1 v.size2 E ax l)[k] = y at *
    have hin : (coord ax y.1 l).1 < v.size1 ∧ (coord ax y.1 l).2 < v.size2 := by
      cases ax <;> simp only [coord, CMat.along, Axis.other] at hx hl ⊢ <;> omega
    have hM : o.indexM (x.1 - IB) ((key o IB (coord ax y.1 l)).2 - IB) = (coord ax y.1 l).1 := by
      rw [x2]; simp only [key, Nat.add_sub_cancel]
      cases o <;> rfl
    have hm : o.indexm (x.1 - IB) ((key o IB (coord ax y.1 l)).2 - IB) = (coord ax y.1 l).2 := by
      rw [x2]; simp only [key, Nat.add_sub_cancel]
      cases o <;> rfl
    have i1 : v.index1 srt full dbg o IB ax p = .ok (coord ax y.1 l).1 := by
      unfold CoordMat.index1
      rw [hne, ite_self, bind_ok, if_pos hr, rd_eq_ok.2 x1, bind_ok, rd_eq_ok.2 hidx, bind_ok, hM, check_true hin.1]; rfl
    have i2 : v.index2 srt full dbg o IB ax p = .ok (coord ax y.1 l).2 := by
      unfold CoordMat.index2
      rw [hne, ite_self, bind_ok, if_pos hr, rd_eq_ok.2 x1, bind_ok, rd_eq_ok.2 hidx, bind_ok, hm, check_true hin.2]; rfl
    refine ⟨i1, i2, ?_⟩
    unfold CoordMat.deref
    rw [i1, i2]
    simp only [bind_ok, check_true hin.1, check_true hin.2, ite_self, if_pos hr, rd_eq_ok.2 hval]
  have halong : ∀ ax l k p (hk : k < (keyLine o v.size1 v.size2 E ax l).length), l < CMat.along ax.other v.size1 v.size2 →
      cooAt1 o IB v.size1 v.size2 v.coo.idx E ax l k p → v.indexAlong srt full dbg o IB ax p = .ok (keyLine o v.size1 v.size2 E ax l)[k].1 := by
    intro ax l k p hk hl hp
    obtain ⟨i1, i2, _⟩ := hsee1 ax l k p hk hl hp
    cases ax
    · exact i1
    · exact i2
  have hlook : ∀ ax rank k l, (MIter.coordinate srt full dbg o IB zero v).look ax rank k l = v.lookup srt full dbg o IB ax true rank (coord ax k l).1 (coord ax k l).2 := by
    intro ax rank k l; cases ax <;> rfl
  refine ⟨fun ax => everyone_inc _ _, fun ax => everyone_below _ _, fun ax l _ => keyLine_inc hE hb ax l, fun ax l hl => hbelow ax l hl, ?_, ?_, ?_, ?_, ?_, ?_, ?_, ?_, ?_⟩
  · intro ax k l hk hl
    rw [hlook, hlook0 ax k l hk hl]
    refine ⟨_, rfl, rfl, ?_⟩
    have hb : before (flines v.size1 v.size2 ax) k = k := flines_before _ _ _ hk
    show _ = coord ax (before (flines v.size1 v.size2 ax) k) l
    rw [hb]
  · intro ax l k p hl hp hk
    rw [flines_length] at hk
    have hia := hsee0 ax l k p hk hl hp
    obtain ⟨hr, hp⟩ := hp
    have hlp : CMat.along ax.other p.i p.j = l := by
      cases ax <;> simp only [coord, Prod.mk.injEq] at hp <;> simp [CMat.along, Axis.other, hp]
    show ∃ q, v.next srt full dbg o IB ax p = .ok q ∧ _
    unfold CoordMat.next
    rw [if_neg (by rw [hr]; simp), hia, bind_ok]
    dsimp only
    rw [hset, hlp, if_neg (by rw [hr]; simp)]
    exact ⟨_, rfl, hr, rfl⟩
  · intro ax l k k' p q _ _ _ hp hq
    show Except.ok (CMat.iterEq p q) = _
    obtain ⟨hr, hp⟩ := hp
    obtain ⟨hr', hq⟩ := hq
    simp only [CMat.iterEq, hr, hr']
    cases ax <;> simp only [coord, Prod.mk.injEq] at hp hq <;> simp [hp, hq]
  · intro ax l k p hk hl hp
    rw [flines_get]
    rw [flines_length] at hk
    have := hsee0 ax l k p hk hl hp
    cases ax <;> exact this
  · intro ax l k p hk hl hp
    rw [flines_get]
    rw [flines_length] at hk
    have hia := hsee0 ax l k p hk hl hp
    have hkk : k < CMat.along ax.other.other v.size1 v.size2 := by rw [other_other]; exact hk
    obtain ⟨b, b1, b2⟩ := hlook1 ax.other 0 k (Nat.zero_le _) hkk
    obtain ⟨e, e1, e2⟩ := hlook1 ax.other _ k (Nat.le_refl _) hkk
    rw [before_zero] at b2
    rw [before_all (hbelow ax.other k hkk)] at e2
    refine ⟨b, e, ?_, ?_, b2, e2⟩
    · show (v.indexAlong srt full dbg o IB ax p >>= fun k => v.lookup srt full dbg o IB ax.other true 1 (CMat.setAlong ax 0 0 k).1 (CMat.setAlong ax 0 0 k).2) = _
      rw [hia, bind_ok]
      refine Eq.trans ?_ b1
      cases ax <;> rfl
    · show (v.indexAlong srt full dbg o IB ax p >>= fun k => v.lookup srt full dbg o IB ax.other true 1 (CMat.setAlong ax v.size1 v.size2 k).1 (CMat.setAlong ax v.size1 v.size2 k).2) = _
      rw [hia, bind_ok]
      refine Eq.trans ?_ e1
      cases ax <;> rfl
  · intro ax k l hk hl
    obtain ⟨p, p1, p2⟩ := hlook1 ax k l hk hl
    exact ⟨p, by rw [hlook]; exact p1, p2⟩
  · intro ax l k p hl hp hk
    show ∃ q, v.next srt full dbg o IB ax p = .ok q ∧ _
    have hia := halong ax l k p hk hl hp
    obtain ⟨hr, p1, p2, p3⟩ := hp
    cases hf : o.fast ax with
    | true =>
      refine ⟨{ p with it := p.it + 1 }, by unfold CoordMat.next; rw [if_pos ⟨hr, hf⟩], hr, ?_, p2, ?_⟩
      · simp only [p1]
        exact slot_succ hE hb hf hl hk
      · intro hk'
        obtain ⟨x, x1, x2⟩ := p3 hk
        refine ⟨x, x1, ?_⟩
        rw [x2]
        cases ax <;> cases o <;> simp_all [Orient.fast, coord, Orient.indexM]
    | false =>
      obtain ⟨q, q1, q2⟩ := hlook1 ax ((keyLine o v.size1 v.size2 E ax l)[k].1 + 1) l (keyLine_stored hb ax hl hk).1 hl
      rw [before_succ (keyLine_inc hE hb ax l) hk] at q2
      refine ⟨q, ?_, q2⟩
      unfold CoordMat.next
      rw [if_neg (by rw [hf]; simp), hia, bind_ok]
      dsimp only
      rw [hset, p2, if_pos hr, hr]
      exact q1
  · intro ax l a b p q hl ha hb' hp hq
    show Except.ok (CMat.iterEq p q) = _
    obtain ⟨hr, p1, p2, p3⟩ := hp
    obtain ⟨hr', q1, q2, q3⟩ := hq
    congr 1
    unfold CMat.iterEq
    rw [if_pos (Or.inl hr), p1, q1, decide_eq_decide]
    exact slot_inj hE hb ax hl ha hb'
  · intro ax l k p hk hl hp
    obtain ⟨i1, i2, i3⟩ := hsee1 ax l k p hk hl hp
    refine ⟨?_, ?_, i3⟩ <;> cases ax <;> first | exact i1 | exact i2

end MIter

section
variable [AddCommMonoid R]

/-- The sorted arrays of a reachable coordinate matrix. -/
theorem CoordMat.laid {srt : List ((Nat × Nat) × R) → List ((Nat × Nat) × R)} (hsrt : CoordMat.Sorts srt) {full : Bool} {o : Orient} {IB : Nat} {v : CoordMat R}
    {s : CooSpec.MState R} (hi : CoordMat.Inv srt full o IB v s) (dbg : Bool) :
    ∃ v1 A, v.step srt full dbg o IB 0 (fun _ => (0, 0), fun _ => 0) (.core .sort) = .ok v1 ∧ v1.coo.sorted = true ∧
      CoordMat.Inv srt full o IB v1 (CooSpec.mstep o s (.core .sort)) ∧ CoordMat.Laid o IB v1.size1 v1.size2 v1.coo A ∧
      (∀ i j w, i < s.rows → j < s.cols → ((o.elementRaw i s.rows j s.cols, w) ∈ CoordMat.flatten o IB s.rows s.cols A ↔ s.st.val (i, j) = some w)) := by
  obtain ⟨v1, e, h1⟩ := CoordMat.step_inv srt hsrt full dbg o IB (fun _ => (0, 0), fun _ => 0) v s (.core .sort) hi trivial
  have h1' := h1
  obtain ⟨z1, z2, A, hA, hv, hin, hso⟩ := h1'
  have hs : v1.coo.sorted = true := hso.symm
  have hst := hA.strictAll hs
  have z1' : v1.size1 = s.rows := z1
  have z2' : v1.size2 = s.cols := z2
  have hL : CoordMat.Laid o IB v1.size1 v1.size2 v1.coo A := ⟨hA.len, hA.holds, hst, by rw [z1', z2']; exact hin⟩
  refine ⟨v1, A, e, hs, h1, hL, ?_⟩
  intro i j w hi hj
  have hvv : s.st.val (i, j) = collect A (CoordMat.key o IB (i, j)) := hv (i, j)
  rw [hvv, collect_mem_strict lexOrd hst]
  rw [z1', z2'] at hL
  constructor
  · intro hm
    obtain ⟨n, hn⟩ := List.mem_iff_getElem?.1 hm
    exact List.mem_of_getElem? ((CoordMat.flatten_get hL hi hj).1 hn)
  · intro hm
    obtain ⟨n, hn⟩ := List.mem_iff_getElem?.1 hm
    exact List.mem_of_getElem? ((CoordMat.flatten_get hL hi hj).2 hn)

/-- **C86 (forwards).** After any legal history of a `coordinate_matrix` (row- or column-major, any index base, any conforming `std::sort`), iterating it or any
stack of views on it forwards, by rows or by columns, visits exactly the stored elements (contributions to the same place summed), in increasing order, with
their indices and values (through slices and indirect arrays: every element).  `v1` is the container after the `sort ()` every `find` begins with.
Missing (see `C86_reverse_refuted`): iterating backwards. -/
theorem C86_coordinate_views_partial (srt : List ((Nat × Nat) × R) → List ((Nat × Nat) × R)) (hsrt : CoordMat.Sorts srt) (full dbg : Bool) (o : Orient) (IB : Nat)
    (junk : Coo.Junk (Nat × Nat) R) (r c nz : Nat) (ops : List (CoordMatOp R × Coo.Junk (Nat × Nat) R))
    (hl : CooSpec.mlegalRun o ⟨r, c, fun _ => none, true⟩ (ops.map (·.1))) (s : CooSpec.MState R)
    (hs : s = CooSpec.mrun o ⟨r, c, fun _ => none, true⟩ (ops.map (·.1))) (h1 : s.rows < 2 ^ 64) (h2 : s.cols < 2 ^ 64) :
    ∃ v0 v v1, ∃ L : Axis → Nat → List (Nat × R), CoordMat.ctor srt full dbg junk r c nz = .ok v0 ∧ CoordMat.run srt full dbg o IB 0 v0 ops = .ok v ∧
      v.step srt full dbg o IB 0 (fun _ => (0, 0), fun _ => 0) (.core .sort) = .ok v1 ∧
      (∀ i, i < s.rows → Lists (L .two i) fun j => s.st.val (i, j)) ∧ (∀ j, j < s.cols → Lists (L .one j) fun i => s.st.val (i, j)) ∧
      (MIter.coordinate srt full dbg o IB 0 v1).ShownThroughViews dbg s.rows s.cols (fun i j => (s.st.val (i, j)).getD 0) L fun _ => False := by
  obtain ⟨v0, e0, g0⟩ := CoordMat.inv_ctor srt full dbg o IB junk r c nz
  obtain ⟨v, e, hi⟩ := CoordMat.run_inv srt hsrt full dbg o IB ops v0 _ g0 hl
  rw [← hs] at hi
  obtain ⟨v1, A, e1, hso, hi1, hL, hE⟩ := CoordMat.laid hsrt hi dbg
  have hobs := hi1.observes hsrt dbg
  have z1 : v1.size1 = s.rows := hi1.1
  have z2 : v1.size2 = s.cols := hi1.2.1
  have hnone : ∀ i j, ¬ (i < s.rows ∧ j < s.cols) → s.st.val (i, j) = none := fun i j hij => hobs.2.2.2.1 (i, j) hij
  have hst := MIter.coordinate_stands srt full dbg 0 hso hL
  have hb := CoordMat.flatten_below hL
  have hinc := CoordMat.flatten_inc hL
  rw [z1, z2] at hst hb hinc
  refine ⟨v0, v, v1, MIter.keyLine o s.rows s.cols (CoordMat.flatten o IB s.rows s.cols A), e0, e, e1, fun i hi => ?_, fun j hj => ?_, ?_⟩
  · exact MIter.keyLine_lists hinc hE hb hnone .two hi
  · exact MIter.keyLine_lists hinc hE hb hnone .one hj
  · exact MIter.shownThroughViews z1 z2 h1 h2 hst (fun _ h => h.elim) (fun i j _ _ => hobs.2.2.1 (i, j)) dbg

/-- **C86 refuted (backwards).** After any legal history.  In a debug build stepping back from `end1 ()` or `end2 ()`, and from the end of a row of a column-major
(column of a row-major) matrix, throws `bad_index` at once.  Along the storage order: if the line `l` has a stored element and the next line that has one is `l'`,
then the first step back from the end of line `l` arrives at an iterator that says it is in line `l'`. -/
theorem C86_reverse_refuted (srt : List ((Nat × Nat) × R) → List ((Nat × Nat) × R)) (hsrt : CoordMat.Sorts srt) (full dbg : Bool) (o : Orient) (IB : Nat)
    (junk : Coo.Junk (Nat × Nat) R) (r c nz : Nat) (ops : List (CoordMatOp R × Coo.Junk (Nat × Nat) R))
    (hl : CooSpec.mlegalRun o ⟨r, c, fun _ => none, true⟩ (ops.map (·.1))) (s : CooSpec.MState R)
    (hs : s = CooSpec.mrun o ⟨r, c, fun _ => none, true⟩ (ops.map (·.1))) :
    ∃ v0 v v1, CoordMat.ctor srt full dbg junk r c nz = .ok v0 ∧ CoordMat.run srt full dbg o IB 0 v0 ops = .ok v ∧
      v.step srt full dbg o IB 0 (fun _ => (0, 0), fun _ => 0) (.core .sort) = .ok v1 ∧
      (dbg = true → ∀ ax l, l < CMat.along ax.other s.rows s.cols →
        (∃ e, (MIter.coordinate srt full dbg o IB 0 v1).look ax 0 (CMat.along ax s.rows s.cols) l = .ok e ∧
          (MIter.coordinate srt full dbg o IB 0 v1).prev ax e = .error .badIndex) ∧
        (o.fast ax = false → ∃ e, (MIter.coordinate srt full dbg o IB 0 v1).look ax 1 (CMat.along ax s.rows s.cols) l = .ok e ∧
          (MIter.coordinate srt full dbg o IB 0 v1).prev ax e = .error .badIndex)) ∧
      (∀ ax l l' k k', o.fast ax = true → l < l' → s.st.val (MIter.coord ax k l) ≠ none → s.st.val (MIter.coord ax k' l') ≠ none →
        (∀ m x, l < m → m < l' → s.st.val (MIter.coord ax x m) = none) →
        ∃ e p, (MIter.coordinate srt full dbg o IB 0 v1).look ax 1 (CMat.along ax s.rows s.cols) l = .ok e ∧
          (MIter.coordinate srt full dbg o IB 0 v1).prev ax e = .ok p ∧ (MIter.coordinate srt full dbg o IB 0 v1).indexAcross ax p = .ok l') := by
  obtain ⟨v0, e0, g0⟩ := CoordMat.inv_ctor srt full dbg o IB junk r c nz
  obtain ⟨v, e, hi⟩ := CoordMat.run_inv srt hsrt full dbg o IB ops v0 _ g0 hl
  rw [← hs] at hi
  obtain ⟨v1, A, e1, hso, hi1, hL, hE⟩ := CoordMat.laid hsrt hi dbg
  have hobs := hi1.observes hsrt dbg
  have z1 : v1.size1 = s.rows := hi1.1
  have z2 : v1.size2 = s.cols := hi1.2.1
  have hnone : ∀ i j, ¬ (i < s.rows ∧ j < s.cols) → s.st.val (i, j) = none := fun i j hij => hobs.2.2.2.1 (i, j) hij
  have hb := CoordMat.flatten_below hL
  have hinc := CoordMat.flatten_inc hL
  have hlook : ∀ ax rank k l, (MIter.coordinate srt full dbg o IB 0 v1).look ax rank k l =
      CoordMat.findIt o IB v1.size1 v1.size2 v1.coo ax true rank (v1.size1 + v1.size2 + 2) (MIter.coord ax k l).1 (MIter.coord ax k l).2 := by
    intro ax rank k l
    cases ax <;> (show CoordMat.lookup _ _ _ _ _ _ _ _ _ _ _ = _; unfold CoordMat.lookup; rw [MIter.sort_sorted _ _ hso]; rfl)
  have hbelow : ∀ ax l, l < CMat.along ax.other v1.size1 v1.size2 → ∀ x ∈ MIter.keyLine o v1.size1 v1.size2 (CoordMat.flatten o IB v1.size1 v1.size2 A) ax l,
      x.1 < CMat.along ax v1.size1 v1.size2 := fun ax l hl x hx => ((MIter.keyLine_mem hb ax hl x.1 x.2).1 hx).1
  have hend : ∀ ax l, l < CMat.along ax.other v1.size1 v1.size2 → ∃ k', (MIter.coordinate srt full dbg o IB 0 v1).look ax 1 (CMat.along ax v1.size1 v1.size2) l =
      .ok ⟨1, (MIter.coord ax k' l).1, (MIter.coord ax k' l).2,
        cnt (CoordMat.flatten o IB v1.size1 v1.size2 A) (MIter.addr o v1.size1 v1.size2 ax l (CMat.along ax v1.size1 v1.size2)),
        cnt (CoordMat.flatten o IB v1.size1 v1.size2 A) (MIter.addr o v1.size1 v1.size2 ax l (CMat.along ax v1.size1 v1.size2))⟩ := by
    intro ax l hll
    obtain ⟨k', _, e⟩ := MIter.coordinate_find1 hL ax hll (v1.size1 + v1.size2 + 2) _ (Nat.le_refl _) (by cases ax <;> simp only [CMat.along] <;> omega)
    rw [before_all (hbelow ax l hll), MIter.slot_end] at e
    exact ⟨k', by rw [hlook]; exact e⟩
  have hset : ∀ ax (i j x : Nat), CMat.setAlong ax i j x = MIter.coord ax x (CMat.along ax.other i j) := by intro ax i j x; cases ax <;> rfl
  have hnotEnd : ∀ ax l, l < CMat.along ax.other v1.size1 v1.size2 → ∀ p : CMIter, dbg = true → CMat.along ax.other p.i p.j = l →
      (p.rank = 1 → p.it = cnt (CoordMat.flatten o IB v1.size1 v1.size2 A) (MIter.addr o v1.size1 v1.size2 ax l (CMat.along ax v1.size1 v1.size2))) →
      (p.rank ≠ 1 → (p.i, p.j) = MIter.coord ax (CMat.along ax v1.size1 v1.size2) l) → v1.notEnd srt full dbg o IB ax p = .error .badIndex := by
    intro ax l hll p hd hp hit hij
    unfold CoordMat.notEnd CoordMat.lookup
    rw [if_pos hd, hset, hp, MIter.sort_sorted _ _ hso, bind_ok, MIter.coordinate_find0 hL true ax (Nat.le_refl _) hll, bind_ok]
    have : CMat.iterEq p ⟨0, (MIter.coord ax (CMat.along ax v1.size1 v1.size2) l).1, (MIter.coord ax (CMat.along ax v1.size1 v1.size2) l).2,
        cnt (CoordMat.flatten o IB v1.size1 v1.size2 A) (MIter.addr o v1.size1 v1.size2 ax l (CMat.along ax v1.size1 v1.size2)),
        cnt (CoordMat.flatten o IB v1.size1 v1.size2 A) (MIter.addr o v1.size1 v1.size2 ax l (CMat.along ax v1.size1 v1.size2))⟩ = true := by
      unfold CMat.iterEq
      by_cases hr : p.rank = 1
      · rw [if_pos (Or.inl hr), hit hr]; simp
      · rw [if_neg (by simp [hr])]
        have := hij hr
        simp [← this]
    rw [this, hd]
    rfl
  refine ⟨v0, v, v1, e0, e, e1, ?_, ?_⟩
  · intro hd ax l hll
    rw [← z1, ← z2] at hll ⊢
    have hfail : ∀ p : CMIter, v1.notEnd srt full dbg o IB ax p = .error .badIndex → ¬ (p.rank = 1 ∧ o.fast ax = true) → v1.prev srt full dbg o IB ax p = .error .badIndex := by
      intro p hp hr
      unfold CoordMat.prev
      rw [if_neg hr]
      cases ax <;> simp only [CoordMat.indexAlong, CoordMat.index1, CoordMat.index2, if_true, hp] <;> rfl
    refine ⟨⟨_, by rw [hlook]; exact MIter.coordinate_find0 hL true ax (Nat.le_refl _) hll _, ?_⟩, fun hf => ?_⟩
    · have hpr : ∀ p, (MIter.coordinate srt full dbg o IB 0 v1).prev ax p = v1.prev srt full dbg o IB ax p := fun _ => rfl
      refine (hpr _).trans (hfail _ ?_ ?_)
      · exact hnotEnd ax l hll _ hd (MIter.coord_across ax _ l) (fun h => absurd h (by simp)) (fun _ => rfl)
      · simp
    · obtain ⟨k', hk'⟩ := hend ax l hll
      exact ⟨_, hk', hfail _ (hnotEnd ax l hll _ hd (MIter.coord_across ax _ l) (fun _ => rfl) (fun h => absurd rfl h)) (by rw [hf]; simp)⟩
  · intro ax l l' k k' hf hlt hk hk' hno
    have hin : ∀ x m, s.st.val (MIter.coord ax x m) ≠ none → x < CMat.along ax v1.size1 v1.size2 ∧ m < CMat.along ax.other v1.size1 v1.size2 := by
      intro x m hx
      rw [z1, z2]
      by_contra hcc
      apply hx
      have := hnone (MIter.coord ax x m).1 (MIter.coord ax x m).2 (by
        intro hh
        apply hcc
        cases ax <;> simp only [MIter.coord, CMat.along, Axis.other] at hh ⊢ <;> omega)
      exact this
    have hstored : ∀ x m, s.st.val (MIter.coord ax x m) ≠ none → ∃ w, (MIter.addr o v1.size1 v1.size2 ax m x, w) ∈ CoordMat.flatten o IB v1.size1 v1.size2 A := by
      intro x m hx
      obtain ⟨w, hw⟩ := Option.ne_none_iff_exists'.1 hx
      have hh := hin x m hx
      rw [z1, z2] at hh ⊢
      have hij : (MIter.coord ax x m).1 < s.rows ∧ (MIter.coord ax x m).2 < s.cols := by
        cases ax <;> simp only [MIter.coord, CMat.along, Axis.other] at hh ⊢ <;> omega
      exact ⟨w, (hE _ _ w hij.1 hij.2).2 hw⟩
    obtain ⟨hkb, hlb⟩ := hin k l hk
    obtain ⟨hkb', hlb'⟩ := hin k' l' hk'
    obtain ⟨w, hw⟩ := hstored k l hk
    obtain ⟨w', hw'⟩ := hstored k' l' hk'
    obtain ⟨ke, hke⟩ := hend ax l hlb
    -- the entry after the end of the line
    have haddr : MIter.addr o v1.size1 v1.size2 ax l (CMat.along ax v1.size1 v1.size2) ≤ MIter.addr o v1.size1 v1.size2 ax l' k' := by
      rw [MIter.addr_eq, MIter.addr_eq, if_pos hf, if_pos hf, fast_size hf]
      have := Nat.mul_le_mul_right (o.sizem v1.size1 v1.size2) (show l + 1 ≤ l' from hlt)
      rw [Nat.add_mul, Nat.one_mul] at this
      omega
    have hnlt : cnt (CoordMat.flatten o IB v1.size1 v1.size2 A) (MIter.addr o v1.size1 v1.size2 ax l (CMat.along ax v1.size1 v1.size2)) <
        (CoordMat.flatten o IB v1.size1 v1.size2 A).length := by
      have g1 := cnt_mono (CoordMat.flatten o IB v1.size1 v1.size2 A) haddr
      have g2 := (List.getElem?_eq_some_iff.1 (get_cnt hinc hw')).1
      omega
    have hpos : 0 < cnt (CoordMat.flatten o IB v1.size1 v1.size2 A) (MIter.addr o v1.size1 v1.size2 ax l (CMat.along ax v1.size1 v1.size2)) := by
      have := cnt_lt hinc hw (MIter.addr_lt' o ax hlb hkb)
      omega
    generalize hN : cnt (CoordMat.flatten o IB v1.size1 v1.size2 A) (MIter.addr o v1.size1 v1.size2 ax l (CMat.along ax v1.size1 v1.size2)) = N at *
    have hge := cnt_ge hinc (Nat.le_of_eq hN) (List.getElem?_eq_getElem hnlt)
    have hmemN := List.getElem_mem hnlt
    have hkey := MIter.key_spec o ax (hb _ hmemN)
    -- it lies in line l'
    have hline : MappedMat.keyAcross o v1.size1 v1.size2 ax ((CoordMat.flatten o IB v1.size1 v1.size2 A)[N]).1 = l' := by
      have hvalN : s.st.val (MIter.coord ax (MappedMat.keyAlong o v1.size1 v1.size2 ax ((CoordMat.flatten o IB v1.size1 v1.size2 A)[N]).1)
          (MappedMat.keyAcross o v1.size1 v1.size2 ax ((CoordMat.flatten o IB v1.size1 v1.size2 A)[N]).1)) ≠ none := by
        obtain ⟨g1, g2, g3⟩ := hkey
        have hm : (MIter.addr o v1.size1 v1.size2 ax (MappedMat.keyAcross o v1.size1 v1.size2 ax ((CoordMat.flatten o IB v1.size1 v1.size2 A)[N]).1)
          (MappedMat.keyAlong o v1.size1 v1.size2 ax ((CoordMat.flatten o IB v1.size1 v1.size2 A)[N]).1), ((CoordMat.flatten o IB v1.size1 v1.size2 A)[N]).2) ∈
            CoordMat.flatten o IB v1.size1 v1.size2 A := by rw [← g1]; exact hmemN
        generalize MappedMat.keyAcross o v1.size1 v1.size2 ax ((CoordMat.flatten o IB v1.size1 v1.size2 A)[N]).1 = m at *
        generalize MappedMat.keyAlong o v1.size1 v1.size2 ax ((CoordMat.flatten o IB v1.size1 v1.size2 A)[N]).1 = x at *
        have hE' := hE
        rw [← z1, ← z2] at hE'
        have hij : (MIter.coord ax x m).1 < v1.size1 ∧ (MIter.coord ax x m).2 < v1.size2 := by
          cases ax <;> simp only [MIter.coord, CMat.along, Axis.other] at g2 g3 ⊢ <;> omega
        have := (hE' (MIter.coord ax x m).1 (MIter.coord ax x m).2 ((CoordMat.flatten o IB v1.size1 v1.size2 A)[N]).2 hij.1 hij.2).1 hm
        show s.st.val ((MIter.coord ax x m).1, (MIter.coord ax x m).2) ≠ none
        rw [this]; simp
      have hatN : cnt (CoordMat.flatten o IB v1.size1 v1.size2 A) ((CoordMat.flatten o IB v1.size1 v1.size2 A)[N]).1 = N :=
        before_at hinc hnlt (Nat.le_refl _) (fun x _ => Nat.lt_or_ge _ _)
      generalize (CoordMat.flatten o IB v1.size1 v1.size2 A)[N] = eN at *
      obtain ⟨g1, g2, g3⟩ := hkey
      generalize MappedMat.keyAcross o v1.size1 v1.size2 ax eN.1 = m at *
      generalize MappedMat.keyAlong o v1.size1 v1.size2 ax eN.1 = x at *
      rcases Nat.lt_trichotomy m l' with c | c | c
      · exfalso
        rcases Nat.lt_or_ge l m with d | d
        · exact hvalN (hno m x d c)
        · rw [MIter.addr_eq, if_pos hf] at g1 hge
          rw [fast_size hf] at g2 hge
          have := Nat.mul_le_mul_right (o.sizem v1.size1 v1.size2) d
          omega
      · exact c
      · exfalso
        have q1 : MIter.addr o v1.size1 v1.size2 ax l' k' < eN.1 := by
          rw [g1, MIter.addr_eq, MIter.addr_eq, if_pos hf, if_pos hf]
          rw [fast_size hf] at hkb'
          have := Nat.mul_le_mul_right (o.sizem v1.size1 v1.size2) (show l' + 1 ≤ m from c)
          rw [Nat.add_mul, Nat.one_mul] at this
          omega
        have q2 := cnt_lt hinc hw' q1
        have q3 := cnt_mono (CoordMat.flatten o IB v1.size1 v1.size2 A) haddr
        omega
    have hlenA : (CoordMat.flatten o IB v1.size1 v1.size2 A).length = A.length := by simp [CoordMat.flatten]
    have hNA : N < A.length := by omega
    have hN1 : N - 1 < A.length := by omega
    obtain ⟨q, hq, eq⟩ := hL.inside _ (List.getElem_mem hNA)
    obtain ⟨q', hq', eq'⟩ := hL.inside _ (List.getElem_mem hN1)
    have hi1' := hL.holds.idxAt hNA
    have hi2' := hL.holds.idxAt hN1
    rw [eq] at hi1'
    rw [eq'] at hi2'
    have hqn : MIter.addr o v1.size1 v1.size2 ax (CMat.along ax.other q.1 q.2) (CMat.along ax q.1 q.2) = ((CoordMat.flatten o IB v1.size1 v1.size2 A)[N]).1 := by
      simp only [CoordMat.flatten, List.getElem_map, eq, CoordMat.unkey_key]
      cases ax <;> rfl
    have hql : CMat.along ax.other q.1 q.2 = l' := by
      rw [← hline, ← hqn]
      exact (MIter.addr_key o ax (k := CMat.along ax q.1 q.2) (l := CMat.along ax.other q.1 q.2) (by cases ax <;> simp only [CMat.along] <;> omega)
        (by cases ax <;> simp only [CMat.along, Axis.other] <;> omega)).2.1.symm
    refine ⟨_, ⟨1, (MIter.coord ax ke l).1, (MIter.coord ax ke l).2, N, N - 1⟩, by rw [← z1, ← z2]; exact hke, ?_, ?_⟩
    · show v1.prev srt full dbg o IB ax _ = _
      unfold CoordMat.prev
      rw [if_pos ⟨rfl, hf⟩]
      dsimp only
      rw [if_neg (by omega)]
      rfl
    · cases ax
      · show v1.index2 srt full dbg o IB .one _ = _
        unfold CoordMat.index2
        rw [if_neg (by decide), bind_ok, if_pos rfl, rd_eq_ok.2 hi1', bind_ok, rd_eq_ok.2 hi2', bind_ok]
        cases o
        · cases hf
        · simp only [CoordMat.key, Orient.indexm, Orient.indexM, Nat.add_sub_cancel]
          simp only [CMat.along, Axis.other] at hql hlb'
          rw [check_true (by omega), bind_ok, hql]
      · show v1.index1 srt full dbg o IB .two _ = _
        unfold CoordMat.index1
        rw [if_neg (by decide), bind_ok, if_pos rfl, rd_eq_ok.2 hi1', bind_ok, rd_eq_ok.2 hi2', bind_ok]
        cases o
        · simp only [CoordMat.key, Orient.indexm, Orient.indexM, Nat.add_sub_cancel]
          simp only [CMat.along, Axis.other] at hql hlb'
          rw [check_true (by omega), bind_ok, hql]
        · cases hf

theorem VIter.coordinate_stands (srt : List (Nat × R) → List (Nat × R)) (full dbg : Bool) {IB : Nat} (zero : R) {v : CoordVec R} {A : List (Nat × R)}
    (hs : v.coo.sorted = true) (hlen : A.length = v.coo.filled) (hA : Coo.Holds v.coo.idx v.coo.val A) (hst : Strict (fun a b : Nat => decide (a < b)) A)
    (hin : ∀ p ∈ A, ∃ i, i < v.size ∧ p.1 = i + IB) :
    (VIter.coordinate srt full dbg IB zero v).Stands (A.map fun p => (p.1 - IB, p.2)) (fun k p => p = k) := by
  have hl : A.length ≤ v.coo.idx.length := hA.len.1
  have hmono : ∀ (i j : Nat) (hi : i < A.length) (hj : j < A.length), i < j → A[i].1 < A[j].1 := by
    intro i j hi hj hij
    have := List.pairwise_iff_getElem.1 hst i j hi hj hij
    simpa using this
  have hso : SortedOn v.coo.idx 0 A.length := by
    intro i j x y _ hij hj hx hy
    rw [hA.idxAt (by omega)] at hx; rw [hA.idxAt hj] at hy
    simp only [Option.some.injEq] at hx hy
    rcases Nat.eq_or_lt_of_le hij with e | e
    · subst e; omega
    · have := hmono i j (by omega) hj e; omega
  have hinc : Inc (A.map fun p => (p.1 - IB, p.2)) := by
    unfold Inc
    rw [List.pairwise_map]
    refine List.Pairwise.imp_of_mem ?_ hst
    intro a b ha hb hab
    obtain ⟨i, hi, ei⟩ := hin a ha
    obtain ⟨j, hj, ej⟩ := hin b hb
    simp only [decide_eq_true_eq] at hab
    simp only; omega
  have hfind : ∀ i, lowerBound v.coo.idx 0 v.coo.filled (i + IB) = .ok (before (A.map fun p => (p.1 - IB, p.2)) i) := by
    intro i
    rw [← hlen]
    obtain ⟨r, hr, h1, h2, h3, h4⟩ := lowerBound_spec v.coo.idx 0 A.length (i + IB) (Nat.zero_le _) hl hso
    rw [hr]
    congr 1
    unfold before
    rw [List.countP_map]
    symm
    refine countP_of_split h2 ?_ ?_
    · intro n hn hnr
      have := h3 n _ (Nat.zero_le _) hnr (hA.idxAt hn)
      obtain ⟨q, hq, eq⟩ := hin _ (List.getElem_mem hn)
      simp only [Function.comp, decide_eq_true_eq]; omega
    · intro n hn hnr
      have := h4 n _ hnr hn (hA.idxAt hn)
      obtain ⟨q, hq, eq⟩ := hin _ (List.getElem_mem hn)
      simp only [Function.comp, decide_eq_false_iff_not]; omega
  have hsort : v.coo.sort dbg (CoordVec.par srt full IB v.size) = .ok v.coo := by
    unfold Coo.sort
    rw [if_neg (by rw [hs]; simp)]
  have hbelow : ∀ x ∈ A.map (fun p => (p.1 - IB, p.2)), x.1 < v.size := by
    intro x hx
    obtain ⟨p, hp, rfl⟩ := List.mem_map.1 hx
    obtain ⟨q, hq, eq⟩ := hin p hp
    simp only; omega
  have hendn : before (A.map fun p => (p.1 - IB, p.2)) v.size = A.length := by
    rw [before_all hbelow]; simp
  refine ⟨hinc, hbelow, ?_, ?_, ?_, ?_⟩
  · intro i _
    refine ⟨before (A.map fun p => (p.1 - IB, p.2)) i, ?_, rfl⟩
    show (v.coo.sort dbg (CoordVec.par srt full IB v.size) >>= fun c => lowerBound c.idx 0 c.filled (i + IB)) = _
    rw [hsort, bind_ok, hfind]
    rfl
  · intro k p hp _
    replace hp : k = p := Eq.symm hp
    subst hp
    exact ⟨k + 1, rfl, rfl⟩
  · intro a b p q _ _ hp hq
    replace hp : a = p := Eq.symm hp
    replace hq : b = q := Eq.symm hq
    subst hp; subst hq
    rfl
  · intro k p hk hp
    replace hp : k = p := Eq.symm hp
    subst hp
    simp only [List.length_map] at hk
    have hx := hbelow _ (List.getElem_mem (by simpa using hk : k < (A.map fun p => (p.1 - IB, p.2)).length))
    simp only [List.getElem_map] at hx ⊢
    simp only [VIter.coordinate, hsort, bind_ok, hfind, hendn, check_true (Nat.ne_of_lt hk), rd_eq_ok.2 (hA.idxAt hk), check_true hx, ite_self, rd_eq_ok.2 (hA.valAt hk),
      and_self]

/-- **C82 (coordinate).** Views of a `coordinate_vector`: after any legal history (`v1` being the vector after the `sort ()` every `find` begins with), whatever
ranges, slices and indirect arrays are stacked on it, its iterators show the stored elements in the window (through ranges) or every element, forwards and backwards. -/
theorem C82_coordinate_views (srt : List (Nat × R) → List (Nat × R)) (hsrt : CoordVec.Sorts srt) (full dbg : Bool) (IB : Nat)
    (junk : Coo.Junk Nat R) (n nz : Nat) (ops : List (CoordVecOp R × Coo.Junk Nat R)) (hl : CooSpec.vlegalRun ⟨n, fun _ => none, true⟩ (ops.map (·.1)))
    (s : CooSpec.VState R) (hs : s = CooSpec.vrun ⟨n, fun _ => none, true⟩ (ops.map (·.1))) (hn : s.size < 2 ^ 64) (p : VRef) (hp : p.Fits s.size) :
    ∃ v0 v v1, ∃ L : List (Nat × R), CoordVec.ctor srt full dbg IB junk n nz = .ok v0 ∧ CoordVec.run srt full dbg IB 0 v0 ops = .ok v ∧
      v.step srt full dbg IB 0 (fun _ => 0, fun _ => 0) (.core .sort) = .ok v1 ∧ Lists L s.st.val ∧
      ((VIter.coordinate srt full dbg IB 0 v1).view dbg p).els = .ok (p.shown (fun i => (s.st.val i).getD 0) L) ∧
      ((VIter.coordinate srt full dbg IB 0 v1).view dbg p).elsBack = .ok (p.shown (fun i => (s.st.val i).getD 0) L).reverse := by
  obtain ⟨v0, e0, g0⟩ := CoordVec.inv_ctor srt full dbg IB junk n nz
  obtain ⟨v, e, hi⟩ := CoordVec.run_inv srt hsrt full dbg IB ops v0 _ g0 hl
  rw [← hs] at hi
  obtain ⟨v1, e1, h1⟩ := CoordVec.step_inv srt hsrt full dbg IB (fun _ => 0, fun _ => 0) v s (.core .sort) hi trivial
  have hobs := h1.observes hsrt dbg
  obtain ⟨z, A, hA, hv, hin, hso⟩ := h1
  have hs1 : v1.coo.sorted = true := hso.symm
  have hst := hA.strictAll hs1
  have z' : v1.size = s.size := z
  have hin' : ∀ p ∈ A, ∃ i, i < v1.size ∧ p.1 = i + IB := by rw [z']; exact hin
  have hstd := VIter.coordinate_stands srt full dbg (0 : R) hs1 hA.len hA.holds hst hin'
  have hrd : (VIter.coordinate srt full dbg IB 0 v1).Reads fun i => (s.st.val i).getD 0 := fun i hi => hobs.2.1 i (by
    show i < s.size
    rw [← z']; exact hi)
  have hbk : (VIter.coordinate srt full dbg IB 0 v1).Backs (A.map fun p => (p.1 - IB, p.2)) (fun k p => p = k) := by
    intro k p hp _
    replace hp : p = k + 1 := hp
    subst hp
    exact ⟨k, rfl, rfl⟩
  obtain ⟨⟨At, u1, u2⟩, _⟩ := VIter.view_stands hstd hrd (by show v1.size < _; rw [z']; exact hn) dbg p (by show VRef.Fits v1.size p; rw [z']; exact hp)
  have hlists : Lists (A.map fun p : Nat × R => (p.1 - IB, p.2)) s.st.val := by
    refine ⟨hstd.inc, fun k w => ?_⟩
    have hvv : s.st.val k = collect A (k + IB) := hv k
    rw [hvv, collect_mem_strict natOrd hst]
    constructor
    · intro hm
      obtain ⟨p, hp, e⟩ := List.mem_map.1 hm
      obtain ⟨i, _, ei⟩ := hin p hp
      replace ei : p.1 = i + IB := ei
      simp only [Prod.mk.injEq] at e
      have e1 : k + IB = p.1 := by omega
      rw [e1, ← e.2]; exact hp
    · intro hm; exact List.mem_map.2 ⟨_, hm, by simp⟩
  exact ⟨v0, v, v1, _, e0, e, e1, hlists, u1.els, u1.elsBack (u2 hbk)⟩

end

/-- A demonstration history: a 2 × 3 matrix with stored elements (0,0), (0,2), (1,1), appended out of order and one of them twice. -/
def C86_demo : List (CoordMatOp Int) := [.core (.append (1, 1) 40), .core (.append (0, 2) 10), .core (.append (1, 1) 2), .core (.append (0, 0) 7)]

/-- Forwards by rows and columns in a debug build; backwards: in both builds row 0 starts with an element said to be in row 1, and stepping back along a column
throws (debug), reads the memory behind the stored indices (release; here it lies behind the array). -/
example : CooSpec.mlegalRun .row (⟨2, 3, fun _ => none, true⟩ : CooSpec.MState Int) C86_demo ∧
    (do let v0 ← CoordMat.ctor mSort false true mJunk 2 3 3
        let v ← CoordMat.run mSort false true .row 0 0 v0 (C86_demo.map fun op => (op, mJunk))
        let v ← v.step mSort false true .row 0 0 mJunk (.core .sort)
        let a ← (MIter.coordinate mSort false true .row 0 0 v).traverse .one
        let b ← (MIter.coordinate mSort false true .row 0 0 v).traverse .two
        let e ← (MIter.coordinate mSort false true .row 0 0 v).look .two 1 3 0
        let p ← (MIter.coordinate mSort false true .row 0 0 v).prev .two e
        let i ← (MIter.coordinate mSort false true .row 0 0 v).index1 .two p
        let j ← (MIter.coordinate mSort false true .row 0 0 v).index2 .two p
        Except.ok (a, b, i, j) : M _) =
      .ok ([(0, [((0, 0), 7), ((0, 2), 10)]), (1, [((1, 1), 42)])], [(0, [((0, 0), 7)]), (1, [((1, 1), 42)]), (2, [((0, 2), 10)])], 1, 2) ∧
    (∀ dbg, (do let v0 ← CoordMat.ctor mSort false dbg mJunk 2 3 3
                let v ← CoordMat.run mSort false dbg .row 0 0 v0 ([.core (.append (1, 1) 40), .core (.append (0, 2) 10)].map fun op => (op, mJunk))
                let v ← v.step mSort false dbg .row 0 0 mJunk (.core (.reserve 2 true))
                let v ← v.step mSort false dbg .row 0 0 mJunk (.core .sort)
                ((MIter.coordinate mSort false dbg .row 0 0 v).line dbg .one 1).elsBack : M _) = .error (if dbg then .badIndex else .ub)) := by
  refine ⟨?_, by rfl, by intro dbg; cases dbg <;> rfl⟩
  simp [C86_demo, CooSpec.mlegalRun, CooSpec.mlegal, CooSpec.legal, CooSpec.mstep, CooSpec.step]

end Ublas
