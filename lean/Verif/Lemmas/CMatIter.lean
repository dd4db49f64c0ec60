import Verif.Model.CMatIter
import Verif.Lemmas.CompressedMatrix
namespace Ublas.CMat
open Search Assoc SparseSpec
variable {α : Type}

@[simp] theorem indexM_pos (o : Orient) (M m : Nat) : o.indexM (o.indexM M m) (o.indexm M m) = M := by cases o <;> rfl
@[simp] theorem indexm_pos (o : Orient) (M m : Nat) : o.indexm (o.indexM M m) (o.indexm M m) = m := by cases o <;> rfl

theorem fast_set {o : Orient} {ax : Axis} (h : o.fast ax = true) (M m k : Nat) :
    setAlong ax (o.indexM M m) (o.indexm M m) k = (o.indexM M k, o.indexm M k) := by
  cases o <;> cases ax <;> first | rfl | cases h
theorem fast_size {o : Orient} {ax : Axis} (h : o.fast ax = true) (r c : Nat) : along ax r c = o.sizem r c := by
  cases o <;> cases ax <;> first | rfl | cases h
theorem slow_set {o : Orient} {ax : Axis} (h : o.fast ax = false) (M m k : Nat) :
    setAlong ax (o.indexM M m) (o.indexm M m) k = (o.indexM k m, o.indexm k m) := by
  cases o <;> cases ax <;> first | rfl | cases h
theorem slow_along {o : Orient} {ax : Axis} (h : o.fast ax = false) (M m : Nat) : along ax (o.indexM M m) (o.indexm M m) = M := by
  cases o <;> cases ax <;> first | rfl | cases h
theorem slow_size {o : Orient} {ax : Axis} (h : o.fast ax = false) (r c : Nat) : along ax r c = o.sizeM r c := by
  cases o <;> cases ax <;> first | rfl | cases h

/-- Everything about one opened line. -/
theorem Core.line {o : Orient} {IB : Nat} {v : CMat α} {E s} (h : Core o IB v E s) {sm : Nat} (hsm : o.sizem v.size1 v.size2 = sm) {M : Nat} (h1 : M + 1 < v.filled1) :
    v.idx1[M]? = some (cnt E (M * sm) + IB) ∧ v.idx1[M + 1]? = some (cnt E ((M + 1) * sm) + IB) ∧
    cnt E (M * sm) ≤ cnt E ((M + 1) * sm) ∧ cnt E ((M + 1) * sm) ≤ v.filled2 ∧
    (∀ p, cnt E (M * sm) ≤ p → p < cnt E ((M + 1) * sm) → ∃ m w, m < sm ∧ E[p]? = some (M * sm + m, w) ∧ v.idx2[p]? = some (m + IB)) ∧
    (∀ m, ∃ n, lowerBound v.idx2 (cnt E (M * sm)) (cnt E ((M + 1) * sm)) (m + IB) = .ok n ∧ cnt E (M * sm) ≤ n ∧ n ≤ cnt E ((M + 1) * sm) ∧
      (∀ p k w, cnt E (M * sm) ≤ p → p < n → E[p]? = some (M * sm + k, w) → k < m) ∧
      (∀ p k w, n ≤ p → p < cnt E ((M + 1) * sm) → E[p]? = some (M * sm + k, w) → m ≤ k)) := by
  have hseg := fun (r n : Nat) (hn : n < E.length) => h.segment r hn
  rw [hsm] at hseg
  have hidx := fun (n : Nat) (hn : n < v.filled2) => h.idx2At hn
  rw [hsm] at hidx
  have hb := h.off M (by omega); rw [hsm] at hb
  have he := h.off (M + 1) h1; rw [hsm] at he
  have hle : cnt E (M * sm) ≤ cnt E ((M + 1) * sm) := cnt_mono _ (Nat.mul_le_mul_right _ (by omega))
  have hel : cnt E ((M + 1) * sm) ≤ v.filled2 := by rw [← h.len]; exact cnt_le _ _
  have conv : ∀ p, cnt E (M * sm) ≤ p → p < cnt E ((M + 1) * sm) → ∃ m w, m < sm ∧ E[p]? = some (M * sm + m, w) ∧ v.idx2[p]? = some (m + IB) := by
    intro p q1 q2
    have hp : p < E.length := by rw [h.len]; omega
    have a := (hseg M p hp).1.1 q1
    have b := (hseg M p hp).2.1 q2
    have hx := hidx p (by omega)
    rw [List.getElem?_eq_getElem hp, Option.map_some, mod_in a b] at hx
    rw [mul_succ'] at b
    refine ⟨E[p].1 - M * sm, E[p].2, by omega, ?_, hx⟩
    rw [List.getElem?_eq_getElem hp]
    congr 1
    refine Prod.ext ?_ rfl
    simp only; omega
  refine ⟨hb, he, hle, hel, conv, ?_⟩
  intro m
  have hso : SortedOn v.idx2 (cnt E (M * sm)) (cnt E ((M + 1) * sm)) := by
    intro a b x y q1 q2 q3 q4 q5
    obtain ⟨m1, w1, _, a2, a3⟩ := conv a q1 (by omega)
    obtain ⟨m2, w2, _, b2, b3⟩ := conv b (by omega) q3
    rw [a3] at q4; rw [b3] at q5
    simp only [Option.some.injEq] at q4 q5
    have hb' := (List.getElem?_eq_some_iff.1 b2).1
    have := h.rep.sorted E.length a b (M * sm + m1) (M * sm + m2) (by omega) q2 hb' (by rw [List.getElem?_map, a2]; rfl) (by rw [List.getElem?_map, b2]; rfl)
    omega
  obtain ⟨n, r1, r2, r3, r4, r5⟩ := lowerBound_spec v.idx2 (cnt E (M * sm)) (cnt E ((M + 1) * sm)) (m + IB) hle
    (by rw [h.idx2Len]; have := h.fill; omega) hso
  refine ⟨n, r1, r2, r3, ?_, ?_⟩
  · intro p k w q1 q2 q3
    obtain ⟨m1, w1, _, a2, a3⟩ := conv p q1 (by omega)
    rw [a2] at q3
    simp only [Option.some.injEq, Prod.mk.injEq] at q3
    have := r4 p _ q1 q2 a3; omega
  · intro p k w q1 q2 q3
    obtain ⟨m1, w1, _, a2, a3⟩ := conv p (by omega) q2
    rw [a2] at q3
    simp only [Option.some.injEq, Prod.mk.injEq] at q3
    have := r5 p _ q1 q2 a3; omega

theorem Core.inLine {o : Orient} {IB : Nat} {v : CMat α} {E s} (h : Core o IB v E s) {sm : Nat} (hsm : o.sizem v.size1 v.size2 = sm) {n M m : Nat} {w : α}
    (hm : m < sm) (hE : E[n]? = some (M * sm + m, w)) : M + 1 < v.filled1 ∧ cnt E (M * sm) ≤ n ∧ n < cnt E ((M + 1) * sm) ∧ n < v.filled2 := by
  obtain ⟨hn, he⟩ := List.getElem?_eq_some_iff.1 hE
  have hseg := h.segment M hn
  rw [hsm, he] at hseg
  simp only at hseg
  have hb := h.below _ (List.getElem_mem hn)
  rw [hsm, he] at hb
  have hb : M * sm + m < (v.filled1 - 1) * sm := hb
  have := (key_lt_mul (r := v.filled1 - 1) hm).1 hb
  refine ⟨by omega, hseg.1.2 (by omega), hseg.2.2 (by rw [mul_succ']; omega), by rw [← h.len]; exact hn⟩

theorem findIt_closed (o : Orient) (IB : Nat) (v : CMat α) (ax : Axis) (fwd : Bool) (rank fuel M m : Nat) (h : v.filled1 ≤ M + 1) :
    findIt o IB v ax fwd rank (fuel + 1) (o.indexM M m) (o.indexm M m) = .ok ⟨rank, o.indexM M m, o.indexm M m, min (v.filled1 - 1) M, v.filled2⟩ := by
  rw [findIt.eq_def]
  simp only [indexM_pos, if_pos h]

/-- The state of the search in an opened line. -/
theorem Core.findIt_open {o : Orient} {IB : Nat} {v : CMat α} {E s} (h : Core o IB v E s) {sm : Nat} (hsm : o.sizem v.size1 v.size2 = sm) {M : Nat} (h1 : M + 1 < v.filled1)
    (ax : Axis) (rank fuel m n : Nat)
    (hn : lowerBound v.idx2 (cnt E (M * sm)) (cnt E ((M + 1) * sm)) (m + IB) = .ok n) :
    findIt o IB v ax true rank (fuel + 1) (o.indexM M m) (o.indexm M m) =
      (if rank = 0 then .ok ⟨rank, o.indexM M m, o.indexm M m, M, n⟩ else do
        let hit ← (if n = cnt E ((M + 1) * sm) then .ok false else do
          let x ← rd false v.idx2 n
          .ok (decide (x - IB = m)) : Ublas.M Bool)
        if hit = true then .ok ⟨rank, o.indexM M m, o.indexm M m, M, n⟩ else
          (match o.fast ax with
          | true => (if n = cnt E ((M + 1) * sm) then .ok ⟨rank, o.indexM M m, o.indexm M m, M, n⟩ else do
              let x ← rd false v.idx2 n
              findIt o IB v ax true rank fuel (setAlong ax (o.indexM M m) (o.indexm M m) (x - IB)).1 (setAlong ax (o.indexM M m) (o.indexm M m) (x - IB)).2)
          | false => if along ax (o.indexM M m) (o.indexm M m) ≥ along ax v.size1 v.size2 then .ok ⟨rank, o.indexM M m, o.indexm M m, M, n⟩ else
              findIt o IB v ax true rank fuel (setAlong ax (o.indexM M m) (o.indexm M m) (along ax (o.indexM M m) (o.indexm M m) + 1)).1
                (setAlong ax (o.indexM M m) (o.indexm M m) (along ax (o.indexM M m) (o.indexm M m) + 1)).2)) := by
  obtain ⟨hb, he, _⟩ := h.line hsm h1
  have hmin : min (v.filled1 - 1) M = M := by omega
  rw [findIt.eq_def]
  simp only [indexM_pos, indexm_pos, if_neg (show ¬ v.filled1 ≤ M + 1 by omega), hmin, rd_eq_ok.2 hb, rd_eq_ok.2 he, bind_ok, Nat.add_sub_cancel, hn]
  split
  · rfl
  · cases o.fast ax <;> rfl

/-- Rank 0 searches only compute a position. -/
theorem Core.find0 {o : Orient} {IB : Nat} {v : CMat α} {E s} (h : Core o IB v E s) {sm : Nat} (hsm : o.sizem v.size1 v.size2 = sm) (ax : Axis) (fuel M m : Nat) :
    ∃ itv n, findIt o IB v ax true 0 (fuel + 1) (o.indexM M m) (o.indexm M m) = .ok ⟨0, o.indexM M m, o.indexm M m, itv, n⟩ ∧
      (v.filled1 ≤ M + 1 → n = v.filled2) ∧ (M + 1 < v.filled1 → sm ≤ m → n = cnt E ((M + 1) * sm)) := by
  by_cases h1 : v.filled1 ≤ M + 1
  · exact ⟨_, _, findIt_closed o IB v ax true 0 fuel M m h1, fun _ => rfl, fun h2 => by omega⟩
  · obtain ⟨_, _, l1, l2, l3, l4⟩ := h.line hsm (M := M) (by omega)
    obtain ⟨n, n1, n2, n3, n4, n5⟩ := l4 m
    refine ⟨M, n, ?_, fun h2 => by omega, fun _ h3 => ?_⟩
    · rw [h.findIt_open hsm (by omega) ax 0 fuel m n n1, if_pos rfl]
    · refine Nat.le_antisymm n3 (Nat.le_of_not_lt fun hlt => ?_)
      obtain ⟨k, w, k1, k2, _⟩ := l3 n n2 hlt
      have := n5 n k w (Nat.le_refl _) hlt k2; omega

theorem Core.find_hit {o : Orient} {IB : Nat} {v : CMat α} {E s} (h : Core o IB v E s) {sm : Nat} (hsm : o.sizem v.size1 v.size2 = sm) (ax : Axis) (fuel : Nat) {n M m : Nat} {w : α}
    (hm : m < sm) (hE : E[n]? = some (M * sm + m, w)) :
    findIt o IB v ax true 1 (fuel + 1) (o.indexM M m) (o.indexm M m) = .ok ⟨1, o.indexM M m, o.indexm M m, M, n⟩ := by
  obtain ⟨h1, q1, q2, q3⟩ := h.inLine hsm hm hE
  obtain ⟨_, _, l1, l2, l3, l4⟩ := h.line hsm h1
  obtain ⟨n', n1, n2, n3, n4, n5⟩ := l4 m
  have hn : n' = n := by
    rcases Nat.lt_trichotomy n' n with c | c | c
    · exfalso
      obtain ⟨k, w', k1, k2, _⟩ := l3 n' n2 (by omega)
      have a := n5 n' k w' (Nat.le_refl _) (by omega) k2
      have b := h.rep.key_lt k2 hE c
      simp only at b; omega
    · exact c
    · have := n4 n m w q1 c hE; omega
  subst hn
  obtain ⟨k, w', k1, k2, k3⟩ := l3 n' q1 q2
  rw [hE] at k2
  simp only [Option.some.injEq, Prod.mk.injEq] at k2
  have hk : k = m := by omega
  subst hk
  rw [h.findIt_open hsm h1 ax 1 fuel k n' n1, if_neg (by decide), if_neg (by omega)]
  simp only [rd_eq_ok.2 k3, bind_ok, Nat.add_sub_cancel, decide_true, if_true]

theorem Core.find_miss {o : Orient} {IB : Nat} {v : CMat α} {E s} (h : Core o IB v E s) {sm : Nat} (hsm : o.sizem v.size1 v.size2 = sm) {ax : Axis} (hf : o.fast ax = false) (fuel : Nat) {M m : Nat}
    (h1 : M + 1 < v.filled1) (hn : s (M * sm + m) = none) :
    findIt o IB v ax true 1 (fuel + 1) (o.indexM M m) (o.indexm M m) = findIt o IB v ax true 1 fuel (o.indexM (M + 1) m) (o.indexm (M + 1) m) := by
  obtain ⟨_, _, l1, l2, l3, l4⟩ := h.line hsm h1
  obtain ⟨n, n1, n2, n3, n4, n5⟩ := l4 m
  have hM := h.le
  rw [h.findIt_open hsm h1 ax 1 fuel m n n1, if_neg (by decide), hf, slow_along hf, slow_size hf, slow_set hf]
  have hlt : ¬ M ≥ o.sizeM v.size1 v.size2 := by omega
  by_cases e : n = cnt E ((M + 1) * sm)
  · simp only [if_pos e, bind_ok, Bool.false_eq_true, if_false, if_neg hlt]
  · obtain ⟨k, w', k1, k2, k3⟩ := l3 n n2 (by omega)
    have hkm : k ≠ m := by
      rintro rfl
      have := (h.rep.2 _ w').2 (List.mem_of_getElem? k2)
      rw [this] at hn; cases hn
    simp only [if_neg e, rd_eq_ok.2 k3, bind_ok, Nat.add_sub_cancel, decide_eq_true_eq, if_neg hkm, if_neg hlt]

/-- The slow search: the first line from `M` on that has an element with minor index `m`. -/
theorem Core.find_slow {o : Orient} {IB : Nat} {v : CMat α} {E s} (h : Core o IB v E s) {sm : Nat} (hsm : o.sizem v.size1 v.size2 = sm) {ax : Axis} (hf : o.fast ax = false) {m : Nat} (hm : m < sm) :
    ∀ (fuel M : Nat), 0 < fuel → o.sizeM v.size1 v.size2 < fuel + M → ∃ p, findIt o IB v ax true 1 fuel (o.indexM M m) (o.indexm M m) = .ok p ∧ p.rank = 1 ∧
      ((p.it = v.filled2 ∧ ∀ k, M ≤ k → s (k * sm + m) = none) ∨
       (∃ M' w, M ≤ M' ∧ p.i = o.indexM M' m ∧ p.j = o.indexm M' m ∧ p.itv = M' ∧ E[p.it]? = some (M' * sm + m, w) ∧ ∀ k, M ≤ k → k < M' → s (k * sm + m) = none)) := by
  intro fuel
  induction fuel with
  | zero =>
    intro M h0 hM; omega
  | succ fuel ih =>
    intro M h0 hM
    by_cases h1 : v.filled1 ≤ M + 1
    · refine ⟨_, findIt_closed o IB v ax true 1 fuel M m h1, rfl, Or.inl ⟨rfl, ?_⟩⟩
      intro k hk
      have := h.none_of_closed (e1 := k) (e2 := m) (by omega)
      rwa [hsm] at this
    · cases hs : s (M * sm + m) with
      | some w =>
        obtain ⟨n, hn⟩ := List.mem_iff_getElem?.1 ((h.rep.2 _ w).1 hs)
        refine ⟨_, h.find_hit hsm ax fuel hm hn, rfl, Or.inr ⟨M, w, Nat.le_refl _, rfl, rfl, rfl, hn, fun k a b => by omega⟩⟩
      | none =>
        have hle := h.le
        obtain ⟨p, e, r, hp⟩ := ih (M + 1) (by omega) (by omega)
        refine ⟨p, by rw [h.find_miss hsm hf fuel (by omega) hs]; exact e, r, ?_⟩
        rcases hp with ⟨a, b⟩ | ⟨M', w, a1, a2, a3, a4, a5, a6⟩
        · refine Or.inl ⟨a, fun k hk => ?_⟩
          by_cases e : k = M
          · subst e; exact hs
          · exact b k (by omega)
        · refine Or.inr ⟨M', w, by omega, a2, a3, a4, a5, fun k k1 k2 => ?_⟩
          by_cases e : k = M
          · subst e; exact hs
          · exact a6 k (by omega) k2

theorem Core.cnt_closed {o : Orient} {IB : Nat} {v : CMat α} {E s} (h : Core o IB v E s) {sm : Nat} (hsm : o.sizem v.size1 v.size2 = sm) {M : Nat} (h1 : v.filled1 ≤ M + 1) :
    cnt E (M * sm) = v.filled2 := by
  rw [cnt_all, h.len]
  intro p hp
  have := h.below p hp
  rw [hsm] at this
  have h3 : (v.filled1 - 1) * sm ≤ M * sm := Nat.mul_le_mul_right _ (by omega)
  omega

theorem Core.find_fast_end {o : Orient} {IB : Nat} {v : CMat α} {E s} (h : Core o IB v E s) {sm : Nat} (hsm : o.sizem v.size1 v.size2 = sm) {ax : Axis} (hf : o.fast ax = true) (fuel M m : Nat)
    (hm : sm ≤ m) :
    ∃ p, findIt o IB v ax true 1 (fuel + 1) (o.indexM M m) (o.indexm M m) = .ok p ∧ p.rank = 1 ∧ p.it = cnt E ((M + 1) * sm) := by
  by_cases h1 : v.filled1 ≤ M + 1
  · exact ⟨_, findIt_closed o IB v ax true 1 fuel M m h1, rfl, (h.cnt_closed hsm (by omega)).symm⟩
  · obtain ⟨_, _, l1, l2, l3, l4⟩ := h.line hsm (M := M) (by omega)
    obtain ⟨n, n1, n2, n3, n4, n5⟩ := l4 m
    have hn : n = cnt E ((M + 1) * sm) := by
      refine Nat.le_antisymm n3 (Nat.le_of_not_lt fun hlt => ?_)
      obtain ⟨k, w, k1, k2, _⟩ := l3 n n2 hlt
      have := n5 n k w (Nat.le_refl _) hlt k2; omega
    refine ⟨⟨1, o.indexM M m, o.indexm M m, M, n⟩, ?_, rfl, hn⟩
    rw [h.findIt_open hsm (by omega) ax 1 fuel m n n1, if_neg (by decide), hf]
    simp only [if_pos hn, bind_ok, Bool.false_eq_true, if_false]

theorem Core.find_fast_begin {o : Orient} {IB : Nat} {v : CMat α} {E s} (h : Core o IB v E s) {sm : Nat} (hsm : o.sizem v.size1 v.size2 = sm) {ax : Axis} (hf : o.fast ax = true) (fuel M : Nat) :
    ∃ p, findIt o IB v ax true 1 (fuel + 2) (o.indexM M 0) (o.indexm M 0) = .ok p ∧ p.rank = 1 ∧ p.it = cnt E (M * sm) ∧
      (M + 1 < v.filled1 → p.itv = M ∧ ∃ m', p.i = o.indexM M m' ∧ p.j = o.indexm M m') := by
  by_cases h1 : v.filled1 ≤ M + 1
  · exact ⟨_, findIt_closed o IB v ax true 1 (fuel + 1) M 0 h1, rfl, (h.cnt_closed hsm h1).symm, fun h2 => by omega⟩
  · obtain ⟨_, _, l1, l2, l3, l4⟩ := h.line hsm (M := M) (by omega)
    obtain ⟨n, n1, n2, n3, n4, n5⟩ := l4 0
    have hn : n = cnt E (M * sm) := by
      refine Nat.le_antisymm (Nat.le_of_not_lt fun hlt => ?_) n2
      obtain ⟨k, w, k1, k2, _⟩ := l3 (cnt E (M * sm)) (Nat.le_refl _) (by omega)
      have := n4 _ k w (Nat.le_refl _) hlt k2; omega
    by_cases e : n = cnt E ((M + 1) * sm)
    · refine ⟨⟨1, o.indexM M 0, o.indexm M 0, M, n⟩, ?_, rfl, hn, fun _ => ⟨rfl, 0, rfl, rfl⟩⟩
      rw [h.findIt_open hsm (by omega) ax 1 (fuel + 1) 0 n n1, if_neg (by decide), hf]
      simp only [if_pos e, bind_ok, Bool.false_eq_true, if_false]
    · obtain ⟨k, w, k1, k2, k3⟩ := l3 n n2 (by omega)
      by_cases ek : k = 0
      · subst ek
        exact ⟨_, h.find_hit hsm ax (fuel + 1) k1 k2, rfl, hn, fun _ => ⟨rfl, 0, rfl, rfl⟩⟩
      · refine ⟨⟨1, o.indexM M k, o.indexm M k, M, n⟩, ?_, rfl, hn, fun _ => ⟨rfl, k, rfl, rfl⟩⟩
        rw [h.findIt_open hsm (by omega) ax 1 (fuel + 1) 0 n n1, if_neg (by decide), hf]
        simp only [if_neg e, rd_eq_ok.2 k3, bind_ok, Nat.add_sub_cancel, decide_eq_true_eq, if_neg ek, fast_set hf]
        exact h.find_hit hsm ax fuel k1 k2

/-- Reading the indices and the element at a stored position. -/
theorem Core.index_at {o : Orient} {IB : Nat} {v : CMat α} {E s} (h : Core o IB v E s) {sm : Nat} (hsm : o.sizem v.size1 v.size2 = sm) (dbg : Bool) (zero : α) (ax : Axis) {p : CMIter} {M m : Nat} {w : α}
    (hm : m < sm) (hr : p.rank = 1) (hv : p.itv = M) (hE : E[p.it]? = some (M * sm + m, w)) (hne : v.notEnd dbg o IB ax p = .ok ()) :
    v.index1 dbg o IB ax p = .ok (o.indexM M m) ∧ v.index2 dbg o IB ax p = .ok (o.indexm M m) ∧ v.deref dbg o IB zero ax p = .ok w := by
  obtain ⟨h1, q1, q2, q3⟩ := h.inLine hsm hm hE
  have hx : v.idx2[p.it]? = some (m + IB) := by
    rw [h.idx2At q3, hE, hsm, Option.map_some, key_mod hm]
  have hw : v.val[p.it]? = some w := by rw [h.valAt q3, hE]; rfl
  have hM : M < o.sizeM v.size1 v.size2 := by have := h.le; omega
  have b1 : o.indexM M m < v.size1 := by cases o <;> simp only [Orient.indexM, Orient.sizeM, Orient.sizem] at * <;> omega
  have b2 : o.indexm M m < v.size2 := by cases o <;> simp only [Orient.indexm, Orient.sizeM, Orient.sizem] at * <;> omega
  have i1 : v.index1 dbg o IB ax p = .ok (o.indexM M m) := by
    unfold index1
    cases ax <;> simp only [hne, if_true, bind_ok, if_pos hr, rd_eq_ok.2 hx, Nat.add_sub_cancel, hv, check_true b1, reduceCtorEq, if_false]
  have i2 : v.index2 dbg o IB ax p = .ok (o.indexm M m) := by
    unfold index2
    cases ax <;> simp only [hne, if_true, bind_ok, if_pos hr, rd_eq_ok.2 hx, Nat.add_sub_cancel, hv, check_true b2, reduceCtorEq, if_false]
  refine ⟨i1, i2, ?_⟩
  unfold deref
  simp only [i1, i2, bind_ok, check_true b1, check_true b2, ite_self, if_pos hr, rd_eq_ok.2 hw]

theorem Core.notEnd_fast {o : Orient} {IB : Nat} {v : CMat α} {E s} (h : Core o IB v E s) {sm : Nat} (hsm : o.sizem v.size1 v.size2 = sm) (dbg : Bool) {ax : Axis} (hf : o.fast ax = true) {p : CMIter} {M m' : Nat}
    (hr : p.rank = 1) (hi : p.i = o.indexM M m') (hj : p.j = o.indexm M m') (h1 : M + 1 < v.filled1) (hn : p.it ≠ cnt E ((M + 1) * sm)) :
    v.notEnd dbg o IB ax p = .ok () := by
  unfold notEnd
  obtain ⟨itv, n, e, _, e2⟩ := h.find0 hsm ax (v.size1 + v.size2 + 1) M sm
  have e2 := e2 h1 (Nat.le_refl _)
  rw [hi, hj, fast_set hf, fast_size hf, hsm]
  simp only [CMat.find, rounds, e, bind_ok]
  rw [check_true (by simp [iterEq, hr, e2, hn]), ite_self]

theorem Core.notEnd_slow {o : Orient} {IB : Nat} {v : CMat α} {E s} (h : Core o IB v E s) {sm : Nat} (hsm : o.sizem v.size1 v.size2 = sm) (dbg : Bool) {ax : Axis} (hf : o.fast ax = false) {p : CMIter} {M m : Nat}
    (hr : p.rank = 1) (hi : p.i = o.indexM M m) (hj : p.j = o.indexm M m) (hn : p.it ≠ v.filled2) :
    v.notEnd dbg o IB ax p = .ok () := by
  unfold notEnd
  obtain ⟨itv, n, e, e1, _⟩ := h.find0 hsm ax (v.size1 + v.size2 + 1) (o.sizeM v.size1 v.size2) m
  have e1 := e1 h.le
  rw [hi, hj, slow_set hf, slow_size hf]
  simp only [CMat.find, rounds, e, bind_ok]
  rw [check_true (by simp [iterEq, hr, e1, hn]), ite_self]

theorem walk_fast {o : Orient} {IB : Nat} {v : CMat α} {E s} (h : Core o IB v E s) {sm : Nat} (hsm : o.sizem v.size1 v.size2 = sm) (dbg : Bool) (zero : α) {ax : Axis} (hf : o.fast ax = true) {M : Nat}
    {e : CMIter} (he : e.it = cnt E ((M + 1) * sm)) :
    ∀ (fuel : Nat) (p : CMIter), p.rank = 1 → cnt E (M * sm) ≤ p.it → p.it ≤ cnt E ((M + 1) * sm) → cnt E ((M + 1) * sm) < fuel + p.it →
      (p.it < cnt E ((M + 1) * sm) → p.itv = M ∧ ∃ m', p.i = o.indexM M m' ∧ p.j = o.indexm M m') →
      walk dbg o IB zero v ax e fuel p = .ok (((E.take (cnt E ((M + 1) * sm))).drop p.it).map (fun x => ((o.indexM M (x.1 % sm), o.indexm M (x.1 % sm)), x.2))) := by
  intro fuel
  induction fuel with
  | zero => intro p _ _ h3 h4; omega
  | succ fuel ih =>
    intro p hr h2 h3 h4 h5
    rw [walk.eq_def]
    simp only
    by_cases hlt : p.it < cnt E ((M + 1) * sm)
    · obtain ⟨hv, m', hi, hj⟩ := h5 hlt
      have h1 : M + 1 < v.filled1 := by
        by_cases c : v.filled1 ≤ M + 1
        · have a := h.cnt_closed hsm c
          have b := h.cnt_closed hsm (M := M + 1) (by omega)
          omega
        · omega
      obtain ⟨_, _, l1, l2, l3, l4⟩ := h.line hsm h1
      obtain ⟨m, w, k1, k2, _⟩ := l3 p.it h2 hlt
      obtain ⟨i1, i2, i3⟩ := h.index_at hsm dbg zero ax k1 hr hv k2 (h.notEnd_fast hsm dbg hf hr hi hj h1 (by omega))
      have hnext : v.next dbg o IB ax p = .ok { p with it := p.it + 1 } := by unfold next; rw [if_pos ⟨hr, hf⟩]
      rw [if_neg (by simp [iterEq, hr, he]; omega)]
      simp only [i1, i2, i3, hnext, bind_ok]
      rw [ih { p with it := p.it + 1 } hr (by simp only; omega) (by simp only; omega) (by simp only; omega) (fun _ => ⟨hv, m', hi, hj⟩)]
      simp only [bind_ok]
      congr 1
      have hel : (E.take (cnt E ((M + 1) * sm)))[p.it]? = some (M * sm + m, w) := by rw [List.getElem?_take, if_pos hlt]; exact k2
      obtain ⟨hl, hg⟩ := List.getElem?_eq_some_iff.1 hel
      rw [List.drop_eq_getElem_cons hl, hg, List.map_cons, key_mod k1]
    · have he' : p.it = cnt E ((M + 1) * sm) := by omega
      rw [if_pos (by simp [iterEq, hr, he, he']), List.drop_of_length_le (by rw [he', List.length_take]; omega), List.map_nil]

theorem walk_slow {o : Orient} {IB : Nat} {v : CMat α} {E s} (h : Core o IB v E s) {sm : Nat} (hsm : o.sizem v.size1 v.size2 = sm) (dbg : Bool) (zero : α) {ax : Axis} (hf : o.fast ax = false) {m : Nat} (hm : m < sm)
    {e : CMIter} (he : e.it = v.filled2) :
    ∀ (fuel : Nat) (p : CMIter) (M : Nat), p.rank = 1 → v.filled2 < fuel + p.it →
      ((p.it = v.filled2 ∧ ∀ k, M ≤ k → s (k * sm + m) = none) ∨
       (∃ M' w, M ≤ M' ∧ p.i = o.indexM M' m ∧ p.j = o.indexm M' m ∧ p.itv = M' ∧ E[p.it]? = some (M' * sm + m, w) ∧ ∀ k, M ≤ k → k < M' → s (k * sm + m) = none)) →
      ∃ L, walk dbg o IB zero v ax e fuel p = .ok L ∧
        L.Pairwise (fun a b => o.indexM a.1.1 a.1.2 < o.indexM b.1.1 b.1.2) ∧
        ∀ x, x ∈ L ↔ ∃ k w, M ≤ k ∧ s (k * sm + m) = some w ∧ x = ((o.indexM k m, o.indexm k m), w) := by
  intro fuel
  induction fuel with
  | zero =>
    intro p M hr h2 hp
    rcases hp with ⟨a, b⟩ | ⟨M', w, a1, a2, a3, a4, a5, a6⟩
    · omega
    · have := (h.inLine hsm hm a5).2.2.2; omega
  | succ fuel ih =>
    intro p M hr h2 hp
    rw [walk.eq_def]
    simp only
    rcases hp with ⟨a, b⟩ | ⟨M', w, a1, a2, a3, a4, a5, a6⟩
    · rw [if_pos (by simp [iterEq, hr, he, a])]
      refine ⟨[], rfl, List.Pairwise.nil, ?_⟩
      intro x
      constructor
      · intro hx; cases hx
      · rintro ⟨k, w, k1, k2, _⟩
        rw [b k k1] at k2; cases k2
    · obtain ⟨h1, q1, q2, q3⟩ := h.inLine hsm hm a5
      obtain ⟨i1, i2, i3⟩ := h.index_at hsm dbg zero ax hm hr a4 a5 (h.notEnd_slow hsm dbg hf hr a2 a3 (by omega))
      have hia : v.indexAlong dbg o IB ax p = .ok M' := by
        unfold indexAlong
        cases o <;> cases ax <;> first | exact i1 | exact i2 | cases hf
      have hle := h.le
      have hSM : o.sizeM v.size1 v.size2 ≤ v.size1 + v.size2 := by cases o <;> simp only [Orient.sizeM] <;> omega
      obtain ⟨p', e1, e2, e3⟩ := h.find_slow hsm hf hm v.rounds (M' + 1) (by simp only [rounds]; omega) (by simp only [rounds]; omega)
      have hnext : v.next dbg o IB ax p = .ok p' := by
        unfold next
        rw [if_neg (by rw [hf]; simp), hia, bind_ok, a2, a3, slow_set hf]
        simp only [if_pos hr]
        rw [hr]; exact e1
      have hge : p.it < p'.it := by
        rcases e3 with ⟨b1, _⟩ | ⟨M2, w2, b1, _, _, _, b5, _⟩
        · omega
        · refine Nat.lt_of_not_le fun hc => ?_
          have hk : M' * sm + m < M2 * sm + m := by
            have : (M' + 1) * sm ≤ M2 * sm := Nat.mul_le_mul_right _ b1
            rw [mul_succ'] at this; omega
          by_cases c : p'.it = p.it
          · rw [c, a5] at b5
            simp only [Option.some.injEq, Prod.mk.injEq] at b5; omega
          · have := h.rep.key_lt b5 a5 (by omega)
            simp only at this; omega
      obtain ⟨L, w1, w2, w3⟩ := ih p' (M' + 1) e2 (by omega) e3
      rw [if_neg (by simp [iterEq, hr, he]; omega)]
      simp only [i1, i2, i3, hnext, bind_ok, w1]
      refine ⟨_, rfl, ?_, ?_⟩
      · refine List.Pairwise.cons ?_ w2
        intro x hx
        obtain ⟨k, w', k1, _, rfl⟩ := (w3 x).1 hx
        simp only [indexM_pos]; omega
      · intro x
        rw [List.mem_cons, w3]
        constructor
        · rintro (rfl | ⟨k, w', k1, k2, rfl⟩)
          · exact ⟨M', w, a1, h.rep.some_of_getElem a5, rfl⟩
          · exact ⟨k, w', by omega, k2, rfl⟩
        · rintro ⟨k, w', k1, k2, rfl⟩
          by_cases c : k < M'
          · rw [a6 k k1 c] at k2; cases k2
          · by_cases c' : k = M'
            · subst c'
              rw [h.rep.some_of_getElem a5] at k2
              cases k2; exact Or.inl rfl
            · exact Or.inr ⟨k, w', by omega, k2, rfl⟩

/-- One inner loop: the elements whose outer index is `k`, by increasing inner index. -/
theorem inner_spec {o : Orient} {IB : Nat} {v : CMat α} {E s} (h : Core o IB v E s) (dbg : Bool) (zero : α) (ax : Axis) {p : CMIter} {k : Nat} (hk : k < along ax v.size1 v.size2)
    (hi : v.indexAlong dbg o IB ax p = .ok k) :
    ∃ b e L, v.innerBegin dbg o IB ax p = .ok b ∧ v.innerEnd dbg o IB ax p = .ok e ∧ walk dbg o IB zero v ax.other e (v.filled2 + 1) b = .ok L ∧
      L.Pairwise (fun a b => along ax.other a.1.1 a.1.2 < along ax.other b.1.1 b.1.2) ∧
      ∀ i j w, ((i, j), w) ∈ L ↔ along ax i j = k ∧ o.indexm i j < o.sizem v.size1 v.size2 ∧ s (o.indexM i j * o.sizem v.size1 v.size2 + o.indexm i j) = some w := by
  generalize hsm : o.sizem v.size1 v.size2 = sm at *
  have hSM : o.sizeM v.size1 v.size2 ≤ v.size1 + v.size2 := by cases o <;> simp only [Orient.sizeM] <;> omega
  cases hf : o.fast ax.other with
  | true =>
    -- the outer index is the line
    have e0 : setAlong ax 0 0 k = (o.indexM k 0, o.indexm k 0) := by cases o <;> cases ax <;> first | rfl | cases hf
    have e1 : setAlong ax v.size1 v.size2 k = (o.indexM k sm, o.indexm k sm) := by
      rw [← hsm]; cases o <;> cases ax <;> first | rfl | cases hf
    obtain ⟨b, b1, b2, b3, b4⟩ := h.find_fast_begin hsm hf (v.size1 + v.size2) k
    obtain ⟨e, c1, c2, c3⟩ := h.find_fast_end hsm hf (v.size1 + v.size2 + 1) k sm (Nat.le_refl _)
    have hbe : cnt E (k * sm) ≤ cnt E ((k + 1) * sm) := cnt_mono _ (Nat.mul_le_mul_right _ (by omega))
    have hel : cnt E ((k + 1) * sm) ≤ v.filled2 := by rw [← h.len]; exact cnt_le _ _
    refine ⟨b, e, _, by simp only [innerBegin, hi, bind_ok, e0, CMat.find, rounds]; exact b1, by simp only [innerEnd, hi, bind_ok, e1, CMat.find, rounds]; exact c1,
      walk_fast h hsm dbg zero hf c3 (v.filled2 + 1) b b2 (by omega) (by omega) (by omega) ?_, ?_, ?_⟩
    · intro hlt
      refine b4 (Nat.lt_of_not_le fun c => ?_)
      have := h.cnt_closed hsm c; omega
    · rw [List.pairwise_map]
      have hp : ((E.take (cnt E ((k + 1) * sm))).drop b.it).Pairwise (fun a b => a.1 < b.1) :=
        (h.rep.1.sublist (List.take_sublist _ _)).sublist (List.drop_sublist _ _)
      refine List.Pairwise.imp_of_mem ?_ hp
      intro x y hx hy hxy
      have hin : ∀ z ∈ (E.take (cnt E ((k + 1) * sm))).drop b.it, k * sm ≤ z.1 ∧ z.1 < (k + 1) * sm := by
        intro z hz
        obtain ⟨n, hn⟩ := List.mem_iff_getElem?.1 hz
        rw [List.getElem?_drop, List.getElem?_take] at hn
        by_cases c : b.it + n < cnt E ((k + 1) * sm)
        · rw [if_pos c] at hn
          obtain ⟨hl, hg⟩ := List.getElem?_eq_some_iff.1 hn
          have hs := h.segment k hl
          rw [hsm, hg] at hs
          exact ⟨hs.1.1 (by omega), hs.2.1 c⟩
        · rw [if_neg c] at hn; cases hn
      have hx' := hin x hx; have hy' := hin y hy
      have : ∀ M m, along ax.other (o.indexM M m) (o.indexm M m) = m := by
        intro M m; cases o <;> cases ax <;> first | rfl | cases hf
      simp only [this]
      rw [mod_in hx'.1 hx'.2, mod_in hy'.1 hy'.2]; omega
    · intro i j w
      have hal : along ax i j = o.indexM i j := by cases o <;> cases ax <;> first | rfl | cases hf
      rw [hal]
      constructor
      · intro hm
        obtain ⟨x, hx, ex⟩ := List.mem_map.1 hm
        obtain ⟨n, hn⟩ := List.mem_iff_getElem?.1 hx
        rw [List.getElem?_drop, List.getElem?_take] at hn
        by_cases c : b.it + n < cnt E ((k + 1) * sm)
        · rw [if_pos c] at hn
          obtain ⟨hl, hg⟩ := List.getElem?_eq_some_iff.1 hn
          have hs := h.segment k hl
          rw [hsm, hg] at hs
          have x1 := hs.1.1 (by omega)
          have x2 := hs.2.1 c
          simp only [Prod.mk.injEq] at ex
          obtain ⟨⟨rfl, rfl⟩, rfl⟩ := ex
          rw [indexM_pos, indexm_pos, mod_in x1 x2]
          have : k * sm + (x.1 - k * sm) = x.1 := by omega
          rw [this]
          rw [mul_succ'] at x2
          exact ⟨rfl, by omega, h.rep.some_of_getElem hn⟩
        · rw [if_neg c] at hn; cases hn
      · rintro ⟨h1, h2, h3⟩
        obtain ⟨n, hn⟩ := List.mem_iff_getElem?.1 ((h.rep.2 _ w).1 h3)
        obtain ⟨_, q1, q2, _⟩ := h.inLine hsm h2 hn
        rw [h1] at q1 q2
        refine List.mem_map.2 ⟨(o.indexM i j * sm + o.indexm i j, w), ?_, ?_⟩
        · refine List.mem_iff_getElem?.2 ⟨n - b.it, ?_⟩
          rw [List.getElem?_drop, List.getElem?_take, if_pos (by omega)]
          rw [show b.it + (n - b.it) = n by omega]; exact hn
        · simp only [key_mod h2, ← h1, indexM_pos, indexm_pos]
  | false =>
    -- the outer index is the minor one
    have hkm : k < sm := by
      have : along ax v.size1 v.size2 = o.sizem v.size1 v.size2 := by cases o <;> cases ax <;> first | rfl | cases hf
      omega
    have e0 : setAlong ax 0 0 k = (o.indexM 0 k, o.indexm 0 k) := by cases o <;> cases ax <;> first | rfl | cases hf
    have e1 : setAlong ax v.size1 v.size2 k = (o.indexM (o.sizeM v.size1 v.size2) k, o.indexm (o.sizeM v.size1 v.size2) k) := by
      cases o <;> cases ax <;> first | rfl | cases hf
    obtain ⟨b, b1, b2, b3⟩ := h.find_slow hsm hf hkm v.rounds 0 (by simp only [rounds]; omega) (by simp only [rounds]; omega)
    have c1 := findIt_closed o IB v ax.other true 1 (v.size1 + v.size2 + 1) (o.sizeM v.size1 v.size2) k h.le
    obtain ⟨L, w1, w2, w3⟩ := walk_slow h hsm dbg zero hf hkm (e := ⟨1, o.indexM (o.sizeM v.size1 v.size2) k, o.indexm (o.sizeM v.size1 v.size2) k,
      min (v.filled1 - 1) (o.sizeM v.size1 v.size2), v.filled2⟩) rfl (v.filled2 + 1) b 0 b2 (by omega) b3
    refine ⟨b, _, L, by simp only [innerBegin, hi, bind_ok, e0, CMat.find]; exact b1, by simp only [innerEnd, hi, bind_ok, e1, CMat.find, rounds]; exact c1, w1, ?_, ?_⟩
    · have : ∀ i j, along ax.other i j = o.indexM i j := by intro i j; cases o <;> cases ax <;> first | rfl | cases hf
      simp only [this]; exact w2
    · intro i j w
      have hal : along ax i j = o.indexm i j := by cases o <;> cases ax <;> first | rfl | cases hf
      rw [hal, w3]
      constructor
      · rintro ⟨q, w', _, q2, q3⟩
        simp only [Prod.mk.injEq] at q3
        obtain ⟨⟨rfl, rfl⟩, rfl⟩ := q3
        rw [indexM_pos, indexm_pos]
        exact ⟨rfl, hkm, q2⟩
      · rintro ⟨h1, h2, h3⟩
        rw [h1] at h3
        refine ⟨o.indexM i j, w, Nat.zero_le _, h3, ?_⟩
        rw [← h1, indexM_pos, indexm_pos]

/-- Storage-independent order of a nested traversal: by the outer index, then by the inner one. -/
def Lex (ax : Axis) (a b : (Nat × Nat) × α) : Prop :=
  along ax a.1.1 a.1.2 < along ax b.1.1 b.1.2 ∨ (along ax a.1.1 a.1.2 = along ax b.1.1 b.1.2 ∧ along ax.other a.1.1 a.1.2 < along ax.other b.1.1 b.1.2)

theorem find0' {o : Orient} {IB : Nat} {v : CMat α} {E s} (h : Core o IB v E s) (ax : Axis) (i j : Nat) :
    ∃ itv n, v.find o IB ax true 0 i j = .ok ⟨0, i, j, itv, n⟩ := by
  obtain ⟨itv, n, e, _⟩ := h.find0 rfl ax (v.size1 + v.size2 + 1) (o.indexM i j) (o.indexm i j)
  rw [indexM_pos, indexm_pos] at e
  exact ⟨itv, n, e⟩

theorem along_set (ax : Axis) (i j k : Nat) : along ax (setAlong ax i j k).1 (setAlong ax i j k).2 = k := by cases ax <;> rfl

theorem outer_spec {o : Orient} {IB : Nat} {v : CMat α} {E s} (h : Core o IB v E s) (dbg : Bool) (zero : α) (ax : Axis) {e : CMIter} (her : e.rank = 0)
    (he : (e.i, e.j) = setAlong ax 0 0 (along ax v.size1 v.size2)) :
    ∀ (fuel k : Nat) (p : CMIter), p.rank = 0 → (p.i, p.j) = setAlong ax 0 0 k → k ≤ along ax v.size1 v.size2 → along ax v.size1 v.size2 < fuel + k →
      ∃ L, walkOuter dbg o IB zero v ax e fuel p = .ok L ∧ L.Pairwise (Lex ax) ∧
        ∀ i j w, ((i, j), w) ∈ L ↔ (k ≤ along ax i j ∧ along ax i j < along ax v.size1 v.size2) ∧ o.indexm i j < o.sizem v.size1 v.size2 ∧
          s (o.indexM i j * o.sizem v.size1 v.size2 + o.indexm i j) = some w := by
  intro fuel
  induction fuel with
  | zero => intro k p _ _ h3 h4; omega
  | succ fuel ih =>
    intro k p hr hp hk hfu
    rw [walkOuter.eq_def]
    simp only
    have heq : iterEq p e = decide (k = along ax v.size1 v.size2) := by
      simp only [iterEq, hr, her]
      cases ax <;> simp only [setAlong, Prod.mk.injEq] at hp he <;> simp [hp, he]
    rw [heq]
    by_cases c : k = along ax v.size1 v.size2
    · rw [if_pos (by simpa using c)]
      refine ⟨[], rfl, List.Pairwise.nil, ?_⟩
      intro i j w
      constructor
      · intro hx; cases hx
      · rintro ⟨⟨a, b⟩, _⟩; omega
    · rw [if_neg (by simpa using c)]
      have hia : v.indexAlong dbg o IB ax p = .ok k := by
        have hne : v.notEnd dbg o IB ax p = .ok () := by
          unfold notEnd
          obtain ⟨itv, n, e'⟩ := find0' h ax (setAlong ax p.i p.j (along ax v.size1 v.size2)).1 (setAlong ax p.i p.j (along ax v.size1 v.size2)).2
          rw [e', bind_ok, check_true, ite_self]
          simp only [iterEq, hr]
          cases ax <;> simp only [setAlong, along, Prod.mk.injEq] at hp c ⊢ <;> simp [hp, c]
        unfold indexAlong index1 index2
        cases ax <;> simp only [hne, if_true, bind_ok, hr] <;> simp only [setAlong, Prod.mk.injEq] at hp <;> simp [hp]
      obtain ⟨b', e', L1, w1, w2, w3, w4, w5⟩ := inner_spec h dbg zero ax (by omega) hia
      have hnext : v.next dbg o IB ax p = .ok { p with i := (setAlong ax 0 0 (k + 1)).1, j := (setAlong ax 0 0 (k + 1)).2 } := by
        unfold next
        rw [if_neg (by rw [hr]; simp), hia, bind_ok]
        simp only [hr]
        cases ax <;> simp only [setAlong, Prod.mk.injEq] at hp ⊢ <;> simp [hp]
      obtain ⟨L2, x1, x2, x3⟩ := ih (k + 1) { p with i := (setAlong ax 0 0 (k + 1)).1, j := (setAlong ax 0 0 (k + 1)).2 } hr rfl (by omega) (by omega)
      simp only [w1, w2, w3, hnext, bind_ok, x1]
      refine ⟨_, rfl, ?_, ?_⟩
      · rw [List.pairwise_append]
        refine ⟨?_, x2, ?_⟩
        · refine List.Pairwise.imp_of_mem ?_ w4
          rintro ⟨⟨i, j⟩, w⟩ ⟨⟨i', j'⟩, w'⟩ ha hb hab
          have ha := ((w5 _ _ _).1 ha).1
          have hb := ((w5 _ _ _).1 hb).1
          exact Or.inr ⟨by simp only; omega, hab⟩
        · rintro ⟨⟨i, j⟩, w⟩ ha ⟨⟨i', j'⟩, w'⟩ hb
          have ha := ((w5 _ _ _).1 ha).1
          have hb := ((x3 _ _ _).1 hb).1
          exact Or.inl (by simp only; omega)
      · intro i j w
        rw [List.mem_append, w5, x3]
        constructor
        · rintro (⟨a, b⟩ | ⟨a, b⟩)
          · exact ⟨⟨by omega, by omega⟩, b⟩
          · exact ⟨⟨by omega, a.2⟩, b⟩
        · rintro ⟨a, b⟩
          by_cases c : along ax i j = k
          · exact Or.inl ⟨c, b⟩
          · exact Or.inr ⟨⟨by omega, a.2⟩, b⟩

end Ublas.CMat
