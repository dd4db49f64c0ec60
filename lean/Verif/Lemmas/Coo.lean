import Verif.Lemmas.CooSort
import Verif.Lemmas.CompressedVector
/-! Representation invariant of the coordinate containers and the effect of each operation on it. -/
namespace Ublas.Coo
open Search
variable {κ α : Type} [DecidableEq κ] [AddCommMonoid α]

/-- Parameters meeting their contracts. -/
structure ParOk (P : CooPar κ α) : Prop where
  ord : KeyOrd P.lt
  srt : SortOk P.lt P.srt
  search : ∀ (idx : List κ) (A : List (κ × α)) (k : κ), idx.take A.length = A.map (·.1) → Strict P.lt A →
    ∃ r, P.search idx A.length k = .ok r ∧ (∀ n, r = some n → ∃ h : n < A.length, A[n].1 = k) ∧ (r = none → k ∉ A.map (·.1))

structure Inv (P : CooPar κ α) (v : Coo κ α) (A : List (κ × α)) : Prop where
  idxLen : v.idx.length = v.cap
  valLen : v.val.length = v.cap
  len : A.length = v.filled
  holds : Holds v.idx v.val A
  sfLe : v.sortedFilled ≤ v.filled
  sorted : v.sorted = decide (v.sortedFilled = v.filled)
  strict : Strict P.lt (A.take v.sortedFilled)
  range : ∀ p ∈ A, P.inRange p.1 = true
  capMin : P.minCap ≤ v.cap

theorem Inv.fill {P : CooPar κ α} {v : Coo κ α} {A} (h : Inv P v A) : v.filled ≤ v.cap := by
  have := h.holds.len.1; rw [h.len, h.idxLen] at this; exact this

theorem Inv.invariants {P : CooPar κ α} {v : Coo κ α} {A} (h : Inv P v A) (dbg : Bool) : v.invariants dbg P = .ok () := by
  unfold Coo.invariants
  rw [check_true h.idxLen.symm, bind_ok, check_true h.valLen.symm, bind_ok, check_true h.fill, bind_ok, check_true h.sfLe, bind_ok,
    check_true h.sorted, bind_ok]
  split
  · rename_i hd
    have hlt : v.filled - 1 < A.length := by rw [h.len]; omega
    rw [rd_eq_ok.2 (h.holds.idxAt hlt), bind_ok, check_true]
    exact h.range _ (List.getElem_mem hlt)
  · rfl

/-- When everything is sorted. -/
theorem Inv.strictAll {P : CooPar κ α} {v : Coo κ α} {A} (h : Inv P v A) (hs : v.sorted = true) : Strict P.lt A := by
  have e : v.sortedFilled = v.filled := by have := h.sorted; rw [hs] at this; simpa using this.symm
  have := h.strict
  rwa [e, ← h.len, List.take_length] at this

theorem take_zip' {β γ : Type} (l : List β) (r : List γ) (n : Nat) : (l.zip r).take n = (l.take n).zip (r.take n) := by
  simp only [List.zip, List.take_zipWith]

theorem drop_zip' {β γ : Type} (l : List β) (r : List γ) (n : Nat) : (l.zip r).drop n = (l.drop n).zip (r.drop n) := by
  simp only [List.zip, List.drop_zipWith]

theorem zip_fst_snd {β γ : Type} (A : List (β × γ)) : (A.map (·.1)).zip (A.map (·.2)) = A := by
  induction A with
  | nil => rfl
  | cons p A ih => simp [ih]

theorem zip_take_drop (idx : List κ) (val : List α) (A : List (κ × α)) (h : Holds idx val A) : (idx.zip val).take A.length = A := by
  rw [take_zip', h.1, h.2]
  exact zip_fst_snd A

omit [AddCommMonoid α] in
theorem sortSegment_spec (srt : List (κ × α) → List (κ × α)) (idx : List κ) (val : List α) (A : List (κ × α)) (h : Holds idx val A)
    (hlen : idx.length = val.length) (a : Nat) (ha : a ≤ A.length) :
    sortSegment srt idx val a A.length = .ok ((A.take a ++ srt (A.drop a) ++ (idx.zip val).drop A.length).map (·.1),
      (A.take a ++ srt (A.drop a) ++ (idx.zip val).drop A.length).map (·.2)) := by
  have hz : (idx.zip val).take A.length = A := by
    rw [take_zip', h.1, h.2]; exact zip_fst_snd A
  unfold sortSegment
  rw [if_pos ⟨ha, h.len.1, h.len.2⟩]
  simp only [hz]
  have e1 : idx.take a = (A.take a).map (·.1) := by
    rw [List.map_take, ← h.1, List.take_take, Nat.min_eq_left ha]
  have e2 : val.take a = (A.take a).map (·.2) := by
    rw [List.map_take, ← h.2, List.take_take, Nat.min_eq_left ha]
  have e3 : idx.drop A.length = ((idx.zip val).drop A.length).map (·.1) := by
    rw [drop_zip', List.map_fst_zip (by simp; omega)]
  have e4 : val.drop A.length = ((idx.zip val).drop A.length).map (·.2) := by
    rw [drop_zip', List.map_snd_zip (by simp; omega)]
  rw [e1, e2, e3, e4]
  simp

theorem sort_spec {P : CooPar κ α} (hP : ParOk P) (dbg : Bool) {v : Coo κ α} {A} (h : Inv P v A) :
    ∃ v' B, v.sort dbg P = .ok v' ∧ Inv P v' B ∧ v'.sorted = true ∧ collect B = collect A ∧ v'.cap = v.cap ∧ v'.filled ≤ v.filled := by
  unfold Coo.sort
  by_cases hc : v.sorted = false ∧ v.filled > 0
  · rw [if_pos hc]
    have hA0 : 0 < A.length := by rw [h.len]; exact hc.2
    have hsf : v.sortedFilled ≤ A.length := by rw [h.len]; exact h.sfLe
    have hil : v.idx.length = v.val.length := by rw [h.idxLen, h.valLen]
    -- both ways of sorting give a sorted permutation in the first cells
    have key : ∃ (B S : List (κ × α)), B.Perm A ∧ Sorted P.lt B ∧ (B ++ S).length = v.cap ∧
        (if P.full = false then (do
            let q ← sortSegment P.srt v.idx v.val v.sortedFilled v.filled
            inplaceMerge dbg P.lt v.filled q.1 q.2 0 v.sortedFilled v.filled : M (List κ × List α))
          else sortSegment P.srt v.idx v.val 0 v.filled) = .ok ((B ++ S).map (·.1), (B ++ S).map (·.2)) := by
      have hSl : ((v.idx.zip v.val).drop A.length).length = v.cap - A.length := by
        simp [h.idxLen, h.valLen]
      have hle : A.length ≤ v.cap := by rw [h.len]; exact h.fill
      by_cases hf : P.full = false
      · rw [if_pos hf]
        have e := sortSegment_spec P.srt v.idx v.val A h.holds hil v.sortedFilled hsf
        rw [h.len] at e
        rw [e, bind_ok]
        obtain ⟨hp, hs⟩ := hP.srt (A.drop v.sortedFilled)
        have hl2 : (P.srt (A.drop v.sortedFilled)).length = v.filled - v.sortedFilled := by rw [hp.length_eq]; simp [h.len]
        have hl1 : (A.take v.sortedFilled).length = v.sortedFilled := by simp; omega
        obtain ⟨B, b1, b2, b3⟩ := inplaceMerge_spec dbg P.lt hP.ord v.filled [] (A.take v.sortedFilled) (P.srt (A.drop v.sortedFilled))
          ((v.idx.zip v.val).drop v.filled) (by rw [hl1, hl2]; have := h.sfLe; omega) (hP.ord.sorted_of_strict h.strict) hs
        simp only [List.nil_append, List.length_nil, Nat.zero_add, hl1, hl2] at b1
        rw [show v.sortedFilled + (v.filled - v.sortedFilled) = v.filled by have := h.sfLe; omega] at b1
        have hpA : B.Perm A := by
          have := b2.trans (hp.append_left (A.take v.sortedFilled))
          rwa [List.take_append_drop] at this
        refine ⟨B, (v.idx.zip v.val).drop v.filled, hpA, b3, ?_, b1⟩
        rw [List.length_append, hpA.length_eq, ← h.len, hSl]; omega
      · rw [if_neg hf]
        have e := sortSegment_spec P.srt v.idx v.val A h.holds hil 0 (Nat.zero_le _)
        rw [h.len] at e
        simp only [List.take_zero, List.nil_append, List.drop_zero] at e
        obtain ⟨hp, hs⟩ := hP.srt A
        refine ⟨P.srt A, (v.idx.zip v.val).drop v.filled, hp, hs, ?_, e⟩
        rw [List.length_append, hp.length_eq, ← h.len, hSl]; omega
    obtain ⟨B, S, k1, k2, k3, k4⟩ := key
    rw [k4, bind_ok]
    have hBA : B.length = v.filled := by rw [k1.length_eq, h.len]
    have hH : Holds ((B ++ S).map (·.1)) ((B ++ S).map (·.2)) B := by
      constructor <;> simp
    obtain ⟨s, D, s1, s2, s3, s4, s5, s6, s7, s8, s9⟩ := sum_spec dbg P.lt hP.ord _ _ B hH k2 (by omega)
    rw [hBA] at s1
    simp only [s1, bind_ok]
    have hr : Inv P ⟨v.cap, s.2.2 + 1, s.2.2 + 1, true, s.1, s.2.1⟩ D :=
      { idxLen := by simp only; rw [s2, List.length_map, k3], valLen := by simp only; rw [s3, List.length_map, k3]
        len := s5, holds := s4, sfLe := Nat.le_refl _, sorted := by simp
        strict := by simp only; rw [← s5, List.take_length]; exact s7
        range := by
          intro p hp
          obtain ⟨q, hq, e⟩ := List.mem_map.1 (s9 p hp)
          rw [← e]; exact h.range q (k1.mem_iff.1 hq)
        capMin := h.capMin }
    refine ⟨_, D, by rw [hr.invariants dbg]; rfl, hr, rfl, ?_, rfl, by simp only; omega⟩
    rw [s8, collect_perm k1]
  · rw [if_neg hc]
    refine ⟨v, A, rfl, h, ?_, rfl, rfl, Nat.le_refl _⟩
    cases hs : v.sorted with
    | true => rfl
    | false =>
      have h0 : v.filled = 0 := by
        rcases Nat.eq_zero_or_pos v.filled with e | e
        · exact e
        · exact absurd ⟨hs, e⟩ hc
      have := h.sorted; have h1 := h.sfLe
      rw [hs] at this
      simp at this; omega

theorem inv_empty {P : CooPar κ α} (cap : Nat) (idx : List κ) (val : List α) (h1 : idx.length = cap) (h2 : val.length = cap) (hm : P.minCap ≤ cap) :
    Inv P ⟨cap, 0, 0, true, idx, val⟩ [] :=
  { idxLen := h1, valLen := h2, len := rfl, holds := ⟨by simp, by simp⟩, sfLe := Nat.le_refl _, sorted := by simp
    strict := by simp [Strict], range := by simp, capMin := hm }

/-- `reserve (n, true)` in full: sort, then keep the first `max n minCap` elements. -/
theorem reserveTrue_spec {P : CooPar κ α} (hP : ParOk P) (dbg : Bool) (zero : α) (junk : Junk κ α) {v : Coo κ α} {A} (h : Inv P v A) (n : Nat) :
    ∃ v' B, v.reserve dbg P zero junk n true = .ok v' ∧ Inv P v' (B.take (restrictCapacity P n)) ∧ v'.sorted = true ∧ Strict P.lt B ∧
      collect B = collect A ∧ v'.cap = restrictCapacity P n ∧ B.length ≤ v.filled := by
  obtain ⟨v1, B, e1, h1, h2, h3, h4, h5⟩ := sort_spec hP dbg h
  have hst := h1.strictAll h2
  have hsf : v1.sortedFilled = v1.filled := by have := h1.sorted; rw [h2] at this; simpa using this.symm
  have hmin : (B.take (restrictCapacity P n)).length = min (restrictCapacity P n) v1.filled := by rw [List.length_take, h1.len]
  have htk : B.take (restrictCapacity P n) = B.take (min (restrictCapacity P n) v1.filled) := by
    rw [← h1.len]
    rcases Nat.le_total (restrictCapacity P n) B.length with hle | hle
    · rw [Nat.min_eq_left hle]
    · rw [Nat.min_eq_right hle, List.take_length, List.take_of_length_le hle]
  have hfl := h1.fill
  have hr : Inv P ⟨restrictCapacity P n, min (restrictCapacity P n) v1.filled, min (restrictCapacity P n) v1.filled, v1.sorted,
      resizeInit v1.idx (restrictCapacity P n) P.key0, resizeInit v1.val (restrictCapacity P n) zero⟩ (B.take (restrictCapacity P n)) :=
    { idxLen := CVec.length_resizeInit _ _ _, valLen := CVec.length_resizeInit _ _ _, len := hmin
      holds := by
        constructor
        · simp only
          rw [hmin, CVec.take_resizeInit _ _ _ _ (Nat.min_le_left _ _) (by rw [h1.idxLen]; omega), htk, List.map_take, ← h1.holds.1,
            List.take_take, h1.len, Nat.min_eq_left (Nat.min_le_right _ _)]
        · simp only
          rw [hmin, CVec.take_resizeInit _ _ _ _ (Nat.min_le_left _ _) (by rw [h1.valLen]; omega), htk, List.map_take, ← h1.holds.2,
            List.take_take, h1.len, Nat.min_eq_left (Nat.min_le_right _ _)]
      sfLe := Nat.le_refl _, sorted := by simp [h2]
      strict := (hst.sublist (List.take_sublist _ _)).sublist (List.take_sublist _ _)
      range := fun p hp => h1.range p (List.mem_of_mem_take hp)
      capMin := Nat.le_max_right _ _ }
  refine ⟨_, B, ?_, hr, h2, hst, h3, rfl, by rw [h1.len]; exact h5⟩
  unfold Coo.reserve
  rw [if_pos (Or.inl rfl), e1, bind_ok]
  simp only [if_true, hr.invariants dbg, bind_ok]

/-- Making room for one more element. -/
theorem grow_spec {P : CooPar κ α} (hP : ParOk P) (dbg : Bool) (zero : α) (junk : Junk κ α) {v : Coo κ α} {A} (h : Inv P v A) (hmin : 0 < P.minCap) :
    ∃ v' B, (if v.filled ≥ v.cap then v.reserve dbg P zero junk (2 * v.filled) true else .ok v : M (Coo κ α)) = .ok v' ∧ Inv P v' B ∧
      collect B = collect A ∧ v'.filled < v'.cap ∧ (v.sorted = true → v'.sorted = true) := by
  by_cases hf : v.filled ≥ v.cap
  · rw [if_pos hf]
    have hcm := h.capMin
    obtain ⟨v', B, e, h1, h2, h3, h4, h5, h6⟩ := reserveTrue_spec hP dbg zero junk h (2 * v.filled)
    have hle : v.filled < restrictCapacity P (2 * v.filled) := by unfold restrictCapacity; omega
    rw [List.take_of_length_le (by omega)] at h1
    exact ⟨v', B, e, h1, h4, by rw [← h1.len, h5]; omega, fun _ => h2⟩
  · rw [if_neg hf]
    exact ⟨v, A, rfl, h, rfl, by omega, id⟩

omit [DecidableEq κ] [AddCommMonoid α] in
theorem holds_snoc {idx : List κ} {val : List α} {A : List (κ × α)} (h : Holds idx val A) (k : κ) (t : α) (h1 : A.length < idx.length) (h2 : A.length < val.length) :
    Holds (idx.set A.length k) (val.set A.length t) (A ++ [(k, t)]) := by
  constructor
  · have := take_set_snoc idx (A.map (·.1)) k (by rw [List.length_map]; exact h.1) (by simpa using h1)
    simpa using this
  · have := take_set_snoc val (A.map (·.2)) t (by rw [List.length_map]; exact h.2) (by simpa using h2)
    simpa using this

theorem append_spec {P : CooPar κ α} (hP : ParOk P) (dbg : Bool) (zero : α) (junk : Junk κ α) {v : Coo κ α} {A} (h : Inv P v A) (hmin : 0 < P.minCap)
    (k : κ) (t : α) (hk : P.inRange k = true) :
    ∃ v' B, v.append dbg P zero junk k t = .ok v' ∧ Inv P v' (B ++ [(k, t)]) ∧ collect B = collect A ∧ v'.sorted = false := by
  obtain ⟨v1, B, e, h1, h2, h3, _⟩ := grow_spec hP dbg zero junk h hmin
  have hlen := h1.len
  have hr : Inv P ⟨v1.cap, v1.filled + 1, v1.sortedFilled, false, v1.idx.set v1.filled k, v1.val.set v1.filled t⟩ (B ++ [(k, t)]) :=
    { idxLen := by simpa using h1.idxLen, valLen := by simpa using h1.valLen, len := by simp [hlen]
      holds := by
        have := holds_snoc h1.holds k t (by rw [h1.idxLen, hlen]; exact h3) (by rw [h1.valLen, hlen]; exact h3)
        rwa [hlen] at this
      sfLe := by have := h1.sfLe; simp only; omega
      sorted := by have := h1.sfLe; simp; omega
      strict := by
        have := h1.sfLe
        rw [List.take_append_of_le_length (by simp only; omega)]; exact h1.strict
      range := by
        intro p hp
        rcases List.mem_append.1 hp with e | e
        · exact h1.range p e
        · simp only [List.mem_singleton] at e; subst e; exact hk
      capMin := h1.capMin }
  refine ⟨_, B, ?_, hr, h2, rfl⟩
  unfold Coo.append
  rw [e, bind_ok, check_true h3, bind_ok, wr_ok (by rw [h1.idxLen]; exact h3), bind_ok, wr_ok (by rw [h1.valLen]; exact h3), bind_ok]
  simp only [hr.invariants dbg, bind_ok]

/-- `find` decides whether the index is stored. -/
theorem find_spec {P : CooPar κ α} (hP : ParOk P) (dbg : Bool) {v : Coo κ α} {A} (h : Inv P v A) (k : κ) :
    ∃ v' B r, v.find dbg P k = .ok (v', r) ∧ Inv P v' B ∧ v'.sorted = true ∧ Strict P.lt B ∧ collect B = collect A ∧
      ((∃ n w, r = some n ∧ B[n]? = some (k, w) ∧ collect A k = some w) ∨ (r = none ∧ collect A k = none)) := by
  obtain ⟨v1, B, e1, h1, h2, h3, h4, h5⟩ := sort_spec hP dbg h
  have hst := h1.strictAll h2
  obtain ⟨r, r1, r2, r3⟩ := hP.search v1.idx B k h1.holds.1 hst
  rw [h1.len] at r1
  refine ⟨v1, B, r, by simp only [Coo.find, e1, r1, bind_ok], h1, h2, hst, h3, ?_⟩
  cases r with
  | some n =>
    obtain ⟨hn, e⟩ := r2 n rfl
    left
    refine ⟨n, B[n].2, rfl, ?_, ?_⟩
    · rw [List.getElem?_eq_getElem hn, ← e]
    · rw [← h3]; exact (collect_mem_strict hP.ord hst k _).2 (by rw [← e]; exact List.getElem_mem hn)
  | none =>
    right
    exact ⟨rfl, by rw [← h3]; exact (collect_eq_none B k).2 (r3 rfl)⟩

theorem get_spec {P : CooPar κ α} (hP : ParOk P) (dbg : Bool) (zero : α) {v : Coo κ α} {A} (h : Inv P v A) (k : κ) :
    ∃ v' B, v.get dbg P zero k = .ok (v', (collect A k).getD zero) ∧ Inv P v' B ∧ v'.sorted = true ∧ collect B = collect A := by
  obtain ⟨v1, B, r, e, h1, h2, h3, h4, h5⟩ := find_spec hP dbg h k
  refine ⟨v1, B, ?_, h1, h2, h4⟩
  unfold Coo.get
  rw [e, bind_ok]
  rcases h5 with ⟨n, w, rfl, h6, h7⟩ | ⟨rfl, h6⟩
  · have hn : n < B.length := (List.getElem?_eq_some_iff.1 h6).1
    have := h1.holds.valAt hn
    rw [List.getElem?_eq_getElem hn] at h6
    simp only [Option.some.injEq] at h6
    rw [h6] at this
    simp only [rd_eq_ok.2 this, bind_ok, h7]; rfl
  · simp only [h6]; rfl

theorem insert_spec {P : CooPar κ α} (hP : ParOk P) (dbg : Bool) (zero : α) (junk : Junk κ α) {v : Coo κ α} {A} (h : Inv P v A) (hmin : 0 < P.minCap)
    (k : κ) (t : α) (hk : P.inRange k = true) (hn : collect A k = none) :
    ∃ v' B, v.insert dbg P zero junk k t = .ok v' ∧ Inv P v' (B ++ [(k, t)]) ∧ collect B = collect A ∧ v'.sorted = false := by
  unfold Coo.insert
  cases dbg with
  | true =>
    obtain ⟨v1, B, r, e, h1, h2, h3, h4, h5⟩ := find_spec hP true h k
    rcases h5 with ⟨n, w, rfl, h6, h7⟩ | ⟨rfl, h6⟩
    · rw [hn] at h7; simp at h7
    · obtain ⟨v2, C, g1, g2, g3, g4⟩ := append_spec hP true zero junk h1 hmin k t hk
      refine ⟨v2, C, ?_, g2, by rw [g3, h4], g4⟩
      simp [e, g1]
  | false =>
    obtain ⟨v2, C, g1, g2, g3, g4⟩ := append_spec hP false zero junk h hmin k t hk
    exact ⟨v2, C, by simp [g1], g2, g3, g4⟩

theorem collect_snoc_fresh (A : List (κ × α)) (k : κ) (t : α) (hn : collect A k = none) (j : κ) :
    collect (A ++ [(k, t)]) j = if j = k then some t else collect A j := by
  rw [collect_append_single, hn]; simp

theorem Inv.setAt {P : CooPar κ α} {v : Coo κ α} {A} (h : Inv P v A) {n : Nat} {k : κ} {w : α} (hn : A[n]? = some (k, w)) (t : α) :
    Inv P { v with val := v.val.set n t } (A.set n (k, t)) := by
  obtain ⟨hl, hv⟩ := List.getElem?_eq_some_iff.1 hn
  have hkeys : (A.set n (k, t)).map (·.1) = A.map (·.1) := by
    rw [List.map_set]
    apply List.ext_getElem?; intro j
    rw [List.getElem?_set]
    split
    · rename_i e; subst e; simp [hl, hv]
    · rfl
  exact
    { idxLen := h.idxLen, valLen := by simpa using h.valLen, len := by simpa using h.len
      holds := by
        refine ⟨by rw [hkeys, List.length_set]; exact h.holds.1, ?_⟩
        rw [List.map_set, List.length_set]; simp only; rw [List.take_set, h.holds.2]
      sfLe := h.sfLe, sorted := h.sorted
      strict := by
        have := h.strict
        unfold Strict at this ⊢
        rw [← List.pairwise_map (f := fun p : κ × α => p.1) (R := fun a b => P.lt a b = true)] at this ⊢
        rw [List.map_take, hkeys, ← List.map_take]; exact this
      range := by
        intro p hp
        have : p.1 ∈ (A.set n (k, t)).map (·.1) := List.mem_map.2 ⟨p, hp, rfl⟩
        rw [hkeys] at this
        obtain ⟨q, hq, e⟩ := List.mem_map.1 this
        rw [← e]; exact h.range q hq
      capMin := h.capMin }

theorem collect_set_strict {lt : κ → κ → Bool} (ho : KeyOrd lt) {A : List (κ × α)} (hs : Strict lt A) {n : Nat} {k : κ} {w : α} (hn : A[n]? = some (k, w))
    (t : α) (j : κ) : collect (A.set n (k, t)) j = if j = k then some t else collect A j := by
  obtain ⟨hl, hv⟩ := List.getElem?_eq_some_iff.1 hn
  have hA : A = A.take n ++ (k, w) :: A.drop (n + 1) := by
    rw [← hv, ← List.drop_eq_getElem_cons hl, List.take_append_drop]
  have hset : A.set n (k, t) = A.take n ++ (k, t) :: A.drop (n + 1) := by
    rw [List.set_eq_take_append_cons_drop, if_pos hl]
  have hs1 : Strict lt (A.take n ++ (k, w) :: A.drop (n + 1)) := by rw [← hA]; exact hs
  have hs2 : Strict lt (A.take n ++ (k, t) :: A.drop (n + 1)) := by
    unfold Strict at hs1 ⊢
    rw [← List.pairwise_map (f := fun p : κ × α => p.1) (R := fun a b => lt a b = true)] at hs1 ⊢
    simpa using hs1
  rw [hset, collect_of_strict ho hs2]
  by_cases e : j = k
  · rw [if_pos e, if_pos e]
  · rw [if_neg e, if_neg e]
    conv_rhs => rw [hA]
    rw [collect_of_strict ho hs1, if_neg e]

theorem modify_spec {P : CooPar κ α} (hP : ParOk P) (dbg : Bool) (zero : α) (junk : Junk κ α) {v : Coo κ α} {A} (h : Inv P v A) (hmin : 0 < P.minCap)
    (k : κ) (f : α → α) (hk : P.inRange k = true) :
    ∃ v' B, v.modify dbg P zero junk k f = .ok v' ∧ Inv P v' B ∧
      (∀ j, collect B j = if j = k then some (f ((collect A k).getD zero)) else collect A j) ∧ v'.sorted = (collect A k).isSome := by
  obtain ⟨v1, B, r, e, h1, h2, h3, h4, h5⟩ := find_spec hP dbg h k
  unfold Coo.modify
  rw [e, bind_ok]
  rcases h5 with ⟨n, w, rfl, h6, h7⟩ | ⟨rfl, h6⟩
  · have hn : n < B.length := (List.getElem?_eq_some_iff.1 h6).1
    have hval := h1.holds.valAt hn
    have h6' := h6
    rw [List.getElem?_eq_getElem hn] at h6'
    simp only [Option.some.injEq] at h6'
    rw [h6'] at hval
    have hlen : n < v1.val.length := (List.getElem?_eq_some_iff.1 hval).1
    refine ⟨{ v1 with val := v1.val.set n (f w) }, B.set n (k, f w), ?_, h1.setAt h6 (f w), ?_, ?_⟩
    · simp only [bind_ok, rd_eq_ok.2 hval, wr_ok hlen]
    · intro j
      rw [collect_set_strict hP.ord h3 h6, h7, h4]; rfl
    · simp [h2, h7]
  · obtain ⟨v2, C, g1, g2, g3, g4⟩ := insert_spec hP dbg zero junk h1 hmin k zero hk (by rw [h4]; exact h6)
    have hlen2 : v2.filled - 1 = C.length := by rw [← g2.len]; simp
    have hg : (C ++ [(k, zero)])[C.length]? = some (k, zero) := by simp
    have hval := g2.holds.valAt (n := C.length) (by simp)
    simp only [List.getElem_append_right (Nat.le_refl _), Nat.sub_self, List.getElem_singleton] at hval
    have hlen : C.length < v2.val.length := (List.getElem?_eq_some_iff.1 hval).1
    refine ⟨{ v2 with val := v2.val.set C.length (f zero) }, (C ++ [(k, zero)]).set C.length (k, f zero), ?_, g2.setAt hg (f zero), ?_, ?_⟩
    · simp only [g1, bind_ok, hlen2, rd_eq_ok.2 hval, wr_ok hlen]
    · intro j
      have : (C ++ [(k, zero)]).set C.length (k, f zero) = C ++ [(k, f zero)] := by simp
      rw [this, collect_snoc_fresh _ _ _ (by rw [g3, h4]; exact h6), h6, g3, h4]; rfl
    · simp [g4, h6]

theorem erase_spec {P : CooPar κ α} (hP : ParOk P) (dbg : Bool) {v : Coo κ α} {A} (h : Inv P v A) (k : κ) :
    ∃ v' B, v.erase dbg P k = .ok v' ∧ Inv P v' B ∧ (∀ j, collect B j = if j = k then none else collect A j) ∧ v'.sorted = true := by
  obtain ⟨v1, B, r, e, h1, h2, h3, h4, h5⟩ := find_spec hP dbg h k
  unfold Coo.erase
  rw [e, bind_ok]
  have hsf : v1.sortedFilled = v1.filled := by have := h1.sorted; rw [h2] at this; simpa using this.symm
  rcases h5 with ⟨n, w, rfl, h6, h7⟩ | ⟨rfl, h6⟩
  · obtain ⟨hn, hv⟩ := List.getElem?_eq_some_iff.1 h6
    have hB : B = B.take n ++ (k, w) :: B.drop (n + 1) := by
      rw [← hv, ← List.drop_eq_getElem_cons hn, List.take_append_drop]
    have hlen := h1.len
    have hfl := h1.fill
    obtain ⟨a1, ha1, ha2, ha3⟩ := erase_prefix v1.idx n v1.filled (by omega) (by rw [h1.idxLen]; exact hfl)
    obtain ⟨b1, hb1, hb2, hb3⟩ := erase_prefix v1.val n v1.filled (by omega) (by rw [h1.valLen]; exact hfl)
    have hlenE : (B.take n ++ B.drop (n + 1)).length = v1.filled - 1 := by simp; omega
    have hst : Strict P.lt (B.take n ++ B.drop (n + 1)) := by
      have hs1 : Strict P.lt (B.take n ++ (k, w) :: B.drop (n + 1)) := by rw [← hB]; exact h3
      exact hs1.sublist (List.Sublist.append_left (List.sublist_cons_self _ _) _)
    have hr : Inv P ⟨v1.cap, v1.filled - 1, v1.filled - 1, v1.sorted, a1, b1⟩ (B.take n ++ B.drop (n + 1)) :=
      { idxLen := by simp only; rw [ha2, h1.idxLen], valLen := by simp only; rw [hb2, h1.valLen], len := hlenE
        holds := by
          constructor
          · rw [hlenE]; simp only; rw [ha3, ← hlen, h1.holds.1]; simp [List.map_take, List.map_drop]
          · rw [hlenE]; simp only; rw [hb3, ← hlen, h1.holds.2]; simp [List.map_take, List.map_drop]
        sfLe := Nat.le_refl _, sorted := by simp [h2]
        strict := hst.sublist (List.take_sublist _ _)
        range := by
          intro p hp
          rcases List.mem_append.1 hp with e | e
          · exact h1.range p (List.mem_of_mem_take e)
          · exact h1.range p (List.mem_of_mem_drop e)
        capMin := h1.capMin }
    refine ⟨_, _, ?_, hr, ?_, h2⟩
    · simp only [ha1, hb1, bind_ok, hr.invariants dbg]
    · intro j
      have hs1 : Strict P.lt (B.take n ++ (k, w) :: B.drop (n + 1)) := by rw [← hB]; exact h3
      have := collect_of_strict hP.ord hs1 j
      rw [← hB, h4] at this
      by_cases e : j = k
      · rw [if_pos e, e, collect_eq_none]
        intro hm
        obtain ⟨p, hp, ep⟩ := List.mem_map.1 hm
        have hs' := List.pairwise_append.1 hs1
        rcases List.mem_append.1 hp with q | q
        · have := hs'.2.2 p q (k, w) (by simp)
          rw [ep, hP.ord.irrefl] at this; simp at this
        · have := (List.pairwise_cons.1 hs'.2.1).1 p q
          rw [ep, hP.ord.irrefl] at this; simp at this
      · rw [if_neg e] at this ⊢; exact this.symm
  · refine ⟨v1, B, by simp only [bind_ok, h1.invariants dbg], h1, ?_, h2⟩
    intro j; rw [h4]
    split
    · rename_i e; rw [e, h6]
    · rfl

theorem clear_spec {P : CooPar κ α} (dbg : Bool) {v : Coo κ α} {A} (h : Inv P v A) :
    ∃ v', v.clear dbg P = .ok v' ∧ Inv P v' [] ∧ v'.sorted = true := by
  have hr := inv_empty (P := P) v.cap v.idx v.val h.idxLen h.valLen h.capMin
  exact ⟨_, by simp only [Coo.clear, hr.invariants dbg, bind_ok], hr, rfl⟩

theorem reserveFalse_spec {P : CooPar κ α} (hP : ParOk P) (dbg : Bool) (zero : α) (junk : Junk κ α) {v : Coo κ α} {A} (h : Inv P v A) (n : Nat)
    (hs : P.sortAlways = true ∨ v.sorted = true) :
    ∃ v', v.reserve dbg P zero junk n false = .ok v' ∧ Inv P v' [] ∧ v'.sorted = true := by
  have hfin : ∀ v1 : Coo κ α, v1.sorted = true →
      Inv P ⟨restrictCapacity P n, 0, 0, v1.sorted, resizeRaw junk.1 v1.idx (restrictCapacity P n), resizeRaw junk.2 v1.val (restrictCapacity P n)⟩ [] := by
    intro v1 h1; rw [h1]
    exact inv_empty _ _ _ (CVec.length_resizeRaw _ _ _) (CVec.length_resizeRaw _ _ _) (Nat.le_max_right _ _)
  unfold Coo.reserve
  rcases Bool.eq_false_or_eq_true P.sortAlways with hsa | hsa
  · obtain ⟨v1, B, e1, h1, h2, h3, h4, h5⟩ := sort_spec hP dbg h
    have hr := hfin v1 h2
    refine ⟨_, ?_, hr, h2⟩
    simp only [hsa, or_true, if_true, e1, bind_ok, Bool.false_eq_true, if_false, hr.invariants dbg]
  · have h2 : v.sorted = true := by rcases hs with e | e; · rw [hsa] at e; simp at e
                                    · exact e
    have hr := hfin v h2
    refine ⟨_, ?_, hr, h2⟩
    simp only [hsa, Bool.false_eq_true, or_self, if_false, bind_ok, hr.invariants dbg]

theorem pushBack_spec {P : CooPar κ α} (hP : ParOk P) (dbg : Bool) (zero : α) (junk : Junk κ α) {v : Coo κ α} {A} (h : Inv P v A) (hmin : 0 < P.minCap)
    (k : κ) (t : α) (hk : P.inRange k = true) (hs : v.sorted = true) (hlast : ∀ j, collect A j ≠ none → P.lt j k = true) :
    ∃ v' B, v.pushBack dbg P zero junk k t = .ok v' ∧ Inv P v' B ∧ (∀ j, collect B j = if j = k then some t else collect A j) ∧ v'.sorted = true := by
  have hst := h.strictAll hs
  have hA : ∀ p ∈ A, P.lt p.1 k = true := by
    intro p hp
    refine hlast p.1 ?_
    rw [(collect_mem_strict hP.ord hst p.1 p.2).2 hp]; simp
  have hfirst : (if dbg = true ∧ v.filled ≠ 0 then (do
      let x ← rd dbg v.idx (v.filled - 1)
      check dbg (P.lt x k = true) .externalLogic : M Unit) else .ok ()) = .ok () := by
    split
    · rename_i hc
      have hlt : v.filled - 1 < A.length := by rw [h.len]; omega
      rw [rd_eq_ok.2 (h.holds.idxAt hlt), bind_ok, check_true]
      exact hA _ (List.getElem_mem hlt)
    · rfl
  obtain ⟨v1, B, e, h1, h2, h3, h4⟩ := grow_spec hP dbg zero junk h hmin
  have hs1 := h4 hs
  have hstB := h1.strictAll hs1
  have hB : ∀ p ∈ B, P.lt p.1 k = true := by
    intro p hp
    refine hlast p.1 ?_
    rw [← h2, (collect_mem_strict hP.ord hstB p.1 p.2).2 hp]; simp
  have hlen := h1.len
  have hr : Inv P ⟨v1.cap, v1.filled + 1, v1.filled + 1, v1.sorted, v1.idx.set v1.filled k, v1.val.set v1.filled t⟩ (B ++ [(k, t)]) :=
    { idxLen := by simpa using h1.idxLen, valLen := by simpa using h1.valLen, len := by simp [hlen]
      holds := by
        have := holds_snoc h1.holds k t (by rw [h1.idxLen, hlen]; exact h3) (by rw [h1.valLen, hlen]; exact h3)
        rwa [hlen] at this
      sfLe := Nat.le_refl _
      sorted := by simp [hs1]
      strict := by
        have : Strict P.lt (B ++ [(k, t)]) := by
          refine List.pairwise_append.2 ⟨hstB, by simp, ?_⟩
          intro a ha b hb
          simp only [List.mem_singleton] at hb; subst hb; exact hB a ha
        exact this.sublist (List.take_sublist _ _)
      range := by
        intro p hp
        rcases List.mem_append.1 hp with e | e
        · exact h1.range p e
        · simp only [List.mem_singleton] at e; subst e; exact hk
      capMin := h1.capMin }
  have hfresh : collect B k = none := by
    rw [collect_eq_none]; intro hm
    obtain ⟨p, hp, ep⟩ := List.mem_map.1 hm
    have := hB p hp
    rw [ep, hP.ord.irrefl] at this; simp at this
  refine ⟨_, _, ?_, hr, fun j => by rw [collect_snoc_fresh _ _ _ hfresh, h2], hs1⟩
  unfold Coo.pushBack
  rw [check_true hs, bind_ok, hfirst, bind_ok, e, bind_ok, check_true h3, bind_ok, wr_ok (by rw [h1.idxLen]; exact h3), bind_ok,
    wr_ok (by rw [h1.valLen]; exact h3), bind_ok]
  simp only [hr.invariants dbg, bind_ok]

/-- `pop_back` on a sorted container with at least two elements. -/
theorem popBack_spec {P : CooPar κ α} (hP : ParOk P) (dbg : Bool) {v : Coo κ α} {A} (h : Inv P v A) (hs : v.sorted = true) (h2 : 2 ≤ A.length) :
    ∃ v' B k w, v.popBack dbg P = .ok v' ∧ Inv P v' B ∧ A = B ++ [(k, w)] ∧ v'.sorted = true ∧
      collect A k = some w ∧ (∀ j, collect A j ≠ none → j = k ∨ P.lt j k = true) ∧ (∀ j, collect B j = if j = k then none else collect A j) := by
  have hst := h.strictAll hs
  have hne : A ≠ [] := by intro e; rw [e] at h2; simp at h2
  have hA : A = A.dropLast ++ [A.getLast hne] := (List.dropLast_append_getLast hne).symm
  have hlen := h.len
  have hcol := collect_of_strict (A := A.dropLast) (B := []) (k := (A.getLast hne).1) (v := (A.getLast hne).2) hP.ord (by rw [← hA]; exact hst)
  have hcolA : ∀ j, collect A j = if j = (A.getLast hne).1 then some (A.getLast hne).2 else collect A.dropLast j := by
    intro j; have := hcol j; rwa [← hA, List.append_nil] at this
  have hfl : A.dropLast.length = v.filled - 1 := by simp [hlen]
  have hr : Inv P ⟨v.cap, v.filled - 1, v.filled - 1, decide (v.filled - 1 ≠ 0), v.idx, v.val⟩ A.dropLast :=
    { idxLen := h.idxLen, valLen := h.valLen, len := hfl
      holds := by
        constructor
        · rw [List.dropLast_eq_take, List.length_take, List.map_take, ← h.holds.1, List.take_take]
        · rw [List.dropLast_eq_take, List.length_take, List.map_take, ← h.holds.2, List.take_take]
      sfLe := Nat.le_refl _, sorted := by simp; omega
      strict := (hst.sublist (List.dropLast_sublist _)).sublist (List.take_sublist _ _)
      range := fun p hp => h.range p (List.dropLast_subset _ hp)
      capMin := h.capMin }
  have hlastlt : ∀ p ∈ A.dropLast, P.lt p.1 (A.getLast hne).1 = true := by
    intro p hp
    have : Strict P.lt (A.dropLast ++ [A.getLast hne]) := by rw [← hA]; exact hst
    exact (List.pairwise_append.1 this).2.2 p hp _ (by simp)
  refine ⟨_, A.dropLast, (A.getLast hne).1, (A.getLast hne).2, ?_, hr, hA, by simp; omega, by rw [hcolA, if_pos rfl], ?_, ?_⟩
  · unfold Coo.popBack
    rw [check_true (show v.filled > 0 by omega), bind_ok, if_neg (by omega)]
    simp only [hr.invariants dbg, bind_ok]
  · intro j hj
    rw [hcolA] at hj
    by_cases e : j = (A.getLast hne).1
    · exact Or.inl e
    · rw [if_neg e] at hj
      right
      by_contra hlt
      apply hj
      rw [collect_eq_none]; intro hm
      obtain ⟨p, hp, ep⟩ := List.mem_map.1 hm
      rw [← ep] at hlt; exact hlt (hlastlt p hp)
  · intro j
    by_cases e : j = (A.getLast hne).1
    · rw [if_pos e, e, collect_eq_none]; intro hm
      obtain ⟨p, hp, ep⟩ := List.mem_map.1 hm
      have := hlastlt p hp
      rw [ep, hP.ord.irrefl] at this; simp at this
    · rw [if_neg e, hcolA, if_neg e]

end Ublas.Coo
