import Verif.Spec.CompressedMatrix
import Verif.Lemmas.CompressedVector
import Verif.Lemmas.Layout
namespace Ublas.CMat
open Search Assoc SparseSpec
variable {α : Type}

/-- Number of entries with key below `b`. -/
def cnt (E : List (Nat × α)) (b : Nat) : Nat := E.countP (fun p => decide (p.1 < b))

theorem cnt_of_pieces {E : List (Nat × α)} {b n : Nat} (hn : n ≤ E.length) (h1 : ∀ p ∈ E.take n, p.1 < b)
    (h2 : ∀ p ∈ E.drop n, b ≤ p.1) : cnt E b = n := by
  unfold cnt
  conv => lhs; rw [← List.take_append_drop n E]
  rw [List.countP_append]
  have e1 : (E.take n).countP (fun p => decide (p.1 < b)) = (E.take n).length :=
    List.countP_eq_length.2 (fun p hp => by simpa using h1 p hp)
  have e2 : (E.drop n).countP (fun p => decide (p.1 < b)) = 0 :=
    List.countP_eq_zero.2 (fun p hp => by simpa using h2 p hp)
  rw [e1, e2, List.length_take]; omega

theorem cnt_of_splits {E : List (Nat × α)} {b n : Nat} (h : Splits (E.map (·.1)) 0 E.length b n) : cnt E b = n := by
  obtain ⟨h1, h2, h3⟩ := split_pieces h
  exact cnt_of_pieces h1 h2 h3

theorem splits_cnt {E : List (Nat × α)} {s} (h : Rep E s) (b : Nat) : Splits (E.map (·.1)) 0 E.length b (cnt E b) := by
  obtain ⟨n, _, hn⟩ := lowerBound_spec (E.map (·.1)) 0 E.length b (by omega) (by simp) (h.sorted _)
  rw [cnt_of_splits hn]; exact hn

theorem cnt_le (E : List (Nat × α)) (b : Nat) : cnt E b ≤ E.length := List.countP_le_length

theorem cnt_mono (E : List (Nat × α)) {a b : Nat} (h : a ≤ b) : cnt E a ≤ cnt E b :=
  List.countP_mono_left (fun p _ hp => by simp only [decide_eq_true_eq] at hp ⊢; omega)

theorem cnt_all {E : List (Nat × α)} {b : Nat} (h : ∀ p ∈ E, p.1 < b) : cnt E b = E.length :=
  List.countP_eq_length.2 (fun p hp => by simpa using h p hp)

theorem cnt_insert (E : List (Nat × α)) (n k : Nat) (t : α) (b : Nat) :
    cnt (E.take n ++ (k, t) :: E.drop n) b = cnt E b + (if k < b then 1 else 0) := by
  unfold cnt
  conv => rhs; rw [← List.take_append_drop n E]
  simp only [List.countP_append, List.countP_cons, decide_eq_true_eq]
  omega

theorem cnt_erase (E : List (Nat × α)) {n k : Nat} {t : α} (h : E[n]? = some (k, t)) (b : Nat) :
    cnt E b = cnt (E.take n ++ E.drop (n + 1)) b + (if k < b then 1 else 0) := by
  obtain ⟨hn, he⟩ := List.getElem?_eq_some_iff.1 h
  unfold cnt
  conv => lhs; rw [← List.take_append_drop n E, List.drop_eq_getElem_cons hn, he]
  simp only [List.countP_append, List.countP_cons, decide_eq_true_eq]
  omega

structure Core (o : Orient) (IB : Nat) (v : CMat α) (E : List (Nat × α)) (s : Nat → Option α) : Prop where
  idx1Len : v.idx1.length = o.sizeM v.size1 v.size2 + 1
  idx2Len : v.idx2.length = v.cap
  valLen : v.val.length = v.cap
  pos : 0 < v.filled1
  le : v.filled1 ≤ o.sizeM v.size1 v.size2 + 1
  fill : v.filled2 ≤ v.cap
  len : E.length = v.filled2
  minors : v.idx2.take v.filled2 = E.map (fun p => p.1 % o.sizem v.size1 v.size2 + IB)
  vals : v.val.take v.filled2 = E.map (·.2)
  rep : Rep E s
  below : ∀ p ∈ E, p.1 < (v.filled1 - 1) * o.sizem v.size1 v.size2
  off : ∀ r, r < v.filled1 → v.idx1[r]? = some (cnt E (r * o.sizem v.size1 v.size2) + IB)

theorem Core.invariants {o : Orient} {IB : Nat} {v : CMat α} {E s} (h : Core o IB v E s) (dbg : Bool) :
    v.invariants dbg o IB = .ok () := by
  unfold CMat.invariants
  have hx := h.off (v.filled1 - 1) (by have := h.pos; omega)
  rw [cnt_all h.below, h.len] at hx
  simp only [check_true h.idx1Len.symm, check_true h.idx2Len.symm, check_true h.valLen.symm,
    check_true (And.intro h.pos h.le), check_true h.fill, bind_ok, rd_eq_ok.2 hx, check_True, ite_self]

theorem Core.idx2At {o : Orient} {IB : Nat} {v : CMat α} {E s} (h : Core o IB v E s) {n : Nat} (hn : n < v.filled2) :
    v.idx2[n]? = E[n]?.map (fun p => p.1 % o.sizem v.size1 v.size2 + IB) := by
  have := congrArg (fun l => l[n]?) h.minors
  simpa [List.getElem?_take, hn] using this

theorem Core.valAt {o : Orient} {IB : Nat} {v : CMat α} {E s} (h : Core o IB v E s) {n : Nat} (hn : n < v.filled2) :
    v.val[n]? = E[n]?.map (·.2) := by
  have := congrArg (fun l => l[n]?) h.vals
  simpa [List.getElem?_take, hn] using this

theorem mod_in {sm r k : Nat} (h1 : r * sm ≤ k) (h2 : k < (r + 1) * sm) : k % sm = k - r * sm := by
  have : k = k - r * sm + r * sm := by omega
  conv => lhs; rw [this]
  rw [Nat.add_mul_mod_self_right, Nat.mod_eq_of_lt]
  rw [Nat.add_mul] at h2; omega

theorem mul_succ' (r sm : Nat) : (r + 1) * sm = r * sm + sm := by rw [Nat.add_mul, Nat.one_mul]

/-- Entries in the segment of major line `r`. -/
theorem Core.segment {o : Orient} {IB : Nat} {v : CMat α} {E s} (h : Core o IB v E s) (r : Nat) {n : Nat} (hn : n < E.length) :
    (cnt E (r * o.sizem v.size1 v.size2) ≤ n ↔ r * o.sizem v.size1 v.size2 ≤ E[n].1) ∧
    (n < cnt E ((r + 1) * o.sizem v.size1 v.size2) ↔ E[n].1 < (r + 1) * o.sizem v.size1 v.size2) := by
  have key : ∀ b, (n < cnt E b ↔ E[n].1 < b) := by
    intro b
    obtain ⟨_, h2, h3, h4⟩ := splits_cnt h.rep b
    have e : (E.map (·.1))[n]? = some E[n].1 := by simp [hn]
    constructor
    · intro hl; exact h3 n _ (by omega) hl e
    · intro hl
      refine Nat.lt_of_not_le fun hge => ?_
      have := h4 n _ hge hn e; omega
  refine ⟨?_, key _⟩
  have := key (r * o.sizem v.size1 v.size2); omega

theorem Core.seek {o : Orient} {IB : Nat} {v : CMat α} {E s} (h : Core o IB v E s) {e1 e2 : Nat} (h1 : e1 + 1 < v.filled1)
    (h2 : e2 < o.sizem v.size1 v.size2) :
    ∃ n, v.seek IB e1 e2 = .ok (n, (s (e1 * o.sizem v.size1 v.size2 + e2)).isSome) ∧ n ≤ v.filled2 ∧
      Splits (E.map (·.1)) 0 E.length (e1 * o.sizem v.size1 v.size2 + e2) n := by
  generalize hsm : o.sizem v.size1 v.size2 = sm at *
  have hseg := fun (r n : Nat) (hn : n < E.length) => h.segment r hn
  rw [hsm] at hseg
  have hidx := fun (n : Nat) (hn : n < v.filled2) => h.idx2At hn
  rw [hsm] at hidx
  have hb := h.off e1 (by omega); rw [hsm] at hb
  have he := h.off (e1 + 1) h1; rw [hsm] at he
  have hle : cnt E (e1 * sm) ≤ cnt E ((e1 + 1) * sm) := cnt_mono _ (Nat.mul_le_mul_right _ (by omega))
  have hel : cnt E ((e1 + 1) * sm) ≤ v.filled2 := by rw [← h.len]; exact cnt_le _ _
  have conv : ∀ (p x : Nat), cnt E (e1 * sm) ≤ p → p < cnt E ((e1 + 1) * sm) → v.idx2[p]? = some x →
      ∃ hp : p < E.length, e1 * sm ≤ E[p].1 ∧ E[p].1 < e1 * sm + sm ∧ x = E[p].1 - e1 * sm + IB := by
    intro p x q1 q2 q3
    have hp : p < E.length := by rw [h.len]; omega
    rw [hidx p (by omega), List.getElem?_eq_getElem hp] at q3
    have a := (hseg e1 p hp).1.1 q1
    have b := (hseg e1 p hp).2.1 q2
    simp only [Option.map_some, Option.some.injEq, mod_in a b] at q3
    rw [mul_succ'] at b
    exact ⟨hp, a, b, q3.symm⟩
  have hso : SortedOn v.idx2 (cnt E (e1 * sm)) (cnt E ((e1 + 1) * sm)) := by
    intro a b x y q1 q2 q3 q4 q5
    obtain ⟨ha, a1, a2, a3⟩ := conv a x q1 (by omega) q4
    obtain ⟨hb', b1, b2, b3⟩ := conv b y (by omega) q3 q5
    have := h.rep.sorted E.length a b E[a].1 E[b].1 (by omega) q2 hb' (by simp [ha]) (by simp [hb'])
    omega
  obtain ⟨n, r1, r2, r3, r4, r5⟩ := lowerBound_spec v.idx2 (cnt E (e1 * sm)) (cnt E ((e1 + 1) * sm)) (e2 + IB) hle
    (by rw [h.idx2Len]; have := h.fill; omega) hso
  have hsp : Splits (E.map (·.1)) 0 E.length (e1 * sm + e2) n := by
    refine ⟨by omega, by rw [h.len]; omega, ?_, ?_⟩
    · intro i x _ q2 q3
      have hi : i < E.length := by rw [h.len]; omega
      simp only [List.getElem?_map, List.getElem?_eq_getElem hi, Option.map_some, Option.some.injEq] at q3
      subst q3
      by_cases hib : cnt E (e1 * sm) ≤ i
      · have hx := hidx i (by omega)
        rw [List.getElem?_eq_getElem hi, Option.map_some] at hx
        have := r4 i _ hib q2 hx
        obtain ⟨_, a1, a2, a3⟩ := conv i _ hib (by omega) hx
        omega
      · have := (hseg e1 i hi).1; omega
    · intro i x q1 q2 q3
      have hi : i < E.length := q2
      simp only [List.getElem?_map, List.getElem?_eq_getElem hi, Option.map_some, Option.some.injEq] at q3
      subst q3
      by_cases hie : i < cnt E ((e1 + 1) * sm)
      · have hx := hidx i (by rw [← h.len]; omega)
        rw [List.getElem?_eq_getElem hi, Option.map_some] at hx
        have := r5 i _ q1 hie hx
        obtain ⟨_, a1, a2, a3⟩ := conv i _ (by omega) hie hx
        omega
      · have := (hseg e1 i hi).2; rw [mul_succ'] at this hie; omega
  refine ⟨n, ?_, by omega, hsp⟩
  simp only [CMat.seek, rd_eq_ok.2 hb, rd_eq_ok.2 he, bind_ok, Nat.add_sub_cancel, r1]
  have hl := h.rep.lookup hsp
  by_cases hn : n = cnt E ((e1 + 1) * sm)
  · rw [if_pos hn]
    rcases hl with ⟨w, q1, q2⟩ | ⟨q1, q2⟩
    · obtain ⟨hp, q3⟩ := List.getElem?_eq_some_iff.1 q1
      have := (hseg e1 n hp).2; rw [q3] at this; simp only at this
      rw [mul_succ'] at this hn; omega
    · rw [q2]; rfl
  · rw [if_neg hn]
    have hp : n < E.length := by rw [h.len]; omega
    have hx := hidx n (by omega)
    rw [List.getElem?_eq_getElem hp, Option.map_some] at hx
    obtain ⟨_, a1, a2, a3⟩ := conv n _ r2 (by omega) hx
    rw [rd_eq_ok.2 hx, bind_ok]
    congr 2
    rcases hl with ⟨w, q1, q2⟩ | ⟨q1, q2⟩
    · rw [q2]
      obtain ⟨_, q3⟩ := List.getElem?_eq_some_iff.1 q1
      have : E[n].1 = e1 * sm + e2 := by rw [q3]
      simp only [Option.isSome_some, decide_eq_true_eq]; omega
    · rw [q2]
      simp only [Option.isSome_none, decide_eq_false_iff_not]
      intro e
      apply q1 E[n].2
      rw [List.getElem?_eq_getElem hp]
      have : E[n].1 = e1 * sm + e2 := by omega
      rw [← this]

/-- Keys on lines that are not opened are not stored. -/
theorem Core.none_of_closed {o : Orient} {IB : Nat} {v : CMat α} {E s} (h : Core o IB v E s) {e1 e2 : Nat} (h1 : v.filled1 ≤ e1 + 1) :
    s (e1 * o.sizem v.size1 v.size2 + e2) = none := by
  cases hs : s (e1 * o.sizem v.size1 v.size2 + e2) with
  | none => rfl
  | some w =>
    have := h.below _ ((h.rep.2 _ w).1 hs)
    have h3 : (v.filled1 - 1) * o.sizem v.size1 v.size2 ≤ e1 * o.sizem v.size1 v.size2 := Nat.mul_le_mul_right _ (by omega)
    simp only at this; omega

theorem Core.slot {o : Orient} {IB : Nat} {v : CMat α} {E s} (h : Core o IB v E s) {i j : Nat}
    (h2 : o.indexm i j < o.sizem v.size1 v.size2) :
    (∃ n w, v.slot o IB i j = .ok (some n) ∧ n < v.filled2 ∧ E[n]? = some (o.indexM i j * o.sizem v.size1 v.size2 + o.indexm i j, w) ∧
      s (o.indexM i j * o.sizem v.size1 v.size2 + o.indexm i j) = some w ∧ v.val[n]? = some w) ∨
    (v.slot o IB i j = .ok none ∧ s (o.indexM i j * o.sizem v.size1 v.size2 + o.indexm i j) = none) := by
  unfold CMat.slot
  by_cases h1 : v.filled1 ≤ o.indexM i j + 1
  · right; exact ⟨by simp only [if_pos h1], h.none_of_closed h1⟩
  · obtain ⟨n, q1, q2, q3⟩ := h.seek (e1 := o.indexM i j) (e2 := o.indexm i j) (by omega) h2
    simp only [if_neg h1, q1, bind_ok]
    rcases h.rep.lookup q3 with ⟨w, q4, q5⟩ | ⟨q4, q5⟩
    · left
      have hp : n < v.filled2 := by rw [← h.len]; exact (List.getElem?_eq_some_iff.1 q4).1
      refine ⟨n, w, by simp [q5], hp, q4, q5, by rw [h.valAt hp, q4]; rfl⟩
    · right; exact ⟨by simp [q5], q5⟩

theorem Core.findElement {o : Orient} {IB : Nat} {v : CMat α} {E s} (h : Core o IB v E s) (dbg : Bool) {i j : Nat}
    (h2 : o.indexm i j < o.sizem v.size1 v.size2) :
    v.findElement dbg o IB i j = .ok (s (o.indexM i j * o.sizem v.size1 v.size2 + o.indexm i j)) := by
  rcases h.slot h2 with ⟨n, w, q1, q2, q3, q4, q5⟩ | ⟨q1, q2⟩
  · simp [CMat.findElement, q1, rd, q5, q4]
  · simp [CMat.findElement, q1, q2]

theorem Core.get {o : Orient} {IB : Nat} {v : CMat α} {E s} (h : Core o IB v E s) (dbg : Bool) (zero : α) {i j : Nat}
    (h2 : o.indexm i j < o.sizem v.size1 v.size2) :
    v.get dbg o IB zero i j = .ok ((s (o.indexM i j * o.sizem v.size1 v.size2 + o.indexm i j)).getD zero) := by
  unfold CMat.get
  rw [h.findElement dbg h2, bind_ok]
  cases s (o.indexM i j * o.sizem v.size1 v.size2 + o.indexm i j) <;> rfl

theorem sizeM_mul (o : Orient) (r c : Nat) : o.sizeM r c * o.sizem r c = r * c := by
  cases o
  · rfl
  · exact Nat.mul_comm _ _

theorem Core.keys_lt {o : Orient} {IB : Nat} {v : CMat α} {E s} (h : Core o IB v E s) : ∀ p ∈ E, p.1 < v.size1 * v.size2 := by
  intro p hp
  have h1 := h.below p hp
  have h2 : (v.filled1 - 1) * o.sizem v.size1 v.size2 ≤ o.sizeM v.size1 v.size2 * o.sizem v.size1 v.size2 :=
    Nat.mul_le_mul_right _ (by have := h.le; omega)
  rw [sizeM_mul] at h2; omega

theorem Core.some_lt {o : Orient} {IB : Nat} {v : CMat α} {E s} (h : Core o IB v E s) {k : Nat} (hk : s k ≠ none) : k < v.size1 * v.size2 := by
  cases hs : s k with
  | none => exact absurd hs hk
  | some w => exact h.keys_lt _ ((h.rep.2 k w).1 hs)

theorem Core.filled2_le {o : Orient} {IB : Nat} {v : CMat α} {E s} (h : Core o IB v E s) : v.filled2 ≤ v.size1 * v.size2 := by
  rw [← h.len]; exact CVec.length_le_of_lt h.rep _ (fun j hj => h.some_lt hj)

theorem Core.filled2_lt {o : Orient} {IB : Nat} {v : CMat α} {E s} (h : Core o IB v E s) {k : Nat} (hk : k < v.size1 * v.size2) (hn : s k = none) :
    v.filled2 < v.size1 * v.size2 := by
  have := nodup_length_le (L := k :: E.map (·.1)) (K := List.range (v.size1 * v.size2))
    (by
      rw [List.nodup_cons]; refine ⟨?_, keys_nodup h.rep.1⟩
      intro hm
      obtain ⟨p, hp, e⟩ := List.mem_map.1 hm
      rw [← e, (h.rep.2 p.1 p.2).2 hp] at hn; simp at hn)
    (by
      intro i hi
      rcases List.mem_cons.1 hi with e | hm
      · subst e; simpa using hk
      · obtain ⟨p, hp, e⟩ := List.mem_map.1 hm
        rw [← e]; simpa using h.keys_lt p hp)
  simp [h.len] at this; omega

theorem le_restrict {r c nz f : Nat} (h1 : f ≤ r * c) (h2 : f ≤ nz) : f ≤ restrictCapacity r c nz := by
  simp only [restrictCapacity]; split
  · exact h1
  · omega

theorem lt_restrict {r c nz f : Nat} (h1 : f < r * c) (h3 : f ≠ 0 → 2 * f = nz) : f < restrictCapacity r c nz := by
  simp only [restrictCapacity]; split
  · exact h1
  · by_cases hf : f = 0
    · have hr : r ≠ 0 := by rintro rfl; simp at h1
      have hc : c ≠ 0 := by rintro rfl; simp at h1
      omega
    · have := h3 hf; omega

/-- Reserving at least the number of stored elements changes nothing but the capacity. -/
theorem Core.reserveTrue {o : Orient} {IB : Nat} {v : CMat α} {E s} (h : Core o IB v E s) (dbg : Bool) (zero : α) (junk : Junk α) (n : Nat)
    (hn : v.filled2 ≤ restrictCapacity v.size1 v.size2 n) :
    ∃ v', v.reserve dbg o IB zero junk n true = .ok v' ∧ Core o IB v' E s ∧ v'.size1 = v.size1 ∧ v'.size2 = v.size2 ∧
      v'.filled1 = v.filled1 ∧ v'.filled2 = v.filled2 ∧ v'.cap = restrictCapacity v.size1 v.size2 n := by
  generalize hc : restrictCapacity v.size1 v.size2 n = c at *
  have hm : min c v.filled2 = v.filled2 := by omega
  have hr : Core o IB (⟨v.size1, v.size2, c, v.filled1, min c v.filled2, v.idx1, resizeInit v.idx2 c 0, resizeInit v.val c zero⟩ : CMat α) E s := by
    rw [hm]
    exact {
      idx1Len := h.idx1Len
      idx2Len := CVec.length_resizeInit _ _ _
      valLen := CVec.length_resizeInit _ _ _
      pos := h.pos
      le := h.le
      fill := hn
      len := h.len
      minors := by
        show (resizeInit v.idx2 c 0).take v.filled2 = _
        rw [CVec.take_resizeInit _ _ _ _ hn (by rw [h.idx2Len]; exact h.fill)]; exact h.minors
      vals := by
        show (resizeInit v.val c zero).take v.filled2 = _
        rw [CVec.take_resizeInit _ _ _ _ hn (by rw [h.valLen]; exact h.fill)]; exact h.vals
      rep := h.rep
      below := h.below
      off := h.off }
  refine ⟨_, ?_, hr, rfl, rfl, rfl, hm, rfl⟩
  simp only [CMat.reserve, if_true, bind_ok, hc, hr.invariants dbg]

/-- The `if (filled2_ >= capacity_) reserve (2 * filled2_, true)` prelude makes room. -/
theorem Core.grow {o : Orient} {IB : Nat} {v : CMat α} {E s} (h : Core o IB v E s) (dbg : Bool) (zero : α) (junk : Junk α)
    (hroom : v.filled2 < v.size1 * v.size2) :
    ∃ v', (if v.filled2 ≥ v.cap then v.reserve dbg o IB zero junk (2 * v.filled2) true else .ok v : M (CMat α)) = .ok v' ∧
      Core o IB v' E s ∧ v'.size1 = v.size1 ∧ v'.size2 = v.size2 ∧ v'.filled1 = v.filled1 ∧ v'.filled2 = v.filled2 ∧ v'.filled2 < v'.cap := by
  by_cases hc : v.filled2 ≥ v.cap
  · have hlt : v.filled2 < restrictCapacity v.size1 v.size2 (2 * v.filled2) := lt_restrict hroom (fun _ => rfl)
    obtain ⟨v', g1, g2, g3, g4, g5, g6, g7⟩ := h.reserveTrue dbg zero junk (2 * v.filled2) (by omega)
    exact ⟨v', by rw [if_pos hc]; exact g1, g2, g3, g4, g5, g6, by omega⟩
  · exact ⟨v, by rw [if_neg hc], h, rfl, rfl, rfl, rfl, by omega⟩

/-- Opening more lines keeps the contents. -/
theorem Core.openTo {o : Orient} {IB : Nat} {v : CMat α} {E s} (h : Core o IB v E s) (dbg : Bool) (n : Nat)
    (hn : n ≤ o.sizeM v.size1 v.size2 + 1) :
    ∃ v', v.openTo dbg IB n = .ok v' ∧ Core o IB v' E s ∧ v'.size1 = v.size1 ∧ v'.size2 = v.size2 ∧ v'.filled1 = max v.filled1 n ∧
      v'.filled2 = v.filled2 ∧ v'.cap = v.cap := by
  obtain ⟨l, h1, h2, h3⟩ := loop_inv (f := fun k l => wr dbg l (v.filled1 + k) (v.filled2 + IB)) (n := n - v.filled1) (s := v.idx1)
    (fun k l => l.length = v.idx1.length ∧ ∀ r : Nat, l[r]? = if v.filled1 ≤ r ∧ r < v.filled1 + k then some (v.filled2 + IB) else v.idx1[r]?)
    ⟨rfl, by intro r; rw [if_neg (by omega)]⟩
    (by
      rintro k l hk ⟨hl, hr⟩
      have hlt : v.filled1 + k < l.length := by rw [hl, h.idx1Len]; omega
      refine ⟨_, wr_ok hlt, by simp [hl], ?_⟩
      intro r
      rw [List.getElem?_set]
      by_cases e : v.filled1 + k = r
      · subst e; rw [if_pos rfl, if_pos hlt, if_pos (by omega)]
      · rw [if_neg e, hr r]
        by_cases c : v.filled1 ≤ r ∧ r < v.filled1 + k
        · rw [if_pos c, if_pos (by omega)]
        · rw [if_neg c, if_neg (by omega)])
  have hbelow : ∀ p ∈ E, p.1 < (max v.filled1 n - 1) * o.sizem v.size1 v.size2 := fun p hp =>
    Nat.lt_of_lt_of_le (h.below p hp) (Nat.mul_le_mul_right _ (by omega))
  refine ⟨{ v with filled1 := max v.filled1 n, idx1 := l }, by simp only [CMat.openTo, h1, bind_ok], ?_, rfl, rfl, rfl, rfl, rfl⟩
  exact {
    idx1Len := by show l.length = _; rw [h2, h.idx1Len]
    idx2Len := h.idx2Len
    valLen := h.valLen
    pos := by show 0 < max v.filled1 n; have := h.pos; omega
    le := by show max v.filled1 n ≤ _; have := h.le; simp only; omega
    fill := h.fill
    len := h.len
    minors := h.minors
    vals := h.vals
    rep := h.rep
    below := hbelow
    off := by
      intro r hr
      simp only at hr ⊢
      rw [h3 r]
      by_cases c : v.filled1 ≤ r
      · rw [if_pos (by omega), cnt_all, h.len]
        intro p hp
        exact Nat.lt_of_lt_of_le (h.below p hp) (Nat.mul_le_mul_right _ (by omega))
      · rw [if_neg (by omega)]; exact h.off r (by omega) }

theorem bump_spec (dbg : Bool) (g : Nat → Nat) (l : List Nat) (e1 f : Nat) (hf : f ≤ l.length) :
    ∃ l', bump dbg g l e1 f = .ok l' ∧ l'.length = l.length ∧
      ∀ r : Nat, l'[r]? = if e1 + 1 ≤ r ∧ r < f then l[r]?.map g else l[r]? := by
  obtain ⟨t, h1, h2, h3⟩ := loop_inv (f := fun k l => (rd dbg l (e1 + 1 + k) >>= fun x => wr dbg l (e1 + 1 + k) (g x) : M (List Nat)))
    (n := f - (e1 + 1)) (s := l)
    (fun k t => t.length = l.length ∧ ∀ r : Nat, t[r]? = if e1 + 1 ≤ r ∧ r < e1 + 1 + k then l[r]?.map g else l[r]?)
    ⟨rfl, by intro r; rw [if_neg (by omega)]⟩
    (by
      rintro k t hk ⟨ht, hr⟩
      have hlt : e1 + 1 + k < t.length := by omega
      have hx : t[e1 + 1 + k]? = l[e1 + 1 + k]? := by rw [hr, if_neg (by omega)]
      refine ⟨_, by rw [rd_ok hlt, bind_ok, wr_ok hlt], by simp [ht], ?_⟩
      intro r
      rw [List.getElem?_set]
      by_cases e : e1 + 1 + k = r
      · subst e
        rw [if_pos rfl, if_pos hlt, if_pos (by omega), ← hx, List.getElem?_eq_getElem hlt]; rfl
      · rw [if_neg e, hr r]
        by_cases c : e1 + 1 ≤ r ∧ r < e1 + 1 + k
        · rw [if_pos c, if_pos (by omega)]
        · rw [if_neg c, if_neg (by omega)])
  refine ⟨t, h1, h2, ?_⟩
  intro r; rw [h3 r]
  by_cases c : e1 + 1 ≤ r ∧ r < f
  · rw [if_pos c, if_pos (by omega)]
  · rw [if_neg c, if_neg (by omega)]

theorem key_lt {e1 e2 SM sm : Nat} (h1 : e1 < SM) (h2 : e2 < sm) : e1 * sm + e2 < SM * sm := by
  have : (e1 + 1) * sm ≤ SM * sm := Nat.mul_le_mul_right _ h1
  rw [mul_succ'] at this; omega

theorem key_mod {e1 e2 sm : Nat} (h2 : e2 < sm) : (e1 * sm + e2) % sm = e2 := by
  rw [Nat.add_comm, Nat.add_mul_mod_self_right, Nat.mod_eq_of_lt h2]

theorem key_div {e1 e2 sm : Nat} (h2 : e2 < sm) : (e1 * sm + e2) / sm = e1 := by
  rw [Nat.add_comm, Nat.add_mul_div_right _ _ (by omega), Nat.div_eq_of_lt h2]; omega

theorem key_lt_mul {e1 e2 sm r : Nat} (h2 : e2 < sm) : e1 * sm + e2 < r * sm ↔ e1 < r := by
  constructor
  · intro h
    refine Nat.lt_of_not_le fun hge => ?_
    have : r * sm ≤ e1 * sm := Nat.mul_le_mul_right _ hge
    omega
  · intro h; exact key_lt h h2

theorem Core.insert {o : Orient} {IB : Nat} {v : CMat α} {E s} (h : Core o IB v E s) (dbg : Bool) (zero : α) (junk : Junk α) {i j : Nat} (t : α)
    (h1 : o.indexM i j < o.sizeM v.size1 v.size2) (h2 : o.indexm i j < o.sizem v.size1 v.size2)
    (hk : s (o.indexM i j * o.sizem v.size1 v.size2 + o.indexm i j) = none) :
    ∃ v' n E', v.insertElement dbg o IB zero junk i j t = .ok (v', n) ∧
      Core o IB v' E' (upd s (o.indexM i j * o.sizem v.size1 v.size2 + o.indexm i j) (some t)) ∧
      v'.size1 = v.size1 ∧ v'.size2 = v.size2 ∧ v'.filled1 = max v.filled1 (o.indexM i j + 2) ∧ n < v'.filled2 ∧
      E'[n]? = some (o.indexM i j * o.sizem v.size1 v.size2 + o.indexm i j, t) := by
  have hroom : v.filled2 < v.size1 * v.size2 := h.filled2_lt (by rw [← sizeM_mul o v.size1 v.size2]; exact key_lt h1 h2) hk
  have hfind := h.findElement dbg h2
  generalize he1 : o.indexM i j = e1 at *
  generalize he2 : o.indexm i j = e2 at *
  obtain ⟨v1, g1, g2, g3, g4, g5, g6, g7⟩ := h.grow dbg zero junk hroom
  obtain ⟨v2, a1, a2, a3, a4, a5, a6, a7⟩ := g2.openTo dbg (e1 + 2) (by rw [g3, g4]; omega)
  have hs1 : v2.size1 = v.size1 := by rw [a3, g3]
  have hs2 : v2.size2 = v.size2 := by rw [a4, g4]
  obtain ⟨n, b1, b2, b3⟩ := a2.seek (e1 := e1) (e2 := e2) (by rw [a5]; omega) (by rw [hs1, hs2]; exact h2)
  rw [hs1, hs2] at b1 b3
  rw [hk] at b1
  generalize hsm : o.sizem v.size1 v.size2 = sm at *
  have hf : v2.filled2 < v2.cap := by rw [a6, a7]; exact g7
  obtain ⟨x1, x2, c1, c2, c3, c4⟩ := insert_prefix v2.idx2 n v2.filled2 (e2 + IB) b2 (by rw [a2.idx2Len]; exact hf)
  obtain ⟨y1, y2, d1, d2, d3, d4⟩ := insert_prefix v2.val n v2.filled2 t b2 (by rw [a2.valLen]; exact hf)
  obtain ⟨z, f1, f2, f3⟩ := bump_spec dbg (· + 1) v2.idx1 e1 v2.filled1 (by rw [a2.idx1Len]; exact a2.le)
  have hnE : n ≤ E.length := by rw [a2.len]; exact b2
  have hr : Core o IB ({ v2 with filled2 := v2.filled2 + 1, idx1 := z, idx2 := x2, val := y2 } : CMat α)
      (E.take n ++ (e1 * sm + e2, t) :: E.drop n) (upd s (e1 * sm + e2) (some t)) := {
    idx1Len := by show z.length = _; rw [f2, a2.idx1Len]
    idx2Len := by show x2.length = _; rw [c3, a2.idx2Len]
    valLen := by show y2.length = _; rw [d3, a2.valLen]
    pos := a2.pos
    le := a2.le
    fill := hf
    len := by
      show _ = v2.filled2 + 1
      rw [← a2.len]; simp only [List.length_append, List.length_take, List.length_cons, List.length_drop]; omega
    minors := by
      show x2.take (v2.filled2 + 1) = _
      rw [c4, a2.minors]
      simp only [hs1, hs2, hsm, List.map_append, List.map_cons, List.map_take, List.map_drop, key_mod h2]
    vals := by
      show y2.take (v2.filled2 + 1) = _
      rw [d4, a2.vals]
      simp only [List.map_append, List.map_cons, List.map_take, List.map_drop]
    rep := a2.rep.insert b3 hk t
    below := by
      intro p hp
      show p.1 < (v2.filled1 - 1) * o.sizem v2.size1 v2.size2
      have hb := a2.below
      rw [hs1, hs2, hsm] at hb ⊢
      rcases List.mem_append.1 hp with hp | hp
      · exact hb p (List.mem_of_mem_take hp)
      · rcases List.mem_cons.1 hp with rfl | hp
        · exact (key_lt_mul h2).2 (by rw [a5]; omega)
        · exact hb p (List.mem_of_mem_drop hp)
    off := by
      intro r hr
      simp only at hr ⊢
      have ho := a2.off r hr
      rw [hs1, hs2, hsm] at ho ⊢
      rw [f3 r, cnt_insert, ho]
      by_cases c : e1 < r
      · rw [if_pos (by omega), if_pos ((key_lt_mul h2).2 c), Option.map_some]; congr 1; omega
      · rw [if_neg (by omega), if_neg (by rw [key_lt_mul h2]; exact c)]; rfl }
  refine ⟨_, n, _, ?_, hr, hs1, hs2, ?_, ?_, ?_⟩
  · have hpre : (if dbg = true then do
        let r ← v.findElement dbg o IB i j
        check dbg (r.isNone = true) .badIndex
      else .ok () : M Unit) = .ok () := by
      rw [hfind, hk]; simp
    simp only [CMat.insertElement, hpre, bind_ok, g1, check_true g7, he1, he2, a1, b1, Option.isSome_none, check_True, c1, c2, d1, d2, f1,
      hr.invariants dbg]
  · show v2.filled1 = _; rw [a5, g5]
  · show n < v2.filled2 + 1; omega
  · rw [List.getElem?_append_right (by simp), List.length_take, Nat.min_eq_left hnE, Nat.sub_self]; rfl

theorem Core.setAt {o : Orient} {IB : Nat} {v : CMat α} {E s} (h : Core o IB v E s) {n k : Nat} {w : α} (he : E[n]? = some (k, w)) (t : α) :
    Core o IB { v with val := v.val.set n t } (E.set n (k, t)) (upd s k (some t)) := by
  have hcnt : ∀ b, cnt (E.set n (k, t)) b = cnt E b := by
    intro b
    obtain ⟨hn, e⟩ := List.getElem?_eq_some_iff.1 he
    unfold cnt
    rw [List.set_eq_take_append_cons_drop, if_pos hn]
    conv => rhs; rw [← List.take_append_drop n E, List.drop_eq_getElem_cons hn, e]
    simp only [List.countP_append, List.countP_cons]
  have hkeys : ∀ p ∈ E.set n (k, t), ∃ q ∈ E, q.1 = p.1 := by
    intro p hp
    rcases List.mem_or_eq_of_mem_set hp with hm | rfl
    · exact ⟨p, hm, rfl⟩
    · exact ⟨(k, w), List.mem_of_getElem? he, rfl⟩
  exact {
    idx1Len := h.idx1Len
    idx2Len := h.idx2Len
    valLen := by show (v.val.set n t).length = _; rw [List.length_set, h.valLen]
    pos := h.pos
    le := h.le
    fill := h.fill
    len := by rw [List.length_set]; exact h.len
    minors := by
      show v.idx2.take v.filled2 = _
      rw [h.minors, List.map_set]
      obtain ⟨hn, e⟩ := List.getElem?_eq_some_iff.1 he
      apply List.ext_getElem?
      intro m
      rw [List.getElem?_set]
      by_cases c : n = m
      · subst c; rw [if_pos rfl, if_pos (by simpa using hn), List.getElem?_map, he]; rfl
      · rw [if_neg c]
    vals := by
      show (v.val.set n t).take v.filled2 = _
      rw [List.take_set, h.vals, List.map_set]
    rep := h.rep.set he t
    below := by
      intro p hp
      obtain ⟨q, hq, e⟩ := hkeys p hp
      rw [← e]; exact h.below q hq
    off := by intro r hr; rw [hcnt]; exact h.off r hr }

/-- The trimming loop closes the empty lines after the line of the last stored element. -/
theorem trim_spec (dbg : Bool) {E : List (Nat × α)} {s} (hrep : Rep E s) {L : Nat} {w : α} (hl : E.getLast? = some (L, w)) {sm IB : Nat} :
    ∀ (f : Nat) (idx1 : List Nat), f ≤ idx1.length → L < (f - 1) * sm → (∀ r, r < f → idx1[r]? = some (cnt E (r * sm) + IB)) →
      ∃ idx1', trim dbg (E.length - 1 + IB) f idx1 = .ok (L / sm + 2, idx1') ∧ idx1'.length = idx1.length ∧ L / sm + 2 ≤ f ∧
        ∀ r, r < L / sm + 2 → idx1'[r]? = some (cnt E (r * sm) + IB) := by
  have hmax : ∀ p ∈ E, p.1 ≤ L := by
    intro p hp
    exact (hrep.dropLast hl).1 p.1 (by rw [(hrep.2 p.1 p.2).2 hp]; simp)
  have hLm : (L, w) ∈ E := List.mem_of_getLast? hl
  have hpos : 0 < E.length := List.length_pos_of_mem hLm
  intro f
  induction f with
  | zero => intro idx1 _ h2; simp at h2
  | succ f ih =>
    intro idx1 h1 h2 h3
    cases f with
    | zero => simp at h2
    | succ f =>
      have hx := h3 f (by omega)
      simp only [trim, rd_eq_ok.2 hx, bind_ok]
      by_cases c : L < f * sm
      · have hc : cnt E (f * sm) = E.length := cnt_all (fun p hp => Nat.lt_of_le_of_lt (hmax p hp) c)
        rw [if_pos (by rw [hc]; omega), wr_ok (by omega), bind_ok]
        obtain ⟨l', g1, g2, g3, g4⟩ := ih (idx1.set (f + 1) 0) (by simp; omega) (by simpa using c)
          (by intro r hr; rw [List.getElem?_set, if_neg (by omega)]; exact h3 r (by omega))
        exact ⟨l', g1, by simpa using g2, by omega, g4⟩
      · have hc : cnt E (f * sm) < E.length := by
          refine Nat.lt_of_le_of_ne (cnt_le _ _) fun e => ?_
          have := List.countP_eq_length.1 e (L, w) hLm
          simp only [decide_eq_true_eq] at this; exact c this
        have hdiv : L / sm = f := by
          simp only [Nat.add_sub_cancel] at h2
          refine Nat.div_eq_of_lt_le (by omega) (by simpa using h2)
        rw [if_neg (by omega), hdiv]
        exact ⟨idx1, rfl, rfl, by omega, h3⟩

theorem last_line {L sm : Nat} (h : 0 < sm) : L < (L / sm + 1) * sm ∧ L / sm * sm ≤ L :=
  ⟨by have := Nat.lt_div_mul_add (a := L) h; rw [mul_succ']; omega, Nat.div_mul_le_self _ _⟩

theorem Core.erase {o : Orient} {IB : Nat} {v : CMat α} {E s} (h : Core o IB v E s) (dbg : Bool) {i j : Nat}
    (h2 : o.indexm i j < o.sizem v.size1 v.size2) :
    ∃ v' E', v.eraseElement dbg o IB i j = .ok v' ∧
      Core o IB v' E' (upd s (o.indexM i j * o.sizem v.size1 v.size2 + o.indexm i j) none) ∧ v'.size1 = v.size1 ∧ v'.size2 = v.size2 ∧
      (s (o.indexM i j * o.sizem v.size1 v.size2 + o.indexm i j) = none → v'.filled1 = v.filled1) ∧
      (s (o.indexM i j * o.sizem v.size1 v.size2 + o.indexm i j) ≠ none →
        ∃ L w, E.getLast? = some (L, w) ∧ v'.filled1 = L / o.sizem v.size1 v.size2 + 2) := by
  generalize he1 : o.indexM i j = e1 at *
  generalize he2 : o.indexm i j = e2 at *
  have hunch : s (e1 * o.sizem v.size1 v.size2 + e2) = none →
      upd s (e1 * o.sizem v.size1 v.size2 + e2) none = s := by
    intro hn; funext k; simp only [upd]; split
    · rename_i e; rw [e, hn]
    · rfl
  by_cases h1 : e1 + 1 ≥ v.filled1
  · have hn := h.none_of_closed (e1 := e1) (e2 := e2) h1
    refine ⟨v, E, ?_, by rw [hunch hn]; exact h, rfl, rfl, fun _ => rfl, fun hc => absurd hn hc⟩
    simp only [CMat.eraseElement, he1, he2, if_pos h1]
  · obtain ⟨n, b1, b2, b3⟩ := h.seek (e1 := e1) (e2 := e2) (by omega) h2
    cases hs : s (e1 * o.sizem v.size1 v.size2 + e2) with
    | none =>
      refine ⟨v, E, ?_, by rw [hunch hs]; exact h, rfl, rfl, fun _ => rfl, fun hc => absurd rfl hc⟩
      rw [hs] at b1
      simp only [CMat.eraseElement, he1, he2, if_neg h1, b1, bind_ok, Option.isSome_none, Bool.false_eq_true, if_false, h.invariants dbg]
    | some w =>
      rw [hs] at b1
      rcases h.rep.lookup b3 with ⟨w', q1, q2⟩ | ⟨_, q2⟩
      swap; · rw [hs] at q2; simp at q2
      generalize hsm : o.sizem v.size1 v.size2 = sm at *
      have hnE : n < E.length := (List.getElem?_eq_some_iff.1 q1).1
      have hn : n < v.filled2 := by rw [← h.len]; exact hnE
      have hsm0 : 0 < sm := by omega
      obtain ⟨x1, c1, c3, c4⟩ := erase_prefix v.idx2 n v.filled2 hn (by rw [h.idx2Len]; exact h.fill)
      obtain ⟨y1, d1, d3, d4⟩ := erase_prefix v.val n v.filled2 hn (by rw [h.valLen]; exact h.fill)
      obtain ⟨⟨L, wl⟩, hL⟩ : ∃ p, E.getLast? = some p := by
        cases hg : E.getLast? with
        | none => rw [List.getLast?_eq_none_iff] at hg; subst hg; simp at hnE
        | some p => exact ⟨p, rfl⟩
      have hmax : ∀ p ∈ E, p.1 ≤ L := by
        intro p hp
        exact (h.rep.dropLast hL).1 p.1 (by rw [(h.rep.2 p.1 p.2).2 hp]; simp)
      have hb := h.below; rw [hsm] at hb
      have ho := h.off; rw [hsm] at ho
      have hLb := hb _ (List.mem_of_getLast? hL)
      obtain ⟨l1, t1, t2, t3, t4⟩ := trim_spec dbg h.rep hL v.filled1 v.idx1 (by rw [h.idx1Len]; exact h.le) hLb ho
      obtain ⟨z, f1, f2, f3⟩ := bump_spec dbg (· - 1) l1 e1 (L / sm + 2) (by rw [t2, h.idx1Len]; have := h.le; omega)
      obtain ⟨ll1, ll2⟩ := last_line (L := L) hsm0
      have hr : Core o IB ({ v with filled1 := L / sm + 2, filled2 := v.filled2 - 1, idx1 := z, idx2 := x1, val := y1 } : CMat α)
          (E.take n ++ E.drop (n + 1)) (upd s (e1 * sm + e2) none) := {
        idx1Len := by show z.length = _; rw [f2, t2, h.idx1Len]
        idx2Len := by show x1.length = _; rw [c3, h.idx2Len]
        valLen := by show y1.length = _; rw [d3, h.valLen]
        pos := Nat.succ_pos _
        le := by show L / sm + 2 ≤ _; have := h.le; simp only; omega
        fill := by show v.filled2 - 1 ≤ v.cap; have := h.fill; omega
        len := by
          show _ = v.filled2 - 1
          rw [← h.len]; simp only [List.length_append, List.length_take, List.length_drop]; omega
        minors := by
          show x1.take (v.filled2 - 1) = _
          rw [c4, h.minors]
          simp only [hsm, List.map_append, List.map_take, List.map_drop]
        vals := by
          show y1.take (v.filled2 - 1) = _
          rw [d4, h.vals]
          simp only [List.map_append, List.map_take, List.map_drop]
        rep := h.rep.erase q1
        below := by
          intro p hp
          show p.1 < (L / sm + 2 - 1) * o.sizem v.size1 v.size2
          rw [hsm]
          have : p ∈ E := by
            rcases List.mem_append.1 hp with hp | hp
            · exact List.mem_of_mem_take hp
            · exact List.mem_of_mem_drop hp
          exact Nat.lt_of_le_of_lt (hmax p this) ll1
        off := by
          intro r hr
          simp only at hr ⊢
          rw [hsm, f3 r, t4 r hr]
          have := cnt_erase E q1 (r * sm)
          by_cases c : e1 < r
          · rw [if_pos ((key_lt_mul h2).2 c)] at this
            rw [if_pos (by omega), Option.map_some]; congr 1; omega
          · rw [if_neg (by rw [key_lt_mul h2]; exact c)] at this
            rw [if_neg (by omega), this]; rfl }
      refine ⟨_, _, ?_, hr, rfl, rfl, fun hc => by simp at hc, fun _ => ⟨L, wl, hL, rfl⟩⟩
      rw [h.len] at t1
      simp only [CMat.eraseElement, he1, he2, if_neg h1, b1, bind_ok, Option.isSome_some, if_true, c1, d1, t1, f1, hr.invariants dbg]

theorem Core.popBack {o : Orient} {IB : Nat} {v : CMat α} {E s} (h : Core o IB v E s) (dbg : Bool) {L : Nat} {w : α} (hL : E.getLast? = some (L, w)) :
    ∃ v', v.popBack dbg o IB = .ok v' ∧ Core o IB v' E.dropLast (upd s L none) ∧ v'.size1 = v.size1 ∧ v'.size2 = v.size2 ∧
      v'.filled1 = L / o.sizem v.size1 v.size2 + 2 := by
  generalize hsm : o.sizem v.size1 v.size2 = sm at *
  have hmem := List.mem_of_getLast? hL
  have hEpos : 0 < E.length := List.length_pos_of_mem hmem
  have hf2 : 0 < v.filled2 := by rw [← h.len]; exact hEpos
  have hmax := (h.rep.dropLast hL).1
  have hb := h.below; rw [hsm] at hb
  have ho := h.off; rw [hsm] at ho
  have hLb := hb _ hmem
  have hsm0 : 0 < sm := by
    refine Nat.pos_of_ne_zero fun e => ?_
    rw [e] at hLb; simp at hLb
  obtain ⟨l1, t1, t2, t3, t4⟩ := trim_spec dbg h.rep hL v.filled1 v.idx1 (by rw [h.idx1Len]; exact h.le) hLb ho
  obtain ⟨ll1, ll2⟩ := last_line (L := L) hsm0
  have hx := t4 (L / sm + 1) (by omega)
  have hlt : L / sm + 1 < l1.length := by rw [t2, h.idx1Len]; have := h.le; omega
  have hlast : E[E.length - 1]? = some (L, w) := by rw [← List.getLast?_eq_getElem?]; exact hL
  have hdl : E.take (E.length - 1) ++ E.drop (E.length - 1 + 1) = E.dropLast := by
    rw [List.drop_eq_nil_of_le (by omega), List.append_nil, ← List.dropLast_eq_take]
  have hr : Core o IB ({ v with filled1 := L / sm + 2, filled2 := v.filled2 - 1, idx1 := l1.set (L / sm + 1) (cnt E ((L / sm + 1) * sm) + IB - 1) } : CMat α)
      E.dropLast (upd s L none) := {
    idx1Len := by show (l1.set _ _).length = _; rw [List.length_set, t2, h.idx1Len]
    idx2Len := h.idx2Len
    valLen := h.valLen
    pos := Nat.succ_pos _
    le := by show L / sm + 2 ≤ _; have := h.le; simp only; omega
    fill := by show v.filled2 - 1 ≤ v.cap; have := h.fill; omega
    len := by show _ = v.filled2 - 1; rw [List.length_dropLast, h.len]
    minors := by
      show v.idx2.take (v.filled2 - 1) = _
      have := congrArg (List.take (v.filled2 - 1)) h.minors
      rw [List.take_take, Nat.min_eq_left (by omega)] at this
      rw [this, ← h.len, ← List.map_take, List.dropLast_eq_take]
    vals := by
      show v.val.take (v.filled2 - 1) = _
      have := congrArg (List.take (v.filled2 - 1)) h.vals
      rw [List.take_take, Nat.min_eq_left (by omega)] at this
      rw [this, ← h.len, ← List.map_take, List.dropLast_eq_take]
    rep := (h.rep.dropLast hL).2.2
    below := by
      intro p hp
      show p.1 < (L / sm + 2 - 1) * o.sizem v.size1 v.size2
      rw [hsm]
      have := hmax p.1 (by rw [(h.rep.2 p.1 p.2).2 (List.dropLast_subset _ hp)]; simp)
      exact Nat.lt_of_le_of_lt this ll1
    off := by
      intro r hr
      simp only at hr ⊢
      rw [hsm, List.getElem?_set]
      have he := cnt_erase E hlast (r * sm)
      rw [hdl] at he
      by_cases c : L / sm + 1 = r
      · subst c
        rw [if_pos ll1] at he
        rw [if_pos rfl, if_pos hlt]; congr 1; omega
      · rw [if_neg c, t4 r hr]
        have : r * sm ≤ L / sm * sm := Nat.mul_le_mul_right _ (by omega)
        rw [if_neg (by omega)] at he
        rw [he]; rfl }
  refine ⟨_, ?_, hr, rfl, rfl, rfl⟩
  rw [h.len] at t1
  simp only [CMat.popBack, check_true (And.intro h.pos hf2), bind_ok, if_neg (show ¬ v.filled2 = 0 by omega), t1,
    show L / sm + 2 - 1 = L / sm + 1 from rfl, rd_eq_ok.2 hx, wr_ok hlt, hr.invariants dbg]

theorem Core.pushBack {o : Orient} {IB : Nat} {v : CMat α} {E s} (h : Core o IB v E s) (dbg : Bool) (zero : α) (junk : Junk α) {i j : Nat} (t : α)
    (h1 : o.indexM i j < o.sizeM v.size1 v.size2) (h2 : o.indexm i j < o.sizem v.size1 v.size2) (hop : v.filled1 ≤ o.indexM i j + 2)
    (hk : ∀ k, s k ≠ none → k < o.indexM i j * o.sizem v.size1 v.size2 + o.indexm i j) :
    ∃ v', v.pushBack dbg o IB zero junk i j t = .ok v' ∧
      Core o IB v' (E ++ [(o.indexM i j * o.sizem v.size1 v.size2 + o.indexm i j, t)])
        (upd s (o.indexM i j * o.sizem v.size1 v.size2 + o.indexm i j) (some t)) ∧
      v'.size1 = v.size1 ∧ v'.size2 = v.size2 ∧ v'.filled1 = o.indexM i j + 2 := by
  have hnone : s (o.indexM i j * o.sizem v.size1 v.size2 + o.indexm i j) = none := by
    cases hs : s (o.indexM i j * o.sizem v.size1 v.size2 + o.indexm i j) with
    | none => rfl
    | some w => have := hk _ (by rw [hs]; simp); omega
  have hroom : v.filled2 < v.size1 * v.size2 := h.filled2_lt (by rw [← sizeM_mul o v.size1 v.size2]; exact key_lt h1 h2) hnone
  generalize he1 : o.indexM i j = e1 at *
  generalize he2 : o.indexm i j = e2 at *
  obtain ⟨v1, g1, g2, g3, g4, g5, g6, g7⟩ := h.grow dbg zero junk hroom
  obtain ⟨v2, a1, a2, a3, a4, a5, a6, a7⟩ := g2.openTo dbg (e1 + 2) (by rw [g3, g4]; omega)
  have hs1 : v2.size1 = v.size1 := by rw [a3, g3]
  have hs2 : v2.size2 = v.size2 := by rw [a4, g4]
  have hf1 : v2.filled1 = e1 + 2 := by rw [a5, g5]; omega
  have hf : v2.filled2 < v2.cap := by rw [a6, a7]; exact g7
  generalize hsm : o.sizem v.size1 v.size2 = sm at *
  have ho := a2.off; rw [hs1, hs2, hsm] at ho
  have hb := a2.below; rw [hs1, hs2, hsm] at hb
  have hEk : ∀ p ∈ E, p.1 < e1 * sm + e2 := fun p hp => hk p.1 (by rw [(h.rep.2 p.1 p.2).2 hp]; simp)
  have hx := ho e1 (by omega)
  have hchk : (if dbg = true then do
      check dbg (v2.filled1 = e1 + 2) .externalLogic
      let x ← rd dbg v2.idx1 (v2.filled1 - 2)
      if v2.filled2 = x - IB then .ok () else do
        let y ← rd dbg v2.idx2 (v2.filled2 - 1)
        check dbg (y < e2 + IB) .externalLogic
    else .ok () : M Unit) = .ok () := by
    rw [check_true hf1, bind_ok, hf1, Nat.add_sub_cancel, rd_eq_ok.2 hx, bind_ok, Nat.add_sub_cancel]
    by_cases c : v2.filled2 = cnt E (e1 * sm)
    · rw [if_pos c, ite_self]
    · rw [if_neg c]
      have hc : cnt E (e1 * sm) < v2.filled2 := by
        have := cnt_le E (e1 * sm); rw [a2.len] at this; omega
      have hl : v2.filled2 - 1 < E.length := by rw [a2.len]; omega
      have hy := a2.idx2At (n := v2.filled2 - 1) (by omega)
      rw [List.getElem?_eq_getElem hl, Option.map_some, hs1, hs2, hsm] at hy
      have hge : e1 * sm ≤ E[v2.filled2 - 1].1 := by
        have := (a2.segment e1 hl).1
        rw [hs1, hs2, hsm] at this
        exact this.1 (by omega)
      have hlt := hEk E[v2.filled2 - 1] (List.getElem_mem hl)
      have hm := mod_in (sm := sm) (r := e1) hge (by rw [mul_succ']; omega)
      rw [rd_eq_ok.2 hy, bind_ok, check_true (by rw [hm]; omega), ite_self]
  have hw1 : e1 + 1 < v2.idx1.length := by rw [a2.idx1Len]; have := a2.le; omega
  have hr : Core o IB ({ v2 with filled2 := v2.filled2 + 1, idx1 := v2.idx1.set (e1 + 1) (v2.filled2 + 1 + IB), idx2 := v2.idx2.set v2.filled2 (e2 + IB), val := v2.val.set v2.filled2 t } : CMat α) (E ++ [(e1 * sm + e2, t)]) (upd s (e1 * sm + e2) (some t)) := {
    idx1Len := by show (v2.idx1.set _ _).length = _; rw [List.length_set, a2.idx1Len]
    idx2Len := by show (v2.idx2.set _ _).length = _; rw [List.length_set, a2.idx2Len]
    valLen := by show (v2.val.set _ _).length = _; rw [List.length_set, a2.valLen]
    pos := a2.pos
    le := a2.le
    fill := hf
    len := by show _ = v2.filled2 + 1; rw [List.length_append, a2.len]; rfl
    minors := by
      show (v2.idx2.set v2.filled2 (e2 + IB)).take (v2.filled2 + 1) = _
      have hl : v2.filled2 < v2.idx2.length := by rw [a2.idx2Len]; exact hf
      rw [List.take_add_one, List.take_set, List.set_eq_of_length_le (by simp), a2.minors, List.getElem?_set, if_pos rfl, if_pos hl]
      simp only [hs1, hs2, hsm, List.map_append, List.map_cons, List.map_nil, key_mod h2, Option.toList_some]
    vals := by
      show (v2.val.set v2.filled2 t).take (v2.filled2 + 1) = _
      have hl : v2.filled2 < v2.val.length := by rw [a2.valLen]; exact hf
      rw [List.take_add_one, List.take_set, List.set_eq_of_length_le (by simp), a2.vals, List.getElem?_set, if_pos rfl, if_pos hl]
      simp only [List.map_append, List.map_cons, List.map_nil, Option.toList_some]
    rep := h.rep.append hk t
    below := by
      intro p hp
      show p.1 < (v2.filled1 - 1) * o.sizem v2.size1 v2.size2
      rw [hs1, hs2, hsm]
      rcases List.mem_append.1 hp with hp | hp
      · exact hb p hp
      · rw [List.mem_singleton] at hp; subst hp
        exact (key_lt_mul h2).2 (by omega)
    off := by
      intro r hr
      simp only at hr ⊢
      rw [hs1, hs2, hsm, List.getElem?_set]
      have hc : cnt (E ++ [(e1 * sm + e2, t)]) (r * sm) = cnt E (r * sm) + (if e1 * sm + e2 < r * sm then 1 else 0) := by
        unfold cnt; simp [List.countP_append, List.countP_cons]
      rw [hc]
      by_cases c : e1 + 1 = r
      · subst c
        have hall : cnt E ((e1 + 1) * sm) = v2.filled2 := by
          rw [← a2.len]; apply cnt_all
          intro p hp; have := hEk p hp; rw [mul_succ']; omega
        rw [if_pos rfl, if_pos hw1, if_pos ((key_lt_mul h2).2 (by omega)), hall]
      · rw [if_neg c, ho r hr, if_neg (by rw [key_lt_mul h2]; omega)]; rfl }
  refine ⟨_, ?_, hr, hs1, hs2, hf1⟩
  simp only [CMat.pushBack, g1, bind_ok, check_true g7, he1, he2, a1, hchk]
  rw [hf1, show e1 + 2 - 1 = e1 + 1 by omega, wr_ok hw1, bind_ok, wr_ok (by rw [a2.idx2Len]; exact hf), bind_ok, wr_ok (by rw [a2.valLen]; exact hf), bind_ok,
    ← hf1, hr.invariants dbg, bind_ok]

/-- A freshly emptied matrix. -/
theorem core_fresh (o : Orient) (IB r c cap : Nat) (idx1 idx2 : List Nat) (val : List α) (h1 : idx1.length = o.sizeM r c + 1) (h2 : idx2.length = cap)
    (h3 : val.length = cap) : Core o IB (⟨r, c, cap, 1, 0, idx1.set 0 (0 + IB), idx2, val⟩ : CMat α) [] (fun _ => none) where
  idx1Len := by simpa using h1
  idx2Len := h2
  valLen := h3
  pos := by simp
  le := by simp
  fill := by simp
  len := rfl
  minors := by simp
  vals := by simp
  rep := rep_nil
  below := by simp
  off := by
    intro k hk
    simp only at hk
    have : k = 0 := by omega
    subst this
    rw [List.getElem?_set, if_pos rfl, if_pos (by omega)]; rfl

end Ublas.CMat
