import Verif.Model.Swap
import Verif.Spec.Swap
import Verif.Props.VectorAssign
import Verif.Props.MatrixAssign
/-! # C79: swapping views exchanges their elements -/
namespace Ublas
namespace VSwap
variable {σ R : Type} [AddGroup R] {T1 T2 : VT σ R} {P : PRep σ R} {n : Nat}

/-- `a`, with the elements at indices in both lists taken from `b`. -/
def exch (L1 L2 : List Nat) (a b : Nat → R) : Nat → R := fun i => if i ∈ L1 ∧ i ∈ L2 then b i else a i

theorem exch_cons {i : Nat} {l r : List Nat} (hl : i ∉ l) (a b : Nat → R) :
    exch (i :: l) (i :: r) a b = exch l r (Function.update a i (b i)) (Function.update b i (a i)) := by
  funext k
  simp only [exch, List.mem_cons]
  by_cases hk : k = i
  · subst hk; simp [hl]
  · simp [hk, Function.update_of_ne hk]

theorem swapAt_ok (hP : VT.Pair T1 T2 P) {s : σ} {w1 w2 : Nat → R} {S1 S2 : List Nat} (h : P s n w1 S1 w2 S2) {i : Nat} (h1 : i ∈ S1) (h2 : i ∈ S2) :
    ∃ s', swapAt T1 T2 s i i = .ok s' ∧ P s' n (Function.update w1 i (w2 i)) S1 (Function.update w2 i (w1 i)) S2 := by
  obtain ⟨s1, e1, p1⟩ := (hP.fst w2 S2).put s n w1 S1 h i h1 (w2 i)
  obtain ⟨s2, e2, p2⟩ := (hP.snd _ S1).put s1 n w2 S2 p1 i h2 (w1 i)
  refine ⟨s2, ?_, p2⟩
  simp only [swapAt, (hP.fst w2 S2).get s n w1 S1 h i h1, (hP.snd w1 S1).get s n w2 S2 h i h2, bind_ok, e1, e2]

theorem mergeLoop_ok (hP : VT.Pair T1 T2 P) {S1 S2 : List Nat} : ∀ (fuel : Nat) (L Q : List Nat) (s : σ) (w1 w2 : Nat → R),
    P s n w1 S1 w2 S2 → L.length + Q.length < fuel → L.Pairwise (· < ·) → VAssign.Con T1.cat L → (∀ i ∈ L, i ∈ S1) → Q.Pairwise (· < ·) → VAssign.Con T2.cat Q →
    (∀ i ∈ Q, i ∈ S2) → ∃ s', mergeLoop T1 T2 fuel L Q s = .ok s' ∧ P s' n (exch L Q w1 w2) S1 (exch L Q w2 w1) S2 := by
  intro fuel
  induction fuel with
  | zero => intro L Q s w1 w2 _ h; omega
  | succ f ih =>
    intro L Q s w1 w2 h hf hL hc hLS hQ hcq hQS
    cases L with
    | nil =>
      refine ⟨s, by simp only [mergeLoop], ?_⟩
      have : ∀ a b : Nat → R, exch [] Q a b = a := fun a b => by funext i; simp [exch]
      rw [this, this]; exact h
    | cons i l =>
    cases Q with
    | nil =>
      refine ⟨s, by simp only [mergeLoop], ?_⟩
      have : ∀ a b : Nat → R, exch (i :: l) [] a b = a := fun a b => by funext i; simp [exch]
      rw [this, this]; exact h
    | cons j r =>
      simp only [List.length_cons] at hf
      have hL' := hL
      have hQ' := hQ
      rw [List.pairwise_cons] at hL' hQ'
      by_cases h1 : i = j
      · subst h1
        obtain ⟨s1, e1, p1⟩ := swapAt_ok hP h (hLS i (by simp)) (hQS i (by simp))
        obtain ⟨s2, e2, p2⟩ := ih l r s1 _ _ p1 (by omega) hL'.2 (hc.drop 1) (fun k hk => hLS k (by simp [hk])) hQ'.2 (hcq.drop 1) (fun k hk => hQS k (by simp [hk]))
        refine ⟨s2, by simp only [mergeLoop, if_true, e1, bind_ok, e2], ?_⟩
        have hil : i ∉ l := fun hm => absurd (hL'.1 i hm) (by omega)
        rw [exch_cons hil, exch_cons hil]; exact p2
      · by_cases h2 : i < j
        · obtain ⟨m, hm, em, _, hb⟩ := VAssign.incr_ok (d := j - i) hc (by omega)
          obtain ⟨s', e', p'⟩ := ih ((i :: l).drop m) (j :: r) s w1 w2 h (by simp only [List.length_drop, List.length_cons]; omega)
            (hL.sublist (List.drop_sublist _ _)) (hc.drop m) (fun k hk => hLS k (List.mem_of_mem_drop hk)) hQ hcq hQS
          refine ⟨s', by simp only [mergeLoop, if_neg h1, if_pos h2, em, e'], ?_⟩
          have : ∀ a b : Nat → R, exch (i :: l) (j :: r) a b = exch ((i :: l).drop m) (j :: r) a b := by
            intro a b
            funext k
            simp only [exch]
            congr 1
            apply propext
            refine and_congr_left fun hk => ⟨fun hm' => ?_, fun hm' => List.mem_of_mem_drop hm'⟩
            rw [← List.take_append_drop m (i :: l), List.mem_append] at hm'
            rcases hm' with hm' | hm'
            · have := hb k hm'
              rw [List.mem_cons] at hk
              rcases hk with hk | hk
              · omega
              · have := hQ'.1 k hk; omega
            · exact hm'
          rw [this, this]; exact p'
        · obtain ⟨m, hm, em, _, hb⟩ := VAssign.incr_ok (d := i - j) hcq (by omega)
          obtain ⟨s', e', p'⟩ := ih (i :: l) ((j :: r).drop m) s w1 w2 h (by simp only [List.length_drop, List.length_cons]; omega) hL hc hLS
            (hQ.sublist (List.drop_sublist _ _)) (hcq.drop m) (fun k hk => hQS k (List.mem_of_mem_drop hk))
          refine ⟨s', by simp only [mergeLoop, if_neg h1, if_neg h2, em, e'], ?_⟩
          have : ∀ a b : Nat → R, exch (i :: l) (j :: r) a b = exch (i :: l) ((j :: r).drop m) a b := by
            intro a b
            funext k
            simp only [exch]
            congr 1
            apply propext
            refine and_congr_right fun hk => ⟨fun hm' => ?_, fun hm' => List.mem_of_mem_drop hm'⟩
            rw [← List.take_append_drop m (j :: r), List.mem_append] at hm'
            rcases hm' with hm' | hm'
            · have := hb k hm'
              rw [List.mem_cons] at hk
              rcases hk with hk | hk
              · omega
              · have := hL'.1 k hk; omega
            · exact hm'
          rw [this, this]; exact p'

theorem swapLoop_ok (hP : VT.Pair T1 T2 P) {S1 S2 : List Nat} : ∀ (L : List Nat) (s : σ) (w1 w2 : Nat → R), P s n w1 S1 w2 S2 → L.Nodup →
    (∀ i ∈ L, i ∈ S1) → (∀ i ∈ L, i ∈ S2) → ∃ s', swapLoop T1 T2 L L s = .ok s' ∧ P s' n (exch L L w1 w2) S1 (exch L L w2 w1) S2 := by
  intro L
  induction L with
  | nil =>
    intro s w1 w2 h _ _ _
    refine ⟨s, by simp only [swapLoop], ?_⟩
    have : ∀ a b : Nat → R, exch [] [] a b = a := fun a b => by funext i; simp [exch]
    rw [this, this]; exact h
  | cons i l ih =>
    intro s w1 w2 h hn h1 h2
    rw [List.nodup_cons] at hn
    obtain ⟨s1, e1, p1⟩ := (hP.fst w2 S2).put s n w1 S1 h i (h1 i (by simp)) (w2 i)
    obtain ⟨s2, e2, p2⟩ := (hP.snd _ S1).put s1 n w2 S2 p1 i (h2 i (by simp)) (w1 i)
    obtain ⟨s3, e3, p3⟩ := ih s2 _ _ p2 hn.2 (fun k hk => h1 k (by simp [hk])) (fun k hk => h2 k (by simp [hk]))
    refine ⟨s3, ?_, by rw [exch_cons hn.1, exch_cons hn.1]; exact p3⟩
    simp only [swapLoop, (hP.fst w2 S2).get s n w1 S1 h i (h1 i (by simp)), (hP.snd w1 S1).get s n w2 S2 h i (h2 i (by simp)), bind_ok, e1, e2, e3]

/-- `make_conformant (v, e)` for another view `e`: the elements stay, every non-zero element of `e` has its place in `v`. -/
theorem conform_ok [DecidableEq R] {Rep : σ → Nat → (Nat → R) → List Nat → Prop} {T : VT σ R} (hT : T.Lawful Rep) (hg : T.Grows Rep) (T' : VT σ R) (dbg : Bool)
    {s : σ} {w v : Nat → R} {S I : List Nat} (h : Rep s n w S) (hn : T'.size s = n) (hi : T'.its s = I) (hs : I.Pairwise (· < ·)) (hlt : ∀ i ∈ I, i < n)
    (hv : ∀ i ∈ I, T'.get s i = .ok (v i)) :
    ∃ s' S', VAssign.makeConformant dbg T (T'.expr s) s = .ok s' ∧ Rep s' n w S' ∧ (∀ k, k ∈ S → k ∈ S') ∧ ∀ k, k ∈ I → v k ≠ 0 → k ∈ S' := by
  have hb : ((T'.expr s).begin_ s).map (·.1) = I := by simp [VT.expr, hi, Function.comp_def]
  obtain ⟨K, eK, hK⟩ := VAssign.missing_ok (c := T.cat) (s := s) (val := v) (S.length + ((T'.expr s).begin_ s).length + 1) S ((T'.expr s).begin_ s) (by omega)
    (hT.sorted s n w S h) (hT.consec s n w S h) (by rw [hb]; exact hs) (by
      intro q hq
      simp only [VT.expr, List.mem_map, hi] at hq
      obtain ⟨i, hi', rfl⟩ := hq
      exact hv i hi')
  rw [hb] at hK
  obtain ⟨s1, S1, e1, h1, m1⟩ := VAssign.refLoop_ok hg K s w S h fun k hk => by
    obtain ⟨b1, b2, _⟩ := (hK k).1 hk
    exact ⟨hlt k b1, hT.off s n w S h k (hlt k b1) b2⟩
  refine ⟨s1, S1, ?_, h1, fun k hk => (m1 k).2 (.inr hk), fun k hk hne => ?_⟩
  · have hsz : (T'.expr s).size = n := hn
    simp only [VAssign.makeConformant, hT.size s n w S h, hsz, check_True, bind_ok, hT.its s n w S h, eK, e1]
  · by_cases hkS : k ∈ S
    · exact (m1 k).2 (.inr hkS)
    · exact (m1 k).2 (.inl ((hK k).2 ⟨hk, hkS, hne⟩))

theorem sparse_ok [DecidableEq R] (hP : VT.Pair T1 T2 P) (hg : VT.PairGrows T1 T2 P) (dbg : Bool) {s : σ} {w1 w2 : Nat → R} {S1 S2 : List Nat}
    (h : P s n w1 S1 w2 S2) : ∃ s' w1' S1' w2' S2', VSwap.sparse dbg T1 T2 s = .ok s' ∧ P s' n w1' S1' w2' S2' ∧ ∀ i, i < n → w1' i = w2 i ∧ w2' i = w1 i := by
  have l1 := hP.fst
  have l2 := hP.snd
  obtain ⟨s1, S1', e1, p1, a1, b1⟩ := conform_ok (l1 w2 S2) (hg.fst w2 S2) T2 dbg (v := w2) h ((l2 w1 S1).size _ _ _ _ h) ((l2 w1 S1).its _ _ _ _ h)
    ((l2 w1 S1).sorted _ _ _ _ h) ((l2 w1 S1).lt _ _ _ _ h) ((l2 w1 S1).get _ _ _ _ h)
  obtain ⟨s2, S2', e2, p2, a2, b2⟩ := conform_ok (l2 w1 S1') (hg.snd w1 S1') T1 dbg (v := w1) p1 ((l1 w2 S2).size _ _ _ _ p1) ((l1 w2 S2).its _ _ _ _ p1)
    ((l1 w2 S2).sorted _ _ _ _ p1) ((l1 w2 S2).lt _ _ _ _ p1) ((l1 w2 S2).get _ _ _ _ p1)
  have q1 := l1 w2 S2'
  have q2 := l2 w1 S1'
  obtain ⟨s3, e3, p3⟩ := mergeLoop_ok hP (S1'.length + S2'.length + 1) S1' S2' s2 w1 w2 p2 (by omega) (q1.sorted _ _ _ _ p2) (q1.consec _ _ _ _ p2) (fun _ hi => hi)
    (q2.sorted _ _ _ _ p2) (q2.consec _ _ _ _ p2) (fun _ hi => hi)
  refine ⟨s3, _, _, _, _, ?_, p3, fun i hi => ?_⟩
  · simp only [VSwap.sparse, (l1 w2 S2).size _ _ _ _ h, (l2 w1 S1).size _ _ _ _ h, check_True, bind_ok, e1, e2, q1.its _ _ _ _ p2, q2.its _ _ _ _ p2, e3]
  · simp only [exch]
    by_cases c1 : i ∈ S1'
    · by_cases c2 : i ∈ S2'
      · simp [c1, c2]
      · have z2 : w2 i = 0 := q2.off _ _ _ _ p2 i hi c2
        have z1 : w1 i = 0 := by
          by_contra hne
          exact c2 (b2 i c1 hne)
        simp [c1, c2, z1, z2]
    · have z1 : w1 i = 0 := q1.off _ _ _ _ p2 i hi c1
      have z2 : w2 i = 0 := by
        by_cases c2 : i ∈ S2
        · by_contra hne
          exact c1 (b1 i c2 hne)
        · exact (l2 w1 S1).off _ _ _ _ h i hi c2
      simp [c1, z1, z2]

theorem dense_ok (hP : VT.Pair T1 T2 P) (hf : P.Full) (dbg : Bool) {s : σ} {w1 w2 : Nat → R} {S1 S2 : List Nat}
    (h : P s n w1 S1 w2 S2) : ∃ s' w1' w2', VSwap.dense dbg T1 T2 s = .ok s' ∧ P s' n w1' S1 w2' S2 ∧ ∀ i, i < n → w1' i = w2 i ∧ w2' i = w1 i := by
  obtain ⟨f1, f2⟩ := hf _ _ _ _ _ _ h
  obtain ⟨s1, e1, p1⟩ := swapLoop_ok hP (List.range n) s w1 w2 h List.nodup_range (by rw [f1]; simp) (by rw [f2]; simp)
  refine ⟨s1, _, _, ?_, p1, fun i hi => by simp [exch, hi]⟩
  simp only [VSwap.dense, same, (hP.fst w2 S2).size _ _ _ _ h, (hP.snd w1 S1).size _ _ _ _ h, check_True, bind_ok, Nat.min_self, pure_eq_ok,
    (hP.fst w2 S2).its _ _ _ _ h, (hP.snd w1 S1).its _ _ _ _ h]
  rw [f1, f2] at *
  simp only [List.length_range, Nat.lt_irrefl, or_self, if_false]
  rw [List.take_of_length_le (by simp)]
  exact e1

end VSwap

variable {σ R : Type} [AddGroup R] [DecidableEq R] {T1 T2 : VT σ R} {P : PRep σ R}

/-- **C79** `view1.swap (view2)` for two vector views that do not share elements, both dense, or one dense and one sparse, or both sparse: afterwards the first view
holds what the second one held and the second one what the first one held. -/
theorem C79_swap (dbg : Bool) (sc : StorageCat) (hP : VT.Pair T1 T2 P)
    (hsc : (sc = .denseProxy ∧ T2.cat = .dense ∧ P.Full) ∨ ((sc = .denseProxy ∨ sc = .sparseProxy) ∧ T2.cat = .sparse ∧ VT.PairGrows T1 T2 P) ∨
      (sc = .sparseProxy ∧ T2.cat = .dense ∧ VT.PairGrows T1 T2 P))
    {s : σ} {n : Nat} {w1 w2 : Nat → R} {S1 S2 : List Nat} (h : P s n w1 S1 w2 S2) :
    ∃ s' w1' S1' w2' S2', VSwap.member dbg sc T1 T2 s = .ok s' ∧ P s' n w1' S1' w2' S2' ∧ ∀ i, i < n → w1' i = w2 i ∧ w2' i = w1 i := by
  simp only [VSwap.member, (hP.fst w2 S2).size _ _ _ _ h, (hP.snd w1 S1).size _ _ _ _ h, check_True, bind_ok]
  rcases hsc with ⟨rfl, hc, hf⟩ | ⟨rfl | rfl, hc, hg⟩ | ⟨rfl, hc, hg⟩
  · obtain ⟨s', w1', w2', e, p, hv⟩ := VSwap.dense_ok hP hf dbg h
    exact ⟨s', w1', S1, w2', S2, by simp only [VSwap.swap, hc, e], p, hv⟩
  · obtain ⟨s', w1', S1', w2', S2', e, r⟩ := VSwap.sparse_ok hP hg dbg h
    exact ⟨s', w1', S1', w2', S2', by simp only [VSwap.swap, hc, e], r⟩
  · obtain ⟨s', w1', S1', w2', S2', e, r⟩ := VSwap.sparse_ok hP hg dbg h
    exact ⟨s', w1', S1', w2', S2', by simp only [VSwap.swap, e], r⟩
  · obtain ⟨s', w1', S1', w2', S2', e, r⟩ := VSwap.sparse_ok hP hg dbg h
    exact ⟨s', w1', S1', w2', S2', by simp only [VSwap.swap, e], r⟩

omit [AddGroup R] in
/-- **C79** In debug, views of different sizes are refused before anything is written. -/
theorem C79_size_mismatch [Zero R] (sc : StorageCat) (T1 T2 : VT σ R) (s : σ) (h : T1.size s ≠ T2.size s) : VSwap.member true sc T1 T2 s = .error .badSize := by
  simp only [VSwap.member]
  rw [check_dbg_false h]; rfl

/-! ## Two views of one dense array -/

/-- Two views with `n` elements each on an array that was `orig` before: the viewed elements are `w1` and `w2`, all others are those of `orig`. -/
def View2 (n : Nat) (a1 a2 : Nat → Nat) (orig : List R) : PRep (List R) R := fun s n' w1 S1 w2 S2 =>
  n' = n ∧ S1 = List.range n ∧ S2 = List.range n ∧ s.length = orig.length ∧ (∀ i, i < n → s[a1 i]? = some (w1 i)) ∧ (∀ i, i < n → s[a2 i]? = some (w2 i)) ∧
    ∀ k : Nat, (∀ i, i < n → a1 i ≠ k ∧ a2 i ≠ k) → s[k]? = orig[k]?

omit [DecidableEq R] in
theorem View2.lawful (dbg : Bool) (n : Nat) (a1 a2 : Nat → Nat) (orig : List R) (inj1 : ∀ i j, i < n → j < n → a1 i = a1 j → i = j)
    (dis : ∀ i j, i < n → j < n → a1 i ≠ a2 j) (w2 : Nat → R) (S2 : List Nat) :
    (VT.view dbg n a1 : VT (List R) R).Lawful fun s n' w S => View2 n a1 a2 orig s n' w S w2 S2 where
  size s n' w S h := h.1.symm
  its s n' w S h := h.2.1.symm
  sorted s n' w S h := by rw [h.2.1]; exact List.pairwise_lt_range
  lt s n' w S h i hi := by rw [h.2.1, List.mem_range] at hi; rw [h.1]; exact hi
  off s n' w S h i hi hm := by rw [h.2.1, List.mem_range] at hm; rw [h.1] at hi; exact absurd hi hm
  get s n' w S h i hi := by
    rw [h.2.1, List.mem_range] at hi
    show (do check dbg (i < n) .badIndex; rd dbg s (a1 i)) = _
    rw [check_true hi, bind_ok]
    exact rd_eq_ok.2 (h.2.2.2.2.1 i hi)
  put s n' w S h i hi t := by
    obtain ⟨h1, h2, h3, h4, h5, h6, h7⟩ := h
    rw [h2, List.mem_range] at hi
    have hl : a1 i < s.length := (List.getElem?_eq_some_iff.1 (h5 i hi)).1
    refine ⟨s.set (a1 i) t, ?_, h1, h2, h3, by simpa using h4, fun k hk => ?_, fun k hk => ?_, fun k hk => ?_⟩
    · show (do check dbg (i < n) .badIndex; wr dbg s (a1 i) t) = _
      rw [check_true hi, bind_ok, wr_ok hl]
    · by_cases e : k = i
      · subst e; simp [hl]
      · rw [Function.update_of_ne e, List.getElem?_set_ne (fun c => e (inj1 k i hk hi c.symm))]
        exact h5 k hk
    · rw [List.getElem?_set_ne (dis i k hi hk)]; exact h6 k hk
    · rw [List.getElem?_set_ne (hk i hi).1]; exact h7 k hk
  consec s n' w S h _ := ⟨0, by rw [h.2.1, List.length_range, List.range_eq_range']⟩

omit [AddGroup R] [DecidableEq R] in
theorem View2.symm {n : Nat} {a1 a2 : Nat → Nat} {orig s : List R} {n' : Nat} {w1 w2 : Nat → R} {S1 S2 : List Nat} (h : View2 n a1 a2 orig s n' w1 S1 w2 S2) :
    View2 n a2 a1 orig s n' w2 S2 w1 S1 :=
  ⟨h.1, h.2.2.1, h.2.1, h.2.2.2.1, h.2.2.2.2.2.1, h.2.2.2.2.1, fun k hk => h.2.2.2.2.2.2 k fun i hi => ⟨(hk i hi).2, (hk i hi).1⟩⟩

omit [DecidableEq R] in
theorem View2.pair (dbg : Bool) (n : Nat) (a1 a2 : Nat → Nat) (orig : List R) (inj1 : ∀ i j, i < n → j < n → a1 i = a1 j → i = j)
    (inj2 : ∀ i j, i < n → j < n → a2 i = a2 j → i = j) (dis : ∀ i j, i < n → j < n → a1 i ≠ a2 j) :
    VT.Pair (VT.view dbg n a1) (VT.view dbg n a2) (View2 n a1 a2 orig) where
  fst := View2.lawful dbg n a1 a2 orig inj1 dis
  snd w1 S1 := by
    have h := View2.lawful dbg n a2 a1 orig inj2 (fun i j hi hj e => dis j i hj hi e.symm) w1 S1
    have hiff : (fun s n' w S => View2 n a1 a2 orig s n' w1 S1 w S) = fun s n' w S => View2 n a2 a1 orig s n' w S w1 S1 := by
      funext s n' w S; exact propext ⟨View2.symm, View2.symm⟩
    rw [hiff]; exact h

/-- **C79** Swapping two ranges, slices, rows or columns of dense containers (views of `n` elements at the positions `a1` and `a2` of one array, no position used
twice) exchanges their elements and changes nothing else. -/
theorem C79_dense_views (dbg : Bool) (n : Nat) (a1 a2 : Nat → Nat) (data : List R) (inj1 : ∀ i j, i < n → j < n → a1 i = a1 j → i = j)
    (inj2 : ∀ i j, i < n → j < n → a2 i = a2 j → i = j) (dis : ∀ i j, i < n → j < n → a1 i ≠ a2 j) (hin : ∀ i, i < n → a1 i < data.length ∧ a2 i < data.length) :
    ∃ data', VSwap.member dbg .denseProxy (VT.view dbg n a1) (VT.view dbg n a2) data = .ok data' ∧ data'.length = data.length ∧
      (∀ i, i < n → data'[a1 i]? = data[a2 i]? ∧ data'[a2 i]? = data[a1 i]?) ∧ ∀ k : Nat, (∀ i, i < n → a1 i ≠ k ∧ a2 i ≠ k) → data'[k]? = data[k]? := by
  have h : View2 n a1 a2 data data n (fun i => data.getD (a1 i) 0) (List.range n) (fun i => data.getD (a2 i) 0) (List.range n) :=
    ⟨rfl, rfl, rfl, rfl, fun i hi => by simp [(hin i hi).1], fun i hi => by simp [(hin i hi).2], fun _ _ => rfl⟩
  obtain ⟨s', w1', S1', w2', S2', e, p, hv⟩ := C79_swap dbg .denseProxy (View2.pair dbg n a1 a2 data inj1 inj2 dis)
    (.inl ⟨rfl, rfl, fun s n' w1 S1 w2 S2 h => ⟨by rw [h.2.1, h.1], by rw [h.2.2.1, h.1]⟩⟩) h
  refine ⟨s', e, p.2.2.2.1, fun i hi => ?_, p.2.2.2.2.2.2⟩
  rw [p.2.2.2.2.1 i hi, p.2.2.2.2.2.1 i hi, (hv i hi).1, (hv i hi).2]
  simp [(hin i hi).1, (hin i hi).2]

/-- Non-vacuity: rows 0 and 2 of a 3 x 2 row_major matrix. -/
example : VSwap.member true .denseProxy (VT.view true 2 fun j => j) (VT.view true 2 fun j => 4 + j) [1, 2, 3, 4, 5, (6 : Int)] = .ok [5, 6, 3, 4, 1, 2] := by rfl

/-! ## Views of two containers -/

/-- The states of two containers side by side. -/
def SideBySide {σ1 σ2 : Type} (Rep1 : σ1 → Nat → (Nat → R) → List Nat → Prop) (Rep2 : σ2 → Nat → (Nat → R) → List Nat → Prop) : PRep (σ1 × σ2) R :=
  fun s n w1 S1 w2 S2 => Rep1 s.1 n w1 S1 ∧ Rep2 s.2 n w2 S2

section
variable {σ1 σ2 : Type} {Rep1 : σ1 → Nat → (Nat → R) → List Nat → Prop} {Rep2 : σ2 → Nat → (Nat → R) → List Nat → Prop} {U1 : VT σ1 R} {U2 : VT σ2 R}

omit [DecidableEq R] in
theorem SideBySide.pair (h1 : U1.Lawful Rep1) (h2 : U2.Lawful Rep2) : VT.Pair (VT.left U1 : VT (σ1 × σ2) R) (VT.right U2) (SideBySide Rep1 Rep2) where
  fst w2 S2 :=
    { size := fun s n w S h => h1.size _ _ _ _ h.1
      its := fun s n w S h => h1.its _ _ _ _ h.1
      sorted := fun s n w S h => h1.sorted _ _ _ _ h.1
      lt := fun s n w S h => h1.lt _ _ _ _ h.1
      off := fun s n w S h => h1.off _ _ _ _ h.1
      get := fun s n w S h => h1.get _ _ _ _ h.1
      put := fun s n w S h i hi t => by
        obtain ⟨s', e, h'⟩ := h1.put _ _ _ _ h.1 i hi t
        exact ⟨(s', s.2), by show (do .ok (← U1.put s.1 i t, s.2)) = _; rw [e]; rfl, h', h.2⟩
      consec := fun s n w S h hc => h1.consec _ _ _ _ h.1 hc }
  snd w1 S1 :=
    { size := fun s n w S h => h2.size _ _ _ _ h.2
      its := fun s n w S h => h2.its _ _ _ _ h.2
      sorted := fun s n w S h => h2.sorted _ _ _ _ h.2
      lt := fun s n w S h => h2.lt _ _ _ _ h.2
      off := fun s n w S h => h2.off _ _ _ _ h.2
      get := fun s n w S h => h2.get _ _ _ _ h.2
      put := fun s n w S h i hi t => by
        obtain ⟨s', e, h'⟩ := h2.put _ _ _ _ h.2 i hi t
        exact ⟨(s.1, s'), by show (do .ok (s.1, ← U2.put s.2 i t)) = _; rw [e]; rfl, h.1, h'⟩
      consec := fun s n w S h hc => h2.consec _ _ _ _ h.2 hc }

omit [DecidableEq R] in
theorem SideBySide.grows (h1 : U1.Grows Rep1) (h2 : U2.Grows Rep2) : VT.PairGrows (VT.left U1 : VT (σ1 × σ2) R) (VT.right U2) (SideBySide Rep1 Rep2) where
  fst w2 S2 s n w S h i hi t := by
    obtain ⟨s', S', e, h', m⟩ := h1 _ _ _ _ h.1 i hi t
    exact ⟨(s', s.2), S', by show (do .ok (← U1.ref s.1 i t, s.2)) = _; rw [e]; rfl, ⟨h', h.2⟩, m⟩
  snd w1 S1 s n w S h i hi t := by
    obtain ⟨s', S', e, h', m⟩ := h2 _ _ _ _ h.2 i hi t
    exact ⟨(s.1, s'), S', by show (do .ok (s.1, ← U2.ref s.2 i t)) = _; rw [e]; rfl, ⟨h.1, h'⟩, m⟩
end

/-- **C79** Swapping (a view of all of) a dense vector with a sparse vector exchanges their elements: the dense one holds the sparse one's elements and the sparse one
reads as the dense one did; either may be the left operand. -/
theorem C79_dense_sparse (dbg : Bool) (IB : Nat) (junk : CVec.Junk R) (d : List R) (v : CVec R) (sp : SparseSpec.Vec R) (hv : CVec.Inv IB v sp) (hs : sp.size = d.length) :
    (∃ d' v' sp', VSwap.member dbg .denseProxy (VT.left (VT.view dbg d.length id)) (VT.right (VT.compressed dbg IB junk)) (d, v) = .ok (d', v') ∧
      CVec.Inv IB v' sp' ∧ sp'.size = d.length ∧ d'.length = d.length ∧ ∀ i, i < d.length → d'[i]? = some ((sp.val i).getD 0) ∧ some ((sp'.val i).getD 0) = d[i]?) ∧
    ∃ d' v' sp', VSwap.member dbg .sparseProxy (VT.left (VT.compressed dbg IB junk)) (VT.right (VT.view dbg d.length id)) (v, d) = .ok (v', d') ∧
      CVec.Inv IB v' sp' ∧ sp'.size = d.length ∧ d'.length = d.length ∧ ∀ i, i < d.length → d'[i]? = some ((sp.val i).getD 0) ∧ some ((sp'.val i).getD 0) = d[i]? := by
  obtain ⟨E, hE⟩ := hv
  have hD := (view_supports dbg d.length id d (fun i j _ _ h => h)).2
  have hC := compressed_supports dbg IB junk (R := R)
  have rD : ViewRep d.length id d d d.length (fun i => d.getD i 0) (List.range d.length) := ⟨rfl, rfl, rfl, fun i hi => by simp [List.getD, hi], fun _ _ => rfl⟩
  have rC : CVecRep IB v d.length (fun i => (sp.val i).getD 0) (E.map (·.1)) := ⟨E, sp, hE, hs, rfl, rfl⟩
  constructor
  · obtain ⟨s', w1', S1', w2', S2', e, ⟨p1, p2⟩, hw⟩ := C79_swap dbg .denseProxy (SideBySide.pair hD.1 hC.1)
      (.inr (.inl ⟨.inl rfl, rfl, SideBySide.grows (VT.Full.grows hD.1 hD.2.1) hC.2.1⟩)) (s := (d, v)) ⟨rD, rC⟩
    obtain ⟨E', sp', q1, q2, q3, q4⟩ := p2
    refine ⟨s'.1, s'.2, sp', e, ⟨E', q1⟩, q2, p1.2.2.1, fun i hi => ?_⟩
    obtain ⟨h1, h2⟩ := hw i hi
    have h3 : s'.1[i]? = some (w1' i) := p1.2.2.2.1 i hi
    rw [q3] at h2
    simp only at h2
    rw [h3, h1, h2]
    simp [hi]
  · obtain ⟨s', w1', S1', w2', S2', e, ⟨p1, p2⟩, hw⟩ := C79_swap dbg .sparseProxy (SideBySide.pair hC.1 hD.1)
      (.inr (.inr ⟨rfl, rfl, SideBySide.grows hC.2.1 (VT.Full.grows hD.1 hD.2.1)⟩)) (s := (v, d)) ⟨rC, rD⟩
    obtain ⟨E', sp', q1, q2, q3, q4⟩ := p1
    refine ⟨s'.2, s'.1, sp', e, ⟨E', q1⟩, q2, p2.2.2.1, fun i hi => ?_⟩
    obtain ⟨h1, h2⟩ := hw i hi
    have h3 : s'.2[i]? = some (w2' i) := p2.2.2.2.1 i hi
    rw [q3] at h1
    simp only at h1
    rw [h3, h2, h1]
    simp [hi]

/-- **C79** Swapping two sparse vectors of the same size exchanges their elements. -/
theorem C79_sparse_sparse (dbg : Bool) (IB : Nat) (junk : CVec.Junk R) (v1 v2 : CVec R) (s1 s2 : SparseSpec.Vec R) (h1 : CVec.Inv IB v1 s1) (h2 : CVec.Inv IB v2 s2)
    (hs : s1.size = s2.size) :
    ∃ v1' v2' s1' s2', VSwap.member dbg .sparseProxy (VT.left (VT.compressed dbg IB junk)) (VT.right (VT.compressed dbg IB junk)) (v1, v2) = .ok (v1', v2') ∧
      CVec.Inv IB v1' s1' ∧ CVec.Inv IB v2' s2' ∧ s1'.size = s1.size ∧ s2'.size = s2.size ∧
      ∀ i, i < s1.size → (s1'.val i).getD 0 = (s2.val i).getD 0 ∧ (s2'.val i).getD 0 = (s1.val i).getD 0 := by
  obtain ⟨E1, hE1⟩ := h1
  obtain ⟨E2, hE2⟩ := h2
  have hC := compressed_supports dbg IB junk (R := R)
  obtain ⟨s', w1', S1', w2', S2', e, ⟨p1, p2⟩, hw⟩ := C79_swap dbg .sparseProxy (SideBySide.pair hC.1 hC.1)
    (.inr (.inl ⟨.inr rfl, rfl, SideBySide.grows hC.2.1 hC.2.1⟩)) (s := (v1, v2)) (n := s1.size)
    ⟨⟨E1, s1, hE1, rfl, rfl, rfl⟩, ⟨E2, s2, hE2, hs.symm, rfl, rfl⟩⟩
  obtain ⟨E1', s1', a1, a2, a3, _⟩ := p1
  obtain ⟨E2', s2', b1, b2, b3, _⟩ := p2
  refine ⟨s'.1, s'.2, s1', s2', e, ⟨E1', a1⟩, ⟨E2', b1⟩, a2, b2.trans hs, fun i hi => ?_⟩
  have := hw i hi
  rw [a3, b3] at this
  exact this

/-! ## Two lines of one compressed_matrix -/

/-- Lines `k1` and `k2` hold `w1` and `w2`, every other line what it held in `w0`. -/
def Lines2 (o : Orient) (IB r k1 k2 : Nat) (w0 : Nat → Nat → R) : PRep (CMat R) R := fun v n w1 S1 w2 S2 =>
  ∃ Ls S, CMatRep o IB v r n (Function.update (Function.update w0 k1 w1) k2 w2) Ls S ∧ S1 = S k1 ∧ S2 = S k2

omit [DecidableEq R] in
theorem eq_of_sorted_mem {l l' : List Nat} (h : l.Pairwise (· < ·)) (h' : l'.Pairwise (· < ·)) (hm : ∀ k, k ∈ l ↔ k ∈ l') : l = l' := by
  induction l generalizing l' with
  | nil =>
    cases l' with
    | nil => rfl
    | cons a l' => exact absurd ((hm a).2 (by simp)) (by simp)
  | cons a l ih =>
    cases l' with
    | nil => exact absurd ((hm a).1 (by simp)) (by simp)
    | cons b l' =>
      rw [List.pairwise_cons] at h h'
      have hab : a = b := by
        have ha := (hm a).1 (by simp)
        have hb := (hm b).2 (by simp)
        rw [List.mem_cons] at ha hb
        rcases ha with ha | ha
        · exact ha
        · rcases hb with hb | hb
          · exact hb.symm
          · have := h.1 b hb
            have := h'.1 a ha
            omega
      subst hab
      congr 1
      refine ih h.2 h'.2 fun k => ?_
      have := hm k
      rw [List.mem_cons, List.mem_cons] at this
      constructor
      · intro hk
        rcases this.1 (.inr hk) with e | e
        · have := h.1 k hk; omega
        · exact e
      · intro hk
        rcases this.2 (.inr hk) with e | e
        · have := h'.1 k hk; omega
        · exact e

omit [DecidableEq R] in
theorem cmat_line_lawful (dbg : Bool) (o : Orient) (IB : Nat) (junk : CMat.Junk R) {v : CMat R} {r n : Nat} {w : Nat → Nat → R} {Ls : List Nat} {S : Nat → List Nat}
    (h : CMatRep o IB v r n w Ls S) {k : Nat} (hk : k < r) :
    v.lineIdx IB k = S k ∧ (S k).Pairwise (· < ·) ∧ (∀ l ∈ S k, k ∈ Ls ∧ l < n) := by
  have hT := (compressedMatrix_supports dbg o IB junk (R := R)).1
  have hS : S = v.lineIdx IB := by obtain ⟨_, _, _, _, _, _, hS⟩ := h; exact hS
  have hm : k ∈ Ls := by
    obtain ⟨_, _, _, _, _, hl, _⟩ := h
    rw [hl]; exact List.mem_range.2 hk
  have := hT.its _ _ _ _ _ _ h k hm
  exact ⟨this.1, this.2.1, fun l hl => ⟨hm, this.2.2 l hl⟩⟩

omit [DecidableEq R] in
theorem Lines2.fst (dbg : Bool) (o : Orient) (IB : Nat) (junk : CMat.Junk R) {r k1 k2 : Nat} (hk1 : k1 < r) (hne : k1 ≠ k2) (w0 : Nat → Nat → R) (w2 : Nat → R)
    (S2 : List Nat) : ((MT.compressed dbg o IB junk).line k1).Lawful fun s n w S => Lines2 o IB r k1 k2 w0 s n w S w2 S2 := by
  have hT := (compressedMatrix_supports dbg o IB junk (R := R)).1
  have hat : ∀ (w : Nat → R), Function.update (Function.update w0 k1 w) k2 w2 k1 = w := fun w => by rw [Function.update_of_ne hne, Function.update_self]
  refine ⟨?_, ?_, ?_, ?_, ?_, ?_, ?_, ?_⟩
  · rintro s n w S ⟨Ls, Sm, h, _, _⟩
    exact (hT.sizes _ _ _ _ _ _ h).2
  · rintro s n w S ⟨Ls, Sm, h, rfl, _⟩
    exact (cmat_line_lawful dbg o IB junk h hk1).1
  · rintro s n w S ⟨Ls, Sm, h, rfl, _⟩
    exact (cmat_line_lawful dbg o IB junk h hk1).2.1
  · rintro s n w S ⟨Ls, Sm, h, rfl, _⟩ i hi
    exact ((cmat_line_lawful dbg o IB junk h hk1).2.2 i hi).2
  · rintro s n w S ⟨Ls, Sm, h, rfl, _⟩ i hi hm
    have := hT.off _ _ _ _ _ _ h k1 i hk1 hi (fun c => hm c.2)
    rwa [hat] at this
  · rintro s n w S ⟨Ls, Sm, h, rfl, _⟩ i hi
    have := hT.get _ _ _ _ _ _ h k1 ((cmat_line_lawful dbg o IB junk h hk1).2.2 i hi).1 i hi
    rwa [hat] at this
  · rintro s n w S ⟨Ls, Sm, h, rfl, h2⟩ i hi t
    obtain ⟨s', e, h'⟩ := hT.put _ _ _ _ _ _ h k1 ((cmat_line_lawful dbg o IB junk h hk1).2.2 i hi).1 i hi t
    refine ⟨s', e, Ls, Sm, ?_, rfl, h2⟩
    rw [MAssign.update2_eq, hat, Function.update_comm hne, Function.update_idem, Function.update_comm hne.symm] at h'
    exact h'
  · rintro s n w S _ hc
    exact absurd rfl hc

omit [DecidableEq R] in
theorem Lines2.symm {o : Orient} {IB r k1 k2 : Nat} (hne : k1 ≠ k2) {w0 : Nat → Nat → R} {v : CMat R} {n : Nat} {w1 w2 : Nat → R} {S1 S2 : List Nat}
    (h : Lines2 o IB r k1 k2 w0 v n w1 S1 w2 S2) : Lines2 o IB r k2 k1 w0 v n w2 S2 w1 S1 := by
  obtain ⟨Ls, S, h1, h2, h3⟩ := h
  exact ⟨Ls, S, by rw [Function.update_comm hne.symm]; exact h1, h3, h2⟩

omit [DecidableEq R] in
theorem Lines2.grows1 (dbg : Bool) (o : Orient) (IB : Nat) (junk : CMat.Junk R) {r k1 k2 : Nat} (hk1 : k1 < r) (hk2 : k2 < r) (hne : k1 ≠ k2) (w0 : Nat → Nat → R)
    (w2 : Nat → R) (S2 : List Nat) : ((MT.compressed dbg o IB junk).line k1).Grows fun s n w S => Lines2 o IB r k1 k2 w0 s n w S w2 S2 := by
  have hG := (compressedMatrix_supports dbg o IB junk (R := R)).2.1
  have hat : ∀ (w : Nat → R), Function.update (Function.update w0 k1 w) k2 w2 k1 = w := fun w => by rw [Function.update_of_ne hne, Function.update_self]
  rintro s n w S ⟨Ls, Sm, h, rfl, rfl⟩ i hi t
  obtain ⟨s', Ls', S', e, h', hm⟩ := hG _ _ _ _ _ _ h k1 i hk1 hi t
  rw [MAssign.update2_eq, hat, Function.update_comm hne, Function.update_idem, Function.update_comm hne.symm] at h'
  have q : ∀ {k}, k < r → _ := fun {k} hk => cmat_line_lawful dbg o IB junk h (k := k) hk
  have q' : ∀ {k}, k < r → _ := fun {k} hk => cmat_line_lawful dbg o IB junk h' (k := k) hk
  have mem : ∀ k, k < r → ∀ l, l ∈ S' k ↔ (k = k1 ∧ l = i) ∨ l ∈ Sm k := by
    intro k hk l
    constructor
    · intro hl
      have := (q' hk).2.2 l hl
      rcases (hm k l hk this.2).1 ⟨this.1, hl⟩ with c | c
      · exact .inl c
      · exact .inr c.2
    · rintro (⟨rfl, rfl⟩ | hl)
      · exact ((hm k l hk hi).2 (.inl ⟨rfl, rfl⟩)).2
      · have := (q hk).2.2 l hl
        exact ((hm k l hk this.2).2 (.inr ⟨this.1, hl⟩)).2
  refine ⟨s', S' k1, e, ⟨Ls', S', h', rfl, ?_⟩, fun k => by rw [mem k1 hk1]; simp⟩
  refine eq_of_sorted_mem (q hk2).2.1 (q' hk2).2.1 fun l => ?_
  rw [mem k2 hk2]
  simp [hne.symm]

omit [DecidableEq R] in
theorem Lines2.pair (dbg : Bool) (o : Orient) (IB : Nat) (junk : CMat.Junk R) {r k1 k2 : Nat} (hk1 : k1 < r) (hk2 : k2 < r) (hne : k1 ≠ k2) (w0 : Nat → Nat → R) :
    VT.Pair ((MT.compressed dbg o IB junk).line k1) ((MT.compressed dbg o IB junk).line k2) (Lines2 o IB r k1 k2 w0) ∧
    VT.PairGrows ((MT.compressed dbg o IB junk).line k1) ((MT.compressed dbg o IB junk).line k2) (Lines2 o IB r k1 k2 w0) := by
  have hiff : ∀ w1 S1, (fun s n w S => Lines2 o IB r k1 k2 w0 s n w1 S1 w S) = fun s n w S => Lines2 o IB r k2 k1 w0 s n w S w1 S1 := by
    intro w1 S1
    funext s n w S; exact propext ⟨Lines2.symm hne, Lines2.symm hne.symm⟩
  refine ⟨⟨Lines2.fst dbg o IB junk hk1 hne w0, fun w1 S1 => ?_⟩, ⟨Lines2.grows1 dbg o IB junk hk1 hk2 hne w0, fun w1 S1 => ?_⟩⟩
  · rw [hiff]; exact Lines2.fst dbg o IB junk hk2 hne.symm w0 w1 S1
  · rw [hiff]; exact Lines2.grows1 dbg o IB junk hk2 hk1 hne.symm w0 w1 S1

/-- **C79** Swapping two rows of a row_major compressed_matrix (two columns of a column_major one) exchanges their elements, whatever positions are stored in either,
and changes no other element. -/
theorem C79_compressed_lines (dbg : Bool) (o : Orient) (IB : Nat) (junk : CMat.Junk R) (v : CMat R) (s : SparseSpec.CMatS R) (h : CMat.Inv o IB v s) (k1 k2 : Nat)
    (hk1 : k1 < o.sizeM s.rows s.cols) (hk2 : k2 < o.sizeM s.rows s.cols) (hne : k1 ≠ k2) :
    ∃ v' s', VSwap.member dbg .sparseProxy ((MT.compressed dbg o IB junk).line k1) ((MT.compressed dbg o IB junk).line k2) v = .ok v' ∧ CMat.Inv o IB v' s' ∧
      o.sizeM s'.rows s'.cols = o.sizeM s.rows s.cols ∧ o.sizem s'.rows s'.cols = o.sizem s.rows s.cols ∧
      ∀ k l, l < o.sizem s.rows s.cols → (s'.val (o.indexM k l, o.indexm k l)).getD 0 =
        (let k' := if k = k1 then k2 else if k = k2 then k1 else k
         (s.val (o.indexM k' l, o.indexm k' l)).getD 0) := by
  set w0 : Nat → Nat → R := fun k l => (s.val (o.indexM k l, o.indexm k l)).getD 0 with hw0
  obtain ⟨hP, hG⟩ := Lines2.pair dbg o IB junk hk1 hk2 hne w0
  have hup : Function.update (Function.update w0 k1 (w0 k1)) k2 (w0 k2) = w0 := by simp
  obtain ⟨v', w1', S1', w2', S2', e, ⟨Ls, S, p, _, _⟩, hw⟩ := C79_swap dbg .sparseProxy hP (.inr (.inl ⟨.inr rfl, rfl, hG⟩)) (s := v)
    (n := o.sizem s.rows s.cols) (w1 := w0 k1) (w2 := w0 k2) (S1 := v.lineIdx IB k1) (S2 := v.lineIdx IB k2)
    ⟨_, v.lineIdx IB, ⟨s, h, rfl, rfl, by rw [hup], rfl, rfl⟩, rfl, rfl⟩
  obtain ⟨s', q1, q2, q3, q4, _, _⟩ := p
  refine ⟨v', s', e, q1, q2, q3, fun k l hl => ?_⟩
  have := congrFun (congrFun q4 k) l
  refine this.symm.trans ?_
  obtain ⟨b1, b2⟩ := hw l hl
  by_cases c2 : k = k2
  · subst c2
    rw [Function.update_self, b2, if_neg hne.symm, if_pos rfl]
  · rw [Function.update_of_ne c2]
    by_cases c1 : k = k1
    · subst c1
      rw [Function.update_self, b1, if_pos rfl]
    · rw [Function.update_of_ne c1, if_neg c1, if_neg c2]

/-! ## Matrix views -/

omit [AddGroup R] [DecidableEq R] in
theorem swapLoop_congr [Zero R] {T1 T2 U1 U2 : VT σ R} (h1 : T1.get = U1.get) (h2 : T2.get = U2.get) (h3 : T1.put = U1.put) (h4 : T2.put = U2.put) :
    ∀ (L Q : List Nat) (s : σ), VSwap.swapLoop T1 T2 L Q s = VSwap.swapLoop U1 U2 L Q s := by
  intro L
  induction L with
  | nil => intro Q s; simp only [VSwap.swapLoop]
  | cons i l ih =>
    intro Q s
    cases Q with
    | nil => simp only [VSwap.swapLoop]
    | cons j r => simp only [VSwap.swapLoop, h1, h2, h3, h4, ih]

omit [DecidableEq R] in
theorem MSwap.lineLoop_ok (dbg : Bool) (r c : Nat) (a1 a2 : Nat → Nat → Nat) (orig : List R)
    (inj1 : ∀ k l k' l', k < r → l < c → k' < r → l' < c → a1 k l = a1 k' l' → k = k' ∧ l = l')
    (inj2 : ∀ k l k' l', k < r → l < c → k' < r → l' < c → a2 k l = a2 k' l' → k = k' ∧ l = l')
    (dis : ∀ k l k' l', k < r → l < c → k' < r → l' < c → a1 k l ≠ a2 k' l')
    (hin : ∀ k l, k < r → l < c → a1 k l < orig.length ∧ a2 k l < orig.length) :
    ∀ (m b : Nat) (s : List R), b + m = r → s.length = orig.length →
    (∀ k l, k < r → l < c → s[a1 k l]? = (if k < b then orig[a2 k l]? else orig[a1 k l]?) ∧ s[a2 k l]? = (if k < b then orig[a1 k l]? else orig[a2 k l]?)) →
    (∀ p : Nat, (∀ k l, k < r → l < c → a1 k l ≠ p ∧ a2 k l ≠ p) → s[p]? = orig[p]?) →
    ∃ s', MSwap.lineLoop dbg (MT.view dbg r c a1) (MT.view dbg r c a2) (List.range' b m) (List.range' b m) s = .ok s' ∧ s'.length = orig.length ∧
      (∀ k l, k < r → l < c → s'[a1 k l]? = orig[a2 k l]? ∧ s'[a2 k l]? = orig[a1 k l]?) ∧
      ∀ p : Nat, (∀ k l, k < r → l < c → a1 k l ≠ p ∧ a2 k l ≠ p) → s'[p]? = orig[p]? := by
  intro m
  induction m with
  | zero =>
    intro b s hb hl hv hp
    refine ⟨s, by simp [MSwap.lineLoop], hl, fun k l hk hl => ?_, hp⟩
    have := hv k l hk hl
    rwa [if_pos (by omega), if_pos (by omega)] at this
  | succ m ih =>
    intro b s hb hlen hv hp
    have hbr : b < r := by omega
    rw [List.range'_succ]
    have hP := View2.pair (R := R) dbg c (a1 b) (a2 b) s (fun i j hi hj e => (inj1 b i b j hbr hi hbr hj e).2) (fun i j hi hj e => (inj2 b i b j hbr hi hbr hj e).2)
      (fun i j hi hj => dis b i b j hbr hi hbr hj)
    have hb1 : ∀ i, i < c → a1 b i < s.length ∧ a2 b i < s.length := fun i hi => by rw [hlen]; exact hin b i hbr hi
    have h0 : View2 c (a1 b) (a2 b) s s c (fun i => s.getD (a1 b i) 0) (List.range c) (fun i => s.getD (a2 b i) 0) (List.range c) :=
      ⟨rfl, rfl, rfl, rfl, fun i hi => by simp [(hb1 i hi).1], fun i hi => by simp [(hb1 i hi).2], fun _ _ => rfl⟩
    obtain ⟨s1, e1, p1⟩ := VSwap.swapLoop_ok hP (List.range c) s _ _ h0 List.nodup_range (by simp) (by simp)
    obtain ⟨-, -, -, p4, p5, p6, p7⟩ := p1
    have hline : ∀ (a : Nat → Nat → Nat), ((MT.view dbg r c a : MT (List R) R).line b).get = (VT.view dbg c (a b)).get ∧
        ((MT.view dbg r c a : MT (List R) R).line b).put = (VT.view dbg c (a b)).put := by
      intro a
      constructor
      · funext s i
        show (do check dbg (b < r) .badIndex; check dbg (i < c) .badIndex; rd dbg s (a b i)) = _
        rw [check_true hbr]; rfl
      · funext s i t
        show (do check dbg (b < r) .badIndex; check dbg (i < c) .badIndex; wr dbg s (a b i) t) = _
        rw [check_true hbr]; rfl
    obtain ⟨s', e', r1, r2, r3⟩ := ih (b + 1) s1 (by omega) (p4.trans hlen) (by
      intro k l hk hl
      by_cases hkb : k = b
      · subst hkb
        have q1 := p5 l hl
        have q2 := p6 l hl
        have q3 := hv k l hk hl
        rw [if_neg (by omega), if_neg (by omega)] at q3
        have q4 := hb1 l hl
        rw [if_pos (by omega), if_pos (by omega), ← q3.1, ← q3.2, q1, q2]
        simp [VSwap.exch, hl, q4.1, q4.2]
      · have q3 := hv k l hk hl
        have e1 : s1[a1 k l]? = s[a1 k l]? := p7 _ fun i hi => ⟨fun c => hkb (inj1 b i k l hbr hi hk hl c).1.symm, (dis k l b i hk hl hbr hi).symm⟩
        have e2 : s1[a2 k l]? = s[a2 k l]? := p7 _ fun i hi => ⟨dis b i k l hbr hi hk hl, fun c => hkb (inj2 b i k l hbr hi hk hl c).1.symm⟩
        rw [e1, e2, q3.1, q3.2]
        by_cases hlt : k < b
        · simp [hlt, Nat.lt_succ_of_lt hlt]
        · rw [if_neg hlt, if_neg hlt, if_neg (by omega), if_neg (by omega)]
          exact ⟨rfl, rfl⟩)
      (fun p hpp => by rw [p7 p fun i hi => hpp b i hbr hi]; exact hp p hpp)
    refine ⟨s', ?_, r1, r2, r3⟩
    have z1 : ∀ (a : Nat → Nat → Nat) (s : List R), (MT.view dbg r c a : MT (List R) R).its s b = List.range c := fun _ _ => rfl
    have z2 : (MT.view dbg r c a1 : MT (List R) R).sizem s = c := rfl
    simp only [MSwap.lineLoop, z1, z2, same, List.length_range, check_True, bind_ok, Nat.min_self, pure_eq_ok, Nat.lt_irrefl, if_false]
    rw [List.take_of_length_le (by simp), swapLoop_congr (hline a1).1 (hline a2).1 (hline a1).2 (hline a2).2, e1, bind_ok]
    exact e'

/-- **C79** (partial) Swapping two matrix_range / matrix_slice views of dense matrices (r x c elements at the positions `a1` and `a2` of one array, no position used twice)
exchanges their elements and changes nothing else.  Missing: in debug, views of matrices without columns (rows, for column_major), which are refused
(`C79_empty_refuted`). -/
theorem C79_matrix_views_partial (dbg : Bool) (r c : Nat) (a1 a2 : Nat → Nat → Nat) (data : List R) (hc : dbg = true → r = 0 ∨ c ≠ 0)
    (inj1 : ∀ k l k' l', k < r → l < c → k' < r → l' < c → a1 k l = a1 k' l' → k = k' ∧ l = l')
    (inj2 : ∀ k l k' l', k < r → l < c → k' < r → l' < c → a2 k l = a2 k' l' → k = k' ∧ l = l')
    (dis : ∀ k l k' l', k < r → l < c → k' < r → l' < c → a1 k l ≠ a2 k' l')
    (hin : ∀ k l, k < r → l < c → a1 k l < data.length ∧ a2 k l < data.length) :
    ∃ data', MSwap.view dbg .denseProxy (MT.view dbg r c a1) (MT.view dbg r c a2) data = .ok data' ∧ data'.length = data.length ∧
      (∀ k l, k < r → l < c → data'[a1 k l]? = data[a2 k l]? ∧ data'[a2 k l]? = data[a1 k l]?) ∧
      ∀ p : Nat, (∀ k l, k < r → l < c → a1 k l ≠ p ∧ a2 k l ≠ p) → data'[p]? = data[p]? := by
  have z : ∀ (a : Nat → Nat → Nat) (s : List R), (MT.view dbg r c a : MT (List R) R).sizeM s = r ∧ (MT.view dbg r c a : MT (List R) R).sizem s = c ∧
      (MT.view dbg r c a : MT (List R) R).lines s = if c = 0 then [] else List.range r := fun _ _ => ⟨rfl, rfl, rfl⟩
  have hcat : (MT.view dbg r c a2 : MT (List R) R).cat = .dense := rfl
  simp only [MSwap.view, MSwap.swap, hcat, MSwap.dense, (z a1 data).1, (z a1 data).2.1, (z a2 data).1, (z a2 data).2.1, (z a1 data).2.2, (z a2 data).2.2, check_True, bind_ok, same]
  by_cases h0 : c = 0
  · have hm : check dbg (r = (if c = 0 then ([] : List Nat) else List.range r).length) .badArgument = .ok () := by
      rw [if_pos h0]
      cases dbg with
      | false => rfl
      | true =>
        have : r = 0 := (hc rfl).resolve_right (fun c => c h0)
        rw [this]; rfl
    refine ⟨data, ?_, rfl, fun k l _ hl => by omega, fun _ _ => rfl⟩
    rw [hm]
    simp [h0, MSwap.lineLoop]
  · obtain ⟨s', e, r1, r2, r3⟩ := MSwap.lineLoop_ok dbg r c a1 a2 data inj1 inj2 dis hin r 0 data (by omega) rfl (fun k l _ _ => by simp) (fun _ _ => rfl)
    refine ⟨s', ?_, r1, r2, r3⟩
    simp only [if_neg h0, List.length_range, check_True, bind_ok, Nat.min_self, pure_eq_ok, Nat.lt_irrefl, if_false]
    rw [List.take_of_length_le (by simp), List.range_eq_range']
    exact e

/-- Non-vacuity: the left and right halves of a 2 x 4 row_major matrix. -/
example : MSwap.view true .denseProxy (MT.view true 2 2 fun i j => 4 * i + j) (MT.view true 2 2 fun i j => 4 * i + (2 + j)) [1, 2, 3, 4, 5, 6, 7, (8 : Int)] =
    .ok [3, 4, 1, 2, 7, 8, 5, 6] := by rfl

/-- **C79** refuted without the restriction: in debug, swapping two views of 2 x 0 matrices is refused, although their sizes agree. -/
theorem C79_empty_refuted : ¬ ∀ (dbg : Bool) (r c : Nat) (a1 a2 : Nat → Nat → Nat) (data : List Int),
    (∀ k l k' l', k < r → l < c → k' < r → l' < c → a1 k l = a1 k' l' → k = k' ∧ l = l') →
    (∀ k l k' l', k < r → l < c → k' < r → l' < c → a2 k l = a2 k' l' → k = k' ∧ l = l') →
    (∀ k l k' l', k < r → l < c → k' < r → l' < c → a1 k l ≠ a2 k' l') →
    (∀ k l, k < r → l < c → a1 k l < data.length ∧ a2 k l < data.length) →
    ∃ data', MSwap.view dbg .denseProxy (MT.view dbg r c a1) (MT.view dbg r c a2) data = .ok data' := by
  intro h
  obtain ⟨d, hd⟩ := h true 2 0 (fun _ _ => 0) (fun _ _ => 0) [] (by omega) (by omega) (by omega) (by omega)
  have : MSwap.view true .denseProxy (MT.view true 2 0 fun _ _ => 0) (MT.view true 2 0 fun _ _ => 0) ([] : List Int) = .error .badArgument := rfl
  rw [this] at hd
  cases hd

/-- Non-vacuity of `C79_compressed_lines`: a row with a stored element and one without. -/
example : ∃ (v : CMat Int) (s : SparseSpec.CMatS Int), CMat.Inv .row 1 v s ∧ s.val (0, 1) = some 7 ∧ s.val (1, 1) = none ∧ 1 < s.rows := by
  obtain ⟨v0, e0, h0⟩ := CMat.inv_ctor (α := Int) true .row 1 cmJunk 2 2 0
  obtain ⟨v1, e1, h1⟩ := CMat.step_inv true .row 1 0 cmJunk v0 _ (.insert 0 1 7) h0 ⟨by decide, by decide, rfl⟩
  exact ⟨v1, _, h1, by simp [SparseSpec.cmstep], by simp [SparseSpec.cmstep], by simp [SparseSpec.cmstep]⟩

end Ublas
