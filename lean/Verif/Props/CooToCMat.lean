import Verif.Model.CooToCMat
import Verif.Props.CompressedMatrix
import Verif.Props.Coo
/-! # C29: compressed_matrix constructed from a coordinate_matrix -/
namespace Ublas
open Search Assoc SparseSpec CooSpec
open Coo (Strict collect_eq_none collect_mem_strict)
variable {α : Type}
namespace CMat

theorem fillOffsets_spec (dbg : Bool) (majors : List Nat) (f SM : Nat) (hf : f ≤ majors.length) (hs : SortedOn majors 0 f) :
    ∀ (n r i : Nat) (idx1 : List Nat), n + r = SM → SM < idx1.length → i ≤ f →
      (∀ (k x : Nat), k < i → majors[k]? = some x → x < r) → (∀ (k x : Nat), k < f → majors[k]? = some x → x < SM) →
      ∃ r' l, fillOffsets dbg 0 majors f n r i idx1 = .ok (r', l) ∧ r ≤ r' ∧ r' ≤ SM ∧ l.length = idx1.length ∧
        (∀ (k x : Nat), k < f → majors[k]? = some x → x < r') ∧
        (∀ q, q < r → l[q]? = idx1[q]?) ∧
        (∀ q, r ≤ q → q < r' → ∃ c, l[q]? = some c ∧ Splits majors 0 f q c) := by
  intro n
  induction n with
  | zero =>
    intro r i idx1 h1 h2 h3 h4 h5
    refine ⟨r, idx1, rfl, Nat.le_refl _, by omega, rfl, ?_, fun _ _ => rfl, fun q a b => by omega⟩
    intro k x hk hx
    have := h5 k x hk hx; omega
  | succ n ih =>
    intro r i idx1 h1 h2 h3 h4 h5
    rw [fillOffsets.eq_def]
    simp only
    by_cases e : i = f
    · subst e
      rw [if_pos rfl]
      exact ⟨r, idx1, rfl, Nat.le_refl _, by omega, rfl, h4, fun _ _ => rfl, fun q a b => by omega⟩
    · rw [if_neg e]
      obtain ⟨c, hc, hsp⟩ := stdLowerBound_spec majors r i f hf (fun a b x y ha => hs a b x y (Nat.zero_le _)) (f - i) i (f - i) (Nat.le_refl _) (Nat.le_refl _) (by omega)
        (by intro a x ha hb; omega) (by intro a x ha hb; omega)
      obtain ⟨s1, s2, s3, s4⟩ := hsp
      have hall : Splits majors 0 f r c := ⟨Nat.zero_le _, s2, by
        intro k x _ hk hx
        by_cases hki : k < i
        · exact h4 k x hki hx
        · exact s3 k x (by omega) hk hx, s4⟩
      have hlt : r < idx1.length := by omega
      simp only [hc, bind_ok, wr_ok hlt]
      obtain ⟨r', l, g1, g2, g3, g4, g5, g6, g7⟩ := ih (r + 1) c (idx1.set r (c + 0)) (by omega) (by simpa using h2) s2
        (by intro k x hk hx; have := hall.2.2.1 k x (Nat.zero_le _) hk hx; omega) h5
      refine ⟨r', l, g1, by omega, g3, by simpa using g4, g5, ?_, ?_⟩
      · intro q hq
        rw [g6 q (by omega), List.getElem?_set, if_neg (by omega)]
      · intro q q1 q2
        by_cases hq : q = r
        · subst hq
          refine ⟨c, ?_, hall⟩
          rw [g6 q (by omega), List.getElem?_set, if_pos rfl, if_pos hlt]; rfl
        · exact g7 q (by omega) q2

/-- Cells written by `std::copy`. -/
theorem copyTo_ok {β : Type} {src dst : List β} {n : Nat} (h1 : n ≤ src.length) (h2 : n ≤ dst.length) :
    copyTo src dst n = .ok (src.take n ++ dst.drop n) := if_pos ⟨h1, h2⟩

theorem ofCoordinate_inv [AddCommMonoid α] (srt : List ((Nat × Nat) × α) → List ((Nat × Nat) × α)) (hsrt : CoordMat.Sorts srt) (full dbg : Bool) (o : Orient)
    (junk : Junk α) (m : CoordMat α) (s : MState α) (h : CoordMat.Inv srt full o 0 m s) (hM : 0 < o.sizeM s.rows s.cols) :
    ∃ m' v op, ofCoordinate srt full dbg o 0 0 junk m = .ok (m', v) ∧ CoordMat.Inv srt full o 0 m' ⟨s.rows, s.cols, s.st.val, true⟩ ∧
      Inv o 0 v ⟨s.rows, s.cols, s.st.val, op⟩ := by
  have hP := CoordMat.parOk srt hsrt full s.rows s.cols
  obtain ⟨hs1, hs2, A, hA, hv, hin, hso⟩ := h
  obtain ⟨c, B, e, h1, h2, h3, h4, h5⟩ := Coo.sort_spec hP dbg hA
  have hB := Coo.keys_inside (B := B) hin (by rw [h3]; exact fun _ h => h)
  have hst : Strict lexLt B := h1.strictAll h2
  have hout : ∀ i j, ¬ (i < s.rows ∧ j < s.cols) → s.st.val (i, j) = none := by
    intro i j hij
    rw [hv, collect_eq_none]
    intro hm
    obtain ⟨p, hp, e⟩ := List.mem_map.1 hm
    obtain ⟨q, h1, h2⟩ := hin p hp
    have : (i, j) = q := CoordMat.key_inj o 0 (i, j) q (by rw [← e, h2])
    rw [← this] at h1; exact hij h1
  generalize hsm : o.sizem s.rows s.cols = sm at *
  generalize hSM : o.sizeM s.rows s.cols = SM at *
  have hkey : ∀ p ∈ B, p.1.1 < SM ∧ p.1.2 < sm := by
    intro p hp
    obtain ⟨q, ⟨a, b⟩, e⟩ := hB p hp
    rw [e, ← hSM, ← hsm]
    exact ⟨major_lt o a b, minor_lt o a b⟩
  let E : List (Nat × α) := B.map (fun p => (p.1.1 * sm + p.1.2, p.2))
  have hElen : E.length = c.filled := by simp [E, h1.len]
  have hrep : Rep E (flat o (⟨s.rows, s.cols, s.st.val, 0⟩ : CMatS α)) := by
    constructor
    · rw [List.pairwise_map]
      refine List.Pairwise.imp_of_mem ?_ hst
      intro a b ha hb hab
      have ma := hkey a ha; have mb := hkey b hb
      simp only [lexLt, decide_eq_true_eq] at hab
      simp only
      rcases hab with hab | ⟨e1, e2⟩
      · have : (a.1.1 + 1) * sm ≤ b.1.1 * sm := Nat.mul_le_mul_right _ hab
        rw [mul_succ'] at this; omega
      · rw [e1]; omega
    · intro k w
      have hmem : ∀ i j, i < s.rows → j < s.cols → (s.st.val (i, j) = some w ↔ (CoordMat.key o 0 (i, j), w) ∈ B) := by
        intro i j hi hj
        rw [hv, ← h3, collect_mem_strict lexOrd hst]
      constructor
      · intro hk
        by_cases hlt : k < s.rows * s.cols
        · have hfk : flat o (⟨s.rows, s.cols, s.st.val, 0⟩ : CMatS α) k = s.st.val (o.indexI k s.rows s.cols, o.indexJ k s.rows s.cols) := if_pos hlt
          rw [hfk] at hk
          obtain ⟨a, b, c'⟩ := elementRaw_index o hlt
          rw [hmem _ _ a b] at hk
          refine List.mem_map.2 ⟨_, hk, ?_⟩
          simp only [CoordMat.key, Nat.add_zero, Prod.mk.injEq, and_true]
          rw [← hsm, key_eq]; exact c'
        · have hfk : flat o (⟨s.rows, s.cols, s.st.val, 0⟩ : CMatS α) k = none := if_neg hlt
          rw [hfk] at hk; cases hk
      · intro hk
        obtain ⟨p, hp, e⟩ := List.mem_map.1 hk
        obtain ⟨q, ⟨a, b⟩, e'⟩ := hB p hp
        simp only [Prod.mk.injEq] at e
        have : flat o (⟨s.rows, s.cols, s.st.val, 0⟩ : CMatS α) k = s.st.val (q.1, q.2) := by
          have hfa := flat_at o (⟨s.rows, s.cols, s.st.val, 0⟩ : CMatS α) a b
          rw [← e.1, e']
          simp only [CoordMat.key, Nat.add_zero]
          rw [← hsm]; exact hfa
        rw [this, hmem _ _ a b, ← e', ← e.2]
        exact hp
  have hprod : ∀ p ∈ E, p.1 < SM * sm := by
    intro p hp
    obtain ⟨q, hq, rfl⟩ := List.mem_map.1 hp
    exact key_lt (hkey q hq).1 (hkey q hq).2
  have hfle : c.filled ≤ s.rows * s.cols := by
    rw [← sizeM_mul o, hSM, hsm, ← hElen]
    have := nodup_length_le (keys_nodup hrep.1) (K := List.range (SM * sm)) (by
      intro i hi
      obtain ⟨p, hp, rfl⟩ := List.mem_map.1 hi
      exact List.mem_range.2 (hprod p hp))
    simpa using this
  have hcap := le_restrict hfle (Nat.le_refl c.filled)
  generalize hcp : restrictCapacity s.rows s.cols c.filled = cap at *
  -- reserve
  generalize hi0 : (List.range (SM + 1)).map junk.1 = i0
  have hi0l : i0.length = SM + 1 := by rw [← hi0]; simp
  have hfresh := core_fresh o 0 s.rows s.cols cap i0 (resizeRaw junk.1 [] cap) (resizeRaw junk.2 ([] : List α) cap) (by rw [hSM]; exact hi0l)
    (CVec.length_resizeRaw _ _ _) (CVec.length_resizeRaw _ _ _)
  have hres : (⟨s.rows, s.cols, 0, 0, 0, i0, [], []⟩ : CMat α).reserve dbg o 0 0 junk c.filled false =
      .ok ⟨s.rows, s.cols, cap, 1, 0, i0.set 0 (0 + 0), resizeRaw junk.1 [] cap, resizeRaw junk.2 [] cap⟩ := by
    simp only [CMat.reserve, hcp, Bool.false_eq_true, if_false, wr_ok (show 0 < i0.length by omega), bind_ok, hfresh.invariants dbg]
  -- offsets
  have hmaj : ∀ (k : Nat) (hk : k < B.length), (c.idx.map (·.1))[k]? = some B[k].1.1 := by
    intro k hk; rw [List.getElem?_map, h1.holds.idxAt hk]; rfl
  have hsorted : SortedOn (c.idx.map (·.1)) 0 c.filled := by
    intro i j x y _ hij hj hx hy
    rw [← h1.len] at hj
    rw [hmaj i (by omega)] at hx
    rw [hmaj j hj] at hy
    simp only [Option.some.injEq] at hx hy
    subst hx hy
    by_cases e : i = j
    · subst e; exact Nat.le_refl _
    · have := List.pairwise_iff_getElem.1 hst i j (by omega) hj (by omega)
      simp only [lexLt, decide_eq_true_eq] at this; omega
  have hfl : c.filled ≤ (c.idx.map (·.1)).length := by rw [List.length_map, h1.idxLen]; exact h1.fill
  obtain ⟨r', l, g1, g2, g3, g4, g5, g6, g7⟩ := fillOffsets_spec dbg (c.idx.map (·.1)) c.filled SM hfl hsorted (SM - 1) 1 0 (i0.set 0 (0 + 0)) (by omega)
    (by rw [List.length_set, hi0l]; omega) (Nat.zero_le _) (by intro k x hk; omega)
    (by
      intro k x hk hx
      rw [← h1.len] at hk
      rw [hmaj k hk] at hx
      rw [← Option.some.inj hx]; exact (hkey _ (List.getElem_mem hk)).1)
  have hll : l.length = SM + 1 := by rw [g4, List.length_set, hi0l]
  have hlt : r' + 1 - 1 < l.length := by omega
  have hc2 : copyTo (c.idx.map (·.2)) (resizeRaw junk.1 [] cap) c.filled = .ok ((c.idx.map (·.2)).take c.filled ++ (resizeRaw junk.1 [] cap).drop c.filled) :=
    copyTo_ok (by simpa using hfl) (by rw [CVec.length_resizeRaw]; exact hcap)
  have hc3 : copyTo c.val (resizeRaw junk.2 [] cap) c.filled = .ok (c.val.take c.filled ++ (resizeRaw junk.2 [] cap).drop c.filled) :=
    copyTo_ok (by rw [h1.valLen]; exact h1.fill) (by rw [CVec.length_resizeRaw]; exact hcap)
  have t2 : ((c.idx.map (·.2)).take c.filled).length = c.filled := by rw [List.length_take]; simp; have := h1.idxLen; have := h1.fill; omega
  have t3 : (c.val.take c.filled).length = c.filled := by rw [List.length_take]; have := h1.valLen; have := h1.fill; omega
  have hbelow : ∀ p ∈ E, p.1 < r' * sm := by
    intro p hp
    obtain ⟨q, hq, rfl⟩ := List.mem_map.1 hp
    obtain ⟨k, hk, rfl⟩ := List.mem_iff_getElem.1 hq
    exact (key_lt_mul (hkey _ hq).2).2 (g5 k _ (by rw [← h1.len]; exact hk) (hmaj k hk))
  have hcore : Core o 0 (⟨s.rows, s.cols, cap, r' + 1, c.filled, l.set (r' + 1 - 1) (c.filled + 0),
      (c.idx.map (·.2)).take c.filled ++ (resizeRaw junk.1 [] cap).drop c.filled,
      c.val.take c.filled ++ (resizeRaw junk.2 [] cap).drop c.filled⟩ : CMat α) E (flat o (⟨s.rows, s.cols, s.st.val, 0⟩ : CMatS α)) := by
    refine { idx1Len := ?_, idx2Len := ?_, valLen := ?_, pos := Nat.succ_pos _, le := ?_, fill := hcap, len := hElen, minors := ?_, vals := ?_, rep := hrep, below := ?_, off := ?_ }
    · show (l.set _ _).length = _; rw [List.length_set, hll, hSM]
    · show (_ ++ _ : List Nat).length = cap
      rw [List.length_append, t2, List.length_drop, CVec.length_resizeRaw]; omega
    · show (_ ++ _ : List α).length = cap
      rw [List.length_append, t3, List.length_drop, CVec.length_resizeRaw]; omega
    · show r' + 1 ≤ _; rw [hSM]; omega
    · show (_ ++ _ : List Nat).take c.filled = E.map (fun p => p.1 % o.sizem s.rows s.cols + 0)
      rw [List.take_append_of_le_length (Nat.le_of_eq t2.symm), List.take_of_length_le (Nat.le_of_eq t2), ← List.map_take, ← h1.len, h1.holds.1, hsm, List.map_map, List.map_map]
      refine List.map_congr_left fun p hp => ?_
      simp only [Function.comp, key_mod (hkey p hp).2, Nat.add_zero]
    · show (_ ++ _ : List α).take c.filled = E.map (·.2)
      rw [List.take_append_of_le_length (Nat.le_of_eq t3.symm), List.take_of_length_le (Nat.le_of_eq t3), ← h1.len, h1.holds.2, List.map_map]
      rfl
    · intro p hp; show p.1 < (r' + 1 - 1) * o.sizem s.rows s.cols
      rw [hsm]; exact hbelow p hp
    · intro q hq
      show (l.set _ _)[q]? = some (cnt E (q * o.sizem s.rows s.cols) + 0)
      have hq' : q < r' + 1 := hq
      rw [hsm]
      by_cases e : q = r'
      · subst e
        rw [Nat.add_sub_cancel, List.getElem?_set, if_pos rfl, if_pos (by omega), cnt_all hbelow, hElen]
      · rw [List.getElem?_set, if_neg (by omega)]
        by_cases e0 : q = 0
        · subst e0
          rw [g6 0 (by omega), List.getElem?_set, if_pos rfl, if_pos (by omega), Nat.zero_mul]
          have : cnt E 0 = 0 := List.countP_eq_zero.2 (fun p _ => by simp)
          rw [this]
        · obtain ⟨n, k1, k2⟩ := g7 q (by omega) (by omega)
          rw [k1]
          congr 1
          refine (cnt_of_splits (n := n) ?_).symm
          obtain ⟨_, a2, a3, a4⟩ := k2
          have hEk : ∀ (i x : Nat), (E.map (·.1))[i]? = some x → ∃ hi : i < B.length, x = B[i].1.1 * sm + B[i].1.2 := by
            intro i x hx
            have hi : i < B.length := by
              have := (List.getElem?_eq_some_iff.1 hx).1; simpa [E] using this
            refine ⟨hi, ?_⟩
            simp only [E, List.getElem?_map, List.getElem?_eq_getElem hi, Option.map_some, Option.some.injEq] at hx
            exact hx.symm
          refine ⟨Nat.zero_le _, by rw [hElen]; exact a2, ?_, ?_⟩
          · intro i x _ hi hx
            obtain ⟨hb, rfl⟩ := hEk i x hx
            exact (key_lt_mul (hkey _ (List.getElem_mem hb)).2).2 (a3 i _ (Nat.zero_le _) hi (hmaj i hb))
          · intro i x hi hi2 hx
            obtain ⟨hb, rfl⟩ := hEk i x hx
            have := a4 i _ hi (by rw [← h1.len]; exact hb) (hmaj i hb)
            have := Nat.mul_le_mul_right sm this
            omega
  refine ⟨⟨s.rows, s.cols, c⟩, _, r', ?_, ⟨rfl, rfl, B, h1, fun i => by rw [h3]; exact hv i, hB, h2.symm⟩, E, hcore, rfl, rfl, rfl, hout⟩
  unfold ofCoordinate
  simp only [hs1, hs2, e, bind_ok, hSM, hi0, hres, g1, hc2, hc3, wr_ok hlt, hcore.invariants dbg]

end CMat

/-- **C29** (partial).  For every coordinate_matrix reached by a legal history (unsorted or with pending duplicates as it may be),
with zero-based indices and at least one major line, the compressed_matrix constructed from it succeeds, has the same shape and exactly the
same elements (sums of duplicates), consistent compressed storage, and the source still reads the same.  Missing: one-based index arrays and matrices without
any major line, for which the claim is false (below). -/
theorem C29_compressed_of_coordinate_partial [AddCommMonoid α] (srt : List ((Nat × Nat) × α) → List ((Nat × Nat) × α)) (hsrt : CoordMat.Sorts srt) (full dbg : Bool) (o : Orient)
    (junk0 : Coo.Junk (Nat × Nat) α) (junk : CMat.Junk α) (r c nz : Nat) (ops : List (CoordMatOp α × Coo.Junk (Nat × Nat) α))
    (hl : mlegalRun o ⟨r, c, fun _ => none, true⟩ (ops.map (·.1))) (s : MState α) (hs : s = mrun o ⟨r, c, fun _ => none, true⟩ (ops.map (·.1)))
    (hM : 0 < o.sizeM s.rows s.cols) :
    ∃ m0 m m' v op, CoordMat.ctor srt full dbg junk0 r c nz = .ok m0 ∧ CoordMat.run srt full dbg o 0 0 m0 ops = .ok m ∧
      CMat.ofCoordinate srt full dbg o 0 0 junk m = .ok (m', v) ∧
      CMObserves dbg o 0 0 v ⟨s.rows, s.cols, s.st.val, op⟩ ∧
      CoordMat.Observes srt full dbg o 0 m' ⟨s.rows, s.cols, s.st.val, true⟩ := by
  obtain ⟨m0, e0, h0⟩ := CoordMat.inv_ctor srt full dbg o 0 junk0 r c nz
  obtain ⟨m, e1, h1⟩ := CoordMat.run_inv srt hsrt full dbg o 0 ops m0 _ h0 hl
  rw [← hs] at h1
  obtain ⟨m', v, op, e2, h2, h3⟩ := CMat.ofCoordinate_inv srt hsrt full dbg o junk m s h1 hM
  exact ⟨m0, m, m', v, op, e0, e1, e2, h3.observes dbg o 0 0, h2.observes hsrt dbg⟩

/-- **C29** (refuted, one-based index arrays).  With `IB = 1` the raw (one-based) major indices are compared with the zero-based
line number: for the 3×1 matrix holding 7 at (0,0) and 8 at (1,0) the compressed copy passes its own consistency checks and reads 0 at (0,0)
and 7 at (1,0). -/
theorem C29_index_base_refuted (full dbg : Bool) :
    ∃ m0 m m' v, CoordMat.ctor mSort full dbg mJunk 3 1 4 = .ok m0 ∧
      CoordMat.run mSort full dbg .row 1 0 m0 [(.core (.append (0, 0) 7), mJunk), (.core (.append (1, 0) 8), mJunk)] = .ok m ∧
      m.get mSort full dbg .row 1 0 (0, 0) = .ok 7 ∧ m.get mSort full dbg .row 1 0 (1, 0) = .ok 8 ∧
      CMat.ofCoordinate mSort full dbg .row 1 0 cmJunk m = .ok (m', v) ∧ v.invariants true .row 1 = .ok () ∧
      v.get dbg .row 1 0 0 0 = .ok 0 ∧ v.get dbg .row 1 0 1 0 = .ok 7 := by
  cases full <;> cases dbg <;> exact ⟨_, _, _, _, rfl, rfl, rfl, rfl, rfl, rfl, rfl, rfl⟩

/-- **C29** (refuted, no major lines).  Constructing from an empty 0×0 coordinate_matrix writes past the end of the offset array:
bad_index with checks, undefined behaviour without. -/
theorem C29_no_lines_refuted (full : Bool) :
    (∃ m0, CoordMat.ctor mSort full true mJunk 0 0 0 = .ok m0 ∧ CMat.ofCoordinate mSort full true .row 0 0 cmJunk m0 = .error .badIndex) ∧
    (∃ m0, CoordMat.ctor mSort full false mJunk 0 0 0 = .ok m0 ∧ CMat.ofCoordinate mSort full false .row 0 0 cmJunk m0 = .error .ub) := by
  cases full <;> exact ⟨⟨_, rfl, rfl⟩, ⟨_, rfl, rfl⟩⟩

/-- A history meeting the hypotheses of the partial theorem: unsorted with a duplicate, and rows 0 and 3 empty. -/
example : mlegalRun .row (⟨4, 2, fun _ => none, true⟩ : MState Int) [.core (.append (2, 1) 5), .core (.append (1, 0) 3), .core (.append (2, 1) 4)] ∧
    (do let m0 ← CoordMat.ctor mSort true true mJunk 4 2 0
        let m ← CoordMat.run mSort true true .row 0 0 m0 [(.core (.append (2, 1) 5), mJunk), (.core (.append (1, 0) 3), mJunk), (.core (.append (2, 1) 4), mJunk)]
        let r ← CMat.ofCoordinate mSort true true .row 0 0 cmJunk m
        Except.ok (r.2.idx1.take r.2.filled1, r.2.idx2.take r.2.filled2, r.2.val.take r.2.filled2)) = .ok ([0, 0, 1, 2, 2], [0, 1], [3, 9]) := by
  refine ⟨?_, by decide⟩
  simp [CooSpec.mlegalRun, CooSpec.mlegal, CooSpec.legal, CooSpec.mstep]

end Ublas
