import Verif.Lemmas.ThreadsOps
/-! # The lazy sort of coordinate_vector, access by access, for a thread that is alone -/
namespace Ublas
namespace Threads
open Search
variable {R : Type} {own ro : Loc → Prop}

/-- Memory of a coordinate_vector from its parts. -/
def cm (c0 idx : List Nat) (val : List R) : TMem R := ⟨fun a => if a = 0 then c0 else if a = 1 then idx else [], val⟩

theorem cm_set0 (c0 idx l : List Nat) (val : List R) : (cm c0 idx val).setN 0 l = cm l idx val := by
  unfold cm TMem.setN
  simp only [TMem.mk.injEq, and_true]
  funext a
  by_cases h : a = 0 <;> simp [h]
theorem cm_set1 (c0 idx l : List Nat) (val : List R) : (cm c0 idx val).setN 1 l = cm c0 l val := by
  unfold cm TMem.setN
  simp only [TMem.mk.injEq, and_true]
  funext a
  by_cases h : a = 0
  · subst h; simp
  · by_cases h1 : a = 1 <;> simp [h, h1]

section
variable (W : ∀ l, own l) {c0 idx : List Nat} {val : List R}
include W

theorem cN {d d' : Bool} {off v : Nat} (h : rd d' idx off = .ok v) : Conf own ro (cm c0 idx val) (getN d 1 off) v (cm c0 idx val) := Conf.rN (.inl (W _)) (rd_eq_ok.1 h)
theorem cR {d d' : Bool} {off : Nat} {v : R} (h : rd d' val off = .ok v) : Conf own ro (cm c0 idx val) (getR d off) v (cm c0 idx val) := Conf.rR (.inl (W _)) (rd_eq_ok.1 h)
theorem c0N {d : Bool} {off v : Nat} (h : c0[off]? = some v) : Conf own ro (cm c0 idx val) (getN d 0 off) v (cm c0 idx val) := Conf.rN (.inl (W _)) h
theorem pN {d d' : Bool} {off v : Nat} {idx' : List Nat} (h : wr d' idx off v = .ok idx') : Conf own ro (cm c0 idx val) (putN d 1 off v) () (cm c0 idx' val) := by
  unfold wr at h
  split at h
  · rename_i hl; cases h
    exact (Conf.wN (W _) hl).of_eq (cm_set1 _ _ _ _)
  · cases h
theorem pR {d d' : Bool} {off : Nat} {v : R} {val' : List R} (h : wr d' val off v = .ok val') : Conf own ro (cm c0 idx val) (putR d off v) () (cm c0 idx val') := by
  unfold wr at h
  split at h
  · rename_i hl; cases h
    exact Conf.wR (W _) hl
  · cases h
theorem p0 {d : Bool} {off v : Nat} (h : off < c0.length) : Conf own ro (cm c0 idx val) (putN d 0 off v) () (cm (c0.set off v) idx val) :=
  (Conf.wN (W _) h).of_eq (cm_set0 _ _ _ _)

theorem lowerBoundAtT_ok {dbg : Bool} {target : Nat} : ∀ (fuel b e : Nat) {r : Nat}, Coo.lowerBoundAt dbg (fun a b => decide (a < b)) idx target fuel b e = .ok r →
    Conf own ro (cm c0 idx val) (lowerBoundAtT dbg target fuel b e) r (cm c0 idx val) := by
  intro fuel
  induction fuel with
  | zero =>
    intro b e r h
    unfold Coo.lowerBoundAt at h
    unfold lowerBoundAtT
    split at h
    · cases h
    · rename_i h0; rw [if_neg h0]; cases h; exact .ret _ _
  | succ fuel ih =>
    intro b e r h
    unfold Coo.lowerBoundAt at h
    unfold lowerBoundAtT
    split at h
    · rename_i h0; rw [if_pos h0]
      obtain ⟨x, e1, h⟩ := bind_eq_ok h
      obtain ⟨t, e2, h⟩ := bind_eq_ok h
      refine (cN W e1).bind ((cN W e2).bind ?_)
      split at h
      · rename_i h1; rw [if_pos (by simpa using h1)]; exact ih _ _ h
      · rename_i h1; rw [if_neg (by simpa using h1)]; exact ih _ _ h
    · rename_i h0; rw [if_neg h0]; cases h; exact .ret _ _

theorem readN_ok : ∀ (n a : Nat), a + n ≤ idx.length → Conf own ro (cm c0 idx val) (readN 1 a n) ((idx.drop a).take n) (cm c0 idx val) := by
  intro n
  induction n with
  | zero => intro a _; rw [List.take_zero]; exact .ret _ _
  | succ n ih =>
    intro a h
    rw [List.drop_eq_getElem_cons (by omega), List.take_succ_cons]
    exact (cN W (d' := true) (rd_ok (by omega))).bind ((ih (a + 1) (by omega)).bind (.ret _ _))

theorem readR_ok : ∀ (n a : Nat), a + n ≤ val.length → Conf own ro (cm c0 idx val) (readR a n) ((val.drop a).take n) (cm c0 idx val) := by
  intro n
  induction n with
  | zero => intro a _; rw [List.take_zero]; exact .ret _ _
  | succ n ih =>
    intro a h
    rw [List.drop_eq_getElem_cons (by omega), List.take_succ_cons]
    exact (cR W (d' := true) (rd_ok (by omega))).bind ((ih (a + 1) (by omega)).bind (.ret _ _))

omit W in
theorem splice_set {α : Type} (l : List α) (a : Nat) (x : α) (y : List α) (h : a < l.length) :
    (l.set a x).take (a + 1) ++ y ++ (l.set a x).drop (a + 1 + y.length) = l.take a ++ (x :: y) ++ l.drop (a + (x :: y).length) := by
  rw [List.take_set, List.drop_set_of_lt (by omega), List.length_cons, show a + (y.length + 1) = a + 1 + y.length by omega]
  congr 1
  rw [List.take_succ_eq_append_getElem h, List.set_append_right _ _ (by simp; omega)]
  have : a - (l.take a).length = 0 := by simp; omega
  rw [this]; simp

theorem writeN_ok : ∀ (l : List Nat) (a : Nat) {idx : List Nat}, a + l.length ≤ idx.length →
    Conf own ro (cm c0 idx val) (writeN 1 a l) () (cm c0 (idx.take a ++ l ++ idx.drop (a + l.length)) val) := by
  intro l
  induction l with
  | nil => intro a idx h; simp only [List.append_nil, List.length_nil, Nat.add_zero, List.take_append_drop]; exact .ret _ _
  | cons x l ih =>
    intro a idx h
    rw [List.length_cons] at h
    refine (pN W (d' := true) (wr_ok (by omega))).bind ?_
    refine (ih (a + 1) (by rw [List.length_set]; omega)).of_eq ?_
    rw [splice_set _ _ _ _ (by omega)]

theorem writeR_ok : ∀ (l : List R) (a : Nat) {val : List R}, a + l.length ≤ val.length →
    Conf own ro (cm c0 idx val) (writeR a l) () (cm c0 idx (val.take a ++ l ++ val.drop (a + l.length))) := by
  intro l
  induction l with
  | nil => intro a val h; simp only [List.append_nil, List.length_nil, Nat.add_zero, List.take_append_drop]; exact .ret _ _
  | cons x l ih =>
    intro a val h
    rw [List.length_cons] at h
    refine (pR W (d' := true) (wr_ok (by omega))).bind ?_
    refine (ih (a + 1) (by rw [List.length_set]; omega)).of_eq ?_
    rw [splice_set _ _ _ _ (by omega)]

omit W in
theorem rotate_splice {α : Type} (l : List α) (a m b : Nat) (h1 : a ≤ m) (h2 : m ≤ b) (h3 : b ≤ l.length) :
    let s := (l.drop a).take (b - a)
    l.take a ++ (s.drop (m - a) ++ s.take (m - a)) ++ l.drop (a + (s.drop (m - a) ++ s.take (m - a)).length) =
      l.take a ++ (l.drop m).take (b - m) ++ (l.drop a).take (m - a) ++ l.drop b := by
  intro s
  have hs : s.length = b - a := by simp [s]; omega
  have e3 : a + (s.drop (m - a) ++ s.take (m - a)).length = b := by
    clear_value s
    rw [List.length_append, List.length_drop, List.length_take, hs]; omega
  have e1 : s.drop (m - a) = (l.drop m).take (b - m) := by
    show ((l.drop a).take (b - a)).drop (m - a) = _
    rw [List.drop_take, List.drop_drop, show a + (m - a) = m by omega, show b - a - (m - a) = b - m by omega]
  have e2 : s.take (m - a) = (l.drop a).take (m - a) := by
    show ((l.drop a).take (b - a)).take (m - a) = _
    rw [List.take_take, Nat.min_eq_left (by omega)]
  rw [e3, e1, e2]
  simp only [List.append_assoc]

theorem rotateN_ok {a m b : Nat} {idx' : List Nat} (h : Coo.rotate idx a m b = .ok idx') : Conf own ro (cm c0 idx val) (rotateN 1 a m b) () (cm c0 idx' val) := by
  unfold Coo.rotate at h
  split at h
  · rename_i hc; cases h
    refine (readN_ok W _ _ (by omega)).bind ((writeN_ok W _ _ ?_).of_eq ?_)
    · simp; omega
    · rw [rotate_splice _ _ _ _ hc.1 hc.2.1 hc.2.2]
  · cases h

theorem rotateR_ok {a m b : Nat} {val' : List R} (h : Coo.rotate val a m b = .ok val') : Conf own ro (cm c0 idx val) (rotateR a m b) () (cm c0 idx val') := by
  unfold Coo.rotate at h
  split at h
  · rename_i hc; cases h
    refine (readR_ok W _ _ (by omega)).bind ((writeR_ok W _ _ ?_).of_eq ?_)
    · simp; omega
    · rw [rotate_splice _ _ _ _ hc.1 hc.2.1 hc.2.2]
  · cases h

theorem inplaceMergeT_ok {dbg : Bool} : ∀ (fuel b m e : Nat) {idx : List Nat} {val : List R} {q : List Nat × List R},
    Coo.inplaceMerge dbg (fun a b => decide (a < b)) fuel idx val b m e = .ok q → Conf own ro (cm c0 idx val) (inplaceMergeT dbg fuel b m e) () (cm c0 q.1 q.2) := by
  intro fuel
  induction fuel with
  | zero =>
    intro b m e idx val q h
    unfold Coo.inplaceMerge at h
    unfold inplaceMergeT
    split at h
    · cases h
    · rename_i h0; rw [if_neg h0]; cases h; exact .ret _ _
  | succ fuel ih =>
    intro b m e idx val q h
    unfold Coo.inplaceMerge at h
    unfold inplaceMergeT
    dsimp only at h
    split at h
    · rename_i h0; rw [if_pos h0]
      obtain ⟨x, e1, h⟩ := bind_eq_ok h
      obtain ⟨y, e2, h⟩ := bind_eq_ok h
      refine (cN W e1).bind ((cN W e2).bind ?_)
      split at h
      · rename_i h1; rw [if_pos (by simpa using h1)]
        obtain ⟨idx', g, h⟩ := bind_eq_ok h
        obtain ⟨val', g', h⟩ := bind_eq_ok h
        cases h
        unfold Coo.swapAt at g g'
        obtain ⟨_, a1, g⟩ := bind_eq_ok g
        obtain ⟨_, a2, g⟩ := bind_eq_ok g
        obtain ⟨_, a3, g⟩ := bind_eq_ok g
        obtain ⟨_, b1, g'⟩ := bind_eq_ok g'
        obtain ⟨_, b2, g'⟩ := bind_eq_ok g'
        obtain ⟨_, b3, g'⟩ := bind_eq_ok g'
        exact (cN W a1).bind ((cN W a2).bind ((pN W a3).bind ((pN W g).bind ((cR W b1).bind ((cR W b2).bind ((pR W b3).bind (pR W g')))))))
      · rename_i h1; rw [if_neg (by simpa using h1)]; cases h; exact .ret _ _
    · rename_i h0; rw [if_neg h0]
      split at h
      · rename_i h1; rw [if_pos h1]
        obtain ⟨p, e1, h⟩ := bind_eq_ok h
        obtain ⟨idx1, e2, h⟩ := bind_eq_ok h
        obtain ⟨val1, e3, h⟩ := bind_eq_ok h
        obtain ⟨q1, e4, h⟩ := bind_eq_ok h
        refine Conf.bind (a := p) (m1 := cm c0 idx val) ?_ ((rotateN_ok W e2).bind ((rotateR_ok W e3).bind ((ih _ _ _ e4).bind (ih _ _ _ h))))
        split at e1
        · rename_i h2; rw [if_pos h2]
          obtain ⟨r, e6, e5⟩ := bind_eq_ok e1
          cases e5
          exact (lowerBoundAtT_ok W _ _ _ e6).bind (.ret _ _)
        · rename_i h2; rw [if_neg h2]
          obtain ⟨r, e6, e5⟩ := bind_eq_ok e1
          cases e5
          exact (lowerBoundAtT_ok W _ _ _ e6).bind (.ret _ _)
      · rename_i h1; rw [if_neg h1]; cases h; exact .ret _ _

theorem sortSegmentT_ok {srt : List (Nat × R) → List (Nat × R)} (hsrt : ∀ l, (srt l).length = l.length) {a b : Nat} {q : List Nat × List R}
    (h : Coo.sortSegment srt idx val a b = .ok q) : Conf own ro (cm c0 idx val) (sortSegmentT srt a b) () (cm c0 q.1 q.2) := by
  unfold Coo.sortSegment at h
  split at h
  · rename_i hc; cases h
    have hz : ((idx.zip val).take b).drop a = ((idx.drop a).take (b - a)).zip ((val.drop a).take (b - a)) := by
      rw [List.drop_take, List.zip_eq_zipWith, List.drop_zipWith, List.take_zipWith, List.zip_eq_zipWith]
    have hl : (srt (((idx.drop a).take (b - a)).zip ((val.drop a).take (b - a)))).length = b - a := by
      rw [hsrt, List.length_zip, List.length_take, List.length_take, List.length_drop, List.length_drop]; omega
    refine (readN_ok W _ _ (by omega)).bind ((readR_ok W _ _ (by omega)).bind ((writeN_ok W _ _ (by rw [List.length_map, hl]; omega)).bind
      ((writeR_ok W _ _ (by rw [List.length_map, hl]; omega)).of_eq ?_)))
    dsimp only
    rw [List.length_map, List.length_map, hl, hz, show a + (b - a) = b by omega]
  · cases h

omit W in
theorem loop_prefix {σ : Type} {f : Nat → σ → M σ} {s t : σ} : ∀ {n k : Nat}, loop f n s = .ok t → k ≤ n → ∃ u, loop f k s = .ok u := by
  intro n
  induction n generalizing t with
  | zero => intro k h hk; obtain rfl : k = 0 := by omega
            exact ⟨t, h⟩
  | succ n ih =>
    intro k h hk
    rcases Nat.lt_or_ge n k with h1 | h1
    · obtain rfl : k = n + 1 := by omega
      exact ⟨t, h⟩
    · obtain ⟨u, e, _⟩ := bind_eq_ok h
      exact ih e h1

theorem sumLoopT_ok [Add R] {dbg : Bool} {n sz cap f sf so : Nat} (hf : f = n + 1) {s t : List Nat × List R × Nat} (h : loop (fun k s => Coo.sumStep dbg (k + 1) s) n s = .ok t) :
    ∀ (j : Nat), j ≤ n → ∀ u, loop (fun k s => Coo.sumStep dbg (k + 1) s) (n - j) s = .ok u →
      Conf own ro (cm [sz, cap, f, sf, so] u.1 u.2.1) (sumLoopT dbg j (n - j + 1) u.2.2) t.2.2 (cm [sz, cap, f, sf, so] t.1 t.2.1) := by
  intro j
  induction j with
  | zero =>
    intro _ u hu
    rw [Nat.sub_zero, h] at hu; cases hu
    unfold sumLoopT
    refine (c0N W (v := f) rfl).bind ?_
    rw [if_neg (by omega)]; exact .ret _ _
  | succ j ih =>
    intro hj u hu
    obtain ⟨w, hw⟩ := loop_prefix h (k := n - (j + 1) + 1) (by omega)
    have hw' := hw
    rw [show n - (j + 1) + 1 = n - j by omega] at hw'
    have step : Coo.sumStep dbg (n - (j + 1) + 1) u = .ok w := by
      have : (loop (fun k s => Coo.sumStep dbg (k + 1) s) (n - (j + 1)) s >>= fun s => Coo.sumStep dbg (n - (j + 1) + 1) s) = .ok w := hw
      rw [hu] at this; exact this
    have rec_ := ih (by omega) w hw'
    unfold sumLoopT
    refine (c0N W (v := f) rfl).bind ?_
    rw [if_pos (by omega)]
    unfold Coo.sumStep at step
    obtain ⟨x, e1, step⟩ := bind_eq_ok step
    obtain ⟨y, e2, step⟩ := bind_eq_ok step
    refine (cN W e1).bind ((cN W e2).bind ?_)
    have hn : n - (j + 1) + 1 + 1 = n - j + 1 := by omega
    split at step
    · rename_i hx; rw [if_pos hx]
      dsimp only at step
      split at step
      · rename_i hi; rw [if_pos hi]
        obtain ⟨idx', g1, step⟩ := bind_eq_ok step
        obtain ⟨t', g2, step⟩ := bind_eq_ok step
        obtain ⟨val', g3, step⟩ := bind_eq_ok step
        cases step
        rw [hn]
        exact (cN W e2).bind ((pN W g1).bind ((cR W g2).bind ((pR W g3).bind rec_)))
      · rename_i hi; rw [if_neg hi]
        cases step
        rw [hn]; exact rec_
    · rename_i hx; rw [if_neg hx]
      obtain ⟨a, g1, step⟩ := bind_eq_ok step
      obtain ⟨t', g2, step⟩ := bind_eq_ok step
      obtain ⟨val', g3, step⟩ := bind_eq_ok step
      cases step
      rw [hn]
      exact (cR W g1).bind ((cR W g2).bind ((pR W g3).bind rec_))

end

theorem coordMem_cm (v : CoordVec R) : coordMem v = cm [v.size, v.coo.cap, v.coo.filled, v.coo.sortedFilled, if v.coo.sorted then 1 else 0] v.coo.idx v.coo.val := rfl

/-- `sort ()`, alone. -/
theorem coordSortT_ok [Add R] (W : ∀ l, own l) {dbg : Bool} {srt : List (Nat × R) → List (Nat × R)} (hsrt : ∀ l, (srt l).length = l.length) {IB n sz : Nat} {v v' : Coo Nat R}
    (h : v.sort dbg (CoordVec.par srt false IB n) = .ok v') : Conf own ro (coordMem ⟨sz, v⟩) (coordSortT dbg srt) () (coordMem ⟨sz, v'⟩) := by
  unfold Coo.sort at h
  unfold coordSortT
  split at h
  · rename_i hc
    obtain ⟨p, e1, h⟩ := bind_eq_ok h
    rw [if_pos (show (CoordVec.par srt false IB n).full = false from rfl)] at e1
    obtain ⟨q, e0, e1⟩ := bind_eq_ok e1
    obtain ⟨s, e2, h⟩ := bind_eq_ok h
    obtain ⟨_, _, h⟩ := bind_eq_ok h
    cases h
    rw [coordMem_cm, coordMem_cm]
    refine (c0N W (v := 0) (by show some (if v.sorted = true then 1 else 0) = _; rw [hc.1]; rfl)).bind ?_
    rw [if_neg (show ¬ (0 : Nat) ≠ 0 by decide)]
    refine (c0N W (v := v.filled) rfl).bind ?_
    rw [if_pos hc.2]
    refine (c0N W (v := v.sortedFilled) rfl).bind ((sortSegmentT_ok W hsrt e0).bind ((inplaceMergeT_ok W _ _ _ _ e1).bind ?_))
    have hs := sumLoopT_ok (own := own) (ro := ro) W (sz := sz) (cap := v.cap) (f := v.filled) (sf := v.sortedFilled) (so := if v.sorted then 1 else 0) (by omega) e2 (v.filled - 1) (Nat.le_refl _)
      (p.1, p.2, 0) (by rw [Nat.sub_self]; rfl)
    rw [Nat.sub_self] at hs
    refine hs.bind ?_
    refine (p0 W (by simp)).bind ((c0N W (v := s.2.2 + 1) rfl).bind ((p0 W (by simp)).bind ((p0 W (by simp)).of_eq ?_)))
    rfl
  · rename_i hc
    cases h
    rw [coordMem_cm]
    by_cases hso : v.sorted = true
    · refine (c0N W (v := 1) (by show some (if v.sorted = true then 1 else 0) = _; rw [hso]; rfl)).bind ?_
      rw [if_pos (show (1 : Nat) ≠ 0 by decide)]; exact .ret _ _
    · have hso : v.sorted = false := by simpa using hso
      refine (c0N W (v := 0) (by show some (if v.sorted = true then 1 else 0) = _; rw [hso]; rfl)).bind ?_
      rw [if_neg (show ¬ (0 : Nat) ≠ 0 by decide)]
      refine (c0N W (v := v.filled) rfl).bind ?_
      rw [if_neg (fun h => hc ⟨hso, h⟩)]; exact .ret _ _

/-- `operator () (i) const`, alone. -/
theorem coordGetT_ok [Add R] (W : ∀ l, own l) {dbg : Bool} {srt : List (Nat × R) → List (Nat × R)} (hsrt : ∀ l, (srt l).length = l.length) {IB i sz : Nat} {zero x : R} {v v' : Coo Nat R}
    (hi : i < sz) (h : v.get dbg (CoordVec.par srt false IB sz) zero (i + IB) = .ok (v', x)) :
    Conf own ro (coordMem ⟨sz, v⟩) (coordGetT dbg srt IB zero i) x (coordMem ⟨sz, v'⟩) := by
  unfold coordGetT
  refine (Conf.rN (v := sz) (.inl (W _)) rfl).bind ((Conf.chk hi).bind ?_)
  unfold Coo.get at h
  obtain ⟨q, e2, e1⟩ := bind_eq_ok h
  unfold Coo.find at e2
  obtain ⟨w, e3, e2⟩ := bind_eq_ok e2
  obtain ⟨r, e4, e2⟩ := bind_eq_ok e2
  cases e2
  refine (coordSortT_ok W hsrt e3).bind ?_
  have hw : w = v' := by
    cases r with
    | none => cases e1; rfl
    | some n => obtain ⟨y, g, e1⟩ := bind_eq_ok e1; cases e1; rfl
  subst hw
  refine (cvecSlotT_ok (fun a o => .inl (W _)) (m := coordMem ⟨sz, w⟩) (rest := [_, _]) rfl rfl e4).bind ?_
  cases r with
  | none => cases e1; exact .ret _ _
  | some n =>
    obtain ⟨y, g, e1⟩ := bind_eq_ok e1
    cases e1
    exact Conf.rR (.inl (W _)) (rd_eq_ok.1 g)

end Threads
end Ublas
