import Verif.Lemmas.CMatIter
import Verif.Props.CompressedMatrix
/-! # C50 (compressed_matrix), C65: iterators of compressed_matrix -/
namespace Ublas
open Search Assoc SparseSpec
variable {α : Type}

/-- What a nested traversal must produce: each stored element exactly once (strictly increasing order), ordered by the outer, then the inner index;
`ax = one` is `for (i1 = begin1 (); …) for (i2 = i1.begin (); …)`, by rows; `ax = two` is by columns. -/
def Enumerates (ax : Axis) (val : Nat × Nat → Option α) (L : List ((Nat × Nat) × α)) : Prop :=
  L.Pairwise (fun a b => match ax with
    | .one => a.1.1 < b.1.1 ∨ (a.1.1 = b.1.1 ∧ a.1.2 < b.1.2)
    | .two => a.1.2 < b.1.2 ∨ (a.1.2 = b.1.2 ∧ a.1.1 < b.1.1)) ∧
  ∀ i j w, ((i, j), w) ∈ L ↔ val (i, j) = some w

theorem CMat.Inv.traverse {o : Orient} {IB : Nat} {v : CMat α} {s : CMatS α} (h : CMat.Inv o IB v s) (dbg : Bool) (zero : α) (ax : Axis) :
    ∃ L, v.traverse dbg o IB zero ax = .ok L ∧ Enumerates ax s.val L := by
  obtain ⟨E, h, h1, h2, h3, h4⟩ := h
  obtain ⟨a1, a2, b1⟩ := CMat.find0' h ax 0 0
  obtain ⟨c1, c2, d1⟩ := CMat.find0' h ax (CMat.setAlong ax 0 0 (CMat.along ax v.size1 v.size2)).1 (CMat.setAlong ax 0 0 (CMat.along ax v.size1 v.size2)).2
  obtain ⟨L, e1, e2, e3⟩ := CMat.outer_spec h dbg zero ax (e := ⟨0, (CMat.setAlong ax 0 0 (CMat.along ax v.size1 v.size2)).1, (CMat.setAlong ax 0 0 (CMat.along ax v.size1 v.size2)).2, c1, c2⟩)
    rfl rfl (CMat.along ax v.size1 v.size2 + 1) 0 ⟨0, 0, 0, a1, a2⟩ rfl (by cases ax <;> rfl) (Nat.zero_le _) (by omega)
  refine ⟨L, ?_, ?_, ?_⟩
  · simp only [CMat.traverse, CMat.outerBegin, CMat.outerEnd, b1, d1, bind_ok]; exact e1
  · cases ax <;> exact e2
  · intro i j w
    rw [e3, h1, h2]
    constructor
    · rintro ⟨⟨_, p1⟩, p2, p3⟩
      have hin : i < s.rows ∧ j < s.cols := by
        by_cases hij : i < s.rows ∧ j < s.cols
        · exact hij
        · have hb := h.below _ ((h.rep.2 _ w).1 p3)
          rw [h1, h2] at hb
          have hb : o.indexM i j * o.sizem s.rows s.cols + o.indexm i j < (v.filled1 - 1) * o.sizem s.rows s.cols := hb
          have hM := (CMat.key_lt_mul p2).1 hb
          have hle := h.le
          rw [h1, h2] at hle
          have : o.indexM i j < o.sizeM s.rows s.cols := by omega
          cases o <;> simp only [Orient.indexM, Orient.indexm, Orient.sizeM, Orient.sizem] at this p2 <;> omega
      rw [CMat.flat_at o s hin.1 hin.2] at p3
      exact p3
    · intro hw
      have hin : i < s.rows ∧ j < s.cols := by
        by_cases hij : i < s.rows ∧ j < s.cols
        · exact hij
        · rw [h4 i j hij] at hw; cases hw
      refine ⟨⟨Nat.zero_le _, by cases ax <;> first | exact hin.1 | exact hin.2⟩, CMat.minor_lt o hin.1 hin.2, ?_⟩
      rw [CMat.flat_at o s hin.1 hin.2]; exact hw

/-- **C50** (compressed_matrix).  After any legal history, the nested traversal — by rows or by columns, of a row- or column-major matrix,
with or without checks — visits exactly the stored elements, each once, in order of the outer and then the inner index, with
their indices and values, and without fault. -/
theorem C50_compressed_matrix_traversal (dbg : Bool) (o : Orient) (IB : Nat) (zero : α) (junk : CMat.Junk α) (r c nz : Nat) (ops : List (CMOp α × CMat.Junk α))
    (hl : cmlegalRun o zero ⟨r, c, fun _ => none, 0⟩ (ops.map (·.1))) (ax : Axis) :
    ∃ v0 v L, CMat.ctor dbg o IB junk r c nz = .ok v0 ∧ CMat.run dbg o IB zero v0 ops = .ok v ∧ v.traverse dbg o IB zero ax = .ok L ∧
      Enumerates ax (cmrun o zero ⟨r, c, fun _ => none, 0⟩ (ops.map (·.1))).val L := by
  obtain ⟨v0, e0, h0⟩ := CMat.inv_ctor dbg o IB junk r c nz
  obtain ⟨v, e, h⟩ := CMat.run_inv dbg o IB zero ops v0 _ h0 hl
  obtain ⟨L, e', h'⟩ := h.traverse dbg zero ax
  exact ⟨v0, v, L, e0, e, e', h'⟩

/-- The demo history of C24 (legal, shown there) traversed both ways. -/
example : (do let v0 ← CMat.ctor true .row 1 cmJunk 3 3 0
              let v ← CMat.run true .row 1 0 v0 C24_demo
              let a ← v.traverse true .row 1 0 .one
              let b ← v.traverse true .row 1 0 .two
              Except.ok (a, b)) =
    .ok ([((0, 1), 7), ((1, 1), 11), ((1, 2), 12), ((2, 1), 21)], [((0, 1), 7), ((1, 1), 11), ((2, 1), 21), ((1, 2), 12)]) := by decide

/-! ## C65: reverse iteration -/

/-- Reverse inner loop: `for (it = i.rbegin (); it != i.rend (); ++ it)` for the outer iterator `p`. -/
def CMat.reverseInner (dbg : Bool) (o : Orient) (IB : Nat) (zero : α) (v : CMat α) (ax : Axis) (p : CMIter) : M (List ((Nat × Nat) × α)) := do
  let b ← v.innerBegin dbg o IB ax p
  let e ← v.innerEnd dbg o IB ax p
  CMat.walkBack dbg o IB zero v ax.other b (v.size1 + v.size2 + v.filled2 + 1) e

/-- **C65** (refuted).  A 2×1 row_major matrix holding 7 at (0,0): walking its only column backwards (`begin2 ().rbegin ()`) does not yield that
element; decrementing the end iterator yields an iterator that is still the end: bad_index with checks, and without checks a read of
`index2_data_` and `value_data_` beyond the filled part. -/
theorem C65_reverse_refuted :
    ∃ (v0 v : CMat Int) (p b e q : CMIter), CMat.ctor false .row 0 cmJunk 2 1 2 = .ok v0 ∧
      CMat.run false .row 0 0 v0 [(.insert 0 0 7, cmJunk)] = .ok v ∧ v.get false .row 0 0 0 0 = .ok 7 ∧
      v.outerBegin .row 0 .two = .ok p ∧ v.innerBegin false .row 0 .two p = .ok b ∧ v.innerEnd false .row 0 .two p = .ok e ∧
      v.prev .row 0 .one e = .ok q ∧ CMat.iterEq q e = true ∧
      v.reverseInner true .row 0 0 .two p = .error .badIndex ∧
      v.reverseInner false .row 0 0 .two p = .ok [((1, 101), -2), ((0, 0), 7)] :=
  ⟨_, _, _, _, _, _, rfl, rfl, rfl, rfl, rfl, rfl, rfl, rfl, rfl, rfl⟩

/-- Walking back along a line. -/
theorem CMat.walkBack_fast {o : Orient} {IB : Nat} {v : CMat α} {E s} (h : Core o IB v E s) {sm : Nat} (hsm : o.sizem v.size1 v.size2 = sm) (dbg : Bool) (zero : α) {ax : Axis} (hf : o.fast ax = true) {M : Nat}
    {b : CMIter} (hb : b.it = cnt E (M * sm)) :
    ∀ (fuel : Nat) (p : CMIter), p.rank = 1 → cnt E (M * sm) ≤ p.it → p.it ≤ cnt E ((M + 1) * sm) → p.it < fuel + cnt E (M * sm) →
      (cnt E (M * sm) < p.it → p.itv = M ∧ ∃ m', p.i = o.indexM M m' ∧ p.j = o.indexm M m') →
      walkBack dbg o IB zero v ax b fuel p = .ok (((E.take p.it).drop (cnt E (M * sm))).map (fun x => ((o.indexM M (x.1 % sm), o.indexm M (x.1 % sm)), x.2))).reverse := by
  intro fuel
  induction fuel with
  | zero => intro p _ _ h3 h4; omega
  | succ fuel ih =>
    intro p hr h2 h3 h4 h5
    rw [walkBack.eq_def]
    simp only
    by_cases hlt : cnt E (M * sm) < p.it
    · obtain ⟨hv, m', hi, hj⟩ := h5 hlt
      have h1 : M + 1 < v.filled1 := by
        by_cases c : v.filled1 ≤ M + 1
        · have a := h.cnt_closed hsm c
          have b := h.cnt_closed hsm (M := M + 1) (by omega)
          omega
        · omega
      obtain ⟨_, _, l1, l2, l3, l4⟩ := h.line hsm h1
      obtain ⟨m, w, k1, k2, _⟩ := l3 (p.it - 1) (by omega) (by omega)
      have hprev : v.prev o IB ax p = .ok { p with it := p.it - 1 } := by unfold prev; rw [if_pos ⟨hr, hf⟩]
      obtain ⟨i1, i2, i3⟩ := h.index_at hsm dbg zero ax (p := { p with it := p.it - 1 }) k1 hr hv k2 (h.notEnd_fast hsm dbg hf hr hi hj h1 (by simp only; omega))
      rw [if_neg (by simp [iterEq, hr, hb]; omega)]
      simp only [hprev, i1, i2, i3, bind_ok]
      rw [ih { p with it := p.it - 1 } hr (by simp only; omega) (by simp only; omega) (by simp only; omega) (fun _ => ⟨hv, m', hi, hj⟩)]
      simp only [bind_ok]
      congr 1
      have hE : E.take p.it = E.take (p.it - 1) ++ [(M * sm + m, w)] := by
        conv => lhs; rw [show p.it = p.it - 1 + 1 by omega]
        rw [List.take_add_one, k2]; rfl
      have hlen : (E.take (p.it - 1)).length = p.it - 1 := by
        rw [List.length_take]; have := (List.getElem?_eq_some_iff.1 k2).1; omega
      rw [hE, List.drop_append_of_le_length (by omega), List.map_append, List.reverse_append]
      simp only [List.map_cons, List.map_nil, List.reverse_cons, List.reverse_nil, List.nil_append, key_mod k1, List.singleton_append]
    · have he' : p.it = cnt E (M * sm) := by omega
      rw [if_pos (by simp [iterEq, hr, hb, he']), List.drop_of_length_le (by rw [he', List.length_take]; omega)]; rfl

/-- **C65** (partial): along the storage lines (rows of a row_major, columns of a column_major matrix; `ax` is the axis of the outer iterator `p` at line `k`), reverse
iteration yields exactly the elements of the line in the reverse of the forward order.  Missing: iteration across the lines, for which the claim is false (above). -/
theorem C65_reverse_partial (dbg : Bool) (o : Orient) (IB : Nat) (zero : α) (v : CMat α) (s : CMatS α) (h : CMat.Inv o IB v s) (ax : Axis)
    (hf : o.fast ax.other = true) (k : Nat) (hk : k < CMat.along ax s.rows s.cols) (p : CMIter) (hp : v.indexAlong dbg o IB ax p = .ok k) :
    ∃ b e L, v.innerBegin dbg o IB ax p = .ok b ∧ v.innerEnd dbg o IB ax p = .ok e ∧ CMat.walk dbg o IB zero v ax.other e (v.filled2 + 1) b = .ok L ∧
      v.reverseInner dbg o IB zero ax p = .ok L.reverse ∧
      ∀ i j w, ((i, j), w) ∈ L ↔ CMat.along ax i j = k ∧ s.val (i, j) = some w := by
  obtain ⟨E, h, h1, h2, h3, h4⟩ := h
  generalize hsm : o.sizem v.size1 v.size2 = sm at *
  have e0 : CMat.setAlong ax 0 0 k = (o.indexM k 0, o.indexm k 0) := by cases o <;> cases ax <;> first | rfl | cases hf
  have e1 : CMat.setAlong ax v.size1 v.size2 k = (o.indexM k sm, o.indexm k sm) := by
    rw [← hsm]; cases o <;> cases ax <;> first | rfl | cases hf
  have hbe : CMat.cnt E (k * sm) ≤ CMat.cnt E ((k + 1) * sm) := CMat.cnt_mono _ (Nat.mul_le_mul_right _ (by omega))
  have hel : CMat.cnt E ((k + 1) * sm) ≤ v.filled2 := by rw [← h.len]; exact CMat.cnt_le _ _
  obtain ⟨b, b1, b2, b3, b4⟩ := h.find_fast_begin hsm hf (v.size1 + v.size2) k
  obtain ⟨e, c1, c2, c3, c4⟩ : ∃ q, CMat.findIt o IB v ax.other true 1 (v.size1 + v.size2 + 1 + 1) (o.indexM k sm) (o.indexm k sm) = .ok q ∧ q.rank = 1 ∧ q.it = CMat.cnt E ((k + 1) * sm) ∧
      (k + 1 < v.filled1 → q.itv = k ∧ ∃ m', q.i = o.indexM k m' ∧ q.j = o.indexm k m') := by
    obtain ⟨q, q1, q2, q3⟩ := h.find_fast_end hsm hf (v.size1 + v.size2 + 1) k sm (Nat.le_refl _)
    refine ⟨q, q1, q2, q3, fun ho => ?_⟩
    obtain ⟨_, _, l1, l2, l3, l4⟩ := h.line hsm ho
    obtain ⟨n, n1, n2, n3, n4, n5⟩ := l4 sm
    rw [h.findIt_open hsm ho ax.other 1 _ sm n n1, if_neg (by decide), hf] at q1
    have hn : n = CMat.cnt E ((k + 1) * sm) := by
      refine Nat.le_antisymm n3 (Nat.le_of_not_lt fun hlt => ?_)
      obtain ⟨k', w, k1, k2, _⟩ := l3 n n2 hlt
      have := n5 n k' w (Nat.le_refl _) hlt k2; omega
    simp only [if_pos hn, bind_ok, Bool.false_eq_true, if_false, Except.ok.injEq] at q1
    rw [← q1]; exact ⟨rfl, sm, rfl, rfl⟩
  obtain ⟨b', e', L, d1, d2, d3, d4, d5⟩ := CMat.inner_spec h dbg zero ax (p := p) (k := k) (by rw [h1, h2]; exact hk) hp
  have hib : v.innerBegin dbg o IB ax p = .ok b := by simp only [CMat.innerBegin, hp, bind_ok, e0, CMat.find, CMat.rounds]; exact b1
  have hie : v.innerEnd dbg o IB ax p = .ok e := by simp only [CMat.innerEnd, hp, bind_ok, e1, CMat.find, CMat.rounds]; exact c1
  rw [hib] at d1; cases d1
  rw [hie] at d2; cases d2
  refine ⟨b, e, L, hib, hie, d3, ?_, ?_⟩
  · have hopen : ∀ x : Nat, CMat.cnt E (k * sm) < x → x ≤ CMat.cnt E ((k + 1) * sm) → k + 1 < v.filled1 := by
      intro x hx hx'
      refine Nat.lt_of_not_le fun c => ?_
      have := h.cnt_closed hsm c; omega
    have hw := CMat.walk_fast h hsm dbg zero hf c3 (v.filled2 + 1) b b2 (by omega) (by omega) (by omega) (fun hlt => b4 (hopen _ (by omega) (Nat.le_refl _)))
    rw [d3] at hw
    have hwb := CMat.walkBack_fast h hsm dbg zero hf b3 (v.size1 + v.size2 + v.filled2 + 1) e c2 (by omega) (by omega) (by omega)
      (fun hlt => c4 (hopen _ (by omega) (Nat.le_refl _)))
    simp only [CMat.reverseInner, hib, hie, bind_ok]
    rw [hwb, Except.ok.inj hw, c3, b3]
  · intro i j w
    rw [d5, hsm]
    constructor
    · rintro ⟨p1, p2, p3⟩
      refine ⟨p1, ?_⟩
      have hin : i < s.rows ∧ j < s.cols := by
        have := h.keys_lt _ ((h.rep.2 _ w).1 p3)
        have hM : o.indexM i j < o.sizeM v.size1 v.size2 := by
          rw [← CMat.sizeM_mul o v.size1 v.size2, hsm] at this
          exact (CMat.key_lt_mul p2).1 this
        rw [h1, h2] at hM hsm
        cases o <;> simp only [Orient.indexM, Orient.indexm, Orient.sizeM, Orient.sizem] at hM p2 hsm <;> omega
      rw [← hsm, h1, h2, CMat.flat_at o s hin.1 hin.2] at p3
      exact p3
    · rintro ⟨p1, p2⟩
      have hin : i < s.rows ∧ j < s.cols := by
        by_cases hij : i < s.rows ∧ j < s.cols
        · exact hij
        · rw [h4 i j hij] at p2; cases p2
      rw [← hsm, h1, h2]
      refine ⟨p1, CMat.minor_lt o hin.1 hin.2, ?_⟩
      rw [CMat.flat_at o s hin.1 hin.2]; exact p2

/-- A reachable matrix and an outer iterator meeting the hypotheses, and the reverse walk along its second row. -/
example : (do let v0 ← CMat.ctor true .row 1 cmJunk 3 3 0
              let v ← CMat.run true .row 1 0 v0 C24_demo
              let p ← v.outerBegin .row 1 .one
              let p ← v.next true .row 1 .one p
              let k ← v.indexAlong true .row 1 .one p
              let r ← v.reverseInner true .row 1 0 .one p
              Except.ok (k, r)) = .ok (1, [((1, 2), 12), ((1, 1), 11)]) ∧ Orient.row.fast Axis.one.other = true := by decide

end Ublas
