import Verif.Props.ProxyIterDense
import Verif.Props.CMatIter
/-! # C83: views of a compressed matrix -/
namespace Ublas
open Search Assoc SparseSpec CMat
variable {R : Type}

theorem cnt_eq_before (E : List (Nat × R)) (b : Nat) : cnt E b = before E b := rfl

/-- Searching along a line from any place in it. -/
theorem CMat.Core.find_fast {o : Orient} {IB : Nat} {v : CMat R} {E s} (h : Core o IB v E s) {sm : Nat} (hsm : o.sizem v.size1 v.size2 = sm)
    {ax : Axis} (hf : o.fast ax = true) (fuel M m : Nat) (hm : m ≤ sm) :
    ∃ p, findIt o IB v ax true 1 (fuel + 2) (o.indexM M m) (o.indexm M m) = .ok p ∧ p.rank = 1 ∧ p.it = cnt E (M * sm + m) ∧
      (M + 1 < v.filled1 → p.itv = M ∧ ∃ m', p.i = o.indexM M m' ∧ p.j = o.indexm M m') := by
  by_cases h1 : v.filled1 ≤ M + 1
  · refine ⟨_, findIt_closed o IB v ax true 1 (fuel + 1) M m h1, rfl, ?_, fun h2 => by omega⟩
    have e1 := h.cnt_closed hsm h1
    have e2 := cnt_mono E (show M * sm ≤ M * sm + m by omega)
    have e3 := cnt_le E (M * sm + m)
    have := h.len
    show v.filled2 = _
    omega
  · obtain ⟨_, _, l1, l2, l3, l4⟩ := h.line hsm (M := M) (by omega)
    obtain ⟨n, n1, n2, n3, n4, n5⟩ := l4 m
    have hsp := splits_cnt h.rep (M * sm + m)
    have hml : (M + 1) * sm = M * sm + sm := by rw [Nat.add_mul, Nat.one_mul]
    have c1 := cnt_mono E (show M * sm ≤ M * sm + m by omega)
    have c2 := cnt_mono E (show M * sm + m ≤ (M + 1) * sm by omega)
    have hn : n = cnt E (M * sm + m) := by
      rcases Nat.lt_trichotomy n (cnt E (M * sm + m)) with c | c | c
      · obtain ⟨k, w, k1, k2, _⟩ := l3 n n2 (by omega)
        have a := n5 n k w (Nat.le_refl _) (by omega) k2
        have b := hsp.2.2.1 n (M * sm + k) (by omega) c (by simp [k2])
        omega
      · exact c
      · obtain ⟨k, w, k1, k2, _⟩ := l3 (cnt E (M * sm + m)) c1 (by omega)
        have a := n4 _ k w c1 c k2
        have hlt := (List.getElem?_eq_some_iff.1 k2).1
        have b := hsp.2.2.2 (cnt E (M * sm + m)) (M * sm + k) (Nat.le_refl _) hlt (by simp [k2])
        omega
    by_cases e : n = cnt E ((M + 1) * sm)
    · refine ⟨⟨1, o.indexM M m, o.indexm M m, M, n⟩, ?_, rfl, hn, fun _ => ⟨rfl, m, rfl, rfl⟩⟩
      rw [h.findIt_open hsm (by omega) ax 1 (fuel + 1) m n n1, if_neg (by decide), hf]
      simp only [if_pos e, bind_ok, Bool.false_eq_true, if_false]
    · obtain ⟨k, w, k1, k2, k3⟩ := l3 n n2 (by omega)
      by_cases ek : k = m
      · subst ek
        exact ⟨_, h.find_hit hsm ax (fuel + 1) k1 k2, rfl, hn, fun _ => ⟨rfl, k, rfl, rfl⟩⟩
      · refine ⟨⟨1, o.indexM M k, o.indexm M k, M, n⟩, ?_, rfl, hn, fun _ => ⟨rfl, k, rfl, rfl⟩⟩
        rw [h.findIt_open hsm (by omega) ax 1 (fuel + 1) m n n1, if_neg (by decide), hf]
        simp only [if_neg e, rd_eq_ok.2 k3, bind_ok, Nat.add_sub_cancel, decide_eq_true_eq, if_neg ek, fast_set hf]
        exact h.find_hit hsm ax fuel k1 k2

theorem before_at {L : List (Nat × R)} (h : Inc L) {M k : Nat} (hk : k < L.length) (h1 : M ≤ L[k].1) (h2 : ∀ x ∈ L, x.1 < M ∨ L[k].1 ≤ x.1) :
    before L M = k := by
  rw [← cnt_eq_before]
  refine cnt_of_pieces (Nat.le_of_lt hk) ?_ ?_
  · intro p hp
    obtain ⟨j, hj, rfl⟩ := List.mem_iff_getElem.1 hp
    simp only [List.length_take] at hj
    simp only [List.getElem_take]
    have hlt : L[j].1 < L[k].1 := List.pairwise_iff_getElem.1 h j k (by omega) hk (by omega)
    rcases h2 _ (List.getElem_mem (show j < L.length by omega)) with c | c <;> omega
  · intro p hp
    obtain ⟨j, hj, rfl⟩ := List.mem_iff_getElem.1 hp
    simp only [List.length_drop] at hj
    simp only [List.getElem_drop]
    by_cases hj0 : j = 0
    · subst hj0; simpa using h1
    · have hlt : L[k].1 < L[k + j].1 := List.pairwise_iff_getElem.1 h k (k + j) hk (by omega) (by omega)
      omega

namespace MIter

/-- The stored entries of the lines of a compressed matrix, from the list `E` of stored (address, value) pairs. -/
def cL (o : Orient) (sm : Nat) (E : List (Nat × R)) (ax : Axis) (l : Nat) : List (Nat × R) :=
  if o.fast ax = true then window (l * sm) sm E
  else (E.filter fun x => decide (x.1 % sm = l)).map fun x => (x.1 / sm, x.2)

/-- Where an inner iterator of a compressed matrix stands. -/
def cAt1 (o : Orient) (sm : Nat) (E : List (Nat × R)) (v : CMat R) (ax : Axis) (l k : Nat) (p : CMIter) : Prop :=
  p.rank = 1 ∧
  if o.fast ax = true then
    p.it = cnt E (l * sm) + k ∧ (l + 1 < v.filled1 → p.itv = l ∧ ∃ m', p.i = o.indexM l m' ∧ p.j = o.indexm l m')
  else
    (k = (cL o sm E ax l).length ∧ p.it = v.filled2) ∨
    (∃ M w, (cL o sm E ax l)[k]? = some (M, w) ∧ p.i = o.indexM M l ∧ p.j = o.indexm M l ∧ p.itv = M ∧ E[p.it]? = some (M * sm + l, w))

def cAt0 (ax : Axis) (l k : Nat) (p : CMIter) : Prop := p.rank = 0 ∧ (p.i, p.j) = coord ax k l

theorem cL_mem {o : Orient} {IB : Nat} {v : CMat R} {E s} (h : Core o IB v E s) {sm : Nat} (hsm : o.sizem v.size1 v.size2 = sm) (ax : Axis) {l : Nat}
    (hl : l < CMat.along ax.other v.size1 v.size2) (k : Nat) (w : R) :
    (k, w) ∈ cL o sm E ax l ↔ k < CMat.along ax v.size1 v.size2 ∧ s (o.indexM (coord ax k l).1 (coord ax k l).2 * sm + o.indexm (coord ax k l).1 (coord ax k l).2) = some w := by
  have hbel : ∀ p ∈ E, p.1 < o.sizeM v.size1 v.size2 * sm := by
    intro p hp
    have h1 := h.below p hp
    rw [hsm] at h1
    have h2 := h.le
    have h3 : (v.filled1 - 1) * sm ≤ o.sizeM v.size1 v.size2 * sm := Nat.mul_le_mul_right _ (by omega)
    omega
  unfold cL
  cases hf : o.fast ax with
  | true =>
    have e : o.indexM (coord ax k l).1 (coord ax k l).2 = l ∧ o.indexm (coord ax k l).1 (coord ax k l).2 = k := by
      cases o <;> cases ax <;> first | exact ⟨rfl, rfl⟩ | cases hf
    rw [if_pos rfl, C82_window_spec, e.1, e.2, fast_size hf, hsm, h.rep.2]
  | false =>
    have e : o.indexM (coord ax k l).1 (coord ax k l).2 = k ∧ o.indexm (coord ax k l).1 (coord ax k l).2 = l := by
      cases o <;> cases ax <;> first | exact ⟨rfl, rfl⟩ | cases hf
    have hls : l < sm := by
      rw [← hsm]; cases o <;> cases ax <;> first | exact hl | cases hf
    rw [if_neg (by simp), e.1, e.2, slow_size hf, h.rep.2]
    simp only [List.mem_map, List.mem_filter, decide_eq_true_eq, Prod.exists, Prod.mk.injEq]
    constructor
    · rintro ⟨a, b, ⟨hE, hm⟩, rfl, rfl⟩
      have hd := Nat.div_add_mod a sm
      rw [hm] at hd
      refine ⟨?_, ?_⟩
      · exact Nat.div_lt_of_lt_mul (by rw [Nat.mul_comm]; exact hbel _ hE)
      · rw [Nat.mul_comm, hd]; exact hE
    · rintro ⟨hk, hE⟩
      refine ⟨k * sm + l, w, ⟨hE, ?_⟩, ?_, rfl⟩
      · rw [Nat.mul_comm, Nat.mul_add_mod, Nat.mod_eq_of_lt hls]
      · rw [Nat.mul_comm, Nat.mul_add_div (by omega), Nat.div_eq_of_lt hls, Nat.add_zero]

theorem cL_inc {o : Orient} {IB : Nat} {v : CMat R} {E s} (h : Core o IB v E s) {sm : Nat} (ax : Axis) (l : Nat) : Inc (cL o sm E ax l) := by
  unfold cL
  split
  · exact window_inc h.rep.1 _ _
  · unfold Inc
    rw [List.pairwise_map]
    refine List.Pairwise.imp_of_mem ?_ (h.rep.1.filter _)
    intro a b ha hb hab
    simp only [List.mem_filter, decide_eq_true_eq] at ha hb
    have d1 := Nat.div_add_mod a.1 sm
    have d2 := Nat.div_add_mod b.1 sm
    rw [ha.2] at d1
    rw [hb.2] at d2
    simp only
    by_contra hc
    have := Nat.mul_le_mul_left sm (Nat.le_of_not_lt hc)
    omega

theorem compressed_stands {o : Orient} {IB : Nat} {v : CMat R} {E s} (h : Core o IB v E s) {sm : Nat} (hsm : o.sizem v.size1 v.size2 = sm) (dbg : Bool)
    (zero : R) :
    (MIter.compressed dbg o IB zero v).Stands (flines v.size1 v.size2) (cL o sm E) cAt0 (cAt1 o sm E v) := by
  have hlen : ∀ ax, (MIter.compressed dbg o IB zero v).len ax = CMat.along ax v.size1 v.size2 := fun ax => rfl
  have hSM : o.sizeM v.size1 v.size2 ≤ v.size1 + v.size2 := by cases o <;> simp only [Orient.sizeM] <;> omega
  have hbelow : ∀ ax l, l < CMat.along ax.other v.size1 v.size2 → ∀ x ∈ cL o sm E ax l, x.1 < CMat.along ax v.size1 v.size2 :=
    fun ax l hl x hx => ((cL_mem h hsm ax hl x.1 x.2).1 hx).1
  -- searching
  have hfind : ∀ ax k l, k ≤ CMat.along ax v.size1 v.size2 → l < CMat.along ax.other v.size1 v.size2 →
      ∃ p, (MIter.compressed dbg o IB zero v).look ax 1 k l = .ok p ∧ cAt1 o sm E v ax l (before (cL o sm E ax l) k) p := by
    intro ax k l hk hl
    cases hf : o.fast ax with
    | true =>
      have e : (MIter.compressed dbg o IB zero v).look ax 1 k l = findIt o IB v ax true 1 (v.size1 + v.size2 + 2) (o.indexM l k) (o.indexm l k) := by
        cases o <;> cases ax <;> first | rfl | cases hf
      rw [fast_size hf, hsm] at hk
      obtain ⟨p, p1, p2, p3, p4⟩ := h.find_fast hsm hf (v.size1 + v.size2) l k hk
      refine ⟨p, by rw [e]; exact p1, p2, ?_⟩
      rw [if_pos hf]
      refine ⟨?_, p4⟩
      simp only [cL, if_pos hf]
      rw [p3, cnt_eq_before, cnt_eq_before, before_window _ _ _ _ hk]
    | false =>
      have e : (MIter.compressed dbg o IB zero v).look ax 1 k l = findIt o IB v ax true 1 (v.size1 + v.size2 + 2) (o.indexM k l) (o.indexm k l) := by
        cases o <;> cases ax <;> first | rfl | cases hf
      have hls : l < sm := by rw [← hsm]; cases o <;> cases ax <;> first | exact hl | cases hf
      have hmem : ∀ k w, (k, w) ∈ cL o sm E ax l ↔ k < CMat.along ax v.size1 v.size2 ∧ s (k * sm + l) = some w := by
        intro k w
        have := cL_mem h hsm ax hl k w
        have e : o.indexM (coord ax k l).1 (coord ax k l).2 = k ∧ o.indexm (coord ax k l).1 (coord ax k l).2 = l := by
          cases o <;> cases ax <;> first | exact ⟨rfl, rfl⟩ | cases hf
        rw [e.1, e.2] at this
        exact this
      obtain ⟨p, p1, p2, p3⟩ := h.find_slow hsm hf hls (v.size1 + v.size2 + 2) k (by omega) (by omega)
      refine ⟨p, by rw [e]; exact p1, p2, ?_⟩
      rw [if_neg (by rw [hf]; simp)]
      rcases p3 with ⟨a, b⟩ | ⟨M, w, a1, a2, a3, a4, a5, a6⟩
      · refine Or.inl ⟨before_all ?_, a⟩
        intro x hx
        have hx' := ((hmem x.1 x.2).1 hx).2
        by_contra hc
        rw [b x.1 (by omega)] at hx'
        cases hx'
      · have hs : s (M * sm + l) = some w := (h.rep.2 _ _).2 (List.mem_of_getElem? a5)
        have hM : M < CMat.along ax v.size1 v.size2 := by
          have := (h.inLine hsm hls a5).1
          have := h.le
          rw [slow_size hf]; omega
        obtain ⟨n, hn, he⟩ := List.mem_iff_getElem.1 ((hmem M w).2 ⟨hM, hs⟩)
        have hb : before (cL o sm E ax l) k = n := by
          refine before_at (cL_inc h ax l) hn (by rw [he]; exact a1) ?_
          intro x hx
          have hx' := ((hmem x.1 x.2).1 hx).2
          rw [he]
          by_contra hc
          simp only at hc
          rw [a6 x.1 (by omega) (by omega)] at hx'
          cases hx'
        rw [hb]
        exact Or.inr ⟨M, w, by rw [List.getElem?_eq_getElem hn, he], a2, a3, a4, a5⟩
  -- the stored entry under an inner iterator
  have hent : ∀ ax l k p (hk : k < (cL o sm E ax l).length), l < CMat.along ax.other v.size1 v.size2 → cAt1 o sm E v ax l k p →
      v.index1 dbg o IB ax p = .ok (coord ax (cL o sm E ax l)[k].1 l).1 ∧ v.index2 dbg o IB ax p = .ok (coord ax (cL o sm E ax l)[k].1 l).2 ∧
      v.deref dbg o IB zero ax p = .ok (cL o sm E ax l)[k].2 := by
    intro ax l k p hk hl hp
    obtain ⟨hr, hp⟩ := hp
    cases hf : o.fast ax with
    | true =>
      rw [if_pos hf] at hp
      obtain ⟨hit, hin⟩ := hp
      have hc : cL o sm E ax l = window (l * sm) sm E := by simp only [cL, if_pos hf]
      have hk' := hk
      rw [hc] at hk'
      obtain ⟨hn, e, e1, e2⟩ := window_get h.rep.1 (l * sm) sm k hk'
      have hce : (cL o sm E ax l)[k] = (E[before E (l * sm) + k].1 - l * sm, E[before E (l * sm) + k].2) := by
        rw [← e]; congr 1
      rw [hce]
      rw [cnt_eq_before] at hit
      generalize hm : E[before E (l * sm) + k].1 - l * sm = m at *
      have hE : E[p.it]? = some (l * sm + m, E[before E (l * sm) + k].2) := by
        rw [hit, List.getElem?_eq_getElem hn]
        congr 1
        exact Prod.ext (by simp only; omega) rfl
      have hms : m < sm := by omega
      obtain ⟨q1, q2, q3, q4⟩ := h.inLine hsm hms hE
      obtain ⟨hv, m', hi, hj⟩ := hin q1
      obtain ⟨i1, i2, i3⟩ := h.index_at hsm dbg zero ax hms hr hv hE (h.notEnd_fast hsm dbg hf hr hi hj q1 (by omega))
      rw [i1, i2, i3]
      refine ⟨?_, ?_, rfl⟩ <;> (cases o <;> cases ax <;> first | rfl | cases hf)
    | false =>
      rw [if_neg (by rw [hf]; simp)] at hp
      have hls : l < sm := by rw [← hsm]; cases o <;> cases ax <;> first | exact hl | cases hf
      rcases hp with ⟨a, _⟩ | ⟨M, w, a1, a2, a3, a4, a5⟩
      · omega
      · rw [List.getElem?_eq_getElem hk] at a1
        have a1 : (cL o sm E ax l)[k] = (M, w) := by simpa using a1
        rw [a1]
        obtain ⟨q1, q2, q3, q4⟩ := h.inLine hsm hls a5
        obtain ⟨i1, i2, i3⟩ := h.index_at hsm dbg zero ax hls hr a4 a5 (h.notEnd_slow hsm dbg hf hr a2 a3 (by omega))
        rw [i1, i2, i3]
        refine ⟨?_, ?_, rfl⟩ <;> (cases o <;> cases ax <;> first | rfl | cases hf)
  have hsee0 : ∀ ax l k p, k < CMat.along ax v.size1 v.size2 → cAt0 ax l k p → v.indexAlong dbg o IB ax p = .ok k := by
    intro ax l k p hk hp
    obtain ⟨hr, hp⟩ := hp
    have hne : v.notEnd dbg o IB ax p = .ok () := by
      unfold CMat.notEnd
      obtain ⟨itv, n, e'⟩ := find0' h ax (setAlong ax p.i p.j (along ax v.size1 v.size2)).1 (setAlong ax p.i p.j (along ax v.size1 v.size2)).2
      rw [e', bind_ok, check_true, ite_self]
      simp only [iterEq, hr]
      cases ax <;> simp only [coord, along, setAlong, Prod.mk.injEq] at hp hk ⊢ <;> simp [hp] <;> omega
    unfold CMat.indexAlong CMat.index1 CMat.index2
    cases ax <;> simp only [hne, if_true, bind_ok, hr] <;> simp only [coord, Prod.mk.injEq] at hp <;> simp [hp]
  refine ⟨fun ax => everyone_inc _ _, fun ax => everyone_below _ _, fun ax l _ => cL_inc h ax l, fun ax l hl => hbelow ax l hl, ?_, ?_, ?_, ?_, ?_, ?_, ?_, ?_, ?_⟩
  · intro ax k l hk hl
    obtain ⟨itv, n, e⟩ := find0' h ax (coord ax k l).1 (coord ax k l).2
    have hb : before (flines v.size1 v.size2 ax) k = k := flines_before _ _ _ hk
    refine ⟨⟨0, (coord ax k l).1, (coord ax k l).2, itv, n⟩, ?_, rfl, ?_⟩
    · refine Eq.trans ?_ e; cases ax <;> rfl
    · show _ = coord ax (before (flines v.size1 v.size2 ax) k) l
      rw [hb]
  · intro ax l k p hl hp hk
    rw [flines_length] at hk
    have hia := hsee0 ax l k p hk hp
    obtain ⟨hr, hp⟩ := hp
    refine ⟨{ p with i := (coord ax (k + 1) l).1, j := (coord ax (k + 1) l).2 }, ?_, hr, rfl⟩
    show v.next dbg o IB ax p = _
    unfold CMat.next
    rw [if_neg (by rw [hr]; simp), hia, bind_ok]
    simp only [hr]
    cases ax <;> simp only [coord, setAlong, Prod.mk.injEq] at hp ⊢ <;> simp only [hp] <;> rfl
  · intro ax l k k' p q _ _ _ hp hq
    show Except.ok (iterEq p q) = _
    obtain ⟨hr, hp⟩ := hp
    obtain ⟨hr', hq⟩ := hq
    simp only [iterEq, hr, hr']
    cases ax <;> simp only [coord, Prod.mk.injEq] at hp hq <;> simp [hp, hq]
  · intro ax l k p hk _ hp
    rw [flines_get]
    rw [flines_length] at hk
    have := hsee0 ax l k p hk hp
    cases ax <;> exact this
  · intro ax l k p hk hl hp
    rw [flines_get]
    rw [flines_length] at hk
    have hia := hsee0 ax l k p hk hp
    have hkk : k < CMat.along ax.other.other v.size1 v.size2 := by rw [other_other]; exact hk
    obtain ⟨b, b1, b2⟩ := hfind ax.other 0 k (Nat.zero_le _) hkk
    obtain ⟨e, e1, e2⟩ := hfind ax.other (CMat.along ax.other v.size1 v.size2) k (Nat.le_refl _) hkk
    rw [before_zero] at b2
    rw [before_all (hbelow ax.other k hkk)] at e2
    refine ⟨b, e, ?_, ?_, b2, e2⟩
    · show v.innerBegin dbg o IB ax p = _
      unfold CMat.innerBegin
      rw [hia, bind_ok, ← b1]
      cases ax <;> rfl
    · show v.innerEnd dbg o IB ax p = _
      unfold CMat.innerEnd
      rw [hia, bind_ok, ← e1]
      cases ax <;> rfl
  · intro ax k l hk hl; exact hfind ax k l hk hl
  · intro ax l k p hl hp hk
    show ∃ q, v.next dbg o IB ax p = .ok q ∧ _
    cases hf : o.fast ax with
    | true =>
      obtain ⟨hr, hp⟩ := hp
      rw [if_pos hf] at hp
      refine ⟨{ p with it := p.it + 1 }, by unfold CMat.next; rw [if_pos ⟨hr, hf⟩], hr, ?_⟩
      rw [if_pos hf]
      exact ⟨by simp only; omega, hp.2⟩
    | false =>
      have hent' := hent ax l k p hk hl hp
      have hr := hp.1
      obtain ⟨hr, hp⟩ := hp
      rw [if_neg (by rw [hf]; simp)] at hp
      rcases hp with ⟨a, _⟩ | ⟨M, w, a1, a2, a3, a4, a5⟩
      · omega
      · rw [List.getElem?_eq_getElem hk] at a1
        have a1 : (cL o sm E ax l)[k] = (M, w) := by simpa using a1
        rw [a1] at hent'
        have hia : v.indexAlong dbg o IB ax p = .ok M := by
          cases ax
          · exact hent'.1
          · exact hent'.2.1
        have hM : M < CMat.along ax v.size1 v.size2 := by
          have := hbelow ax l hl _ (List.getElem_mem hk)
          rw [a1] at this
          exact this
        obtain ⟨q, q1, q2⟩ := hfind ax (M + 1) l hM hl
        refine ⟨q, ?_, ?_⟩
        · unfold CMat.next
          rw [if_neg (by rw [hf]; simp), hia, bind_ok]
          refine Eq.trans ?_ q1
          simp only [hr, if_true]
          rw [a2, a3, slow_set hf]
          cases o <;> cases ax <;> first | rfl | cases hf
        · have hb : before (cL o sm E ax l) (M + 1) = k + 1 := by
            by_cases hk1 : k + 1 < (cL o sm E ax l).length
            · have hlt := List.pairwise_iff_getElem.1 (cL_inc h (sm := sm) ax l) k (k + 1) hk hk1 (by omega)
              rw [a1] at hlt
              refine before_at (cL_inc h ax l) hk1 hlt ?_
              intro x hx
              obtain ⟨j, hj, rfl⟩ := List.mem_iff_getElem.1 hx
              rcases Nat.lt_trichotomy j (k + 1) with c | c | c
              · rcases Nat.lt_or_ge j k with c' | c'
                · have := List.pairwise_iff_getElem.1 (cL_inc h (sm := sm) ax l) j k hj hk c'
                  rw [a1] at this
                  simp only at this
                  left; omega
                · have : j = k := by omega
                  subst this
                  left; rw [a1]; simp only; omega
              · subst c; right; exact Nat.le_refl _
              · right
                exact Nat.le_of_lt (List.pairwise_iff_getElem.1 (cL_inc h (sm := sm) ax l) (k + 1) j hk1 hj c)
            · have hlast : k + 1 = (cL o sm E ax l).length := by omega
              rw [hlast]
              refine before_all ?_
              intro x hx
              obtain ⟨j, hj, rfl⟩ := List.mem_iff_getElem.1 hx
              rcases Nat.lt_or_ge j k with c' | c'
              · have := List.pairwise_iff_getElem.1 (cL_inc h (sm := sm) ax l) j k hj hk c'
                rw [a1] at this
                simp only at this
                omega
              · have : j = k := by omega
                subst this
                rw [a1]; simp only; omega
          rw [hb] at q2
          exact q2
  · intro ax l k k' p q hl hk hk' hp hq
    show Except.ok (iterEq p q) = _
    obtain ⟨hr, hp⟩ := hp
    obtain ⟨hr', hq⟩ := hq
    simp only [iterEq, hr, hr', or_self, if_true]
    congr 1
    cases hf : o.fast ax with
    | true =>
      rw [if_pos hf] at hp hq
      simp only [decide_eq_decide]
      omega
    | false =>
      rw [if_neg (by rw [hf]; simp)] at hp hq
      have hlenE := h.len
      simp only [decide_eq_decide]
      rcases hp with ⟨a, a'⟩ | ⟨M, w, a1, a2, a3, a4, a5⟩ <;> rcases hq with ⟨b, b'⟩ | ⟨M', w', b1, b2, b3, b4, b5⟩
      · omega
      · have := (List.getElem?_eq_some_iff.1 b5).1
        have := (List.getElem?_eq_some_iff.1 b1).1
        omega
      · have := (List.getElem?_eq_some_iff.1 a5).1
        have := (List.getElem?_eq_some_iff.1 a1).1
        omega
      · obtain ⟨x1, x2⟩ := List.getElem?_eq_some_iff.1 a1
        obtain ⟨y1, y2⟩ := List.getElem?_eq_some_iff.1 b1
        obtain ⟨z1, z2⟩ := List.getElem?_eq_some_iff.1 a5
        obtain ⟨u1, u2⟩ := List.getElem?_eq_some_iff.1 b5
        have hls : l < sm := by rw [← hsm]; cases o <;> cases ax <;> first | exact hl | cases hf
        constructor
        · intro e
          rw [e, b5] at a5
          simp only [Option.some.injEq, Prod.mk.injEq] at a5
          have hMM : M' = M := Nat.eq_of_mul_eq_mul_right (show 0 < sm by omega) (by omega)
          rcases Nat.lt_trichotomy k k' with c | c | c
          · have := List.pairwise_iff_getElem.1 (cL_inc h (sm := sm) ax l) k k' x1 y1 c
            rw [x2, y2] at this; simp only at this; omega
          · exact c
          · have := List.pairwise_iff_getElem.1 (cL_inc h (sm := sm) ax l) k' k y1 x1 c
            rw [x2, y2] at this; simp only at this; omega
        · intro e
          subst e
          rw [a1] at b1
          simp only [Option.some.injEq, Prod.mk.injEq] at b1
          rw [← b1.1] at u2
          rcases Nat.lt_trichotomy p.it q.it with c | c | c
          · have := List.pairwise_iff_getElem.1 h.rep.1 p.it q.it z1 u1 c
            rw [z2, u2] at this; simp only at this; omega
          · exact c
          · have := List.pairwise_iff_getElem.1 h.rep.1 q.it p.it u1 z1 c
            rw [z2, u2] at this; simp only at this; omega
  · intro ax l k p hk hl hp
    obtain ⟨e1, e2, e3⟩ := hent ax l k p hk hl hp
    cases ax
    · exact ⟨e1, e2, e3⟩
    · exact ⟨e2, e1, e3⟩

theorem compressed_backs {o : Orient} {IB : Nat} {v : CMat R} {E : List (Nat × R)} {sm : Nat} (dbg : Bool) (zero : R) {ax : Axis} (hf : o.fast ax = true) :
    (MIter.compressed dbg o IB zero v).Backs (cL o sm E) (cAt1 o sm E v) ax := by
  intro l k p hl hp hk
  obtain ⟨hr, hp⟩ := hp
  rw [if_pos hf] at hp
  refine ⟨{ p with it := p.it - 1 }, ?_, hr, ?_⟩
  · show v.prev o IB ax p = _
    unfold CMat.prev
    rw [if_pos ⟨hr, hf⟩]
    rfl
  · rw [if_pos hf]
    exact ⟨by simp only; omega, hp.2⟩

/-- What a reachable compressed matrix shows, row by row and column by column. -/
theorem compressed_inv {o : Orient} {IB : Nat} {v : CMat R} {s : CMatS R} (h : CMat.Inv o IB v s) (dbg : Bool) (zero : R) :
    ∃ L At0 At1, v.size1 = s.rows ∧ v.size2 = s.cols ∧
      (∀ ax l, l < CMat.along ax.other s.rows s.cols → Lists (L ax l) fun k => s.val (coord ax k l)) ∧
      (MIter.compressed dbg o IB zero v).Stands (flines v.size1 v.size2) L At0 At1 ∧
      (∀ ax, o.fast ax = true → (MIter.compressed dbg o IB zero v).Backs L At1 ax) ∧
      (MIter.compressed dbg o IB zero v).Reads fun i j => (s.val (i, j)).getD zero := by
  have hobs := CMat.Inv.observes dbg o IB zero h
  obtain ⟨E, h, h1, h2, h3, h4⟩ := h
  refine ⟨_, _, _, h1, h2, ?_, compressed_stands h rfl dbg zero, fun ax hf => compressed_backs dbg zero hf, ?_⟩
  · intro ax l hl
    refine ⟨cL_inc h ax l, fun k w => ?_⟩
    rw [cL_mem h rfl ax (by rw [h1, h2]; exact hl), h1, h2]
    constructor
    · rintro ⟨hk, hw⟩
      have hin : (coord ax k l).1 < s.rows ∧ (coord ax k l).2 < s.cols := by cases ax <;> simp only [coord, along, Axis.other] at hk hl ⊢ <;> omega
      rw [CMat.flat_at o s hin.1 hin.2] at hw
      exact hw
    · intro hw
      have hin : (coord ax k l).1 < s.rows ∧ (coord ax k l).2 < s.cols := by
        by_cases hij : (coord ax k l).1 < s.rows ∧ (coord ax k l).2 < s.cols
        · exact hij
        · have := h4 _ _ hij
          simp only [Prod.eta] at this
          simp only [this] at hw
          cases hw
      refine ⟨by cases ax <;> simp only [coord, along] at hin ⊢ <;> omega, ?_⟩
      rw [CMat.flat_at o s hin.1 hin.2]; exact hw
  · intro i j hi hj
    exact hobs.2.2.1 i j (by rw [← h1]; exact hi) (by rw [← h2]; exact hj)

end MIter

/-- **C83 (sparse).** After any legal history of a compressed matrix, whatever ranges, slices and indirect arrays are stacked on it: the nested loops over the
view visit its rows (columns) in order and in each exactly the elements the view shows there — through ranges the stored elements of the matrix behind that
fall into the window, through slices and indirect arrays every element — in increasing order with their indices and values.  A row or column of such a
view, again seen through any stack of vector views, shows the same when iterated forwards; backwards it yields the reverse along the major direction
(the other direction: C65). -/
theorem C83_sparse_views (dbg : Bool) (o : Orient) (IB : Nat) (zero : R) (junk : CMat.Junk R) (r c nz : Nat) (ops : List (CMOp R × CMat.Junk R))
    (hl : cmlegalRun o zero ⟨r, c, fun _ => none, 0⟩ (ops.map (·.1))) (s : CMatS R)
    (hs : s = cmrun o zero ⟨r, c, fun _ => none, 0⟩ (ops.map (·.1))) (h1 : s.rows < 2 ^ 64) (h2 : s.cols < 2 ^ 64) (p : MRef) (hp : p.Fits s.rows s.cols) :
    ∃ v0 v, ∃ L : Axis → Nat → List (Nat × R), CMat.ctor dbg o IB junk r c nz = .ok v0 ∧ CMat.run dbg o IB zero v0 ops = .ok v ∧
      (∀ i, i < s.rows → Lists (L .two i) fun j => s.val (i, j)) ∧ (∀ j, j < s.cols → Lists (L .one j) fun i => s.val (i, j)) ∧
      let elem := fun i j => (s.val (i, j)).getD zero
      let X := (MIter.compressed dbg o IB zero v).view dbg p
      (0 < p.size2 s.cols → X.traverse .one = .ok ((List.range (p.size1 s.rows)).map fun i => (i, (p.shown elem L .two i).map fun x => ((i, x.1), x.2)))) ∧
      (0 < p.size1 s.rows → X.traverse .two = .ok ((List.range (p.size2 s.cols)).map fun j => (j, (p.shown elem L .one j).map fun x => ((x.1, j), x.2)))) ∧
      (∀ i q, i < p.size1 s.rows → VRef.Fits (p.size2 s.cols) q →
        ((X.line dbg .two i).view dbg q).els = .ok (q.shown (fun j => elem (p.index i j).1 (p.index i j).2) (p.shown elem L .two i)) ∧
        (o = .row → ((X.line dbg .two i).view dbg q).elsBack = .ok (q.shown (fun j => elem (p.index i j).1 (p.index i j).2) (p.shown elem L .two i)).reverse)) ∧
      (∀ j q, j < p.size2 s.cols → VRef.Fits (p.size1 s.rows) q →
        ((X.line dbg .one j).view dbg q).els = .ok (q.shown (fun i => elem (p.index i j).1 (p.index i j).2) (p.shown elem L .one j)) ∧
        (o = .col → ((X.line dbg .one j).view dbg q).elsBack = .ok (q.shown (fun i => elem (p.index i j).1 (p.index i j).2) (p.shown elem L .one j)).reverse)) := by
  subst hs
  obtain ⟨v0, e0, i0⟩ := CMat.inv_ctor dbg o IB junk r c nz
  obtain ⟨v, e, i1⟩ := CMat.run_inv dbg o IB zero ops v0 _ i0 hl
  generalize hs : cmrun o zero ⟨r, c, fun _ => none, 0⟩ (ops.map (·.1)) = s at *
  obtain ⟨L, At0, At1, z1, z2, hL, hst, hb, hr⟩ := MIter.compressed_inv i1 dbg zero
  refine ⟨v0, v, L, e0, e, fun i hi => hL .two i hi, fun j hj => hL .one j hj, ?_⟩
  have q1 : (MIter.compressed dbg o IB zero v).size1 = s.rows := z1
  have q2 : (MIter.compressed dbg o IB zero v).size2 = s.cols := z2
  obtain ⟨⟨A0, A1, k1, k2⟩, k3, k4, k5, k6, k7⟩ := MIter.view_stands hst hr (by rw [q1]; exact h1) (by rw [q2]; exact h2) dbg p (by rw [q1, q2]; exact hp)
  rw [q1] at k4 k6
  rw [q2] at k5 k7
  have eL := MRef.shownLines_full s.rows s.cols p hp
  rw [z1, z2] at k1
  have e1 : ∀ {m : Nat}, m < p.size1 s.rows → m < ((MIter.compressed dbg o IB zero v).view dbg p).len Axis.two.other := by
    intro m hm; show m < MIter.size1 _; rw [k4]; exact hm
  have e2 : ∀ {m : Nat}, m < p.size2 s.cols → m < ((MIter.compressed dbg o IB zero v).view dbg p).len Axis.one.other := by
    intro m hm; show m < MIter.size2 _; rw [k5]; exact hm
  refine ⟨fun h => ?_, fun h => ?_, fun i q hi hq => ?_, fun j q hj hq => ?_⟩
  · refine (k1.traverse (ax := .one) (e2 h)).trans ?_
    unfold MIter.table
    rw [eL]
    simp only [MIter.flines, everyone, List.map_map, CMat.along]
    rfl
  · refine (k1.traverse (ax := .two) (e1 h)).trans ?_
    unfold MIter.table
    rw [eL]
    simp only [MIter.flines, everyone, List.map_map, CMat.along]
    rfl
  · have t1 := k1.line dbg .two (e1 hi)
    have t3 := k3.line dbg .two (e1 hi)
    have hsz : (((MIter.compressed dbg o IB zero v).view dbg p).line dbg .two i).size = p.size2 s.cols := k5
    obtain ⟨⟨At, u1, u2⟩, _⟩ := VIter.view_stands t1 t3 (by rw [hsz]; exact k7) dbg q (by rw [hsz]; exact hq)
    exact ⟨u1.els, fun ho => u1.elsBack (u2 ((k2 .two (hb .two (by subst ho; rfl))).line dbg (e1 hi)))⟩
  · have t1 := k1.line dbg .one (e2 hj)
    have t3 := k3.line dbg .one (e2 hj)
    have hsz : (((MIter.compressed dbg o IB zero v).view dbg p).line dbg .one j).size = p.size1 s.rows := k4
    obtain ⟨⟨At, u1, u2⟩, _⟩ := VIter.view_stands t1 t3 (by rw [hsz]; exact k6) dbg q (by rw [hsz]; exact hq)
    exact ⟨u1.els, fun ho => u1.elsBack (u2 ((k2 .one (hb .one (by subst ho; rfl))).line dbg (e2 hj)))⟩

/-- The demo history of C24 (legal, shown there): a 2 × 2 window of the 3 × 3 matrix shows its three stored elements; a strided view of it shows the zeros too. -/
example : MRef.Fits 3 3 (.sel .base (.range ⟨1, 2⟩) (.range ⟨1, 2⟩)) ∧
    (do let v0 ← CMat.ctor true .row 1 cmJunk 3 3 0
        let v ← CMat.run true .row 1 0 v0 C24_demo
        let a ← ((MIter.compressed true .row 1 0 v).view true (.sel .base (.range ⟨1, 2⟩) (.range ⟨1, 2⟩))).traverse .one
        let b ← ((MIter.compressed true .row 1 0 v).view true (.sel .base (.range ⟨1, 2⟩) (.range ⟨1, 2⟩))).traverse .two
        let c ← (((MIter.compressed true .row 1 0 v).view true (.sel .base (.range ⟨1, 2⟩) (.range ⟨1, 2⟩))).line true .two 0).elsBack
        let d ← ((MIter.compressed true .row 1 0 v).view true (.sel .base (.slice ⟨2, -2, 2⟩) (.slice ⟨1, 1, 2⟩))).traverse .one
        Except.ok (a, b, c, d) : M _) =
    .ok ([(0, [((0, 0), 11), ((0, 1), 12)]), (1, [((1, 0), 21)])], [(0, [((0, 0), 11), ((1, 0), 21)]), (1, [((0, 1), 12)])],
      [(1, 12), (0, 11)], [(0, [((0, 0), 21), ((0, 1), 0)]), (1, [((1, 0), 7), ((1, 1), 0)])]) := by
  refine ⟨by simp [MRef.Fits, MRef.size1, MRef.size2], by rfl⟩

end Ublas
