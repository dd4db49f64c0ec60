import Verif.Lemmas.VectorOfVector
/-! # C60, C75: generalized_vector_of_vector -/
namespace Ublas
open Search Assoc SparseSpec CMat
variable {α : Type}
namespace CVec

theorem Repr.end_ {IB : Nat} {v : CVec α} {E s} (h : Repr IB v E s) : v.find IB v.size = .ok v.filled := by
  obtain ⟨m, m1, m2, m3⟩ := h.lb v.size
  have hm : m = v.filled := by
    refine Nat.le_antisymm m2 (Nat.le_of_not_lt fun hlt => ?_)
    have hl : m < E.length := by rw [h.holds.1]; exact hlt
    have x1 := (split_pieces m3).2.2 E[m] (List.mem_iff_getElem.2 ⟨0, by simp; omega, by simp⟩)
    have x2 := h.rep.some_of_getElem (List.getElem?_eq_getElem hl)
    rw [h.range _ (by rw [← h.size]; exact x1)] at x2; simp at x2
  rw [← hm]; exact m1

theorem Repr.key_lt_size {IB : Nat} {v : CVec α} {E s} (h : Repr IB v E s) {n : Nat} (hl : n < E.length) : E[n].1 < v.size := by
  have x2 : s.val E[n].1 = some E[n].2 := h.rep.some_of_getElem (List.getElem?_eq_getElem hl)
  rw [h.size]; refine Nat.lt_of_not_le fun hle => ?_
  rw [h.range _ hle] at x2; simp at x2

theorem Repr.subIndex {IB : Nat} {v : CVec α} {E s} (h : Repr IB v E s) (dbg : Bool) {n : Nat} (hl : n < E.length) :
    VoV.subIndex dbg IB v n = .ok E[n].1 := by
  have hn : n < v.filled := by rw [← h.holds.1]; exact hl
  have a := h.idxAt hn
  rw [List.getElem?_eq_getElem hl] at a
  cases dbg <;> simp only [VoV.subIndex, h.end_, bind_ok, Bool.false_eq_true, if_false, if_true, check_true (show n ≠ v.filled by omega), rd_eq_ok.2 a,
    Nat.add_sub_cancel, check_true (h.key_lt_size hl)]

/-- The split position of a stored key is its own position. -/
theorem Repr.find_key {IB : Nat} {v : CVec α} {E s} (h : Repr IB v E s) {n : Nat} (hl : n < E.length) : v.find IB E[n].1 = .ok n := by
  obtain ⟨m, m1, m2, m3⟩ := h.lb E[n].1
  obtain ⟨p1, p2, p3⟩ := split_pieces m3
  have : m = n := by
    rcases Nat.lt_trichotomy m n with e | e | e
    · have := p3 E[m] (List.mem_iff_getElem.2 ⟨0, by simp; omega, by simp⟩)
      have := h.rep.key_lt (List.getElem?_eq_getElem (show m < E.length by omega)) (List.getElem?_eq_getElem hl) e
      omega
    · exact e
    · have := p2 E[n] (List.mem_iff_getElem.2 ⟨n, by simp; omega, by simp⟩)
      omega
  rw [this] at m1; exact m1

theorem Repr.find_zero {IB : Nat} {v : CVec α} {E s} (h : Repr IB v E s) : v.find IB 0 = .ok 0 := by
  obtain ⟨m, m1, m2, m3⟩ := h.lb 0
  obtain ⟨p1, p2, p3⟩ := split_pieces m3
  have : m = 0 := by
    rcases Nat.eq_zero_or_pos m with e | e
    · exact e
    · have := p2 E[0] (List.mem_iff_getElem.2 ⟨0, by simp; omega, by simp⟩)
      omega
  rw [this] at m1; exact m1

end CVec

namespace VoV

theorem findFast_ok {IB : Nat} {v : VoV α} {k : Nat} {r : CVec α} {E} {s : Vec α} (dbg : Bool) (hr : rd dbg v.data k = .ok r) (h : CVec.Repr IB r E s)
    (fuel m : Nat) : ∃ n, v.findFast dbg IB k (fuel + 2) m = .ok n ∧ r.find IB m = .ok n := by
  obtain ⟨n, n1, n2, n3⟩ := h.lb m
  refine ⟨n, ?_, n1⟩
  have n1' : r.find IB m = .ok n := n1
  rw [findFast.eq_def]
  simp only [hr, bind_ok, n1', h.end_]
  by_cases e : n = r.filled
  · rw [if_pos e]
  · have hl : n < E.length := by rw [h.holds.1]; omega
    rw [if_neg e, h.subIndex dbg hl, bind_ok]
    by_cases e' : E[n].1 = m
    · rw [if_pos e']
    · rw [if_neg e', findFast.eq_def]
      simp only [hr, bind_ok, h.find_key hl, h.end_, if_neg e, h.subIndex dbg hl, if_true]

theorem Inv.fast {o : Orient} {IB : Nat} {v : VoV α} {s : Mat α} (h : Inv o IB v s) (dbg : Bool) {k : Nat} (hk : k < o.sizeM s.rows s.cols) :
    ∃ r E, v.data[k]? = some r ∧ r.filled = E.length ∧ Rep E (fun l => s.val (o.indexM k l, o.indexm k l)) ∧
      v.traverseFast dbg o IB k = .ok (E.map fun p => (o.indexM k p.1, o.indexm k p.1, p.2)) := by
  obtain ⟨r, h1, h2, E, h3⟩ := h.line dbg hk
  refine ⟨r, E, h2, h3.holds.1.symm, h3.rep, ?_⟩
  obtain ⟨b, b1, b2⟩ := findFast_ok dbg h1 h3 (o.sizem v.size1 v.size2) 0
  obtain ⟨e, e1, e2⟩ := findFast_ok dbg h1 h3 (o.sizem v.size1 v.size2) (o.sizem v.size1 v.size2)
  rw [h3.find_zero] at b2; cases b2
  have hsz : o.sizem v.size1 v.size2 = r.size := by rw [h.size1, h.size2, h3.size]
  rw [hsz, h3.end_] at e2; cases e2
  have hidx : ∀ n, n < r.filled → ∃ hn : n < E.length,
      v.indices dbg o IB (k, r.filled) (k, n) = .ok (o.indexM k E[n].1, o.indexm k E[n].1) ∧
      v.deref dbg o IB (k, r.filled) (k, n) = .ok E[n].2 := by
    intro n hn
    have hl : n < E.length := by rw [h3.holds.1]; exact hn
    have hlt : o.indexM k E[n].1 < v.size1 ∧ o.indexm k E[n].1 < v.size2 := by
      refine major_lt (by rw [h.size1, h.size2]; exact hk) ?_
      rw [hsz]; exact h3.key_lt_size hl
    have i1 : v.indices dbg o IB (k, r.filled) (k, n) = .ok (o.indexM k E[n].1, o.indexm k E[n].1) := by
      have hne : ¬ ((k, n) = (k, r.filled)) := by simp; omega
      cases dbg <;> simp only [indices, itEq, check_True, bind_ok, Bool.false_eq_true, if_false, if_true, hne, decide_false, h1, h3.subIndex _ hl, check_true hlt.1, check_true hlt.2]
    have b := h3.valAt hn
    rw [List.getElem?_eq_getElem hl] at b
    refine ⟨hl, i1, ?_⟩
    cases dbg <;> simp only [deref, Bool.false_eq_true, if_false, if_true, bind_ok, i1, h1, h3.subIndex _ hl, rd_eq_ok.2 b]
  obtain ⟨t, t1, t2⟩ := loop_inv (n := r.filled) (s := ([] : List (Nat × Nat × α)))
    (f := fun n acc => (do
      let _ ← itEq dbg (k, 0 + n) (k, r.filled)
      let p ← v.indices dbg o IB (k, r.filled) (k, 0 + n)
      let x ← v.deref dbg o IB (k, r.filled) (k, 0 + n)
      .ok (acc ++ [(p.1, p.2, x)]) : M (List (Nat × Nat × α))))
    (fun n acc => acc = (E.map fun p => (o.indexM k p.1, o.indexm k p.1, p.2)).take n) (by simp) (by
      intro n t hn e
      obtain ⟨hl, i1, i2⟩ := hidx n hn
      refine ⟨t ++ [(o.indexM k E[n].1, o.indexm k E[n].1, E[n].2)], ?_, ?_⟩
      · simp only [Nat.zero_add, itEq, check_True, bind_ok, i1, i2]
      · rw [e, List.take_add_one, List.getElem?_map, List.getElem?_eq_getElem hl]; rfl)
  simp only [traverseFast, b1, e1, bind_ok, if_neg (show ¬ 0 > r.filled by omega), Nat.sub_zero, t1, t2]
  rw [List.take_of_length_le (by have := h3.holds.1; simp; omega)]

theorem foldl_sum (f : CVec α → Nat) (l : List (CVec α)) : ∀ n, l.foldl (fun n r => n + f r) n = n + (l.map f).sum := by
  induction l with
  | nil => intro n; simp
  | cons a l ih => intro n; simp [ih]; omega

theorem Inv.whole {o : Orient} {IB : Nat} {v : VoV α} {s : Mat α} (h : Inv o IB v s) (dbg : Bool) :
    ∃ E, v.traverse dbg o IB = .ok E ∧ MLists (fun p => (o.indexM p.1 p.2, o.indexm p.1 p.2)) E s.val ∧ v.nnz = E.length := by
  obtain ⟨E, e1, e2, e3, e4⟩ := loop_inv (n := o.sizeM v.size1 v.size2) (s := ([] : List (Nat × Nat × α)))
    (f := fun k acc => (do
      let E ← v.traverseFast dbg o IB k
      .ok (acc ++ E) : M (List (Nat × Nat × α))))
    (fun k acc => acc.Pairwise (fun a b => o.indexM a.1 a.2.1 < o.indexM b.1 b.2.1 ∨
          (o.indexM a.1 a.2.1 = o.indexM b.1 b.2.1 ∧ o.indexm a.1 a.2.1 < o.indexm b.1 b.2.1)) ∧
      (∀ i j x, (i, j, x) ∈ acc ↔ (o.indexM i j < k ∧ s.val (i, j) = some x)) ∧
      ((v.data.take k).map CVec.filled).sum = acc.length) (by simp) (by
        intro k acc hk hacc
        rw [h.size1, h.size2] at hk
        obtain ⟨a1, a2, a3⟩ := hacc
        obtain ⟨r, E, f1, f2, f3, f4⟩ := h.fast dbg hk
        refine ⟨acc ++ (E.map fun p => (o.indexM k p.1, o.indexm k p.1, p.2)), by simp only [f4, bind_ok], ?_, ?_, ?_⟩
        · rw [List.pairwise_append]
          refine ⟨a1, ?_, ?_⟩
          · rw [List.pairwise_map]
            refine f3.1.imp ?_
            intro a b hab
            simp only [indexM_pos, indexm_pos]; exact Or.inr ⟨trivial, hab⟩
          · intro a ha b hb
            obtain ⟨p, hp, rfl⟩ := List.mem_map.1 hb
            simp only [indexM_pos, indexm_pos]
            obtain ⟨i, j, x⟩ := a
            exact Or.inl ((a2 i j x).1 ha).1
        · intro i j x
          rw [List.mem_append, a2, List.mem_map]
          constructor
          · rintro (⟨g1, g2⟩ | ⟨p, hp, hpe⟩)
            · exact ⟨by omega, g2⟩
            · obtain ⟨l, y⟩ := p
              simp only [Prod.mk.injEq] at hpe
              obtain ⟨rfl, rfl, rfl⟩ := hpe
              exact ⟨by simp, (f3.2 l y).2 hp⟩
          · rintro ⟨g1, g2⟩
            by_cases e : o.indexM i j < k
            · exact Or.inl ⟨e, g2⟩
            · have e : k = o.indexM i j := by omega
              subst e
              refine Or.inr ⟨(o.indexm i j, x), (f3.2 _ _).1 ?_, ?_⟩
              · simp only [pos_pos]; exact g2
              · have := pos_pos o i j
                simp only [Prod.mk.injEq] at this ⊢
                exact ⟨this.1, this.2, trivial⟩
        · rw [List.take_add_one, f1]
          simp only [Option.toList_some, List.map_append, List.sum_append, a3, List.map_cons, List.map_nil, List.sum_cons, List.sum_nil, f2, List.length_append, List.length_map, Nat.add_zero])
  refine ⟨E, e1, ⟨e2, fun i j x => ?_⟩, ?_⟩
  · rw [e3]
    refine ⟨fun g => g.2, fun g => ⟨?_, g⟩⟩
    rw [h.size1, h.size2]
    by_cases hin : i < s.rows ∧ j < s.cols
    · exact (lt_major hin).1
    · rw [h.out i j hin] at g; cases g
  · rw [nnz, foldl_sum, ← e4, Nat.zero_add, h.size1, h.size2]
    obtain ⟨r, g1, g2, E', g3⟩ := h.last dbg
    have hr0 : r.filled = 0 := by have := g3.fill; have := g3.capLe; have := g3.size; simp only at this; omega
    have : v.data = v.data.take (o.sizeM s.rows s.cols) ++ [r] := by
      have hl := h.lines.1
      conv_lhs => rw [← List.take_of_length_le (l := v.data) (i := o.sizeM s.rows s.cols + 1) (by omega)]
      rw [List.take_add_one, g2]; rfl
    conv_lhs => rw [this]
    simp [hr0]

theorem Inv.find_get {o : Orient} {IB : Nat} {v : VoV α} {s : Mat α} (h : Inv o IB v s) (dbg : Bool) (zero : α) {i j : Nat} (hi : i < s.rows) (hj : j < s.cols) :
    v.get dbg o IB zero i j = .ok ((s.val (i, j)).getD zero) ∧
    (s.val (i, j) = none → v.findElement dbg o IB i j = .ok .sharedZero) ∧
    (∀ w, s.val (i, j) = some w → ∃ r n, v.findElement dbg o IB i j = .ok (.cell (o.indexM i j) n) ∧ v.data[o.indexM i j]? = some r ∧ r.val[n]? = some w) := by
  have hlt := lt_major (o := o) (r := s.rows) (c := s.cols) ⟨hi, hj⟩
  obtain ⟨r, h1, h2, E, h3⟩ := h.line dbg hlt.1
  have hsz : o.indexm i j < r.size := by rw [h3.size]; exact hlt.2
  rcases h3.slot (o.indexm i j) with ⟨n, w, g1, g2, g3, g4, g5⟩ | ⟨g1, g2⟩
  · simp only [pos_pos] at g4
    have hf : v.findElement dbg o IB i j = .ok (.cell (o.indexM i j) n) := by
      simp only [findElement, h1, bind_ok, check_true hsz, g1]
    refine ⟨?_, by rw [g4]; simp, fun w' hw' => ?_⟩
    · simp only [get, hf, bind_ok, h1, rd_eq_ok.2 g5, g4, Option.getD_some]
    · rw [g4] at hw'; cases hw'
      exact ⟨r, n, hf, h2, g5⟩
  · simp only [pos_pos] at g2
    have hf : v.findElement dbg o IB i j = .ok .sharedZero := by
      simp only [findElement, h1, bind_ok, check_true hsz, g1]
    refine ⟨by simp only [get, hf, bind_ok, g2, Option.getD_none], fun _ => hf, fun w' hw' => by rw [g2] at hw'; cases hw'⟩

theorem sum_le (l : List (CVec α)) (h : ∀ r ∈ l, r.filled ≤ r.cap) : (l.map CVec.filled).sum ≤ (l.map CVec.cap).sum := by
  induction l with
  | nil => simp
  | cons a l ih =>
    have h1 := h a (by simp); have h2 := ih (fun r hr => h r (by simp [hr]))
    simp only [List.map_cons, List.sum_cons]; omega

theorem Inv.observes {o : Orient} {IB : Nat} {v : VoV α} {s : Mat α} (h : Inv o IB v s) (dbg : Bool) (zero : α) : VVObserves dbg o IB zero v s := by
  refine ⟨h.size1, h.size2, fun i j hi hj => (h.find_get dbg zero hi hj).1, h.whole dbg, ?_, ?_, h.out⟩
  · intro k hk
    obtain ⟨r, E, f1, f2, f3, f4⟩ := h.fast dbg hk
    refine ⟨_, f4, ?_, ?_⟩
    · rw [List.pairwise_map]
      refine f3.1.imp ?_
      intro a b hab
      simp only [indexM_pos, indexm_pos]; exact Or.inr ⟨trivial, hab⟩
    · intro i j x
      rw [List.mem_map]
      constructor
      · rintro ⟨⟨l, y⟩, hp, hpe⟩
        simp only [Prod.mk.injEq] at hpe
        obtain ⟨rfl, rfl, rfl⟩ := hpe
        simp only [indexM_pos, if_true]
        exact (f3.2 l y).2 hp
      · intro g
        simp only at g
        split at g
        · rename_i e
          subst e
          refine ⟨(o.indexm i j, x), (f3.2 _ _).1 (by simp only [pos_pos]; exact g), ?_⟩
          have := pos_pos o i j
          simp only [Prod.mk.injEq] at this ⊢
          exact ⟨this.1, this.2, trivial⟩
        · cases g
  · rw [nnz, nnzCapacity, foldl_sum, foldl_sum]
    have := sum_le v.data (by
      intro r hr
      obtain ⟨k, hk, rfl⟩ := List.mem_iff_getElem.1 hr
      obtain ⟨E, hE⟩ := h.lines.2 k _ _ rfl (List.getElem?_eq_getElem hk)
      exact hE.fill)
    omega

/-! ### Across the lines -/

/-- The position reached when looking for the first stored element at minor index `m` from line `k` on. -/
structure Reached (o : Orient) (IB : Nat) (v : VoV α) (s : Mat α) (m k : Nat) (c : Nat × Nat) : Prop where
  ge : k ≤ c.1
  le : c.1 ≤ o.sizeM s.rows s.cols
  skip : ∀ l, k ≤ l → l < c.1 → s.val (o.indexM l m, o.indexm l m) = none
  hit : c.1 < o.sizeM s.rows s.cols → ∃ r w, v.data[c.1]? = some r ∧ s.val (o.indexM c.1 m, o.indexm c.1 m) = some w ∧
    r.idx[c.2]? = some (m + IB) ∧ r.val[c.2]? = some w
  stop : c.1 = o.sizeM s.rows s.cols → c.2 = 0

theorem Inv.findSlow {o : Orient} {IB : Nat} {v : VoV α} {s : Mat α} (h : Inv o IB v s) (dbg : Bool) (m : Nat) : ∀ (fuel k : Nat),
    k ≤ o.sizeM s.rows s.cols → o.sizeM s.rows s.cols < fuel + k → ∃ c, v.findSlow dbg o IB m fuel k = .ok c ∧ Reached o IB v s m k c := by
  intro fuel
  induction fuel with
  | zero => intro k hk hf; omega
  | succ fuel ih =>
    intro k hk hf
    rw [VoV.findSlow.eq_def]; simp only
    by_cases e : k = o.sizeM s.rows s.cols
    · obtain ⟨r, h1, h2, E, h3⟩ := h.last dbg
      have hr0 : r.filled = 0 := by have := h3.fill; have := h3.capLe; have := h3.size; simp only at this; omega
      obtain ⟨n, n1, n2, n3⟩ := h3.lb m
      have : n = 0 := by omega
      subst this; subst e
      have n1' : r.find IB m = .ok 0 := n1
      refine ⟨(o.sizeM s.rows s.cols, 0), ?_, Nat.le_refl _, Nat.le_refl _, ?_, ?_, fun _ => rfl⟩
      · simp only [h1, bind_ok, n1', h3.end_, hr0, ne_eq, not_true, if_false, Bool.false_eq_true, h.size1, h.size2, ge_iff_le, Nat.le_refl, if_true]
      · intro l g1 g2; simp only at g2; omega
      · intro hh; exact absurd hh (by simp)
    · have hk' : k < o.sizeM s.rows s.cols := by omega
      obtain ⟨r, h1, h2, E, h3⟩ := h.line dbg hk'
      obtain ⟨n, n1, n2, n3⟩ := h3.lb m
      have n1' : r.find IB m = .ok n := n1
      simp only [h1, bind_ok, n1', h3.end_]
      have hcont : s.val (o.indexM k m, o.indexm k m) = none → ∃ c, (if k ≥ o.sizeM v.size1 v.size2 then Except.ok (k, n) else v.findSlow dbg o IB m fuel (k + 1)) = .ok c ∧ Reached o IB v s m k c := by
        intro hnone
        obtain ⟨c, c1, c2⟩ := ih (k + 1) (by omega) (by omega)
        refine ⟨c, ?_, by have := c2.ge; omega, c2.le, ?_, c2.hit, c2.stop⟩
        · rw [if_neg (by rw [h.size1, h.size2]; omega)]; exact c1
        · intro l g1 g2
          by_cases e : l = k
          · rw [e]; exact hnone
          · exact c2.skip l (by omega) g2
      rcases h3.rep.lookup n3 with ⟨w, w1, w2⟩ | ⟨w1, w2⟩
      · obtain ⟨hl, he⟩ := List.getElem?_eq_some_iff.1 w1
        have hne : n ≠ r.filled := by rw [← h3.holds.1]; omega
        rw [if_pos hne, h3.subIndex dbg hl, bind_ok, bind_ok, he]
        simp only [decide_true, if_true]
        refine ⟨(k, n), rfl, Nat.le_refl _, by simp only; omega, ?_, ?_, ?_⟩
        · intro l g1 g2; simp only at g2; omega
        · intro _
          refine ⟨r, w, h2, w2, ?_, ?_⟩
          · have := h3.idxAt (show n < r.filled by rw [← h3.holds.1]; exact hl)
            rw [this, w1]; rfl
          · have := h3.valAt (show n < r.filled by rw [← h3.holds.1]; exact hl)
            rw [this, w1]; rfl
        · intro g; simp only at g; omega
      · by_cases hne : n = r.filled
        · simp only [hne, ne_eq, not_true, if_false, bind_ok, Bool.false_eq_true]
          rw [hne] at hcont
          exact hcont w2
        · have hl : n < E.length := by rw [h3.holds.1]; omega
          rw [if_pos hne, h3.subIndex dbg hl, bind_ok, bind_ok]
          have : ¬ E[n].1 = m := by
            intro e
            refine w1 E[n].2 ?_
            rw [List.getElem?_eq_getElem hl, ← e]
          simp only [this, decide_false, Bool.false_eq_true, if_false]
          exact hcont w2

theorem Reached.eq_stop {o : Orient} {IB : Nat} {v : VoV α} {s : Mat α} {m k : Nat} {c : Nat × Nat} (h : Reached o IB v s m k c)
    (e : c.1 = o.sizeM s.rows s.cols) : c = (o.sizeM s.rows s.cols, 0) := by
  have := h.stop e
  cases c; simp only at e this; rw [e, this]

theorem Inv.indices_release {o : Orient} {IB : Nat} {v : VoV α} {s : Mat α} (h : Inv o IB v s) {m k : Nat} {c stop : Nat × Nat} (hc : Reached o IB v s m k c)
    (hlt : c.1 < o.sizeM s.rows s.cols) : ∃ w, s.val (o.indexM c.1 m, o.indexm c.1 m) = some w ∧
      v.indices false o IB stop c = .ok (o.indexM c.1 m, o.indexm c.1 m) ∧ v.deref false o IB stop c = .ok w := by
  obtain ⟨r, w, r1, r2, r3, r4⟩ := hc.hit hlt
  have hrd : rd false v.data c.1 = .ok r := rd_eq_ok.2 r1
  refine ⟨w, r2, ?_, ?_⟩
  · simp only [indices, Bool.false_eq_true, if_false, bind_ok, hrd, subIndex, rd_eq_ok.2 r3, check_release, Nat.add_sub_cancel]
  · simp only [deref, Bool.false_eq_true, if_false, bind_ok, hrd, rd_eq_ok.2 r4]

theorem Inv.nextSlow {o : Orient} {IB : Nat} {v : VoV α} {s : Mat α} (h : Inv o IB v s) {m k : Nat} {c stop : Nat × Nat} (hc : Reached o IB v s m k c)
    (hlt : c.1 < o.sizeM s.rows s.cols) : ∃ c', v.nextSlow false o IB m stop c = .ok c' ∧ Reached o IB v s m (c.1 + 1) c' := by
  obtain ⟨w, w1, w2, w3⟩ := h.indices_release (stop := stop) hc hlt
  have hfind := h.findSlow false m (o.sizeM s.rows s.cols + 2) (c.1 + 1) (by omega) (by omega)
  simp only [VoV.nextSlow, w2, bind_ok, indexM_pos]
  simp only [h.size1, h.size2]
  by_cases e : c.1 + 1 = o.sizeM s.rows s.cols
  · rw [if_pos e]; exact hfind
  · rw [if_neg e]
    obtain ⟨r, h1, h2, E, h3⟩ := h.line false (show c.1 + 1 < o.sizeM s.rows s.cols by omega)
    simp only [h1, bind_ok, h3.find_zero, h3.end_]
    by_cases e0 : 0 = r.filled
    · rw [if_pos e0]; simp only [bind_ok, Bool.false_eq_true, if_false]; exact hfind
    · rw [if_neg e0]
      have hl : 0 < E.length := by rw [h3.holds.1]; omega
      have hi : v.indices false o IB stop (c.1 + 1, 0) = .ok (o.indexM (c.1 + 1) E[0].1, o.indexm (c.1 + 1) E[0].1) := by
        simp only [indices, Bool.false_eq_true, if_false, bind_ok, h1, h3.subIndex _ hl, check_release]
      simp only [hi, bind_ok, indexm_pos]
      by_cases em : E[0].1 = m
      · simp only [em, decide_true, if_true]
        refine ⟨(c.1 + 1, 0), rfl, Nat.le_refl _, by simp only; omega, ?_, ?_, ?_⟩
        · intro l g1 g2; simp only at g2; omega
        · intro _
          have hf : 0 < r.filled := by omega
          refine ⟨r, E[0].2, h2, ?_, ?_, ?_⟩
          · have := h3.rep.some_of_getElem (List.getElem?_eq_getElem hl)
            change s.val (o.indexM (c.1 + 1) E[0].1, o.indexm (c.1 + 1) E[0].1) = some E[0].2 at this
            rw [em] at this; exact this
          · rw [h3.idxAt hf, List.getElem?_eq_getElem hl, ← em]; rfl
          · rw [h3.valAt hf, List.getElem?_eq_getElem hl]; rfl
        · intro g; simp only at g; omega
      · simp only [em, decide_false, Bool.false_eq_true, if_false]; exact hfind

theorem Inv.slowLoop {o : Orient} {IB : Nat} {v : VoV α} {s : Mat α} (h : Inv o IB v s) (m : Nat) : ∀ (fuel k : Nat) (c : Nat × Nat),
    Reached o IB v s m k c → o.sizeM s.rows s.cols < fuel + c.1 →
    ∃ L, v.slowLoop false o IB m (o.sizeM s.rows s.cols, 0) fuel c = .ok (L.map fun p => (o.indexM p.1 m, o.indexm p.1 m, p.2)) ∧
      Lists L (fun l => if k ≤ l ∧ l < o.sizeM s.rows s.cols then s.val (o.indexM l m, o.indexm l m) else none) := by
  intro fuel
  induction fuel with
  | zero => intro k c hc hf; have := hc.le; omega
  | succ fuel ih =>
    intro k c hc hf
    rw [VoV.slowLoop.eq_def]
    simp only [itEq, check_release, bind_ok]
    by_cases e : c.1 = o.sizeM s.rows s.cols
    · refine ⟨[], ?_, List.Pairwise.nil, ?_⟩
      · rw [hc.eq_stop e]; simp
      · intro i w
        refine ⟨by simp, ?_⟩
        intro g; dsimp only at g; split at g
        · rename_i hh
          rw [hc.skip i hh.1 (by omega)] at g; cases g
        · cases g
    · have hlt : c.1 < o.sizeM s.rows s.cols := by have := hc.le; omega
      have hne : ¬ c = (o.sizeM s.rows s.cols, 0) := fun g => e (by rw [g])
      obtain ⟨w, w1, w2, w3⟩ := h.indices_release (stop := (o.sizeM s.rows s.cols, 0)) hc hlt
      obtain ⟨c', c1, c2⟩ := h.nextSlow (stop := (o.sizeM s.rows s.cols, 0)) hc hlt
      obtain ⟨L, l1, l2, l3⟩ := ih (c.1 + 1) c' c2 (by have := c2.ge; omega)
      refine ⟨(c.1, w) :: L, ?_, ?_, ?_⟩
      · simp only [hne, decide_false, Bool.false_eq_true, if_false, w2, w3, c1, l1, bind_ok, List.map_cons]
      · rw [List.pairwise_cons]
        refine ⟨?_, l2⟩
        rintro ⟨i, x⟩ hx
        have := (l3 i x).1 hx
        simp only at this ⊢
        split at this
        · omega
        · cases this
      · intro i x
        rw [List.mem_cons, l3]
        have hge := hc.ge
        constructor
        · rintro (g | g)
          · cases g; dsimp only; rw [if_pos ⟨hge, hlt⟩]; exact w1
          · dsimp only at g ⊢; split at g
            · rw [if_pos (by omega)]; exact g
            · cases g
        · intro g
          dsimp only at g
          split at g
          · rename_i hh
            rcases Nat.lt_trichotomy i c.1 with q | q | q
            · rw [hc.skip i hh.1 q] at g; cases g
            · subst q; rw [w1] at g; cases g; exact Or.inl rfl
            · refine Or.inr ?_; dsimp only; rw [if_pos (by omega)]; exact g
          · cases g

end VoV

/-- **C60**.  Construct a vector_of_vector matrix of any size and orientation and apply any legal history of
element writes, inserts, erases, clear and resize: whatever the build mode and the contents of
uninitialised memory, no fault occurs and afterwards sizes, element reads, nnz and the traversals along the
storage direction are as specified. -/
theorem C60_vector_of_vector (dbg : Bool) (o : Orient) (IB : Nat) (zero : α) (junk : VoV.Junk α) (rows : Nat → CVec α) (r c : Nat)
    (ops : List (VVOp α × VoV.Junk α × (Nat → CVec α))) (hl : vvlegalRun zero ⟨r, c, fun _ => none⟩ (ops.map (·.1))) :
    ∃ v0 v, VoV.ctor dbg o IB zero junk rows r c = .ok v0 ∧ VoV.run dbg o IB zero v0 ops = .ok v ∧
      VVObserves dbg o IB zero v (vvrun zero ⟨r, c, fun _ => none⟩ (ops.map (·.1))) := by
  obtain ⟨v0, e0, h0⟩ := VoV.inv_ctor dbg o IB zero junk rows r c
  obtain ⟨v, e1, h1⟩ := VoV.run_inv dbg o IB zero ops v0 _ h0 hl
  exact ⟨v0, v, e0, e1, h1.observes dbg zero⟩

/-- `find_element` never reports absence: for an element that is not stored it returns a pointer to the
zero shared by all compressed vectors, never the null pointer the other sparse containers return. -/
theorem C75_find_element (dbg : Bool) (o : Orient) (IB : Nat) (zero : α) (junk : VoV.Junk α) (rows : Nat → CVec α) (r c : Nat)
    (ops : List (VVOp α × VoV.Junk α × (Nat → CVec α))) (hl : vvlegalRun zero ⟨r, c, fun _ => none⟩ (ops.map (·.1))) (i j : Nat)
    (hi : i < (vvrun zero ⟨r, c, fun _ => none⟩ (ops.map (·.1))).rows) (hj : j < (vvrun zero ⟨r, c, fun _ => none⟩ (ops.map (·.1))).cols) :
    ∃ v0 v, VoV.ctor dbg o IB zero junk rows r c = .ok v0 ∧ VoV.run dbg o IB zero v0 ops = .ok v ∧
      v.findElement dbg o IB i j ≠ .ok .null ∧
      ((vvrun zero ⟨r, c, fun _ => none⟩ (ops.map (·.1))).val (i, j) = none → v.findElement dbg o IB i j = .ok .sharedZero) := by
  obtain ⟨v0, e0, h0⟩ := VoV.inv_ctor dbg o IB zero junk rows r c
  obtain ⟨v, e1, h1⟩ := VoV.run_inv dbg o IB zero ops v0 _ h0 hl
  have := h1.find_get dbg zero hi hj
  refine ⟨v0, v, e0, e1, ?_, this.2.1⟩
  cases hv : (vvrun zero ⟨r, c, fun _ => none⟩ (ops.map (·.1))).val (i, j) with
  | none => rw [this.2.1 hv]; simp
  | some w => obtain ⟨_, n, g, _⟩ := this.2.2 w hv; rw [g]; simp

/-- So the expected law "`find_element` is null exactly when the element is not stored" is false. -/
theorem C75_find_element_refuted (dbg : Bool) :
    ¬ ∀ (v : VoV Int) (s : Mat Int), VoV.Inv .row 0 v s → ∀ i j, i < s.rows → j < s.cols → s.val (i, j) = none →
      v.findElement dbg .row 0 i j = .ok .null := by
  intro h
  obtain ⟨v, _, hv⟩ := VoV.inv_ctor dbg .row 0 (0 : Int) (fun _ => (fun _ => 0, fun _ => 0)) (fun _ => VoV.emptyRow) 1 1
  have h1 := h v _ hv 0 0 (by decide) (by decide) rfl
  have h2 := (hv.find_get dbg 0 (i := 0) (j := 0) (by decide) (by decide)).2.1 rfl
  rw [h1] at h2; cases h2

/-- Traversal across the lines (iterator1 of a row major matrix, iterator2 of a column major one), inner
loop at minor index `m`, in a build without checks: visits exactly the stored elements, in order. -/
theorem C75_across_release_partial (o : Orient) (IB : Nat) (zero : α) (junk : VoV.Junk α) (rows : Nat → CVec α) (r c : Nat)
    (ops : List (VVOp α × VoV.Junk α × (Nat → CVec α))) (hl : vvlegalRun zero ⟨r, c, fun _ => none⟩ (ops.map (·.1))) (m : Nat) :
    ∃ v0 v E, VoV.ctor false o IB zero junk rows r c = .ok v0 ∧ VoV.run false o IB zero v0 ops = .ok v ∧
      v.traverseSlow false o IB m = .ok E ∧
      MLists (fun p => (o.indexM p.1 p.2, o.indexm p.1 p.2)) E
        (fun p => if o.indexm p.1 p.2 = m then (vvrun zero ⟨r, c, fun _ => none⟩ (ops.map (·.1))).val p else none) := by
  obtain ⟨v0, e0, h0⟩ := VoV.inv_ctor false o IB zero junk rows r c
  obtain ⟨v, e1, h1⟩ := VoV.run_inv false o IB zero ops v0 _ h0 hl
  generalize vvrun zero ⟨r, c, fun _ => none⟩ (ops.map (·.1)) = s at *
  obtain ⟨b, b1, b2⟩ := h1.findSlow false m (o.sizeM s.rows s.cols + 2) 0 (by omega) (by omega)
  obtain ⟨e, f1, f2⟩ := h1.findSlow false m (o.sizeM s.rows s.cols + 2) (o.sizeM s.rows s.cols) (by omega) (by omega)
  have he := f2.eq_stop (by have := f2.ge; have := f2.le; omega)
  subst he
  obtain ⟨L, l1, l2, l3⟩ := h1.slowLoop m (o.sizeM s.rows s.cols + 2) 0 b b2 (by omega)
  refine ⟨v0, v, L.map fun p => (o.indexM p.1 m, o.indexm p.1 m, p.2), e0, e1, ?_, ?_, ?_⟩
  · simp only [VoV.traverseSlow, h1.size1, h1.size2, b1, f1, bind_ok]
    exact l1
  · rw [List.pairwise_map]
    refine l2.imp ?_
    intro a b hab
    simp only [indexM_pos, indexm_pos]; exact Or.inl hab
  · intro i j x
    rw [List.mem_map]
    constructor
    · rintro ⟨⟨l, y⟩, hp, hpe⟩
      simp only [Prod.mk.injEq] at hpe
      obtain ⟨rfl, rfl, rfl⟩ := hpe
      simp only [indexm_pos, if_true]
      have := (l3 l y).1 hp
      simp only at this
      split at this
      · exact this
      · cases this
    · intro g
      simp only at g
      split at g
      · rename_i e
        subst e
        refine ⟨(o.indexM i j, x), (l3 _ _).2 ?_, ?_⟩
        · dsimp only
          rw [if_pos, VoV.pos_pos]
          · exact g
          · refine ⟨Nat.zero_le _, ?_⟩
            by_cases hin : i < s.rows ∧ j < s.cols
            · exact (VoV.lt_major hin).1
            · rw [h1.out i j hin] at g; cases g
        · have := VoV.pos_pos o i j
          simp only [Prod.mk.injEq] at this ⊢
          exact ⟨this.1, this.2, trivial⟩
      · cases g

/-- The same traversal with checks on compares iterators of different lines: it throws external_logic as
soon as some element is stored at minor index `m`. -/
theorem C75_across_debug (o : Orient) (IB : Nat) (zero : α) (junk : VoV.Junk α) (rows : Nat → CVec α) (r c : Nat)
    (ops : List (VVOp α × VoV.Junk α × (Nat → CVec α))) (hl : vvlegalRun zero ⟨r, c, fun _ => none⟩ (ops.map (·.1))) (m : Nat) :
    ∃ v0 v, VoV.ctor true o IB zero junk rows r c = .ok v0 ∧ VoV.run true o IB zero v0 ops = .ok v ∧
      ((∃ k, (vvrun zero ⟨r, c, fun _ => none⟩ (ops.map (·.1))).val (o.indexM k m, o.indexm k m) ≠ none) → v.traverseSlow true o IB m = .error .externalLogic) ∧
      ((∀ k, (vvrun zero ⟨r, c, fun _ => none⟩ (ops.map (·.1))).val (o.indexM k m, o.indexm k m) = none) → v.traverseSlow true o IB m = .ok []) := by
  obtain ⟨v0, e0, h0⟩ := VoV.inv_ctor true o IB zero junk rows r c
  obtain ⟨v, e1, h1⟩ := VoV.run_inv true o IB zero ops v0 _ h0 hl
  generalize vvrun zero ⟨r, c, fun _ => none⟩ (ops.map (·.1)) = s at *
  obtain ⟨b, b1, b2⟩ := h1.findSlow true m (o.sizeM s.rows s.cols + 2) 0 (by omega) (by omega)
  obtain ⟨e, f1, f2⟩ := h1.findSlow true m (o.sizeM s.rows s.cols + 2) (o.sizeM s.rows s.cols) (by omega) (by omega)
  have he := f2.eq_stop (by have := f2.ge; have := f2.le; omega)
  subst he
  refine ⟨v0, v, e0, e1, ?_, ?_⟩
  · rintro ⟨k, hk⟩
    have hin : k < o.sizeM s.rows s.cols := by
      refine Nat.lt_of_not_le fun hle => hk (h1.out _ _ fun hh => ?_)
      have := (VoV.major_lt_iff.1 hh).1; omega
    have hne : ¬ b.1 = o.sizeM s.rows s.cols := fun e => hk (b2.skip k (Nat.zero_le _) (by omega))
    simp only [VoV.traverseSlow, h1.size1, h1.size2, b1, f1, bind_ok]
    rw [VoV.slowLoop.eq_def]
    simp only [VoV.itEq, check_dbg_false hne, bind_error]
  · intro hn
    have hb : b.1 = o.sizeM s.rows s.cols := by
      refine Nat.le_antisymm b2.le (Nat.le_of_not_lt fun hlt => ?_)
      obtain ⟨_, w, _, hw, _⟩ := b2.hit hlt
      rw [hn] at hw; cases hw
    have := b2.eq_stop hb
    subst this
    simp only [VoV.traverseSlow, h1.size1, h1.size2, b1, f1, bind_ok]
    rw [VoV.slowLoop.eq_def]
    simp only [VoV.itEq, check_true, bind_ok, decide_true, if_true]

/-- Reverse iteration across the lines fails at its first step whenever there is something to visit: with
checks it throws external_logic, without checks it reads the index of a past-the-end iterator. -/
theorem C75_across_reverse (dbg : Bool) (o : Orient) (IB : Nat) (zero : α) (junk : VoV.Junk α) (rows : Nat → CVec α) (r c : Nat)
    (ops : List (VVOp α × VoV.Junk α × (Nat → CVec α))) (hl : vvlegalRun zero ⟨r, c, fun _ => none⟩ (ops.map (·.1))) (m : Nat)
    (hk : ∃ k, (vvrun zero ⟨r, c, fun _ => none⟩ (ops.map (·.1))).val (o.indexM k m, o.indexm k m) ≠ none) :
    ∃ v0 v, VoV.ctor dbg o IB zero junk rows r c = .ok v0 ∧ VoV.run dbg o IB zero v0 ops = .ok v ∧
      v.reverseSlowFirst dbg o IB m = .error (if dbg then .externalLogic else .ub) := by
  obtain ⟨v0, e0, h0⟩ := VoV.inv_ctor dbg o IB zero junk rows r c
  obtain ⟨v, e1, h1⟩ := VoV.run_inv dbg o IB zero ops v0 _ h0 hl
  generalize vvrun zero ⟨r, c, fun _ => none⟩ (ops.map (·.1)) = s at *
  obtain ⟨b, b1, b2⟩ := h1.findSlow dbg m (o.sizeM s.rows s.cols + 2) 0 (by omega) (by omega)
  obtain ⟨e, f1, f2⟩ := h1.findSlow dbg m (o.sizeM s.rows s.cols + 2) (o.sizeM s.rows s.cols) (by omega) (by omega)
  have he := f2.eq_stop (by have := f2.ge; have := f2.le; omega)
  subst he
  refine ⟨v0, v, e0, e1, ?_⟩
  obtain ⟨k, hk⟩ := hk
  have hin : k < o.sizeM s.rows s.cols := by
    refine Nat.lt_of_not_le fun hle => hk (h1.out _ _ fun hh => ?_)
    have := (VoV.major_lt_iff.1 hh).1; omega
  have hne : ¬ o.sizeM s.rows s.cols = b.1 := fun e => hk (b2.skip k (Nat.zero_le _) (by omega))
  simp only [VoV.reverseSlowFirst, h1.size1, h1.size2, b1, f1, bind_ok]
  cases dbg with
  | true => simp only [VoV.itEq, check_dbg_false hne, bind_error, if_true]
  | false =>
    have hne' : ¬ (o.sizeM s.rows s.cols, 0) = b := fun e => hne (by rw [← e])
    obtain ⟨q, q1, q2, E, q3⟩ := h1.last false
    have hq : q.idx = [] := by
      have := q3.idxLen; have := q3.capLe; have h5 := q3.size; simp only at h5
      exact List.eq_nil_of_length_eq_zero (by omega)
    simp only [VoV.itEq, check_release, bind_ok, hne', decide_false, Bool.false_eq_true, if_false, VoV.indices, q1, VoV.subIndex, hq]
    rfl

/-- With checks on, reading or writing through `operator ()` outside the matrix is refused. -/
theorem C60_rejects (o : Orient) (IB : Nat) (zero : α) (junk : VoV.Junk α) (v : VoV α) (s : Mat α) (h : VoV.Inv o IB v s) (i j : Nat) (f : α → α)
    (hij : ¬ (i < s.rows ∧ j < s.cols)) :
    v.get true o IB zero i j = .error .badIndex ∧ v.modify true o IB zero junk i j f = .error .badIndex := by
  have hnot : ¬ (o.indexM i j < o.sizeM s.rows s.cols ∧ o.indexm i j < o.sizem s.rows s.cols) := by
    intro hh; exact hij (by have := VoV.major_lt_iff.2 hh; have e := VoV.pos_pos o i j; simp only [Prod.mk.injEq] at e; rwa [e.1, e.2] at this)
  by_cases hM : o.indexM i j < v.data.length
  · have hrd : rd true v.data (o.indexM i j) = .ok v.data[o.indexM i j] := rd_ok hM
    have hInv := h.lines.2 _ _ _ rfl (List.getElem?_eq_getElem hM)
    have hsz : ¬ o.indexm i j < (v.data[o.indexM i j]).size := by
      obtain ⟨E, hE⟩ := hInv
      rw [hE.size]
      by_cases hk : o.indexM i j < o.sizeM s.rows s.cols
      · rw [VoV.lineSpec_in hk]; intro hlt; exact hnot ⟨hk, hlt⟩
      · rw [VoV.lineSpec_out hk]; simp
    simp only [VoV.get, VoV.findElement, VoV.modify, VoV.onRow, hrd, bind_ok, CVec.modify, check_dbg_false hsz, bind_error, and_self]
  · have hrd : rd true v.data (o.indexM i j) = .error .badIndex := by
      simp [rd, List.getElem?_eq_none (Nat.le_of_not_lt hM)]
    simp only [VoV.get, VoV.findElement, VoV.modify, VoV.onRow, hrd, bind_error, and_self]

/-- `insert_element` one line past the end is not refused even with checks on: it writes outside the (empty)
arrays of the sentinel line. -/
theorem C60_insert_past_end_refuted (dbg : Bool) : ∃ v : VoV Int, VoV.Inv .row 0 v ⟨1, 1, fun _ => none⟩ ∧
    v.insertElement dbg .row 0 0 (fun _ => (fun _ => 0, fun _ => 0)) 1 0 5 = .error .ub := by
  obtain ⟨v, h1, hv⟩ := VoV.inv_ctor dbg .row 0 (0 : Int) (fun _ => (fun _ => 0, fun _ => 0)) (fun _ => VoV.emptyRow) 1 1
  refine ⟨v, hv, ?_⟩
  have h2 : VoV.ctor dbg .row 0 (0 : Int) (fun _ => (fun _ => 0, fun _ => 0)) (fun _ => VoV.emptyRow) 1 1 = .ok ⟨1, 1, [⟨1, 1, 0, [0], [0]⟩, VoV.emptyRow]⟩ := by
    cases dbg <;> decide
  rw [h1] at h2; cases h2
  cases dbg <;> decide

/-! ### The hypotheses are met -/

def C60_demo : List (VVOp Int × VoV.Junk Int × (Nat → CVec Int)) :=
  [(.insert 1 2 7, fun _ => (fun _ => 9, fun _ => 9), fun _ => VoV.emptyRow),
   (.modify 0 2 (· + 3), fun _ => (fun _ => 9, fun _ => 9), fun _ => VoV.emptyRow),
   (.resize 3 4 true, fun _ => (fun _ => 9, fun _ => 9), fun _ => VoV.emptyRow),
   (.modify 2 0 (fun _ => 4), fun _ => (fun _ => 9, fun _ => 9), fun _ => VoV.emptyRow),
   (.erase 0 2, fun _ => (fun _ => 9, fun _ => 9), fun _ => VoV.emptyRow)]

example : vvlegalRun (0 : Int) ⟨2, 3, fun _ => none⟩ (C60_demo.map (·.1)) := by
  simp [C60_demo, vvlegalRun, vvlegal, vvstep]

/-- The demo keeps two elements, one of them at column 2, so the debug and reverse theorems apply to it. -/
example : (vvrun (0 : Int) ⟨2, 3, fun _ => none⟩ (C60_demo.map (·.1))).val (1, 2) = some 7 ∧
    (vvrun (0 : Int) ⟨2, 3, fun _ => none⟩ (C60_demo.map (·.1))).val (2, 0) = some 4 ∧
    (vvrun (0 : Int) ⟨2, 3, fun _ => none⟩ (C60_demo.map (·.1))).val (0, 2) = none := by
  refine ⟨?_, ?_, ?_⟩ <;> decide

example : (do let v ← VoV.ctor true .row 0 (0 : Int) (fun _ => (fun _ => 9, fun _ => 9)) (fun _ => VoV.emptyRow) 2 3
              let v ← VoV.run true .row 0 0 v C60_demo
              v.traverse true .row 0 : M _) = .ok [(1, 2, 7), (2, 0, 4)] := by decide +kernel

end Ublas
