import Verif.Lemmas.VoVCoord
import Verif.Props.VectorOfVector
/-! # C126: generalized_vector_of_vector over coordinate vectors -/
namespace Ublas
open Search Assoc CMat
variable {α : Type}
namespace VoVC
open SparseSpec (Vec MLists)
open CooSpec
open VoV (lt_major major_lt major_lt_iff pos_eq pos_pos)

/-- The arrays of a line, as its iterators use them, hold the records `E` in order; nothing is said about the room. -/
structure Row (IB : Nat) (v : CVec α) (E : List (Nat × α)) (s : Vec α) : Prop where
  size : v.size = s.size
  idxLen : v.idx.length = v.cap
  valLen : v.val.length = v.cap
  fill : v.filled ≤ v.cap
  holds : CVec.Holds IB v.idx v.val v.filled E
  rep : Rep E s.val
  range : ∀ i, s.size ≤ i → s.val i = none

theorem Row.idxAt {IB : Nat} {v : CVec α} {E s} (h : Row IB v E s) {n : Nat} (hn : n < v.filled) :
    v.idx[n]? = E[n]?.map (fun p => p.1 + IB) := by
  have := congrArg (fun l => l[n]?) h.holds.2.1
  simpa [List.getElem?_take, hn] using this

theorem Row.valAt {IB : Nat} {v : CVec α} {E s} (h : Row IB v E s) {n : Nat} (hn : n < v.filled) :
    v.val[n]? = E[n]?.map (·.2) := by
  have := congrArg (fun l => l[n]?) h.holds.2.2
  simpa [List.getElem?_take, hn] using this

theorem Row.lb {IB : Nat} {v : CVec α} {E s} (h : Row IB v E s) (i : Nat) :
    ∃ n, v.lb IB i = .ok n ∧ n ≤ v.filled ∧ Splits (E.map (·.1)) 0 E.length i n :=
  CVec.lb_of IB v.idx v.filled E h.rep h.holds.1 (by rw [h.idxLen]; exact h.fill) h.holds.2.1 i

theorem Row.end_ {IB : Nat} {v : CVec α} {E s} (h : Row IB v E s) : v.find IB v.size = .ok v.filled := by
  obtain ⟨m, m1, m2, m3⟩ := h.lb v.size
  have hm : m = v.filled := by
    refine Nat.le_antisymm m2 (Nat.le_of_not_lt fun hlt => ?_)
    have hl : m < E.length := by rw [h.holds.1]; exact hlt
    have x1 := (split_pieces m3).2.2 E[m] (List.mem_iff_getElem.2 ⟨0, by simp; omega, by simp⟩)
    have x2 := h.rep.some_of_getElem (List.getElem?_eq_getElem hl)
    rw [h.range _ (by rw [← h.size]; exact x1)] at x2; simp at x2
  rw [← hm]; exact m1

theorem Row.key_lt_size {IB : Nat} {v : CVec α} {E s} (h : Row IB v E s) {n : Nat} (hl : n < E.length) : E[n].1 < v.size := by
  have x2 : s.val E[n].1 = some E[n].2 := h.rep.some_of_getElem (List.getElem?_eq_getElem hl)
  rw [h.size]; refine Nat.lt_of_not_le fun hle => ?_
  rw [h.range _ hle] at x2; simp at x2

theorem Row.subIndex {IB : Nat} {v : CVec α} {E s} (h : Row IB v E s) (dbg : Bool) {n : Nat} (hl : n < E.length) :
    VoV.subIndex dbg IB v n = .ok E[n].1 := by
  have hn : n < v.filled := by rw [← h.holds.1]; exact hl
  have a := h.idxAt hn
  rw [List.getElem?_eq_getElem hl] at a
  cases dbg <;> simp only [VoV.subIndex, h.end_, bind_ok, Bool.false_eq_true, if_false, if_true, check_true (show n ≠ v.filled by omega), rd_eq_ok.2 a,
    Nat.add_sub_cancel, check_true (h.key_lt_size hl)]

/-- The split position of a stored key is its own position. -/
theorem Row.find_key {IB : Nat} {v : CVec α} {E s} (h : Row IB v E s) {n : Nat} (hl : n < E.length) : v.find IB E[n].1 = .ok n := by
  obtain ⟨m, m1, m2, m3⟩ := h.lb E[n].1
  obtain ⟨p1, p2, p3⟩ := split_pieces m3
  have : m = n := by
    rcases Nat.lt_trichotomy m n with e | e | e
    · have := p3 E[m] (List.mem_iff_getElem.2 ⟨0, by simp; omega, by simp⟩)
      have := h.rep.key_lt (List.getElem?_eq_getElem (show m < E.length by omega)) (List.getElem?_eq_getElem hl) e
      omega
    · exact e
    · have := p2 E[n] (List.mem_iff_getElem.2 ⟨n, by simp; omega, by simp⟩)
      omega
  rw [this] at m1; exact m1

theorem Row.find_zero {IB : Nat} {v : CVec α} {E s} (h : Row IB v E s) : v.find IB 0 = .ok 0 := by
  obtain ⟨m, m1, m2, m3⟩ := h.lb 0
  obtain ⟨p1, p2, p3⟩ := split_pieces m3
  have : m = 0 := by
    rcases Nat.eq_zero_or_pos m with e | e
    · exact e
    · have := p2 E[0] (List.mem_iff_getElem.2 ⟨0, by simp; omega, by simp⟩)
      omega
  rw [this] at m1; exact m1

theorem findFast_ok {IB : Nat} {v : VoV α} {k : Nat} {r : CVec α} {E} {s : Vec α} (dbg : Bool) (hr : rd dbg v.data k = .ok r) (h : Row IB r E s)
    (fuel m : Nat) : ∃ n, v.findFast dbg IB k (fuel + 2) m = .ok n ∧ r.find IB m = .ok n := by
  obtain ⟨n, n1, n2, n3⟩ := h.lb m
  refine ⟨n, ?_, n1⟩
  have n1' : r.find IB m = .ok n := n1
  rw [VoV.findFast.eq_def]
  simp only [hr, bind_ok, n1', h.end_]
  by_cases e : n = r.filled
  · rw [if_pos e]
  · have hl : n < E.length := by rw [h.holds.1]; omega
    rw [if_neg e, h.subIndex dbg hl, bind_ok]
    by_cases e' : E[n].1 = m
    · rw [if_pos e']
    · rw [if_neg e', VoV.findFast.eq_def]
      simp only [hr, bind_ok, h.find_key hl, h.end_, if_neg e, h.subIndex dbg hl, if_true]


/-- The walk along a line whose arrays are in order. -/
theorem fast_row {o : Orient} {IB : Nat} {v : VoV α} {rows cols k : Nat} {r : CVec α} {E} {val : Nat → Option α} (dbg : Bool) (hs1 : v.size1 = rows) (hs2 : v.size2 = cols)
    (hk : k < o.sizeM rows cols) (h1 : rd dbg v.data k = .ok r) (h3 : Row IB r E ⟨o.sizem rows cols, val⟩) :
      v.traverseFast dbg o IB k = .ok (E.map fun p => (o.indexM k p.1, o.indexm k p.1, p.2)) := by
  obtain ⟨b, b1, b2⟩ := findFast_ok (v := v) dbg h1 h3 (o.sizem v.size1 v.size2) 0
  obtain ⟨e, e1, e2⟩ := findFast_ok (v := v) dbg h1 h3 (o.sizem v.size1 v.size2) (o.sizem v.size1 v.size2)
  rw [h3.find_zero] at b2; cases b2
  have hsz : o.sizem v.size1 v.size2 = r.size := by rw [hs1, hs2, h3.size]
  rw [hsz, h3.end_] at e2; cases e2
  have hidx : ∀ n, n < r.filled → ∃ hn : n < E.length,
      v.indices dbg o IB (k, r.filled) (k, n) = .ok (o.indexM k E[n].1, o.indexm k E[n].1) ∧
      v.deref dbg o IB (k, r.filled) (k, n) = .ok E[n].2 := by
    intro n hn
    have hl : n < E.length := by rw [h3.holds.1]; exact hn
    have hlt : o.indexM k E[n].1 < v.size1 ∧ o.indexm k E[n].1 < v.size2 := by
      refine major_lt (by rw [hs1, hs2]; exact hk) ?_
      rw [hsz]; exact h3.key_lt_size hl
    have i1 : v.indices dbg o IB (k, r.filled) (k, n) = .ok (o.indexM k E[n].1, o.indexm k E[n].1) := by
      have hne : ¬ ((k, n) = (k, r.filled)) := by simp; omega
      cases dbg <;> simp only [VoV.indices, VoV.itEq, check_True, bind_ok, Bool.false_eq_true, if_false, if_true, hne, decide_false, h1, h3.subIndex _ hl, check_true hlt.1, check_true hlt.2]
    have b := h3.valAt hn
    rw [List.getElem?_eq_getElem hl] at b
    refine ⟨hl, i1, ?_⟩
    cases dbg <;> simp only [VoV.deref, Bool.false_eq_true, if_false, if_true, bind_ok, i1, h1, h3.subIndex _ hl, rd_eq_ok.2 b]
  obtain ⟨t, t1, t2⟩ := loop_inv (n := r.filled) (s := ([] : List (Nat × Nat × α)))
    (f := fun n acc => (do
      let _ ← VoV.itEq dbg (k, 0 + n) (k, r.filled)
      let p ← v.indices dbg o IB (k, r.filled) (k, 0 + n)
      let x ← v.deref dbg o IB (k, r.filled) (k, 0 + n)
      .ok (acc ++ [(p.1, p.2, x)]) : M (List (Nat × Nat × α))))
    (fun n acc => acc = (E.map fun p => (o.indexM k p.1, o.indexm k p.1, p.2)).take n) (by simp) (by
      intro n t hn e
      obtain ⟨hl, i1, i2⟩ := hidx n hn
      refine ⟨t ++ [(o.indexM k E[n].1, o.indexm k E[n].1, E[n].2)], ?_, ?_⟩
      · simp only [Nat.zero_add, VoV.itEq, check_True, bind_ok, i1, i2]
      · rw [e, List.take_add_one, List.getElem?_map, List.getElem?_eq_getElem hl]; rfl)
  simp only [VoV.traverseFast, b1, e1, bind_ok, if_neg (show ¬ 0 > r.filled by omega), Nat.sub_zero, t1, t2]
  rw [List.take_of_length_le (by have := h3.holds.1; simp; omega)]

variable [AddCommMonoid α]

/-- A sorted line is in order. -/
theorem LInv.row {P : VVCPar α} {r : CoordVec α} {s : VState α} (h : LInv P r s) (hs : s.st.sorted = true) :
    ∃ E, Row P.IB (toRow r) E ⟨s.size, s.st.val⟩ := by
  obtain ⟨hsz, A, hA, hv, hin, hso⟩ := h
  have hst : Coo.Strict (fun a b : Nat => decide (a < b)) A := hA.strictAll (by rw [← hso]; exact hs)
  have hge : ∀ p ∈ A, P.IB ≤ p.1 ∧ p.1 - P.IB < s.size := by
    intro p hp; obtain ⟨i, hi, e⟩ := hin p hp; have hi : i < s.size := hi; have e : p.1 = i + P.IB := e; omega
  have hrange : ∀ i, s.size ≤ i → s.st.val i = none := by
    intro i hi
    rw [hv, Coo.collect_eq_none]
    intro hm
    obtain ⟨p, hp, e⟩ := List.mem_map.1 hm
    have := hge p hp
    have e' : p.1 = i + P.IB := e
    omega
  refine ⟨A.map (fun p => (p.1 - P.IB, p.2)), hsz, hA.idxLen, hA.valLen, hA.fill, ⟨by rw [List.length_map, hA.len]; rfl, ?_, ?_⟩, ⟨?_, ?_⟩, hrange⟩
  · show r.coo.idx.take r.coo.filled = _
    rw [← hA.len, hA.holds.1, List.map_map]
    refine List.map_congr_left fun p hp => ?_
    have := hge p hp
    simp only [Function.comp_apply]; omega
  · show r.coo.val.take r.coo.filled = _
    rw [← hA.len, hA.holds.2, List.map_map]; rfl
  · rw [List.pairwise_map]
    refine List.Pairwise.imp_of_mem ?_ hst
    intro a b ha hb hab
    have := hge a ha; have := hge b hb
    simp only [decide_eq_true_eq] at hab
    simp only; omega
  · intro i w
    show s.st.val i = some w ↔ _
    rw [hv, Coo.collect_mem_strict natOrd hst]
    constructor
    · intro hm; exact List.mem_map.2 ⟨_, hm, by simp⟩
    · intro hm
      obtain ⟨p, hp, e⟩ := List.mem_map.1 hm
      have := hge p hp
      simp only [Prod.mk.injEq] at e
      have e1 : i + P.IB = p.1 := by omega
      show (i + P.IB, w) ∈ A
      rw [e1, ← e.2]; exact hp

theorem Inv.fast {P : VVCPar α} (hsrt : CoordVec.Sorts P.srt) {o : Orient} {v : VoVC α} {s : VVCState α} (h : Inv P o v s) (dbg : Bool) (junk : Junk α) {k : Nat}
    (hk : k < o.sizeM s.rows s.cols) :
    ∃ E, Rep E (fun l => s.val (o.indexM k l, o.indexm k l)) ∧
      v.traverseFast P dbg o 0 junk k = .ok (E.map fun p => (o.indexM k p.1, o.indexm k p.1, p.2)) ∧
      (s.sorted k = true → ∃ r, v.data[k]? = some r ∧ r.coo.filled = E.length) := by
  obtain ⟨r, h1, h2, h3⟩ := h.line dbg hk
  obtain ⟨r', e1, e2⟩ := CoordVec.step_inv P.srt hsrt P.full dbg P.IB (junk k) r _ (.core .sort) h3 trivial
  obtain ⟨E, hE⟩ := LInv.row e2 rfl
  have hkl : k < v.data.length := by rw [h.lines.1]; omega
  refine ⟨E, hE.rep, ?_, fun hs => ⟨r, h2, ?_⟩⟩
  rotate_left
  · obtain ⟨_, A, _, _, _, hso⟩ := h3
    have hr : r.coo.sorted = true := by rw [← hso]; exact hs
    have : r' = r := by
      simp only [CoordVec.step, Coo.step, Coo.sort, hr, Bool.true_eq_false, false_and, if_false, bind_ok] at e1
      cases e1; rfl
    rw [← this]; exact hE.holds.1.symm
  have hf := fast_row (v := ⟨v.size1, v.size2, (v.data.set k r').map toRow⟩) dbg h.size1 h.size2 hk (r := toRow r') (by
    refine rd_eq_ok.2 ?_
    rw [List.getElem?_map, List.getElem?_set_self hkl]; rfl) hE
  simp only [traverseFast, VoVC.onRow, h1, bind_ok, e1, wr_ok hkl]
  exact hf

omit [AddCommMonoid α] in
theorem foldl_sum (f : CoordVec α → Nat) (l : List (CoordVec α)) : ∀ n, l.foldl (fun n r => n + f r) n = n + (l.map f).sum := by
  induction l with
  | nil => intro n; simp
  | cons a l ih => intro n; simp [ih]; omega

theorem Inv.whole {P : VVCPar α} (hsrt : CoordVec.Sorts P.srt) {o : Orient} {v : VoVC α} {s : VVCState α} (h : Inv P o v s) (dbg : Bool) (junk : Junk α) :
    ∃ E, v.traverse P dbg o 0 junk = .ok E ∧ MLists (fun p => (o.indexM p.1 p.2, o.indexm p.1 p.2)) E s.val ∧
      ((∀ k, s.sorted k = true) → v.nnz = E.length) := by
  obtain ⟨E, e1, e2, e3, e4⟩ := loop_inv (n := o.sizeM v.size1 v.size2) (s := ([] : List (Nat × Nat × α)))
    (f := fun k acc => (do
      let E ← v.traverseFast P dbg o 0 junk k
      .ok (acc ++ E) : M (List (Nat × Nat × α))))
    (fun k acc => acc.Pairwise (fun a b => o.indexM a.1 a.2.1 < o.indexM b.1 b.2.1 ∨
          (o.indexM a.1 a.2.1 = o.indexM b.1 b.2.1 ∧ o.indexm a.1 a.2.1 < o.indexm b.1 b.2.1)) ∧
      (∀ i j x, (i, j, x) ∈ acc ↔ (o.indexM i j < k ∧ s.val (i, j) = some x)) ∧
      ((∀ k, s.sorted k = true) → ((v.data.take k).map (·.coo.filled)).sum = acc.length)) (by simp) (by
        intro k acc hk hacc
        rw [h.size1, h.size2] at hk
        obtain ⟨a1, a2, a3⟩ := hacc
        obtain ⟨E, f3, f4, f5⟩ := h.fast hsrt dbg junk hk
        refine ⟨acc ++ (E.map fun p => (o.indexM k p.1, o.indexm k p.1, p.2)), by simp only [f4, bind_ok], ?_, ?_, ?_⟩
        · rw [List.pairwise_append]
          refine ⟨a1, ?_, ?_⟩
          · rw [List.pairwise_map]
            refine f3.1.imp ?_
            intro a b hab
            simp only [indexM_pos, indexm_pos]; exact Or.inr ⟨trivial, hab⟩
          · intro a ha b hb
            obtain ⟨p, hp, rfl⟩ := List.mem_map.1 hb
            simp only [indexM_pos, indexm_pos]
            obtain ⟨i, j, x⟩ := a
            exact Or.inl ((a2 i j x).1 ha).1
        · intro i j x
          rw [List.mem_append, a2, List.mem_map]
          constructor
          · rintro (⟨g1, g2⟩ | ⟨p, hp, hpe⟩)
            · exact ⟨by omega, g2⟩
            · obtain ⟨l, y⟩ := p
              simp only [Prod.mk.injEq] at hpe
              obtain ⟨rfl, rfl, rfl⟩ := hpe
              exact ⟨by simp, (f3.2 l y).2 hp⟩
          · rintro ⟨g1, g2⟩
            by_cases e : o.indexM i j < k
            · exact Or.inl ⟨e, g2⟩
            · have e : k = o.indexM i j := by omega
              subst e
              refine Or.inr ⟨(o.indexm i j, x), (f3.2 _ _).1 ?_, ?_⟩
              · simp only [pos_pos]; exact g2
              · have := pos_pos o i j
                simp only [Prod.mk.injEq] at this ⊢
                exact ⟨this.1, this.2, trivial⟩
        · intro hs
          obtain ⟨r, f1, f2⟩ := f5 (hs k)
          rw [List.take_add_one, f1]
          simp only [Option.toList_some, List.map_append, List.sum_append, a3 hs, List.map_cons, List.map_nil, List.sum_cons, List.sum_nil, f2, List.length_append, List.length_map, Nat.add_zero])
  refine ⟨E, e1, ⟨e2, fun i j x => ?_⟩, fun hs => ?_⟩
  · rw [e3]
    refine ⟨fun g => g.2, fun g => ⟨?_, g⟩⟩
    rw [h.size1, h.size2]
    by_cases hin : i < s.rows ∧ j < s.cols
    · exact (lt_major hin).1
    · rw [h.out i j hin] at g; cases g
  · rw [nnz, foldl_sum, ← e4 hs, Nat.zero_add, h.size1, h.size2]
    obtain ⟨r, g1, g2, hsz, A, hA, hv, hin, hso⟩ := h.last dbg
    have hr0 : r.coo.filled = 0 := by
      rw [← hA.len]
      cases A with
      | nil => rfl
      | cons p A => obtain ⟨i, hi, _⟩ := hin p (by simp); exact absurd hi (Nat.not_lt_zero _)
    have : v.data = v.data.take (o.sizeM s.rows s.cols) ++ [r] := by
      have hl := h.lines.1
      conv_lhs => rw [← List.take_of_length_le (l := v.data) (i := o.sizeM s.rows s.cols + 1) (by omega)]
      rw [List.take_add_one, g2]; rfl
    conv_lhs => rw [this]
    simp [hr0]

omit [AddCommMonoid α] in
theorem sum_le (l : List (CoordVec α)) (h : ∀ r ∈ l, r.coo.filled ≤ r.coo.cap) : (l.map (·.coo.filled)).sum ≤ (l.map (·.coo.cap)).sum := by
  induction l with
  | nil => simp
  | cons a l ih =>
    have h1 := h a (by simp); have h2 := ih (fun r hr => h r (by simp [hr]))
    simp only [List.map_cons, List.sum_cons]; omega

/-- Two lists of the stored elements have the same length. -/
theorem mlists_length {key : Nat × Nat → Nat × Nat} {E F : List (Nat × Nat × α)} {val : Nat × Nat → Option α} (hE : MLists key E val) (hF : MLists key F val) :
    E.length = F.length := by
  have nd : ∀ {E : List (Nat × Nat × α)}, MLists key E val → E.Nodup := by
    intro E hE
    refine hE.1.imp ?_
    rintro a b hab rfl
    omega
  refine ((List.perm_ext_iff_of_nodup (nd hE) (nd hF)).2 ?_).length_eq
  rintro ⟨i, j, x⟩
  rw [hE.2, hF.2]

theorem Inv.observes {P : VVCPar α} (hsrt : CoordVec.Sorts P.srt) {o : Orient} {v : VoVC α} {s : VVCState α} (h : Inv P o v s) (dbg : Bool) (junk : Junk α) :
    VVCObserves P dbg o junk v s := by
  obtain ⟨E, e1, e2, _⟩ := h.whole hsrt dbg junk
  refine ⟨h.size1, h.size2, ?_, ?_, ⟨E, e1, e2, ?_⟩, ?_, h.out⟩
  · intro i j hi hj
    have hlt := lt_major (o := o) ⟨hi, hj⟩
    obtain ⟨r, h1, h2, hsz, hr⟩ := h.line dbg hlt.1
    obtain ⟨c, c1, c2⟩ := hr.get (CoordVec.parOk P.srt hsrt P.full P.IB _) dbg (o.indexm i j)
    have hsz' : r.size = o.sizem s.rows s.cols := hsz
    simp only [VoVC.get, h1, bind_ok, hsz', check_true hlt.2, c1, wr_ok (show o.indexM i j < v.data.length by rw [h.lines.1]; omega), pos_pos]
    rfl
  · intro k hk
    obtain ⟨E, f3, f4, _⟩ := h.fast hsrt dbg junk hk
    refine ⟨_, f4, ?_, ?_⟩
    · rw [List.pairwise_map]
      refine f3.1.imp ?_
      intro a b hab
      simp only [indexM_pos, indexm_pos]; exact Or.inr ⟨trivial, hab⟩
    · intro i j x
      rw [List.mem_map]
      constructor
      · rintro ⟨⟨l, y⟩, hp, hpe⟩
        simp only [Prod.mk.injEq] at hpe
        obtain ⟨rfl, rfl, rfl⟩ := hpe
        simp only [indexM_pos, if_true]
        exact (f3.2 l y).2 hp
      · intro g
        simp only at g
        split at g
        · rename_i e
          subst e
          refine ⟨(o.indexm i j, x), (f3.2 _ _).1 (by simp only [pos_pos]; exact g), ?_⟩
          have := pos_pos o i j
          simp only [Prod.mk.injEq] at this ⊢
          exact ⟨this.1, this.2, trivial⟩
        · cases g
  · obtain ⟨v', v1, v2⟩ := step_inv hsrt dbg o junk junk (fun _ => ⟨0, ⟨0, 0, 0, true, [], []⟩⟩) v s .sort h trivial
    obtain ⟨E', _, g2, g3⟩ := v2.whole hsrt dbg junk
    exact ⟨v', v1, (g3 fun _ => rfl).trans (mlists_length g2 e2)⟩
  · rw [nnz, nnzCapacity, foldl_sum, foldl_sum]
    have := sum_le v.data (by
      intro r hr
      obtain ⟨k, hk, rfl⟩ := List.mem_iff_getElem.1 hr
      obtain ⟨_, A, hA, _⟩ := h.lines.2 k _ _ rfl (List.getElem?_eq_getElem hk)
      exact hA.fill)
    omega

end VoVC

open CooSpec

/-- **C126** (partial).  Any legal history of element writes, inserts, appends (which add to an element already there), erases, reads, `sort`, `clear` and `resize` on a
generalized_vector_of_vector of coordinate vectors, in either orientation and both build modes, for any conforming `std::sort`, both sorting strategies, any index
base and any contents of uninitialised memory: no operation faults, and sizes, elements, iteration and counts are those of the specification.
Missing: a preserving `resize` to fewer lines when the first dropped line is unsorted (false in debug builds, below). -/
theorem C126_coordinate_lines_partial (P : VVCPar α) [AddCommMonoid α] (hsrt : CoordVec.Sorts P.srt) (dbg : Bool) (o : Orient) (junk junk' junk'' : VoVC.Junk α)
    (rows : Nat → CoordVec α) (r c : Nat) (as : List (VoVC.Act α)) (hl : vvclegalRun o ⟨r, c, fun _ => none, fun _ => true⟩ (as.map (·.op))) :
    ∃ v0 v, VoVC.ctor P dbg o 0 junk junk' rows r c = .ok v0 ∧ VoVC.run P dbg o 0 v0 as = .ok v ∧
      VVCObserves P dbg o junk'' v (vvcrun o ⟨r, c, fun _ => none, fun _ => true⟩ (as.map (·.op))) := by
  obtain ⟨v0, e0, h0⟩ := VoVC.inv_ctor hsrt dbg o junk junk' rows r c
  obtain ⟨v, e1, h1⟩ := VoVC.run_inv hsrt dbg o as v0 _ h0 hl
  exact ⟨v0, v, e0, e1, h1.observes hsrt dbg junk''⟩

/-- Run a 3 by 2 matrix of coordinate vectors through `ops`, then read the elements. -/
def vvcRead (full dbg : Bool) (o : Orient) (ops : List (VVCOp Int)) (ps : List (Nat × Nat)) : M (List Int × List (Nat × Nat × Int)) := do
  let P : VVCPar Int := ⟨vSort, full, 0⟩
  let rows : Nat → CoordVec Int := fun _ => ⟨0, ⟨1, 0, 0, true, [5], [6]⟩⟩
  let v0 ← VoVC.ctor P dbg o 0 (fun _ => vJunk) (fun _ => vJunk) rows 3 2
  let v ← VoVC.run P dbg o 0 v0 (ops.map fun op => ⟨op, fun _ => vJunk, fun _ => vJunk, rows⟩)
  let xs ← loop (fun k acc => do
    let q ← v.get P dbg o 0 (ps.getD k (0, 0)).1 (ps.getD k (0, 0)).2
    .ok (acc ++ [q.2])) ps.length []
  let E ← v.traverse P dbg o 0 (fun _ => vJunk)
  .ok (xs, E)

/-- **C126** (refuted).  A preserving `resize` to fewer lines, of a matrix with one appended element in the first line it drops: that line becomes the sentinel by
`resize (0, false)`, which leaves its `sorted_` flag false, and its consistency check fails in debug builds; without checks the result is right. -/
theorem C126_shrink_refuted (full : Bool) :
    vvcRead full true .row [.append 1 0 5, .resize 1 2 true] [] = .error .internalLogic ∧
    vvcRead full true .col [.append 0 1 5, .resize 3 1 true] [] = .error .internalLogic ∧
    vvcRead full false .row [.append 0 1 7, .append 1 0 5, .resize 1 2 true] [(0, 0), (0, 1)] = .ok ([0, 7], [(0, 1, 7)]) := by
  cases full <;> exact ⟨by decide, by decide, by decide⟩

/-! ## The hypotheses are met by a non-trivial history -/

/-- Appends in decreasing order with a duplicate, a write, a read, an erase, a shrink of a sorted matrix and a growth. -/
def C126_demo : List (VVCOp Int) :=
  [.append 1 1 40, .append 1 0 10, .append 1 1 2, .modify 0 1 (· + 5), .insert 2 1 3, .read 2 1, .erase 0 0, .sort, .resize 2 2 true, .append 0 1 1, .resize 4 3 true,
    .append 3 2 9]

example : vvclegalRun .row ⟨3, 2, fun _ => none, fun _ => true⟩ C126_demo := by
  simp [C126_demo, vvclegalRun, vvclegal, vvcstep, Orient.indexM, Orient.sizeM]

example : vvcRead false true .row C126_demo [(0, 1), (1, 0), (1, 1), (2, 1), (3, 2)] =
    .ok ([6, 10, 42, 0, 9], [(0, 1, 6), (1, 0, 10), (1, 1, 42), (3, 2, 9)]) := by decide

end Ublas
