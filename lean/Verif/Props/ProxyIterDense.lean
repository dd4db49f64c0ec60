import Verif.Props.ProxyIterM
/-! # C83: views of a dense matrix -/
namespace Ublas
variable {R : Type}
namespace MIter

/-- The address of the element at `k` along `ax`, `l` across. -/
def addr (o : Orient) (n1 n2 : Nat) (ax : Axis) (l k : Nat) : Nat := o.elementRaw (coord ax k l).1 n1 (coord ax k l).2 n2

theorem addr_next (o : Orient) (m : Dense R) (ax : Axis) (l k : Nat) :
    addr o m.size1 m.size2 ax l k + (match ax with | .one => DenseIter.inc1 o m | .two => DenseIter.inc2 o m) = addr o m.size1 m.size2 ax l (k + 1) := by
  cases ax <;> cases o <;> simp only [addr, coord, Orient.elementRaw, DenseIter.inc1, DenseIter.inc2, Nat.add_mul, Nat.one_mul] <;> omega

theorem addr_inj (o : Orient) {n1 n2 : Nat} (ax : Axis) {l k k' : Nat} (hl : l < CMat.along ax.other n1 n2) :
    addr o n1 n2 ax l k = addr o n1 n2 ax l k' ↔ k = k' := by
  cases ax <;> cases o <;> simp only [addr, coord, Orient.elementRaw, CMat.along, Axis.other] at hl ⊢
  · constructor
    · intro h; exact Nat.eq_of_mul_eq_mul_right (show 0 < n2 by omega) (by omega)
    · rintro rfl; rfl
  · omega
  · omega
  · constructor
    · intro h; exact Nat.eq_of_mul_eq_mul_right (show 0 < n1 by omega) (by omega)
    · rintro rfl; rfl

/-- Dense iterators. -/
def dAt (o : Orient) (n1 n2 : Nat) (ax : Axis) (l k p : Nat) : Prop := p = addr o n1 n2 ax l k

theorem dense_find (dbg : Bool) (o : Orient) (m : Dense R) (ax : Axis) (r : Nat) {k l : Nat} (hk : k ≤ CMat.along ax m.size1 m.size2)
    (hl : l ≤ CMat.along ax.other m.size1 m.size2) :
    (MIter.dense dbg o m).look ax r k l = .ok (addr o m.size1 m.size2 ax l k) := by
  cases ax <;> simp only [CMat.along, Axis.other] at hk hl <;> simp only [MIter.look, MIter.dense, DenseIter.find, addr, coord] <;>
    exact address_ok dbg o (by omega) (by omega)

theorem dense_along (o : Orient) {n1 n2 : Nat} (ax : Axis) {l k : Nat} (hk : k < CMat.along ax n1 n2) (hl : l < CMat.along ax.other n1 n2) :
    o.indexI (addr o n1 n2 ax l k) n1 n2 = (coord ax k l).1 ∧ o.indexJ (addr o n1 n2 ax l k) n1 n2 = (coord ax k l).2 := by
  cases ax <;> simp only [CMat.along, Axis.other] at hk hl <;> simp only [addr, coord]
  · exact ⟨indexI_elementRaw o hk hl, indexJ_elementRaw o hk hl⟩
  · exact ⟨indexI_elementRaw o hl hk, indexJ_elementRaw o hl hk⟩

theorem dense_stands (dbg : Bool) (o : Orient) (m : Dense R) (hw : m.WF) {a : Nat → Nat → R}
    (ha : ∀ i j, i < m.size1 → j < m.size2 → m.get dbg o i j = .ok (a i j)) :
    (MIter.dense dbg o m).Stands (flines m.size1 m.size2) (full m.size1 m.size2 a) (dAt o m.size1 m.size2) (dAt o m.size1 m.size2) := by
  have hlen : ∀ ax, (MIter.dense dbg o m).len ax = CMat.along ax m.size1 m.size2 := fun ax => rfl
  have hnext : ∀ ax l k p, dAt o m.size1 m.size2 ax l k p → ∃ q, (MIter.dense dbg o m).next ax p = .ok q ∧ dAt o m.size1 m.size2 ax l (k + 1) q := by
    intro ax l k p hp
    replace hp : addr o m.size1 m.size2 ax l k = p := Eq.symm hp
    subst hp
    exact ⟨_, rfl, addr_next o m ax l k⟩
  have heq : ∀ ax l k k' p q, l < CMat.along ax.other m.size1 m.size2 → dAt o m.size1 m.size2 ax l k p → dAt o m.size1 m.size2 ax l k' q →
      (MIter.dense dbg o m).eq ax p q = .ok (decide (k = k')) := by
    intro ax l k k' p q hl hp hq
    replace hp : addr o m.size1 m.size2 ax l k = p := Eq.symm hp
    replace hq : addr o m.size1 m.size2 ax l k' = q := Eq.symm hq
    subst hp; subst hq
    show Except.ok (decide (addr o m.size1 m.size2 ax l k = addr o m.size1 m.size2 ax l k')) = _
    simp only [addr_inj o ax hl]
  refine ⟨fun ax => everyone_inc _ _, fun ax => everyone_below _ _, fun ax l _ => full_inc _ _ _ _ _, fun ax l _ => full_below _ _ _ _ _,
    ?_, ?_, ?_, ?_, ?_, ?_, ?_, ?_, ?_⟩
  · intro ax k l hk hl
    rw [hlen] at hk
    exact ⟨_, dense_find dbg o m ax 0 hk (Nat.le_of_lt hl), by rw [flines_before _ _ _ hk]; rfl⟩
  · intro ax l k p _ hp _; exact hnext ax l k p hp
  · intro ax l k k' p q hl _ _ hp hq; exact heq ax l k k' p q hl hp hq
  · intro ax l k p hk hl hp
    rw [flines_get]
    rw [flines_length] at hk
    replace hp : addr o m.size1 m.size2 ax l k = p := Eq.symm hp
    subst hp
    have := dense_along o ax hk hl
    cases ax
    · exact congrArg Except.ok this.1
    · exact congrArg Except.ok this.2
  · intro ax l k p hk hl hp
    rw [flines_get, full_length]
    rw [flines_length] at hk
    replace hp : addr o m.size1 m.size2 ax l k = p := Eq.symm hp
    subst hp
    have := dense_along o ax hk hl
    cases ax
    · have f0 := dense_find dbg o m .two 1 (k := 0) (l := k) (Nat.zero_le _) (Nat.le_of_lt hk)
      have f1 := dense_find dbg o m .two 1 (k := m.size2) (l := k) (Nat.le_refl _) (Nat.le_of_lt hk)
      refine ⟨_, _, ?_, ?_, rfl, rfl⟩
      · refine Eq.trans ?_ f0
        simp only [MIter.dense, MIter.look, this.1, coord]
      · refine Eq.trans ?_ f1
        simp only [MIter.dense, MIter.look, this.1, coord]
    · have f0 := dense_find dbg o m .one 1 (k := 0) (l := k) (Nat.zero_le _) (Nat.le_of_lt hk)
      have f1 := dense_find dbg o m .one 1 (k := m.size1) (l := k) (Nat.le_refl _) (Nat.le_of_lt hk)
      refine ⟨_, _, ?_, ?_, rfl, rfl⟩
      · refine Eq.trans ?_ f0
        simp only [MIter.dense, MIter.look, this.2, coord]
      · refine Eq.trans ?_ f1
        simp only [MIter.dense, MIter.look, this.2, coord]
  · intro ax k l hk hl
    rw [hlen] at hk
    exact ⟨_, dense_find dbg o m ax 1 hk (Nat.le_of_lt hl), by rw [full_before _ _ _ _ _ hk]; rfl⟩
  · intro ax l k p _ hp _; exact hnext ax l k p hp
  · intro ax l k k' p q hl _ _ hp hq; exact heq ax l k k' p q hl hp hq
  · intro ax l k p hk hl hp
    rw [full_get]
    rw [full_length] at hk
    replace hp : addr o m.size1 m.size2 ax l k = p := Eq.symm hp
    subst hp
    have this := dense_along o ax hk hl
    have hd : ∀ i j, i < m.size1 → j < m.size2 → (do let x ← DenseIter.deref dbg o m (o.elementRaw i m.size1 j m.size2); Except.ok x.2.2 : M R) = .ok (a i j) := by
      intro i j hi hj
      obtain ⟨v, v1, v2⟩ := deref_eq dbg o m hw hi hj
      rw [ha i j hi hj] at v1
      cases v1
      rw [v2, bind_ok]
    cases ax
    · exact ⟨congrArg Except.ok this.1, congrArg Except.ok this.2, hd k l hk hl⟩
    · exact ⟨congrArg Except.ok this.2, congrArg Except.ok this.1, hd l k hl hk⟩

theorem dense_backs (dbg : Bool) (o : Orient) (m : Dense R) (a : Nat → Nat → R) (ax : Axis) :
    (MIter.dense dbg o m).Backs (full m.size1 m.size2 a) (dAt o m.size1 m.size2) ax := by
  intro l k p _ hp _
  replace hp : addr o m.size1 m.size2 ax l (k + 1) = p := Eq.symm hp
  subst hp
  refine ⟨addr o m.size1 m.size2 ax l k, ?_, rfl⟩
  have := addr_next o m ax l k
  simp only [MIter.dense]
  rw [← this]
  cases ax <;> simp only [Nat.add_sub_cancel]

theorem dense_reads (dbg : Bool) (o : Orient) (m : Dense R) {a : Nat → Nat → R}
    (ha : ∀ i j, i < m.size1 → j < m.size2 → m.get dbg o i j = .ok (a i j)) : (MIter.dense dbg o m).Reads a := fun i j hi hj => ha i j hi hj

end MIter

theorem MRef.shown_full (a : Nat → Nat → R) (n1 n2 : Nat) : ∀ p : MRef, p.Fits n1 n2 → ∀ ax l, l < CMat.along ax.other (p.size1 n1) (p.size2 n2) →
    p.shown a (MIter.full n1 n2 a) ax l = MIter.full (p.size1 n1) (p.size2 n2) (fun i j => a (p.index i j).1 (p.index i j).2) ax l
  | .base, _, ax, l, _ => rfl
  | .sel p (.range r1) (.range r2), hf, ax, l, hl => by
    obtain ⟨hf, g1, g2⟩ := hf
    cases ax
    · simp only [CMat.along, Axis.other, MRef.size2, Sel.size] at hl
      rw [MRef.shown, MRef.shown_full a n1 n2 p hf .one (r2.start + l) (by simp only [CMat.along, Axis.other]; omega)]
      exact window_everyone _ _ _ _ g1
    · simp only [CMat.along, Axis.other, MRef.size1, Sel.size] at hl
      rw [MRef.shown, MRef.shown_full a n1 n2 p hf .two (r1.start + l) (by simp only [CMat.along, Axis.other]; omega)]
      exact window_everyone _ _ _ _ g2
  | .sel p (.slice t1) (.slice t2), _, ax, l, _ => by cases ax <;> rfl
  | .sel p (.indirect t1) (.indirect t2), _, ax, l, _ => by cases ax <;> rfl

theorem MRef.shownLines_full (n1 n2 : Nat) : ∀ p : MRef, p.Fits n1 n2 → ∀ ax,
    p.shownLines (MIter.flines n1 n2) ax = MIter.flines (p.size1 n1) (p.size2 n2) ax
  | .base, _, ax => rfl
  | .sel p (.range r1) (.range r2), hf, ax => by
    obtain ⟨hf, g1, g2⟩ := hf
    cases ax
    · rw [MRef.shownLines, MRef.shownLines_full n1 n2 p hf .one]
      exact window_everyone _ _ _ _ g1
    · rw [MRef.shownLines, MRef.shownLines_full n1 n2 p hf .two]
      exact window_everyone _ _ _ _ g2
  | .sel p (.slice t1) (.slice t2), _, ax => by cases ax <;> rfl
  | .sel p (.indirect t1) (.indirect t2), _, ax => by cases ax <;> rfl

/-- **C83 (dense, partial).** Whatever ranges, slices and indirect arrays are stacked on a dense matrix (of either orientation), the nested loops over
the view visit its rows in order and in each row every element in order, with its indices and the value of the element it denotes; likewise by
columns.  Missing: views without columns (rows), see `C83_dense_refuted`. -/
theorem C83_dense_views_partial (dbg : Bool) (o : Orient) (m : Dense R) (hw : m.WF) (a : Nat → Nat → R)
    (ha : ∀ i j, i < m.size1 → j < m.size2 → m.get dbg o i j = .ok (a i j)) (h1 : m.size1 < 2 ^ 64) (h2 : m.size2 < 2 ^ 64)
    (p : MRef) (hp : p.Fits m.size1 m.size2) :
    (0 < p.size2 m.size2 → ((MIter.dense dbg o m).view dbg p).traverse .one =
      .ok ((List.range (p.size1 m.size1)).map fun i => (i, (List.range (p.size2 m.size2)).map fun j => ((i, j), a (p.index i j).1 (p.index i j).2)))) ∧
    (0 < p.size1 m.size1 → ((MIter.dense dbg o m).view dbg p).traverse .two =
      .ok ((List.range (p.size2 m.size2)).map fun j => (j, (List.range (p.size1 m.size1)).map fun i => ((i, j), a (p.index i j).1 (p.index i j).2)))) := by
  obtain ⟨⟨A0, A1, k1, _⟩, k3, k4, k5, k6, k7⟩ := MIter.view_stands (MIter.dense_stands dbg o m hw ha) (MIter.dense_reads dbg o m ha) h1 h2 dbg p hp
  replace k4 : ((MIter.dense dbg o m).view dbg p).size1 = p.size1 m.size1 := k4
  replace k5 : ((MIter.dense dbg o m).view dbg p).size2 = p.size2 m.size2 := k5
  have eS := MRef.shown_full a m.size1 m.size2 p hp
  have eL := MRef.shownLines_full m.size1 m.size2 p hp
  refine ⟨fun h => ?_, fun h => ?_⟩
  · have ht := k1.traverse (ax := .one) (by show 0 < MIter.size2 _; rw [k5]; exact h)
    refine ht.trans ?_
    unfold MIter.table
    rw [eL]
    simp only [MIter.flines, everyone, List.map_map, CMat.along]
    congr 1
    apply List.map_congr_left
    intro i hi
    simp only [List.mem_range] at hi
    simp only [Function.comp, eS Axis.one.other i hi]
    simp only [MIter.full, everyone, Axis.other, List.map_map]
    rfl
  · have ht := k1.traverse (ax := .two) (by show 0 < MIter.size1 _; rw [k4]; exact h)
    refine ht.trans ?_
    unfold MIter.table
    rw [eL]
    simp only [MIter.flines, everyone, List.map_map, CMat.along]
    congr 1
    apply List.map_congr_left
    intro i hi
    simp only [List.mem_range] at hi
    simp only [Function.comp, eS Axis.two.other i hi]
    simp only [MIter.full, everyone, Axis.other, List.map_map]
    rfl

/-- A dense matrix is read everywhere. -/
theorem dense_total (dbg : Bool) (o : Orient) (m : Dense R) (hw : m.WF) [Inhabited R] :
    ∃ a : Nat → Nat → R, ∀ i j, i < m.size1 → j < m.size2 → m.get dbg o i j = .ok (a i j) := by
  refine ⟨fun i j => match m.get dbg o i j with | .ok v => v | .error _ => default, fun i j hi hj => ?_⟩
  obtain ⟨_, e⟩ := Dense.get_eq dbg o m hw hi hj
  simp only [e]

/-- The vector views of a matrix fit: the row or column exists, the selectors are of equal length and stay inside. -/
def MVRef.Fits (n1 n2 : Nat) : MVRef → Prop
  | .row p i => p.Fits n1 n2 ∧ i < p.size1 n1
  | .column p j => p.Fits n1 n2 ∧ j < p.size2 n2
  | .along p s1 s2 => p.Fits n1 n2 ∧ s1.Valid (p.size1 n1) ∧ s2.Valid (p.size2 n2) ∧ s1.size = s2.size ∧ s1.size < 2 ^ 64

/-- **C83 (dense, vector views).** Rows, columns and the diagonal-like views of any stack of matrix views of a dense matrix, again seen through any stack
of vector views: forward iteration visits every element in order, backward iteration in the opposite order. -/
theorem C83_dense_lines (dbg : Bool) (o : Orient) (m : Dense R) (hw : m.WF) (a : Nat → Nat → R)
    (ha : ∀ i j, i < m.size1 → j < m.size2 → m.get dbg o i j = .ok (a i j)) (h1 : m.size1 < 2 ^ 64) (h2 : m.size2 < 2 ^ 64)
    (w : MVRef) (hp : w.Fits m.size1 m.size2) (q : VRef) (hq : q.Fits (w.size m.size1 m.size2)) :
    let shown := (List.range (q.size (w.size m.size1 m.size2))).map fun k => (k, a (w.index (q.index k)).1 (w.index (q.index k)).2)
    (((MIter.dense dbg o m).vview dbg w).view dbg q).els = .ok shown ∧ (((MIter.dense dbg o m).vview dbg w).view dbg q).elsBack = .ok shown.reverse := by
  have key : ∃ At, ((MIter.dense dbg o m).vview dbg w).Stands (everyone (w.size m.size1 m.size2) fun k => a (w.index k).1 (w.index k).2) At ∧
      ((MIter.dense dbg o m).vview dbg w).Backs (everyone (w.size m.size1 m.size2) fun k => a (w.index k).1 (w.index k).2) At ∧
      ((MIter.dense dbg o m).vview dbg w).Reads (fun k => a (w.index k).1 (w.index k).2) ∧
      ((MIter.dense dbg o m).vview dbg w).size = w.size m.size1 m.size2 ∧ w.size m.size1 m.size2 < 2 ^ 64 := by
    cases w with
    | row p i =>
      obtain ⟨⟨A0, A1, k1, k2⟩, k3, k4, k5, k6, k7⟩ := MIter.view_stands (MIter.dense_stands dbg o m hw ha) (MIter.dense_reads dbg o m ha) h1 h2 dbg p hp.1
      have hi : i < ((MIter.dense dbg o m).view dbg p).len Axis.two.other := by show i < MIter.size1 _; rw [k4]; exact hp.2
      have e := MRef.shown_full a m.size1 m.size2 p hp.1 .two i hp.2
      have s1 := k1.line dbg .two hi
      have s2 := (k2 .two (MIter.dense_backs dbg o m a .two)).line dbg hi
      rw [e] at s1 s2
      exact ⟨_, s1, s2, k3.line dbg .two hi, k5, k7⟩
    | column p j =>
      obtain ⟨⟨A0, A1, k1, k2⟩, k3, k4, k5, k6, k7⟩ := MIter.view_stands (MIter.dense_stands dbg o m hw ha) (MIter.dense_reads dbg o m ha) h1 h2 dbg p hp.1
      have hj : j < ((MIter.dense dbg o m).view dbg p).len Axis.one.other := by show j < MIter.size2 _; rw [k5]; exact hp.2
      have e := MRef.shown_full a m.size1 m.size2 p hp.1 .one j hp.2
      have s1 := k1.line dbg .one hj
      have s2 := (k2 .one (MIter.dense_backs dbg o m a .one)).line dbg hj
      rw [e] at s1 s2
      exact ⟨_, s1, s2, k3.line dbg .one hj, k4, k6⟩
    | along p t1 t2 =>
      obtain ⟨hp, v1, v2, hs, hz⟩ := hp
      obtain ⟨_, k3, k4, k5, k6, k7⟩ := MIter.view_stands (MIter.dense_stands dbg o m hw ha) (MIter.dense_reads dbg o m ha) h1 h2 dbg p hp
      replace k4 : ((MIter.dense dbg o m).view dbg p).size1 = p.size1 m.size1 := k4
      replace k5 : ((MIter.dense dbg o m).view dbg p).size2 = p.size2 m.size2 := k5
      have P1 := VIter.Picker.law dbg t1 k6 v1 hz
      have P2 := VIter.Picker.law dbg t2 k7 v2 (by omega)
      rw [← hs] at P2
      have q1 : ∀ k, k < t1.size → (t1.index k).toNat < ((MIter.dense dbg o m).view dbg p).size1 := by
        intro k hk; rw [k4]; have := v1 k hk; omega
      have q2 : ∀ k, k < t1.size → (t2.index k).toNat < ((MIter.dense dbg o m).view dbg p).size2 := by
        intro k hk; rw [k5]; have := v2 k (by omega); omega
      obtain ⟨s1, s2⟩ := MIter.diag_stands k3 dbg P1 P2 q1 q2 (t1.at_ dbg) (t2.at_ dbg)
      have hsz : (MVRef.along p t1 t2).size m.size1 m.size2 = t1.size := by simp only [MVRef.size, ← hs, Nat.min_self]
      rw [hsz]
      refine ⟨_, s1, s2, ?_, P1.size, hz⟩
      intro k hk
      replace hk : k < (VIter.Picker.of dbg t1).size := hk
      rw [P1.size] at hk
      simp only [MIter.vview, MIter.diag]
      rw [Sel.at_ok k6 v1 hk, Sel.at_ok k7 v2 (by omega)]
      exact k3 _ _ (q1 k hk) (q2 k hk)
  obtain ⟨At, s1, s2, s3, s4, s5⟩ := key
  rw [← s4] at s5 hq
  obtain ⟨⟨At', t1, t2⟩, _⟩ := VIter.view_stands s1 s3 s5 dbg q hq
  rw [s4] at hq
  have e := VRef.shown_everyone (fun k => a (w.index k).1 (w.index k).2) (w.size m.size1 m.size2) q hq
  have e1 := t1.els
  have e2 := t1.elsBack (t2 s2)
  rw [e] at e1 e2
  exact ⟨e1, e2⟩

/-- **C83 (dense) refuted for views without columns.** `matrix_range` with the empty column range at the right edge of a 2 × 3 row-major matrix: the first
row iterator of the view reports row 1 instead of 0, the last one row 2, which the view does not have. -/
theorem C83_dense_refuted (dbg : Bool) :
    MRef.Fits 2 3 (.sel .base (.range ⟨0, 2⟩) (.range ⟨3, 0⟩)) ∧
    ((MIter.dense dbg .row (⟨2, 3, [1, 2, 3, 4, 5, 6]⟩ : Dense Int)).view dbg (.sel .base (.range ⟨0, 2⟩) (.range ⟨3, 0⟩))).size1 = 2 ∧
    (((MIter.dense dbg .row (⟨2, 3, [1, 2, 3, 4, 5, 6]⟩ : Dense Int)).view dbg (.sel .base (.range ⟨0, 2⟩) (.range ⟨3, 0⟩))).look .one 0 0 0 >>= fun b =>
      ((MIter.dense dbg .row (⟨2, 3, [1, 2, 3, 4, 5, 6]⟩ : Dense Int)).view dbg (.sel .base (.range ⟨0, 2⟩) (.range ⟨3, 0⟩))).index1 .one b) = .ok 1 ∧
    ((MIter.dense false .row (⟨2, 3, [1, 2, 3, 4, 5, 6]⟩ : Dense Int)).view false (.sel .base (.range ⟨0, 2⟩) (.range ⟨3, 0⟩))).traverse .one =
      .ok [(1, []), (2, [])] := by
  refine ⟨by simp [MRef.Fits, MRef.size1, MRef.size2], rfl, ?_, rfl⟩
  cases dbg <;> rfl

/-- The hypotheses are met: rows in reverse order of a window of a column-major matrix. -/
example : MRef.Fits 3 3 (.sel (.sel .base (.range ⟨1, 2⟩) (.range ⟨0, 2⟩)) (.slice ⟨1, -1, 2⟩) (.slice ⟨0, 1, 2⟩)) ∧
    ((MIter.dense true .col (⟨3, 3, [1, 2, 3, 4, 5, 6, 7, 8, 9]⟩ : Dense Int)).view true
      (.sel (.sel .base (.range ⟨1, 2⟩) (.range ⟨0, 2⟩)) (.slice ⟨1, -1, 2⟩) (.slice ⟨0, 1, 2⟩))).traverse .one =
      .ok [(0, [((0, 0), 3), ((0, 1), 6)]), (1, [((1, 0), 2), ((1, 1), 5)])] := by
  refine ⟨?_, by rfl⟩
  simp only [MRef.Fits, MRef.size1, MRef.size2, Sel.size, Sel.Valid, Sel.index]
  refine ⟨by simp, ?_, ?_, by decide, by decide⟩ <;> intro i hi <;> interval_cases i <;> decide

/-- The diagonal of a window, read backwards. -/
example : MVRef.Fits 3 3 (.along .base (.range ⟨1, 2⟩) (.range ⟨0, 2⟩)) ∧
    ((MIter.dense true .row (⟨3, 3, [1, 2, 3, 4, 5, 6, 7, 8, 9]⟩ : Dense Int)).vview true (.along .base (.range ⟨1, 2⟩) (.range ⟨0, 2⟩))).elsBack =
      .ok [(1, 8), (0, 4)] := by
  refine ⟨?_, by rfl⟩
  simp only [MVRef.Fits, MRef.Fits, MRef.size1, MRef.size2, Sel.size, Sel.Valid, Sel.index, true_and]
  refine ⟨?_, ?_, by decide⟩ <;> intro i hi <;> interval_cases i <;> decide

end Ublas
