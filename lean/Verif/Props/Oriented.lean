import Verif.Spec.Oriented
import Verif.Props.ProxyIterDense
/-! # C120: orientation-generic loops visit the elements in storage order -/
namespace Ublas
variable {R : Type}

/-- `begin ()`, `end ()` of an iterator are `find (1, its line, …)` of the matrix. -/
def MIter.Native (X : MIter R) : Prop := ∀ p,
  X.innerBegin .one p = (X.index1 .one p >>= fun k => X.find .two 1 k 0) ∧
  X.innerEnd .one p = (X.index1 .one p >>= fun k => X.find .two 1 k X.size2) ∧
  X.innerBegin .two p = (X.index2 .two p >>= fun k => X.find .one 1 0 k) ∧
  X.innerEnd .two p = (X.index2 .two p >>= fun k => X.find .one 1 X.size1 k)

theorem MIter.Native.dense (dbg : Bool) (o : Orient) (m : Dense R) : (MIter.dense dbg o m).Native := fun _ => ⟨rfl, rfl, rfl, rfl⟩
theorem MIter.Native.trans {X : MIter R} : X.trans.Native := fun _ => ⟨rfl, rfl, rfl, rfl⟩

theorem MIter.Native.indexed (dbg : Bool) (n1 n2 : Nat) (f : Axis → Nat → Nat → Nat → M Nat) (get : Nat → Nat → M R) :
    (MIter.indexed dbg n1 n2 f get).Native := fun _ => ⟨rfl, rfl, rfl, rfl⟩
theorem MIter.Native.compressed (dbg : Bool) (o : Orient) (IB : Nat) (zero : R) (v : CMat R) : (MIter.compressed dbg o IB zero v).Native :=
  fun _ => ⟨rfl, rfl, rfl, rfl⟩
theorem MIter.Native.range (dbg : Bool) {X : MIter R} (r1 r2 : Range) : (X.range dbg r1 r2).Native := fun p =>
  ⟨by simp only [MIter.range, bind_assoc]; rfl, by simp only [MIter.range, bind_assoc]; rfl,
   by simp only [MIter.range, bind_assoc]; rfl, by simp only [MIter.range, bind_assoc]; rfl⟩

/-- The same lines with row and column exchanged. -/
def flipLine (l : List ((Nat × Nat) × R)) : List ((Nat × Nat) × R) := l.map fun x => ((x.1.2, x.1.1), x.2)
def flipLines (T : List (Nat × List ((Nat × Nat) × R))) : List (Nat × List ((Nat × Nat) × R)) := T.map fun l => (l.1, flipLine l.2)

theorem trans_walk (X : MIter R) (ax : Axis) (e : X.Pos) (fuel : Nat) :
    ∀ (p : X.Pos) (l : List ((Nat × Nat) × R)), X.walk ax.other e fuel p = .ok l → X.trans.walk ax e fuel p = .ok (flipLine l) := by
  induction fuel with
  | zero => intro p l h; cases h
  | succ n ih =>
    intro p l h
    unfold MIter.walk at h
    show (X.eq ax.other p e >>= fun b => if b = true then .ok [] else X.index2 ax.other p >>= fun i => X.index1 ax.other p >>= fun j =>
      X.deref ax.other p >>= fun x => X.next ax.other p >>= fun q => X.trans.walk ax e n q >>= fun l => .ok (((i, j), x) :: l)) = _
    rcases hq : X.eq ax.other p e with er | b
    · rw [hq] at h; cases h
    rw [hq] at h
    cases b
    · simp only [bind_ok, Bool.false_eq_true, if_false] at h ⊢
      rcases h1 : X.index1 ax.other p with er | i
      · rw [h1] at h; cases h
      rcases h2 : X.index2 ax.other p with er | j
      · rw [h1, h2] at h; cases h
      rcases h3 : X.deref ax.other p with er | x
      · rw [h1, h2, h3] at h; cases h
      rcases h4 : X.next ax.other p with er | q
      · rw [h1, h2, h3, h4] at h; cases h
      rcases h5 : X.walk ax.other e n q with er | r
      · rw [h1, h2, h3, h4] at h
        simp only [bind_ok, h5] at h
        cases h
      rw [h1, h2, h3, h4] at h
      simp only [bind_ok, h5] at h
      cases h
      have k := ih q r h5
      show (X.trans.walk ax e n q >>= fun l => .ok (((j, i), x) :: l)) = _
      rw [k]
      rfl
    · simp only [bind_ok, if_true] at h ⊢
      cases h; rfl

theorem trans_walkOuter (X : MIter R) (hX : X.Native) (ax : Axis) (e : X.Pos) (fuel : Nat) :
    ∀ (p : X.Pos) (T : List (Nat × List ((Nat × Nat) × R))), X.walkOuter ax.other e fuel p = .ok T →
      X.trans.walkOuter ax e fuel p = .ok (flipLines T) := by
  induction fuel with
  | zero => intro p l h; cases h
  | succ n ih =>
    intro p l h
    unfold MIter.walkOuter at h
    show (X.eq ax.other p e >>= fun b => if b = true then .ok [] else X.trans.indexAlong ax p >>= fun k => X.trans.innerBegin ax p >>= fun ib =>
      X.trans.innerEnd ax p >>= fun ie => X.trans.walk ax.other ie (X.trans.len ax.other + 1) ib >>= fun l => X.next ax.other p >>= fun q =>
        X.trans.walkOuter ax e n q >>= fun r => .ok ((k, l) :: r)) = _
    rcases hq : X.eq ax.other p e with er | b
    · rw [hq] at h; cases h
    rw [hq] at h
    cases b
    · simp only [bind_ok, Bool.false_eq_true, if_false] at h ⊢
      have eA : X.trans.indexAlong ax p = X.indexAlong ax.other p := by cases ax <;> rfl
      have eB : X.trans.innerBegin ax p = X.innerBegin ax.other p := by
        cases ax
        · exact ((hX p).2.2.1).symm
        · exact ((hX p).1).symm
      have eE : X.trans.innerEnd ax p = X.innerEnd ax.other p := by
        cases ax
        · exact ((hX p).2.2.2).symm
        · exact ((hX p).2.1).symm
      have eL : X.trans.len ax.other = X.len ax := by cases ax <;> rfl
      rw [MIter.other_other] at h
      rcases h1 : X.indexAlong ax.other p with er | i
      · rw [h1] at h; cases h
      rcases h2 : X.innerBegin ax.other p with er | j
      · rw [h1, h2] at h; cases h
      rcases h3 : X.innerEnd ax.other p with er | x
      · rw [h1, h2, h3] at h; cases h
      rcases h4 : X.walk ax x (X.len ax + 1) j with er | w
      · rw [h1, h2, h3] at h
        simp only [bind_ok, h4] at h
        cases h
      rcases h5 : X.next ax.other p with er | q
      · rw [h1, h2, h3] at h
        simp only [bind_ok, h4, h5] at h
        cases h
      rcases h6 : X.walkOuter ax.other e n q with er | r
      · rw [h1, h2, h3] at h
        simp only [bind_ok, h4, h5, h6] at h
        cases h
      rw [h1, h2, h3] at h
      simp only [bind_ok, h4, h5, h6] at h
      cases h
      have k := ih q r h6
      have w' := trans_walk X ax.other x (X.len ax + 1) j w (by rw [MIter.other_other]; exact h4)
      rw [eA, eB, eE, h1, h2, h3, eL]
      show (X.trans.walk ax.other x (X.len ax + 1) j >>= fun l =>
        X.trans.walkOuter ax e n q >>= fun r => .ok ((i, l) :: r)) = _
      rw [w']
      show (X.trans.walkOuter ax e n q >>= fun r => .ok ((i, flipLine w) :: r)) = _
      rw [k]
      rfl
    · simp only [bind_ok, if_true] at h ⊢
      cases h; rfl

/-- **C120** (transpose).  Going through `trans (e)` by iterator1 is going through `e` by iterator2, with the indices exchanged (and the other way round), whatever the
matrix. -/
theorem C120_trans (X : MIter R) (hX : X.Native) (ax : Axis) {T : List (Nat × List ((Nat × Nat) × R))} (h : X.traverse ax.other = .ok T) :
    X.trans.traverse ax = .ok (flipLines T) := by
  unfold MIter.traverse at h ⊢
  have eK : X.trans.len ax = X.len ax.other := by cases ax <;> rfl
  have eF : ∀ k l, X.trans.look ax 0 k l = X.look ax.other 0 k l := by intro k l; cases ax <;> rfl
  rw [eF, eF, eK]
  rcases h1 : X.look ax.other 0 0 0 with er | b
  · rw [h1] at h; cases h
  rcases h2 : X.look ax.other 0 (X.len ax.other) 0 with er | e
  · rw [h1, h2] at h; cases h
  rw [h1, h2] at h
  exact trans_walkOuter X hX ax e _ b T h

theorem flip_nested (n k : Nat) (f : Nat → Nat → (Nat × Nat) × R) :
    flipLines (nested n k f) = nested n k fun a b => (((f a b).1.2, (f a b).1.1), (f a b).2) := by
  simp only [flipLines, nested, flipLine, List.map_map, Function.comp_def]

/-- The axis the generic loop uses. -/
theorem traverse_eq (e : OMat R) (tag : DimTag) :
    e.traverse tag = (match tag, e.ori with
      | .major, .row => some (e.it.traverse .one)
      | .major, .col => some (e.it.traverse .two)
      | .minor, .row => some (e.it.traverse .two)
      | .minor, .col => some (e.it.traverse .one)
      | _, _ => none) := by
  rcases e with ⟨o, X⟩
  cases tag <;> cases o <;> rfl

/-- The general statement behind C120: what an expression's iterators enumerate when element `(a, b)` in storage order is `x a b`. -/
structure OMat.Lays (e : OMat R) (x : Nat → Nat → R) : Prop where
  native : e.it.Native
  known : e.ori ≠ .unknown
  major : e.traverse .major = some (.ok (nested (e.sizeTag .major) (e.sizeTag .minor) fun a b => (e.ori.place a b, x a b)))
  minor : e.traverse .minor = some (.ok (nested (e.sizeTag .minor) (e.sizeTag .major) fun b a => (e.ori.place a b, x a b)))
  reads : ∀ a b, a < e.sizeTag .major → b < e.sizeTag .minor → e.it.at_ (e.ori.place a b).1 (e.ori.place a b).2 = .ok (x a b)

theorem OMat.Lays.trans {e : OMat R} {x : Nat → Nat → R} (h : e.Lays x) : e.trans.Lays x := by
  rcases e with ⟨o, X⟩
  obtain ⟨hn, hk, hM, hm, hr⟩ := h
  rw [traverse_eq] at hM hm
  cases o with
  | unknown => exact absurd rfl hk
  | row =>
    refine ⟨.trans, by simp [OMat.trans, Ori.swap], ?_, ?_, hr⟩ <;> rw [traverse_eq]
    · exact congrArg some ((C120_trans X hn .two (Option.some.inj hM)).trans (by rw [flip_nested]; rfl))
    · exact congrArg some ((C120_trans X hn .one (Option.some.inj hm)).trans (by rw [flip_nested]; rfl))
  | col =>
    refine ⟨.trans, by simp [OMat.trans, Ori.swap], ?_, ?_, hr⟩ <;> rw [traverse_eq]
    · exact congrArg some ((C120_trans X hn .one (Option.some.inj hM)).trans (by rw [flip_nested]; rfl))
    · exact congrArg some ((C120_trans X hn .two (Option.some.inj hm)).trans (by rw [flip_nested]; rfl))

theorem dense_lays (dbg : Bool) (o : Orient) (m : Dense R) (hw : m.WF) (h1 : 0 < m.size1) (h2 : 0 < m.size2) (b1 : m.size1 < 2 ^ 64)
    (b2 : m.size2 < 2 ^ 64) (x : Nat → Nat → R)
    (hx : ∀ a b, a < (OMat.dense dbg o m).sizeTag .major → b < (OMat.dense dbg o m).sizeTag .minor →
      m.data[a * (OMat.dense dbg o m).sizeTag .leading + b]? = some (x a b)) :
    (OMat.dense dbg o m).Lays x := by
  cases o with
  | row =>
    have ha : ∀ i j, i < m.size1 → j < m.size2 → m.get dbg .row i j = .ok (x i j) := by
      intro i j hi hj
      have := hx i j hi hj
      simp only [Dense.get, Orient.element, check_true hi, check_true hj, bind_ok, pure_eq_ok, Orient.elementRaw]
      exact rd_eq_ok.2 this
    obtain ⟨p, q⟩ := C83_dense_views_partial dbg .row m hw x ha b1 b2 .base trivial
    refine ⟨.dense _ _ _, by simp [OMat.dense, Orient.ori], ?_, ?_, ha⟩ <;> rw [traverse_eq]
    · exact congrArg some (p h2)
    · exact congrArg some (q h1)
  | col =>
    have ha : ∀ i j, i < m.size1 → j < m.size2 → m.get dbg .col i j = .ok (x j i) := by
      intro i j hi hj
      have := hx j i hj hi
      simp only [Dense.get, Orient.element, check_true hi, check_true hj, bind_ok, pure_eq_ok, Orient.elementRaw]
      rw [Nat.add_comm]
      exact rd_eq_ok.2 this
    obtain ⟨p, q⟩ := C83_dense_views_partial dbg .col m hw (fun i j => x j i) ha b1 b2 .base trivial
    refine ⟨.dense _ _ _, by simp [OMat.dense, Orient.ori], ?_, ?_, fun a b h h' => ha b a h' h⟩ <;> rw [traverse_eq]
    · exact congrArg some (q h1)
    · exact congrArg some (p h2)

theorem transN_lays {e : OMat R} {x : Nat → Nat → R} (h : e.Lays x) : ∀ n, (e.transN n).Lays x
  | 0 => h
  | n + 1 => (transN_lays h n).trans

theorem trans_size (f : OMat R) (h : f.ori ≠ .unknown) (t : DimTag) : f.trans.sizeTag t = f.sizeTag t ∧ f.trans.ori ≠ .unknown := by
  rcases f with ⟨o, X⟩
  cases o with
  | unknown => exact absurd rfl h
  | row => exact ⟨by cases t <;> rfl, by simp [OMat.trans, Ori.swap]⟩
  | col => exact ⟨by cases t <;> rfl, by simp [OMat.trans, Ori.swap]⟩

theorem transN_size (e : OMat R) (h : e.ori ≠ .unknown) (n : Nat) :
    (∀ t, (e.transN n).sizeTag t = e.sizeTag t) ∧ (e.transN n).ori ≠ .unknown := by
  induction n with
  | zero => exact ⟨fun _ => rfl, h⟩
  | succ n ih =>
    obtain ⟨i1, i2⟩ := ih
    exact ⟨fun t => (trans_size _ i2 t).1.trans (i1 t), (trans_size _ i2 .major).2⟩

theorem flatMap_range (f : Nat → R) (N K : Nat) :
    ((List.range N).flatMap fun a => (List.range K).map fun b => f (a * K + b)) = (List.range (N * K)).map f := by
  induction N with
  | zero => simp
  | succ N ih =>
    rw [List.range_succ, List.flatMap_append, ih, Nat.succ_mul, List.range_add, List.map_append, List.map_map]
    simp [Function.comp_def]

/-- The offset `a * size<leading> + b` lies in `data ()`; every element is at one. -/
theorem major_offset (dbg : Bool) (o : Orient) (m : Dense R) (hw : m.WF) {a b : Nat} (ha : a < (OMat.dense dbg o m).sizeTag .major)
    (hb : b < (OMat.dense dbg o m).sizeTag .minor) : a * (OMat.dense dbg o m).sizeTag .leading + b < m.data.length := by
  rw [hw]
  cases o with
  | row =>
    have ha : a < m.size1 := ha
    have hb : b < m.size2 := hb
    show a * m.size2 + b < _
    nlinarith
  | col =>
    have ha : a < m.size2 := ha
    have hb : b < m.size1 := hb
    show a * m.size1 + b < _
    nlinarith

/-- **C120** (storage order).  Let `m` be a non-empty dense matrix of either orientation and let `e` be `m`, `trans (m)`, `trans (trans (m))`, … .
The generic nested loop over `begin<tag::major> (e)` … `end<tag::major> (e)` goes through exactly `size<tag::major> (e)` lines of
`size<tag::minor> (e)` elements and meets the elements of `data ()` one after the other: element `b` of line `a` is the one at offset
`a * size<tag::leading> (e) + b`, it is `e (i, j)` for the indices `i`, `j` it reports, and these are `(a, b)` for a row-major, `(b, a)` for a
column-major `e`.  The loop over `tag::minor` goes through the same elements, line and place exchanged. -/
theorem C120_storage_order (dbg : Bool) (o : Orient) (m : Dense R) (hw : m.WF) (h1 : 0 < m.size1) (h2 : 0 < m.size2) (b1 : m.size1 < 2 ^ 64)
    (b2 : m.size2 < 2 ^ 64) (n : Nat) (e : OMat R) (he : e = (OMat.dense dbg o m).transN n) :
    ∃ (x : Nat → Nat → R) (T : List (Nat × List ((Nat × Nat) × R))),
      e.traverse .major = some (.ok T) ∧
      T = nested (e.sizeTag .major) (e.sizeTag .minor) (fun a b => (e.ori.place a b, x a b)) ∧
      met T = m.data ∧
      e.traverse .minor = some (.ok (nested (e.sizeTag .minor) (e.sizeTag .major) fun b a => (e.ori.place a b, x a b))) ∧
      ∀ a b, a < e.sizeTag .major → b < e.sizeTag .minor →
        m.data[a * e.sizeTag .leading + b]? = some (x a b) ∧ e.it.at_ (e.ori.place a b).1 (e.ori.place a b).2 = .ok (x a b) := by
  subst he
  have hpos : 0 < m.data.length := by rw [hw]; exact Nat.mul_pos h1 h2
  have ho : (OMat.dense dbg o m).ori ≠ .unknown := by cases o <;> simp [OMat.dense, Orient.ori]
  let f : Nat → R := fun k => (m.data[k]?).getD m.data[0]
  let x : Nat → Nat → R := fun a b => f (a * (OMat.dense dbg o m).sizeTag .leading + b)
  have hx : ∀ a b, a < (OMat.dense dbg o m).sizeTag .major → b < (OMat.dense dbg o m).sizeTag .minor →
      m.data[a * (OMat.dense dbg o m).sizeTag .leading + b]? = some (x a b) := by
    intro a b ha hb
    have := major_offset dbg o m hw ha hb
    simp only [x, f]
    rw [List.getElem?_eq_getElem this]; rfl
  have L := transN_lays (dense_lays dbg o m hw h1 h2 b1 b2 x hx) n
  obtain ⟨hs, _⟩ := transN_size (OMat.dense dbg o m) ho n
  refine ⟨x, _, L.major, rfl, ?_, L.minor, fun a b ha hb => ⟨?_, L.reads a b ha hb⟩⟩
  · have e1 : met (nested ((OMat.dense dbg o m).sizeTag .major) ((OMat.dense dbg o m).sizeTag .minor)
        fun a b => (((OMat.dense dbg o m).transN n).ori.place a b, x a b)) =
        (List.range ((OMat.dense dbg o m).sizeTag .major)).flatMap fun a =>
          (List.range ((OMat.dense dbg o m).sizeTag .minor)).map fun b => f (a * (OMat.dense dbg o m).sizeTag .minor + b) := by
      have : (OMat.dense dbg o m).sizeTag .leading = (OMat.dense dbg o m).sizeTag .minor := by cases o <;> rfl
      simp only [met, nested, List.flatMap_map, List.map_map, Function.comp_def, x, this]
    rw [hs, hs, e1, flatMap_range]
    have hl : (OMat.dense dbg o m).sizeTag .major * (OMat.dense dbg o m).sizeTag .minor = m.data.length := by
      rw [hw]
      cases o
      · rfl
      · exact Nat.mul_comm _ _
    rw [hl]
    apply List.ext_getElem (by simp)
    intro k hk hk'
    simp only [List.getElem_map, List.getElem_range, f]
    rw [List.getElem?_eq_getElem hk']; rfl
  · rw [hs] at ha hb ⊢
    exact hx a b ha hb

theorem met_flip (T : List (Nat × List ((Nat × Nat) × R))) : met (flipLines T) = met T := by
  simp only [met, flipLines, List.flatMap_map, flipLine, List.map_map, Function.comp_def]

theorem walk_stop (X : MIter R) (ax : Axis) {p e : X.Pos} (h : X.eq ax p e = .ok true) (n : Nat) : X.walk ax e (n + 1) p = .ok [] := by
  unfold MIter.walk; rw [h]; rfl
theorem walkOuter_stop (X : MIter R) (ax : Axis) {p e : X.Pos} (h : X.eq ax p e = .ok true) (n : Nat) : X.walkOuter ax e (n + 1) p = .ok [] := by
  unfold MIter.walkOuter; rw [h]; rfl
theorem walkOuter_step (X : MIter R) (ax : Axis) {p q e b : X.Pos} {n i : Nat} {T : List (Nat × List ((Nat × Nat) × R))}
    (h0 : X.eq ax p e = .ok false) (hi : X.indexAlong ax p = .ok i) (h1 : X.innerBegin ax p = .ok b) (h2 : X.innerEnd ax p = .ok b)
    (h3 : X.eq ax.other b b = .ok true) (h4 : X.next ax p = .ok q) (hT : X.walkOuter ax e n q = .ok T) :
    X.walkOuter ax e (n + 1) p = .ok ((i, []) :: T) := by
  unfold MIter.walkOuter
  rw [h0]
  simp only [bind_ok, Bool.false_eq_true, if_false]
  rw [hi, h1, h2]
  simp only [bind_ok]
  rw [walk_stop X ax.other h3, h4]
  simp only [bind_ok]
  rw [hT]
  rfl

theorem dense_eq (dbg : Bool) (o : Orient) (m : Dense R) (ax : Axis) {p q : Nat} (h : p = q) : (MIter.dense dbg o m).eq ax p q = .ok true :=
  congrArg Except.ok (decide_eq_true h)

theorem outer_nothing (dbg : Bool) (o : Orient) (m : Dense R) (ax : Axis) (e : Nat)
    (hs : ∀ p : Nat, (MIter.dense dbg o m).next ax p = .ok (p + 1))
    (hb : ∀ p : Nat, p < e → ∃ q : Nat, (MIter.dense dbg o m).innerBegin ax p = .ok q ∧ (MIter.dense dbg o m).innerEnd ax p = .ok q) (k : Nat) :
    ∀ p : Nat, p + k = e → ∀ fuel, k < fuel → ∃ T, (MIter.dense dbg o m).walkOuter ax e fuel p = .ok T ∧ met T = [] := by
  induction k with
  | zero =>
    intro p hp fuel hf
    obtain ⟨g, rfl⟩ : ∃ g, fuel = g + 1 := ⟨fuel - 1, by omega⟩
    exact ⟨[], walkOuter_stop _ _ (dense_eq dbg o m ax (by omega)) _, rfl⟩
  | succ k ih =>
    intro p hp fuel hf
    obtain ⟨g, rfl⟩ : ∃ g, fuel = g + 1 := ⟨fuel - 1, by omega⟩
    obtain ⟨q, hq1, hq2⟩ := hb p (by omega)
    obtain ⟨T, hT, hm⟩ := ih (p + 1) (by omega) g (by omega)
    have h0 : (MIter.dense dbg o m).eq ax p e = .ok false := congrArg Except.ok (decide_eq_false (by omega))
    obtain ⟨i, hi⟩ : ∃ i, (MIter.dense dbg o m).indexAlong ax p = .ok i := by cases ax <;> exact ⟨_, rfl⟩
    exact ⟨(i, []) :: T, walkOuter_step _ _ h0 hi hq1 hq2 (dense_eq dbg o m _ rfl) (hs p) hT, by simpa [met] using hm⟩

theorem traverse_of (X : MIter R) (ax : Axis) {b e : X.Pos} (hb : X.look ax 0 0 0 = .ok b) (he : X.look ax 0 (X.len ax) 0 = .ok e)
    (h : ∃ T, X.walkOuter ax e (X.len ax + 1) b = .ok T ∧ met T = []) : ∃ T, X.traverse ax = .ok T ∧ met T = [] := by
  obtain ⟨T, hT, hm⟩ := h
  refine ⟨T, ?_, hm⟩
  unfold MIter.traverse
  rw [hb, he]
  exact hT

theorem find_at (dbg : Bool) (o : Orient) (m : Dense R) {i j k : Nat} (hi : i ≤ m.size1) (hj : j ≤ m.size2)
    (hk : o.elementRaw i m.size1 j m.size2 = k) : DenseIter.find dbg o m i j = .ok k :=
  (address_ok dbg o hi hj).trans (congrArg Except.ok hk)

theorem dense_nothing (dbg : Bool) (o : Orient) (m : Dense R) (h : m.size1 = 0 ∨ m.size2 = 0) (ax : Axis) :
    ∃ T, (MIter.dense dbg o m).traverse ax = .ok T ∧ met T = [] := by
  have hp0 : m.size1 * m.size2 = 0 := by rcases h with h | h <;> simp [h]
  have hstart : o.elementRaw 0 m.size1 0 m.size2 = 0 := by cases o <;> simp [Orient.elementRaw]
  have hb : (MIter.dense dbg o m).look ax 0 0 0 = .ok (0 : Nat) := by
    cases ax <;> exact find_at dbg o m (Nat.zero_le _) (Nat.zero_le _) hstart
  cases o <;> cases ax
  · have he : (MIter.dense dbg .row m).look .one 0 ((MIter.dense dbg .row m).len .one) 0 = .ok (0 : Nat) :=
      find_at dbg .row m (Nat.le_refl _) (Nat.zero_le _) (show m.size1 * m.size2 + 0 = 0 by rw [hp0])
    exact traverse_of _ _ hb he ⟨[], walkOuter_stop _ _ (dense_eq dbg .row m _ rfl) _, rfl⟩
  · have he : (MIter.dense dbg .row m).look .two 0 ((MIter.dense dbg .row m).len .two) 0 = .ok m.size2 :=
      find_at dbg .row m (Nat.zero_le _) (Nat.le_refl _) (show 0 * m.size2 + m.size2 = m.size2 by omega)
    refine traverse_of _ _ hb he (outer_nothing dbg .row m .two m.size2 (fun _ => rfl) ?_ m.size2 0 (by omega) _ (Nat.lt_succ_self _))
    intro p hp
    have h1 : m.size1 = 0 := by omega
    have hlt : Orient.row.indexJ p m.size1 m.size2 ≤ m.size2 := by
      simp only [Orient.indexJ]; split
      · exact Nat.le_of_lt (Nat.mod_lt _ (by omega))
      · omega
    exact ⟨_, address_ok dbg .row (Nat.zero_le _) hlt, find_at dbg .row m (Nat.le_refl _) hlt (by rw [h1])⟩
  · have he : (MIter.dense dbg .col m).look .one 0 ((MIter.dense dbg .col m).len .one) 0 = .ok m.size1 :=
      find_at dbg .col m (Nat.le_refl _) (Nat.zero_le _) (show m.size1 + 0 * m.size1 = m.size1 by omega)
    refine traverse_of _ _ hb he (outer_nothing dbg .col m .one m.size1 (fun _ => rfl) ?_ m.size1 0 (by omega) _ (Nat.lt_succ_self _))
    intro p hp
    have h1 : m.size2 = 0 := by omega
    have hlt : Orient.col.indexI p m.size1 m.size2 ≤ m.size1 := by
      simp only [Orient.indexI]; split
      · exact Nat.le_of_lt (Nat.mod_lt _ (by omega))
      · omega
    exact ⟨_, address_ok dbg .col hlt (Nat.zero_le _), find_at dbg .col m hlt (Nat.le_refl _) (by rw [h1])⟩
  · have he : (MIter.dense dbg .col m).look .two 0 ((MIter.dense dbg .col m).len .two) 0 = .ok (0 : Nat) :=
      find_at dbg .col m (Nat.zero_le _) (Nat.le_refl _) (show 0 + m.size2 * m.size1 = 0 by rw [Nat.mul_comm, hp0])
    exact traverse_of _ _ hb he ⟨[], walkOuter_stop _ _ (dense_eq dbg .col m _ rfl) _, rfl⟩

/-- **C120** (empty).  For a matrix without rows or columns (and its transposes) both generic loops terminate and meet nothing. -/
theorem C120_empty (dbg : Bool) (o : Orient) (m : Dense R) (h : m.size1 = 0 ∨ m.size2 = 0) (n : Nat) (t : DimTag) (ht : t ≠ .leading) :
    ∃ T, ((OMat.dense dbg o m).transN n).traverse t = some (.ok T) ∧ met T = [] := by
  have key : ∀ n, ((OMat.dense dbg o m).transN n).it.Native ∧ ((OMat.dense dbg o m).transN n).ori ≠ .unknown ∧
      ∀ ax, ∃ T, ((OMat.dense dbg o m).transN n).it.traverse ax = .ok T ∧ met T = [] := by
    intro n
    induction n with
    | zero => exact ⟨.dense _ _ _, by cases o <;> simp [OMat.transN, OMat.dense, Orient.ori], dense_nothing dbg o m h⟩
    | succ n ih =>
      obtain ⟨i1, i2, i3⟩ := ih
      refine ⟨.trans, (trans_size _ i2 .major).2, fun ax => ?_⟩
      obtain ⟨T, hT, hm⟩ := i3 ax.other
      exact ⟨_, C120_trans _ i1 ax hT, (met_flip T).trans hm⟩
  obtain ⟨_, k2, k3⟩ := key n
  rw [traverse_eq]
  generalize (OMat.dense dbg o m).transN n = e at k2 k3
  rcases e with ⟨oo, X⟩
  have g : ∀ ax, ∃ T, some (X.traverse ax) = some (.ok T) ∧ met T = [] := fun ax => by
    obtain ⟨T, hT, hm⟩ := k3 ax
    exact ⟨T, congrArg some hT, hm⟩
  cases oo with
  | unknown => exact absurd rfl k2
  | row => cases t <;> first | exact g _ | exact absurd rfl ht
  | col => cases t <;> first | exact g _ | exact absurd rfl ht

/-- **C120** (sizes).  `num_rows` is `size<1>`, `num_columns` is `size<2>`; the major and minor sizes are the two dimensions, in the order the
orientation says (an expression of unknown orientation counts as row-major); transposing exchanges the dimensions and keeps the major and
minor sizes; the leading dimension is the length of a line. -/
theorem C120_sizes (e : OMat R) :
    e.sizeDim 1 = some e.numRows ∧ e.sizeDim 2 = some e.numColumns ∧
    (e.sizeTag .major, e.sizeTag .minor) = (match e.ori with | .col => (e.numColumns, e.numRows) | _ => (e.numRows, e.numColumns)) ∧
    e.sizeTag .leading = e.sizeTag .minor ∧
    e.trans.numRows = e.numColumns ∧ e.trans.numColumns = e.numRows ∧
    (e.ori ≠ .unknown → ∀ t, e.trans.sizeTag t = e.sizeTag t) := by
  refine ⟨rfl, rfl, ?_, ?_, rfl, rfl, fun h t => (trans_size e h t).1⟩ <;> rcases e with ⟨o, X⟩ <;> cases o <;> rfl

/-- **C120** (which programs compile).  The generic loops exist for the major and the minor dimension of every expression of known orientation,
and only there. -/
theorem C120_defined (e : OMat R) (t : DimTag) : (e.traverse t).isSome ↔ e.ori ≠ .unknown ∧ t ≠ .leading := by
  rw [traverse_eq]
  rcases e with ⟨o, X⟩
  cases t <;> cases o <;> simp

/-- **C120** (views).  The same loops over a (nested) proxy of a dense matrix meet every element of the proxy once, line by line. -/
theorem C120_views (dbg : Bool) (o : Orient) (m : Dense R) (hw : m.WF) (a : Nat → Nat → R)
    (ha : ∀ i j, i < m.size1 → j < m.size2 → m.get dbg o i j = .ok (a i j)) (b1 : m.size1 < 2 ^ 64) (b2 : m.size2 < 2 ^ 64)
    (p : MRef) (hp : p.Fits m.size1 m.size2) (h1 : 0 < p.size1 m.size1) (h2 : 0 < p.size2 m.size2) (e : OMat R)
    (he : e = (OMat.dense dbg o m).view dbg p) :
    e.ori = o.ori ∧ e.numRows = p.size1 m.size1 ∧ e.numColumns = p.size2 m.size2 ∧
    e.traverse .major = some (.ok (nested (e.sizeTag .major) (e.sizeTag .minor) fun u v =>
      (e.ori.place u v, a (p.index (e.ori.place u v).1 (e.ori.place u v).2).1 (p.index (e.ori.place u v).1 (e.ori.place u v).2).2))) ∧
    e.traverse .minor = some (.ok (nested (e.sizeTag .minor) (e.sizeTag .major) fun v u =>
      (e.ori.place u v, a (p.index (e.ori.place u v).1 (e.ori.place u v).2).1 (p.index (e.ori.place u v).1 (e.ori.place u v).2).2))) := by
  subst he
  obtain ⟨P, Q⟩ := C83_dense_views_partial dbg o m hw a ha b1 b2 p hp
  obtain ⟨_, _, k4, k5, _⟩ := MIter.view_stands (MIter.dense_stands dbg o m hw ha) (MIter.dense_reads dbg o m ha) b1 b2 dbg p hp
  replace k4 : ((MIter.dense dbg o m).view dbg p).size1 = p.size1 m.size1 := k4
  replace k5 : ((MIter.dense dbg o m).view dbg p).size2 = p.size2 m.size2 := k5
  refine ⟨rfl, k4, k5, ?_, ?_⟩ <;> rw [traverse_eq] <;> cases o
  · refine congrArg some ((P h2).trans ?_)
    show _ = Except.ok (nested ((MIter.dense dbg .row m).view dbg p).size1 ((MIter.dense dbg .row m).view dbg p).size2 _)
    rw [k4, k5]; rfl
  · refine congrArg some ((Q h1).trans ?_)
    show _ = Except.ok (nested ((MIter.dense dbg .col m).view dbg p).size2 ((MIter.dense dbg .col m).view dbg p).size1 _)
    rw [k4, k5]; rfl
  · refine congrArg some ((Q h1).trans ?_)
    show _ = Except.ok (nested ((MIter.dense dbg .row m).view dbg p).size2 ((MIter.dense dbg .row m).view dbg p).size1 _)
    rw [k4, k5]; rfl
  · refine congrArg some ((P h2).trans ?_)
    show _ = Except.ok (nested ((MIter.dense dbg .col m).view dbg p).size1 ((MIter.dense dbg .col m).view dbg p).size2 _)
    rw [k4, k5]; rfl

/-- A column-major 2×3 matrix: the major loop walks the columns, the storage in order; so does that of its transpose, whose lines are rows. -/
example : (OMat.dense true .col (⟨2, 3, [1, 2, 3, 4, 5, 6]⟩ : Dense Int)).traverse .major =
      some (.ok [(0, [((0, 0), 1), ((1, 0), 2)]), (1, [((0, 1), 3), ((1, 1), 4)]), (2, [((0, 2), 5), ((1, 2), 6)])]) ∧
    (OMat.dense true .col (⟨2, 3, [1, 2, 3, 4, 5, 6]⟩ : Dense Int)).trans.traverse .major =
      some (.ok [(0, [((0, 0), 1), ((0, 1), 2)]), (1, [((1, 0), 3), ((1, 1), 4)]), (2, [((2, 0), 5), ((2, 1), 6)])]) ∧
    (OMat.dense true .col (⟨2, 3, [1, 2, 3, 4, 5, 6]⟩ : Dense Int)).sizeTag .leading = 2 ∧
    (⟨2, 3, [1, 2, 3, 4, 5, 6]⟩ : Dense Int).WF := ⟨rfl, rfl, rfl, rfl⟩

/-- The leading dimension of a proxy is that of the proxy, not the distance between its lines in storage: a 2×2 window of a row-major matrix with
three columns. -/
example : ((OMat.dense true .row (⟨2, 3, [1, 2, 3, 4, 5, 6]⟩ : Dense Int)).view true (.sel .base (.range ⟨0, 2⟩) (.range ⟨1, 2⟩))).sizeTag .leading = 2 ∧
    ((OMat.dense true .row (⟨2, 3, [1, 2, 3, 4, 5, 6]⟩ : Dense Int)).view true (.sel .base (.range ⟨0, 2⟩) (.range ⟨1, 2⟩))).traverse .major =
      some (.ok [(0, [((0, 0), 2), ((0, 1), 3)]), (1, [((1, 0), 5), ((1, 1), 6)])]) := ⟨rfl, rfl⟩

end Ublas
