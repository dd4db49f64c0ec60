import Verif.Props.Axpy
/-! # C33: axpy_prod with a compressed or coordinate matrix -/
namespace Ublas
open Finset
variable {σ R : Type} [CommRing R] [DecidableEq R]
namespace Axpy
open SparseSpec

/-- Element (k, l) by major and minor index; an element that is not stored is zero. -/
def cell (o : Orient) (sp : CMatS R) (k l : Nat) : R := (sp.val (o.indexM k l, o.indexm k l)).getD 0

/-- The stored cells of a line: `len` of them, from cell `b` on, with minor indices `m n`, summing to the line. -/
theorem segment {o : Orient} {A : CMat R} {sp : CMatS R} (h : CMat.Inv o 0 A sp) {k : Nat} (hk : k + 1 < A.filled1) (dbg : Bool) :
    ∃ b e, rd dbg A.idx1 k = .ok b ∧ rd dbg A.idx1 (k + 1) = .ok e ∧ k < o.sizeM sp.rows sp.cols ∧
      ∃ (m : Nat → Nat) (y : Nat → R), (∀ n, n < e - b → rd dbg A.idx2 (b + n) = .ok (m n) ∧ rd dbg A.val (b + n) = .ok (y n) ∧ m n < o.sizem sp.rows sp.cols) ∧
        ∀ f : Nat → R, ∑ n ∈ range (e - b), y n * f (m n) = ∑ l ∈ range (o.sizem sp.rows sp.cols), cell o sp k l * f l := by
  obtain ⟨_, _, _, _, hout, off, o1, o2, o3, o4, o5, o6, o7, o8, o9, o10, o11, o12, o13⟩ := h.observes dbg o 0 0
  have hko : k < sp.opened := by omega
  have hMM : ∀ l, o.indexM (o.indexM k l) (o.indexm k l) = k ∧ o.indexm (o.indexM k l) (o.indexm k l) = l := by intro l; cases o <;> exact ⟨rfl, rfl⟩
  have hcells : ∀ n, n < off (k + 1) - off k → ∃ m y, A.idx2[off k + n]? = some m ∧ A.val[off k + n]? = some y ∧ sp.val (o.indexM k m, o.indexm k m) = some y := by
    intro n hn
    obtain ⟨m, y, q1, q2, q3⟩ := o11 k (off k + n) hko (by omega) (by omega)
    exact ⟨m, y, q1, q2, q3⟩
  have hbound : ∀ m y, sp.val (o.indexM k m, o.indexm k m) = some y → m < o.sizem sp.rows sp.cols := by
    intro m y hy
    by_contra hc
    have : ¬ (o.indexM k m < sp.rows ∧ o.indexm k m < sp.cols) := by cases o <;> simp only [Orient.indexM, Orient.indexm, Orient.sizem] at hc ⊢ <;> omega
    rw [hout _ _ this] at hy; cases hy
  have hc' : ∀ n, ∃ p : Nat × R, n < off (k + 1) - off k → A.idx2[off k + n]? = some p.1 ∧ A.val[off k + n]? = some p.2 ∧ sp.val (o.indexM k p.1, o.indexm k p.1) = some p.2 := by
    intro n
    by_cases hn : n < off (k + 1) - off k
    · obtain ⟨m, y, q⟩ := hcells n hn
      exact ⟨(m, y), fun _ => q⟩
    · exact ⟨(0, 0), fun h => absurd h hn⟩
  choose p hp using hc'
  refine ⟨off k, off (k + 1), rd_eq_ok.2 (o10 k (by omega)), rd_eq_ok.2 (o10 (k + 1) (by omega)), by omega, fun n => (p n).1, fun n => (p n).2, fun n hn => ?_, fun f => ?_⟩
  · obtain ⟨q1, q2, q3⟩ := hp n hn
    exact ⟨rd_eq_ok.2 q1, rd_eq_ok.2 q2, hbound _ _ q3⟩
  · have hinj : ∀ n n', n < n' → n' < off (k + 1) - off k → (p n).1 < (p n').1 := fun n n' hn hn' =>
      o12 k (off k + n) (off k + n') _ _ hko (by omega) (by omega) (by omega) (hp n (by omega)).1 (hp n' hn').1
    have h1 : ∑ n ∈ range (off (k + 1) - off k), (p n).2 * f (p n).1 = ∑ n ∈ range (off (k + 1) - off k), cell o sp k (p n).1 * f (p n).1 := by
      refine sum_congr rfl fun n hn => ?_
      rw [cell, (hp n (by simpa using hn)).2.2]; rfl
    rw [h1, ← sum_image (s := range (off (k + 1) - off k)) (g := fun n => (p n).1) (f := fun l => cell o sp k l * f l)]
    · refine sum_subset (fun l hl => ?_) fun l hl hn => ?_
      · obtain ⟨n, hn, rfl⟩ := mem_image.1 hl
        exact mem_range.2 (hbound _ _ (hp n (by simpa using hn)).2.2)
      · have hz : cell o sp k l = 0 := by
          unfold cell
          cases hv : sp.val (o.indexM k l, o.indexm k l) with
          | none => rfl
          | some y =>
            exfalso
            obtain ⟨q1, n, q2, q3, q4, q5⟩ := o13 _ _ _ hv
            rw [(hMM l).1] at q2 q3
            rw [(hMM l).2] at q4
            refine hn (mem_image.2 ⟨n - off k, mem_range.2 (by omega), ?_⟩)
            have := (hp (n - off k) (by omega)).1
            rw [show off k + (n - off k) = n by omega, q4] at this
            simpa using (Option.some.inj this).symm
        rw [hz, zero_mul]
    · intro n hn n' hn' e
      simp only [coe_range, Set.mem_Iio] at hn hn'
      simp only at e
      rcases Nat.lt_trichotomy n n' with c | c | c
      · have := hinj n n' c hn'; omega
      · exact c
      · have := hinj n' n c hn; omega

/-- A line that has not been opened is zero. -/
theorem closed {o : Orient} {A : CMat R} {sp : CMatS R} (h : CMat.Inv o 0 A sp) {k : Nat} (hk : ¬ k + 1 < A.filled1) (l : Nat) : cell o sp k l = 0 := by
  obtain ⟨_, _, _, _, hout, off, o1, o2, o3, o4, o5, o6, o7, o8, o9, o10, o11, o12, o13⟩ := h.observes false o 0 0
  unfold cell
  cases hv : sp.val (o.indexM k l, o.indexm k l) with
  | none => rfl
  | some y =>
    have := (o13 _ _ _ hv).1
    have hMM : o.indexM (o.indexM k l) (o.indexm k l) = k := by cases o <;> rfl
    rw [hMM] at this
    omega

theorem filled1_le {o : Orient} {A : CMat R} {sp : CMatS R} (h : CMat.Inv o 0 A sp) : A.filled1 - 1 ≤ o.sizeM sp.rows sp.cols := by
  obtain ⟨_, _, _, _, hout, off, o1, o2, o3, o4, o5, _⟩ := h.observes false o 0 0
  omega

theorem compressedMajor_holds {n m : Nat} {V : Acc σ Nat R} {H : σ → (Nat → R) → Prop} (hV : V.Lawful (· < n) H) (dbg : Bool) {o : Orient} {A : CMat R} {sp : CMatS R}
    (h : CMat.Inv o 0 A sp) (hn : o.sizeM sp.rows sp.cols = n) (hm : o.sizem sp.rows sp.cols = m) {x : Seq R} {v : Nat → R} (hx : x.Presents m v) {s : σ} {w : Nat → R} (hs : H s w) :
    ∃ s', compressedMajor dbg A x V s = .ok s' ∧ H s' (fun i => w i + ∑ k ∈ range (A.filled1 - 1), if i = k then dot m (cell o sp k) v else 0) := by
  refine loop_add (g := fun k i => if i = k then dot m (cell o sp k) v else 0) ?_ hs
  intro k s w hk hs
  obtain ⟨b, e, r1, r2, r3, mn, y, hcell, hsum⟩ := segment h (k := k) (by omega) dbg
  rw [hn] at r3
  rw [hm] at hsum hcell
  obtain ⟨t, et, ht⟩ := loop_inv (n := e - b) (s := w k) (f := fun n t => do
      let a ← rd dbg A.val (b + n)
      let j ← rd dbg A.idx2 (b + n)
      let y ← x.at_ j
      .ok (t + a * y)) (fun k' t => t = w k + ∑ n ∈ range k', y n * v (mn n)) (by simp) (by
    intro k' t hk' ht
    obtain ⟨q1, q2, q3⟩ := hcell k' hk'
    refine ⟨t + y k' * v (mn k'), by simp only [q1, q2, hx.at_ _ q3, bind_ok], ?_⟩
    rw [ht, sum_range_succ, add_assoc])
  rw [hsum] at ht
  obtain ⟨s', e', h'⟩ := hV.set s w hs k r3 t
  refine ⟨s', by simp only [r1, r2, bind_ok, hV.get s w hs k r3, et, e'], ?_⟩
  convert h' using 2 with i
  rw [Function.update_apply]
  by_cases hi : i = k
  · simp [hi, ht, dot]
  · simp [hi]

theorem compressedMinor_holds {n m : Nat} {V : Acc σ Nat R} {H : σ → (Nat → R) → Prop} (hV : V.Lawful (· < n) H) (dbg : Bool) {o : Orient} {A : CMat R} {sp : CMatS R}
    (h : CMat.Inv o 0 A sp) (hm : o.sizeM sp.rows sp.cols = m) (hn : o.sizem sp.rows sp.cols = n) {x : Seq R} {v : Nat → R} (hx : x.Presents m v) {s : σ} {w : Nat → R} (hs : H s w) :
    ∃ s', compressedMinor dbg A x V s = .ok s' ∧ H s' (fun i => w i + ∑ k ∈ range (A.filled1 - 1), ∑ l ∈ range n, cell o sp k l * if i = l then v k else 0) := by
  refine loop_add (g := fun k i => ∑ l ∈ range n, cell o sp k l * if i = l then v k else 0) ?_ hs
  intro k s w hk hs
  obtain ⟨b, e, r1, r2, r3, mn, y, hcell, hsum⟩ := segment h (k := k) (by omega) dbg
  rw [hm] at r3
  rw [hn] at hsum hcell
  obtain ⟨s', e', h'⟩ := loop_add (Rep := H) (n := e - b) (s := s) (w := w) (f := fun n s => do
      let i ← rd dbg A.idx2 (b + n)
      let a ← rd dbg A.val (b + n)
      let y ← x.at_ k
      V.add s i (a * y)) (g := fun n' i => y n' * if i = mn n' then v k else 0) (by
    intro k' s w hk' hs
    obtain ⟨q1, q2, q3⟩ := hcell k' hk'
    obtain ⟨s', e', h'⟩ := hV.add hs q3 (y k' * v k)
    refine ⟨s', by simp only [q1, q2, hx.at_ _ r3, bind_ok, e'], ?_⟩
    simpa using h') hs
  refine ⟨s', by simp only [r1, r2, bind_ok, e'], ?_⟩
  convert h' using 2 with i
  rw [hsum fun l => if i = l then v k else 0]

theorem major_total {o : Orient} {A : CMat R} {sp : CMatS R} (h : CMat.Inv o 0 A sp) {m : Nat} (v : Nat → R) (i : Nat) :
    (∑ k ∈ range (A.filled1 - 1), if i = k then dot m (cell o sp k) v else 0) = dot m (cell o sp i) v := by
  rw [sum_ite_eq]
  split
  · rfl
  · rename_i hi
    exact (sum_eq_zero fun l _ => by rw [closed h (by simp only [mem_range] at hi; omega), zero_mul]).symm

theorem minor_total {o : Orient} {A : CMat R} {sp : CMatS R} (h : CMat.Inv o 0 A sp) {n m : Nat} (hm : o.sizeM sp.rows sp.cols = m) (v : Nat → R) {i : Nat} (hi : i < n) :
    (∑ k ∈ range (A.filled1 - 1), ∑ l ∈ range n, cell o sp k l * if i = l then v k else 0) = dot m (fun k => cell o sp k i) v := by
  have h1 : ∀ k, (∑ l ∈ range n, cell o sp k l * if i = l then v k else 0) = cell o sp k i * v k := by
    intro k
    simp [hi]
  simp only [h1]
  have := filled1_le h
  rw [hm] at this
  refine sum_subset (fun k hk => ?_) fun k _ hn => ?_
  · simp only [mem_range] at hk ⊢; omega
  · rw [closed h (by simp only [mem_range] at hn; omega), zero_mul]

variable {T : VT σ R} {Rep : σ → Nat → (Nat → R) → List Nat → Prop} {sc : StorageCat}

/-- **C33** (compressed_matrix times vector), row- and column-major: for every reachable state of the matrix (`CMat.Inv`, see C24), trailing unopened lines included. -/
theorem C33_compressed_vector (dbg : Bool) (mode : ProdFn.Mode) (hT : T.Supports sc Rep) (hsc : sc ≠ .packed ∧ sc ≠ .packedProxy) (hr : T.ReadsAll Rep) (o : Orient) (A : CMat R)
    (sp : CMatS R) (hA : CMat.Inv o 0 A sp) (x : Seq R) (v : Nat → R) (hx : x.Presents sp.cols v) (init : Bool) (s : σ) (w : Nat → R) (S : List Nat) (h : Rep s sp.rows w S) :
    ∃ s' w' S', compressedVec dbg mode sc T o A x init s = .ok s' ∧ Rep s' sp.rows w' S' ∧
      ∀ i, i < sp.rows → w' i = (if init then 0 else w i) + ∑ j ∈ range sp.cols, (sp.val (i, j)).getD 0 * v j := by
  have hs : A.size1 = sp.rows := (hA.observes dbg o 0 0).1
  obtain ⟨s1, e1, h1⟩ := initVec_holds hT hsc dbg mode init (n := sp.rows) ⟨w, S, h, fun _ _ => rfl⟩
  have hV := acc_lawful (n := sp.rows) (grows_of hT hsc) hr
  simp only [compressedVec, hs, e1, bind_ok]
  cases o with
  | row =>
    obtain ⟨s', e, w', S', h2, h3⟩ := compressedMajor_holds hV dbg hA rfl rfl hx h1
    exact ⟨s', w', S', e, h2, fun i hi => by rw [h3 i hi]; beta_reduce; rw [major_total hA]; rfl⟩
  | col =>
    obtain ⟨s', e, w', S', h2, h3⟩ := compressedMinor_holds hV dbg hA rfl rfl hx h1
    exact ⟨s', w', S', e, h2, fun i hi => by rw [h3 i hi]; beta_reduce; rw [minor_total hA (rfl : _ = sp.cols) v hi]; rfl⟩

/-- **C33** (vector times compressed_matrix). -/
theorem C33_vector_compressed (dbg : Bool) (mode : ProdFn.Mode) (hT : T.Supports sc Rep) (hsc : sc ≠ .packed ∧ sc ≠ .packedProxy) (hr : T.ReadsAll Rep) (o : Orient) (A : CMat R)
    (sp : CMatS R) (hA : CMat.Inv o 0 A sp) (x : Seq R) (v : Nat → R) (hx : x.Presents sp.rows v) (init : Bool) (s : σ) (w : Nat → R) (S : List Nat) (h : Rep s sp.cols w S) :
    ∃ s' w' S', vecCompressed dbg mode sc T o A x init s = .ok s' ∧ Rep s' sp.cols w' S' ∧
      ∀ j, j < sp.cols → w' j = (if init then 0 else w j) + ∑ i ∈ range sp.rows, v i * (sp.val (i, j)).getD 0 := by
  have hs : A.size2 = sp.cols := (hA.observes dbg o 0 0).2.1
  obtain ⟨s1, e1, h1⟩ := initVec_holds hT hsc dbg mode init (n := sp.cols) ⟨w, S, h, fun _ _ => rfl⟩
  have hV := acc_lawful (n := sp.cols) (grows_of hT hsc) hr
  simp only [vecCompressed, hs, e1, bind_ok]
  cases o with
  | col =>
    obtain ⟨s', e, w', S', h2, h3⟩ := compressedMajor_holds hV dbg hA rfl rfl hx h1
    refine ⟨s', w', S', e, h2, fun i hi => ?_⟩
    rw [h3 i hi]; beta_reduce; rw [major_total hA]
    simp only [dot, mul_comm]; rfl
  | row =>
    obtain ⟨s', e, w', S', h2, h3⟩ := compressedMinor_holds hV dbg hA rfl rfl hx h1
    refine ⟨s', w', S', e, h2, fun i hi => ?_⟩
    rw [h3 i hi]; beta_reduce; rw [minor_total hA (rfl : _ = sp.rows) v hi]
    simp only [dot, mul_comm]; rfl

/-! ## coordinate_matrix -/

theorem sum_getD {β : Type} (l : List β) (F : β → R) (d : β) : ∑ n ∈ range l.length, F (l.getD n d) = (l.map F).sum := by
  induction l with
  | nil => simp
  | cons b l ih => rw [List.length_cons, sum_range_succ', List.map_cons, List.sum_cons, ← ih]; simp [add_comm]

theorem collect_getD (A : List ((Nat × Nat) × R)) (k : Nat × Nat) : (Coo.collect A k).getD 0 = (A.map fun p => if p.1 = k then p.2 else 0).sum := by
  unfold Coo.collect
  split
  · simp only [Option.getD_some]
    induction A with
    | nil => simp
    | cons p A ih => 
      by_cases hp : p.1 = k
      · by_cases hm : k ∈ A.map (·.1)
        · simp [hp, ih hm]
        · have hf : A.filter (fun p => decide (p.1 = k)) = [] := by
            rw [List.filter_eq_nil_iff]; intro q hq; simp only [decide_eq_true_eq]
            intro e; exact hm (e ▸ List.mem_map_of_mem hq)
          have hz : (A.map fun p => if p.1 = k then p.2 else 0).sum = 0 := by
            refine List.sum_eq_zero fun y hy => ?_
            obtain ⟨q, hq, rfl⟩ := List.mem_map.1 hy
            rw [if_neg]; intro e; exact hm (e ▸ List.mem_map_of_mem hq)
          simp [hp, hf, hz]
      · have hm : k ∈ A.map (·.1) := by
          rename_i h
          simp only [List.map_cons, List.mem_cons] at h
          exact h.resolve_left fun e => hp e.symm
        simp [hp, ih hm]
  · rename_i hm
    simp only [Option.getD_none]
    refine (List.sum_eq_zero fun y hy => ?_).symm
    obtain ⟨q, hq, rfl⟩ := List.mem_map.1 hy
    rw [if_neg]; intro e; exact hm (e ▸ List.mem_map_of_mem hq)

/-- **C33** (coordinate_matrix times vector): for every reachable state of the matrix (`CoordMat.Inv`, see C26) — unsorted or with several contributions to one element. -/
theorem C33_coordinate_vector (dbg : Bool) (mode : ProdFn.Mode) (hT : T.Supports sc Rep) (hsc : sc ≠ .packed ∧ sc ≠ .packedProxy) (hr : T.ReadsAll Rep)
    (srt : List ((Nat × Nat) × R) → List ((Nat × Nat) × R)) (full : Bool) (o : Orient) (A : CoordMat R) (sp : CooSpec.MState R) (hA : CoordMat.Inv srt full o 0 A sp)
    (x : Seq R) (v : Nat → R) (hx : x.Presents sp.cols v) (init : Bool) (s : σ) (w : Nat → R) (S : List Nat) (h : Rep s sp.rows w S) :
    ∃ s' w' S', coordinateVec dbg mode sc T o A x init s = .ok s' ∧ Rep s' sp.rows w' S' ∧
      ∀ i, i < sp.rows → w' i = (if init then 0 else w i) + ∑ j ∈ range sp.cols, (sp.st.val (i, j)).getD 0 * v j := by
  obtain ⟨hs, hs2, E, hI, hval, hin, _⟩ := hA
  obtain ⟨s1, e1, h1⟩ := initVec_holds hT hsc dbg mode init (n := sp.rows) ⟨w, S, h, fun _ _ => rfl⟩
  have hV := acc_lawful (n := sp.rows) (grows_of hT hsc) hr
  have hlen := hI.len
  have hcell : ∀ n, n < A.coo.filled → rd dbg A.coo.idx n = .ok (E.getD n ((0, 0), 0)).1 ∧ rd dbg A.coo.val n = .ok (E.getD n ((0, 0), 0)).2 ∧
      E.getD n ((0, 0), 0) ∈ E := by
    intro n hn
    have hn' : n < E.length := by omega
    have he : E.getD n ((0, 0), 0) = E[n] := by rw [List.getD_eq_getElem?_getD, List.getElem?_eq_getElem hn']; rfl
    rw [he]
    refine ⟨rd_eq_ok.2 ?_, rd_eq_ok.2 ?_, List.getElem_mem hn'⟩
    · have := congrArg (fun l => l[n]?) hI.holds.1
      simpa [List.getElem?_take, hn'] using this
    · have := congrArg (fun l => l[n]?) hI.holds.2
      simpa [List.getElem?_take, hn'] using this
  have hkey : ∀ p ∈ E, o.indexM p.1.1 p.1.2 < sp.rows ∧ o.indexm p.1.1 p.1.2 < sp.cols ∧
      ∀ i j, p.1 = CoordMat.key o 0 (i, j) ↔ (i = o.indexM p.1.1 p.1.2 ∧ j = o.indexm p.1.1 p.1.2) := by
    intro p hp
    obtain ⟨⟨i, j⟩, hi, hk⟩ := hin p hp
    obtain ⟨⟨p1, p2⟩, py⟩ := p
    cases o <;> simp [CoordMat.key, Orient.indexM, Orient.indexm] at hk hi ⊢ <;> refine ⟨by omega, by omega, fun a b => by omega⟩
  obtain ⟨s', e, w', S', h2, h3⟩ := loop_add (Rep := Holds Rep sp.rows) (n := A.coo.filled) (s := s1) (f := fun n s => do
      let k ← rd dbg A.coo.idx n
      let row_index := o.indexM k.1 k.2
      let col_index := o.indexm k.1 k.2
      let a ← rd dbg A.coo.val n
      let y ← x.at_ col_index
      T.acc.add s row_index (a * y))
    (g := fun n i => (fun p : (Nat × Nat) × R => if i = o.indexM p.1.1 p.1.2 then p.2 * v (o.indexm p.1.1 p.1.2) else 0) (E.getD n ((0, 0), 0))) (by
      intro n s w hn hs
      obtain ⟨q1, q2, q3⟩ := hcell n hn
      obtain ⟨k1, k2, _⟩ := hkey _ q3
      simp only [q1, q2, bind_ok, hx.at_ _ k2]
      exact hV.add hs k1 _) h1
  refine ⟨s', w', S', by simp only [coordinateVec, hs, e1, bind_ok, e], h2, fun i hi => ?_⟩
  rw [h3 i hi]
  beta_reduce
  rw [← hlen, sum_getD E (fun p : (Nat × Nat) × R => if i = o.indexM p.1.1 p.1.2 then p.2 * v (o.indexm p.1.1 p.1.2) else 0) ((0, 0), 0)]
  congr 1
  simp only [hval, collect_getD, ← List.sum_map_mul_right]
  rw [← list_sum_comm]
  refine congrArg _ (List.map_congr_left fun p hp => ?_)
  obtain ⟨k1, k2, k3⟩ := hkey p hp
  simp only [k3]
  by_cases hi : i = o.indexM p.1.1 p.1.2
  · simp [← hi, k2]
  · simp [hi]

end Axpy
end Ublas
