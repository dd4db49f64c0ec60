import Verif.Props.AxpyMM
import Verif.Props.AxpySparse
import Verif.Props.AssignOps
/-! # C34: opb_prod, and the cases of C33 and C34 for the concrete containers -/
namespace Ublas
open Finset
variable {σ R : Type} [CommRing R] [DecidableEq R]
namespace Axpy

theorem tempSeq_ok (dbg : Bool) (mode : ProdFn.Mode) (junk : Nat → R) {e : Seq R} {n : Nat} {c : Nat → R} (he : e.Presents n c) :
    ∃ t, tempSeq dbg mode junk e = .ok t ∧ t.cat = .dense ∧ t.Presents n c := by
  obtain ⟨d, d1, d2, d3⟩ := vectorFrom_ok dbg mode junk e n c he
  obtain ⟨⟨sz, ct, el, at'⟩, ⟨a0, a1, a2, a3⟩, ap⟩ := denseVec_operand dbg d
  simp only at a0 a1 a3
  subst a0 a1 a3
  refine ⟨⟨d.length, .dense, el, rd dbg d⟩, by simp only [tempSeq, d1, bind_ok, a2], rfl, ?_⟩
  have hc : ∀ i, i < n → d.getD i 0 = c i := fun i hi => by rw [List.getD_eq_getElem?_getD, d3 i hi]; rfl
  rw [d2] at ap
  exact {
    size := d2
    at_ := fun i hi => by rw [← hc i hi]; exact ap.at_ i hi
    vals := fun p hp => ⟨(ap.vals p hp).1, by rw [← hc _ (ap.vals p hp).1]; exact (ap.vals p hp).2⟩
    sorted := ap.sorted
    skipped := fun i hi hm => by rw [← hc i hi]; exact ap.skipped i hi hm
    packed := ap.packed
    dense := ap.dense }

/-- In indexing mode only the sizes and element access of the right-hand side matter. -/
theorem dense_indexing_holds {T : MT σ R} {Rep : MRep σ R} {r c : Nat} (hL : T.Lawful Rep) (hf : T.Full Rep) (dbg : Bool) (F : AssignF) {e : MExp R} {a : Nat → Nat → R}
    (hs : e.sizeM = r ∧ e.sizem = c) (ha : ∀ k l, k < r → l < c → e.at_ k l = .ok (a k l)) {s : σ} {w : Nat × Nat → R} (h : MHolds Rep r c s w) :
    ∃ s', MAssign.dense dbg .indexing T F e s = .ok s' ∧ MHolds Rep r c s' (fun p => F.apply (w p) (a p.1 p.2)) := by
  obtain ⟨w0, Ls, S, h1, h2⟩ := h
  let e' : MExp R := ⟨r, c, .dense, (List.range r).map fun k => (k, (List.range c).map fun l => (l, a k l)), fun k l => .ok (a k l)⟩
  have he' : e'.Presents r c a := {
    sizes := ⟨rfl, rfl⟩
    at_ := fun _ _ _ _ => rfl
    sorted := by simp [e', Function.comp_def]; exact List.pairwise_lt_range
    lt := by simp [e']
    inner := by
      intro q hq
      simp only [e', List.mem_map, List.mem_range] at hq
      obtain ⟨k, hk, rfl⟩ := hq
      simp only [List.map_map, Function.comp_def, List.map_id']
      refine ⟨List.pairwise_lt_range, ?_⟩
      simp
    skipped := by
      intro k l hk hl hn
      exact absurd (by simpa [Function.comp_def] using hl) (hn (k, (List.range c).map fun l => (l, a k l)) (by simpa [e'] using hk) rfl)
    packed := by
      intro _
      refine ⟨⟨0, by simp [e', Function.comp_def, List.range_eq_range']⟩, ?_⟩
      intro q hq
      simp only [e', List.mem_map, List.mem_range] at hq
      obtain ⟨k, hk, rfl⟩ := hq
      exact ⟨0, by simp [Function.comp_def, List.range_eq_range']⟩
    dense := by
      intro _ _
      refine ⟨by simp [e', Function.comp_def], ?_⟩
      intro q hq
      simp only [e', List.mem_map, List.mem_range] at hq
      obtain ⟨k, hk, rfl⟩ := hq
      simp [Function.comp_def] }
  obtain ⟨s', e1, h3⟩ := MAssign.indexing_ok hL hf he' dbg F h1
  refine ⟨s', ?_, _, Ls, S, h3, fun k l hk hl => ?_⟩
  · rw [← e1]
    obtain ⟨z1, z2⟩ := hL.sizes _ _ _ _ _ _ h1
    show MAssign.indexing dbg T F e s = _
    simp only [MAssign.indexing, same, z1, z2, hs.1, hs.2, e', check_True, bind_ok, Nat.min_self, pure_eq_ok]
    refine loop_congr fun k s hk => ?_
    refine loop_congr fun l s hl => ?_
    simp only [ha k l hk hl, bind_ok]
  · simp only [MAssign.full, hk, hl, and_self, if_true, h2 k l hk hl]

variable {T : MT σ R} {Rep : MRep σ R}

/-- **C34** (partial: only with the default BOOST_UBLAS_USE_INDEXING).  `opb_prod (A, B, m, init)` on a dense `m` of either orientation leaves (0 or the old value) + A B, for any operands. -/
theorem C34_opb_prod_partial (dbg : Bool) (sc : StorageCat) (hsc : sc = .dense ∨ sc = .denseProxy) (hT : T.Supports sc Rep) (o : Orient) (junk : Nat → R)
    (A B : MSeq R) (p q m : Nat) (a b : Nat → Nat → R) (hA : A.Presents p m a) (hB : B.Presents m q b) (init : Bool) (s : σ) (w : Nat → Nat → R) (Ls : List Nat) (S : Nat → List Nat)
    (h : Rep s (o.sizeM p q) (o.sizem p q) w Ls S) :
    ∃ s' w' Ls' S', opb dbg .indexing sc T o junk A B init s = .ok s' ∧ Rep s' (o.sizeM p q) (o.sizem p q) w' Ls' S' ∧
      ∀ i j, i < p → j < q → w' (o.indexM i j) (o.indexm i j) = (if init then 0 else w (o.indexM i j) (o.indexm i j)) + ∑ k ∈ range m, a i k * b k j := by
  have hp : sc ≠ .packed ∧ sc ≠ .packedProxy := by rcases hsc with rfl | rfl <;> simp
  have hf : T.Full Rep := by rcases hsc with rfl | rfl <;> exact hT.2.1
  obtain ⟨s1, e1, h1⟩ := initMat_holds hT hp dbg .indexing init (r := o.sizeM p q) (c := o.sizem p q) (w := fun p => w p.1 p.2) ⟨w, Ls, S, h, fun _ _ _ _ => rfl⟩
  have hs1 : A.size1 = p := hA.size1
  have hs2 : A.size2 = m := hA.size2
  have hs3 : B.size1 = m := hB.size1
  have hs4 : B.size2 = q := hB.size2
  simp only [opb, hs1, hs2, hs3, hs4, e1, bind_ok, same, check_True, Nat.min_self, pure_eq_ok]
  have hmain := loop_add (Rep := MHolds Rep (o.sizeM p q) (o.sizem p q)) (n := m) (s := s1) (w := fun p => if init then 0 else w p.1 p.2)
    (f := fun k s => (do
      let ce1 ← tempSeq dbg .indexing junk (A.col k)
      let re2 ← tempSeq dbg .indexing junk (B.row k)
      MAssign.assign dbg .indexing sc T .plus (outerExp o ce1 re2) s : M σ))
    (g := fun k x => a (o.indexM x.1 x.2) k * b k (o.indexm x.1 x.2)) (by
      intro k s w hk hs
      obtain ⟨t1, f1, c1, p1⟩ := tempSeq_ok dbg .indexing junk (hA.cols k hk)
      obtain ⟨t2, f2, c2, p2⟩ := tempSeq_ok dbg .indexing junk (hB.rows k hk)
      have hat : ∀ i j, i < p → j < q → (Expr.outer t1 t2).at_ i j = .ok (a i k * b k j) := (C48_outer_partial p1 p2).2.2.1
      have hz : (Expr.outer t1 t2).size1 = p ∧ (Expr.outer t1 t2).size2 = q := ⟨(C48_outer_partial p1 p2).1, (C48_outer_partial p1 p2).2.1⟩
      simp only [f1, f2, bind_ok, outerExp]
      cases o with
      | row =>
        obtain ⟨s', g1, g2⟩ := dense_indexing_holds (r := p) (c := q) hT.1 hf dbg .plus (e := MExp.byRows (Expr.outer t1 t2) (t1.els.map (·.1))) (a := fun i j => a i k * b k j) hz hat hs
        refine ⟨s', ?_, g2⟩
        rw [← g1]
        have hcat : (MExp.byRows (Expr.outer t1 t2) (t1.els.map (·.1))).cat = .dense := by show t1.cat.restrict t2.cat = _; rw [c1, c2]; rfl
        rcases hsc with rfl | rfl <;> simp only [MAssign.assign, hcat, massignTraits]
      | col =>
        obtain ⟨s', g1, g2⟩ := dense_indexing_holds (r := q) (c := p) hT.1 hf dbg .plus (e := MExp.byCols (Expr.outer t1 t2) (t2.els.map (·.1))) (a := fun j i => a i k * b k j)
          ⟨hz.2, hz.1⟩ (fun j i hj hi => hat i j hi hj) hs
        refine ⟨s', ?_, g2⟩
        rw [← g1]
        have hcat : (MExp.byCols (Expr.outer t1 t2) (t2.els.map (·.1))).cat = .dense := by show t1.cat.restrict t2.cat = _; rw [c1, c2]; rfl
        rcases hsc with rfl | rfl <;> simp only [MAssign.assign, hcat, massignTraits]) h1
  obtain ⟨s', e2, w', Ls', S', h2, h3⟩ := hmain
  refine ⟨s', w', Ls', S', e2, h2, fun i j hi hj => ?_⟩
  have := h3 (o.indexM i j) (o.indexm i j) (CMat.major_lt o hi hj) (CMat.minor_lt o hi hj)
  have hmm : o.indexM (o.indexM i j) (o.indexm i j) = i ∧ o.indexm (o.indexM i j) (o.indexm i j) = j := by cases o <;> exact ⟨rfl, rfl⟩
  rw [this]
  simp only [hmm]

/-! ## The containers -/

omit [CommRing R] [DecidableEq R] in
theorem view_readsAll [Zero R] (dbg : Bool) (n : Nat) (addr : Nat → Nat) (orig : List R) : ∀ s n' w S, ViewRep n addr orig s n' w S →
    ∀ i, i < n' → (VT.view dbg n addr : VT (List R) R).get s i = .ok (w i) := by
  rintro s n' w S ⟨rfl, h2, h3, h4, h5⟩ i hi
  show (do check dbg (i < n') .badIndex; rd dbg s (addr i)) = _
  rw [check_true hi, bind_ok]
  exact rd_eq_ok.2 (h4 i hi)

omit [CommRing R] [DecidableEq R] in
theorem compressed_readsAll [Zero R] (dbg : Bool) (IB : Nat) (junk : CVec.Junk R) : ∀ s n w S, CVecRep IB s n w S →
    ∀ i, i < n → (VT.compressed dbg IB junk : VT (CVec R) R).get s i = .ok (w i) := by
  rintro v n w S ⟨E, s, h, h1, h2, h3⟩ i hi
  rw [h2]
  exact h.get dbg 0 i (h1 ▸ hi)

omit [CommRing R] [DecidableEq R] in
theorem mview_readsAll [Zero R] (dbg : Bool) (r c : Nat) (addr : Nat → Nat → Nat) (orig : List R) : ∀ s r' c' w Ls S, MViewRep r c addr orig s r' c' w Ls S →
    ∀ k l, k < r' → l < c' → (MT.view dbg r c addr : MT (List R) R).get s k l = .ok (w k l) := by
  rintro s r' c' w Ls S ⟨rfl, rfl, _, _, h5, h6, h7⟩ k l hk hl
  show (do check dbg (k < r') .badIndex; check dbg (l < c') .badIndex; rd dbg s (addr k l)) = _
  rw [check_true hk, bind_ok, check_true hl, bind_ok]
  exact rd_eq_ok.2 (h6 k l hk hl)

omit [CommRing R] [DecidableEq R] in
theorem compressedMatrix_readsAll [Zero R] (dbg : Bool) (o : Orient) (IB : Nat) (junk : CMat.Junk R) : ∀ s r c w Ls S, CMatRep o IB s r c w Ls S →
    ∀ k l, k < r → l < c → (MT.compressed dbg o IB junk : MT (CMat R) R).get s k l = .ok (w k l) := by
  rintro v r c w Ls S ⟨s, h, h1, h2, h3, h4, h5⟩ k l hk hl
  have hb : o.indexM k l < s.rows ∧ o.indexm k l < s.cols := by subst h1 h2; cases o <;> first | exact ⟨hk, hl⟩ | exact ⟨hl, hk⟩
  rw [h3]
  exact (h.observes dbg o IB 0).2.2.1 _ _ hb.1 hb.2

omit [CommRing R] [DecidableEq R] in
theorem mview_emptyLines [Zero R] (dbg : Bool) (r c : Nat) (addr : Nat → Nat → Nat) (orig : List R) : ∀ s r' w Ls S, MViewRep r c addr orig s r' 0 w Ls S →
    ∀ k, k < r' → (MT.view dbg r c addr : MT (List R) R).its s k = [] := by
  rintro s r' w Ls S ⟨rfl, h2, _⟩ k _
  show List.range c = []
  rw [← h2]; rfl

omit [CommRing R] [DecidableEq R] in
theorem compressedMatrix_emptyLines [Zero R] (dbg : Bool) (o : Orient) (IB : Nat) (junk : CMat.Junk R) : ∀ s r w Ls S, CMatRep o IB s r 0 w Ls S →
    ∀ k, k < r → (MT.compressed dbg o IB junk : MT (CMat R) R).its s k = [] := by
  rintro v r w Ls S ⟨s, h, h1, h2, h3, h4, h5⟩ k _
  show v.lineIdx IB k = []
  refine List.eq_nil_iff_forall_not_mem.2 fun l hl => ?_
  rw [(h.lineIdx k).1] at hl
  obtain ⟨_, _, _, _, _, a5⟩ := h
  refine hl (a5 _ _ fun hb => ?_)
  cases o
  · have := hb.2; simp only [Orient.sizem] at h2; omega
  · have := hb.1; simp only [Orient.sizem] at h2; omega

/-- **C33** for a dense vector, vector_range, vector_slice, matrix_row or matrix_column as the result (`addr`: where its elements are; all distinct): the elements become
(0 or the old value) + A x and every other cell of the array is unchanged. -/
theorem C33_view (dbg : Bool) (mode : ProdFn.Mode) (proxy : Bool) (o : Orient) (A : MSeq R) (r c : Nat) (a : Nat → Nat → R) (hA : A.Presents r c a) (ls : List Nat)
    (hls : match o with | .row => Outer A.cat r c a ls | .col => Outer A.cat c r (fun j i => a i j) ls) (x : Seq R) (v : Nat → R) (hx : x.Presents c v) (init : Bool)
    (addr : Nat → Nat) (hinj : ∀ i j, i < r → j < r → addr i = addr j → i = j) (data : List R) (hb : ∀ i, i < r → addr i < data.length) :
    ∃ data', matVec dbg mode (if proxy then .denseProxy else .dense) (VT.view dbg r addr) o A ls x init data = .ok data' ∧
      ViewHolds data data' r addr (fun i => (if init then 0 else data.getD (addr i) 0) + ∑ j ∈ range c, a i j * v j) := by
  have hsup : (VT.view dbg r addr : VT (List R) R).Supports (if proxy then .denseProxy else .dense) (ViewRep r addr data) := by
    cases proxy
    · exact (view_supports dbg r addr data hinj).1
    · exact (view_supports dbg r addr data hinj).2
  obtain ⟨s', w', S', e, ⟨_, _, h3, h4, h5⟩, h6⟩ := C33_matrix_vector dbg mode hsup (by cases proxy <;> simp) (view_readsAll dbg r addr data) o A r c a hA ls hls x v hx init data _ _
    (view_rep r addr data hb)
  exact ⟨s', e, h3, fun i hi => by rw [h4 i hi, h6 i hi], h5⟩

/-- **C33** for a compressed_vector as the result. -/
theorem C33_into_compressed (dbg : Bool) (mode : ProdFn.Mode) (IB : Nat) (junk : CVec.Junk R) (o : Orient) (A : MSeq R) (r c : Nat) (a : Nat → Nat → R) (hA : A.Presents r c a) (ls : List Nat)
    (hls : match o with | .row => Outer A.cat r c a ls | .col => Outer A.cat c r (fun j i => a i j) ls) (x : Seq R) (v : Nat → R) (hx : x.Presents c v) (init : Bool)
    (t : CVec R) (E : List (Nat × R)) (st : SparseSpec.Vec R) (ht : CVec.Repr IB t E st) (hn : st.size = r) :
    ∃ t' E' st', matVec dbg mode .sparse (VT.compressed dbg IB junk) o A ls x init t = .ok t' ∧ CVec.Repr IB t' E' st' ∧ st'.size = r ∧
      ∀ i, i < r → t'.get dbg IB 0 i = .ok ((if init then 0 else (st.val i).getD 0) + ∑ j ∈ range c, a i j * v j) := by
  obtain ⟨t', w', S', e, ⟨E', st', h1, h2, h3, h4⟩, h6⟩ := C33_matrix_vector dbg mode (compressed_supports dbg IB junk) (by simp) (compressed_readsAll dbg IB junk) o A r c a hA ls hls x v hx
    init t _ _ ⟨E, st, ht, hn, rfl, rfl⟩
  refine ⟨t', E', st', e, h1, h2, fun i hi => ?_⟩
  rw [h1.get dbg 0 i (h2 ▸ hi), ← h6 i hi, h3]

/-- **C33** for a compressed_matrix as the result of `axpy_prod (A, B, m, init)` and, with a triangular restriction, `axpy_prod (A, B, m, TRI, init)`. -/
theorem C33_into_compressed_matrix (dbg : Bool) (mode : ProdFn.Mode) (o : Orient) (IB : Nat) (junk : CMat.Junk R) (other : Nat → Nat → Bool) (A B : MSeq R) (p q m : Nat)
    (a b : Nat → Nat → R) (hA : A.Presents p m a) (hB : B.Presents m q b) (ls : List Nat)
    (hls : match o with | .row => Outer A.cat p m a ls | .col => Outer B.cat q m (fun j i => b i j) ls) (init : Bool)
    (t : CMat R) (st : SparseSpec.CMatS R) (ht : CMat.Inv o IB t st) (hp : st.rows = p) (hq : st.cols = q) :
    ∃ t' st', matMat dbg mode .sparse (MT.compressed dbg o IB junk) o other A B ls init t = .ok t' ∧ CMat.Inv o IB t' st' ∧ st'.rows = p ∧ st'.cols = q ∧
      ∀ i j, i < p → j < q → t'.get dbg o IB 0 i j = .ok ((if init then 0 else (st.val (i, j)).getD 0) + if other i j then ∑ k ∈ range m, a i k * b k j else 0) := by
  subst hp hq
  have hmm : ∀ (i j : Nat), o.indexM (o.indexM i j) (o.indexm i j) = i ∧ o.indexm (o.indexM i j) (o.indexm i j) = j := by
    intro i j; cases o <;> exact ⟨rfl, rfl⟩
  obtain ⟨t', w', Ls', S', e, ⟨st', h', b1, b2, b3, b4, b5⟩, h2⟩ := C33_matrix_matrix dbg mode (compressedMatrix_supports dbg o IB junk) (by simp) (compressedMatrix_readsAll dbg o IB junk)
    (compressedMatrix_emptyLines dbg o IB junk) o other A B _ _ m a b hA hB ls hls init t _ _ _ ⟨st, ht, rfl, rfl, rfl, rfl, rfl⟩
  have hr : st'.rows = st.rows := by cases o <;> assumption
  have hc : st'.cols = st.cols := by cases o <;> assumption
  refine ⟨t', st', e, h', hr, hc, fun i j hi hj => ?_⟩
  rw [(h'.observes dbg o IB 0).2.2.1 i j (by omega) (by omega)]
  have := h2 i j hi hj
  rw [b3] at this
  simp only [hmm, reduceCtorEq, or_false] at this
  rw [this]

/-- Distinct elements of a dense matrix are at distinct addresses, by (major, minor) index. -/
theorem addr_inj (o : Orient) (r c : Nat) : ∀ k l i j, k < o.sizeM r c → l < o.sizem r c → i < o.sizeM r c → j < o.sizem r c →
    o.elementRaw (o.indexM k l) r (o.indexm k l) c = o.elementRaw (o.indexM i j) r (o.indexm i j) c → k = i ∧ l = j := by
  intro k l i j hk hl hi hj he
  have hlt : ∀ {k l : Nat}, k < o.sizeM r c → l < o.sizem r c → o.indexM k l < r ∧ o.indexm k l < c := by
    intro k l hk hl; cases o <;> first | exact ⟨hk, hl⟩ | exact ⟨hl, hk⟩
  have hmm : ∀ (i j : Nat), o.indexM (o.indexM i j) (o.indexm i j) = i ∧ o.indexm (o.indexM i j) (o.indexm i j) = j := by
    intro i j; cases o <;> exact ⟨rfl, rfl⟩
  have h1 := hlt hk hl
  have h2 := hlt hi hj
  obtain ⟨b1, b2⟩ := elementRaw_inj o h1.1 h1.2 h2.1 h2.2 he
  exact ⟨by have := hmm k l; rw [b1, b2] at this; rw [← this.1, (hmm i j).1], by have := hmm k l; rw [b1, b2] at this; rw [← this.2, (hmm i j).2]⟩

theorem dense_rep (o : Orient) (m : Dense R) (hw : m.WF) : MViewRep (o.sizeM m.size1 m.size2) (o.sizem m.size1 m.size2)
    (fun k l => o.elementRaw (o.indexM k l) m.size1 (o.indexm k l) m.size2) m.data m.data
    (o.sizeM m.size1 m.size2) (o.sizem m.size1 m.size2) (fun k l => m.data.getD (o.elementRaw (o.indexM k l) m.size1 (o.indexm k l) m.size2) 0)
    (if o.sizem m.size1 m.size2 = 0 then [] else List.range (o.sizeM m.size1 m.size2)) (fun _ => List.range (o.sizem m.size1 m.size2)) := by
  refine ⟨rfl, rfl, rfl, rfl, rfl, fun k l hk hl => ?_, fun _ _ => rfl⟩
  have hb : o.indexM k l < m.size1 ∧ o.indexm k l < m.size2 := by cases o <;> first | exact ⟨hk, hl⟩ | exact ⟨hl, hk⟩
  have : o.elementRaw (o.indexM k l) m.size1 (o.indexm k l) m.size2 < m.data.length := by rw [hw]; exact elementRaw_lt o hb.1 hb.2
  simp only [List.getD_eq_getElem?_getD, List.getElem?_eq_getElem this, Option.getD_some]

/-- What holds of a dense matrix whose elements are `c`. -/
theorem dense_reads (dbg : Bool) (o : Orient) (m : Dense R) (hw : m.WF) {data : List R} {r' c' : Nat} {w : Nat → Nat → R} {Ls : List Nat} {S : Nat → List Nat}
    (h : MViewRep (o.sizeM m.size1 m.size2) (o.sizem m.size1 m.size2) (fun k l => o.elementRaw (o.indexM k l) m.size1 (o.indexm k l) m.size2) m.data data r' c' w Ls S) :
    ({ m with data := data } : Dense R).WF ∧ ∀ i j, i < m.size1 → j < m.size2 → ({ m with data := data } : Dense R).get dbg o i j = .ok (w (o.indexM i j) (o.indexm i j)) := by
  obtain ⟨_, _, _, _, a5, a6, _⟩ := h
  refine ⟨by show data.length = _; rw [a5, hw], fun i j hi hj => ?_⟩
  have h6' := a6 _ _ (CMat.major_lt o hi hj) (CMat.minor_lt o hi hj)
  have hmm : o.indexM (o.indexM i j) (o.indexm i j) = i ∧ o.indexm (o.indexM i j) (o.indexm i j) = j := by cases o <;> exact ⟨rfl, rfl⟩
  simp only [hmm] at h6'
  simp only [Dense.get, Orient.element, check_true hi, check_true hj, bind_ok, pure_eq_ok, rd_eq_ok, h6']

/-- Old contents of a dense matrix, by position in its array. -/
theorem dense_get_getD (dbg : Bool) (o : Orient) (m : Dense R) (hw : m.WF) {i j : Nat} (hi : i < m.size1) (hj : j < m.size2) :
    m.get dbg o i j = .ok (m.data.getD (o.elementRaw i m.size1 j m.size2) 0) := by
  have := (dense_reads dbg o m hw (dense_rep o m hw)).2 i j hi hj
  have hmm : o.indexM (o.indexM i j) (o.indexm i j) = i ∧ o.indexm (o.indexM i j) (o.indexm i j) = j := by cases o <;> exact ⟨rfl, rfl⟩
  simp only [hmm] at this
  exact this

/-- The array of a dense matrix as an assignment target. -/
abbrev denseTarget (dbg : Bool) (o : Orient) (r c : Nat) : MT (List R) R :=
  MT.view dbg (o.sizeM r c) (o.sizem r c) (fun k l => o.elementRaw (o.indexM k l) r (o.indexm k l) c)

/-- **C33** for a dense matrix as the result of `axpy_prod (A, B, m, init)` / `axpy_prod (A, B, m, TRI, init)`; the restriction is ignored. -/
theorem C33_into_dense_matrix (dbg : Bool) (mode : ProdFn.Mode) (o : Orient) (other : Nat → Nat → Bool) (A B : MSeq R) (n : Nat) (m : Dense R) (hw : m.WF)
    (a b : Nat → Nat → R) (hA : A.Presents m.size1 n a) (hB : B.Presents n m.size2 b) (ls : List Nat)
    (hls : match o with | .row => Outer A.cat m.size1 n a ls | .col => Outer B.cat m.size2 n (fun j i => b i j) ls) (init : Bool) :
    ∃ data, matMat dbg mode .dense (denseTarget dbg o m.size1 m.size2) o other A B ls init m.data = .ok data ∧ ({ m with data := data } : Dense R).WF ∧
      ∀ i j, i < m.size1 → j < m.size2 → ∃ x, m.get dbg o i j = .ok x ∧
        ({ m with data := data } : Dense R).get dbg o i j = .ok ((if init then 0 else x) + ∑ k ∈ range n, a i k * b k j) := by
  obtain ⟨data, w', Ls', S', e, h1, h2⟩ := C33_matrix_matrix dbg mode (mview_supports dbg _ _ _ m.data (addr_inj o m.size1 m.size2)).1 (by simp) (mview_readsAll dbg _ _ _ m.data)
    (mview_emptyLines dbg _ _ _ m.data) o other A B _ _ n a b hA hB ls hls init m.data _ _ _ (dense_rep o m hw)
  obtain ⟨h3, h4⟩ := dense_reads dbg o m hw h1
  refine ⟨data, e, h3, fun i j hi hj => ⟨_, dense_get_getD dbg o m hw hi hj, ?_⟩⟩
  rw [h4 i j hi hj, h2 i j hi hj]
  have hmm : o.indexM (o.indexM i j) (o.indexm i j) = i ∧ o.indexm (o.indexM i j) (o.indexm i j) = j := by cases o <;> exact ⟨rfl, rfl⟩
  simp only [hmm, true_or, or_true, if_true]

/-- **C34** (partial: default evaluation mode) for a dense matrix. -/
theorem C34_dense_partial (dbg : Bool) (o : Orient) (junk : Nat → R) (A B : MSeq R) (n : Nat) (m : Dense R) (hw : m.WF)
    (a b : Nat → Nat → R) (hA : A.Presents m.size1 n a) (hB : B.Presents n m.size2 b) (init : Bool) :
    ∃ data, opb dbg .indexing .dense (denseTarget dbg o m.size1 m.size2) o junk A B init m.data = .ok data ∧ ({ m with data := data } : Dense R).WF ∧
      ∀ i j, i < m.size1 → j < m.size2 → ∃ x, m.get dbg o i j = .ok x ∧
        ({ m with data := data } : Dense R).get dbg o i j = .ok ((if init then 0 else x) + ∑ k ∈ range n, a i k * b k j) := by
  obtain ⟨data, w', Ls', S', e, h1, h2⟩ := C34_opb_prod_partial dbg .dense (.inl rfl) (mview_supports dbg _ _ _ m.data (addr_inj o m.size1 m.size2)).1 o junk A B _ _ n a b hA hB init
    m.data _ _ _ (dense_rep o m hw)
  obtain ⟨h3, h4⟩ := dense_reads dbg o m hw h1
  refine ⟨data, e, h3, fun i j hi hj => ⟨_, dense_get_getD dbg o m hw hi hj, ?_⟩⟩
  rw [h4 i j hi hj, h2 i j hi hj]
  have hmm : o.indexM (o.indexM i j) (o.indexm i j) = i ∧ o.indexm (o.indexM i j) (o.indexm i j) = j := by cases o <;> exact ⟨rfl, rfl⟩
  simp only [hmm]

/-- **C34** refuted with BOOST_UBLAS_USE_ITERATING: `opb_prod (A, B, m)` for the 1 x 1 zero matrices fails, because the row iterators of `outer_prod` skip the row of a
zero element (C48): with checks `bad_size`, without them the inner loop runs past the end of the empty row. -/
theorem C34_opb_iterating_refuted :
    let Z : MSeq Int := ⟨1, 1, .dense, fun _ => [(0, 0)], fun _ => [(0, 0)], fun _ _ => .ok 0⟩
    Z.Presents 1 1 (fun _ _ => 0) ∧
    opb true .iterating .dense (MT.view true 1 1 (fun k l => k + l)) .row (fun _ => 9) Z Z true [5] = .error .badSize ∧
    opb false .iterating .dense (MT.view false 1 1 (fun k l => k + l)) .row (fun _ => 9) Z Z true [5] = .error .ub := by
  refine ⟨?_, by decide, by decide⟩
  have hs : ∀ i, i < 1 → (⟨1, .dense, [(0, 0)], fun _ => .ok 0⟩ : Seq Int).Presents 1 (fun _ => 0) := by
    intro i hi
    refine ⟨rfl, fun _ _ => rfl, by simp, by simp, ?_, fun _ => ⟨0, rfl⟩, fun _ => rfl⟩
    intro i hi hn
    rfl
  exact ⟨rfl, rfl, hs, hs⟩

/-- Non-vacuity: `v += A x` for a sparse 2 x 3 matrix whose first row is skipped by the outer iterators, into a strided view; and a compressed target. -/
example : ∃ (A : MSeq Int) (x : Seq Int) (a : Nat → Nat → Int) (v : Nat → Int), A.Presents 2 3 a ∧ A.cat = .sparse ∧ x.Presents 3 v ∧ Outer A.cat 2 3 a [1] ∧
    matVec true .indexing .denseProxy (VT.view true 2 (fun i => 1 + 2 * i)) .row A [1] x false [9, 1, 9, 2, 9] = .ok [9, 1, 9, 2 + 5 * 10 + 6 * 30, 9] := by
  refine ⟨⟨2, 3, .sparse, fun i => if i = 1 then [(0, 5), (2, 6)] else [], fun j => if j = 0 then [(1, 5)] else if j = 2 then [(1, 6)] else [],
      fun i j => .ok (if i = 1 ∧ j = 0 then 5 else if i = 1 ∧ j = 2 then 6 else 0)⟩, ⟨3, .dense, [(0, 10), (1, 20), (2, 30)], fun i => .ok (10 * (i + 1 : Nat))⟩,
      fun i j => if i = 1 ∧ j = 0 then 5 else if i = 1 ∧ j = 2 then 6 else 0, fun i => 10 * (i + 1 : Nat), ⟨rfl, rfl, ?_, ?_⟩, rfl, ?_, ?_, by decide⟩
  · intro i hi
    have : i = 0 ∨ i = 1 := by omega
    rcases this with rfl | rfl
    · refine ⟨rfl, fun _ _ => rfl, by simp [MSeq.row], by simp [MSeq.row], by simp, by simp [MSeq.row], by simp [MSeq.row]⟩
    · refine ⟨rfl, fun _ _ => rfl, by simp [MSeq.row], by simp [MSeq.row], ?_, by simp [MSeq.row], by simp [MSeq.row]⟩
      intro j hj hn
      simp [MSeq.row] at hn
      simp [hn]
  · intro j hj
    have : j = 0 ∨ j = 1 ∨ j = 2 := by omega
    rcases this with rfl | rfl | rfl
    · refine ⟨rfl, fun _ _ => rfl, by simp [MSeq.col], by simp [MSeq.col], ?_, by simp [MSeq.col], by simp [MSeq.col]⟩
      intro j hj hn
      simp [MSeq.col] at hn
      simp [hn]
    · exact ⟨rfl, fun _ _ => rfl, by simp [MSeq.col], by simp [MSeq.col], by simp, by simp [MSeq.col], by simp [MSeq.col]⟩
    · refine ⟨rfl, fun _ _ => rfl, by simp [MSeq.col], by simp [MSeq.col], ?_, by simp [MSeq.col], by simp [MSeq.col]⟩
      intro j hj hn
      simp [MSeq.col] at hn
      simp [hn]
  · refine ⟨rfl, fun _ _ => rfl, by simp, by simp, ?_, fun _ => ⟨0, rfl⟩, fun _ => rfl⟩
    intro i hi hn
    have : i = 0 ∨ i = 1 ∨ i = 2 := by omega
    rcases this with rfl | rfl | rfl <;> simp at hn
  · refine ⟨by simp, by simp, ?_, by simp, by simp⟩
    intro i hi hn j _
    simp only [List.mem_singleton] at hn
    simp [hn]

/-- Non-vacuity: `axpy_prod` and `opb_prod` of two dense 2 x 2 matrices, in both orientations, in a debug build. -/
example : (let A : MSeq Int := ⟨2, 2, .dense, fun i => [(0, 2 * i + 1), (1, 2 * i + 2)], fun j => [(0, j + 1), (1, j + 3)], fun i j => .ok (2 * i + j + 1 : Nat)⟩
    matMat true .iterating .dense (denseTarget true .row 2 2) .row (fun _ _ => true) A A [0, 1] false [1, 1, 1, 1] = .ok [8, 11, 16, 23] ∧
    matMat true .indexing .dense (denseTarget true .col 2 2) .col (fun _ _ => true) A A [0, 1] true [1, 1, 1, 1] = .ok [7, 15, 10, 22] ∧
    opb true .indexing .dense (denseTarget true .col 2 2) .col (fun _ => 9) A A false [1, 1, 1, 1] = .ok [8, 16, 11, 23]) := by
  refine ⟨?_, ?_, ?_⟩ <;> decide

end Axpy
end Ublas
