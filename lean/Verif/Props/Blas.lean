import Verif.Lemmas.Blas
import Verif.Props.Norms
import Verif.Props.ScalarAssign
/-! # C59: the functions of blas.hpp compute their formulas -/
namespace Ublas.Blas
open Ublas Finset Axpy VAssign Solve

section one
variable {R K : Type} [CommRing R] [Field K] [LinearOrder K] [IsStrictOrderedRing K] {abs : R → K}

/-- **C59** `asum`, `nrm2`, `amax`: Σ |v_i|, √Σ |v_i|², max |v_i| (zero for the empty vector). -/
theorem C59_reductions (habs0 : abs 0 = 0) (hpos : ∀ x, 0 ≤ abs x) (sqrt : K → K) (mode : ProdFn.Mode) {s : Seq R} {n : Nat} {v : Nat → R} (h : s.Presents n v) :
    asum abs mode s = .ok (∑ i ∈ range n, abs (v i)) ∧ nrm2 abs sqrt mode s = .ok (sqrt (∑ i ∈ range n, abs (v i) ^ 2)) ∧
      ∃ t, amax abs mode s = .ok t ∧ Norms.IsMax n (fun i => abs (v i)) t :=
  ⟨Norms.C46_norm_1 habs0 mode h, (Norms.C46_norm_2 habs0 mode sqrt h).2, Norms.C46_norm_inf habs0 hpos mode h⟩
end one

variable {R : Type} [CommRing R] [DecidableEq R] (dbg : Bool) (mode : ProdFn.Mode) (junk : Nat → R)

omit [DecidableEq R] in
/-- **C59** `dot`: Σ v_i w_i. -/
theorem C59_dot {s t : Seq R} {n : Nat} {v w : Nat → R} (hs : s.Presents n v) (ht : t.Presents n w) : dot dbg mode s t = .ok (∑ i ∈ range n, v i * w i) :=
  C30_inner_prod dbg mode n s t v w hs ht

/-- A dense target of an assignment computing `F`. -/
theorem assign_dense (F : AssignF) {s : Seq R} {n : Nat} {c w : Nat → R} {v : List R} (hs : s.Presents n w) (hv : Holds v n c) :
    ∃ v', assign dbg mode .dense (VT.view dbg v.length id) F (VExpr.const s) v = .ok v' ∧ Holds v' n (fun i => F.apply (c i) (w i)) := by
  obtain ⟨rfl, hv⟩ := hv
  obtain ⟨s', w', S', e, h1, h2⟩ := C44_assign_every_element dbg mode .dense F s v.length w _ _ _
    (view_supports dbg v.length id v (fun i j _ _ h => h)).1 (by simp) (hs.reads _) (view_id_rep v)
  obtain ⟨a1, a2, a3, a4, a5⟩ := h1
  refine ⟨s', e, a3, fun i hi => ?_⟩
  rw [show s'[i]? = _ from a4 i hi, h2 i hi]
  simp [List.getD, hv i hi]

/-- **C59** `copy (v1, v2)`: v1 becomes v2. -/
theorem C59_copy {s : Seq R} {n : Nat} {c w : Nat → R} {v : List R} (hs : s.Presents n w) (hv : Holds v n c) : ∃ v', copy dbg mode s v = .ok v' ∧ Holds v' n w :=
  assign_dense dbg mode .assign hs hv

/-- **C59** `scal (v, t)`: v becomes t v. -/
theorem C59_scal (t : R) {n : Nat} {c : Nat → R} {v : List R} (hv : Holds v n c) : ∃ v', scal dbg mode t v = .ok v' ∧ Holds v' n (fun i => t * c i) := by
  obtain ⟨rfl, hv⟩ := hv
  obtain ⟨v', e, h1, h2⟩ := C74_dense_vector dbg mode t v
  refine ⟨v', e, h1, fun i hi => ?_⟩
  rw [h2 i hi]; simp [List.getD, hv i hi, mul_comm]

/-- **C59** `axpy (v1, t, v2)`: v1 becomes v1 + t v2. -/
theorem C59_axpy (t : R) {s : Seq R} {n : Nat} {c w : Nat → R} {v : List R} (hs : s.Presents n w) (hv : Holds v n c) :
    ∃ v', axpy dbg mode t s v = .ok v' ∧ Holds v' n (fun i => c i + t * w i) :=
  assign_dense dbg mode .plus (C48_unary (t * ·) hs (.inr (mul_zero t))) hv

/-- **C59** `axpy (v, t, v)`, where no temporary is built: v + t v. -/
theorem C59_axpy_self (t : R) {n : Nat} {c : Nat → R} {v : List R} (hv : Holds v n c) : ∃ v', axpySelf dbg mode t v = .ok v' ∧ Holds v' n (fun i => c i + t * c i) := by
  obtain ⟨rfl, hv⟩ := hv
  obtain ⟨s', w', S', e1, h1, h2⟩ := assign_elementwise dbg mode .dense .plus _ v.length _ _ v _ _ (view_supports dbg v.length id v (fun i j _ _ h => h)).1 (by simp)
    (elementwise_reads dbg .dense v.length (fun _ x => t * x) v) (view_id_rep v) (by simp [VExpr.elementwise, assignTraits, AssignF.computed])
  obtain ⟨a1, a2, a3, a4, a5⟩ := h1
  refine ⟨s', e1, a3, fun i hi => ?_⟩
  rw [show s'[i]? = _ from a4 i hi, h2 i hi]
  simp [List.getD, hv i hi, AssignF.apply]

omit [DecidableEq R] in
theorem rotExpr_reads (t1 t2 : R) (v1 v : List R) (h : v1.length = v.length) :
    (rotExpr dbg v.length t1 t2 v1).Reads (ViewRep v.length id v) v.length (List.range v.length) (fun i x => - t2 * v1.getD i 0 + t1 * x) := by
  have hel : ∀ s w S, ViewRep v.length id v s v.length w S → ∀ i, i < v.length → (rotExpr dbg v.length t1 t2 v1).at_ i s = .ok (- t2 * v1.getD i 0 + t1 * w i) := by
    intro s w S hr i hi
    obtain ⟨a1, a2, a3, a4, a5⟩ := hr
    have hi' : i < s.length := by rw [a3]; exact hi
    have g1 : rd dbg s i = .ok (w i) := by
      rw [rd_ok hi']
      have := a4 i hi
      simp only [id] at this
      rw [List.getElem?_eq_getElem hi'] at this
      exact congrArg Except.ok (Option.some.inj this)
    have hi1 : i < v1.length := by omega
    simp only [rotExpr, rd_ok hi1, g1, bind_ok]
    simp [List.getD, hi1]
  exact { size := rfl
          begin_ := fun _ _ _ _ => by simp [rotExpr, Function.comp_def]
          deref := fun s w S s0 w0 S0 h1 h0 q hq => by
            simp only [rotExpr, List.mem_map, List.mem_range] at hq
            obtain ⟨i, hi, rfl⟩ := hq
            exact hel s w S h1 i hi
          at_ := hel
          sorted := List.pairwise_lt_range
          lt := fun i hi => by simpa using hi
          skipped := fun i hi hn => absurd (by simpa using hi) hn
          packed := fun _ => ⟨0, by simp [List.range_eq_range']⟩
          dense := fun _ => rfl }

/-- **C59** (partial) `rot (t1, v1, t2, v2)` on dense vectors: (v1, v2) becomes (t1 v1 + t2 v2, t1 v2 - t2 v1).  Missing: sparse vectors, where it is false
(`C59_rot_refuted`). -/
theorem C59_rot_partial (t1 t2 : R) {n : Nat} {x y : Nat → R} {v1 v2 : List R} (h1 : Holds v1 n x) (h2 : Holds v2 n y) :
    ∃ w1 w2, rot dbg mode junk t1 t2 v1 v2 = .ok (w1, w2) ∧ Holds w1 n (fun i => t1 * x i + t2 * y i) ∧ Holds w2 n (fun i => t1 * y i - t2 * x i) := by
  obtain ⟨a, ea, _, ha⟩ := denseSeq_ok dbg h1
  obtain ⟨b, eb, _, hb⟩ := denseSeq_ok dbg h2
  obtain ⟨q, eq, hq⟩ := C48_binary dbg (· + ·) (C48_unary (t1 * ·) ha (.inr (mul_zero _))) (C48_unary (t2 * ·) hb (.inr (mul_zero _))) (.inr (add_zero 0))
  obtain ⟨vt, et, ht⟩ := vectorFrom_ok dbg mode junk q n _ hq
  obtain ⟨c, ec, _, hc⟩ := denseSeq_ok dbg ht
  obtain ⟨l1, g1⟩ := h1
  obtain ⟨l2, g2⟩ := h2
  subst l2
  obtain ⟨w2, e2, k1, k2⟩ := C43_noalias_partial dbg mode v2 _ _ _ (rotExpr_reads dbg t1 t2 v1 v2 l1) (by simp [rotExpr])
  obtain ⟨w1, e1, h3⟩ := C59_copy dbg mode (v := v1) hc ⟨l1, g1⟩
  refine ⟨w1, w2, ?_, h3, k1, fun i hi => ?_⟩
  · have e1' : noaliasExpr dbg mode (VExpr.const c) v1 = .ok w1 := e1
    simp only [rot, ea, eb, eq, et, ec, l1, same_self, e2, e1', bind_ok]
  · rw [k2 i hi]
    congr 1
    simp only [List.getD, g1 i hi, g2 i hi, Option.getD_some]
    ring

/-- **C59** refuted for `rot` on sparse vectors: the second assignment clears `v2` before the right-hand side reads it.  Even the identity rotation (t1 = 1, t2 = 0)
loses `v2`. -/
theorem C59_rot_refuted : ¬ ∀ (t1 t2 : Int) (v1 v2 : CVec Int), CVec.invariants true 0 v1 = .ok () → CVec.invariants true 0 v2 = .ok () → v1.size = v2.size →
    ∃ w1 w2, rotCompressed true .indexing 0 (fun _ => 0) (id, fun _ => 0) t1 t2 v1 v2 = .ok (w1, w2) ∧
      ∀ i, i < v1.size → ∃ x y, v1.get true 0 0 i = .ok x ∧ v2.get true 0 0 i = .ok y ∧ w1.get true 0 0 i = .ok (t1 * x + t2 * y) ∧ w2.get true 0 0 i = .ok (t1 * y - t2 * x) := by
  intro h
  obtain ⟨w1, w2, e, h'⟩ := h 1 0 ⟨2, 1, 0, [0], [0]⟩ ⟨2, 1, 1, [1], [7]⟩ (by rfl) (by rfl) rfl
  have : rotCompressed true .indexing 0 (fun _ => 0) (id, fun _ => 0) 1 0 (⟨2, 1, 0, [0], [0]⟩ : CVec Int) ⟨2, 1, 1, [1], [7]⟩ =
      .ok (⟨2, 1, 0, [0], [0]⟩, ⟨2, 1, 0, [1], [7]⟩) := by decide +kernel
  rw [this] at e; cases e
  obtain ⟨x, y, h1, h2, h3, h4⟩ := h' 1 (by decide)
  have g1 : (⟨2, 1, 0, [0], [0]⟩ : CVec Int).get true 0 0 1 = .ok 0 := by rfl
  have g2 : (⟨2, 1, 1, [1], [7]⟩ : CVec Int).get true 0 0 1 = .ok 7 := by rfl
  have g3 : (⟨2, 1, 0, [1], [7]⟩ : CVec Int).get true 0 0 1 = .ok 0 := by rfl
  rw [g1] at h1; cases h1
  rw [g2] at h2; cases h2
  rw [g3] at h4; exact absurd h4 (by decide)

section rotCompressed
open SparseSpec

/-- **C59**, what `rot (t1, v1, t2, v2)` does on compressed vectors with any contents: `v1` becomes t1 v1 + t2 v2 as promised, but `v2` becomes -t2 v1 — the elements of
`v2` itself are lost, since `noalias (v2) = …` clears `v2` before its right-hand side reads it. -/
theorem C59_rot_compressed (t1 t2 : R) (IB : Nat) (cjunk : CVec.Junk R) {v1 v2 : CVec R} {s1 s2 : Vec R} (h1 : CVec.Inv IB v1 s1) (h2 : CVec.Inv IB v2 s2) (hs : s2.size = s1.size) :
    ∃ w1 w2, rotCompressed dbg mode IB junk cjunk t1 t2 v1 v2 = .ok (w1, w2) ∧ w1.size = s1.size ∧ w2.size = s1.size ∧
      ∀ i, i < s1.size → w1.get dbg IB 0 i = .ok (t1 * (s1.val i).getD 0 + t2 * (s2.val i).getD 0) ∧ w2.get dbg IB 0 i = .ok (- t2 * (s1.val i).getD 0) := by
  have op : ∀ {v : CVec R} {s : Vec R}, CVec.Inv IB v s → ∃ a : Seq R, compressedSeq dbg IB v = .ok a ∧ a.cat = .sparse ∧ a.Presents s.size (fun i => (s.val i).getD 0) := by
    intro v s h
    obtain ⟨⟨sz, ct, el, at'⟩, ⟨a0, a1, a2, a3⟩, ap⟩ := compressedVector_operand dbg IB v s (h.observes dbg IB 0)
    simp only at a0 a1 a3
    subst a0 a1 a3
    exact ⟨_, by simp only [compressedSeq, a2, bind_ok], rfl, ap⟩
  obtain ⟨a, ea, ca, pa⟩ := op h1
  obtain ⟨b, eb, cb, pb⟩ := op h2
  rw [hs] at pb
  obtain ⟨q, eq, hq⟩ := C48_binary dbg (· + ·) (C48_unary (t1 * ·) pa (.inr (mul_zero _))) (C48_unary (t2 * ·) pb (.inr (mul_zero _))) (.inr (add_zero 0))
  obtain ⟨vt, et, ht⟩ := vectorFrom_ok dbg mode junk q _ _ hq
  obtain ⟨c, ec, _, hc⟩ := denseSeq_ok dbg ht
  have hsup := compressed_supports (R := R) dbg IB cjunk
  obtain ⟨E1, r1⟩ := h1
  obtain ⟨E2, r2⟩ := h2
  -- the first assignment, into `v2`
  have second : ∃ w2 w S, noaliasCompressed dbg mode IB cjunk (rotExprCompressed dbg IB s1.size t1 t2 v1) v2 = .ok w2 ∧ CVecRep IB w2 s1.size w S ∧
      ∀ i, i < s1.size → w i = - t2 * (s1.val i).getD 0 := by
    have hv2 : CVecRep IB v2 s1.size (fun i => (s2.val i).getD 0) (E2.map (·.1)) := ⟨E2, s2, r2, hs, rfl, rfl⟩
    obtain ⟨hL, _, hi, _⟩ := hsup
    obtain ⟨u, S1, eu, hu, _⟩ := hi.clear _ _ _ _ hv2
    obtain ⟨Eu, su, ru, zu, wu, _⟩ := hu
    obtain ⟨d, ed, cd, pd⟩ := op ⟨Eu, ru⟩
    rw [zu, ← wu] at pd
    obtain ⟨L, eL, hLp⟩ := binEls_presents pa pd (· + ·) (.inr (add_zero 0))
    have hp := hLp (fun i => .ok ((s1.val i).getD 0 + 0)) (fun _ _ => rfl)
    have hb : ((rotExprCompressed dbg IB s1.size t1 t2 v1).begin_ u).map (·.1) = L.map (·.1) := by
      simp only [rotExprCompressed, ea, ed, bind_ok, eL, Except.toOption, Option.getD_some, List.map_map, Function.comp_def]
    obtain ⟨w2, S2, e2, hw2⟩ := insertLoop_ok (g := fun i z => - t2 * (s1.val i).getD 0 + t1 * z) hi ((rotExprCompressed dbg IB s1.size t1 t2 v1).begin_ u) u _ S1
      ⟨Eu, su, ru, zu, wu, by assumption⟩ (by rw [hb]; exact sorted_nodup hp.sorted)
      (fun i hi' => by
        rw [hb] at hi'
        obtain ⟨p, hpm, rfl⟩ := List.mem_map.1 hi'
        refine ⟨(hp.vals p hpm).1, rfl, ?_⟩
        rename_i hS _
        rcases hS with e | e
        · left; rw [e]; simp
        · exact .inr e)
      (fun p hpm s w S hr => by
        obtain ⟨Es, ss, rs, zs, ws, _⟩ := hr
        have hlt : p.1 < s1.size := by
          have : p.1 ∈ L.map (·.1) := by rw [← hb]; exact List.mem_map_of_mem hpm
          obtain ⟨p', hp', e⟩ := List.mem_map.1 this
          rw [← e]; exact (hp.vals p' hp').1
        simp only [rotExprCompressed, List.mem_map] at hpm
        obtain ⟨p', _, rfl⟩ := hpm
        simp only [r1.get dbg 0 _ hlt, rs.get dbg 0 _ (by rw [zs]; exact hlt), bind_ok, ws])
    refine ⟨w2, _, S2, ?_, hw2, fun i hi' => ?_⟩
    · have hz : (VT.compressed dbg IB cjunk : VT (CVec R) R).size v2 = s1.size := hL.size _ _ _ _ hv2
      have hsp : sparse dbg (VT.compressed dbg IB cjunk) (rotExprCompressed dbg IB s1.size t1 t2 v1) v2 = .ok w2 := by
        simp only [sparse, hz, show (rotExprCompressed dbg IB s1.size t1 t2 v1).size = s1.size from rfl, check_True, bind_ok, eu, e2]
      unfold noaliasCompressed VAssign.assign
      rw [show (rotExprCompressed dbg IB s1.size t1 t2 v1).cat = .sparse from rfl]
      exact hsp
    · simp only [upd]
      split
      · simp
      · rename_i hm
        rw [hb] at hm
        have := hp.skipped i hi' hm
        simp only [add_zero] at this
        rw [this]; simp
  obtain ⟨w2, w, S, ew2, hw2, gw2⟩ := second
  -- the second one, into `v1`
  obtain ⟨w1, x, S', f1, f2, f3⟩ := C44_assign_every_element dbg mode .sparse .assign c s1.size _ v1 _ _ hsup (by simp) (hc.reads _) ⟨E1, s1, r1, rfl, rfl, rfl⟩
  refine ⟨w1, w2, ?_, hsup.1.size _ _ _ _ f2, hsup.1.size _ _ _ _ hw2, fun i hi => ⟨?_, ?_⟩⟩
  · have f1' : noaliasCompressed dbg mode IB cjunk (VExpr.const c) v1 = .ok w1 := f1
    have hn : same dbg v1.size v2.size = .ok s1.size := by rw [r1.size, r2.size, hs, same_self]
    simp only [rotCompressed, ea, eb, eq, et, hn, ew2, ec, f1', bind_ok]
  · obtain ⟨E', t, g1, g2, g3, g4⟩ := f2
    rw [g1.get dbg 0 i (by omega), ← show x i = t1 * (s1.val i).getD 0 + t2 * (s2.val i).getD 0 from f3 i hi, g3]
  · obtain ⟨E', t, g1, g2, g3, g4⟩ := hw2
    rw [g1.get dbg 0 i (by omega), ← gw2 i hi, g3]

end rotCompressed

/-! ## blas_2 -/

/-- **C59** `tmv (v, A)`: v becomes A v. -/
theorem C59_tmv {A : MSeq R} {p n : Nat} {a : Nat → Nat → R} {ls : List Nat} {c : Nat → R} {v : List R} (hA : A.Presents p n a) (hls : Outer A.cat p n a ls) (hv : Holds v n c)
    (hz : n ≠ 0 ∨ A.cat ≠ .dense ∨ mode = .indexing) : ∃ v', tmv dbg mode junk A ls v = .ok v' ∧ Holds v' p (fun i => ∑ j ∈ range n, a i j * c j) := by
  obtain ⟨s, es, hd, hs⟩ := denseSeq_ok dbg hv
  obtain ⟨v', e, h⟩ := vectorFrom_usable dbg mode junk (prodV_usable dbg mode hA hs hls (hz.imp_right (Or.imp_left fun h h' => h (restrict_dense.1 h').1)))
  exact ⟨v', by simp only [tmv, es, bind_ok, e], h⟩

/-- **C59** `gmv (v1, t1, t2, A, v2)`: v1 becomes t1 v1 + t2 A v2, also when `v2` or `A` read `v1`. -/
theorem C59_gmv (t1 t2 : R) {A : MSeq R} {p n : Nat} {a : Nat → Nat → R} {ls : List Nat} {x : Seq R} {w c : Nat → R} {v : List R} (hA : A.Presents p n a) (hls : Outer A.cat p n a ls)
    (hx : x.Presents n w) (hv : Holds v p c) (hz : n ≠ 0 ∨ A.cat.restrict x.cat ≠ .dense ∨ mode = .indexing) :
    ∃ v', gmv dbg mode junk t1 t2 A ls x v = .ok v' ∧ Holds v' p (fun i => t1 * c i + t2 * ∑ j ∈ range n, a i j * w j) := by
  obtain ⟨s, es, hd, hs⟩ := denseSeq_ok dbg hv
  obtain ⟨q, eq, hq⟩ := vbinary_usable dbg (· + ·) (C48_unary (t1 * ·) hs (.inr (mul_zero _))) hd ((prodV_usable dbg mode hA hx hls hz).unary (t2 * ·) (mul_zero _)) (add_zero 0)
  obtain ⟨v', e, h⟩ := vectorFrom_usable dbg mode junk hq
  exact ⟨v', by simp only [gmv, es, bind_ok, eq, e], h⟩

/-- `m += e`, `m1 = t1 * m1 + e`: the temporary is built from the sum. -/
theorem plusAssignM_ok (o : Orient) {e : MSeq R} {r c : Nat} {x : Nat → Nat → R} {w : Nat × Nat → R} {m : Dense R} (he : e.Usable mode r c x) (hm : DHolds dbg o r c m w) :
    ∃ m', plusAssignM dbg mode junk o e m = .ok m' ∧ DHolds dbg o r c m' (fun p => w p + x p.1 p.2) := by
  obtain ⟨q, eq, hq⟩ := mbinary_usable dbg (· + ·) (dholds_presents hm) rfl he (add_zero 0)
  obtain ⟨d, ed, hd⟩ := tempMat_usable dbg mode junk o (ls := List.range (o.sizeM r c)) (hq.imp_left fun h => ⟨h, by cases o <;> exact Outer.all _ _ _ _⟩)
  refine ⟨d, ?_, hd⟩
  simp only [plusAssignM, eq, bind_ok, hm.2.1, hm.2.2.1, ed]

theorem scaledPlus_ok (o : Orient) (t1 : R) {e : MSeq R} {r c : Nat} {x : Nat → Nat → R} {w : Nat × Nat → R} {m : Dense R} (he : e.Usable mode r c x) (hm : DHolds dbg o r c m w) :
    ∃ m', scaledPlus dbg mode junk o t1 e m = .ok m' ∧ DHolds dbg o r c m' (fun p => t1 * w p + x p.1 p.2) := by
  obtain ⟨q, eq, hq⟩ := mbinary_usable dbg (· + ·) (C48_matrix_unary (t1 * ·) (dholds_presents hm) (mul_zero t1)) rfl he (add_zero 0)
  obtain ⟨d, ed, hd⟩ := tempMat_usable dbg mode junk o (ls := List.range (o.sizeM r c)) (hq.imp_left fun h => ⟨h, by cases o <;> exact Outer.all _ _ _ _⟩)
  refine ⟨d, ?_, hd⟩
  simp only [scaledPlus, eq, bind_ok, hm.2.1, hm.2.2.1, assignM, ed]

section rank
variable (o : Orient) {x y : Seq R} {p q : Nat} {v w : Nat → R} {m : Dense R} {c : Nat × Nat → R}

/-- **C59** (partial) `gr (m, t, v1, v2)`: m becomes m + t v1 v2ᵀ.  Missing here and below: iterated evaluation of two dense vectors (`C48_outer_refuted`) and
symmetric or hermitian targets. -/
theorem C59_gr_partial (t : R) (hx : x.Presents p v) (hy : y.Presents q w) (hz : x.cat.restrict y.cat ≠ .dense ∨ mode = .indexing) (hm : DHolds dbg o p q m c) :
    ∃ m', gr dbg mode junk o t x y m = .ok m' ∧ DHolds dbg o p q m' (fun k => c k + t * (v k.1 * w k.2)) :=
  plusAssignM_ok dbg mode junk o ((outer_usable hx hy hz).munary (t * ·) (mul_zero t)) hm

/-- **C59** (partial) `sr (m, t, v)`: m becomes m + t v vᵀ. -/
theorem C59_sr_partial (t : R) (hx : x.Presents p v) (hz : x.cat ≠ .dense ∨ mode = .indexing) (hm : DHolds dbg o p p m c) :
    ∃ m', sr dbg mode junk o t x m = .ok m' ∧ DHolds dbg o p p m' (fun k => c k + t * (v k.1 * v k.2)) :=
  plusAssignM_ok dbg mode junk o ((outer_usable hx hx (hz.imp_left fun h h' => h (restrict_dense.1 h').1)).munary (t * ·) (mul_zero t)) hm

/-- **C59** (partial) `hr (m, t, v)`: m becomes m + t v vᴴ. -/
theorem C59_hr_partial (cj : R → R) (h0 : cj 0 = 0) (t : R) (hx : x.Presents p v) (hz : x.cat ≠ .dense ∨ mode = .indexing) (hm : DHolds dbg o p p m c) :
    ∃ m', hr dbg mode junk o cj t x m = .ok m' ∧ DHolds dbg o p p m' (fun k => c k + t * (v k.1 * cj (v k.2))) :=
  plusAssignM_ok dbg mode junk o ((outer_usable hx (C48_unary cj hx (.inr h0)) (hz.imp_left fun h h' => h (restrict_dense.1 h').1)).munary (t * ·) (mul_zero t)) hm

/-- **C59** (partial) `sr2 (m, t, v1, v2)`: m becomes m + t (v1 v2ᵀ + v2 v1ᵀ). -/
theorem C59_sr2_partial (t : R) (hx : x.Presents p v) (hy : y.Presents p w) (hz : x.cat.restrict y.cat ≠ .dense ∨ mode = .indexing) (hm : DHolds dbg o p p m c) :
    ∃ m', sr2 dbg mode junk o t x y m = .ok m' ∧ DHolds dbg o p p m' (fun k => c k + t * (v k.1 * w k.2 + w k.1 * v k.2)) := by
  have hs : ∃ s, Expr.mbinary dbg (· + ·) (Expr.outer x y) (Expr.outer y x) = .ok s ∧ s.Usable mode p p (fun i j => v i * w j + w i * v j) := by
    by_cases hc : x.cat.restrict y.cat = .dense
    · have hm := hz.resolve_left fun h => h hc
      obtain ⟨s, e, h⟩ := mbinary_indexed dbg (· + ·) (outer_indexed hx hy hm hc) (outer_indexed hy hx hm (restrict_comm _ _ ▸ hc))
      exact ⟨s, e, .inr h⟩
    · obtain ⟨s, e, _, h⟩ := mbinary_presents dbg (· + ·) (outer_presents hx hy hc) (outer_presents hy hx (restrict_comm _ _ ▸ hc)) (add_zero 0)
      exact ⟨s, e, .inl h⟩
  obtain ⟨s, es, hs⟩ := hs
  obtain ⟨m', e, h⟩ := plusAssignM_ok dbg mode junk o (hs.munary (t * ·) (mul_zero t)) hm
  exact ⟨m', by simp only [sr2, es, bind_ok, e], h⟩

/-- **C59** (partial) `hr2 (m, t, v1, v2)`: m becomes m + t v1 v2ᴴ + conj(t) v2 v1ᴴ. -/
theorem C59_hr2_partial (cj : R → R) (h0 : cj 0 = 0) (t : R) (hx : x.Presents p v) (hy : y.Presents p w) (hz : x.cat.restrict y.cat ≠ .dense ∨ mode = .indexing) (hm : DHolds dbg o p p m c) :
    ∃ m', hr2 dbg mode junk o cj t x y m = .ok m' ∧ DHolds dbg o p p m' (fun k => c k + (t * (v k.1 * cj (w k.2)) + cj t * (w k.1 * cj (v k.2)))) := by
  have hx' := C48_unary cj hx (.inr h0)
  have hy' := C48_unary cj hy (.inr h0)
  have hs : ∃ s, Expr.mbinary dbg (· + ·) (Expr.munary (t * ·) (Expr.outer x (Expr.unary cj y))) (Expr.munary (cj t * ·) (Expr.outer y (Expr.unary cj x))) = .ok s ∧
      s.Usable mode p p (fun i j => t * (v i * cj (w j)) + cj t * (w i * cj (v j))) := by
    by_cases hc : x.cat.restrict y.cat = .dense
    · have hm := hz.resolve_left fun h => h hc
      obtain ⟨s, e, h⟩ := mbinary_indexed dbg (· + ·) ((outer_indexed hx hy' hm hc).munary (t * ·)) ((outer_indexed hy hx' hm (restrict_comm _ _ ▸ hc)).munary (cj t * ·))
      exact ⟨s, e, .inr h⟩
    · obtain ⟨s, e, _, h⟩ := mbinary_presents dbg (· + ·) (C48_matrix_unary (t * ·) (outer_presents hx hy' hc) (mul_zero t))
        (C48_matrix_unary (cj t * ·) (outer_presents hy hx' (restrict_comm _ _ ▸ hc)) (mul_zero _)) (add_zero 0)
      exact ⟨s, e, .inl h⟩
  obtain ⟨s, es, hs⟩ := hs
  obtain ⟨m', e, h⟩ := plusAssignM_ok dbg mode junk o hs hm
  exact ⟨m', by simp only [hr2, es, bind_ok, e], h⟩
end rank

/-! ## blas_3 -/
section mm
variable (o : Orient) {A B : MSeq R} {p n q : Nat} {a b : Nat → Nat → R} {lsA lsB : List Nat} {m : Dense R} {c : Nat × Nat → R}

/-- **C59** `tmm (m1, t, A, B)`: m1 becomes t A B. -/
theorem C59_tmm (t : R) (hA : A.Presents p n a) (hB : B.Presents n q b) (hlA : Outer A.cat p n a lsA) (hlB : Outer B.cat q n (fun j k => b k j) lsB)
    (hz : n ≠ 0 ∨ A.cat.restrict B.cat ≠ .dense ∨ mode = .indexing) :
    ∃ m', tmm dbg mode junk o t A B lsA lsB = .ok m' ∧ DHolds dbg o p q m' (fun k => t * ∑ l ∈ range n, a k.1 l * b l k.2) := by
  by_cases hc : n ≠ 0 ∨ A.cat.restrict B.cat ≠ .dense
  · refine tempMat_usable dbg mode junk o (a := fun i j => t * ∑ l ∈ range n, a i l * b l j) (.inl ⟨C48_matrix_unary (t * ·) (prodM_presents dbg mode hA hB hlA hlB hc) (mul_zero t), ?_⟩)
    cases o
    · exact prodM_outerRows hlA hc (t * ·) (mul_zero t)
    · exact prodM_outerCols hlB hc (t * ·) (mul_zero t)
  · rw [not_or, not_not, not_not] at hc
    exact tempMat_usable dbg mode junk o (a := fun i j => t * ∑ l ∈ range n, a i l * b l j)
      (.inr ((prodM_indexed dbg hA hB ((hz.resolve_left fun h => h hc.1).resolve_left fun h => h hc.2) hc.2).munary (t * ·)))

/-- **C59** `gmm (m1, t1, t2, A, B)`: m1 becomes t1 m1 + t2 A B, also when `A` or `B` read `m1`. -/
theorem C59_gmm (t1 t2 : R) (hA : A.Presents p n a) (hB : B.Presents n q b) (hlA : Outer A.cat p n a lsA) (hlB : Outer B.cat q n (fun j k => b k j) lsB)
    (hz : n ≠ 0 ∨ A.cat.restrict B.cat ≠ .dense ∨ mode = .indexing) (hm : DHolds dbg o p q m c) :
    ∃ m', gmm dbg mode junk o t1 t2 A B lsA lsB m = .ok m' ∧ DHolds dbg o p q m' (fun k => t1 * c k + t2 * ∑ l ∈ range n, a k.1 l * b l k.2) :=
  scaledPlus_ok dbg mode junk o t1 ((prodM_usable dbg mode hA hB hlA hlB hz).munary (t2 * ·) (mul_zero t2)) hm

theorem outer_conj {cat : Cat} (cj : R → R) (h0 : cj 0 = 0) (h : Outer cat p n a lsA) : Outer cat p n (fun i k => cj (a i k)) lsA :=
  ⟨h.sorted, h.lt, fun i hi hn j hj => by show cj (a i j) = 0; rw [h.skip i hi hn j hj, h0], h.packed, h.dense⟩

/-- **C59** `srk (m1, t1, t2, A)`: m1 becomes t1 m1 + t2 A Aᵀ. -/
theorem C59_srk (t1 t2 : R) (hA : A.Presents p n a) (hlA : Outer A.cat p n a lsA) (hz : n ≠ 0 ∨ A.cat ≠ .dense ∨ mode = .indexing) (hm : DHolds dbg o p p m c) :
    ∃ m', srk dbg mode junk o t1 t2 A lsA m = .ok m' ∧ DHolds dbg o p p m' (fun k => t1 * c k + t2 * ∑ l ∈ range n, a k.1 l * a k.2 l) :=
  scaledPlus_ok dbg mode junk o t1 ((prodM_usable dbg mode hA (C48_matrix_trans id hA rfl) hlA hlA (hz.imp_right (Or.imp_left fun h h' => h (restrict_dense.1 h').1))).munary
    (t2 * ·) (mul_zero t2)) hm

/-- **C59** `hrk (m1, t1, t2, A)`: m1 becomes t1 m1 + t2 A Aᴴ. -/
theorem C59_hrk (cj : R → R) (h0 : cj 0 = 0) (t1 t2 : R) (hA : A.Presents p n a) (hlA : Outer A.cat p n a lsA) (hz : n ≠ 0 ∨ A.cat ≠ .dense ∨ mode = .indexing) (hm : DHolds dbg o p p m c) :
    ∃ m', hrk dbg mode junk o cj t1 t2 A lsA m = .ok m' ∧ DHolds dbg o p p m' (fun k => t1 * c k + t2 * ∑ l ∈ range n, a k.1 l * cj (a k.2 l)) :=
  scaledPlus_ok dbg mode junk o t1 ((prodM_usable dbg mode hA (C48_matrix_trans cj hA h0) hlA (outer_conj cj h0 hlA) (hz.imp_right (Or.imp_left fun h h' => h (restrict_dense.1 h').1))).munary
    (t2 * ·) (mul_zero t2)) hm

/-- **C59** `sr2k (m1, t1, t2, A, B)`: m1 becomes t1 m1 + t2 (A Bᵀ + B Aᵀ). -/
theorem C59_sr2k (t1 t2 : R) (hA : A.Presents p n a) (hB : B.Presents p n b) (hlA : Outer A.cat p n a lsA) (hlB : Outer B.cat p n b lsB)
    (hz : n ≠ 0 ∨ A.cat.restrict B.cat ≠ .dense ∨ mode = .indexing) (hm : DHolds dbg o p p m c) :
    ∃ m', sr2k dbg mode junk o t1 t2 A B lsA lsB m = .ok m' ∧
      DHolds dbg o p p m' (fun k => t1 * c k + t2 * (∑ l ∈ range n, a k.1 l * b k.2 l + ∑ l ∈ range n, b k.1 l * a k.2 l)) := by
  have hA' := C48_matrix_trans id hA rfl
  have hB' := C48_matrix_trans id hB rfl
  have hs : ∃ s, Expr.mbinary dbg (· + ·) (Expr.prodM dbg mode A (Expr.mtrans id B) lsA lsB) (Expr.prodM dbg mode B (Expr.mtrans id A) lsB lsA) = .ok s ∧
      s.Usable mode p p (fun i j => ∑ l ∈ range n, a i l * b j l + ∑ l ∈ range n, b i l * a j l) := by
    by_cases hc : n ≠ 0 ∨ A.cat.restrict B.cat ≠ .dense
    · obtain ⟨s, e, _, h⟩ := mbinary_presents dbg (· + ·) (prodM_presents dbg mode hA hB' hlA hlB hc) (prodM_presents dbg mode hB hA' hlB hlA (hc.imp_right fun h => restrict_comm _ _ ▸ h)) (add_zero 0)
      exact ⟨s, e, .inl h⟩
    · rw [not_or, not_not, not_not] at hc
      have hm := (hz.resolve_left fun h => h hc.1).resolve_left fun h => h hc.2
      obtain ⟨s, e, h⟩ := mbinary_indexed dbg (· + ·) (prodM_indexed dbg (lsA := lsA) (lsB := lsB) hA hB' hm hc.2) (prodM_indexed dbg (lsA := lsB) (lsB := lsA) hB hA' hm (restrict_comm _ _ ▸ hc.2))
      exact ⟨s, e, .inr h⟩
  obtain ⟨s, es, hs⟩ := hs
  obtain ⟨m', e, h⟩ := scaledPlus_ok dbg mode junk o t1 (hs.munary (t2 * ·) (mul_zero t2)) hm
  exact ⟨m', by simp only [sr2k, es, bind_ok, e], h⟩

/-- **C59** `hr2k (m1, t1, t2, A, B)`: m1 becomes t1 m1 + t2 A Bᴴ + conj(t2) B Aᴴ. -/
theorem C59_hr2k (cj : R → R) (h0 : cj 0 = 0) (t1 t2 : R) (hA : A.Presents p n a) (hB : B.Presents p n b) (hlA : Outer A.cat p n a lsA) (hlB : Outer B.cat p n b lsB)
    (hz : n ≠ 0 ∨ A.cat.restrict B.cat ≠ .dense ∨ mode = .indexing) (hm : DHolds dbg o p p m c) :
    ∃ m', hr2k dbg mode junk o cj t1 t2 A B lsA lsB m = .ok m' ∧
      DHolds dbg o p p m' (fun k => t1 * c k + t2 * ∑ l ∈ range n, a k.1 l * cj (b k.2 l) + cj t2 * ∑ l ∈ range n, b k.1 l * cj (a k.2 l)) := by
  have hA' := C48_matrix_trans cj hA h0
  have hB' := C48_matrix_trans cj hB h0
  have hs : ∃ s q, Expr.mbinary dbg (· + ·) (Expr.munary (t1 * ·) (m.toMSeq dbg o)) (Expr.munary (t2 * ·) (Expr.prodM dbg mode A (Expr.mtrans cj B) lsA lsB)) = .ok s ∧
      Expr.mbinary dbg (· + ·) s (Expr.munary (cj t2 * ·) (Expr.prodM dbg mode B (Expr.mtrans cj A) lsB lsA)) = .ok q ∧
      q.Usable mode p p (fun i j => t1 * c (i, j) + t2 * ∑ l ∈ range n, a i l * cj (b j l) + cj t2 * ∑ l ∈ range n, b i l * cj (a j l)) := by
    have hm' := C48_matrix_unary (t1 * ·) (dholds_presents hm) (mul_zero t1)
    by_cases hc : n ≠ 0 ∨ A.cat.restrict B.cat ≠ .dense
    · obtain ⟨s, e, _, h⟩ := mbinary_presents dbg (· + ·) hm' (C48_matrix_unary (t2 * ·) (prodM_presents dbg mode hA hB' hlA (outer_conj cj h0 hlB) hc) (mul_zero t2)) (add_zero 0)
      obtain ⟨q, e', _, h'⟩ := mbinary_presents dbg (· + ·) h (C48_matrix_unary (cj t2 * ·) (prodM_presents dbg mode hB hA' hlB (outer_conj cj h0 hlA) (hc.imp_right fun h => restrict_comm _ _ ▸ h))
        (mul_zero _)) (add_zero 0)
      exact ⟨s, q, e, e', .inl h'⟩
    · rw [not_or, not_not, not_not] at hc
      have hmo := (hz.resolve_left fun h => h hc.1).resolve_left fun h => h hc.2
      obtain ⟨s, e, h⟩ := mbinary_indexed dbg (· + ·) (hm'.indexed rfl hmo) ((prodM_indexed dbg (lsA := lsA) (lsB := lsB) hA hB' hmo hc.2).munary (t2 * ·))
      obtain ⟨q, e', h'⟩ := mbinary_indexed dbg (· + ·) h ((prodM_indexed dbg (lsA := lsB) (lsB := lsA) hB hA' hmo (restrict_comm _ _ ▸ hc.2)).munary (cj t2 * ·))
      exact ⟨s, q, e, e', .inr h'⟩
  obtain ⟨s, q, e1, e2, hq⟩ := hs
  obtain ⟨d, ed, hd⟩ := tempMat_usable dbg mode junk o (ls := List.range (o.sizeM p p)) (hq.imp_left fun h => ⟨h, by cases o <;> exact Outer.all _ _ _ _⟩)
  exact ⟨d, by simp only [hr2k, e1, e2, bind_ok, hm.2.1, hm.2.2.1, assignM, ed], hd⟩
end mm

section solve
variable {R : Type} [Field R] [DecidableEq R] (dbg : Bool) (mode : ProdFn.Mode) (junk : Nat → R) {A : MSeq R} {n q : Nat} {a : Nat → Nat → R}

/-- **C59** `tsv (v, A, C)`: v becomes the solution of T v' = v, T the triangle of `A` that the tag names (unit diagonal if it says so). -/
theorem C59_tsv (upper unit : Bool) (o : Orient) (hA : A.Presents n n a) (hd : unit = false → ∀ i, i < n → a i i ≠ 0) {c : Nat → R} {v : List R} (hv : Ublas.Holds v n c) :
    ∃ v' x, tsv dbg mode junk upper unit o A v = .ok v' ∧ Ublas.Holds v' n x ∧ ∀ i, i < n → ∑ j ∈ range n, tri upper unit a i j * x j = c i := by
  obtain ⟨s, es, _, hs⟩ := denseSeq_ok dbg hv
  obtain ⟨r, x, e, h1, h2⟩ := (C37_solve hA dbg upper unit mode junk o hd s c hs).1
  exact ⟨r, x, by simp only [tsv, es, bind_ok, e], h1, h2⟩

/-- **C59** `tsm (m1, t, A, C)`: m1 becomes the solution of T m1' = t m1. -/
theorem C59_tsm (upper unit : Bool) (o : Orient) (t : R) (hA : A.Presents n n a) (hd : unit = false → ∀ i, i < n → a i i ≠ 0) {c : Nat × Nat → R} {m : Dense R} (hm : DHolds dbg o n q m c) :
    ∃ m' x, tsm dbg mode junk upper unit o t A m = .ok m' ∧ DHolds dbg o n q m' x ∧ ∀ i l, i < n → l < q → ∑ j ∈ range n, tri upper unit a i j * x (j, l) = t * c (i, l) := by
  obtain ⟨d, ed, hD⟩ := tempMat_usable dbg mode junk .row (ls := List.range n)
    (.inl ⟨C48_matrix_unary (t * ·) (dholds_presents hm) (mul_zero t), Outer.all _ _ _ _⟩)
  obtain ⟨X, x, e1, h1, h2⟩ := C37_into_matrix hA dbg upper unit .row hd d _ hD
  have es : solveMat dbg mode junk upper unit A (Expr.munary (t * ·) (m.toMSeq dbg o)) (List.range m.size1) = .ok X := by
    simp only [solveMat, hm.2.1, ed, bind_ok, hD.2.1, hD.2.2.1, e1]
  cases o with
  | row => exact ⟨X, x, by simp only [tsm, es, bind_ok], h1, h2⟩
  | col =>
    obtain ⟨Y, eY, hY⟩ := tempMat_usable dbg mode junk .col (ls := List.range q) (.inl ⟨dholds_presents h1, Outer.all _ _ _ _⟩)
    exact ⟨Y, x, by simp only [tsm, es, bind_ok, h1.2.2.1, eY], hY, h2⟩
end solve

/-! ## The hypotheses are met -/

/-- `gmm` and `rot` on dense operands of any contents and any shape. -/
example (dbg : Bool) (o : Orient) (t1 t2 : Int) (A B m : Dense Int) (hA : A.WF) (hB : B.WF) (hm : m.WF) (h1 : B.size1 = A.size2) (h2 : m.size1 = A.size1) (h3 : m.size2 = B.size2) :
    ∃ (a b : Nat → Nat → Int) (c : Nat × Nat → Int) (m' : Dense Int), gmm dbg .indexing (fun _ => 0) o t1 t2 (A.toMSeq dbg .row) (B.toMSeq dbg .col) (List.range A.size1) (List.range B.size2) m = .ok m' ∧
      (∀ i j, i < A.size1 → j < A.size2 → A.get dbg .row i j = .ok (a i j)) ∧ (∀ i j, i < A.size2 → j < B.size2 → B.get dbg .col i j = .ok (b i j)) ∧
      (∀ i j, i < A.size1 → j < B.size2 → m.get dbg o i j = .ok (c (i, j))) ∧
      DHolds dbg o A.size1 B.size2 m' (fun k => t1 * c k + t2 * ∑ l ∈ range A.size2, a k.1 l * b l k.2) := by
  have val : ∀ (m : Dense Int) (o : Orient), m.WF → ∃ a : Nat → Nat → Int, ∀ i j, i < m.size1 → j < m.size2 → m.get dbg o i j = .ok (a i j) := by
    intro m o hw
    obtain ⟨q, ⟨_, _, _, _, _, q6⟩, hq⟩ := dense_operand dbg o m hw
    exact ⟨_, fun i j hi hj => by rw [← q6]; exact (hq.rows i hi).at_ j hj⟩
  obtain ⟨a, ha⟩ := val A .row hA
  obtain ⟨b, hb⟩ := val B .col hB
  obtain ⟨c, hc⟩ := val m o hm
  rw [h1] at hb
  rw [h2, h3] at hc
  have hBp := toMSeq_presents dbg .col hB (by rw [h1]; exact hb)
  rw [h1] at hBp
  obtain ⟨m', e, h⟩ := C59_gmm dbg .indexing (fun _ => 0) o t1 t2 (toMSeq_presents dbg .row hA ha) hBp (Outer.all _ _ _ _) (Outer.all _ _ _ _) (.inr (.inr rfl))
    (c := fun k => c k.1 k.2) ⟨hm, h2, h3, hc⟩
  exact ⟨a, b, fun k => c k.1 k.2, m', e, ha, hb, hc, h⟩

example : rot true .indexing (fun _ => 0) 3 4 [1, 0] [2, (5 : Int)] = .ok ([11, 20], [2, 15]) := by decide +kernel
example : (gr true .indexing (fun _ => 0) .col 2 (Seq.mk 2 .dense [(0, 1), (1, 3)] (fun i => .ok (if i = 0 then 1 else 3))) (Seq.mk 1 .dense [(0, 5)] (fun _ => .ok 5))
    (⟨2, 1, [100, 200]⟩ : Dense Int)) = .ok ⟨2, 1, [110, 230]⟩ := by decide +kernel
example : tsm true .indexing (fun _ => 0) true false .col (3 : Rat) (⟨2, 2, .dense, fun i => if i = 0 then [(0, 2), (1, 1)] else [(0, 0), (1, 4)],
    fun j => if j = 0 then [(0, 2), (1, 0)] else [(0, 1), (1, 4)], fun i j => .ok (if i = 0 then (if j = 0 then 2 else 1) else if j = 0 then 0 else 4)⟩) ⟨2, 1, [2, 4]⟩ = .ok ⟨2, 1, [3 / 2, 3]⟩ := by
  decide +kernel

end Ublas.Blas
