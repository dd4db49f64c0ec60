import Verif.Lemmas.Blocked
/-! # C35: block_prod -/
namespace Ublas
open Finset Axpy
variable {R : Type} [CommRing R] [DecidableEq R]
namespace Blocked

theorem id_inj (n : Nat) : ∀ i j, i < n → j < n → id i = id j → i = j := fun _ _ _ _ h => h

/-- An array `v` of length `n` as the state of a dense vector. -/
theorem holds_of (v : List R) (n : Nat) (hn : v.length = n) : Axpy.Holds (ViewRep n id v) n v (fun i => v.getD i 0) :=
  ⟨_, _, hn ▸ view_id_rep v, fun _ _ => rfl⟩

theorem holds_iff {orig v : List R} {n : Nat} {w : Nat → R} (h : Axpy.Holds (ViewRep n id orig) n v w) : v.length = orig.length ∧ ∀ i, i < n → v[i]? = some (w i) := by
  obtain ⟨w0, S, ⟨_, _, h3, h4, _⟩, h5⟩ := h
  exact ⟨h3, fun i hi => by rw [← h5 i hi]; exact h4 i hi⟩

/-- Writing back the block `[b, e)`. -/
theorem writeBack (dbg : Bool) (mode : ProdFn.Mode) {v t : List R} {b e : Nat} {c : Nat → R} (hbe : b ≤ e) (hev : e ≤ v.length) (htl : t.length = e - b)
    (ht : ∀ i, i < e - b → t[i]? = some (c (b + i))) (hv : ∀ i, i < b → v[i]? = some (c i)) :
    ∃ v', (do let q ← VAssign.denseSeq dbg t
              VAssign.assign dbg mode .denseProxy (VT.view dbg (e - b) (b + ·)) .assign (VExpr.const q) v) = .ok v' ∧ v'.length = v.length ∧ ∀ i, i < e → v'[i]? = some (c i) := by
  obtain ⟨⟨sz, ct, el, at'⟩, ⟨a0, a1, a2, a3⟩, ap⟩ := denseVec_operand dbg t
  simp only at a0 a1 a3
  subst a0 a1 a3
  rw [htl] at ap
  obtain ⟨s', w', S', f1, ⟨_, _, f3, f4, f5⟩, f6⟩ := C44_assign_every_element dbg mode .denseProxy .assign _ (e - b) _ _ _ _
    (view_supports dbg (e - b) (b + ·) v (fun i j _ _ h => by simpa using h)).2 (by simp) (ap.reads _) (view_rep (e - b) (b + ·) v (fun i hi => by show b + i < v.length; omega))
  refine ⟨s', by simp only [VAssign.denseSeq, a2, bind_ok]; rw [htl]; exact f1, f3, fun i hi => ?_⟩
  by_cases hib : i < b
  · rw [f5 i (fun k _ h => by simp only at h; omega)]; exact hv i hib
  · have := f4 (i - b) (by omega)
    simp only at this
    rw [show b + (i - b) = i by omega] at this
    rw [this, f6 (i - b) (by omega)]
    simp only [AssignF.apply]
    rw [List.getD_eq_getElem?_getD, ht (i - b) (by omega), show b + (i - b) = i by omega]; rfl

/-- **C35** (matrix times vector): `block_prod<V, BS> (A, x)` is A x, for every block size BS > 0 and every shape. -/
theorem C35_matrix_vector (dbg : Bool) (mode : ProdFn.Mode) (junk : Nat → R) (BS : Nat) (hBS : 0 < BS) (A : MSeq R) (r c : Nat) (a : Nat → Nat → R) (hA : A.Presents r c a)
    (ls : List Nat) (hls : Outer A.cat r c a ls) (x : Seq R) (v : Nat → R) (hx : x.Presents c v) :
    ∃ y, matVec dbg mode junk BS A ls x = .ok y ∧ y.length = r ∧ ∀ i, i < r → y[i]? = some (∑ j ∈ range c, a i j * v j) := by
  have hs1 : A.size1 = r := hA.size1
  have hs2 : A.size2 = c := hA.size2
  have hs3 : x.size = c := hx.size
  simp only [matVec, hs1, hs2, hs3, same, check_True, bind_ok, Nat.min_self, pure_eq_ok]
  have hmain := blocks_inv (n := r) hBS (s := fresh junk r)
    (fun k (y : List R) => y.length = r ∧ ∀ i, i < k → y[i]? = some (∑ j ∈ range c, a i j * v j)) (body := fun i_begin i_end v => (do
      let v_range := fresh junk (i_end - i_begin)
      let T : VT (List R) R := VT.view dbg (i_end - i_begin) id
      let v_range ← VAssign.assign dbg mode .dense T .assign (VExpr.const (Seq.zero (i_end - i_begin))) v_range
      let v_range ← blocks BS c (fun j_begin j_end v_range => do
        let e1_range ← tempMat dbg mode junk .row (A.project i_begin i_end j_begin j_end) (projLines ls i_begin i_end)
        let e2_range ← Axpy.tempSeq dbg mode junk (x.project j_begin j_end)
        let p ← Expr.prodVec dbg mode (e1_range.toMSeq dbg .row) e2_range
        VAssign.assign dbg mode .dense T .plus (VExpr.const p) v_range) (c + 1) 0 v_range
      let q ← VAssign.denseSeq dbg v_range
      VAssign.assign dbg mode .denseProxy (VT.view dbg (i_end - i_begin) (i_begin + ·)) .assign (VExpr.const q) v : M (List R))) (by
    intro ib ie y hlt hle hy
    have hsup := (view_supports dbg (ie - ib) id (fresh junk (ie - ib)) (id_inj (ie - ib))).1
    obtain ⟨t0, g0, hz⟩ := assign_holds hsup (by simp) dbg mode .assign (zero_presents (ie - ib)) (holds_of (fresh junk (ie - ib)) (ie - ib) (fresh_length junk (ie - ib)))
    obtain ⟨t1, g1, h1⟩ := blocks_inv (n := c) hBS (s := t0) (fun k t => Axpy.Holds (ViewRep (ie - ib) id (fresh junk (ie - ib))) (ie - ib) t (fun i => ∑ j ∈ range k, a (ib + i) j * v j))
      (body := fun j_begin j_end v_range => (do
        let e1_range ← tempMat dbg mode junk .row (A.project ib ie j_begin j_end) (projLines ls ib ie)
        let e2_range ← Axpy.tempSeq dbg mode junk (x.project j_begin j_end)
        let p ← Expr.prodVec dbg mode (e1_range.toMSeq dbg .row) e2_range
        VAssign.assign dbg mode .dense (VT.view dbg (ie - ib) id) .plus (VExpr.const p) v_range : M (List R))) (by
      intro jb je t hjlt hjle ht
      obtain ⟨d, d1, d2⟩ := tempMat_ok dbg mode junk .row (hA.project (b1 := ib) (e1 := ie) (b2 := jb) (e2 := je) (by omega) hle (by omega) hjle)
        (hls.project (b := ib) (e := ie) (b' := jb) (e' := je) (by omega) hle hjle)
      obtain ⟨z, z1, _, z2⟩ := tempSeq_ok dbg mode junk (hx.project (b := jb) (e := je) (by omega) hjle)
      obtain ⟨p, p1, p2⟩ := prodVec_ok dbg mode d2 z2
      obtain ⟨t', q1, q2⟩ := assign_holds hsup (by simp) dbg mode .plus p2 ht
      refine ⟨t', by simp only [d1, z1, p1, bind_ok, q1], q2.congr fun i _ => ?_⟩
      simp only [AssignF.apply]
      rw [sum_block (fun j => a (ib + i) j * v j) (Nat.le_of_lt hjlt)]) (hz.congr fun i _ => by simp [AssignF.apply])
    obtain ⟨k1, k2⟩ := holds_iff h1
    obtain ⟨y', w1, w2, w3⟩ := writeBack dbg mode (c := fun i => ∑ j ∈ range c, a i j * v j) (Nat.le_of_lt hlt) (by omega : ie ≤ y.length) (by rw [k1, fresh_length]) k2 hy.2
    refine ⟨y', ?_, by rw [w2, hy.1], w3⟩
    simp only [g0, g1, bind_ok]
    exact w1) ⟨by simp [fresh], fun i hi => by omega⟩
  obtain ⟨y, e, h1, h2⟩ := hmain
  exact ⟨y, e, h1, h2⟩

/-- **C35** (vector times matrix): `block_prod<V, BS> (x, A)` is x A. -/
theorem C35_vector_matrix (dbg : Bool) (mode : ProdFn.Mode) (junk : Nat → R) (BS : Nat) (hBS : 0 < BS) (A : MSeq R) (r c : Nat) (a : Nat → Nat → R) (hA : A.Presents r c a)
    (ls : List Nat) (hls : Outer A.cat c r (fun j i => a i j) ls) (x : Seq R) (v : Nat → R) (hx : x.Presents r v) :
    ∃ y, vecMat dbg mode junk BS x A ls = .ok y ∧ y.length = c ∧ ∀ j, j < c → y[j]? = some (∑ i ∈ range r, v i * a i j) := by
  have hs1 : A.size1 = r := hA.size1
  have hs2 : A.size2 = c := hA.size2
  have hs3 : x.size = r := hx.size
  simp only [vecMat, hs1, hs2, hs3, same, check_True, bind_ok, Nat.min_self, pure_eq_ok]
  have hmain := blocks_inv (n := c) hBS (s := fresh junk c)
    (fun k (y : List R) => y.length = c ∧ ∀ j, j < k → y[j]? = some (∑ i ∈ range r, v i * a i j)) (body := fun j_begin j_end v => (do
      let v_range := fresh junk (j_end - j_begin)
      let T : VT (List R) R := VT.view dbg (j_end - j_begin) id
      let v_range ← VAssign.assign dbg mode .dense T .assign (VExpr.const (Seq.zero (j_end - j_begin))) v_range
      let v_range ← blocks BS r (fun i_begin i_end v_range => do
        let e1_range ← Axpy.tempSeq dbg mode junk (x.project i_begin i_end)
        let e2_range ← tempMat dbg mode junk .col (A.project i_begin i_end j_begin j_end) (projLines ls j_begin j_end)
        let p ← Expr.vecProd dbg mode e1_range (e2_range.toMSeq dbg .col)
        VAssign.assign dbg mode .dense T .plus (VExpr.const p) v_range) (r + 1) 0 v_range
      let q ← VAssign.denseSeq dbg v_range
      VAssign.assign dbg mode .denseProxy (VT.view dbg (j_end - j_begin) (j_begin + ·)) .assign (VExpr.const q) v : M (List R))) (by
    intro jb je y hlt hle hy
    have hsup := (view_supports dbg (je - jb) id (fresh junk (je - jb)) (id_inj (je - jb))).1
    obtain ⟨t0, g0, hz⟩ := assign_holds hsup (by simp) dbg mode .assign (zero_presents (je - jb)) (holds_of (fresh junk (je - jb)) (je - jb) (fresh_length junk (je - jb)))
    obtain ⟨t1, g1, h1⟩ := blocks_inv (n := r) hBS (s := t0) (fun k t => Axpy.Holds (ViewRep (je - jb) id (fresh junk (je - jb))) (je - jb) t (fun j => ∑ i ∈ range k, v i * a i (jb + j)))
      (body := fun i_begin i_end v_range => (do
        let e1_range ← Axpy.tempSeq dbg mode junk (x.project i_begin i_end)
        let e2_range ← tempMat dbg mode junk .col (A.project i_begin i_end jb je) (projLines ls jb je)
        let p ← Expr.vecProd dbg mode e1_range (e2_range.toMSeq dbg .col)
        VAssign.assign dbg mode .dense (VT.view dbg (je - jb) id) .plus (VExpr.const p) v_range : M (List R))) (by
      intro ib ie t hilt hile ht
      obtain ⟨d, d1, d2⟩ := tempMat_ok dbg mode junk .col (hA.project (b1 := ib) (e1 := ie) (b2 := jb) (e2 := je) (by omega) hile (by omega) hle)
        (hls.project (b := jb) (e := je) (b' := ib) (e' := ie) (by omega) hle hile)
      obtain ⟨z, z1, _, z2⟩ := tempSeq_ok dbg mode junk (hx.project (b := ib) (e := ie) (by omega) hile)
      obtain ⟨p, p1, p2⟩ := vecProd_ok dbg mode d2 z2
      obtain ⟨t', q1, q2⟩ := assign_holds hsup (by simp) dbg mode .plus p2 ht
      refine ⟨t', by simp only [d1, z1, p1, bind_ok, q1], q2.congr fun j _ => ?_⟩
      simp only [AssignF.apply]
      rw [sum_block (fun i => v i * a i (jb + j)) (Nat.le_of_lt hilt)]) (hz.congr fun i _ => by simp [AssignF.apply])
    obtain ⟨k1, k2⟩ := holds_iff h1
    obtain ⟨y', w1, w2, w3⟩ := writeBack dbg mode (c := fun j => ∑ i ∈ range r, v i * a i j) (Nat.le_of_lt hlt) (by omega : je ≤ y.length) (by rw [k1, fresh_length]) k2 hy.2
    refine ⟨y', ?_, by rw [w2, hy.1], w3⟩
    simp only [g0, g1, bind_ok]
    exact w1) ⟨by simp [fresh], fun i hi => by omega⟩
  obtain ⟨y, e, h1, h2⟩ := hmain
  exact ⟨y, e, h1, h2⟩

/-! ## Matrix times matrix -/

theorem MViewRep_fresh (o : Orient) (junk : Nat → R) (r c : Nat) : MHolds (MViewRep (o.sizeM r c) (o.sizem r c) (fun k l => o.elementRaw (o.indexM k l) r (o.indexm k l) c) (fresh junk (r * c)))
    (o.sizeM r c) (o.sizem r c) (fresh junk (r * c)) (fun p => (fresh junk (r * c)).getD (o.elementRaw (o.indexM p.1 p.2) r (o.indexm p.1 p.2) c) 0) := by
  have hw : (⟨r, c, fresh junk (r * c)⟩ : Dense R).WF := by simp [Dense.WF, fresh]
  exact ⟨_, _, _, dense_rep o ⟨r, c, fresh junk (r * c)⟩ hw, fun _ _ _ _ => rfl⟩

/-- Writing back the block `[b, e) x [b', e')` (major, minor) of a dense r x c matrix. -/
theorem writeBackM (dbg : Bool) (mode : ProdFn.Mode) (o : Orient) {r c : Nat} {m t : List R} {b e b' e' : Nat} {f : Nat → Nat → R} (hbe : b < e) (her : e ≤ o.sizeM r c)
    (hbe' : b' < e') (her' : e' ≤ o.sizem r c) (hm : m.length = r * c)
    (ht : (denseExp dbg o (⟨o.indexM e e' - o.indexM b b', o.indexm e e' - o.indexm b b', t⟩ : Dense R)).Presents (e - b) (e' - b') (fun k l => f (b + k) (b' + l))) :
    ∃ m', MAssign.assign dbg mode .denseProxy (MT.view dbg (e - b) (e' - b') fun k l => o.elementRaw (o.indexM (b + k) (b' + l)) r (o.indexm (b + k) (b' + l)) c) .assign
        (denseExp dbg o (⟨o.indexM e e' - o.indexM b b', o.indexm e e' - o.indexm b b', t⟩ : Dense R)) m = .ok m' ∧ m'.length = r * c ∧
      ∀ k l, k < o.sizeM r c → l < o.sizem r c → m'[o.elementRaw (o.indexM k l) r (o.indexm k l) c]? =
        if b ≤ k ∧ k < e ∧ b' ≤ l ∧ l < e' then some (f k l) else m[o.elementRaw (o.indexM k l) r (o.indexm k l) c]? := by
  have hinj0 := addr_inj o r c
  have hinj : ∀ k l i j, k < e - b → l < e' - b' → i < e - b → j < e' - b' →
      o.elementRaw (o.indexM (b + k) (b' + l)) r (o.indexm (b + k) (b' + l)) c = o.elementRaw (o.indexM (b + i) (b' + j)) r (o.indexm (b + i) (b' + j)) c → k = i ∧ l = j := by
    intro k l i j hk hl hi hj h
    have := hinj0 (b + k) (b' + l) (b + i) (b' + j) (by omega) (by omega) (by omega) (by omega) h
    omega
  have hlt : ∀ {k l : Nat}, k < o.sizeM r c → l < o.sizem r c → o.elementRaw (o.indexM k l) r (o.indexm k l) c < m.length := by
    intro k l hk hl
    have hb : o.indexM k l < r ∧ o.indexm k l < c := by cases o <;> first | exact ⟨hk, hl⟩ | exact ⟨hl, hk⟩
    rw [hm]; exact elementRaw_lt o hb.1 hb.2
  have hrep : MViewRep (e - b) (e' - b') (fun k l => o.elementRaw (o.indexM (b + k) (b' + l)) r (o.indexm (b + k) (b' + l)) c) m m (e - b) (e' - b')
      (fun k l => m.getD (o.elementRaw (o.indexM (b + k) (b' + l)) r (o.indexm (b + k) (b' + l)) c) 0) (if e' - b' = 0 then [] else List.range (e - b)) (fun _ => List.range (e' - b')) := by
    refine ⟨rfl, rfl, rfl, rfl, rfl, fun k l hk hl => ?_, fun _ _ => rfl⟩
    have := hlt (k := b + k) (l := b' + l) (by omega) (by omega)
    simp only [List.getD_eq_getElem?_getD, List.getElem?_eq_getElem this, Option.getD_some]
  obtain ⟨m', w', Ls', S', e1, h1, h2⟩ := C68_matrix_assign dbg mode .denseProxy .assign _ _ _ _ m _ _ _ (mview_supports dbg _ _ _ m hinj).2 (by simp) ht hrep
  obtain ⟨_, _, _, _, a5, a6, a7⟩ := h1
  refine ⟨m', e1, by rw [a5, hm], fun k l hk hl => ?_⟩
  by_cases hin : b ≤ k ∧ k < e ∧ b' ≤ l ∧ l < e'
  · rw [if_pos hin]
    have := a6 (k - b) (l - b') (by omega) (by omega)
    beta_reduce at this
    rw [h2 (k - b) (l - b') (by omega) (by omega), show b + (k - b) = k by omega, show b' + (l - b') = l by omega] at this
    simpa only [AssignF.apply] using this
  · rw [if_neg hin]
    refine a7 _ fun i j hi hj h => hin ?_
    have := hinj0 (b + i) (b' + j) k l (by omega) (by omega) hk hl h
    omega

theorem denseExp_presents (dbg : Bool) (o : Orient) {m : Dense R} (hw : m.WF) {a : Nat → Nat → R}
    (ha : ∀ i j, i < m.size1 → j < m.size2 → m.get dbg o i j = .ok (a i j)) :
    (denseExp dbg o m).Presents (o.sizeM m.size1 m.size2) (o.sizem m.size1 m.size2) (fun k l => a (o.indexM k l) (o.indexm k l)) := by
  have h := toMSeq_presents dbg o hw ha
  cases o with
  | row =>
    have ho := Outer.all .dense m.size1 m.size2 a
    exact h.byRows ho.sorted ho.lt ho.skip (fun _ => ho.packed (by simp)) (fun _ => ho.dense rfl)
  | col =>
    have ho := Outer.all .dense m.size2 m.size1 (fun j i => a i j)
    exact h.byCols ho.sorted ho.lt ho.skip (fun _ => ho.packed (by simp)) (fun _ => ho.dense rfl)

/-- **C35** (matrix times matrix): `block_prod<M, BS> (A, B)` is A B for every block size BS > 0, both orientations of the result and every shape. -/
theorem C35_matrix_matrix (dbg : Bool) (mode : ProdFn.Mode) (junk : Nat → R) (BS : Nat) (hBS : 0 < BS) (o : Orient) (A B : MSeq R) (p n q : Nat) (a b : Nat → Nat → R)
    (hA : A.Presents p n a) (hB : B.Presents n q b) (lsA lsB : List Nat) (hlA : Outer A.cat p n a lsA) (hlB : Outer B.cat q n (fun j i => b i j) lsB) :
    ∃ m, matMat dbg mode junk BS o A B lsA lsB = .ok m ∧ m.WF ∧ m.size1 = p ∧ m.size2 = q ∧
      ∀ i j, i < p → j < q → m.get dbg o i j = .ok (∑ k ∈ range n, a i k * b k j) := by
  have hs1 : A.size1 = p := hA.size1
  have hs2 : A.size2 = n := hA.size2
  have hs3 : B.size1 = n := hB.size1
  have hs4 : B.size2 = q := hB.size2
  have hmm : ∀ (i j : Nat), o.indexM (o.indexM i j) (o.indexm i j) = i ∧ o.indexm (o.indexM i j) (o.indexm i j) = j := by
    intro i j; cases o <;> exact ⟨rfl, rfl⟩
  let f : Nat → Nat → R := fun k l => ∑ t ∈ range n, a (o.indexM k l) t * b t (o.indexm k l)
  -- one block
  have hblock : ∀ kb ke lb le (m : List R), kb < ke → ke ≤ o.sizeM p q → lb < le → le ≤ o.sizem p q → m.length = p * q → ∃ m', block dbg mode junk BS o A B lsA lsB p q n kb ke lb le m = .ok m' ∧ m'.length = p * q ∧
      ∀ k l, k < o.sizeM p q → l < o.sizem p q → m'[o.elementRaw (o.indexM k l) p (o.indexm k l) q]? =
        if kb ≤ k ∧ k < ke ∧ lb ≤ l ∧ l < le then some (f k l) else m[o.elementRaw (o.indexM k l) p (o.indexm k l) q]? := by
    intro kb ke lb le m h1 h2 h3 h4 hm
    have hi : o.indexM kb lb < o.indexM ke le ∧ o.indexM ke le ≤ p ∧ o.indexm kb lb < o.indexm ke le ∧ o.indexm ke le ≤ q := by
      cases o
      · exact ⟨h1, h2, h3, h4⟩
      · exact ⟨h3, h4, h1, h2⟩
    obtain ⟨i1, i2, j1, j2⟩ := hi
    have hrM : o.sizeM (o.indexM ke le - o.indexM kb lb) (o.indexm ke le - o.indexm kb lb) = ke - kb := by cases o <;> rfl
    have hrm : o.sizem (o.indexM ke le - o.indexM kb lb) (o.indexm ke le - o.indexm kb lb) = le - lb := by cases o <;> rfl
    have haM : ∀ k l, o.indexM kb lb + o.indexM k l = o.indexM (kb + k) (lb + l) := by cases o <;> exact fun _ _ => rfl
    have ham : ∀ k l, o.indexm kb lb + o.indexm k l = o.indexm (kb + k) (lb + l) := by cases o <;> exact fun _ _ => rfl
    simp only [block]
    generalize hib : o.indexM kb lb = ib at *
    generalize hie : o.indexM ke le = ie at *
    generalize hjb : o.indexm kb lb = jb at *
    generalize hje : o.indexm ke le = je at *
    have hsup := (mview_supports dbg _ _ _ (fresh junk ((ie - ib) * (je - jb))) (addr_inj o (ie - ib) (je - jb))).1
    have hfresh := MViewRep_fresh o junk (ie - ib) (je - jb)
    rw [hrM, hrm] at hsup hfresh
    obtain ⟨t0, g0, hz⟩ := massign_holds hsup (by simp) dbg mode .assign (mzero_presents (ke - kb) (le - lb)) hfresh
    obtain ⟨t1, g1, hT⟩ := blocks_inv (n := n) hBS (s := t0) (fun x t => MHolds (MViewRep (ke - kb) (le - lb) (fun k l => o.elementRaw (o.indexM k l) (ie - ib) (o.indexm k l) (je - jb))
        (fresh junk ((ie - ib) * (je - jb)))) (ke - kb) (le - lb) t (fun y => ∑ t ∈ range x, a (o.indexM (kb + y.1) (lb + y.2)) t * b t (o.indexm (kb + y.1) (lb + y.2))))
      (body := fun k_begin k_end m_range => (do
        let e1_range ← tempMat dbg mode junk .row (A.project ib ie k_begin k_end) (projLines lsA ib ie)
        let e2_range ← tempMat dbg mode junk .col (B.project k_begin k_end jb je) (projLines lsB jb je)
        let p ← Expr.prodMat dbg mode o (e1_range.toMSeq dbg .row) (e2_range.toMSeq dbg .col)
        MAssign.assign dbg mode .dense (MT.view dbg (ke - kb) (le - lb) fun k l => o.elementRaw (o.indexM k l) (ie - ib) (o.indexm k l) (je - jb)) .plus p m_range : M (List R))) (by
      intro xb xe t hxlt hxle ht
      obtain ⟨d, d1, d2⟩ := tempMat_ok dbg mode junk .row (hA.project (b1 := ib) (e1 := ie) (b2 := xb) (e2 := xe) (by omega) i2 (by omega) hxle)
        (hlA.project (b := ib) (e := ie) (b' := xb) (e' := xe) (by omega) i2 hxle)
      obtain ⟨z, z1, z2⟩ := tempMat_ok dbg mode junk .col (hB.project (b1 := xb) (e1 := xe) (b2 := jb) (e2 := je) (by omega) hxle (by omega) j2)
        (hlB.project (b := jb) (e := je) (b' := xb) (e' := xe) (by omega) j2 hxle)
      obtain ⟨p, p1, p2⟩ := prodMat_ok dbg mode o d2 z2
      rw [hrM, hrm] at p2
      obtain ⟨t', q1, q2⟩ := massign_holds hsup (by simp) dbg mode .plus p2 ht
      refine ⟨t', by simp only [d1, z1, p1, bind_ok, q1], q2.congr fun k l _ _ => ?_⟩
      simp only [AssignF.apply, haM, ham]
      rw [sum_block (fun t => a (o.indexM (kb + k) (lb + l)) t * b t (o.indexm (kb + k) (lb + l))) (Nat.le_of_lt hxlt)]) (hz.congr fun k l _ _ => by simp [AssignF.apply])
    -- the finished temporary
    have hWF0 : (⟨ie - ib, je - jb, fresh junk ((ie - ib) * (je - jb))⟩ : Dense R).WF := by simp [Dense.WF, fresh]
    obtain ⟨w0, Ls0, S0, r1, r2⟩ := hT
    have r1' : MViewRep (o.sizeM (ie - ib) (je - jb)) (o.sizem (ie - ib) (je - jb)) (fun k l => o.elementRaw (o.indexM k l) (ie - ib) (o.indexm k l) (je - jb))
      (fresh junk ((ie - ib) * (je - jb))) t1 (ke - kb) (le - lb) w0 Ls0 S0 := by rw [hrM, hrm]; exact r1
    obtain ⟨u1, u2⟩ := dense_reads dbg o ⟨ie - ib, je - jb, fresh junk ((ie - ib) * (je - jb))⟩ hWF0 r1'
    have hpres := denseExp_presents dbg o (m := ⟨ie - ib, je - jb, t1⟩) u1 (a := fun i j => w0 (o.indexM i j) (o.indexm i j)) u2
    simp only [hrM, hrm, hmm] at hpres
    have hpres' : (denseExp dbg o (⟨ie - ib, je - jb, t1⟩ : Dense R)).Presents (ke - kb) (le - lb) (fun k l => f (kb + k) (lb + l)) := by
      refine { hpres with at_ := fun k l hk hl => ?_, inner := fun q hq => ⟨(hpres.inner q hq).1, fun p hp => ⟨((hpres.inner q hq).2 p hp).1, ?_⟩⟩, skipped := fun k l hk hl hn => ?_ }
      · rw [hpres.at_ k l hk hl, r2 k l hk hl]
      · rw [((hpres.inner q hq).2 p hp).2, r2 _ _ (hpres.lt q hq) ((hpres.inner q hq).2 p hp).1]
      · rw [← hpres.skipped k l hk hl hn, r2 k l hk hl]
    have hwb := writeBackM dbg mode o (r := p) (c := q) (m := m) (t := t1) (f := f) h1 h2 h3 h4 hm (by rw [hib, hie, hjb, hje]; exact hpres')
    rw [hib, hie, hjb, hje] at hwb
    obtain ⟨m', w1, w2, w3⟩ := hwb
    exact ⟨m', by rw [g0, bind_ok, g1, bind_ok]; exact w1, w2, w3⟩
  -- all blocks
  have hinner : ∀ kb ke (m : List R), kb < ke → ke ≤ o.sizeM p q →
      (m.length = p * q ∧ ∀ k l, k < o.sizeM p q → l < o.sizem p q → k < kb → m[o.elementRaw (o.indexM k l) p (o.indexm k l) q]? = some (f k l)) →
      ∃ m', blocks BS (o.sizem p q) (fun b' e' m => block dbg mode junk BS o A B lsA lsB p q n kb ke b' e' m) (o.sizem p q + 1) 0 m = .ok m' ∧
        (m'.length = p * q ∧ ∀ k l, k < o.sizeM p q → l < o.sizem p q → k < ke → m'[o.elementRaw (o.indexM k l) p (o.indexm k l) q]? = some (f k l)) := by
    intro kb ke m hlt hle hm
    obtain ⟨m', w1, w2, w3⟩ := blocks_inv (n := o.sizem p q) hBS (s := m) (body := fun b' e' m => block dbg mode junk BS o A B lsA lsB p q n kb ke b' e' m)
      (fun y (m : List R) => m.length = p * q ∧ ∀ k l, k < o.sizeM p q → l < o.sizem p q → (k < kb ∨ k < ke ∧ l < y) → m[o.elementRaw (o.indexM k l) p (o.indexm k l) q]? = some (f k l))
      (fun lb le m hlt' hle' hm => by
        obtain ⟨m', w1, w2, w3⟩ := hblock kb ke lb le m hlt hle hlt' hle' hm.1
        refine ⟨m', w1, w2, fun k l hk hl hc => ?_⟩
        rw [w3 k l hk hl]
        split
        · rfl
        · exact hm.2 k l hk hl (by omega)) ⟨hm.1, fun k l hk hl hc => hm.2 k l hk hl (by omega)⟩
    exact ⟨m', w1, w2, fun k l hk hl hc => w3 k l hk hl (.inr ⟨hc, hl⟩)⟩
  obtain ⟨data, e1, h1, h2⟩ := blocks_inv (n := o.sizeM p q) hBS (s := fresh junk (p * q))
    (body := fun b e m => blocks BS (o.sizem p q) (fun b' e' m => block dbg mode junk BS o A B lsA lsB p q n b e b' e' m) (o.sizem p q + 1) 0 m)
    (fun x (m : List R) => m.length = p * q ∧ ∀ k l, k < o.sizeM p q → l < o.sizem p q → k < x → m[o.elementRaw (o.indexM k l) p (o.indexm k l) q]? = some (f k l))
    hinner ⟨by simp [fresh], fun k l _ _ h => by omega⟩
  refine ⟨⟨p, q, data⟩, ?_, h1, rfl, rfl, fun i j hi hj => ?_⟩
  · simp only [matMat, hs1, hs2, hs3, hs4, same, check_True, bind_ok, Nat.min_self, pure_eq_ok]
    rw [e1, bind_ok]
  · have := h2 (o.indexM i j) (o.indexm i j) (CMat.major_lt o hi hj) (CMat.minor_lt o hi hj) (CMat.major_lt o hi hj)
    simp only [hmm, f] at this
    simp only [Dense.get, Orient.element, check_true hi, check_true hj, bind_ok, pure_eq_ok, rd_eq_ok, this]

/-- Block size zero is not usable: the loop over a non-empty range never ends. -/
theorem C35_zero_block_diverges {σ : Type} (n : Nat) (hn : 0 < n) (body : Nat → Nat → σ → M σ) (hb : ∀ b s, ∃ s', body b b s = .ok s') (s : σ) (fuel : Nat) :
    blocks 0 n body fuel 0 s = .error .diverge := by
  induction fuel generalizing s with
  | zero => rfl
  | succ f ih =>
    rw [blocks, if_pos hn]
    obtain ⟨s', e⟩ := hb 0 s
    simp only [Nat.min_zero, Nat.add_zero, e, bind_ok]
    exact ih s'

/-- Non-vacuity: a 3 x 3 matrix with block size 2 (a partial last block), debug build, both evaluation modes. -/
example : (let A : MSeq Int := ⟨3, 3, .dense, fun i => [(0, 3 * i + 1), (1, 3 * i + 2), (2, 3 * i + 3)], fun j => [(0, j + 1), (1, j + 4), (2, j + 7)], fun i j => .ok (3 * i + j + 1 : Nat)⟩
    let x : Seq Int := ⟨3, .dense, [(0, 1), (1, 2), (2, 3)], fun i => .ok (i + 1 : Nat)⟩
    matVec true .iterating (fun _ => 9) 2 A [0, 1, 2] x = .ok [14, 32, 50] ∧ vecMat true .indexing (fun _ => 9) 2 x A [0, 1, 2] = .ok [30, 36, 42] ∧
    matMat true .indexing (fun _ => 9) 2 .row A A [0, 1, 2] [0, 1, 2] = .ok ⟨3, 3, [30, 36, 42, 66, 81, 96, 102, 126, 150]⟩) := by
  refine ⟨?_, ?_, ?_⟩ <;> decide +kernel

end Blocked
end Ublas
