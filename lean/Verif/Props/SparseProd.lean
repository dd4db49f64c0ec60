import Verif.Model.SparseProd
import Verif.Props.AxpyMM
import Verif.Props.AxpySparse
/-! # C36: sparse_prod -/
namespace Ublas
open Finset Axpy
variable {σ R : Type} [CommRing R] [DecidableEq R]
namespace SparseProd

/-- `temporary` holds `v` and everything outside `[jb, je]` is zero. -/
def GRep (c : Nat) (g : Acc3 R) (v : Nat → R) : Prop :=
  g.temporary.length = c ∧ (∀ l, l < c → g.temporary[l]? = some (v l)) ∧ (∀ l, l < c → v l ≠ 0 → g.jb ≤ l ∧ l ≤ g.je) ∧ (0 < c → g.je < c)

theorem add_ok (dbg : Bool) (t : R) {c : Nat} {g : Acc3 R} {v : Nat → R} (h : GRep c g v) {u : Nat × R} (hu : u.1 < c) :
    ∃ g', add dbg t g u = .ok g' ∧ GRep c g' (fun l => v l + if l = u.1 then t * u.2 else 0) := by
  obtain ⟨h1, h2, h3, h4⟩ := h
  have e1 : rd dbg g.temporary u.1 = .ok (v u.1) := rd_eq_ok.2 (h2 _ hu)
  refine ⟨⟨g.temporary.set u.1 (v u.1 + t * u.2), min g.jb u.1, max g.je u.1⟩, ?_, ?_, ?_, ?_, ?_⟩
  · simp only [add, e1, bind_ok, wr_ok (h1 ▸ hu)]
  · simpa using h1
  · intro l hl
    simp only [List.getElem?_set]
    by_cases hlu : u.1 = l
    · subst hlu; simp [h1 ▸ hu]
    · have : l ≠ u.1 := fun e => hlu e.symm
      simp [hlu, this, h2 l hl]
  · intro l hl hne
    simp only
    by_cases hlu : l = u.1
    · subst hlu; omega
    · simp only [hlu, if_false, add_zero] at hne
      have := h3 l hl hne
      omega
  · intro hc; simp only; have := h4 hc; omega

theorem gather_ok (dbg : Bool) {r c m : Nat} {e : MExp R} {a : Nat → Nat → R} (he : e.Presents r m a) {line : Nat → Seq R} {b : Nat → Nat → R}
    (hb : ∀ j, j < m → (line j).Presents c (b j)) {q : Nat × List (Nat × R)} (hq : q ∈ e.lines) {tmp : List R} (htl : tmp.length = c) (ht : ∀ l, l < c → tmp[l]? = some 0) :
    ∃ g, gather dbg line q.2 tmp = .ok g ∧ GRep c g (fun l => ∑ j ∈ range m, a q.1 j * b j l) := by
  obtain ⟨g, e1, h1⟩ := foldlM_add (Rep := GRep c) (f := fun g p => (line p.1).els.foldlM (add dbg p.2) g)
    (g := fun p l => ((line p.1).els.map fun u => if l = u.1 then p.2 * u.2 else 0).sum) q.2 (⟨tmp, tmp.length, 0⟩ : Acc3 R) (fun _ => 0) (by
      intro g v p hp hg
      refine foldlM_add (Rep := GRep c) (g := fun u l => if l = u.1 then p.2 * u.2 else 0) (line p.1).els g v ?_ hg
      intro g v u hu hg
      exact add_ok dbg p.2 hg ((hb p.1 ((he.inner q hq).2 p hp).1).vals u hu).1) ⟨htl, ht, fun _ _ h => absurd rfl h, fun h => h⟩
  refine ⟨g, e1, ?_⟩
  obtain ⟨h1, h2, h3, h4⟩ := h1
  have hsum : ∀ l, l < c → (0 : R) + (q.2.map fun p => ((line p.1).els.map fun u => if l = u.1 then p.2 * u.2 else 0).sum).sum = ∑ j ∈ range m, a q.1 j * b j l := by
    intro l hl
    have hs : (q.2.map fun p => ((line p.1).els.map fun u => if l = u.1 then p.2 * u.2 else 0).sum) = q.2.map fun p => p.2 * b p.1 l := by
      refine List.map_congr_left fun p hp => ?_
      have hb' := hb p.1 ((he.inner q hq).2 p hp).1
      have hv := hb'.val hl
      rw [ProdFn.val] at hv
      rw [show ((line p.1).els.map fun u => if l = u.1 then p.2 * u.2 else 0) = (line p.1).els.map fun u => p.2 * (if u.1 = l then u.2 else 0) from List.map_congr_left fun u _ => by
        by_cases hul : u.1 = l
        · simp [hul]
        · have : ¬ l = u.1 := fun e => hul e.symm
          simp [hul, this], List.sum_map_mul_left, hv]
    rw [hs, sum_map_eq_dot (n := m) (fun j => b j l) q.2 fun p hp => ((he.inner q hq).2 p hp).1, zero_add]
    exact ProdFn.dot_congr (fun j hj => line_val he hq hj) fun _ _ => rfl
  refine ⟨h1, fun l hl => ?_, fun l hl hne => ?_, h4⟩
  · rw [h2 l hl]; exact congrArg some (hsum l hl)
  · exact h3 l hl (by beta_reduce; rw [hsum l hl]; exact hne)

theorem flush_ok {V : Acc σ (Nat × Nat) R} {H : σ → (Nat × Nat → R) → Prop} {r c : Nat} (hV : V.Lawful (fun p => p.1 < r ∧ p.2 < c) H) (dbg : Bool) (other : Nat → Nat → Bool) (hc : 0 < c)
    {k : Nat} (hk : k < r) {g : Acc3 R} {v : Nat → R} (hg : GRep c g v) {s : σ} {w : Nat × Nat → R} (h : H s w) :
    ∃ tmp s' w', flush dbg other V k g s = .ok (tmp, s') ∧ tmp.length = c ∧ (∀ l, l < c → tmp[l]? = some 0) ∧ H s' w' ∧
      ∀ i l, l < c → w' (i, l) = if i = k ∧ other k l = true ∧ v l ≠ 0 then v l else w (i, l) := by
  obtain ⟨h1, h2, h3, h4⟩ := hg
  have hje := h4 hc
  obtain ⟨⟨tmp, s'⟩, e1, i1, i2, w', i3, i4⟩ := loop_inv (n := g.je + 1 - g.jb) (s := (g.temporary, s)) (f := fun d st => (do
    let j := g.jb + d
    let t ← rd dbg st.1 j
    if t ≠ 0 then do
      let s ← (if other k j then V.set st.2 (k, j) t else .ok st.2 : M σ)
      let tmp ← wr dbg st.1 j 0
      .ok (tmp, s)
    else .ok st : M (List R × σ))) (fun d st => st.1.length = c ∧ (∀ l, l < c → st.1[l]? = some (if g.jb ≤ l ∧ l < g.jb + d then 0 else v l)) ∧ ∃ w', H st.2 w' ∧
      ∀ i l, l < c → w' (i, l) = if i = k ∧ other k l = true ∧ v l ≠ 0 ∧ g.jb ≤ l ∧ l < g.jb + d then v l else w (i, l))
    ⟨h1, fun l hl => by rw [h2 l hl, if_neg (by omega)], w, h, fun i l hl => by rw [if_neg (by omega)]⟩ (by
      rintro d ⟨tmp, s⟩ hd ⟨i1, i2, w', i3, i4⟩
      simp only at i1 i2 i3 i4
      have hj : g.jb + d < c := by omega
      have e0 : rd dbg tmp (g.jb + d) = .ok (v (g.jb + d)) := rd_eq_ok.2 (by rw [i2 _ hj, if_neg (by omega)])
      simp only [e0, bind_ok]
      by_cases hz : v (g.jb + d) = 0
      · rw [if_neg (by simpa using hz)]
        refine ⟨_, rfl, i1, fun l hl => ?_, w', i3, fun i l hl => ?_⟩
        · simp only [i2 l hl]
          by_cases hld : l = g.jb + d
          · subst hld; simp [hz]
          · have : (g.jb ≤ l ∧ l < g.jb + d) ↔ (g.jb ≤ l ∧ l < g.jb + (d + 1)) := by omega
            simp only [this]
        · rw [i4 i l hl]
          by_cases hld : l = g.jb + d
          · subst hld; simp [hz]
          · have : (g.jb ≤ l ∧ l < g.jb + d) ↔ (g.jb ≤ l ∧ l < g.jb + (d + 1)) := by omega
            simp only [this]
      · rw [if_pos (by simpa using hz)]
        have hset : ∀ l, l < c → (tmp.set (g.jb + d) 0)[l]? = some (if g.jb ≤ l ∧ l < g.jb + (d + 1) then 0 else v l) := by
          intro l hl
          rw [List.getElem?_set]
          by_cases hld : g.jb + d = l
          · subst hld; simp [i1, hl]
          · rw [if_neg hld, i2 l hl]
            have : (g.jb ≤ l ∧ l < g.jb + d) ↔ (g.jb ≤ l ∧ l < g.jb + (d + 1)) := by omega
            simp only [this]
        by_cases ho : other k (g.jb + d) = true
        · obtain ⟨s1, e2, h'⟩ := hV.set s w' i3 (k, g.jb + d) ⟨hk, hj⟩ (v (g.jb + d))
          refine ⟨(tmp.set (g.jb + d) 0, s1), by simp only [ho, if_true, e2, bind_ok, wr_ok (i1 ▸ hj : g.jb + d < tmp.length)], by simpa using i1, hset, _, h', fun i l hl => ?_⟩
          rw [Function.update_apply]
          by_cases hil : (i, l) = (k, g.jb + d)
          · obtain ⟨rfl, rfl⟩ := Prod.mk.inj hil
            rw [if_pos rfl, if_pos ⟨rfl, ho, hz, by omega, by omega⟩]
          · rw [if_neg hil, i4 i l hl]
            have : (i = k ∧ other k l = true ∧ v l ≠ 0 ∧ g.jb ≤ l ∧ l < g.jb + d) ↔ (i = k ∧ other k l = true ∧ v l ≠ 0 ∧ g.jb ≤ l ∧ l < g.jb + (d + 1)) := by
              constructor
              · rintro ⟨a, b, c, d, e⟩; exact ⟨a, b, c, d, by omega⟩
              · rintro ⟨a, b, c, d', e⟩
                refine ⟨a, b, c, d', ?_⟩
                have : l ≠ g.jb + d := fun e => hil (by rw [a, e])
                omega
            simp only [this]
        · refine ⟨(tmp.set (g.jb + d) 0, s), by simp only [ho, bind_ok, wr_ok (i1 ▸ hj : g.jb + d < tmp.length)]; rfl, by simpa using i1, hset, w', i3, fun i l hl => ?_⟩
          rw [i4 i l hl]
          have : (i = k ∧ other k l = true ∧ v l ≠ 0 ∧ g.jb ≤ l ∧ l < g.jb + d) ↔ (i = k ∧ other k l = true ∧ v l ≠ 0 ∧ g.jb ≤ l ∧ l < g.jb + (d + 1)) := by
            constructor
            · rintro ⟨a, b, c, d, e⟩; exact ⟨a, b, c, d, by omega⟩
            · rintro ⟨a, b, c, d', e⟩
              refine ⟨a, b, c, d', ?_⟩
              have : l ≠ g.jb + d := fun e => ho (by rw [← e]; exact b)
              omega
          simp only [this])
  simp only at i1 i2 i3 i4
  refine ⟨tmp, s', w', e1, i1, fun l hl => ?_, i3, fun i l hl => ?_⟩
  · rw [i2 l hl]
    by_cases hz : v l = 0
    · simp [hz]
    · have := h3 l hl hz
      rw [if_pos (by omega)]
  · rw [i4 i l hl]
    by_cases hz : v l = 0
    · simp [hz]
    · have := h3 l hl hz
      have h5 : g.jb ≤ l ∧ l < g.jb + (g.je + 1 - g.jb) := by omega
      simp only [h5, and_true]

theorem run_ok {V : Acc σ (Nat × Nat) R} {H : σ → (Nat × Nat → R) → Prop} {r c m : Nat} (hV : V.Lawful (fun p => p.1 < r ∧ p.2 < c) H) (dbg : Bool) (other : Nat → Nat → Bool)
    {e : MExp R} {a : Nat → Nat → R} (he : e.Presents r m a) (hc : 0 < c ∨ e.lines = []) {line : Nat → Seq R} {b : Nat → Nat → R} (hb : ∀ j, j < m → (line j).Presents c (b j)) {s : σ}
    {w : Nat × Nat → R} (h : H s w) :
    ∃ s' w', run dbg other c e.lines line V s = .ok s' ∧ H s' w' ∧
      ∀ k l, k < r → l < c → w' (k, l) = if other k l = true ∧ (∑ j ∈ range m, a k j * b j l) ≠ 0 then ∑ j ∈ range m, a k j * b j l else w (k, l) := by
  have key : ∀ (L : List (Nat × List (Nat × R))), (∀ q ∈ L, q ∈ e.lines) → ∀ (tmp : List R) (s : σ) (w : Nat × Nat → R), tmp.length = c → (∀ l, l < c → tmp[l]? = some 0) → H s w →
      ∃ tmp' s' w', L.foldlM (fun st q => (do
        let g ← gather dbg line q.2 st.1
        flush dbg other V q.1 g st.2 : M (List R × σ))) (tmp, s) = .ok (tmp', s') ∧ H s' w' ∧
        ∀ k l, k < r → l < c → w' (k, l) = if k ∈ L.map (·.1) ∧ other k l = true ∧ (∑ j ∈ range m, a k j * b j l) ≠ 0 then ∑ j ∈ range m, a k j * b j l else w (k, l) := by
    intro L
    induction L with
    | nil => intro _ tmp s w _ _ hs; exact ⟨tmp, s, w, rfl, hs, fun k l _ _ => by simp⟩
    | cons q L ih =>
      intro hL tmp s w htl ht hs
      have hq : q ∈ e.lines := hL q (by simp)
      have hc' : 0 < c := by
        rcases hc with hc | hc
        · exact hc
        · rw [hc] at hq; cases hq
      obtain ⟨g, e1, hg⟩ := gather_ok dbg he hb hq htl ht
      obtain ⟨tmp1, s1, w1, e2, f1, f2, f3, f4⟩ := flush_ok hV dbg other hc' (he.lt q hq) hg hs
      obtain ⟨tmp2, s2, w2, e3, g1, g2⟩ := ih (fun q hq => hL q (by simp [hq])) tmp1 s1 w1 f1 f2 f3
      refine ⟨tmp2, s2, w2, by simp only [List.foldlM_cons, e1, e2, bind_ok]; exact e3, g1, fun k l hk hl => ?_⟩
      rw [g2 k l hk hl, f4 k l hl]
      by_cases hkq : k = q.1
      · subst hkq
        by_cases hz : other q.1 l = true ∧ (∑ j ∈ range m, a q.1 j * b j l) ≠ 0
        · simp [hz]
        · simp only [true_and]; rw [if_neg (fun h => hz h.2), if_neg hz, if_neg (fun h => hz h.2)]
      · have hm : k ∈ (q :: L).map (·.1) ↔ k ∈ L.map (·.1) := by simp [hkq]
        rw [if_neg (c := k = q.1 ∧ _) (fun h => hkq h.1)]
        simp only [hm]
  obtain ⟨tmp', s', w', e1, h1, h2⟩ := key e.lines (fun _ h => h) (List.replicate c 0) s w (by simp) (fun l hl => by simp [hl]) h
  refine ⟨s', w', by simp only [run, e1, bind_ok], h1, fun k l hk hl => ?_⟩
  rw [h2 k l hk hl]
  by_cases hm : k ∈ e.lines.map (·.1)
  · simp only [hm, true_and]
  · have hz : (∑ j ∈ range m, a k j * b j l) = 0 := sum_eq_zero fun j hj => by rw [zero_line he hk hm (by simpa using hj), zero_mul]
    simp [hm, hz]

variable {T : MT σ R} {Rep : MRep σ R} {sc : StorageCat}

/-- **C36**, for results whose minor size (columns of a row_major, rows of a column_major result) is not zero.  `sparse_prod (A, B, m[, TRI], init)` sets every element allowed by the
restriction where A B is not zero to A B; the others become 0 (`init`) or keep their value.  Hence with `init` and no restriction, m = A B. -/
theorem C36_sparse_prod_partial (dbg : Bool) (mode : ProdFn.Mode) (hT : T.Supports sc Rep) (hsc : sc ≠ .packed ∧ sc ≠ .packedProxy) (hr : T.ReadsAll Rep)
    (o : Orient) (other : Nat → Nat → Bool) (A B : MSeq R) (p q m : Nat) (a b : Nat → Nat → R) (hA : A.Presents p m a) (hB : B.Presents m q b) (ls : List Nat)
    (hls : match o with | .row => Outer A.cat p m a ls | .col => Outer B.cat q m (fun j i => b i j) ls) (init : Bool) (s : σ) (w : Nat → Nat → R) (Ls : List Nat) (S : Nat → List Nat)
    (h : Rep s (o.sizeM p q) (o.sizem p q) w Ls S) (hne : 0 < o.sizem p q ∨ ls = []) :
    ∃ s' w' Ls' S', prod dbg mode sc T o other A B ls init s = .ok s' ∧ Rep s' (o.sizeM p q) (o.sizem p q) w' Ls' S' ∧
      ∀ i j, i < p → j < q → w' (o.indexM i j) (o.indexm i j) =
        if other i j = true ∧ (∑ k ∈ range m, a i k * b k j) ≠ 0 then ∑ k ∈ range m, a i k * b k j else if init then 0 else w (o.indexM i j) (o.indexm i j) := by
  obtain ⟨s1, e1, h1⟩ := initMat_holds hT hsc dbg mode init (r := o.sizeM p q) (c := o.sizem p q) (w := fun p => w p.1 p.2) ⟨w, Ls, S, h, fun _ _ _ _ => rfl⟩
  have hV := macc_lawful (r := o.sizeM p q) (c := o.sizem p q) (mgrows_of hT hsc) hr
  have hs1 : A.size1 = p := hA.size1
  have hs4 : B.size2 = q := hB.size2
  simp only [prod, hs1, hs4, e1, bind_ok]
  cases o with
  | row =>
    have he := hA.byRows hls.sorted hls.lt hls.skip hls.packed hls.dense
    obtain ⟨s', w1, e2, ⟨w', Ls', S', h2, h3⟩, h4⟩ := run_ok (r := p) (c := q) hV dbg other he (hne.imp id fun e => by simp [MExp.byRows, e]) (fun j hj => hB.rows j hj) h1
    exact ⟨s', w', Ls', S', e2, h2, fun i j hi hj => (h3 i j hi hj).trans (h4 i j hi hj)⟩
  | col =>
    have he := hB.byCols hls.sorted hls.lt hls.skip hls.packed hls.dense
    obtain ⟨s', w1, e2, ⟨w', Ls', S', h2, h3⟩, h4⟩ := run_ok (r := q) (c := p) hV dbg (fun k l => other l k) he (hne.imp id fun e => by simp [MExp.byCols, e]) (fun j hj => hA.cols j hj) h1
    refine ⟨s', w', Ls', S', e2, h2, fun i j hi hj => (h3 j i hj hi).trans ((h4 j i hj hi).trans ?_)⟩
    rw [show (∑ k ∈ range m, b k j * a i k) = ∑ k ∈ range m, a i k * b k j from sum_congr rfl fun _ _ => mul_comm _ _]
    rfl

/-- **C36 fails** for results without minor elements (columns of a row_major, rows of a column_major result): as soon as the iterators visit a line of the coefficient
operand, `temporary (0)` of an empty vector is read: bad_index in a debug build, undefined behaviour in release. -/
theorem C36_empty_result_refuted (dbg : Bool) (mode : ProdFn.Mode) (hT : T.Supports sc Rep) (hsc : sc ≠ .packed ∧ sc ≠ .packedProxy)
    (o : Orient) (other : Nat → Nat → Bool) (A B : MSeq R) (p q m : Nat) (a b : Nat → Nat → R) (hA : A.Presents p m a) (hB : B.Presents m q b) (ls : List Nat)
    (hls : match o with | .row => Outer A.cat p m a ls | .col => Outer B.cat q m (fun j i => b i j) ls) (init : Bool) (s : σ) (w : Nat → Nat → R) (Ls : List Nat) (S : Nat → List Nat)
    (h : Rep s (o.sizeM p q) (o.sizem p q) w Ls S) (h0 : o.sizem p q = 0) (hne : ls ≠ []) :
    prod dbg mode sc T o other A B ls init s = .error (if dbg then .badIndex else .ub) := by
  obtain ⟨s1, e1, h1⟩ := initMat_holds hT hsc dbg mode init (r := o.sizeM p q) (c := o.sizem p q) (w := fun p => w p.1 p.2) ⟨w, Ls, S, h, fun _ _ _ _ => rfl⟩
  have hs1 : A.size1 = p := hA.size1
  have hs4 : B.size2 = q := hB.size2
  simp only [prod, hs1, hs4, e1, bind_ok]
  have key : ∀ (e : MExp R) (r : Nat) (f g : Nat → Nat → R) (line : Nat → Seq R) (other : Nat → Nat → Bool), e.Presents r m f → (∀ j, j < m → (line j).Presents 0 (g j)) →
      e.lines ≠ [] → run dbg other 0 e.lines line T.acc s1 = .error (if dbg then .badIndex else .ub) := by
    intro e r f g line other he hb hl
    obtain ⟨t, L, hL⟩ := List.exists_cons_of_ne_nil hl
    have ht : t ∈ e.lines := by rw [hL]; simp
    have hg : gather dbg line t.2 ([] : List R) = .ok ⟨[], 0, 0⟩ := by
      have : ∀ l : List (Nat × R), (∀ p ∈ l, p.1 < m) → l.foldlM (fun g p => (line p.1).els.foldlM (add dbg p.2) g) (⟨[], 0, 0⟩ : Acc3 R) = .ok ⟨[], 0, 0⟩ := by
        intro l
        induction l with
        | nil => intro _; rfl
        | cons p l ih =>
          intro hl
          have hn : (line p.1).els = [] := by
            rw [List.eq_nil_iff_forall_not_mem]
            intro u hu
            exact absurd ((hb p.1 (hl p (by simp))).vals u hu).1 (by omega)
          rw [List.foldlM_cons, hn, List.foldlM_nil, pure_eq_ok, bind_ok]
          exact ih fun p hp => hl p (by simp [hp])
      exact this t.2 fun p hp => ((he.inner t ht).2 p hp).1
    have hf : flush dbg other T.acc t.1 (⟨[], 0, 0⟩ : Acc3 R) s1 = .error (if dbg then .badIndex else .ub) := rfl
    simp only [run, hL, List.foldlM_cons, List.replicate_zero, hg, bind_ok, hf]
    rfl
  cases o with
  | row =>
    have he := hA.byRows hls.sorted hls.lt hls.skip hls.packed hls.dense
    have hq : q = 0 := h0
    subst hq
    exact key _ p a b B.row other he (fun j hj => hB.rows j hj) (by simpa [MExp.byRows] using hne)
  | col =>
    have he := hB.byCols hls.sorted hls.lt hls.skip hls.packed hls.dense
    have hp : p = 0 := h0
    subst hp
    exact key _ q (fun j i => b i j) (fun j i => a i j) A.col (fun k l => other l k) he (fun j hj => hA.cols j hj) (by simpa [MExp.byCols] using hne)

/-- A 2 x 2 dense operand. -/
def exA : MSeq Int := ⟨2, 2, .dense, fun i => [(0, 2 * i + 1), (1, 2 * i + 2)], fun j => [(0, j + 1), (1, j + 3)], fun i j => .ok (2 * i + j + 1 : Nat)⟩
/-- A 2 x 0 operand. -/
def exB : MSeq Int := ⟨2, 0, .dense, fun _ => [], fun _ => [], fun _ _ => .ok 0⟩

/-- Non-vacuity: into a row_major compressed matrix that already has an element, with and without restriction and `init`, and into an empty result. -/
example : ((do
      let m0 ← CMat.ctor true .row 0 (fun _ => 7, fun _ => 9) 2 2 4
      let m1 ← prod true .indexing .sparse (MT.compressed true .row 0 (fun _ => 7, fun _ => 9)) .row (fun _ _ => true) exA exA [0, 1] true m0
      let m2 ← prod true .indexing .sparse (MT.compressed true .row 0 (fun _ => 7, fun _ => 9)) .row (fun i j => decide (j ≤ i)) exA exA [0, 1] true m1
      .ok (m1.val.take m1.filled2, m2.val.take m2.filled2) : M (List Int × List Int)) = .ok ([7, 10, 15, 22], [7, 15, 22])) ∧
    prod false .indexing .dense (MT.view false 2 0 fun k _ => k) .row (fun _ _ => true) exA exB [0, 1] true [] = .error .ub := by
  refine ⟨?_, ?_⟩ <;> decide +kernel

end SparseProd
end Ublas
