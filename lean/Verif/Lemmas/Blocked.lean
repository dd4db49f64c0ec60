import Verif.Model.Blocked
import Verif.Props.Opb
/-! # Blocks, projections of operands, products as expressions -/
namespace Ublas
open Finset
variable {σ R : Type}

/-- Rule for the block loops: whatever the block size, the blocks tile `[0, n)`. -/
theorem Blocked.blocks_inv {BS n : Nat} (hBS : 0 < BS) {body : Nat → Nat → σ → M σ} (P : Nat → σ → Prop)
    (hstep : ∀ b e s, b < e → e ≤ n → P b s → ∃ s', body b e s = .ok s' ∧ P e s') {s : σ} (h0 : P 0 s) :
    ∃ s', blocks BS n body (n + 1) 0 s = .ok s' ∧ P n s' := by
  have key : ∀ f b s, n < b + f → b ≤ n → P b s → ∃ s', blocks BS n body f b s = .ok s' ∧ P n s' := by
    intro f
    induction f with
    | zero => intro b s h1 h2; omega
    | succ f ih =>
      intro b s h1 h2 hp
      rw [blocks]
      by_cases hb : b < n
      · rw [if_pos hb]
        obtain ⟨s1, e1, p1⟩ := hstep b (b + min (n - b) BS) s (by omega) (by omega) hp
        simp only [e1, bind_ok]
        by_cases hlast : b + BS ≤ n
        · rw [show b + min (n - b) BS = b + BS by omega] at p1
          exact ih (b + BS) s1 (by omega) hlast p1
        · rw [show b + min (n - b) BS = n by omega] at p1
          refine ⟨s1, ?_, p1⟩
          have hf : 0 < f := by omega
          obtain ⟨f', rfl⟩ := Nat.exists_eq_succ_of_ne_zero (by omega : f ≠ 0)
          rw [blocks, if_neg (by omega)]
      · rw [if_neg hb]
        have : b = n := by omega
        exact ⟨s, rfl, this ▸ hp⟩
  exact key (n + 1) 0 s (by omega) (by omega) h0

theorem filter_range'_of_le {b e : Nat} : ∀ (n off : Nat), b ≤ off → (List.range' off n).filter (fun i => b ≤ i ∧ i < e) = List.range' off (min n (e - off))
  | 0, off, _ => by simp
  | n + 1, off, h => by
    rw [List.range'_succ]
    by_cases he : off < e
    · rw [List.filter_cons_of_pos (by simp [h, he]), filter_range'_of_le n (off + 1) (by omega)]
      rw [show min (n + 1) (e - off) = min n (e - (off + 1)) + 1 by omega, List.range'_succ]
    · rw [List.filter_cons_of_neg (by simp [he]), filter_range'_of_le n (off + 1) (by omega)]
      rw [show e - (off + 1) = 0 by omega, show e - off = 0 by omega]; simp

theorem filter_range' {b e : Nat} : ∀ (n off : Nat), off ≤ b → (List.range' off n).filter (fun i => b ≤ i ∧ i < e) = List.range' b (min (n - (b - off)) (e - b))
  | 0, off, _ => by simp
  | n + 1, off, h => by
    rcases Nat.lt_or_ge off b with hlt | hge
    · rw [List.range'_succ, List.filter_cons_of_neg (by simp; omega), filter_range' n (off + 1) (by omega)]
      rw [show n + 1 - (b - off) = n - (b - (off + 1)) by omega]
    · have : off = b := by omega
      subst this
      rw [filter_range'_of_le (n + 1) off (Nat.le_refl _)]; simp

/-- Cutting `[b, e)` out of consecutive indices leaves consecutive indices. -/
theorem consec_proj {b e : Nat} (n off : Nat) : ∃ o' k, ((List.range' off n).filter (fun i => b ≤ i ∧ i < e)).map (· - b) = List.range' o' k := by
  rcases Nat.le_total b off with h | h
  · rw [filter_range'_of_le n off h, List.map_sub_range' h _]
    exact ⟨_, _, rfl⟩
  · rw [filter_range' n off h, List.map_sub_range' (Nat.le_refl _) _]
    exact ⟨_, _, rfl⟩

theorem range_proj {b e n : Nat} (hbe : b ≤ e) (hen : e ≤ n) : ((List.range n).filter (fun i => b ≤ i ∧ i < e)).map (· - b) = List.range (e - b) := by
  rw [List.range_eq_range', filter_range' n 0 (Nat.zero_le _), List.map_sub_range' (Nat.le_refl _) _, show min (n - (b - 0)) (e - b) = e - b by omega, Nat.sub_self, ← List.range_eq_range']

theorem projLines_sorted {ls : List Nat} (h : ls.Pairwise (· < ·)) (b e : Nat) : (projLines ls b e).Pairwise (· < ·) := by
  unfold projLines
  rw [List.pairwise_map]
  refine List.Pairwise.imp_of_mem ?_ (List.Pairwise.filter _ h)
  intro x y hx hy hxy
  have h1 := (List.mem_filter.1 hx).2
  have h2 := (List.mem_filter.1 hy).2
  simp only [decide_eq_true_eq] at h1 h2
  omega

theorem mem_projLines {ls : List Nat} {b e i : Nat} : i ∈ projLines ls b e ↔ b + i ∈ ls ∧ b + i < e := by
  simp only [projLines, List.mem_map, List.mem_filter, decide_eq_true_eq]
  constructor
  · rintro ⟨k, ⟨h1, h2, h3⟩, rfl⟩
    rw [show b + (k - b) = k by omega]; exact ⟨h1, h3⟩
  · rintro ⟨h1, h2⟩
    exact ⟨b + i, ⟨h1, by omega, h2⟩, by omega⟩

theorem projLines_consec {ls : List Nat} {off : Nat} (h : ls = List.range' off ls.length) (b e : Nat) : ∃ o', projLines ls b e = List.range' o' (projLines ls b e).length := by
  obtain ⟨o', k, hk⟩ := consec_proj (b := b) (e := e) ls.length off
  rw [← h] at hk
  refine ⟨o', ?_⟩
  unfold projLines
  rw [hk, List.length_range']

theorem Seq.project_idx (s : Seq R) (b e : Nat) : (s.project b e).els.map (·.1) = projLines (s.els.map (·.1)) b e := by
  simp only [Seq.project, projLines, List.map_map, List.filter_map]
  rfl

/-- A projection of an operand presents the corresponding part of the vector. -/
theorem Seq.Presents.project [Semiring R] {s : Seq R} {n : Nat} {v : Nat → R} (h : s.Presents n v) {b e : Nat} (hbe : b ≤ e) (hen : e ≤ n) :
    (s.project b e).Presents (e - b) (fun i => v (b + i)) where
  size := rfl
  at_ i hi := h.at_ (b + i) (by omega)
  vals p hp := by
    simp only [Seq.project, List.mem_map, List.mem_filter, decide_eq_true_eq] at hp
    obtain ⟨q, ⟨h1, h2, h3⟩, rfl⟩ := hp
    refine ⟨by show q.1 - b < e - b; omega, ?_⟩
    show q.2 = v (b + (q.1 - b))
    rw [show b + (q.1 - b) = q.1 by omega]; exact (h.vals q h1).2
  sorted := by rw [Seq.project_idx]; exact projLines_sorted h.sorted b e
  skipped i hi hn := by
    rw [Seq.project_idx, mem_projLines] at hn
    exact h.skipped (b + i) (by omega) fun hm => hn ⟨hm, by omega⟩
  packed hc := by
    obtain ⟨off, ho⟩ := h.packed hc
    obtain ⟨o', h'⟩ := projLines_consec (ls := s.els.map (·.1)) (off := off) (by rw [List.length_map]; exact ho) b e
    refine ⟨o', ?_⟩
    rw [← Seq.project_idx, List.length_map] at h'
    exact h'
  dense hc := by
    rw [Seq.project_idx, projLines, h.dense hc]; exact range_proj hbe hen

theorem MSeq.Presents.project [Semiring R] {m : MSeq R} {r c : Nat} {a : Nat → Nat → R} (h : m.Presents r c a) {b1 e1 b2 e2 : Nat} (h1 : b1 ≤ e1) (h2 : e1 ≤ r) (h3 : b2 ≤ e2)
    (h4 : e2 ≤ c) : (m.project b1 e1 b2 e2).Presents (e1 - b1) (e2 - b2) (fun i j => a (b1 + i) (b2 + j)) where
  size1 := rfl
  size2 := rfl
  rows i hi := (h.rows (b1 + i) (by omega)).project h3 h4
  cols j hj := (h.cols (b2 + j) (by omega)).project h1 h2

theorem Axpy.Outer.project [CommRing R] [DecidableEq R] {cat : Cat} {r c : Nat} {a : Nat → Nat → R} {ls : List Nat} (h : Outer cat r c a ls) {b e b' e' : Nat} (h1 : b ≤ e) (h2 : e ≤ r)
    (h4 : e' ≤ c) : Outer cat (e - b) (e' - b') (fun i j => a (b + i) (b' + j)) (projLines ls b e) where
  sorted := projLines_sorted h.sorted b e
  lt i hi := by rw [mem_projLines] at hi; omega
  skip i hi hn j hj := by
    rw [mem_projLines] at hn
    exact h.skip (b + i) (by omega) (fun hm => hn ⟨hm, by omega⟩) (b' + j) (by omega)
  packed hc := by
    obtain ⟨off, ho⟩ := h.packed hc
    exact projLines_consec ho b e
  dense hc hne := by
    rw [projLines, h.dense hc (by omega)]; exact range_proj h1 h2

theorem mapM_range {β : Type} {f : Nat → M β} {g : Nat → β} {n : Nat} (h : ∀ i, i < n → f i = .ok (g i)) : (List.range n).mapM f = .ok ((List.range n).map g) := by
  have : ∀ l : List Nat, (∀ i ∈ l, i < n) → l.mapM f = .ok (l.map g) := by
    intro l
    induction l with
    | nil => intro _; rfl
    | cons i l ih =>
      intro hl
      rw [List.mapM_cons, h i (hl i (by simp)), bind_ok, ih fun k hk => hl k (by simp [hk])]
      rfl
  exact this _ fun i hi => by simpa using hi

/-- One element per index, in order. -/
theorem Seq.presents_all [Semiring R] {n : Nat} {v : Nat → R} (cat : Cat) {get : Nat → M R} (hg : ∀ i, i < n → get i = .ok (v i)) :
    (⟨n, cat, (List.range n).map fun i => (i, v i), get⟩ : Seq R).Presents n v where
  size := rfl
  at_ := hg
  vals p hp := by
    simp only [List.mem_map, List.mem_range] at hp
    obtain ⟨i, hi, rfl⟩ := hp
    exact ⟨hi, rfl⟩
  sorted := by simp only [List.map_map, Function.comp_def, List.map_id']; exact List.pairwise_lt_range
  skipped i hi hn := absurd (by simpa [Function.comp_def] using hi) hn
  packed _ := ⟨0, by simp [Function.comp_def, List.range_eq_range']⟩
  dense _ := by simp [Function.comp_def]

section prods
variable [CommRing R] [DecidableEq R]

theorem prodVec_ok (dbg : Bool) (mode : ProdFn.Mode) {A : MSeq R} {x : Seq R} {r c : Nat} {a : Nat → Nat → R} {v : Nat → R} (hA : A.Presents r c a) (hx : x.Presents c v) :
    ∃ p, Expr.prodVec dbg mode A x = .ok p ∧ p.Presents r (fun i => ∑ j ∈ range c, a i j * v j) := by
  have hs : A.size1 = r := hA.size1
  have h1 : ∀ i, i < r → ProdFn.mv1At dbg A x i = .ok (∑ j ∈ range c, a i j * v j) := fun i hi => (hA.rows i hi).byIndex hx dbg
  have h2 : ∀ i, i < r → ProdFn.mv1It dbg mode A x i = .ok (∑ j ∈ range c, a i j * v j) := fun i hi => mvDeref_ok (hA.rows i hi) hx dbg mode
  refine ⟨_, ?_, Seq.presents_all (A.cat.restrict x.cat) h1⟩
  simp only [Expr.prodVec, hs]
  rw [mapM_range (g := fun i => (i, ∑ j ∈ range c, a i j * v j)) fun i hi => by rw [h2 i hi, bind_ok], bind_ok]

theorem vecProd_ok (dbg : Bool) (mode : ProdFn.Mode) {A : MSeq R} {x : Seq R} {r c : Nat} {a : Nat → Nat → R} {v : Nat → R} (hA : A.Presents r c a) (hx : x.Presents r v) :
    ∃ p, Expr.vecProd dbg mode x A = .ok p ∧ p.Presents c (fun j => ∑ i ∈ range r, v i * a i j) := by
  have hs : A.size2 = c := hA.size2
  have h1 : ∀ j, j < c → ProdFn.mv2At dbg x A j = .ok (∑ i ∈ range r, v i * a i j) := fun j hj => hx.byIndex (hA.cols j hj) dbg
  have h2 : ∀ j, j < c → ProdFn.mv2It dbg mode x A j = .ok (∑ i ∈ range r, v i * a i j) := fun j hj => mvDeref_ok hx (hA.cols j hj) dbg mode
  refine ⟨_, ?_, Seq.presents_all (x.cat.restrict A.cat) h1⟩
  simp only [Expr.vecProd, hs]
  rw [mapM_range (g := fun j => (j, ∑ i ∈ range r, v i * a i j)) fun j hj => by rw [h2 j hj, bind_ok], bind_ok]

theorem mexp_all {r c : Nat} {a : Nat → Nat → R} (cat : Cat) {get : Nat → Nat → M R} (hg : ∀ k l, k < r → l < c → get k l = .ok (a k l)) :
    (⟨r, c, cat, (List.range r).map fun k => (k, (List.range c).map fun l => (l, a k l)), get⟩ : MExp R).Presents r c a where
  sizes := ⟨rfl, rfl⟩
  at_ := hg
  sorted := by simp only [List.map_map, Function.comp_def, List.map_id']; exact List.pairwise_lt_range
  lt := by simp
  inner := by
    intro q hq
    simp only [List.mem_map, List.mem_range] at hq
    obtain ⟨k, hk, rfl⟩ := hq
    simp only [List.map_map, Function.comp_def, List.map_id']
    exact ⟨List.pairwise_lt_range, by simp⟩
  skipped := by
    intro k l hk hl hn
    exact absurd (by simpa [Function.comp_def] using hl) (hn (k, (List.range c).map fun l => (l, a k l)) (by simpa using hk) rfl)
  packed := by
    intro _
    refine ⟨⟨0, by simp [Function.comp_def, List.range_eq_range']⟩, ?_⟩
    intro q hq
    simp only [List.mem_map, List.mem_range] at hq
    obtain ⟨k, hk, rfl⟩ := hq
    exact ⟨0, by simp [Function.comp_def, List.range_eq_range']⟩
  dense := by
    intro _ _
    refine ⟨by simp [Function.comp_def], ?_⟩
    intro q hq
    simp only [List.mem_map, List.mem_range] at hq
    obtain ⟨k, hk, rfl⟩ := hq
    simp [Function.comp_def]

theorem prodMat_ok (dbg : Bool) (mode : ProdFn.Mode) (o : Orient) {A B : MSeq R} {p n q : Nat} {a b : Nat → Nat → R} (hA : A.Presents p n a) (hB : B.Presents n q b) :
    ∃ e, Expr.prodMat dbg mode o A B = .ok e ∧ e.Presents (o.sizeM p q) (o.sizem p q) (fun k l => ∑ j ∈ range n, a (o.indexM k l) j * b j (o.indexm k l)) := by
  have hs1 : A.size1 = p := hA.size1
  have hs2 : B.size2 = q := hB.size2
  have hlt : ∀ {k l}, k < o.sizeM p q → l < o.sizem p q → o.indexM k l < p ∧ o.indexm k l < q := by
    intro k l hk hl; cases o <;> first | exact ⟨hk, hl⟩ | exact ⟨hl, hk⟩
  have h1 : ∀ k l, k < o.sizeM p q → l < o.sizem p q → ProdFn.mmAt dbg A B (o.indexM k l) (o.indexm k l) = .ok (∑ j ∈ range n, a (o.indexM k l) j * b j (o.indexm k l)) :=
    fun k l hk hl => (C32_matrix_matrix dbg mode p n q A B a b hA hB _ _ (hlt hk hl).1 (hlt hk hl).2).1
  have h2 : ∀ k l, k < o.sizeM p q → l < o.sizem p q → ProdFn.mmIt dbg mode A B (o.indexM k l) (o.indexm k l) = .ok (∑ j ∈ range n, a (o.indexM k l) j * b j (o.indexm k l)) :=
    fun k l hk hl => (C32_matrix_matrix dbg mode p n q A B a b hA hB _ _ (hlt hk hl).1 (hlt hk hl).2).2
  refine ⟨_, ?_, mexp_all (A.cat.restrict B.cat) h1⟩
  simp only [Expr.prodMat, hs1, hs2]
  rw [mapM_range (g := fun k => (k, (List.range (o.sizem p q)).map fun l => (l, ∑ j ∈ range n, a (o.indexM k l) j * b j (o.indexm k l)))) fun k hk => by
    rw [mapM_range (g := fun l => (l, ∑ j ∈ range n, a (o.indexM k l) j * b j (o.indexm k l))) fun l hl => by rw [h2 k l hk hl, bind_ok], bind_ok], bind_ok]

/-- A dense matrix whose elements are `a`, as an operand. -/
theorem toMSeq_presents (dbg : Bool) (o : Orient) {m : Dense R} (hw : m.WF) {a : Nat → Nat → R} (ha : ∀ i j, i < m.size1 → j < m.size2 → m.get dbg o i j = .ok (a i j)) :
    (m.toMSeq dbg o).Presents m.size1 m.size2 a := by
  obtain ⟨q, ⟨q1, q2, q3, q4, q5, q6⟩, hq⟩ := dense_operand dbg o m hw
  have he : ∀ i j, i < m.size1 → j < m.size2 → elem (m.get dbg o) i j = a i j := fun i j hi hj => by
    have := (hq.rows i hi).at_ j hj
    simp only [MSeq.row, q6, ha i j hi hj] at this
    exact (Except.ok.inj this).symm
  have conv : ∀ {s s' : Seq R} {n : Nat} {v v' : Nat → R}, s.Presents n v → s' = s → (∀ i, i < n → v i = v' i) → s'.Presents n v' := by
    rintro s s' n v v' h rfl hv
    exact { size := h.size, at_ := fun i hi => by rw [← hv i hi]; exact h.at_ i hi, vals := fun p hp => ⟨(h.vals p hp).1, by rw [← hv _ (h.vals p hp).1]; exact (h.vals p hp).2⟩,
            sorted := h.sorted, skipped := fun i hi hn => by rw [← hv i hi]; exact h.skipped i hi hn, packed := h.packed, dense := h.dense }
  refine ⟨rfl, rfl, fun i hi => conv (hq.rows i hi) ?_ fun j hj => he i j hi hj, fun j hj => conv (hq.cols j hj) ?_ fun i hi => he i j hi hj⟩
  · simp only [MSeq.row, Dense.toMSeq, q4 i hi, q2, q3, q6]; rfl
  · simp only [MSeq.col, Dense.toMSeq, q5 j hj, q1, q3, q6]; rfl

namespace Blocked
open Axpy

theorem fresh_length (junk : Nat → R) (n : Nat) : (fresh junk n).length = n := by simp [fresh]

/-- A temporary dense matrix built from an expression holds its elements. -/
theorem tempMat_ok (dbg : Bool) (mode : ProdFn.Mode) (junk : Nat → R) (o : Orient) {A : MSeq R} {r c : Nat} {a : Nat → Nat → R} (hA : A.Presents r c a) {ls : List Nat}
    (hls : match o with | .row => Outer A.cat r c a ls | .col => Outer A.cat c r (fun j i => a i j) ls) :
    ∃ d, tempMat dbg mode junk o A ls = .ok d ∧ (d.toMSeq dbg o).Presents r c a := by
  have hs1 : A.size1 = r := hA.size1
  have hs2 : A.size2 = c := hA.size2
  let d0 : Dense R := ⟨r, c, fresh junk (r * c)⟩
  have hw0 : d0.WF := by cases o <;> simp [d0, Dense.WF, fresh]
  have main : ∀ e : MExp R, e.Presents (o.sizeM r c) (o.sizem r c) (fun k l => a (o.indexM k l) (o.indexm k l)) →
      ∃ data, MAssign.assign dbg mode .dense (denseTarget dbg o r c) .assign e (fresh junk (r * c)) = .ok data ∧ ((⟨r, c, data⟩ : Dense R).toMSeq dbg o).Presents r c a := by
    intro e he
    obtain ⟨data, e1, h1, h2⟩ := C68_dense dbg mode o .assign d0 hw0 e a he
    refine ⟨data, e1, toMSeq_presents dbg o (m := ⟨r, c, data⟩) h1 fun i j hi hj => ?_⟩
    obtain ⟨x, _, h3⟩ := h2 i j hi hj
    exact h3
  cases o with
  | row =>
    obtain ⟨data, e1, h1⟩ := main _ (hA.byRows hls.sorted hls.lt hls.skip hls.packed hls.dense)
    exact ⟨⟨r, c, data⟩, by simp only [tempMat, hs1, hs2]; rw [e1]; rfl, h1⟩
  | col =>
    obtain ⟨data, e1, h1⟩ := main _ (hA.byCols hls.sorted hls.lt hls.skip hls.packed hls.dense)
    exact ⟨⟨r, c, data⟩, by simp only [tempMat, hs1, hs2]; rw [e1]; rfl, h1⟩

/-- Adding the next block to a partial sum. -/
theorem sum_block (f : Nat → R) {b e : Nat} (h : b ≤ e) : ∑ j ∈ range e, f j = ∑ j ∈ range b, f j + ∑ j ∈ range (e - b), f (b + j) := by
  rw [← sum_range_add_sum_Ico f h, sum_Ico_eq_sum_range]

end Blocked
end prods
end Ublas
