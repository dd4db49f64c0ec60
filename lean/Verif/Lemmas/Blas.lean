import Verif.Model.Blas
import Verif.Lemmas.Blocked
import Verif.Props.AssignOps
import Verif.Props.Solve
/-! # Operands of blas.hpp: sums and products as expressions, temporaries built from them -/
namespace Ublas
open Finset Axpy VAssign
variable {R : Type} [CommRing R] [DecidableEq R]

/-- What indexing evaluation of dense expressions looks at: sizes and element access. -/
structure MSeq.Indexed (m : MSeq R) (mode : ProdFn.Mode) (r c : Nat) (a : Nat → Nat → R) : Prop where
  mode : mode = .indexing
  cat : m.cat = .dense
  size1 : m.size1 = r
  size2 : m.size2 = c
  at_ : ∀ i j, i < r → j < c → m.at_ i j = .ok (a i j)

structure Seq.Indexed (s : Seq R) (mode : ProdFn.Mode) (n : Nat) (v : Nat → R) : Prop where
  mode : mode = .indexing
  cat : s.cat = .dense
  size : s.size = n
  at_ : ∀ i, i < n → s.at_ i = .ok (v i)

theorem Seq.Presents.congr' {s : Seq R} {n : Nat} {v v' : Nat → R} (h : s.Presents n v) (hv : ∀ i, i < n → v i = v' i) : s.Presents n v' where
  size := h.size
  at_ i hi := by rw [← hv i hi]; exact h.at_ i hi
  vals p hp := ⟨(h.vals p hp).1, by rw [← hv _ (h.vals p hp).1]; exact (h.vals p hp).2⟩
  sorted := h.sorted
  skipped i hi hn := by rw [← hv i hi]; exact h.skipped i hi hn
  packed := h.packed
  dense := h.dense

theorem MSeq.Presents.indexed {m : MSeq R} {r c : Nat} {a : Nat → Nat → R} (h : m.Presents r c a) (hc : m.cat = .dense) {mode : ProdFn.Mode} (hm : mode = .indexing) : m.Indexed mode r c a :=
  ⟨hm, hc, h.size1, h.size2, fun i j hi hj => (h.rows i hi).at_ j hj⟩

theorem Seq.Presents.indexed {s : Seq R} {n : Nat} {v : Nat → R} (h : s.Presents n v) (hc : s.cat = .dense) {mode : ProdFn.Mode} (hm : mode = .indexing) : s.Indexed mode n v :=
  ⟨hm, hc, h.size, h.at_⟩

theorem MSeq.Indexed.munary {m : MSeq R} {mode : ProdFn.Mode} {r c : Nat} {a : Nat → Nat → R} (h : m.Indexed mode r c a) (F : R → R) :
    (Expr.munary F m).Indexed mode r c (fun i j => F (a i j)) :=
  ⟨h.mode, h.cat, h.size1, h.size2, fun i j hi hj => by simp only [Expr.munary, h.at_ i j hi hj, bind_ok]⟩

theorem Seq.Indexed.unary {s : Seq R} {mode : ProdFn.Mode} {n : Nat} {v : Nat → R} (h : s.Indexed mode n v) (F : R → R) :
    (Expr.unary F s).Indexed mode n (fun i => F (v i)) :=
  ⟨h.mode, h.cat, h.size, fun i hi => by simp only [Expr.unary, h.at_ i hi, bind_ok]⟩

theorem MSeq.Indexed.congr {m : MSeq R} {mode : ProdFn.Mode} {r c : Nat} {a b : Nat → Nat → R} (h : m.Indexed mode r c a) (hab : ∀ i j, i < r → j < c → a i j = b i j) : m.Indexed mode r c b :=
  ⟨h.mode, h.cat, h.size1, h.size2, fun i j hi hj => by rw [h.at_ i j hi hj, hab i j hi hj]⟩

theorem same_self (dbg : Bool) (n : Nat) : same dbg n n = .ok n := by
  simp only [same, check_True, bind_ok, Nat.min_self, pure_eq_ok]

theorem mbinary_presents (dbg : Bool) (f : R → R → R) {x y : MSeq R} {r c : Nat} {u z : Nat → Nat → R} (hx : x.Presents r c u) (hy : y.Presents r c z) (hf : f 0 0 = 0) :
    ∃ m, Expr.mbinary dbg f x y = .ok m ∧ m.cat = x.cat.restrict y.cat ∧ m.Presents r c (fun i j => f (u i j) (z i j)) := by
  have e1 : same dbg x.size1 y.size1 = .ok r := by rw [hx.size1, hy.size1, same_self]
  have e2 : same dbg x.size2 y.size2 = .ok c := by rw [hx.size2, hy.size2, same_self]
  have hat : ∀ i j, i < r → j < c → (do
    let a ← x.at_ i j
    let b ← y.at_ i j
    .ok (f a b) : M R) = .ok (f (u i j) (z i j)) := fun i j hi hj => by
      have h1 : x.at_ i j = _ := (hx.rows i hi).at_ j hj
      have h2 : y.at_ i j = _ := (hy.rows i hi).at_ j hj
      rw [h1, h2]; rfl
  refine ⟨_, by simp only [Expr.mbinary, e1, e2, bind_ok]; rfl, rfl, ⟨rfl, rfl, fun i hi => ?_, fun j hj => ?_⟩⟩
  · obtain ⟨L, e, h⟩ := binEls_presents (hx.rows i hi) (hy.rows i hi) f (.inr hf)
    have := h (fun j => (do
      let a ← x.at_ i j
      let b ← y.at_ i j
      .ok (f a b) : M R)) (fun j hj => hat i j hi hj)
    show (⟨c, x.cat.restrict y.cat, (Expr.binEls f (x.row i) (y.row i) c).toOption.getD [], _⟩ : Seq R).Presents c _
    rw [e]; exact this
  · obtain ⟨L, e, h⟩ := binEls_presents (hx.cols j hj) (hy.cols j hj) f (.inr hf)
    have := h (fun i => (do
      let a ← x.at_ i j
      let b ← y.at_ i j
      .ok (f a b) : M R)) (fun i hi => hat i j hi hj)
    show (⟨r, x.cat.restrict y.cat, (Expr.binEls f (x.col j) (y.col j) r).toOption.getD [], _⟩ : Seq R).Presents r _
    rw [e]; exact this

theorem mbinary_indexed (dbg : Bool) (f : R → R → R) {x y : MSeq R} {mode : ProdFn.Mode} {r c : Nat} {u z : Nat → Nat → R} (hx : x.Indexed mode r c u) (hy : y.Indexed mode r c z) :
    ∃ m, Expr.mbinary dbg f x y = .ok m ∧ m.Indexed mode r c (fun i j => f (u i j) (z i j)) := by
  have e1 : same dbg x.size1 y.size1 = .ok r := by rw [hx.size1, hy.size1, same_self]
  have e2 : same dbg x.size2 y.size2 = .ok c := by rw [hx.size2, hy.size2, same_self]
  refine ⟨_, by simp only [Expr.mbinary, e1, e2, bind_ok]; rfl, ⟨hx.mode, ?_, rfl, rfl, fun i j hi hj => ?_⟩⟩
  · simp only [hx.cat, hy.cat]; rfl
  · simp only [hx.at_ i j hi hj, hy.at_ i j hi hj, bind_ok]

/-- An operand that can be assigned in evaluation mode `mode`: its iterators present its elements, or they are not used. -/
def MSeq.Usable (m : MSeq R) (mode : ProdFn.Mode) (r c : Nat) (a : Nat → Nat → R) : Prop := m.Presents r c a ∨ m.Indexed mode r c a
def Seq.Usable (s : Seq R) (mode : ProdFn.Mode) (n : Nat) (v : Nat → R) : Prop := s.Presents n v ∨ s.Indexed mode n v

theorem MSeq.Usable.munary {m : MSeq R} {mode : ProdFn.Mode} {r c : Nat} {a : Nat → Nat → R} (h : m.Usable mode r c a) (F : R → R) (hF : F 0 = 0) :
    (Expr.munary F m).Usable mode r c (fun i j => F (a i j)) := h.imp (fun h => C48_matrix_unary F h hF) (·.munary F)

theorem Seq.Usable.unary {s : Seq R} {mode : ProdFn.Mode} {n : Nat} {v : Nat → R} (h : s.Usable mode n v) (F : R → R) (hF : F 0 = 0) :
    (Expr.unary F s).Usable mode n (fun i => F (v i)) := h.imp (fun h => C48_unary F h (.inr hF)) (·.unary F)

/-- The sum of a dense operand (a dense container, an element-wise expression over one) and a usable one is usable. -/
theorem mbinary_usable (dbg : Bool) (f : R → R → R) {x y : MSeq R} {mode : ProdFn.Mode} {r c : Nat} {u z : Nat → Nat → R} (hx : x.Presents r c u) (hd : x.cat = .dense) (hy : y.Usable mode r c z)
    (hf : f 0 0 = 0) : ∃ m, Expr.mbinary dbg f x y = .ok m ∧ m.Usable mode r c (fun i j => f (u i j) (z i j)) := by
  rcases hy with hy | hy
  · obtain ⟨m, e, _, h⟩ := mbinary_presents dbg f hx hy hf
    exact ⟨m, e, .inl h⟩
  · obtain ⟨m, e, h⟩ := mbinary_indexed dbg f (hx.indexed hd hy.mode) hy
    exact ⟨m, e, .inr h⟩

/-- The same for vectors. -/
theorem vbinary_usable (dbg : Bool) (f : R → R → R) {x y : Seq R} {mode : ProdFn.Mode} {n : Nat} {u z : Nat → R} (hx : x.Presents n u) (hd : x.cat = .dense) (hy : y.Usable mode n z)
    (hf : f 0 0 = 0) : ∃ m, Expr.vbinary dbg f x y = .ok m ∧ m.Usable mode n (fun i => f (u i) (z i)) := by
  rcases hy with hy | hy
  · have e1 : same dbg x.size y.size = .ok n := by rw [hx.size, hy.size, same_self]
    obtain ⟨L, e, h⟩ := binEls_presents hx hy f (.inr hf)
    refine ⟨⟨n, x.cat.restrict y.cat, L, fun i => (do
      let a ← x.at_ i
      let b ← y.at_ i
      .ok (f a b) : M R)⟩, by simp only [Expr.vbinary, e1, bind_ok, e]; rfl, .inl (h _ fun i hi => by rw [hx.at_ i hi, hy.at_ i hi]; rfl)⟩
  · have e1 : same dbg x.size y.size = .ok n := by rw [hx.size, hy.size, same_self]
    refine ⟨_, by simp only [Expr.vbinary, e1, bind_ok]; rfl, .inr ⟨hy.mode, ?_, rfl, fun i hi => ?_⟩⟩
    · simp only [hd, hy.cat]; rfl
    · simp only [hx.at_ i hi, hy.at_ i hi, bind_ok]

/-- A vector built from a usable operand holds its elements. -/
theorem vectorFrom_usable (dbg : Bool) (mode : ProdFn.Mode) (junk : Nat → R) {s : Seq R} {n : Nat} {v : Nat → R} (h : s.Usable mode n v) :
    ∃ d, vectorFrom dbg mode junk s = .ok d ∧ Holds d n v := by
  rcases h with h | h
  · exact vectorFrom_ok dbg mode junk s n v h
  · obtain ⟨hm, hc, hs, ha⟩ := h
    subst hm
    obtain ⟨d, e, hd⟩ := vectorFrom_ok dbg .indexing junk ⟨s.size, .dense, (List.range n).map fun i => (i, v i), s.at_⟩ n v (by
      have := Seq.presents_all (n := n) (v := v) .dense ha
      rw [hs]; exact this)
    refine ⟨d, ?_, hd⟩
    rw [← e]
    simp only [vectorFrom, VAssign.assign, VExpr.const, hc]
    rfl

/-- A matrix built from a usable operand holds its elements.  The lines its outer iterators visit matter only if its iterators are used. -/
theorem tempMat_usable (dbg : Bool) (mode : ProdFn.Mode) (junk : Nat → R) (o : Orient) {A : MSeq R} {r c : Nat} {a : Nat → Nat → R} {ls : List Nat}
    (h : A.Presents r c a ∧ (match o with | .row => Outer A.cat r c a ls | .col => Outer A.cat c r (fun j i => a i j) ls) ∨ A.Indexed mode r c a) :
    ∃ d, Blocked.tempMat dbg mode junk o A ls = .ok d ∧ Solve.DHolds dbg o r c d (fun p => a p.1 p.2) := by
  have key : ∀ {A : MSeq R} {ls : List Nat}, A.Presents r c a → (match o with | .row => Outer A.cat r c a ls | .col => Outer A.cat c r (fun j i => a i j) ls) →
      ∃ d, Blocked.tempMat dbg mode junk o A ls = .ok d ∧ Solve.DHolds dbg o r c d (fun p => a p.1 p.2) := by
    intro A ls hA hls
    have hs1 : A.size1 = r := hA.size1
    have hs2 : A.size2 = c := hA.size2
    let d0 : Dense R := ⟨r, c, Blocked.fresh junk (r * c)⟩
    have hw0 : d0.WF := by cases o <;> simp [d0, Dense.WF, Blocked.fresh]
    have main : ∀ e : MExp R, e.Presents (o.sizeM r c) (o.sizem r c) (fun k l => a (o.indexM k l) (o.indexm k l)) →
        ∃ data, MAssign.assign dbg mode .dense (denseTarget dbg o r c) .assign e (Blocked.fresh junk (r * c)) = .ok data ∧ Solve.DHolds dbg o r c (⟨r, c, data⟩ : Dense R) (fun p => a p.1 p.2) := by
      intro e he
      obtain ⟨data, e1, h1, h2⟩ := C68_dense dbg mode o .assign d0 hw0 e a he
      refine ⟨data, e1, h1, rfl, rfl, fun i j hi hj => ?_⟩
      obtain ⟨x, _, h3⟩ := h2 i j hi hj
      exact h3
    cases o with
    | row =>
      obtain ⟨data, e1, h1⟩ := main _ (hA.byRows hls.sorted hls.lt hls.skip hls.packed hls.dense)
      exact ⟨⟨r, c, data⟩, by simp only [Blocked.tempMat, hs1, hs2]; rw [e1]; rfl, h1⟩
    | col =>
      obtain ⟨data, e1, h1⟩ := main _ (hA.byCols hls.sorted hls.lt hls.skip hls.packed hls.dense)
      exact ⟨⟨r, c, data⟩, by simp only [Blocked.tempMat, hs1, hs2]; rw [e1]; rfl, h1⟩
  rcases h with ⟨h1, h2⟩ | ⟨hm, hc, hs1, hs2, ha⟩
  · exact key h1 (by cases o <;> exact h2)
  · subst hm
    let B : MSeq R := ⟨r, c, .dense, fun i => (List.range c).map fun j => (j, a i j), fun j => (List.range r).map fun i => (i, a i j), A.at_⟩
    have hB : B.Presents r c a := ⟨rfl, rfl, fun i hi => Seq.presents_all .dense fun j hj => ha i j hi hj, fun j hj => Seq.presents_all .dense fun i hi => ha i j hi hj⟩
    obtain ⟨d, e, h⟩ := key (A := B) (ls := List.range (o.sizeM r c)) hB (by cases o <;> exact Outer.all _ _ _ _)
    refine ⟨d, ?_, h⟩
    rw [← e]
    cases o <;> simp only [Blocked.tempMat, MAssign.assign, MExp.byRows, MExp.byCols, hc, hs1, hs2] <;> rfl

theorem mapM_ok {β : Type} {f : Nat → M β} {g : Nat → β} : ∀ {l : List Nat}, (∀ i ∈ l, f i = .ok (g i)) → l.mapM f = .ok (l.map g)
  | [], _ => rfl
  | i :: l, h => by
    rw [List.mapM_cons, h i (by simp), bind_ok, mapM_ok fun k hk => h k (by simp [hk])]
    rfl

/-- Visiting the lines `ls` presents the vector if the values on all other lines are zero. -/
theorem Seq.presents_lines {n : Nat} {v : Nat → R} {cat : Cat} {ls : List Nat} {get : Nat → M R} (hg : ∀ i, i < n → get i = .ok (v i)) (h1 : ls.Pairwise (· < ·))
    (h2 : ∀ i ∈ ls, i < n) (h3 : ∀ i, i < n → i ∉ ls → v i = 0) (h4 : cat ≠ .sparse → ∃ off, ls = List.range' off ls.length) (h5 : cat = .dense → ls = List.range n) :
    (⟨n, cat, ls.map fun i => (i, v i), get⟩ : Seq R).Presents n v where
  size := rfl
  at_ := hg
  vals p hp := by
    simp only [List.mem_map] at hp
    obtain ⟨i, hi, rfl⟩ := hp
    exact ⟨h2 i hi, rfl⟩
  sorted := by simpa only [List.map_map, Function.comp_def, List.map_id'] using h1
  skipped i hi hn := h3 i hi (by simpa [Function.comp_def] using hn)
  packed hc := by
    obtain ⟨off, ho⟩ := h4 hc
    exact ⟨off, by simpa [Function.comp_def] using ho⟩
  dense hc := by simpa [Function.comp_def] using h5 hc

theorem restrict_dense {a b : Cat} : a.restrict b = .dense ↔ a = .dense ∧ b = .dense := by cases a <;> cases b <;> simp [Cat.restrict]
theorem restrict_sparse {a b : Cat} : a.restrict b ≠ .sparse ↔ a ≠ .sparse ∧ b ≠ .sparse := by cases a <;> cases b <;> simp [Cat.restrict]
theorem restrict_comm (a b : Cat) : a.restrict b = b.restrict a := by cases a <;> cases b <;> rfl

/-- `prod (A, x)` as an operand. -/
theorem prodV_usable (dbg : Bool) (mode : ProdFn.Mode) {A : MSeq R} {x : Seq R} {p n : Nat} {a : Nat → Nat → R} {v : Nat → R} {ls : List Nat} (hA : A.Presents p n a) (hx : x.Presents n v)
    (hls : Outer A.cat p n a ls) (hz : n ≠ 0 ∨ A.cat.restrict x.cat ≠ .dense ∨ mode = .indexing) :
    (Expr.prodV dbg mode A ls x).Usable mode p (fun i => ∑ j ∈ range n, a i j * v j) := by
  have h1 : ∀ i, i < p → ProdFn.mv1At dbg A x i = .ok (∑ j ∈ range n, a i j * v j) := fun i hi => (hA.rows i hi).byIndex hx dbg
  have h2 : ∀ i, i < p → ProdFn.mv1It dbg mode A x i = .ok (∑ j ∈ range n, a i j * v j) := fun i hi => mvDeref_ok (hA.rows i hi) hx dbg mode
  have hs := hA.size1
  by_cases hc : n ≠ 0 ∨ A.cat.restrict x.cat ≠ .dense
  · left
    unfold Expr.prodV
    rw [mapM_ok (g := fun i => (i, ∑ j ∈ range n, a i j * v j)) fun i hi => by rw [h2 i (hls.lt i hi), bind_ok], hs]
    refine Seq.presents_lines h1 hls.sorted hls.lt (fun i hi hn => ?_) (fun h => hls.packed (restrict_sparse.1 h).1) fun h => ?_
    · exact sum_eq_zero fun j hj => by rw [hls.skip i hi hn j (by simpa using hj), zero_mul]
    · exact hls.dense (restrict_dense.1 h).1 (hc.resolve_right fun hh => hh h)
  · rw [not_or, not_not, not_not] at hc
    refine .inr ⟨(hz.resolve_left fun h => h hc.1).resolve_left fun h => h hc.2, hc.2, hs, h1⟩

/-- `prod (A, B)` as an operand. -/
theorem prodM_presents (dbg : Bool) (mode : ProdFn.Mode) {A B : MSeq R} {p n q : Nat} {a b : Nat → Nat → R} {lsA lsB : List Nat} (hA : A.Presents p n a) (hB : B.Presents n q b)
    (hlA : Outer A.cat p n a lsA) (hlB : Outer B.cat q n (fun j k => b k j) lsB) (hz : n ≠ 0 ∨ A.cat.restrict B.cat ≠ .dense) :
    (Expr.prodM dbg mode A B lsA lsB).Presents p q (fun i j => ∑ k ∈ range n, a i k * b k j) := by
  have hs1 := hA.size1
  have hs2 := hB.size2
  have h1 := fun i j hi hj => (C32_matrix_matrix dbg mode p n q A B a b hA hB i j hi hj).1
  have h2 := fun i j hi hj => (C32_matrix_matrix dbg mode p n q A B a b hA hB i j hi hj).2
  refine ⟨hs1, hs2, fun i hi => ?_, fun j hj => ?_⟩
  · simp only [MSeq.row, Expr.prodM]
    rw [mapM_ok (g := fun j => (j, ∑ k ∈ range n, a i k * b k j)) fun j hj => by rw [h2 i j hi (hlB.lt j hj), bind_ok], hs2]
    refine Seq.presents_lines (fun j hj => h1 i j hi hj) hlB.sorted hlB.lt (fun j hj hn => ?_) (fun h => hlB.packed (restrict_sparse.1 h).2) fun h => ?_
    · exact sum_eq_zero fun k hk => by rw [show b k j = 0 from hlB.skip j hj hn k (by simpa using hk), mul_zero]
    · exact hlB.dense (restrict_dense.1 h).2 (hz.resolve_right fun hh => hh h)
  · simp only [MSeq.col, Expr.prodM]
    rw [mapM_ok (g := fun i => (i, ∑ k ∈ range n, a i k * b k j)) fun i hi => by rw [h2 i j (hlA.lt i hi) hj, bind_ok], hs1]
    refine Seq.presents_lines (fun i hi => h1 i j hi hj) hlA.sorted hlA.lt (fun i hi hn => ?_) (fun h => hlA.packed (restrict_sparse.1 h).1) fun h => ?_
    · exact sum_eq_zero fun k hk => by rw [hlA.skip i hi hn k (by simpa using hk), zero_mul]
    · exact hlA.dense (restrict_dense.1 h).1 (hz.resolve_right fun hh => hh h)

/-- `prod (A, B)` is usable unless dense operands without inner elements are iterated. -/
theorem prodM_usable (dbg : Bool) (mode : ProdFn.Mode) {A B : MSeq R} {p n q : Nat} {a b : Nat → Nat → R} {lsA lsB : List Nat} (hA : A.Presents p n a) (hB : B.Presents n q b)
    (hlA : Outer A.cat p n a lsA) (hlB : Outer B.cat q n (fun j k => b k j) lsB) (hz : n ≠ 0 ∨ A.cat.restrict B.cat ≠ .dense ∨ mode = .indexing) :
    (Expr.prodM dbg mode A B lsA lsB).Usable mode p q (fun i j => ∑ k ∈ range n, a i k * b k j) := by
  by_cases hc : n ≠ 0 ∨ A.cat.restrict B.cat ≠ .dense
  · exact .inl (prodM_presents dbg mode hA hB hlA hlB hc)
  · rw [not_or, not_not, not_not] at hc
    exact .inr ⟨(hz.resolve_left fun h => h hc.1).resolve_left fun h => h hc.2, hc.2, hA.size1, hB.size2, fun i j hi hj => (C32_matrix_matrix dbg mode p n q A B a b hA hB i j hi hj).1⟩

theorem prodM_indexed (dbg : Bool) {mode : ProdFn.Mode} {A B : MSeq R} {p n q : Nat} {a b : Nat → Nat → R} {lsA lsB : List Nat} (hA : A.Presents p n a) (hB : B.Presents n q b)
    (hm : mode = .indexing) (hc : A.cat.restrict B.cat = .dense) : (Expr.prodM dbg mode A B lsA lsB).Indexed mode p q (fun i j => ∑ k ∈ range n, a i k * b k j) :=
  ⟨hm, hc, hA.size1, hB.size2, fun i j hi hj => (C32_matrix_matrix dbg mode p n q A B a b hA hB i j hi hj).1⟩

/-- The outer iterators of `prod (A, B)` along the rows. -/
theorem prodM_outerRows {A B : MSeq R} {p n q : Nat} {a b : Nat → Nat → R} {lsA : List Nat} (hlA : Outer A.cat p n a lsA) (hz : n ≠ 0 ∨ A.cat.restrict B.cat ≠ .dense) (F : R → R) (hF : F 0 = 0) :
    Outer (A.cat.restrict B.cat) p q (fun i j => F (∑ k ∈ range n, a i k * b k j)) lsA where
  sorted := hlA.sorted
  lt := hlA.lt
  skip i hi hn j _ := by
    show F _ = 0
    rw [sum_eq_zero fun k hk => by rw [hlA.skip i hi hn k (by simpa using hk), zero_mul], hF]
  packed h := hlA.packed (restrict_sparse.1 h).1
  dense h _ := hlA.dense (restrict_dense.1 h).1 (hz.resolve_right fun hh => hh h)

/-- The outer iterators of `prod (A, B)` along the columns. -/
theorem prodM_outerCols {A B : MSeq R} {p n q : Nat} {a b : Nat → Nat → R} {lsB : List Nat} (hlB : Outer B.cat q n (fun j k => b k j) lsB) (hz : n ≠ 0 ∨ A.cat.restrict B.cat ≠ .dense) (F : R → R)
    (hF : F 0 = 0) : Outer (A.cat.restrict B.cat) q p (fun j i => F (∑ k ∈ range n, a i k * b k j)) lsB where
  sorted := hlB.sorted
  lt := hlB.lt
  skip j hj hn i _ := by
    show F _ = 0
    rw [sum_eq_zero fun k hk => by rw [show b k j = 0 from hlB.skip j hj hn k (by simpa using hk), mul_zero], hF]
  packed h := hlB.packed (restrict_sparse.1 h).2
  dense h _ := hlB.dense (restrict_dense.1 h).2 (hz.resolve_right fun hh => hh h)

/-- `outer_prod (v, w)` with an operand that is not dense. -/
theorem outer_presents {x y : Seq R} {p q : Nat} {v w : Nat → R} (hx : x.Presents p v) (hy : y.Presents q w) (hc : x.cat.restrict y.cat ≠ .dense) :
    (Expr.outer x y).Presents p q (fun i j => v i * w j) := by
  obtain ⟨h1, h2, h3, h4, h5⟩ := C48_outer_partial hx hy
  refine ⟨h1, h2, fun i hi => ?_, fun j hj => ?_⟩
  · obtain ⟨a1, a2, a3⟩ := h4 i hi
    refine ⟨h2, fun j hj => h3 i j hi hj, a1, a2, a3, fun hp => ?_, fun hd => absurd hd hc⟩
    show ∃ off, (Expr.outerRow x y i).map (·.1) = List.range' off (Expr.outerRow x y i).length
    unfold Expr.outerRow
    split
    · split
      · exact ⟨0, rfl⟩
      · obtain ⟨off, ho⟩ := hy.packed (restrict_sparse.1 hp).2
        exact ⟨off, by simpa [Function.comp_def] using ho⟩
    · exact ⟨0, rfl⟩
  · obtain ⟨a1, a2, a3⟩ := h5 j hj
    refine ⟨h1, fun i hi => h3 i j hi hj, a1, a2, a3, fun hp => ?_, fun hd => absurd hd hc⟩
    show ∃ off, (Expr.outerCol x y j).map (·.1) = List.range' off (Expr.outerCol x y j).length
    unfold Expr.outerCol
    split
    · split
      · exact ⟨0, rfl⟩
      · obtain ⟨off, ho⟩ := hx.packed (restrict_sparse.1 hp).1
        exact ⟨off, by simpa [Function.comp_def] using ho⟩
    · exact ⟨0, rfl⟩

/-- `outer_prod (v, w)` is usable unless dense operands are iterated. -/
theorem outer_usable {mode : ProdFn.Mode} {x y : Seq R} {p q : Nat} {v w : Nat → R} (hx : x.Presents p v) (hy : y.Presents q w) (hz : x.cat.restrict y.cat ≠ .dense ∨ mode = .indexing) :
    (Expr.outer x y).Usable mode p q (fun i j => v i * w j) := by
  by_cases hc : x.cat.restrict y.cat = .dense
  · obtain ⟨h1, h2, h3, _⟩ := C48_outer_partial hx hy
    exact .inr ⟨hz.resolve_left fun h => h hc, hc, h1, h2, h3⟩
  · exact .inl (outer_presents hx hy hc)

theorem outer_indexed {mode : ProdFn.Mode} {x y : Seq R} {p q : Nat} {v w : Nat → R} (hx : x.Presents p v) (hy : y.Presents q w) (hm : mode = .indexing) (hc : x.cat.restrict y.cat = .dense) :
    (Expr.outer x y).Indexed mode p q (fun i j => v i * w j) := by
  obtain ⟨h1, h2, h3, _⟩ := C48_outer_partial hx hy
  exact ⟨hm, hc, h1, h2, h3⟩

/-- A dense matrix as an operand presents its elements. -/
theorem dholds_presents {dbg : Bool} {o : Orient} {r c : Nat} {m : Dense R} {w : Nat × Nat → R} (h : Solve.DHolds dbg o r c m w) : (m.toMSeq dbg o).Presents r c (fun i j => w (i, j)) := by
  obtain ⟨h1, rfl, rfl, h4⟩ := h
  exact toMSeq_presents dbg o h1 h4

theorem denseSeq_ok (dbg : Bool) {v : List R} {n : Nat} {c : Nat → R} (h : Holds v n c) : ∃ s, denseSeq dbg v = .ok s ∧ s.cat = .dense ∧ s.Presents n c := by
  obtain ⟨rfl, h2⟩ := h
  obtain ⟨s, ⟨e1, e2, e3, e4⟩, hs⟩ := denseVec_operand dbg v
  refine ⟨s, ?_, e2, hs.congr' fun i hi => ?_⟩
  · simp only [denseSeq, e3, bind_ok]
    cases s; simp_all
  · have := h2 i hi
    simp [List.getD, this]

end Ublas
