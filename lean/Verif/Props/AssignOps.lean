import Verif.Props.VectorAssign
import Verif.Props.Expr
/-! # C42, C43: assignment operators of vectors and views, and noalias -/
namespace Ublas
open VAssign
variable {R : Type} [Ring R] [DecidableEq R]

/-- `v` holds exactly the elements `c 0 … c (n-1)`. -/
def Holds (v : List R) (n : Nat) (c : Nat → R) : Prop := v.length = n ∧ ∀ i, i < n → v[i]? = some (c i)

theorem view_id_rep (v : List R) : ViewRep v.length id v v v.length (fun i => v.getD i 0) (List.range v.length) :=
  ⟨rfl, rfl, rfl, fun i hi => by simp [List.getD, hi], fun _ _ => rfl⟩

theorem vectorFrom_ok (dbg : Bool) (mode : ProdFn.Mode) (junk : Nat → R) (q : Seq R) (n : Nat) (c : Nat → R) (hq : q.Presents n c) :
    ∃ v, vectorFrom dbg mode junk q = .ok v ∧ Holds v n c := by
  have hs := hq.size
  have hr := view_id_rep ((List.range q.size).map junk)
  simp only [List.length_map, List.length_range, hs] at hr
  obtain ⟨s', w', S', e, h1, h2⟩ := C44_assign_every_element dbg mode .dense .assign q n c _ _ _
    (view_supports dbg n id ((List.range n).map junk) (fun i j _ _ h => h)).1 (by simp) (hq.reads _) hr
  refine ⟨s', ?_, ?_⟩
  · unfold vectorFrom; rw [hs]; exact e
  · obtain ⟨a1, a2, a3, a4, a5⟩ := h1
    exact ⟨by simpa using a3, fun i hi => by rw [a4 i hi |> fun h => (h : s'[i]? = _), h2 i hi]; rfl⟩

/-- **C42**, dense vector: `v = e` with a right-hand side reading `v` anywhere stores the value of `e` on the old contents (and takes its size). -/
theorem C42_assign (dbg : Bool) (mode : ProdFn.Mode) (junk : Nat → R) (e : List R → Seq R) (v : List R) (n : Nat) (c : Nat → R) (he : (e v).Presents n c) :
    ∃ v', assignExpr dbg mode junk e v = .ok v' ∧ Holds v' n c := vectorFrom_ok dbg mode junk (e v) n c he

theorem F_zero (F : AssignF) : F.apply (0 : R) 0 = 0 := by cases F <;> simp [AssignF.apply]

/-- **C42**, dense vector: `v += e` and `v -= e`. -/
theorem C42_op_assign (dbg : Bool) (mode : ProdFn.Mode) (junk : Nat → R) (F : AssignF) (e : List R → Seq R) (v : List R) (c : Nat → R) (he : (e v).Presents v.length c) :
    ∃ v', opAssignExpr dbg mode junk F e v = .ok v' ∧ Holds v' v.length (fun i => F.apply (v.getD i 0) (c i)) := by
  obtain ⟨⟨sz, ct, el, at'⟩, ⟨a0, a1, a2, a3⟩, ap⟩ := denseVec_operand dbg v
  simp only at a0 a1 a3
  subst a0 a1 a3
  obtain ⟨q, b1, b2⟩ := C48_binary dbg F.apply ap he (.inr (F_zero F))
  obtain ⟨v', c1, c2⟩ := vectorFrom_ok dbg mode junk q _ _ b2
  exact ⟨v', by simp only [opAssignExpr, denseSeq, a2, bind_ok, b1, c1], c2⟩

/-- What a view assignment leaves behind: the viewed elements are `c`, everything else is unchanged. -/
def ViewHolds (data data' : List R) (n : Nat) (addr : Nat → Nat) (c : Nat → R) : Prop :=
  data'.length = data.length ∧ (∀ i, i < n → data'[addr i]? = some (c i)) ∧ ∀ k : Nat, (∀ i, i < n → addr i ≠ k) → data'[k]? = data[k]?

theorem view_rep (n : Nat) (addr : Nat → Nat) (data : List R) (hb : ∀ i, i < n → addr i < data.length) :
    ViewRep n addr data data n (fun i => data.getD (addr i) 0) (List.range n) :=
  ⟨rfl, rfl, rfl, fun i hi => by simp [List.getD, hb i hi], fun _ _ => rfl⟩

/-- **C42**, views (vector_range, vector_slice, matrix_row, matrix_column): `view = e` where `e` reads the underlying array anywhere. -/
theorem C42_view_assign (dbg : Bool) (mode : ProdFn.Mode) (junk : Nat → R) (n : Nat) (addr : Nat → Nat) (e : List R → Seq R) (data : List R) (c : Nat → R)
    (hinj : ∀ i j, i < n → j < n → addr i = addr j → i = j) (hb : ∀ i, i < n → addr i < data.length) (he : (e data).Presents n c) :
    ∃ data', viewAssignExpr dbg mode junk n addr e data = .ok data' ∧ ViewHolds data data' n addr c := by
  obtain ⟨t, t1, t2, t3⟩ := vectorFrom_ok dbg mode junk (e data) n c he
  obtain ⟨⟨sz, ct, el, at'⟩, ⟨a0, a1, a2, a3⟩, ap⟩ := denseVec_operand dbg t
  simp only at a0 a1 a3
  subst a0 a1 a3
  rw [t2] at ap
  obtain ⟨s', w', S', f1, f2, f3⟩ := C44_assign_every_element dbg mode .denseProxy .assign _ n _ _ _ _ (view_supports dbg n addr data hinj).2 (by simp) (ap.reads _)
    (view_rep n addr data hb)
  refine ⟨s', ?_, ?_⟩
  · simp only [viewAssignExpr, t1, bind_ok, a2, t2]
    exact f1
  · obtain ⟨b1, b2, b3, b4, b5⟩ := f2
    refine ⟨b3, fun i hi => ?_, b5⟩
    rw [b4 i hi, f3 i hi]
    simp [AssignF.apply, List.getD, t3 i hi]

/-- **C42**, views: `view += e`, `view -= e`. -/
theorem C42_view_op_assign (dbg : Bool) (mode : ProdFn.Mode) (junk : Nat → R) (F : AssignF) (n : Nat) (addr : Nat → Nat) (e : List R → Seq R) (data : List R) (c : Nat → R)
    (hinj : ∀ i j, i < n → j < n → addr i = addr j → i = j) (hb : ∀ i, i < n → addr i < data.length) (he : (e data).Presents n c) :
    ∃ data', viewOpAssignExpr dbg mode junk F n addr e data = .ok data' ∧ ViewHolds data data' n addr (fun i => F.apply (data.getD (addr i) 0) (c i)) := by
  have hg : ∀ i, i < n → rd dbg data (addr i) = .ok (data.getD (addr i) 0) := fun i hi => by rw [rd_ok (hb i hi)]; simp [List.getD, hb i hi]
  obtain ⟨L, e1, e2, e3⟩ := walkIdx_ok (get := fun i => rd dbg data (addr i)) n 0 n (Nat.zero_le _) (by omega) (fun k _ hk => ⟨_, hg k hk⟩)
  have ap : (⟨n, .dense, L, fun i => rd dbg data (addr i)⟩ : Seq R).Presents n (fun i => data.getD (addr i) 0) :=
    Seq.presents_range e2 e3 (fun _ _ h => h) hg (fun i h1 h2 => by omega) (fun _ => ⟨rfl, rfl⟩)
  obtain ⟨q, b1, b2⟩ := C48_binary dbg F.apply ap he (.inr (F_zero F))
  obtain ⟨d, c1, c2⟩ := C42_view_assign dbg mode junk n addr (fun _ => q) data _ hinj hb b2
  exact ⟨d, by simp only [viewOpAssignExpr, viewSeq, e1, bind_ok, b1, c1], c2⟩

/-- **C42**, compressed_vector: `v = e`. -/
theorem C42_compressed_assign (dbg : Bool) (mode : ProdFn.Mode) (IB : Nat) (junk : CVec.Junk R) (e : CVec R → Seq R) (v : CVec R) (n : Nat) (c : Nat → R)
    (he : (e v).Presents n c) : ∃ v', compressedAssign dbg mode IB junk e v = .ok v' ∧ v'.size = n ∧ ∀ i, i < n → v'.get dbg IB 0 i = .ok (c i) := by
  obtain ⟨v0, e0, E, h0⟩ := CVec.inv_ctor dbg IB junk n v.cap
  have hsup := compressed_supports dbg IB junk
  obtain ⟨s', w', S', f1, f2, f3⟩ := C44_assign_every_element dbg mode .sparse .assign (e v) n c v0 _ _ hsup (by simp) (he.reads _) ⟨E, _, h0, rfl, rfl, rfl⟩
  refine ⟨s', ?_, ?_, ?_⟩
  · simp only [compressedAssign, compressedFrom, he.size, e0, bind_ok, f1]
  · exact hsup.1.size _ _ _ _ f2
  · obtain ⟨E', t, g1, g2, g3, g4⟩ := f2
    intro i hi
    rw [g1.get dbg 0 i (by omega), ← show w' i = c i from f3 i hi, g3]

/-- **C42**, compressed_vector: `v += e`, `v -= e`, for `v` after any legal history. -/
theorem C42_compressed_op_assign (dbg : Bool) (mode : ProdFn.Mode) (IB : Nat) (junk : CVec.Junk R) (F : AssignF) (e : CVec R → Seq R) (v : CVec R) (s : SparseSpec.Vec R) (c : Nat → R)
    (hv : SparseSpec.CVObserves dbg IB 0 v s) (he : (e v).Presents s.size c) :
    ∃ v', compressedOpAssign dbg mode IB junk F e v = .ok v' ∧ v'.size = s.size ∧ ∀ i, i < s.size → v'.get dbg IB 0 i = .ok (F.apply ((s.val i).getD 0) (c i)) := by
  obtain ⟨⟨sz, ct, el, at'⟩, ⟨a0, a1, a2, a3⟩, ap⟩ := compressedVector_operand dbg IB v s hv
  simp only at a0 a1 a3
  subst a0 a1 a3
  obtain ⟨q, b1, b2⟩ := C48_binary dbg F.apply ap he (.inr (F_zero F))
  obtain ⟨v', c1, c2⟩ := C42_compressed_assign dbg mode IB junk (fun _ => q) v s.size _ b2
  exact ⟨v', by simp only [compressedOpAssign, a2, bind_ok, b1]; exact c1, c2⟩

/-- Non-vacuity: `v = prod (A, v)` with A the exchange matrix. -/
example : ∃ (A : MSeq Int) (a : Nat → Nat → Int), A.Presents 2 2 a ∧
    assignExpr true .indexing (fun _ => 99) (fun v => ⟨2, .dense, [(0, v.getD 1 0), (1, v.getD 0 0)], fun i => .ok (v.getD (1 - i) 0)⟩) [3, (4 : Int)] = .ok [4, 3] := by
  obtain ⟨q, _, h⟩ := dense_operand true .row (⟨2, 2, [0, 1, 1, 0]⟩ : Dense Int) rfl
  exact ⟨q, _, h, rfl⟩

/-! ## C43 -/

theorem elementwise_reads (dbg : Bool) (cat : Cat) (n : Nat) (g : Nat → R → R) (orig : List R) :
    (VExpr.elementwise dbg cat n g).Reads (ViewRep n id orig) n (List.range n) g where
  size := rfl
  begin_ s w S _ := by simp [VExpr.elementwise, Function.comp_def]
  deref s w S s0 w0 S0 h _ q hq := by
    simp only [VExpr.elementwise, List.mem_map, List.mem_range] at hq
    obtain ⟨i, hi, rfl⟩ := hq
    have : rd dbg s i = .ok (w i) := rd_eq_ok.2 (h.2.2.2.1 i hi)
    simp only [this, bind_ok]
  at_ s w S h i hi := by
    have : rd dbg s i = .ok (w i) := rd_eq_ok.2 (h.2.2.2.1 i hi)
    simp only [VExpr.elementwise, this, bind_ok]
  sorted := List.pairwise_lt_range
  lt i hi := by simpa using hi
  skipped i hi hm := absurd (by simpa using hi) hm
  packed _ := ⟨0, by rw [List.length_range, List.range_eq_range']⟩
  dense _ := rfl

/-- **C43** (partial).  `noalias (v) = e` on a dense vector: when `e` reads `v` only at the index being written and none of its operands is sparse, every
element is the value of `e` on the old contents, i.e. what `v = e` stores.  Missing: expressions of sparse category and sparse targets, where the claim
fails (`C43_refuted`, `C43_compressed_refuted`). -/
theorem C43_noalias_partial (dbg : Bool) (mode : ProdFn.Mode) (v : List R) (e : VExpr (List R) R) (I : List Nat) (g : Nat → R → R)
    (he : e.Reads (ViewRep v.length id v) v.length I g) (hc : e.cat ≠ .sparse) :
    ∃ v', noaliasExpr dbg mode e v = .ok v' ∧ Holds v' v.length (fun i => g i (v.getD i 0)) := by
  obtain ⟨s', w', S', e1, h1, h2⟩ := assign_elementwise dbg mode .dense .assign e v.length I g v _ _
    (view_supports dbg v.length id v (fun i j _ _ h => h)).1 (by simp) he (view_id_rep v) (by
      cases hcat : e.cat <;> simp [assignTraits, AssignF.computed]
      exact hc hcat)
  obtain ⟨a1, a2, a3, a4, a5⟩ := h1
  exact ⟨s', e1, a3, fun i hi => by rw [show s'[i]? = _ from a4 i hi, h2 i hi]; rfl⟩

/-- **C43** for views (every category of `e`): `noalias (view) = e`. -/
theorem C43_noalias_view (dbg : Bool) (mode : ProdFn.Mode) (n : Nat) (addr : Nat → Nat) (data : List R) (e : VExpr (List R) R) (I : List Nat) (g : Nat → R → R)
    (hinj : ∀ i j, i < n → j < n → addr i = addr j → i = j) (hb : ∀ i, i < n → addr i < data.length)
    (he : e.Reads (ViewRep n addr data) n I g) :
    ∃ data', assign dbg mode .denseProxy (VT.view dbg n addr) .assign e data = .ok data' ∧ ViewHolds data data' n addr (fun i => g i (data.getD (addr i) 0)) := by
  obtain ⟨s', w', S', e1, h1, h2⟩ := assign_elementwise dbg mode .denseProxy .assign e n I g data _ _
    (view_supports dbg n addr data hinj).2 (by simp) he (view_rep n addr data hb) (by
      cases hcat : e.cat <;> simp [assignTraits, AssignF.computed])
  obtain ⟨a1, a2, a3, a4, a5⟩ := h1
  exact ⟨s', e1, a3, fun i hi => by rw [a4 i hi, h2 i hi]; rfl, a5⟩

/-- Non-vacuity of the two theorems above: `noalias (v) = 2 * v + w` meets the hypotheses. -/
example (w : Nat → Int) (v : List Int) : ∃ v', noaliasExpr true (.threshold 2) (VExpr.elementwise true .dense v.length (fun i x => 2 * x + w i)) v = .ok v' ∧
    Holds v' v.length (fun i => 2 * v.getD i 0 + w i) :=
  C43_noalias_partial true _ v _ _ _ (elementwise_reads true .dense v.length (fun i x => 2 * x + w i) v) (by simp [VExpr.elementwise])

/-- **C43** refuted: `noalias (v) = v + w` with a dense `v` and a sparse `w` loses `v`: the sparse assignment clears `v` before it evaluates the sum. -/
theorem C43_refuted : ¬ ∀ (cat : Cat) (v : List Int) (g : Nat → Int → Int),
    ∃ v', noaliasExpr true .indexing (VExpr.elementwise true cat v.length g) v = .ok v' ∧ Holds v' v.length (fun i => g i (v.getD i 0)) := by
  intro h
  obtain ⟨v', e, h1, h2⟩ := h .sparse [1] (fun _ x => x + 5)
  have : noaliasExpr true .indexing (VExpr.elementwise true .sparse [(1 : Int)].length (fun _ x => x + 5)) [(1 : Int)] = .ok [5] := by rfl
  rw [this] at e; cases e
  exact absurd (h2 0 (by decide)) (by decide)

/-- Exactly what happens for an expression of sparse category: it is evaluated on a zero vector. -/
theorem C43_sparse_expression (dbg : Bool) (mode : ProdFn.Mode) (v : List R) (e : VExpr (List R) R) (I : List Nat) (g : Nat → R → R)
    (he : e.Reads (ViewRep v.length id v) v.length I g) (hc : e.cat = .sparse) :
    ∃ v', noaliasExpr dbg mode e v = .ok v' ∧ Holds v' v.length (fun i => g i 0) := by
  obtain ⟨s', w', S', e1, h1, h2⟩ := assign_after_clear dbg mode .dense .assign e v.length I g v _ _
    (view_supports dbg v.length id v (fun i j _ _ h => h)).1 he (view_id_rep v) (by simp) (by rw [hc]; rfl)
  obtain ⟨a1, a2, a3, a4, a5⟩ := h1
  exact ⟨s', e1, a3, fun i hi => by rw [show s'[i]? = _ from a4 i hi, h2 i hi]⟩

/-- **C43** refuted for sparse containers: `noalias (v) = t * v` on a compressed_vector stores nothing. -/
theorem C43_compressed_refuted : ¬ ∀ (v : CVec Int) (t : Int), CVec.invariants true 0 v = .ok () →
    ∃ v', noaliasCompressed true .indexing 0 (id, fun _ => 0) (VExpr.scaledCompressed true 0 v.size t) v = .ok v' ∧
      ∀ i, i < v.size → ∃ x, v.get true 0 0 i = .ok x ∧ v'.get true 0 0 i = .ok (t * x) := by
  intro h
  obtain ⟨v', e, h'⟩ := h ⟨2, 1, 1, [1], [7]⟩ 2 (by rfl)
  have : noaliasCompressed true .indexing 0 (id, fun _ => 0) (VExpr.scaledCompressed true 0 2 2) (⟨2, 1, 1, [1], [7]⟩ : CVec Int) = .ok ⟨2, 1, 0, [1], [7]⟩ := by rfl
  rw [this] at e; cases e
  obtain ⟨x, h1, h2⟩ := h' 1 (by decide)
  have g1 : (⟨2, 1, 1, [1], [7]⟩ : CVec Int).get true 0 0 1 = .ok 7 := by rfl
  have g2 : (⟨2, 1, 0, [1], [7]⟩ : CVec Int).get true 0 0 1 = .ok 0 := by rfl
  rw [g1] at h1; cases h1
  rw [g2] at h2; exact absurd h2 (by decide)

/-- "With matrix-vector products of `v` it may not": `noalias (v) = prod (A, v)` with A the exchange matrix gives (4, 4) instead of (4, 3). -/
theorem C43_prod_differs : ∃ (A : MSeq Int) (a : Nat → Nat → Int), A.Presents 2 2 a ∧ (∀ i j, i < 2 → j < 2 → a i j = if i = j then 0 else 1) ∧
    noaliasExpr true .indexing (VExpr.prodVec true A) [3, 4] = .ok [4, 4] := by
  have h : (⟨2, 2, .dense, fun i => [(0, if i = 0 then 0 else 1), (1, if i = 1 then 0 else 1)], fun i => [(0, if i = 0 then 0 else 1), (1, if i = 1 then 0 else 1)],
      fun i j => .ok (if i = j then 0 else 1)⟩ : MSeq Int).Presents 2 2 (fun i j => if i = j then 0 else 1) := by
    constructor
    · rfl
    · rfl
    · intro i hi
      have : i = 0 ∨ i = 1 := by omega
      rcases this with rfl | rfl <;>
        exact ⟨rfl, fun _ _ => rfl, by decide, by decide, fun j hj hm => absurd (by
          have : j = 0 ∨ j = 1 := by omega
          rcases this with rfl | rfl <;> decide) hm, fun _ => ⟨0, by decide⟩, fun _ => by decide⟩
    · intro i hi
      have : i = 0 ∨ i = 1 := by omega
      rcases this with rfl | rfl <;>
        exact ⟨rfl, fun _ _ => rfl, by decide, by decide, fun j hj hm => absurd (by
          have : j = 0 ∨ j = 1 := by omega
          rcases this with rfl | rfl <;> decide) hm, fun _ => ⟨0, by decide⟩, fun _ => by decide⟩
  exact ⟨_, _, h, fun _ _ _ _ => rfl, rfl⟩

end Ublas
