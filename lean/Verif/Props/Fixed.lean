import Verif.Spec.Fixed
import Verif.Props.AssignOps
import Verif.Props.MatrixAlias
import Verif.Props.ScalarAssign
import Verif.Props.DenseIter
import Verif.Props.DenseVV
import Verif.Props.AssignerRefuted
/-! # C118: fixed_vector and fixed_matrix -/
namespace Ublas
open FixedSpec
variable {R : Type}

/-! ## Sizes that do not match, with checks -/

/-- With checks, `vector_assign` to a dense target refuses an expression of another size. -/
theorem VAssign.dense_mismatch {σ : Type} [Add R] [Sub R] [Zero R] [DecidableEq R] (mode : ProdFn.Mode) (T : VT σ R) (F : AssignF) (e : VExpr σ R) (s : σ) (h : T.size s ≠ e.size) :
    VAssign.assign true mode .dense T F e s = .error .badArgument ∨ VAssign.assign true mode .dense T F e s = .error .badSize := by
  have c1 : ∀ f, check true (T.size s = e.size) f = .error f := fun f => check_dbg_false h
  have c2 : same true (T.size s) e.size = .error .badArgument := by unfold same; rw [c1]; rfl
  unfold VAssign.assign
  have hd : VAssign.dense true mode T F e s = .error .badArgument := by
    unfold VAssign.dense
    cases mode <;> simp only [VAssign.indexing, VAssign.iterating, c2, bind_error]
  have hp : VAssign.packed true T F e s = .error .badSize := by unfold VAssign.packed; rw [c1]; rfl
  have hs : VAssign.sparse true T e s = .error .badSize := by unfold VAssign.sparse; rw [c1]; rfl
  have hq : VAssign.sparseProxy true T F e s = .error .badSize := by unfold VAssign.sparseProxy; rw [c1]; rfl
  cases F <;> cases hc : e.cat <;> simp [assignTraits, AssignF.computed, hd, hp, hs, hq]

/-- The same for `matrix_assign`. -/
theorem MAssign.dense_mismatch {σ : Type} [Add R] [Sub R] [Zero R] [DecidableEq R] (mode : ProdFn.Mode) (T : MT σ R) (F : AssignF) (e : MExp R) (s : σ) (h : ¬ (T.sizeM s = e.sizeM ∧ T.sizem s = e.sizem)) :
    MAssign.assign true mode .dense T F e s = .error .badArgument ∨ MAssign.assign true mode .dense T F e s = .error .badSize := by
  have key : ∀ {β : Type} (f : Fault) (k : M β), (check true (T.sizeM s = e.sizeM) f >>= fun _ => check true (T.sizem s = e.sizem) f >>= fun _ => k) = .error f := by
    intro β f k
    by_cases h1 : T.sizeM s = e.sizeM
    · rw [check_true h1, bind_ok, check_dbg_false (fun h2 => h ⟨h1, h2⟩)]; rfl
    · rw [check_dbg_false h1]; rfl
  have key2 : ∀ {β : Type} (k : Nat → Nat → M β), (same true (T.sizeM s) e.sizeM >>= fun a => same true (T.sizem s) e.sizem >>= fun b => k a b) = .error .badArgument := by
    intro β k
    unfold same
    by_cases h1 : T.sizeM s = e.sizeM
    · rw [check_true h1, bind_ok]
      simp only [pure_eq_ok, bind_ok]
      rw [check_dbg_false (fun h2 => h ⟨h1, h2⟩)]; rfl
    · rw [check_dbg_false h1]; rfl
  have hd : MAssign.dense true mode T F e s = .error .badArgument := by
    unfold MAssign.dense
    cases mode
    · exact key2 _
    · exact key2 _
    · exact key2 _
  have hp : MAssign.packed true T F e s = .error .badSize := key _ _
  have hs : MAssign.sparse true T e s = .error .badSize := key _ _
  have hq : MAssign.sparseProxy true T F e s = .error .badSize := key _ _
  unfold MAssign.assign
  cases F <;> cases hc : e.cat <;> simp [massignTraits, AssignF.computed, hd, hp, hs, hq]

/-! ## fixed_vector -/

theorem FVec.get_iff {v : List R} {dbg : Bool} {i : Nat} (hi : i < v.length) {x : R} : FVec.get dbg v i = .ok x ↔ v[i]? = some x := by
  unfold FVec.get
  rw [check_true hi, bind_ok, rd_eq_ok]

theorem FVec.vec_iff {N : Nat} {v : List R} {w : Nat → R} : Vec N v w ↔ v.length = N ∧ ∀ i, i < N → v[i]? = some (w i) := by
  constructor
  · rintro ⟨h1, h2⟩
    exact ⟨h1, fun i hi => (FVec.get_iff (by omega)).1 (h2 true i hi)⟩
  · rintro ⟨h1, h2⟩
    exact ⟨h1, fun dbg i hi => (FVec.get_iff (by omega)).2 (h2 i hi)⟩

/-- **C118** (constructors).  A default constructed fixed_vector is zero, `fixed_vector (t)` has `t` everywhere, a list of values is stored from the front with zeros behind it; access outside is refused with
checks on, for reading and writing. -/
theorem C118_vector_constructors [Zero R] (N : Nat) :
    Vec N (FVec.ctor N : List R) (fun _ => 0) ∧ (∀ t : R, Vec N (FVec.filled N t) fun _ => t) ∧
    (∀ l : List R, l.length ≤ N → Vec N (FVec.ofList N l) fun i => l.getD i 0) ∧
    ∀ (v : List R) (i : Nat) (t : R), v.length ≤ i → FVec.get true v i = .error .badIndex ∧ FVec.set true v i t = .error .badIndex ∧ FVec.erase true v i = .error .badIndex := by
  refine ⟨FVec.vec_iff.2 ⟨by simp [FVec.ctor], fun i hi => by simp [FVec.ctor, hi]⟩, fun t => FVec.vec_iff.2 ⟨by simp [FVec.filled], fun i hi => by simp [FVec.filled, hi]⟩,
    fun l hl => FVec.vec_iff.2 ⟨by simp [FVec.ofList]; omega, fun i hi => ?_⟩, fun v i t h => ?_⟩
  · unfold FVec.ofList
    rw [List.getElem?_append]
    by_cases h : i < l.length
    · rw [if_pos h]; simp [List.getD, h]
    · rw [if_neg h, List.getElem?_replicate, if_pos (by omega)]; simp [List.getD, h]
  · have hn : ¬ i < v.length := by omega
    exact ⟨by unfold FVec.get; rw [check_dbg_false hn]; rfl, by unfold FVec.set; rw [check_dbg_false hn]; rfl, by unfold FVec.erase FVec.set; rw [check_dbg_false hn]; rfl⟩

theorem FVec.set_ok (dbg : Bool) {N : Nat} {v : List R} {w : Nat → R} (h : Vec N v w) {i : Nat} (hi : i < N) (t : R) :
    ∃ v', FVec.set dbg v i t = .ok v' ∧ Vec N v' fun k => if k = i then t else w k := by
  obtain ⟨h1, h2⟩ := FVec.vec_iff.1 h
  refine ⟨v.set i t, by unfold FVec.set; rw [check_true (by omega), bind_ok, wr_ok (by omega)], FVec.vec_iff.2 ⟨by simpa using h1, fun k hk => ?_⟩⟩
  rw [List.getElem?_set]
  by_cases hq : i = k
  · subst hq; rw [if_pos rfl, if_pos (by omega), if_pos rfl]
  · rw [if_neg hq, if_neg (Ne.symm hq)]; exact h2 k hk

section ring
variable [Ring R] [DecidableEq R]

theorem FVec.assign_ok (dbg : Bool) (mode : ProdFn.Mode) (F : AssignF) {N : Nat} {v : List R} {w : Nat → R} (h : Vec N v w) (e : Seq R) (x : Nat → R) (he : e.Presents N x) :
    ∃ v', VAssign.assign dbg mode .dense (VT.view dbg N id) F (VExpr.const e) v = .ok v' ∧ Vec N v' fun k => F.apply (w k) (x k) := by
  obtain ⟨h1, h2⟩ := FVec.vec_iff.1 h
  subst h1
  obtain ⟨d, w', S', e1, ⟨a1, a2, a3, a4, a5⟩, g2⟩ := C44_assign_every_element dbg mode .dense F e _ x v _ _
    (view_supports dbg v.length id v (fun i j _ _ h => h)).1 (by simp) (he.reads _) (view_id_rep v)
  refine ⟨d, e1, FVec.vec_iff.2 ⟨a3, fun i hi => ?_⟩⟩
  rw [show d[i]? = some (w' i) from a4 i hi, g2 i hi]
  have := h2 i hi
  simp only [List.getD, this, Option.getD_some]

theorem FVec.fromExpr_ok (dbg : Bool) (mode : ProdFn.Mode) (N : Nat) (e : Seq R) (x : Nat → R) (he : e.Presents N x) : ∃ v, FVec.fromExpr dbg mode N e = .ok v ∧ Vec N v x :=
  FVec.assign_ok dbg mode .assign (C118_vector_constructors N).1 e x he

/-- One operation. -/
theorem FVec.step_ok (dbg : Bool) (mode : ProdFn.Mode) {N : Nat} {v : List R} {w x : Nat → R} {op : Op R} (h : Vec N v w) (hs : Step N w op x) :
    ∃ v', op.run dbg mode v = .ok v' ∧ Vec N v' x := by
  have hl := h.1
  cases hs with
  | set i t hi => exact FVec.set_ok dbg h hi t
  | erase i hi => exact FVec.set_ok dbg h hi 0
  | clear => exact ⟨_, rfl, FVec.vec_iff.2 ⟨by simpa [FVec.clear] using hl, fun i hi => by simp [FVec.clear, hl, hi]⟩⟩
  | copy _ src hsrc => exact ⟨src, rfl, hsrc⟩
  | assignExpr _ e he =>
    obtain ⟨t, e1, ht⟩ := FVec.fromExpr_ok dbg mode N _ x (he v h)
    exact ⟨t, by show FVec.assignExpr dbg mode e v = _; unfold FVec.assignExpr; rw [hl, e1]; rfl, ht⟩
  | opAssignExpr y F e he =>
    obtain ⟨⟨sz, ct, el, at'⟩, ⟨a0, a1, a2, a3⟩, ap⟩ := denseVec_operand dbg v
    simp only at a0 a1 a3
    subst a0 a1 a3
    have hy := he v h
    rw [← hl] at hy
    obtain ⟨q, b1, b2⟩ := C48_binary dbg F.apply ap hy (.inr (F_zero F))
    obtain ⟨t, c1, c2⟩ := FVec.fromExpr_ok dbg mode v.length q _ b2
    refine ⟨t, ?_, ?_⟩
    · show FVec.opAssignExpr dbg mode F e v = _
      unfold FVec.opAssignExpr VAssign.denseSeq
      rw [a2, bind_ok, bind_ok, b1, bind_ok, c1]; rfl
    · obtain ⟨g1, g2⟩ := FVec.vec_iff.1 c2
      obtain ⟨k1, k2⟩ := FVec.vec_iff.1 h
      refine FVec.vec_iff.2 ⟨by rw [g1, hl], fun i hi => ?_⟩
      rw [g2 i (by omega), List.getD_eq_getElem?_getD, k2 i hi]; rfl
  | assign y F e he =>
    show ∃ v', FVec.assign dbg mode F e v = _ ∧ _
    unfold FVec.assign
    rw [hl]; exact FVec.assign_ok dbg mode F h e y he
  | scale t =>
    obtain ⟨v', e1, g1, g2⟩ := C74_dense_vector dbg mode t v
    refine ⟨v', e1, FVec.vec_iff.2 ⟨by rw [g1, hl], fun i hi => ?_⟩⟩
    rw [g2 i (by omega)]
    show some (v.getD i 0 * t) = _
    rw [List.getD_eq_getElem?_getD, (FVec.vec_iff.1 h).2 i hi]; rfl

/-- **C118** (histories of a fixed_vector).  Whatever is done to a fixed_vector - element writes, `clear`, copies, assignments of expressions that may read it, `+=`, `-=`, `noalias`, assignments of containers,
scaling - the vector keeps its size and has the elements the history says, in every build and for every iteration policy; `swap` exchanges the elements of two of them. -/
theorem C118_vector_history (dbg : Bool) (mode : ProdFn.Mode) (N : Nat) (ops : List (Op R)) (v : List R) (w x : Nat → R) (h : Vec N v w) (hh : Hist N w ops x) :
    ∃ v', ops.foldlM (Op.run dbg mode) v = .ok v' ∧ Vec N v' x ∧ ∀ u y, Vec N u y → Vec N (FVec.swap v' u).1 y ∧ Vec N (FVec.swap v' u).2 x := by
  induction hh generalizing v with
  | nil w => exact ⟨v, rfl, h, fun u y hu => ⟨hu, h⟩⟩
  | cons hs _ ih =>
    obtain ⟨v1, e1, h1⟩ := FVec.step_ok dbg mode h hs
    obtain ⟨v2, e2, h2⟩ := ih v1 h1
    exact ⟨v2, by rw [List.foldlM_cons, e1]; exact e2, h2⟩

/-- **C118** (sizes).  With checks, assigning an expression of another size - with or without temporary - is refused. -/
theorem C118_vector_mismatch (mode : ProdFn.Mode) (v : List R) (F : AssignF) (e : Seq R) (h : e.size ≠ v.length) :
    (FVec.assign true mode F e v = .error .badArgument ∨ FVec.assign true mode F e v = .error .badSize) ∧
    (FVec.fromExpr true mode v.length e = .error .badArgument ∨ FVec.fromExpr true mode v.length e = .error .badSize) ∧
    (∀ f : List R → Seq R, f v = e → FVec.assignExpr true mode f v = .error .badArgument ∨ FVec.assignExpr true mode f v = .error .badSize) ∧
    (∀ f : List R → Seq R, f v = e → FVec.opAssignExpr true mode F f v = .error .badArgument) := by
  have h2 : FVec.fromExpr true mode v.length e = .error .badArgument ∨ FVec.fromExpr true mode v.length e = .error .badSize :=
    VAssign.dense_mismatch mode _ .assign (VExpr.const e) _ (fun c => h c.symm)
  refine ⟨VAssign.dense_mismatch mode _ F (VExpr.const e) v (fun c => h c.symm), h2, fun f hf => ?_, fun f hf => ?_⟩
  · unfold FVec.assignExpr
    rw [hf]
    rcases h2 with h2 | h2
    · exact .inl (by rw [h2]; rfl)
    · exact .inr (by rw [h2]; rfl)
  · obtain ⟨⟨sz, ct, el, at'⟩, ⟨a0, a1, a2, a3⟩, ap⟩ := denseVec_operand true v
    simp only at a0 a1 a3
    subst a0 a1 a3
    unfold FVec.opAssignExpr VAssign.denseSeq
    rw [a2, bind_ok, bind_ok, hf, C48_size_mismatch F.apply _ _ (fun c => h c.symm)]; rfl
end ring

/-- **C118** refuted for release builds: a shorter dense vector is read past its end, a longer one is cut off silently. -/
theorem C118_release_sizes_refuted :
    FVec.assign false .indexing .assign (⟨1, .dense, [(0, 7)], rd false [7]⟩ : Seq Int) [1, 2] = .error .ub ∧
    FVec.assign false .indexing .assign (⟨3, .dense, [(0, 7), (1, 8), (2, 9)], rd false [7, 8, 9]⟩ : Seq Int) [1, 2] = .ok [7, 8] := ⟨by rfl, by rfl⟩

/-- **C118** refuted for `empty ()`: the reference it returns never can be read. -/
theorem C118_empty_refuted (v : List R) : (FVec.empty v).read ≠ .ok true ∧ (FVec.empty v).read ≠ .ok false := by
  unfold FVec.empty Ref.read
  exact ⟨by simp, by simp⟩

/-! ## fixed_matrix -/
namespace FMat

theorem mat_iff {o : Orient} {m n : Nat} {d : List R} {w : Nat → Nat → R} : Mat o m n d w ↔ d.length = m * n ∧ ∀ i j, i < m → j < n → d[o.elementRaw i m j n]? = some (w i j) := by
  have key : ∀ dbg i j x, i < m → j < n → (FMat.get dbg o m n d i j = .ok x ↔ d[o.elementRaw i m j n]? = some x) := by
    intro dbg i j x hi hj
    simp only [FMat.get, Orient.element, check_true hi, check_true hj, bind_ok, pure_eq_ok, rd_eq_ok]
  exact ⟨fun h => ⟨h.1, fun i j hi hj => (key true i j _ hi hj).1 (h.2 true i j hi hj)⟩, fun h => ⟨h.1, fun dbg i j hi hj => (key dbg i j _ hi hj).2 (h.2 i j hi hj)⟩⟩

theorem valid (o : Orient) (m n : Nat) (d : List R) (h : d.length = m * n) :
    ValidView d (o.sizeM m n) (o.sizem m n) fun k l => o.elementRaw (o.indexM k l) m (o.indexm k l) n := by
  refine ⟨fun k l i j hk hl hi hj he => ?_, fun k l hk hl => ?_⟩
  · obtain ⟨h1, h2⟩ := VV.idx_lt' o hk hl
    obtain ⟨h3, h4⟩ := VV.idx_lt' o hi hj
    obtain ⟨b1, b2⟩ := elementRaw_inj o h1 h2 h3 h4 he
    cases o
    · exact ⟨b1, b2⟩
    · exact ⟨b2, b1⟩
  · obtain ⟨h1, h2⟩ := VV.idx_lt' o hk hl
    rw [h]; exact elementRaw_lt o h1 h2

/-- **C118** (constructors of a fixed_matrix).  Default constructed: zero; `fixed_matrix (t)`: `t` everywhere; a list of values fills the matrix in storage order; indices outside are refused with checks. -/
theorem C118_matrix_constructors [Zero R] (o : Orient) (m n : Nat) :
    Mat o m n (FMat.ctor m n : List R) (fun _ _ => 0) ∧ (∀ t : R, Mat o m n (FMat.filled m n t) fun _ _ => t) ∧
    (∀ l : List R, l.length ≤ m * n → Mat o m n (FMat.ofList m n l) fun i j => l.getD (o.elementRaw i m j n) 0) ∧
    ∀ (d : List R) (i j : Nat) (t : R), ¬ (i < m ∧ j < n) → FMat.get true o m n d i j = .error .badIndex ∧ FMat.set true o m n d i j t = .error .badIndex ∧ FMat.erase true o m n d i j = .error .badIndex := by
  refine ⟨mat_iff.2 ⟨by simp [FMat.ctor], fun i j hi hj => by simp [FMat.ctor, elementRaw_lt o hi hj]⟩, fun t => mat_iff.2 ⟨by simp [FMat.filled], fun i j hi hj => by simp [FMat.filled, elementRaw_lt o hi hj]⟩,
    fun l hl => mat_iff.2 ⟨by simp [FMat.ofList]; omega, fun i j hi hj => ?_⟩, fun d i j t h => ?_⟩
  · have hlt := elementRaw_lt o hi hj
    unfold FMat.ofList
    rw [List.getElem?_append]
    by_cases h : o.elementRaw i m j n < l.length
    · rw [if_pos h]; simp [List.getD, h]
    · rw [if_neg h, List.getElem?_replicate, if_pos (by omega)]; simp [List.getD, h]
  · have he := Assigner.element_refused o h
    exact ⟨by unfold FMat.get; rw [he]; rfl, by unfold FMat.set; rw [he]; rfl, by unfold FMat.erase FMat.set; rw [he]; rfl⟩

theorem set_ok (dbg : Bool) {o : Orient} {m n : Nat} {d : List R} {w : Nat → Nat → R} (h : Mat o m n d w) {i j : Nat} (hi : i < m) (hj : j < n) (t : R) :
    ∃ d', FMat.set dbg o m n d i j t = .ok d' ∧ Mat o m n d' fun k l => if k = i ∧ l = j then t else w k l := by
  obtain ⟨h1, h2⟩ := mat_iff.1 h
  have hlt : o.elementRaw i m j n < d.length := by rw [h1]; exact elementRaw_lt o hi hj
  refine ⟨d.set (o.elementRaw i m j n) t, ?_, mat_iff.2 ⟨by simpa using h1, fun k l hk hl => ?_⟩⟩
  · simp only [FMat.set, Orient.element, check_true hi, check_true hj, bind_ok, pure_eq_ok, wr_ok hlt]
  · rw [List.getElem?_set]
    by_cases hq : o.elementRaw i m j n = o.elementRaw k m l n
    · obtain ⟨b1, b2⟩ := elementRaw_inj o hi hj hk hl hq
      rw [if_pos hq, if_pos hlt, if_pos ⟨b1.symm, b2.symm⟩]
    · rw [if_neg hq, if_neg (fun c => hq (by rw [c.1, c.2]))]; exact h2 k l hk hl

section ring
variable [Ring R] [DecidableEq R]

theorem assign_ok (dbg : Bool) (mode : ProdFn.Mode) (F : AssignF) {o : Orient} {m n : Nat} {d : List R} {w : Nat → Nat → R} (h : Mat o m n d w) (e : MExp R) (x : Nat → Nat → R)
    (he : ExprIs o e m n x) : ∃ d', FMat.assign dbg mode F o m n e d = .ok d' ∧ Mat o m n d' fun k l => F.apply (w k l) (x k l) := by
  obtain ⟨h1, h2⟩ := mat_iff.1 h
  have hv := valid o m n d h1
  obtain ⟨s', w', Ls', S', e1, ⟨_, _, _, _, b5, b6, b7⟩, g⟩ := C68_matrix_assign dbg mode .dense F e _ _ _ d _ _ _ (mview_supports dbg _ _ _ d hv.1).1 (by simp) he (mview_rep d _ _ _ hv.2)
  refine ⟨s', e1, mat_iff.2 ⟨by rw [b5, h1], fun i j hi hj => ?_⟩⟩
  obtain ⟨k1, k2⟩ := VV.idx_lt o hi hj
  have c1 := b6 _ _ k1 k2
  have c2 := g _ _ k1 k2
  simp only [(VV.idx_idx o i j).1, (VV.idx_idx o i j).2] at c1 c2
  rw [c1, c2, List.getD_eq_getElem?_getD, h2 i j hi hj]; rfl

theorem fromExpr_ok (dbg : Bool) (mode : ProdFn.Mode) (o : Orient) (m n : Nat) (e : MExp R) (x : Nat → Nat → R) (he : ExprIs o e m n x) :
    ∃ d, FMat.fromExpr dbg mode o m n e = .ok d ∧ Mat o m n d x := assign_ok dbg mode .assign (C118_matrix_constructors o m n).1 e x he

theorem step_ok (dbg : Bool) (mode : ProdFn.Mode) {o : Orient} {m n : Nat} {d : List R} {w x : Nat → Nat → R} {op : MOp R} (h : Mat o m n d w) (hs : MStep o m n w op x) :
    ∃ d', op.run dbg mode o m n d = .ok d' ∧ Mat o m n d' x := by
  have hl := h.1
  cases hs with
  | set i j t hi hj => exact set_ok dbg h hi hj t
  | erase i j hi hj => exact set_ok dbg h hi hj 0
  | clear => exact ⟨_, rfl, mat_iff.2 ⟨by simpa [FMat.clear] using hl, fun i j hi hj => by simp [FMat.clear, hl, elementRaw_lt o hi hj]⟩⟩
  | copy _ src hsrc => exact ⟨src, rfl, hsrc⟩
  | assignExpr _ e he =>
    obtain ⟨t, e1, ht⟩ := fromExpr_ok dbg mode o m n _ x (he d h)
    exact ⟨t, by show FMat.assignExpr dbg mode o m n e d = _; unfold FMat.assignExpr; rw [e1]; rfl, ht⟩
  | opAssignExpr y F e he =>
    obtain ⟨q, q1, q2, _⟩ := arrExp_ok dbg _ _ _ d (valid o m n d hl).2
    obtain ⟨p, p1, p2⟩ := sumExp_ok dbg F q2 (he d h)
    have hx : ExprIs o p m n fun k l => F.apply (d.getD (o.elementRaw k m l n) 0) (y k l) := p2
    obtain ⟨t, t1, t2⟩ := fromExpr_ok dbg mode o m n p _ hx
    refine ⟨t, ?_, mat_iff.2 ⟨t2.1, fun i j hi hj => ?_⟩⟩
    · show FMat.opAssignExpr dbg mode F o m n e d = _
      unfold FMat.opAssignExpr
      rw [q1, bind_ok, p1, bind_ok, t1]; rfl
    · rw [(mat_iff.1 t2).2 i j hi hj, List.getD_eq_getElem?_getD, (mat_iff.1 h).2 i j hi hj]; rfl
  | assign y F e he => exact assign_ok dbg mode F h e y he
  | scale t =>
    obtain ⟨data, e1, hw, hg⟩ := C74_dense_matrix dbg mode o t (⟨m, n, d⟩ : Dense R) hl
    refine ⟨data, e1, mat_iff.2 ⟨hw, fun i j hi hj => ?_⟩⟩
    obtain ⟨y, g1, g2⟩ := hg i j hi hj
    simp only [Dense.get, Orient.element, check_true hi, check_true hj, bind_ok, pure_eq_ok, rd_eq_ok] at g1 g2
    rw [g2]
    have := (mat_iff.1 h).2 i j hi hj
    rw [g1] at this
    cases this; rfl

/-- **C118** (histories of a fixed_matrix), of either orientation. -/
theorem C118_matrix_history (dbg : Bool) (mode : ProdFn.Mode) (o : Orient) (m n : Nat) (ops : List (MOp R)) (d : List R) (w x : Nat → Nat → R) (h : Mat o m n d w) (hh : MHist o m n w ops x) :
    ∃ d', ops.foldlM (MOp.run dbg mode o m n) d = .ok d' ∧ Mat o m n d' x ∧ ∀ u y, Mat o m n u y → Mat o m n (FMat.swap d' u).1 y ∧ Mat o m n (FMat.swap d' u).2 x := by
  induction hh generalizing d with
  | nil w => exact ⟨d, rfl, h, fun u y hu => ⟨hu, h⟩⟩
  | cons hs _ ih =>
    obtain ⟨v1, e1, h1⟩ := step_ok dbg mode h hs
    obtain ⟨v2, e2, h2⟩ := ih v1 h1
    exact ⟨v2, by rw [List.foldlM_cons, e1]; exact e2, h2⟩

/-- **C118** (sizes of a fixed_matrix).  With checks, assigning an expression of another size is refused. -/
theorem C118_matrix_mismatch (mode : ProdFn.Mode) (o : Orient) (m n : Nat) (d : List R) (F : AssignF) (e : MExp R) (h : ¬ (o.sizeM m n = e.sizeM ∧ o.sizem m n = e.sizem)) :
    (FMat.assign true mode F o m n e d = .error .badArgument ∨ FMat.assign true mode F o m n e d = .error .badSize) ∧
    (∀ f : List R → MExp R, f d = e → FMat.assignExpr true mode o m n f d = .error .badArgument ∨ FMat.assignExpr true mode o m n f d = .error .badSize) := by
  refine ⟨MAssign.dense_mismatch mode _ F e d h, fun f hf => ?_⟩
  unfold FMat.assignExpr
  rw [hf]
  rcases MAssign.dense_mismatch mode (FMat.target true o m n) .assign e (FMat.ctor m n) h with h2 | h2
  · exact .inl (by show (MAssign.assign true mode .dense (FMat.target true o m n) .assign e (FMat.ctor m n) >>= _) = _; rw [h2]; rfl)
  · exact .inr (by show (MAssign.assign true mode .dense (FMat.target true o m n) .assign e (FMat.ctor m n) >>= _) = _; rw [h2]; rfl)
end ring

/-- **C118** (iteration over a fixed_matrix).  The nested iterator loops visit every element once, row by row (column by column), with its indices and value. -/
theorem C118_matrix_traverse (dbg : Bool) (o : Orient) (m n : Nat) (d : List R) (w : Nat → Nat → R) (h : Mat o m n d w) (fuel : Nat) (hf : m ≤ fuel) (hf2 : n ≤ fuel) :
    (0 < n → FMat.traverse12 dbg o m n d fuel = .ok ((List.range m).map fun i => (List.range n).map fun j => (i, j, w i j))) ∧
    (0 < m → FMat.traverse21 dbg o m n d fuel = .ok ((List.range n).map fun j => (List.range m).map fun i => (i, j, w i j))) := by
  have hg : ∀ i j, i < m → j < n → (⟨m, n, d⟩ : Dense R).get dbg o i j = .ok (w i j) := by
    intro i j hi hj
    have := (mat_iff.1 h).2 i j hi hj
    simp only [Dense.get, Orient.element, check_true hi, check_true hj, bind_ok, pure_eq_ok, rd_eq_ok, this]
  refine ⟨fun hn => ?_, fun hm => ?_⟩
  · by_cases hm : m = 0
    · subst hm
      have := C49_traverse12 dbg o (⟨0, n, d⟩ : Dense R) h.1 (w 0 0) fuel hf hf2 hn
      exact this
    · have := C49_traverse12 dbg o (⟨m, n, d⟩ : Dense R) h.1 (w 0 0) fuel hf hf2 hn
      refine this.trans (congrArg Except.ok (List.map_congr_left fun i hi => List.map_congr_left fun j hj => ?_))
      rw [elemSpec, hg i j (by simpa using hi) (by simpa using hj)]
  · have := C49_traverse21 dbg o (⟨m, n, d⟩ : Dense R) h.1 (w 0 0) fuel hf hf2 hm
    refine this.trans (congrArg Except.ok (List.map_congr_left fun j hj => List.map_congr_left fun i hi => ?_))
    rw [elemSpec, hg i j (by simpa using hi) (by simpa using hj)]
end FMat

/-! ## Instances -/

/-- The reversal of a vector of two elements, as an expression that reads it. -/
private def rev2 (v : List Int) : Seq Int := ⟨2, .dense, [(0, v.getD 1 0), (1, v.getD 0 0)], fun i => .ok (v.getD (1 - i) 0)⟩
private theorem rev2_presents (w : Nat → Int) (v : List Int) (h : Vec 2 v w) : (rev2 v).Presents 2 fun i => w (1 - i) := by
  have h2 := (FVec.vec_iff.1 h).2
  have g : ∀ i, i < 2 → v.getD i 0 = w i := fun i hi => by rw [List.getD_eq_getElem?_getD, h2 i hi]; rfl
  refine ⟨rfl, fun i hi => ?_, fun p hp => ?_, by simp [rev2], fun i hi hn => ?_, fun _ => ⟨0, rfl⟩, fun _ => rfl⟩
  · show Except.ok (v.getD (1 - i) 0) = _
    rw [g _ (by omega)]
  · simp only [rev2, List.mem_cons, List.not_mem_nil, or_false] at hp
    rcases hp with rfl | rfl
    · exact ⟨Nat.zero_lt_two, g 1 (by decide)⟩
    · exact ⟨Nat.one_lt_two, g 0 (by decide)⟩
  · refine absurd ?_ hn
    simp only [rev2, List.map_cons, List.map_nil, List.mem_cons, List.not_mem_nil, or_false]
    omega

/-- A history that meets the hypotheses of `C118_vector_history`: `v (1) = 5; v = reverse (v); v *= 3`. -/
example : Vec 2 [1, 2] (fun i => ((i : Int) + 1)) ∧
    (∃ x, Hist 2 (fun i => ((i : Int) + 1)) [.set 1 5, .assignExpr rev2, .scale 3] x ∧ x 0 = 15 ∧ x 1 = 3) ∧
    [Op.set 1 5, .assignExpr rev2, .scale 3].foldlM (Op.run true .iterating) [1, 2] = .ok [15, 3] := by
  refine ⟨FVec.vec_iff.2 ⟨rfl, fun i hi => ?_⟩, ⟨_, .cons (.set _ 1 5 (by decide)) (.cons (.assignExpr _ _ rev2 fun v hv => rev2_presents _ v hv) (.cons (.scale _ 3) (.nil _))), by decide, by decide⟩, by rfl⟩
  match i, hi with
  | 0, _ => rfl
  | 1, _ => rfl

/-- A matrix filled in storage order, a history on it, and a size mismatch. -/
example : Mat .col 2 3 (FMat.ofList 2 3 [1, 2, 3, 4, 5] : List Int) (fun i j => [1, 2, 3, 4, 5].getD (i + j * 2) 0) ∧
    (∃ x, MHist .col 2 3 (fun i j => ([1, 2, 3, 4, 5] : List Int).getD (i + j * 2) 0) [.set 0 1 9, .erase 1 1, .scale 2] x ∧ x 0 1 = 18 ∧ x 1 1 = 0 ∧ x 1 0 = 4) ∧
    [MOp.set 0 1 9, .erase 1 1, .scale 2].foldlM (MOp.run true .iterating .col 2 3) (FMat.ofList 2 3 [1, 2, 3, 4, 5] : List Int) = .ok [2, 4, 18, 0, 10, 0] ∧
    ¬ (Orient.row.sizeM 2 3 = 2 ∧ Orient.row.sizem 2 3 = 2) := by
  refine ⟨?_, ⟨_, .cons (.set _ 0 1 9 (by decide) (by decide)) (.cons (.erase _ 1 1 (by decide) (by decide)) (.cons (.scale _ 2) (.nil _))), by decide, by decide, by decide⟩, by rfl, by decide⟩
  exact (FMat.C118_matrix_constructors .col 2 3).2.2.1 ([1, 2, 3, 4, 5] : List Int) (by decide)

end Ublas
