import Verif.Model.ScalarAssign
import Verif.Props.AssignOps
import Verif.Props.MatrixAssign
/-! # C74: `*=` and `/=` by a scalar change every element -/
namespace Ublas
variable {σ R : Type} [Ring R]

namespace VAssign
variable {T : VT σ R} {Rep : σ → Nat → (Nat → R) → List Nat → Prop}

theorem scalarLoop_ok (hT : T.Lawful Rep) {F : R → R} {n : Nat} {S : List Nat} : ∀ (L : List Nat) (s : σ) (w : Nat → R), Rep s n w S → L.Nodup →
    (∀ i ∈ L, i ∈ S) → ∃ s', scalarLoop T F L s = .ok s' ∧ Rep s' n (upd L (fun _ x => F x) w) S := by
  intro L
  induction L with
  | nil => intro s w h _ _; exact ⟨s, rfl, by rw [upd_nil]; exact h⟩
  | cons i L ih =>
    intro s w h hn hs
    rw [List.nodup_cons] at hn
    obtain ⟨s1, e1, h1⟩ := hT.put s n w S h i (hs i (by simp)) (F (w i))
    obtain ⟨s2, e2, h2⟩ := ih s1 _ h1 hn.2 fun k hk => hs k (by simp [hk])
    refine ⟨s2, ?_, by rw [upd_cons _ _ hn.1]; exact h2⟩
    simp only [scalarLoop, hT.get s n w S h i (hs i (by simp)), bind_ok, e1, e2]

theorem indexingScalar_ok (hT : T.Lawful Rep) (hf : T.Full Rep) {F : R → R} {n : Nat} {S : List Nat} {s : σ} {w : Nat → R} (h : Rep s n w S) :
    ∃ s' w', indexingScalar T F s = .ok s' ∧ Rep s' n w' S ∧ ∀ i, i < n → w' i = F (w i) := by
  have hS := hf.all s n w S h
  unfold indexingScalar
  rw [hT.size s n w S h]
  obtain ⟨s', e, w', h1, h2⟩ := loop_inv (n := n) (f := fun i s => do
      let x ← T.get s i
      T.ref s i (F x)) (I := fun i s => ∃ w', Rep s n w' S ∧ ∀ k, k < n → w' k = if k < i then F (w k) else w k)
    ⟨w, h, fun k _ => by simp⟩ (by
      rintro i s hi ⟨w', h', hw'⟩
      obtain ⟨s2, e2, h2⟩ := hf.ref s n w' S h' i hi (F (w' i))
      refine ⟨s2, by simp only [hT.get s n w' S h' i (by rw [hS]; simpa using hi), bind_ok, e2], _, h2, fun k hk => ?_⟩
      by_cases hki : k = i
      · subst hki
        rw [Function.update_self, hw' k hk, if_neg (Nat.lt_irrefl k), if_pos (Nat.lt_succ_self k)]
      · rw [Function.update_of_ne hki, hw' k hk]
        by_cases hlt : k < i
        · rw [if_pos hlt, if_pos (by omega)]
        · rw [if_neg hlt, if_neg (by omega)])
  exact ⟨s', w', e, h1, fun i hi => by rw [h2 i hi, if_pos hi]⟩

end VAssign

/-- **C74**, vectors.  `v *= t` (`F x = x * t`) and `v /= t` (`F x = x / t`) on a dense, packed or sparse vector, or a view of one, in every evaluation mode and both build modes:
no fault, every element `x` becomes `F x`, and the set of stored elements does not change. -/
theorem C74_vector {T : VT σ R} {Rep : σ → Nat → (Nat → R) → List Nat → Prop} (dbg : Bool) (mode : ProdFn.Mode) (sc : StorageCat) (hT : T.Supports sc Rep) (F : R → R)
    (hF : F 0 = 0) (s : σ) (n : Nat) (w : Nat → R) (S : List Nat) (h : Rep s n w S) :
    ∃ s' w', VAssign.assignScalar dbg mode sc T F s = .ok s' ∧ Rep s' n w' S ∧ ∀ i, i < n → w' i = F (w i) := by
  have hL := hT.1
  have hits : VAssign.scalarLoop T F (T.its s) s = VAssign.scalarLoop T F S s := by rw [hL.its s n w S h]
  obtain ⟨s1, e1, h1⟩ := VAssign.scalarLoop_ok hL (F := F) S s w h (VAssign.sorted_nodup (hL.sorted s n w S h)) fun _ hi => hi
  have hval : ∀ i, i < n → VAssign.upd S (fun _ x => F x) w i = F (w i) := by
    intro i hi
    simp only [VAssign.upd]
    split
    · rfl
    · rw [hL.off s n w S h i hi (by assumption), hF]
  have hall : ∀ hf : T.Full Rep, VAssign.iteratingScalar dbg T F s = VAssign.scalarLoop T F S s := by
    intro hf
    have hS := hf.all s n w S h
    have hl : S.length = n := by rw [hS, List.length_range]
    simp only [VAssign.iteratingScalar, hL.its s n w S h, hL.size s n w S h, hl, check_True, bind_ok, Nat.lt_irrefl, if_false]
    rw [List.take_of_length_le (Nat.le_of_eq hl)]
  have dense : ∀ hf : T.Full Rep, ∀ mode : ProdFn.Mode, ∃ s' w', VAssign.assignScalar dbg mode .dense T F s = .ok s' ∧ Rep s' n w' S ∧ ∀ i, i < n → w' i = F (w i) := by
    intro hf mode
    have hi := VAssign.indexingScalar_ok hL hf (F := F) h
    have hr : ∃ s' w', VAssign.iteratingScalar dbg T F s = .ok s' ∧ Rep s' n w' S ∧ ∀ i, i < n → w' i = F (w i) := ⟨s1, _, by rw [hall hf]; exact e1, h1, hval⟩
    cases mode with
    | indexing => exact hi
    | iterating => exact hr
    | threshold m =>
      simp only [VAssign.assignScalar]
      split
      · exact hr
      · exact hi
  cases sc with
  | dense => exact dense hT.2.1 mode
  | denseProxy => exact dense hT.2.1 mode
  | packed => exact ⟨s1, _, by simp only [VAssign.assignScalar, hits, e1], h1, hval⟩
  | packedProxy => exact ⟨s1, _, by simp only [VAssign.assignScalar, hits, e1], h1, hval⟩
  | sparse => exact ⟨s1, _, by simp only [VAssign.assignScalar, hits, e1], h1, hval⟩
  | sparseProxy => exact ⟨s1, _, by simp only [VAssign.assignScalar, hits, e1], h1, hval⟩

namespace MAssign
variable {T : MT σ R} {Rep : MRep σ R} {r c : Nat} {Ls : List Nat} {S : Nat → List Nat}
open VAssign (upd upd_nil upd_cons sorted_nodup)

/-- What one pass over line `k` does to it. -/
def hS (F : R → R) (S : Nat → List Nat) (k : Nat) (x : Nat → R) : Nat → R := upd (S k) (fun _ y => F y) x

theorem scalarLine_ok (hT : T.Lawful Rep) {F : R → R} {s : σ} {w : Nat → Nat → R} (h : Rep s r c w Ls S) {k : Nat} (hk : k ∈ Ls) :
    ∃ s', VAssign.scalarLoop (T.line k) F (S k) s = .ok s' ∧ Rep s' r c (Function.update w k (hS F S k (w k))) Ls S := by
  obtain ⟨i1, i2, i3⟩ := hT.its _ _ _ _ _ _ h k hk
  obtain ⟨s', e', h'⟩ := VAssign.scalarLoop_ok (line_lawful hT hk w) (F := F) (S k) s (w k) (lrep_of h k) (sorted_nodup i2) (fun _ hi => hi)
  exact ⟨s', e', h'.2⟩

theorem scalarLines_ok (hT : T.Lawful Rep) {F : R → R} : ∀ (L : List Nat) (s : σ) (w : Nat → Nat → R), Rep s r c w Ls S → L.Nodup → (∀ i ∈ L, i ∈ Ls) →
    ∃ s', scalarLines T F L s = .ok s' ∧ Rep s' r c (upd L (hS F S) w) Ls S := by
  intro L
  induction L with
  | nil => intro s w h _ _; exact ⟨s, rfl, by rw [upd_nil]; exact h⟩
  | cons i L ih =>
    intro s w h hn hs
    rw [List.nodup_cons] at hn
    obtain ⟨s1, e1, h1⟩ := scalarLine_ok hT (F := F) h (hs i (by simp))
    obtain ⟨s2, e2, h2⟩ := ih s1 _ h1 hn.2 fun k hk => hs k (by simp [hk])
    refine ⟨s2, ?_, by rw [upd_cons _ _ hn.1]; exact h2⟩
    simp only [scalarLines, (hT.its _ _ _ _ _ _ h i (hs i (by simp))).1, e1, bind_ok, e2]

theorem iterScalarLines_ok (hT : T.Lawful Rep) (hf : T.Full Rep) (dbg : Bool) {F : R → R} : ∀ (L : List Nat) (s : σ) (w : Nat → Nat → R), Rep s r c w Ls S →
    (∀ i ∈ L, i ∈ Ls) → iterScalarLines dbg T F c L s = scalarLines T F L s := by
  intro L
  induction L with
  | nil => intro s w h _; rfl
  | cons i L ih =>
    intro s w h hs
    have hi := hs i (by simp)
    obtain ⟨s1, e1, h1⟩ := scalarLine_ok hT (F := F) h hi
    have hl : (S i).length = c := by rw [(hf.all _ _ _ _ _ _ h).2 i hi, List.length_range]
    simp only [iterScalarLines, scalarLines, (hT.its _ _ _ _ _ _ h i hi).1, hl, check_True, bind_ok, Nat.lt_irrefl, if_false]
    rw [List.take_of_length_le (Nat.le_of_eq hl), e1, bind_ok, bind_ok]
    exact ih s1 _ h1 fun k hk => hs k (by simp [hk])

theorem indexingScalar_ok (hT : T.Lawful Rep) (hf : T.Full Rep) {F : R → R} {s : σ} {w : Nat → Nat → R} (h : Rep s r c w Ls S) :
    ∃ s' w', indexingScalar T F s = .ok s' ∧ Rep s' r c w' Ls S ∧ ∀ k l, k < r → l < c → w' k l = F (w k l) := by
  obtain ⟨z1, z2⟩ := hT.sizes _ _ _ _ _ _ h
  have key : ∀ k l, k < r → l < c → ∀ s w, Rep s r c w Ls S → T.get s k l = .ok (w k l) := by
    intro k l hk hl s w h
    have h1 := (hf.all _ _ _ _ _ _ h).1 (by omega)
    have hkL : k ∈ Ls := by rw [h1]; simpa using hk
    exact hT.get _ _ _ _ _ _ h k hkL l (by rw [(hf.all _ _ _ _ _ _ h).2 k hkL]; simpa using hl)
  have inner : ∀ i, i < r → ∀ s w, Rep s r c w Ls S → ∃ s' w', loop (fun j s => do
      let x ← T.get s i j
      T.ref s i j (F x)) c s = .ok s' ∧ Rep s' r c w' Ls S ∧ ∀ k l, k < r → l < c → w' k l = if k = i then F (w k l) else w k l := by
    intro i hi s w h
    obtain ⟨s', e, w', h1, h2⟩ := loop_inv (n := c) (f := fun j s => do
        let x ← T.get s i j
        T.ref s i j (F x)) (I := fun j s => ∃ w', Rep s r c w' Ls S ∧ ∀ k l, k < r → l < c → w' k l = if k = i ∧ l < j then F (w k l) else w k l)
      ⟨w, h, fun k l _ _ => by simp⟩ (by
        rintro j s hj ⟨w', h', hw'⟩
        obtain ⟨s2, e2, h2⟩ := hf.ref _ _ _ _ _ _ h' i j hi hj (F (w' i j))
        refine ⟨s2, by simp only [key i j hi hj s w' h', bind_ok, e2], _, h2, fun k l hk hl => ?_⟩
        simp only [update2]
        by_cases hkl : k = i ∧ l = j
        · obtain ⟨rfl, rfl⟩ := hkl
          rw [if_pos ⟨rfl, rfl⟩, hw' k l hk hl, if_neg (by omega), if_pos ⟨rfl, Nat.lt_succ_self l⟩]
        · rw [if_neg hkl, hw' k l hk hl]
          by_cases hlt : k = i ∧ l < j
          · rw [if_pos hlt, if_pos ⟨hlt.1, by omega⟩]
          · rw [if_neg hlt, if_neg (by omega)])
    exact ⟨s', w', e, h1, fun k l hk hl => by rw [h2 k l hk hl]; simp [hl]⟩
  unfold indexingScalar
  rw [z1]
  obtain ⟨s', e, w', h1, h2⟩ := loop_inv (n := r) (f := fun i s => loop (fun j s => do
      let x ← T.get s i j
      T.ref s i j (F x)) (T.sizem s) s) (I := fun i s => ∃ w', Rep s r c w' Ls S ∧ ∀ k l, k < r → l < c → w' k l = if k < i then F (w k l) else w k l)
    ⟨w, h, fun k l _ _ => by simp⟩ (by
      rintro i s hi ⟨w', h', hw'⟩
      obtain ⟨s2, w2, e2, h2, h3⟩ := inner i hi s w' h'
      refine ⟨s2, by rw [(hT.sizes _ _ _ _ _ _ h').2]; exact e2, w2, h2, fun k l hk hl => ?_⟩
      rw [h3 k l hk hl, hw' k l hk hl]
      by_cases hki : k = i
      · subst hki; rw [if_pos rfl, if_neg (Nat.lt_irrefl k), if_pos (Nat.lt_succ_self k)]
      · rw [if_neg hki]
        by_cases hlt : k < i
        · rw [if_pos hlt, if_pos (by omega)]
        · rw [if_neg hlt, if_neg (by omega)])
  exact ⟨s', w', e, h1, fun k l hk hl => by rw [h2 k l hk hl, if_pos hk]⟩

end MAssign

/-- **C74**, matrices.  `m *= t` and `m /= t` on a dense, packed or sparse matrix or view, along either orientation (indices are (major, minor)): every element `x`
becomes `F x`, and the set of stored elements does not change. -/
theorem C74_matrix {T : MT σ R} {Rep : MRep σ R} (dbg : Bool) (mode : ProdFn.Mode) (sc : StorageCat) (hT : T.Supports sc Rep) (F : R → R)
    (hF : F 0 = 0) (s : σ) (r c : Nat) (w : Nat → Nat → R) (Ls : List Nat) (S : Nat → List Nat) (h : Rep s r c w Ls S) :
    ∃ s' w', MAssign.assignScalar dbg mode sc T F s = .ok s' ∧ Rep s' r c w' Ls S ∧ ∀ k l, k < r → l < c → w' k l = F (w k l) := by
  have hL := hT.1
  obtain ⟨z1, z2⟩ := hL.sizes _ _ _ _ _ _ h
  obtain ⟨y1, y2, y3⟩ := hL.lines _ _ _ _ _ _ h
  obtain ⟨s1, e1, h1⟩ := MAssign.scalarLines_ok hL (F := F) Ls s w h (VAssign.sorted_nodup y2) fun _ hi => hi
  have hval : ∀ k l, k < r → l < c → VAssign.upd Ls (MAssign.hS F S) w k l = F (w k l) := by
    intro k l hk hl
    have hoff : ¬ (k ∈ Ls ∧ l ∈ S k) → w k l = F (w k l) := fun hn => by rw [hL.off _ _ _ _ _ _ h k l hk hl hn, hF]
    by_cases hk1 : k ∈ Ls
    · by_cases hl1 : l ∈ S k
      · simp only [VAssign.upd, MAssign.hS, if_pos hk1, if_pos hl1]
      · simp only [VAssign.upd, MAssign.hS, if_pos hk1, if_neg hl1]; exact hoff (by tauto)
    · simp only [VAssign.upd, if_neg hk1]; exact hoff (by tauto)
  have dense : ∀ hf : T.Full Rep, ∀ mode : ProdFn.Mode, ∃ s' w', MAssign.assignScalar dbg mode .dense T F s = .ok s' ∧ Rep s' r c w' Ls S ∧
      ∀ k l, k < r → l < c → w' k l = F (w k l) := by
    intro hf mode
    have hi := MAssign.indexingScalar_ok hL hf (F := F) h
    have hr : ∃ s' w', MAssign.iteratingScalar dbg T F s = .ok s' ∧ Rep s' r c w' Ls S ∧ ∀ k l, k < r → l < c → w' k l = F (w k l) := by
      simp only [MAssign.iteratingScalar, z1, z2, y1]
      by_cases hc : c = 0
      · subst hc
        exact ⟨s, w, by simp [check_true], h, fun k l _ hl => by omega⟩
      · have hl : Ls.length = r := by rw [(hf.all _ _ _ _ _ _ h).1 hc, List.length_range]
        rw [check_true (Or.inr hl), bind_ok, if_neg hc, if_neg (by omega), List.take_of_length_le (Nat.le_of_eq hl), MAssign.iterScalarLines_ok hL hf dbg Ls s w h fun _ hi => hi]
        exact ⟨s1, _, e1, h1, hval⟩
    cases mode with
    | indexing => exact hi
    | iterating => exact hr
    | threshold m =>
      simp only [MAssign.assignScalar]
      split
      · exact hr
      · exact hi
  have other : ∃ s' w', MAssign.scalarLines T F (T.lines s) s = .ok s' ∧ Rep s' r c w' Ls S ∧ ∀ k l, k < r → l < c → w' k l = F (w k l) := by
    rw [y1]; exact ⟨s1, _, e1, h1, hval⟩
  cases sc with
  | dense => exact dense hT.2.1 mode
  | denseProxy => exact dense hT.2.1 mode
  | packed => exact other
  | packedProxy => exact other
  | sparse => exact other
  | sparseProxy => exact other

/-! ## In the containers' own terms -/

/-- **C74** for a dense vector and its views (vector_range, vector_slice, matrix_row, matrix_column of a dense matrix): the viewed elements are scaled, everything else is
unchanged. -/
theorem C74_view [DecidableEq R] (dbg : Bool) (mode : ProdFn.Mode) (t : R) (n : Nat) (addr : Nat → Nat) (data : List R) (hinj : ∀ i j, i < n → j < n → addr i = addr j → i = j)
    (hb : ∀ i, i < n → addr i < data.length) :
    ∃ data', VAssign.assignScalar dbg mode .denseProxy (VT.view dbg n addr) (· * t) data = .ok data' ∧ ViewHolds data data' n addr (fun i => data.getD (addr i) 0 * t) := by
  obtain ⟨s', w', e1, h1, h2⟩ := C74_vector dbg mode .denseProxy (view_supports dbg n addr data hinj).2 (· * t) (zero_mul t) data n _ _ (view_rep n addr data hb)
  obtain ⟨a1, a2, a3, a4, a5⟩ := h1
  exact ⟨s', e1, a3, fun i hi => by rw [a4 i hi, h2 i hi], a5⟩

theorem C74_dense_vector [DecidableEq R] (dbg : Bool) (mode : ProdFn.Mode) (t : R) (v : List R) :
    ∃ v', VAssign.assignScalar dbg mode .dense (VT.view dbg v.length id) (· * t) v = .ok v' ∧ Holds v' v.length (fun i => v.getD i 0 * t) := by
  obtain ⟨s', w', e1, h1, h2⟩ := C74_vector dbg mode .dense (view_supports dbg v.length id v (fun i j _ _ h => h)).1 (· * t) (zero_mul t) v _ _ _ (view_id_rep v)
  obtain ⟨a1, a2, a3, a4, a5⟩ := h1
  exact ⟨s', e1, a3, fun i hi => by rw [show s'[i]? = _ from a4 i hi, h2 i hi]⟩

/-- **C74** for a compressed_vector in any reachable state (C19): same size, every element scaled, the same stored indices. -/
theorem C74_compressed_vector (dbg : Bool) (mode : ProdFn.Mode) (IB : Nat) (junk : CVec.Junk R) (t : R) (v : CVec R) (s : SparseSpec.Vec R) (h : CVec.Inv IB v s) :
    ∃ v' s', VAssign.assignScalar dbg mode .sparse (VT.compressed dbg IB junk) (· * t) v = .ok v' ∧ CVec.Inv IB v' s' ∧ s'.size = s.size ∧
      (∀ i, i < s.size → v'.get dbg IB 0 i = .ok ((s.val i).getD 0 * t)) ∧ ∀ i, s'.val i = none ↔ s.val i = none := by
  obtain ⟨E, h⟩ := h
  obtain ⟨v', w', e1, ⟨E', s', b1, b2, b3, b4⟩, h2⟩ := C74_vector dbg mode .sparse (compressed_supports dbg IB junk) (· * t) (zero_mul t) v s.size _ _ ⟨E, s, h, rfl, rfl, rfl⟩
  have hmem : ∀ {E : List (Nat × R)} {val : Nat → Option R}, Assoc.Rep E val → ∀ i, i ∈ E.map (·.1) ↔ val i ≠ none := by
    intro E val h i
    rw [List.mem_map]
    constructor
    · rintro ⟨p, hp, rfl⟩
      rw [(h.2 p.1 p.2).2 hp]; simp
    · intro hi
      obtain ⟨x, hx⟩ := Option.ne_none_iff_exists'.1 hi
      exact ⟨(i, x), (h.2 i x).1 hx, rfl⟩
  refine ⟨v', s', e1, ⟨E', b1⟩, b2, fun i hi => ?_, fun i => ?_⟩
  · rw [(CVec.Inv.observes dbg IB 0 ⟨E', b1⟩).2.1 i (by omega)]
    have := h2 i hi
    rw [b3] at this
    exact congrArg Except.ok this
  · have h1 := hmem b1.rep i
    have h2 := hmem h.rep i
    rw [← b4, h2] at h1
    tauto

/-- **C74** for a dense matrix of either orientation. -/
theorem C74_dense_matrix [DecidableEq R] (dbg : Bool) (mode : ProdFn.Mode) (o : Orient) (t : R) (m : Dense R) (hw : m.WF) :
    ∃ data, MAssign.assignScalar dbg mode .dense (MT.view dbg (o.sizeM m.size1 m.size2) (o.sizem m.size1 m.size2) fun k l => o.elementRaw (o.indexM k l) m.size1 (o.indexm k l) m.size2) (· * t) m.data = .ok data ∧ ({ m with data := data } : Dense R).WF ∧
      ∀ i j, i < m.size1 → j < m.size2 → ∃ x, m.get dbg o i j = .ok x ∧ ({ m with data := data } : Dense R).get dbg o i j = .ok (x * t) := by
  have hlt : ∀ {k l r c : Nat}, k < o.sizeM r c → l < o.sizem r c → o.indexM k l < r ∧ o.indexm k l < c := by
    intro k l r c hk hl; cases o <;> first | exact ⟨hk, hl⟩ | exact ⟨hl, hk⟩
  have hmm : ∀ (i j : Nat), o.indexM (o.indexM i j) (o.indexm i j) = i ∧ o.indexm (o.indexM i j) (o.indexm i j) = j := by
    intro i j; cases o <;> exact ⟨rfl, rfl⟩
  have hinj : ∀ k l i j, k < o.sizeM m.size1 m.size2 → l < o.sizem m.size1 m.size2 → i < o.sizeM m.size1 m.size2 → j < o.sizem m.size1 m.size2 →
      o.elementRaw (o.indexM k l) m.size1 (o.indexm k l) m.size2 = o.elementRaw (o.indexM i j) m.size1 (o.indexm i j) m.size2 → k = i ∧ l = j := by
    intro k l i j hk hl hi hj he
    have h1 := hlt hk hl
    have h2 := hlt hi hj
    obtain ⟨b1, b2⟩ := elementRaw_inj o h1.1 h1.2 h2.1 h2.2 he
    exact ⟨by have := hmm k l; rw [b1, b2] at this; rw [← this.1, (hmm i j).1], by have := hmm k l; rw [b1, b2] at this; rw [← this.2, (hmm i j).2]⟩
  have hr : MViewRep (o.sizeM m.size1 m.size2) (o.sizem m.size1 m.size2) (fun k l => o.elementRaw (o.indexM k l) m.size1 (o.indexm k l) m.size2) m.data m.data
      (o.sizeM m.size1 m.size2) (o.sizem m.size1 m.size2) (fun k l => m.data.getD (o.elementRaw (o.indexM k l) m.size1 (o.indexm k l) m.size2) 0)
      (if o.sizem m.size1 m.size2 = 0 then [] else List.range (o.sizeM m.size1 m.size2)) (fun _ => List.range (o.sizem m.size1 m.size2)) := by
    refine ⟨rfl, rfl, rfl, rfl, rfl, fun k l hk hl => ?_, fun _ _ => rfl⟩
    have hb := hlt hk hl
    have : o.elementRaw (o.indexM k l) m.size1 (o.indexm k l) m.size2 < m.data.length := by rw [hw]; exact elementRaw_lt o hb.1 hb.2
    simp only [List.getD_eq_getElem?_getD, List.getElem?_eq_getElem this, Option.getD_some]
  obtain ⟨data, w', e1, h1, h2⟩ := C74_matrix dbg mode .dense (mview_supports dbg _ _ _ m.data hinj).1 (· * t) (zero_mul t) m.data _ _ _ _ _ hr
  obtain ⟨a1, a2, a3, a4, a5, a6, a7⟩ := h1
  have hw' : ({ m with data := data } : Dense R).WF := by show data.length = _; rw [a5, hw]
  refine ⟨data, e1, hw', fun i j hi hj => ?_⟩
  have hk : o.indexM i j < o.sizeM m.size1 m.size2 := CMat.major_lt o hi hj
  have hl : o.indexm i j < o.sizem m.size1 m.size2 := CMat.minor_lt o hi hj
  have hin : o.elementRaw i m.size1 j m.size2 < m.data.length := by rw [hw]; exact elementRaw_lt o hi hj
  have hg : ∀ (d : List R) (x : R), d.length = m.data.length → d[o.elementRaw i m.size1 j m.size2]? = some x → ({ m with data := d } : Dense R).get dbg o i j = .ok x := by
    intro d x hd hx
    simp only [Dense.get, Orient.element, check_true hi, check_true hj, bind_ok, pure_eq_ok, rd_eq_ok, hx]
  have h2' := h2 _ _ hk hl
  have h6' := a6 _ _ hk hl
  simp only [hmm] at h2' h6'
  refine ⟨m.data[o.elementRaw i m.size1 j m.size2], hg m.data _ rfl (List.getElem?_eq_getElem hin), ?_⟩
  refine hg data _ a5 ?_
  rw [h6', h2', List.getD_eq_getElem?_getD, List.getElem?_eq_getElem hin]; rfl

/-- **C74** for a compressed_matrix in any reachable state (C24). -/
theorem C74_compressed_matrix (dbg : Bool) (mode : ProdFn.Mode) (o : Orient) (IB : Nat) (junk : CMat.Junk R) (t : R) (v : CMat R)
    (s : SparseSpec.CMatS R) (h : CMat.Inv o IB v s) :
    ∃ v' s', MAssign.assignScalar dbg mode .sparse (MT.compressed dbg o IB junk) (· * t) v = .ok v' ∧ CMat.Inv o IB v' s' ∧ s'.rows = s.rows ∧ s'.cols = s.cols ∧
      ∀ i j, i < s.rows → j < s.cols → v'.get dbg o IB 0 i j = .ok ((s.val (i, j)).getD 0 * t) := by
  have hmm : ∀ (i j : Nat), o.indexM (o.indexM i j) (o.indexm i j) = i ∧ o.indexm (o.indexM i j) (o.indexm i j) = j := by
    intro i j; cases o <;> exact ⟨rfl, rfl⟩
  obtain ⟨v', w', e1, ⟨s', h', b1, b2, b3, b4, b5⟩, h2⟩ := C74_matrix dbg mode .sparse (compressedMatrix_supports dbg o IB junk) (· * t) (zero_mul t) v _ _ _ _ _
    ⟨s, h, rfl, rfl, rfl, rfl, rfl⟩
  have hr : s'.rows = s.rows := by cases o <;> assumption
  have hc : s'.cols = s.cols := by cases o <;> assumption
  refine ⟨v', s', e1, h', hr, hc, fun i j hi hj => ?_⟩
  rw [(h'.observes dbg o IB 0).2.2.1 i j (by omega) (by omega)]
  have := h2 _ _ (CMat.major_lt o hi hj) (CMat.minor_lt o hi hj)
  rw [b3] at this
  simp only [hmm] at this
  rw [this]

/-- **C74** for lower and upper triangular matrices (orientation `o` with its transposed layout, see `MT.tri`): every element that can be written is scaled; the implied ones
of a unit triangular matrix stay one. -/
theorem C74_triangular (dbg : Bool) (mode : ProdFn.Mode) (u : Bool) (o : Orient) (t : R) (m : Packed.TMat R) (hw : TWF ⟨.lower, u⟩ m) :
    ∃ m', MAssign.assignScalar dbg mode .packed (MT.tri dbg u o) (· * t) m = .ok m' ∧ m'.size1 = m.size1 ∧ m'.size2 = m.size2 ∧ TWF ⟨.lower, u⟩ m' ∧
      ∀ k l, k < o.sizeM m.size1 m.size2 → l < o.sizem m.size1 m.size2 → PackedSpec.Mutable ⟨.lower, u⟩ (o.indexM k l) (o.indexm k l) →
        ∃ x, m.get dbg ⟨.lower, u⟩ o (o.indexM k l) (o.indexm k l) = .ok x ∧ m'.get dbg ⟨.lower, u⟩ o (o.indexM k l) (o.indexm k l) = .ok (x * t) := by
  obtain ⟨w, h⟩ := triMRep_init dbg u o m hw
  obtain ⟨m', w', e1, h1, h2⟩ := C74_matrix dbg mode .packed (tri_supports dbg u o).1 (· * t) (zero_mul t) m _ _ w _ _ h
  obtain ⟨a1, a2, a3, a4, a5, a6, a7⟩ := h1
  refine ⟨m', e1, by cases o <;> simpa [Orient.sizeM, Orient.sizem] using (by assumption), by cases o <;> simpa [Orient.sizeM, Orient.sizem] using (by assumption), a3, ?_⟩
  intro k l hk hl hm
  have hv := (tri_mem dbg u o m k l hk).2 ⟨hl, hm⟩
  exact ⟨w k l, h.2.2.2.2.2.1 k l hk hv, by rw [a6 k l hk hv, h2 k l hk hl]⟩

example : VAssign.assignScalar true .iterating .dense (VT.view true 3 id) (· * 2) [1, 2, (3 : Int)] = .ok [2, 4, 6] := by decide
example : MAssign.assignScalar true .iterating .dense (MT.view true 2 2 fun k l => Orient.elementRaw .col l 2 k 2) (· * 3) [1, 2, 3, (4 : Int)] = .ok [3, 6, 9, 12] := by decide
example : VAssign.assignScalar true .indexing .sparse (VT.compressed true 0 (id, fun _ => 0)) (· * 5) (⟨4, 2, 2, [1, 3], [7, 8]⟩ : CVec Int) = .ok ⟨4, 2, 2, [1, 3], [35, 40]⟩ := by decide

end Ublas
