import Verif.Model.TypeCheck
import Verif.Spec.TypeCheck
import Verif.Props.Norms
import Verif.Props.MatrixAssign
import Verif.Props.TriRow
/-! # C96: the self-checks of debug builds -/
namespace Ublas
open Finset Norms
variable {σ R K : Type}

section general
variable [Ring R] [DecidableEq R] [CommRing K] [LinearOrder K] [IsStrictOrderedRing K]

/-- The element type's absolute value and the tolerance are what they should be. -/
structure TypeCheck.Sound (tc : TypeCheck R K) : Prop where
  zero : tc.abs 0 = 0
  nonneg : ∀ x, 0 ≤ tc.abs x
  eps : 0 ≤ tc.eps

variable {tc : TypeCheck R K}

theorem max'_eq (a b : K) : TypeCheck.max' a b = max a b := by rw [TypeCheck.max', max_def_lt]

theorem IsMax.nonneg {n : Nat} {f : Nat → K} {t : K} (hf : ∀ i, i < n → 0 ≤ f i) (h : IsMax n f t) : 0 ≤ t := by
  rcases h with ⟨_, rfl⟩ | ⟨⟨i, hi, rfl⟩, _⟩
  · exact le_rfl
  · exact hf i hi

theorem IsMax.zero {n : Nat} {f : Nat → K} {t : K} (hf : ∀ i, i < n → f i = 0) (h : IsMax n f t) : t = 0 := by
  rcases h with ⟨_, rfl⟩ | ⟨⟨i, hi, rfl⟩, _⟩
  · rfl
  · exact hf i hi

theorem InfNorm.nonneg (hs : tc.Sound) {o : Orient} {r c : Nat} {f : Nat → Nat → R} {t : K} (h : InfNorm tc.abs o r c f t) : 0 ≤ t := by
  cases o <;> exact IsMax.nonneg (fun _ _ => sum_nonneg fun _ _ => hs.nonneg _) h

theorem InfNorm.zero (hs : tc.Sound) {o : Orient} {r c : Nat} {f : Nat → Nat → R} {t : K} (h : InfNorm tc.abs o r c f t) (hf : ∀ k l, k < r → l < c → f k l = 0) : t = 0 := by
  cases o <;> refine IsMax.zero (fun i hi => sum_eq_zero fun j hj => ?_) h <;> rw [mem_range] at hj
  · rw [hf i j hi hj, hs.zero]
  · rw [hf j i hj hi, hs.zero]

/-- The infinity norm is an upper bound of the elements. -/
theorem InfNorm.le (hs : tc.Sound) {o : Orient} {r c : Nat} {f : Nat → Nat → R} {t : K} (h : InfNorm tc.abs o r c f t) {k l : Nat} (hk : k < r) (hl : l < c) :
    tc.abs (f k l) ≤ t := by
  cases o
  · rcases h with ⟨h, _⟩ | ⟨_, h⟩
    · omega
    · exact le_trans (single_le_sum (f := fun l => tc.abs (f k l)) (fun _ _ => hs.nonneg _) (mem_range.2 hl)) (h k hk)
  · rcases h with ⟨h, _⟩ | ⟨_, h⟩
    · omega
    · exact le_trans (single_le_sum (f := fun k => tc.abs (f k l)) (fun _ _ => hs.nonneg _) (mem_range.2 hk)) (h l hl)

theorem norm_ok (hs : tc.Sound) (o : Orient) {r c : Nat} {f : Nat → Nat → M R} {a : Nat → Nat → R} (hf : ∀ k l, k < r → l < c → f k l = .ok (a k l)) :
    ∃ t, tc.norm o (TypeCheck.byIndex r c f) = .ok t ∧ InfNorm tc.abs o r c a t := by
  cases o
  · simp only [TypeCheck.norm, TypeCheck.byIndex, matNormInf]
    refine loop_max (fun j _ => sum_nonneg fun i _ => hs.nonneg _) fun i t hi => ?_
    rw [loop_sum (f := fun j => tc.abs (a i j)) (fun j u hj => by rw [hf i j hi hj, bind_ok]), bind_ok, zero_add]
  · simp only [TypeCheck.norm, TypeCheck.byIndex, matNorm1]
    refine loop_max (fun j _ => sum_nonneg fun i _ => hs.nonneg _) fun j t hj => ?_
    rw [loop_sum (f := fun i => tc.abs (a i j)) (fun i u hi => by rw [hf i j hi hj, bind_ok]), bind_ok, zero_add]

theorem equalsM_ok (hs : tc.Sound) (o : Orient) {r c : Nat} {f g : Nat → Nat → M R} {a b : Nat → Nat → R} (hf : ∀ k l, k < r → l < c → f k l = .ok (a k l))
    (hg : ∀ k l, k < r → l < c → g k l = .ok (b k l)) :
    ∃ d n1 n2, InfNorm tc.abs o r c (fun k l => a k l - b k l) d ∧ InfNorm tc.abs o r c a n1 ∧ InfNorm tc.abs o r c b n2 ∧
      tc.equalsM o r c f g = .ok (decide (d ≤ tc.eps * max (max n1 n2) tc.minNorm)) := by
  obtain ⟨d, e1, h1⟩ := norm_ok hs o (f := fun k l => do
    let x ← f k l
    let y ← g k l
    .ok (x - y)) (a := fun k l => a k l - b k l) (r := r) (c := c) (fun k l hk hl => by simp only [hf k l hk hl, hg k l hk hl, bind_ok])
  obtain ⟨n1, e2, h2⟩ := norm_ok hs o hf
  obtain ⟨n2, e3, h3⟩ := norm_ok hs o hg
  exact ⟨d, n1, n2, h1, h2, h3, by simp only [TypeCheck.equalsM, e1, e2, e3, bind_ok, max'_eq]⟩

theorem vnorm_ok (hs : tc.Sound) {n : Nat} {f : Nat → M R} {a : Nat → R} (hf : ∀ k, k < n → f k = .ok (a k)) :
    ∃ t, normInf tc.abs .indexing (TypeCheck.vecByIndex n f) = .ok t ∧ IsMax n (fun i => tc.abs (a i)) t := by
  simp only [normInf, evaluate, TypeCheck.vecByIndex, indexed, if_true]
  exact loop_max (fun i _ => hs.nonneg _) fun i t hi => by rw [hf i hi, bind_ok]

theorem equalsV_ok (hs : tc.Sound) {n : Nat} {f g : Nat → M R} {a b : Nat → R} (hf : ∀ k, k < n → f k = .ok (a k)) (hg : ∀ k, k < n → g k = .ok (b k)) :
    ∃ d n1 n2, IsMax n (fun k => tc.abs (a k - b k)) d ∧ IsMax n (fun k => tc.abs (a k)) n1 ∧ IsMax n (fun k => tc.abs (b k)) n2 ∧
      tc.equalsV n f g = .ok (decide (d ≤ tc.eps * max (max n1 n2) tc.minNorm)) := by
  obtain ⟨d, e1, h1⟩ := vnorm_ok hs (f := fun k => do
    let x ← f k
    let y ← g k
    .ok (x - y)) (a := fun k => a k - b k) (n := n) (fun k hk => by simp only [hf k hk, hg k hk, bind_ok])
  obtain ⟨n1, e2, h2⟩ := vnorm_ok hs hf
  obtain ⟨n2, e3, h3⟩ := vnorm_ok hs hg
  exact ⟨d, n1, n2, h1, h2, h3, by simp only [TypeCheck.equalsV, e1, e2, e3, bind_ok, max'_eq]⟩

/-! ## Matrices -/
section matrix
open MAssign
variable {T : MT σ R} {Rep : MRep σ R}

theorem copy_addr (r c : Nat) : ∀ k l i j, k < r → l < c → i < r → j < c → k * c + l = i * c + j → k = i ∧ l = j := by
  intro k l i j _ hl _ hj h
  have e1 : (k * c + l) / c = k := by rw [Nat.mul_comm, Nat.mul_add_div (by omega), Nat.div_eq_of_lt hl, Nat.add_zero]
  have e2 : (i * c + j) / c = i := by rw [Nat.mul_comm, Nat.mul_add_div (by omega), Nat.div_eq_of_lt hj, Nat.add_zero]
  have : k = i := by rw [← e1, h, e2]
  subst this
  omega

/-- The dense copy ends up with the functor's results. -/
theorem copy_ok {r c : Nat} {junk : List R} (hj : junk.length = r * c) {f : Nat → Nat → M R} {v : Nat → Nat → R} (hf : ∀ k l, k < r → l < c → f k l = .ok (v k l)) (F : AssignF) {e : MExp R}
    {a : Nat → Nat → R} (hz : e.sizeM = r ∧ e.sizem = c) (he : ∀ k l, k < r → l < c → e.at_ k l = .ok (a k l)) :
    ∃ c1 c2, indexing true (copyOf r c) .assign ⟨r, c, .dense, [], f⟩ junk = .ok c1 ∧ indexing true (copyOf r c) F e c1 = .ok c2 ∧
      ∀ k l, k < r → l < c → (copyOf r c).get c2 k l = .ok (F.apply (v k l) (a k l)) := by
  have hS := (mview_supports (R := R) true r c (fun k l => k * c + l) junk (copy_addr r c)).1
  have h0 : MViewRep r c (fun k l => k * c + l) junk junk r c (fun k l => junk.getD (k * c + l) 0) (if c = 0 then [] else List.range r) (fun _ => List.range c) := by
    refine ⟨rfl, rfl, rfl, rfl, rfl, fun k l hk hl => ?_, fun _ _ => rfl⟩
    have hlt : k * c + l < junk.length := by
      rw [hj]
      have := Nat.mul_le_mul_right c (show k + 1 ≤ r from hk)
      rw [Nat.add_mul, Nat.one_mul] at this
      omega
    show junk[k * c + l]? = some (junk.getD (k * c + l) 0)
    rw [List.getD_eq_getElem?_getD, List.getElem?_eq_getElem hlt]; rfl
  obtain ⟨c1, e1, h1⟩ := indexing_at (r := r) (c := c) (e := ⟨r, c, .dense, [], f⟩) (a := v) hS.1 hS.2.1 ⟨rfl, rfl⟩ hf true .assign h0
  obtain ⟨c2, e2, h2⟩ := indexing_at hS.1 hS.2.1 hz he true F h1
  refine ⟨c1, c2, e1, e2, fun k l hk hl => ?_⟩
  have hkL : k ∈ (if c = 0 then [] else List.range r) := by rw [if_neg (by omega)]; exact List.mem_range.2 hk
  have := hS.1.get _ _ _ _ _ _ h2 k hkL l (List.mem_range.2 hl)
  rw [show (copyOf r c : MT (List R) R).get c2 k l = _ from this]
  simp [MAssign.full, hk, hl, AssignF.apply]

/-- What the checked assignment does, given what the unchecked one does: the comparison is between the elements the target shows afterwards and the element-wise results. -/
theorem checked_ok (hs : tc.Sound) (hT : T.Lawful Rep) (enabled : Bool) (read : σ → Nat → Nat → M R) (o : Orient) (mode : ProdFn.Mode) (sc : StorageCat) (F : AssignF) {e : MExp R}
    {r c : Nat} {a : Nat → Nat → R} (he : e.Presents r c a) {s s' : σ} {w : Nat → Nat → R} {Ls : List Nat} {S : Nat → List Nat} (h : Rep s r c w Ls S)
    {junk : List R} (hj : junk.length = r * c) {v v' : Nat → Nat → R} (hv : ∀ k l, k < r → l < c → read s k l = .ok (v k l)) (hv' : ∀ k l, k < r → l < c → read s' k l = .ok (v' k l))
    (ha : assign true mode sc T F e s = .ok s')
    (hc : massignTraits sc F.computed e.cat = .packed ∨ massignTraits sc F.computed e.cat = .packedProxy ∨ massignTraits sc F.computed e.cat = .sparseProxy) :
    ∃ d n1 n2, InfNorm tc.abs o r c (fun k l => v' k l - F.apply (v k l) (a k l)) d ∧ InfNorm tc.abs o r c v' n1 ∧ InfNorm tc.abs o r c (fun k l => F.apply (v k l) (a k l)) n2 ∧
      checked tc enabled read junk o mode sc T F e s = if enabled = true → d ≤ tc.eps * max (max n1 n2) tc.minNorm then .ok s' else .error .externalLogic := by
  obtain ⟨z1, z2⟩ := hT.sizes _ _ _ _ _ _ h
  obtain ⟨c1, c2, e1, e2, h2⟩ := copy_ok hj hv F he.sizes he.at_
  obtain ⟨d, n1, n2, h3, h4, h5, h6⟩ := equalsM_ok hs o hv' h2
  refine ⟨d, n1, n2, h3, h4, h5, ?_⟩
  have key : checked tc enabled read junk o mode sc T F e s = (do
      check true (T.sizeM s = e.sizeM) .badSize
      check true (T.sizem s = e.sizem) .badSize
      let cm ← indexing true (copyOf (T.sizeM s) (T.sizem s)) .assign ⟨T.sizeM s, T.sizem s, .dense, [], read s⟩ junk
      let cm ← indexing true (copyOf (T.sizeM s) (T.sizem s)) F e cm
      let s' ← assign true mode sc T F e s
      if enabled then do
        let b ← tc.equalsM o (T.sizeM s) (T.sizem s) (read s') ((copyOf (T.sizeM s) (T.sizem s)).get cm)
        check true (b = true) .externalLogic
        .ok s'
      else .ok s') := by
    unfold checked
    rcases hc with hc | hc | hc <;> simp only [hc]
  rw [key, z1, z2, he.sizes.1, he.sizes.2]
  simp only [check_True, bind_ok, e1, e2, ha]
  cases enabled with
  | false => simp
  | true =>
    simp only [if_true, h6, bind_ok, decide_eq_true_eq, true_implies]
    by_cases hd : d ≤ tc.eps * max (max n1 n2) tc.minNorm
    · rw [if_pos hd, check_true hd, bind_ok]
    · rw [if_neg hd, check_dbg_false hd, bind_error]

/-- **C96** No false alarms.  In a debug build with the self-checks on, assigning to (adding to, subtracting from) a dense or sparse matrix or view is the same as with the checks
off: the comparison is always satisfied. -/
theorem C96_matrix_no_false_alarm (hs : tc.Sound) (enabled : Bool) (read : σ → Nat → Nat → M R) (o : Orient) (mode : ProdFn.Mode) (sc : StorageCat) (F : AssignF) (e : MExp R) (r c : Nat)
    (a : Nat → Nat → R) (s : σ) (w : Nat → Nat → R) (Ls : List Nat) (S : Nat → List Nat) (hT : T.Supports sc Rep) (hsc : sc ≠ .packed ∧ sc ≠ .packedProxy) (he : e.Presents r c a)
    (h : Rep s r c w Ls S) (hread : ∀ s r c w Ls S, Rep s r c w Ls S → ∀ k l, k < r → l < c → read s k l = .ok (w k l)) (junk : List R) (hj : junk.length = r * c) :
    ∃ s' w' Ls' S', checked tc enabled read junk o mode sc T F e s = .ok s' ∧ assign true mode sc T F e s = .ok s' ∧ Rep s' r c w' Ls' S' ∧
      ∀ k l, k < r → l < c → w' k l = F.apply (w k l) (a k l) := by
  obtain ⟨s', w', Ls', S', e1, h1, h2⟩ := C68_matrix_assign true mode sc F e r c a s w Ls S hT hsc he h
  refine ⟨s', w', Ls', S', ?_, e1, h1, h2⟩
  by_cases hc : massignTraits sc F.computed e.cat = .packed ∨ massignTraits sc F.computed e.cat = .packedProxy ∨ massignTraits sc F.computed e.cat = .sparseProxy
  · obtain ⟨d, n1, n2, g1, g2, g3, g4⟩ := checked_ok hs hT.1 enabled read o mode sc F he h hj (hread _ _ _ _ _ _ h) (hread _ _ _ _ _ _ h1) e1 hc
    have hd : d = 0 := g1.zero hs fun k l hk hl => by rw [h2 k l hk hl, sub_self]
    rw [g4, if_pos]
    intro _
    rw [hd]
    exact mul_nonneg hs.eps (le_trans (g2.nonneg hs) (le_trans (le_max_left _ _) (le_max_left _ _)))
  · unfold checked
    rw [← e1]
    cases hm : massignTraits sc F.computed e.cat <;> simp_all

/-- **C96** Packed targets.  `fixed k l` is what the matrix shows outside its structure (zero, or one on a unit diagonal).  The assignment itself stores the elements of the structure;
the check then compares the elements shown with the element-wise results at all positions, and raises external_logic exactly when the difference (which can only lie outside the
structure) exceeds the tolerance. -/
theorem C96_matrix_packed (hs : tc.Sound) (enabled : Bool) (read : σ → Nat → Nat → M R) (fixed : Nat → Nat → R) (o : Orient) (mode : ProdFn.Mode) (sc : StorageCat) (F : AssignF) (e : MExp R)
    (r c : Nat) (a : Nat → Nat → R) (s : σ) (w : Nat → Nat → R) (Ls : List Nat) (S : Nat → List Nat) (hT : T.Supports sc Rep) (hsc : sc = .packed ∨ sc = .packedProxy) (he : e.Presents r c a)
    (h : Rep s r c w Ls S) (hcl : sc = .packed → e.cat = .sparse → F.computed = true)
    (hout : e.cat = .sparse → ∀ k l, k < r → l < c → ¬ (k ∈ Ls ∧ l ∈ S k) → a k l = 0)
    (hread : ∀ s w, Rep s r c w Ls S → ∀ k l, k < r → l < c → (k ∈ Ls ∧ l ∈ S k → read s k l = .ok (w k l)) ∧ (¬ (k ∈ Ls ∧ l ∈ S k) → read s k l = .ok (fixed k l)))
    (junk : List R) (hj : junk.length = r * c) :
    ∃ s' d n1 n2, assign true mode sc T F e s = .ok s' ∧
      InfNorm tc.abs o r c (fun k l => if k ∈ Ls ∧ l ∈ S k then 0 else fixed k l - F.apply (fixed k l) (a k l)) d ∧
      InfNorm tc.abs o r c (fun k l => if k ∈ Ls ∧ l ∈ S k then F.apply (w k l) (a k l) else fixed k l) n1 ∧
      InfNorm tc.abs o r c (fun k l => F.apply (if k ∈ Ls ∧ l ∈ S k then w k l else fixed k l) (a k l)) n2 ∧
      checked tc enabled read junk o mode sc T F e s = if enabled = true → d ≤ tc.eps * max (max n1 n2) tc.minNorm then .ok s' else .error .externalLogic := by
  obtain ⟨s', w', e1, h1, h2⟩ := C68_packed_target true mode sc F e r c a s w Ls S hT hsc he h hcl hout
  have hr : ∀ s w, Rep s r c w Ls S → ∀ k l, k < r → l < c → read s k l = .ok (if k ∈ Ls ∧ l ∈ S k then w k l else fixed k l) := by
    intro s w h k l hk hl
    split
    · next q => exact (hread s w h k l hk hl).1 q
    · next q => exact (hread s w h k l hk hl).2 q
  obtain ⟨d, n1, n2, g1, g2, g3, g4⟩ := checked_ok hs hT.1 enabled read o mode sc F he h hj (hr _ _ h) (hr _ _ h1) e1 (by
    rcases hsc with rfl | rfl <;> cases hc : e.cat <;> cases F <;> simp_all [massignTraits, AssignF.computed])
  refine ⟨s', d, n1, n2, e1, ?_, ?_, g3, g4⟩
  · convert g1 using 3 with k l
    rw [h2 k l]
    split <;> simp
  · convert g2 using 3 with k l
    rw [h2 k l]
    split <;> simp [*]

end matrix

/-! ## Vectors -/
section vector
open VAssign
variable {T : VT σ R} {Rep : σ → Nat → (Nat → R) → List Nat → Prop}

theorem vcopy_ok {n : Nat} {junk : List R} (hj : junk.length = n) {f : Nat → M R} {v : Nat → R} (hf : ∀ k, k < n → f k = .ok (v k)) (F : AssignF) {e : Seq R}
    {c : Nat → R} (hz : e.size = n) (he : ∀ k, k < n → e.at_ k = .ok (c k)) :
    ∃ c1 c2, indexing true (VT.view true n id) .assign (VExpr.const ⟨n, .dense, [], f⟩) junk = .ok c1 ∧ indexing true (VT.view true n id) F (VExpr.const e) c1 = .ok c2 ∧
      ∀ k, k < n → (VT.view true n id).get c2 k = .ok (F.apply (v k) (c k)) := by
  have hS := (view_supports (R := R) true n id junk (fun _ _ _ _ h => h)).1
  have h0 : ViewRep n id junk junk n (fun k => junk.getD k 0) (List.range n) := by
    refine ⟨rfl, rfl, rfl, fun k hk => ?_, fun _ _ => rfl⟩
    show junk[k]? = some (junk.getD k 0)
    rw [List.getD_eq_getElem?_getD, List.getElem?_eq_getElem (by omega)]; rfl
  obtain ⟨c1, e1, h1⟩ := indexing_at (n := n) (e := VExpr.const ⟨n, .dense, [], f⟩) (g := fun i _ => v i) hS.1 hS.2.1 rfl (fun _ _ _ _ i hi => hf i hi) true .assign h0
  obtain ⟨c2, e2, h2⟩ := indexing_at (n := n) (e := VExpr.const e) (g := fun i _ => c i) hS.1 hS.2.1 hz (fun _ _ _ _ i hi => he i hi) true F h1
  refine ⟨c1, c2, e1, e2, fun k hk => ?_⟩
  have := hS.1.get _ _ _ _ h2 k (List.mem_range.2 hk)
  rw [this]
  simp [upd, hk, AssignF.apply]

theorem vchecked_ok (hs : tc.Sound) (hT : T.Lawful Rep) (enabled : Bool) (read : σ → Nat → M R) (mode : ProdFn.Mode) (sc : StorageCat) (F : AssignF) {e : Seq R}
    {n : Nat} {c : Nat → R} (he : e.Presents n c) {s s' : σ} {w : Nat → R} {S : List Nat} (h : Rep s n w S)
    {junk : List R} (hj : junk.length = n) {v v' : Nat → R} (hv : ∀ k, k < n → read s k = .ok (v k)) (hv' : ∀ k, k < n → read s' k = .ok (v' k))
    (ha : assign true mode sc T F (VExpr.const e) s = .ok s')
    (hc : assignTraits sc F.computed e.cat ≠ .dense ∧ assignTraits sc F.computed e.cat ≠ .denseProxy) :
    ∃ d n1 n2, IsMax n (fun k => tc.abs (v' k - F.apply (v k) (c k))) d ∧ IsMax n (fun k => tc.abs (v' k)) n1 ∧ IsMax n (fun k => tc.abs (F.apply (v k) (c k))) n2 ∧
      checked tc enabled read junk mode sc T F e s = if enabled = true → d ≤ tc.eps * max (max n1 n2) tc.minNorm then .ok s' else .error .externalLogic := by
  have z1 := hT.size _ _ _ _ h
  obtain ⟨c1, c2, e1, e2, h2⟩ := vcopy_ok hj hv F he.size he.at_
  obtain ⟨d, n1, n2, h3, h4, h5, h6⟩ := equalsV_ok hs hv' h2
  refine ⟨d, n1, n2, h3, h4, h5, ?_⟩
  have key : checked tc enabled read junk mode sc T F e s = (do
      check true (T.size s = e.size) .badSize
      let cv ← indexing true (VT.view true (T.size s) id) .assign (VExpr.const ⟨T.size s, .dense, [], read s⟩) junk
      let cv ← indexing true (VT.view true (T.size s) id) F (VExpr.const e) cv
      let s' ← assign true mode sc T F (VExpr.const e) s
      if enabled then do
        let b ← tc.equalsV (T.size s) (read s') ((VT.view true (T.size s) id).get cv)
        check true (b = true) .externalLogic
        .ok s'
      else .ok s') := by
    unfold checked
    cases hm : assignTraits sc F.computed e.cat <;> simp_all
  rw [key, z1, he.size]
  simp only [check_True, bind_ok, e1, e2, ha]
  cases enabled with
  | false => simp
  | true =>
    simp only [if_true, h6, bind_ok, decide_eq_true_eq, true_implies]
    by_cases hd : d ≤ tc.eps * max (max n1 n2) tc.minNorm
    · rw [if_pos hd, check_true hd, bind_ok]
    · rw [if_neg hd, check_dbg_false hd, bind_error]

/-- **C96** No false alarms, for vectors. -/
theorem C96_vector_no_false_alarm (hs : tc.Sound) (enabled : Bool) (read : σ → Nat → M R) (mode : ProdFn.Mode) (sc : StorageCat) (F : AssignF) (e : Seq R) (n : Nat) (c : Nat → R)
    (s : σ) (w : Nat → R) (S : List Nat) (hT : T.Supports sc Rep) (hsc : sc ≠ .packed ∧ sc ≠ .packedProxy) (he : e.Presents n c) (h : Rep s n w S)
    (hread : ∀ s n w S, Rep s n w S → ∀ k, k < n → read s k = .ok (w k)) (junk : List R) (hj : junk.length = n) :
    ∃ s' w' S', checked tc enabled read junk mode sc T F e s = .ok s' ∧ assign true mode sc T F (VExpr.const e) s = .ok s' ∧ Rep s' n w' S' ∧ ∀ i, i < n → w' i = F.apply (w i) (c i) := by
  obtain ⟨s', w', S', e1, h1, h2⟩ := C44_assign_every_element true mode sc F e n c s w S hT hsc (he.reads _) h
  refine ⟨s', w', S', ?_, e1, h1, h2⟩
  by_cases hc : assignTraits sc F.computed e.cat ≠ .dense ∧ assignTraits sc F.computed e.cat ≠ .denseProxy
  · obtain ⟨d, n1, n2, g1, g2, g3, g4⟩ := vchecked_ok hs hT.1 enabled read mode sc F he h hj (hread _ _ _ _ h) (hread _ _ _ _ h1) e1 hc
    have hd : d = 0 := IsMax.zero (fun k hk => by rw [h2 k hk, sub_self, hs.zero]) g1
    rw [g4, if_pos]
    intro _
    rw [hd]
    exact mul_nonneg hs.eps (le_trans (IsMax.nonneg (fun _ _ => hs.nonneg _) g2) (le_trans (le_max_left _ _) (le_max_left _ _)))
  · unfold checked
    rw [← e1]
    cases hm : assignTraits sc F.computed e.cat <;> simp_all

/-- **C96** Views of packed matrices (rows, columns): as for packed matrices. -/
theorem C96_vector_packed (hs : tc.Sound) (enabled : Bool) (read : σ → Nat → M R) (fixed : Nat → R) (mode : ProdFn.Mode) (F : AssignF) (e : Seq R)
    (n : Nat) (c : Nat → R) (s : σ) (w : Nat → R) (S : List Nat) (hT : T.Supports .packedProxy Rep) (he : e.Presents n c)
    (h : Rep s n w S) (hout : e.cat = .sparse → ∀ k, k < n → k ∉ S → c k = 0)
    (hread : ∀ s w, Rep s n w S → ∀ k, k < n → (k ∈ S → read s k = .ok (w k)) ∧ (k ∉ S → read s k = .ok (fixed k)))
    (junk : List R) (hj : junk.length = n) :
    ∃ s' d n1 n2, assign true mode .packedProxy T F (VExpr.const e) s = .ok s' ∧
      IsMax n (fun k => tc.abs (if k ∈ S then 0 else fixed k - F.apply (fixed k) (c k))) d ∧
      IsMax n (fun k => tc.abs (if k ∈ S then F.apply (w k) (c k) else fixed k)) n1 ∧
      IsMax n (fun k => tc.abs (F.apply (if k ∈ S then w k else fixed k) (c k))) n2 ∧
      checked tc enabled read junk mode .packedProxy T F e s = if enabled = true → d ≤ tc.eps * max (max n1 n2) tc.minNorm then .ok s' else .error .externalLogic := by
  obtain ⟨s', w', e1, h1, h2⟩ := C44_packed_view true mode F (VExpr.const e) n _ _ s w S hT (he.reads _) h hout
  have hr : ∀ s w, Rep s n w S → ∀ k, k < n → read s k = .ok (if k ∈ S then w k else fixed k) := by
    intro s w h k hk
    split
    · next q => exact (hread s w h k hk).1 q
    · next q => exact (hread s w h k hk).2 q
  obtain ⟨d, n1, n2, g1, g2, g3, g4⟩ := vchecked_ok hs hT.1 enabled read mode .packedProxy F he h hj (hr _ _ h) (hr _ _ h1) e1 (by
    cases hc : e.cat <;> cases F <;> simp [assignTraits])
  have q1 : (fun k => tc.abs ((if k ∈ S then w' k else fixed k) - F.apply (if k ∈ S then w k else fixed k) (c k))) =
      fun k => tc.abs (if k ∈ S then 0 else fixed k - F.apply (fixed k) (c k)) := by
    funext k
    by_cases hk : k ∈ S
    · simp only [if_pos hk, h2 k hk, sub_self]
    · simp only [if_neg hk]
  have q2 : (fun k => tc.abs (if k ∈ S then w' k else fixed k)) = fun k => tc.abs (if k ∈ S then F.apply (w k) (c k) else fixed k) := by
    funext k
    by_cases hk : k ∈ S
    · simp only [if_pos hk, h2 k hk]
    · simp only [if_neg hk]
  exact ⟨s', d, n1, n2, e1, q1 ▸ g1, q2 ▸ g2, g3, g4⟩

end vector

/-! ## Instances -/
section instances
open Packed PackedSpec
variable {t : Tri}

/-- **C96** compressed_matrix: after any legal history (C24), `noalias (m) = e`, `+=`, `-=` in a debug build never trips the self-check. -/
theorem C96_compressed_matrix (hs : tc.Sound) (enabled : Bool) (mode : ProdFn.Mode) (o : Orient) (IB : Nat) (junk : CMat.Junk R) (F : AssignF) (v : CMat R)
    (s : SparseSpec.CMatS R) (h : CMat.Inv o IB v s) (e : MExp R) (a : Nat → Nat → R)
    (he : e.Presents (o.sizeM s.rows s.cols) (o.sizem s.rows s.cols) (fun k l => a (o.indexM k l) (o.indexm k l)))
    (fresh : List R) (hj : fresh.length = o.sizeM s.rows s.cols * o.sizem s.rows s.cols) :
    ∃ v' s', MAssign.checked tc enabled (fun v k l => v.get true o IB 0 (o.indexM k l) (o.indexm k l)) fresh o mode .sparse (MT.compressed true o IB junk) F e v = .ok v' ∧
      CMat.Inv o IB v' s' ∧ s'.rows = s.rows ∧ s'.cols = s.cols ∧
      ∀ i j, i < s.rows → j < s.cols → v'.get true o IB 0 i j = .ok (F.apply ((s.val (i, j)).getD 0) (a i j)) := by
  have hmm : ∀ (i j : Nat), o.indexM (o.indexM i j) (o.indexm i j) = i ∧ o.indexm (o.indexM i j) (o.indexm i j) = j := by
    intro i j; cases o <;> exact ⟨rfl, rfl⟩
  have hlt : ∀ {k l r c : Nat}, k < o.sizeM r c → l < o.sizem r c → o.indexM k l < r ∧ o.indexm k l < c := by
    intro k l r c hk hl; cases o <;> first | exact ⟨hk, hl⟩ | exact ⟨hl, hk⟩
  obtain ⟨v', w', Ls', S', e1, -, ⟨s', h', b1, b2, b3, b4, b5⟩, h2⟩ := C96_matrix_no_false_alarm (T := MT.compressed true o IB junk) (Rep := CMatRep o IB) hs enabled
    (fun v k l => v.get true o IB 0 (o.indexM k l) (o.indexm k l)) o mode .sparse F e _ _ _ v _ _ _ (compressedMatrix_supports true o IB junk) (by simp) he
    ⟨s, h, rfl, rfl, rfl, rfl, rfl⟩ (by
      rintro v r c w Ls S ⟨s, h, h1, h2, h3, _, _⟩ k l hk hl
      subst h1; subst h2
      have hb := hlt hk hl
      rw [(h.observes true o IB 0).2.2.1 _ _ hb.1 hb.2, h3]) fresh hj
  have hr : s'.rows = s.rows := by cases o <;> assumption
  have hc : s'.cols = s.cols := by cases o <;> assumption
  refine ⟨v', s', e1, h', hr, hc, fun i j hi hj => ?_⟩
  rw [(h'.observes true o IB 0).2.2.1 i j (by omega) (by omega)]
  have := h2 _ _ (CMat.major_lt o hi hj) (CMat.minor_lt o hi hj)
  rw [b3] at this
  simp only [hmm] at this
  rw [this]

/-- **C96** compressed_vector. -/
theorem C96_compressed_vector (hs : tc.Sound) (enabled : Bool) (mode : ProdFn.Mode) (IB : Nat) (junk : CVec.Junk R) (F : AssignF) (v : CVec R)
    (s : SparseSpec.Vec R) (h : CVec.Inv IB v s) (e : Seq R) (c : Nat → R) (he : e.Presents s.size c) (fresh : List R) (hj : fresh.length = s.size) :
    ∃ v' s', VAssign.checked tc enabled (fun v i => v.get true IB 0 i) fresh mode .sparse (VT.compressed true IB junk) F e v = .ok v' ∧
      CVec.Inv IB v' s' ∧ s'.size = s.size ∧ ∀ i, i < s.size → v'.get true IB 0 i = .ok (F.apply ((s.val i).getD 0) (c i)) := by
  obtain ⟨E, h⟩ := h
  obtain ⟨v', w', S', e1, -, ⟨E', s', h', b1, b2, b3⟩, h2⟩ := C96_vector_no_false_alarm (T := VT.compressed true IB junk) (Rep := CVecRep IB) hs enabled
    (fun v i => v.get true IB 0 i) mode .sparse F e _ _ v _ _ (compressed_supports true IB junk) (by simp) he ⟨E, s, h, rfl, rfl, rfl⟩ (by
      rintro v n w S ⟨E, s, h, h1, h2, _⟩ k hk
      subst h1
      rw [h.get true 0 k hk, h2]) fresh hj
  refine ⟨v', s', e1, ⟨E', h'⟩, b1, fun i hi => ?_⟩
  rw [h'.get true 0 i (by omega)]
  have := h2 i hi
  rw [b2] at this
  dsimp only at this
  rw [this]

/-- What is lost: the element-wise result at a position outside the triangle differs from what the matrix shows there. -/
def Lost (F : AssignF) (fixed y : R) : Prop := F.apply fixed y ≠ fixed

/-- **C96** A lower or upper triangular matrix (with or without unit diagonal), exact comparison (`eps = 0`): `m = e`, `+=`, `-=` is accepted by the self-check exactly when nothing
is lost outside the triangle, and raises external_logic otherwise; if it is accepted, `m` shows the element-wise results everywhere. -/
theorem C96_triangular (hs : tc.Sound) (hdef : ∀ x, tc.abs x = 0 → x = 0) (heps : tc.eps = 0) (mode : ProdFn.Mode) (u : Bool) (o : Orient) (F : AssignF) (m : TMat R)
    (hw : TWF ⟨.lower, u⟩ m) (e : MExp R) (a : Nat → Nat → R)
    (he : e.Presents (o.sizeM m.size1 m.size2) (o.sizem m.size1 m.size2) (fun k l => a (o.indexM k l) (o.indexm k l)))
    (hcl : e.cat = .sparse → F.computed = true) (hout : e.cat = .sparse → ∀ i j, i < m.size1 → j < m.size2 → ¬ Mutable ⟨.lower, u⟩ i j → a i j = 0)
    (fresh : List R) (hj : fresh.length = o.sizeM m.size1 m.size2 * o.sizem m.size1 m.size2) :
    ((∀ i j, i < m.size1 → j < m.size2 → ¬ Mutable ⟨.lower, u⟩ i j → ¬ Lost F (fixedValue ⟨.lower, u⟩ i j) (a i j)) ∧
      ∃ m', MAssign.checked tc true (fun m k l => m.get true ⟨.lower, u⟩ o (o.indexM k l) (o.indexm k l)) fresh o mode .packed (MT.tri true u o) F e m = .ok m' ∧
        m'.size1 = m.size1 ∧ m'.size2 = m.size2 ∧ TWF ⟨.lower, u⟩ m' ∧
        ∀ i j, i < m.size1 → j < m.size2 → ∃ x, m.get true ⟨.lower, u⟩ o i j = .ok x ∧ m'.get true ⟨.lower, u⟩ o i j = .ok (F.apply x (a i j))) ∨
    ((∃ i j, i < m.size1 ∧ j < m.size2 ∧ ¬ Mutable ⟨.lower, u⟩ i j ∧ Lost F (fixedValue ⟨.lower, u⟩ i j) (a i j)) ∧
      MAssign.checked tc true (fun m k l => m.get true ⟨.lower, u⟩ o (o.indexM k l) (o.indexm k l)) fresh o mode .packed (MT.tri true u o) F e m = .error .externalLogic) := by
  have hmm : ∀ (i j : Nat), o.indexM (o.indexM i j) (o.indexm i j) = i ∧ o.indexm (o.indexM i j) (o.indexm i j) = j := by
    intro i j; cases o <;> exact ⟨rfl, rfl⟩
  have hlt : ∀ {k l r c : Nat}, k < o.sizeM r c → l < o.sizem r c → o.indexM k l < r ∧ o.indexm k l < c := by
    intro k l r c hk hl; cases o <;> first | exact ⟨hk, hl⟩ | exact ⟨hl, hk⟩
  obtain ⟨w, h⟩ := triMRep_init true u o m hw
  have hmem : ∀ k l, k < o.sizeM m.size1 m.size2 → l < o.sizem m.size1 m.size2 →
      ((k ∈ List.range (o.sizeM m.size1 m.size2) ∧ l ∈ (MT.tri true u o : MT (TMat R) R).its m k) ↔ Mutable ⟨.lower, u⟩ (o.indexM k l) (o.indexm k l)) := by
    intro k l hk hl
    rw [tri_mem true u o m k l hk]
    exact ⟨fun h => h.2.2, fun h => ⟨List.mem_range.2 hk, hl, h⟩⟩
  obtain ⟨m', d, n1, n2, e1, g1, g2, g3, g4⟩ := C96_matrix_packed (T := MT.tri true u o) (Rep := TriMRep true u o) hs true
    (fun m k l => m.get true ⟨.lower, u⟩ o (o.indexM k l) (o.indexm k l)) (fun k l => fixedValue ⟨.lower, u⟩ (o.indexM k l) (o.indexm k l)) o mode .packed F e _ _ _ m w _ _
    (tri_supports true u o).1 (.inl rfl) he h (fun _ => hcl) (fun hc k l hk hl hn => hout hc _ _ (hlt hk hl).1 (hlt hk hl).2 fun hm => hn ((hmem k l hk hl).2 hm))
    (by
      rintro m1 w1 ⟨a1, a2, a3, a4, a5, a6, a7⟩ k l hk hl
      refine ⟨fun hq => a6 k l hk hq.2, fun hq => ?_⟩
      have hb := hlt (r := m1.size1) (c := m1.size2) (by rw [a1]; exact hk) (by rw [a2]; exact hl)
      exact tget_fixed hb.1 hb.2 fun hm => hq ((hmem k l hk hl).2 hm)) fresh hj
  rw [g4, heps, zero_mul]
  have hdn : 0 ≤ d := g1.nonneg hs
  by_cases hl : ∃ i j, i < m.size1 ∧ j < m.size2 ∧ ¬ Mutable ⟨.lower, u⟩ i j ∧ Lost F (fixedValue ⟨.lower, u⟩ i j) (a i j)
  · refine .inr ⟨hl, ?_⟩
    rw [if_neg]
    simp only [true_implies]
    intro hd
    obtain ⟨i, j, hi, hj', hn, hlost⟩ := hl
    have hk := CMat.major_lt o hi hj'
    have hl := CMat.minor_lt o hi hj'
    have := g1.le hs hk hl
    have hn' := fun q => hn ((hmem _ _ hk hl).1 q |> fun z => by simpa only [hmm] using z)
    rw [if_neg hn'] at this
    simp only [hmm] at this
    have h0 := hdef _ (le_antisymm (le_trans this hd) (hs.nonneg _))
    exact hlost (sub_eq_zero.1 h0).symm
  · have hok : ∀ i j, i < m.size1 → j < m.size2 → ¬ Mutable ⟨.lower, u⟩ i j → F.apply (fixedValue ⟨.lower, u⟩ i j) (a i j) = fixedValue ⟨.lower, u⟩ i j := by
      intro i j hi hj' hn
      by_contra hc
      exact hl ⟨i, j, hi, hj', hn, hc⟩
    refine .inl ⟨fun i j hi hj' hn hlost => hlost (hok i j hi hj' hn), m', ?_, ?_⟩
    · rw [if_pos]
      intro _
      refine le_of_eq (g1.zero hs fun k l hk hl' => ?_)
      by_cases hq : k ∈ List.range (o.sizeM m.size1 m.size2) ∧ l ∈ (MT.tri true u o : MT (TMat R) R).its m k
      · rw [if_pos hq]
      · rw [if_neg hq, hok _ _ (hlt hk hl').1 (hlt hk hl').2 fun z => hq ((hmem k l hk hl').2 z), sub_self]
    · obtain ⟨m2, f1, f2, f3, f4, f5⟩ := C68_triangular true mode u o F m hw e _ he hcl
        (fun hc k l hk hl' hn => hout hc _ _ (hlt hk hl').1 (hlt hk hl').2 hn)
      rw [e1] at f1
      cases f1
      refine ⟨f2, f3, f4, fun i j hi hj' => ?_⟩
      by_cases hm : Mutable ⟨.lower, u⟩ i j
      · have := f5 _ _ (CMat.major_lt o hi hj') (CMat.minor_lt o hi hj')
        simp only [hmm] at this
        exact this hm
      · refine ⟨_, tget_fixed hi hj' hm, ?_⟩
        rw [tget_fixed (by omega) (by omega) hm, hok i j hi hj' hm]

/-- **C96** A row of a triangular matrix (lower, upper, strict or unit), exact comparison: as for the matrix. -/
theorem C96_triangular_row (hs : tc.Sound) (hdef : ∀ x, tc.abs x = 0 → x = 0) (heps : tc.eps = 0) (mode : ProdFn.Mode) (t : Tri) (o : Orient) (F : AssignF) (i : Nat) (m : TMat R)
    (hsh : ShapeOk true t m.size1 m.size2) (hw : TWF t m) (hi : i < m.size1) (e : Seq R) (c : Nat → R) (he : e.Presents m.size2 c)
    (hout : e.cat = .sparse → ∀ j, j < m.size2 → ¬ Mutable t i j → c j = 0) (fresh : List R) (hj : fresh.length = m.size2) :
    ((∀ j, j < m.size2 → ¬ Mutable t i j → ¬ Lost F (fixedValue t i j) (c j)) ∧
      ∃ m', VAssign.checked tc true (fun m j => m.get true t o i j) fresh mode .packedProxy (VT.triRow true t o i) F e m = .ok m' ∧
        VAssign.assign true mode .packedProxy (VT.triRow true t o i) F (VExpr.const e) m = .ok m') ∨
    ((∃ j, j < m.size2 ∧ ¬ Mutable t i j ∧ Lost F (fixedValue t i j) (c j)) ∧
      VAssign.checked tc true (fun m j => m.get true t o i j) fresh mode .packedProxy (VT.triRow true t o i) F e m = .error .externalLogic) := by
  obtain ⟨w, h⟩ := triRowRep_init true t o i m hsh hw hi
  have hmem := fun j => triRow_mem true t o m i hi j
  obtain ⟨m', d, n1, n2, e1, g1, g2, g3, g4⟩ := C96_vector_packed (T := VT.triRow true t o i) (Rep := TriRowRep true t o i m) hs true (fun m j => m.get true t o i j)
    (fun j => fixedValue t i j) mode F e m.size2 c m w _ (triRow_supports true t o i m hsh hi) he h (fun hc j hj hn => hout hc j hj fun hm => hn ((hmem j).2 ⟨hj, hm⟩))
    (by
      rintro m1 w1 ⟨a1, a2, a3, a4, a5, a6, a7, a8⟩ j hj
      exact ⟨fun hq => a6 j hq, fun hq => tget_fixed (by omega) (by omega) fun hm => hq ((hmem j).2 ⟨hj, hm⟩)⟩) fresh hj
  rw [g4, heps, zero_mul]
  by_cases hl : ∃ j, j < m.size2 ∧ ¬ Mutable t i j ∧ Lost F (fixedValue t i j) (c j)
  · refine .inr ⟨hl, ?_⟩
    rw [if_neg]
    simp only [true_implies]
    intro hd
    obtain ⟨j, hj', hn, hlost⟩ := hl
    rcases g1 with ⟨g, _⟩ | ⟨_, g⟩
    · omega
    · have := g j hj'
      dsimp only at this
      rw [if_neg (fun q => hn ((hmem j).1 q).2)] at this
      exact hlost (sub_eq_zero.1 (hdef _ (le_antisymm (le_trans this hd) (hs.nonneg _)))).symm
  · have hok : ∀ j, j < m.size2 → ¬ Mutable t i j → F.apply (fixedValue t i j) (c j) = fixedValue t i j := by
      intro j hj' hn
      by_contra hc
      exact hl ⟨j, hj', hn, hc⟩
    refine .inl ⟨fun j hj' hn hlost => hlost (hok j hj' hn), m', ?_, e1⟩
    rw [if_pos]
    intro _
    refine le_of_eq (IsMax.zero (fun k hk => ?_) g1)
    by_cases hq : k ∈ (VT.triRow true t o i : VT (TMat R) R).its m
    · rw [if_pos hq, hs.zero]
    · rw [if_neg hq, hok k hk fun z => hq ((hmem k).2 ⟨hk, z⟩), sub_self, hs.zero]

end instances
end general

/-! ## Non-vacuity -/

/-- Exact comparison of integers (the epsilon of integer types is 0). -/
def exactInt : TypeCheck Int Int := ⟨fun x => |x|, 0, 0⟩

theorem exactInt_sound : exactInt.Sound ∧ (∀ x, exactInt.abs x = 0 → x = 0) ∧ exactInt.eps = 0 := ⟨⟨abs_zero, abs_nonneg, le_rfl⟩, fun _ h => abs_eq_zero.1 h, rfl⟩

/-- A tolerance as in the headers (sqrt of the machine epsilon of double, and of its smallest positive value). -/
def doubleRat : TypeCheck Rat Rat := ⟨fun x => |x|, 1 / 2 ^ 26, 1 / 2 ^ 511⟩

theorem doubleRat_sound : doubleRat.Sound := ⟨abs_zero, abs_nonneg, by norm_num [doubleRat]⟩

/-- A full 2 x 2 matrix assigned to a lower triangular one: element (0, 1) is lost and the check says so; with a lower triangular operand it is accepted. -/
example :
    MAssign.checked exactInt true (fun m k l => Packed.TMat.get true ⟨.lower, false⟩ .row m k l) [0, 0, 0, 0] .row .indexing .packed (MT.tri true false .row) .assign
      ⟨2, 2, .dense, [(0, [(0, 1), (1, 2)]), (1, [(0, 3), (1, 4)])], fun i j => .ok (if i = 0 then (if j = 0 then 1 else 2) else if j = 0 then 3 else 4)⟩
      (⟨2, 2, [9, 9, 9]⟩ : Packed.TMat Int) = .error .externalLogic ∧
    MAssign.checked exactInt true (fun m k l => Packed.TMat.get true ⟨.lower, false⟩ .row m k l) [0, 0, 0, 0] .row .indexing .packed (MT.tri true false .row) .assign
      ⟨2, 2, .dense, [(0, [(0, 1), (1, 0)]), (1, [(0, 3), (1, 4)])], fun i j => .ok (if i = 0 then (if j = 0 then 1 else 0) else if j = 0 then 3 else 4)⟩
      (⟨2, 2, [9, 9, 9]⟩ : Packed.TMat Int) = .ok ⟨2, 2, [1, 3, 4]⟩ := by
  constructor <;> decide
end Ublas
