import Verif.Model.MatrixAlias
import Verif.Props.MatrixAssign
import Verif.Props.Expr
import Verif.Props.AssignOps
import Verif.Lemmas.Blocked
/-! # C110: assignment to a matrix or matrix view uses the right-hand side's values from before the assignment -/
namespace Ublas
open MAssign
variable {R : Type}

/-- What the user sees of a dense matrix: `r * c` cells, element (k, l) is `a k l`. -/
def MHolds (data : List R) (r c : Nat) (a : Nat → Nat → R) : Prop :=
  data.length = r * c ∧ ∀ k l, k < r → l < c → data[k * c + l]? = some (a k l)

/-- What an assignment to a view leaves behind: the viewed elements are `a`, every other cell of the underlying array is unchanged. -/
def MViewHolds (data data' : List R) (r c : Nat) (addr : Nat → Nat → Nat) (a : Nat → Nat → R) : Prop :=
  data'.length = data.length ∧ (∀ k l, k < r → l < c → data'[addr k l]? = some (a k l)) ∧
    ∀ p : Nat, (∀ k l, k < r → l < c → addr k l ≠ p) → data'[p]? = data[p]?

/-- The view's positions are distinct cells of the array. -/
def ValidView (data : List R) (r c : Nat) (addr : Nat → Nat → Nat) : Prop :=
  (∀ k l i j, k < r → l < c → i < r → j < c → addr k l = addr i j → k = i ∧ l = j) ∧ ∀ k l, k < r → l < c → addr k l < data.length

theorem pair_lt {r c k l : Nat} (hk : k < r) (hl : l < c) : k * c + l < r * c := by
  have : (k + 1) * c ≤ r * c := Nat.mul_le_mul_right _ hk
  rw [Nat.add_mul] at this; omega

theorem pair_inj {c k l i j : Nat} (hl : l < c) (hj : j < c) (h : k * c + l = i * c + j) : k = i ∧ l = j := by
  have h1 : (k * c + l) / c = k := by rw [Nat.add_comm, Nat.add_mul_div_right _ _ (by omega), Nat.div_eq_of_lt hl, Nat.zero_add]
  have h2 : (i * c + j) / c = i := by rw [Nat.add_comm, Nat.add_mul_div_right _ _ (by omega), Nat.div_eq_of_lt hj, Nat.zero_add]
  have : k = i := by rw [← h1, h, h2]
  subst this
  exact ⟨rfl, by omega⟩

theorem denseAddr_valid (data : List R) (r c : Nat) (h : data.length = r * c) : ValidView data r c (denseAddr c) :=
  ⟨fun _ _ _ _ _ hl _ hj e => pair_inj hl hj e, fun _ _ hk hl => by rw [h]; exact pair_lt hk hl⟩

section temporaries
variable [Ring R] [DecidableEq R]

theorem mview_rep (data : List R) (r c : Nat) (addr : Nat → Nat → Nat) (h : ∀ k l, k < r → l < c → addr k l < data.length) :
    MViewRep r c addr data data r c (fun k l => data.getD (addr k l) 0) (if c = 0 then [] else List.range r) (fun _ => List.range c) :=
  ⟨rfl, rfl, rfl, rfl, rfl, fun k l hk hl => by simp [List.getD, h k l hk hl], fun _ _ => rfl⟩

/-- Assigning a right-hand side that does not read the target. -/
theorem mview_assign (dbg : Bool) (mode : ProdFn.Mode) (sc : StorageCat) (hsc : sc = .dense ∨ sc = .denseProxy) (r c : Nat) (addr : Nat → Nat → Nat) (q : MExp R) (data : List R)
    (a : Nat → Nat → R) (hv : ValidView data r c addr) (hq : q.Presents r c a) :
    ∃ data', assign dbg mode sc (MT.view dbg r c addr) .assign q data = .ok data' ∧ MViewHolds data data' r c addr a := by
  have hs := mview_supports dbg r c addr data hv.1
  obtain ⟨s', w', Ls', S', e1, h1, h2⟩ := C68_matrix_assign dbg mode sc .assign q r c a data _ _ _
    (by rcases hsc with rfl | rfl; exacts [hs.1, hs.2]) (by rcases hsc with rfl | rfl <;> simp) hq (mview_rep data r c addr hv.2)
  obtain ⟨_, _, _, _, b5, b6, b7⟩ := h1
  exact ⟨s', e1, b5, fun k l hk hl => by rw [b6 k l hk hl, h2 k l hk hl]; rfl, b7⟩

theorem denseFrom_ok (dbg : Bool) (mode : ProdFn.Mode) (junk : Nat → R) (q : MExp R) (r c : Nat) (a : Nat → Nat → R) (hq : q.Presents r c a) :
    ∃ data, denseFrom dbg mode junk q = .ok data ∧ MHolds data r c a := by
  obtain ⟨e1, e2⟩ := hq.sizes
  obtain ⟨d, f1, f2, f3, _⟩ := mview_assign dbg mode .dense (.inl rfl) r c (denseAddr c) q ((List.range (r * c)).map junk) a (denseAddr_valid _ r c (by simp)) hq
  refine ⟨d, ?_, by simpa using f2, f3⟩
  unfold denseFrom; rw [e1, e2]; exact f1

theorem arrExp_ok (dbg : Bool) (r c : Nat) (addr : Nat → Nat → Nat) (data : List R) (h : ∀ k l, k < r → l < c → addr k l < data.length) :
    ∃ q, arrExp dbg r c addr data = .ok q ∧ q.Presents r c (fun k l => data.getD (addr k l) 0) ∧ q.cat = .dense := by
  have hg : ∀ k l, k < r → l < c → rd dbg data (addr k l) = .ok (data.getD (addr k l) 0) := fun k l hk hl => by
    rw [rd_ok (h k l hk hl)]; simp [List.getD, h k l hk hl]
  have hw : ∀ k, ∃ L, k < r → walkIdx (fun l => rd dbg data (addr k l)) c 0 c = .ok L ∧ L.map (·.1) = List.range' 0 (c - 0) ∧
      ∀ l v, (l, v) ∈ L ↔ (0 ≤ l ∧ l < c ∧ rd dbg data (addr k l) = .ok v) := by
    intro k
    by_cases hk : k < r
    · obtain ⟨L, q⟩ := walkIdx_ok (get := fun l => rd dbg data (addr k l)) c 0 c (Nat.zero_le _) (by omega) (fun l _ hl => ⟨_, hg k l hk hl⟩)
      exact ⟨L, fun _ => q⟩
    · exact ⟨[], fun x => absurd x hk⟩
  choose L hL using hw
  refine ⟨⟨r, c, .dense, (List.range r).map fun k => (k, L k), fun k l => rd dbg data (addr k l)⟩, ?_, ?_, rfl⟩
  · unfold arrExp
    rw [mapM_range (g := fun k => (k, L k)) (fun k hk => by simp only [(hL k hk).1, bind_ok]), bind_ok]
  · refine MExp.presents_of (ls := List.range r) (els := L) ⟨rfl, rfl⟩ rfl (fun k hk => ?_) List.pairwise_lt_range (fun k hk => by simpa using hk)
      (fun k hk hm => absurd (by simpa using hk) hm) (fun _ => ⟨0, by rw [List.length_range, List.range_eq_range']⟩) (fun _ _ => rfl)
    exact Seq.presents_range (hL k hk).2.1 (hL k hk).2.2 (fun _ _ h => h) (hg k · hk) (fun i h1 h2 => by omega) (fun _ => ⟨rfl, rfl⟩)

/-- **C110**, dense matrix: `m = e`, where `e` reads `m` anywhere (`prod (m, m)`, `trans (m)`, …): the result has the size of `e` and every element is the value of `e` on the old contents. -/
theorem C110_assign (dbg : Bool) (mode : ProdFn.Mode) (junk : Nat → R) (e : List R → MExp R) (data : List R) (r c : Nat) (a : Nat → Nat → R) (he : (e data).Presents r c a) :
    ∃ data', matAssign dbg mode junk e data = .ok data' ∧ MHolds data' r c a := denseFrom_ok dbg mode junk (e data) r c a he

/-- **C110**, matrix_range, matrix_slice, matrix_indirect: `view = e`, where `e` reads the underlying array anywhere, but is not itself a view of the same type. -/
theorem C110_view_assign (dbg : Bool) (mode : ProdFn.Mode) (junk : Nat → R) (r c : Nat) (addr : Nat → Nat → Nat) (e : List R → MExp R) (data : List R) (a : Nat → Nat → R)
    (hv : ValidView data r c addr) (he : (e data).Presents r c a) :
    ∃ data', matViewAssign dbg mode junk r c addr e data = .ok data' ∧ MViewHolds data data' r c addr a := by
  obtain ⟨e1, e2⟩ := he.sizes
  obtain ⟨t, t1, t2, t3⟩ := denseFrom_ok dbg mode junk (e data) r c a he
  obtain ⟨q, q1, q2, _⟩ := arrExp_ok dbg r c (denseAddr c) t (denseAddr_valid t r c t2).2
  obtain ⟨d, d1, d2, d3, d4⟩ := mview_assign dbg mode .denseProxy (.inr rfl) r c addr q data _ hv q2
  refine ⟨d, by simp only [matViewAssign, t1, bind_ok, e1, e2, q1, d1], d2, fun k l hk hl => ?_, d4⟩
  rw [d3 k l hk hl]; show some (t.getD (k * c + l) 0) = _; rw [List.getD_eq_getElem?_getD, t3 k l hk hl]; rfl

omit [DecidableEq R] in
theorem lineSeq_presents {q : MExp R} {r c : Nat} {a : Nat → Nat → R} (h : q.Presents r c a) {k : Nat} (hk : k < r) : (lineSeq q k).Presents c (a k) := by
  unfold lineSeq
  cases hf : q.lines.find? (fun p => p.1 == k) with
  | none =>
    have hn : ∀ p ∈ q.lines, p.1 ≠ k := fun p hp => by simpa using List.find?_eq_none.1 hf p hp
    refine ⟨h.sizes.2, fun l hl => h.at_ k l hk hl, by simp, by simp, fun l hl _ => h.skipped k l hk hl fun p hp e => absurd e (hn p hp), fun _ => ⟨0, rfl⟩, fun hc => ?_⟩
    show [] = List.range c
    by_cases h0 : c = 0
    · subst h0; rfl
    · exfalso
      have : k ∈ q.lines.map (·.1) := by rw [(h.dense hc h0).1]; simpa using hk
      obtain ⟨p, hp, rfl⟩ := List.mem_map.1 this
      exact hn p hp rfl
  | some p =>
    have hp := List.mem_of_find?_eq_some hf
    have hpk : p.1 = k := by simpa using List.find?_some hf
    subst hpk
    have huniq : ∀ p' ∈ q.lines, p'.1 = p.1 → p' = p := by
      intro p' hp' e
      have hs := h.sorted
      rw [List.pairwise_map] at hs
      by_contra hne
      rcases List.mem_iff_getElem.1 hp with ⟨i, hi, rfl⟩
      rcases List.mem_iff_getElem.1 hp' with ⟨j, hj, rfl⟩
      rcases Nat.lt_trichotomy i j with hij | hij | hij
      · have := List.pairwise_iff_getElem.1 hs i j hi hj hij; omega
      · subst hij; exact hne rfl
      · have := List.pairwise_iff_getElem.1 hs j i hj hi hij; omega
    refine ⟨h.sizes.2, fun l hl => h.at_ _ l hk hl, (h.inner p hp).2, (h.inner p hp).1, fun l hl hm => h.skipped _ l hk hl fun p' hp' e => ?_, fun hc => (h.packed hc).2 p hp, fun hc => ?_⟩
    · rw [huniq p' hp' e]; exact hm
    · show p.2.map (·.1) = List.range c
      by_cases h0 : c = 0
      · subst h0
        rw [List.range_zero, List.map_eq_nil_iff, List.eq_nil_iff_forall_not_mem]
        intro x hx
        have := ((h.inner p hp).2 x hx).1
        omega
      · exact (h.dense hc h0).2 p hp

theorem sumExp_ok (dbg : Bool) (F : AssignF) {a b : MExp R} {r c : Nat} {x y : Nat → Nat → R} (ha : a.Presents r c x) (hb : b.Presents r c y) :
    ∃ q, sumExp dbg F.apply a b = .ok q ∧ q.Presents r c (fun k l => F.apply (x k l) (y k l)) := by
  have hl : ∀ k, ∃ L, k < r → Expr.binEls F.apply (lineSeq a k) (lineSeq b k) c = .ok L ∧ ∀ get : Nat → M R, (∀ l, l < c → get l = .ok (F.apply (x k l) (y k l))) →
      (⟨c, a.cat.restrict b.cat, L, get⟩ : Seq R).Presents c (fun l => F.apply (x k l) (y k l)) := by
    intro k
    by_cases hk : k < r
    · obtain ⟨L, h⟩ := binEls_presents (lineSeq_presents ha hk) (lineSeq_presents hb hk) F.apply (.inr (F_zero F)); exact ⟨L, fun _ => h⟩
    · exact ⟨[], fun h => absurd h hk⟩
  choose L hL using hl
  have s1 : same dbg a.sizeM b.sizeM = .ok r := by simp only [same, ha.sizes.1, hb.sizes.1, check_True, bind_ok, Nat.min_self, pure_eq_ok]
  have s2 : same dbg a.sizem b.sizem = .ok c := by simp only [same, ha.sizes.2, hb.sizes.2, check_True, bind_ok, Nat.min_self, pure_eq_ok]
  have hm := mapM_range (n := r) (f := fun k => (do let els ← Expr.binEls F.apply (lineSeq a k) (lineSeq b k) c; .ok (k, els) : M (Nat × List (Nat × R)))) (g := fun k => (k, L k))
    (fun k hk => by simp only [(hL k hk).1, bind_ok])
  refine ⟨_, by unfold sumExp; rw [s1, bind_ok, s2, bind_ok, hm, bind_ok], ?_⟩
  refine MExp.presents_of (ls := List.range r) (els := L) ⟨rfl, rfl⟩ rfl (fun k hk => (hL k hk).2 _ fun l hl => ?_) List.pairwise_lt_range (fun k hk => by simpa using hk)
    (fun k hk hm => absurd (by simpa using hk) hm) (fun _ => ⟨0, by rw [List.length_range, List.range_eq_range']⟩) (fun _ _ => rfl)
  simp only [ha.at_ k l hk hl, hb.at_ k l hk hl, bind_ok]

/-- **C110**, dense matrix: `m += e`, `m -= e`. -/
theorem C110_op_assign (dbg : Bool) (mode : ProdFn.Mode) (junk : Nat → R) (F : AssignF) (r c : Nat) (e : List R → MExp R) (data : List R) (a : Nat → Nat → R)
    (hd : data.length = r * c) (he : (e data).Presents r c a) :
    ∃ data', matOpAssign dbg mode junk F r c e data = .ok data' ∧ MHolds data' r c (fun k l => F.apply (data.getD (k * c + l) 0) (a k l)) := by
  obtain ⟨q, q1, q2, _⟩ := arrExp_ok dbg r c (denseAddr c) data (denseAddr_valid data r c hd).2
  obtain ⟨p, p1, p2⟩ := sumExp_ok dbg F q2 he
  obtain ⟨d, d1, d2⟩ := denseFrom_ok dbg mode junk p r c _ p2
  exact ⟨d, by simp only [matOpAssign, q1, bind_ok, p1, d1], d2⟩

/-- **C110**, views: `view += e`, `view -= e`. -/
theorem C110_view_op_assign (dbg : Bool) (mode : ProdFn.Mode) (junk : Nat → R) (F : AssignF) (r c : Nat) (addr : Nat → Nat → Nat) (e : List R → MExp R) (data : List R)
    (a : Nat → Nat → R) (hv : ValidView data r c addr) (he : (e data).Presents r c a) :
    ∃ data', matViewOpAssign dbg mode junk F r c addr e data = .ok data' ∧ MViewHolds data data' r c addr (fun k l => F.apply (data.getD (addr k l) 0) (a k l)) := by
  obtain ⟨q, q1, q2, _⟩ := arrExp_ok dbg r c addr data hv.2
  obtain ⟨p, p1, p2⟩ := sumExp_ok dbg F q2 he
  obtain ⟨d, d1, d2⟩ := C110_view_assign dbg mode junk r c addr (fun _ => p) data _ hv p2
  exact ⟨d, by simp only [matViewOpAssign, q1, bind_ok, p1, d1], d2⟩

/-- **C110**, compressed_matrix: `m = e`, where `e` reads `m` anywhere. -/
theorem C110_compressed_assign (dbg : Bool) (mode : ProdFn.Mode) (o : Orient) (IB : Nat) (junk : CMat.Junk R) (e : CMat R → MExp R) (v : CMat R) (r c : Nat) (a : Nat → Nat → R)
    (he : (e v).Presents (o.sizeM r c) (o.sizem r c) (fun k l => a (o.indexM k l) (o.indexm k l))) :
    ∃ v', compressedMatAssign dbg mode o IB junk e v = .ok v' ∧ v'.size1 = r ∧ v'.size2 = c ∧ ∀ i j, i < r → j < c → v'.get dbg o IB 0 i j = .ok (a i j) := by
  obtain ⟨v0, e0, h0⟩ := CMat.inv_ctor dbg o IB junk r c v.cap
  obtain ⟨v', s', f1, f2, f3, f4, f5⟩ := C68_compressed dbg mode o IB junk .assign v0 _ h0 (e v) a he
  have hz : o.indexM (e v).sizeM (e v).sizem = r ∧ o.indexm (e v).sizeM (e v).sizem = c := by
    rw [he.sizes.1, he.sizes.2]; cases o <;> exact ⟨rfl, rfl⟩
  obtain ⟨p1, p2, _⟩ := f2.observes dbg o IB 0
  refine ⟨v', by simp only [compressedMatAssign, compressedMatFrom, hz.1, hz.2, e0, bind_ok, f1], by rw [p1, f3], by rw [p2, f4], f5⟩

end temporaries

/-- Non-vacuity of C110_assign, C110_view_assign and the compound forms: `m = trans (m)` on a 2 x 2 matrix and `project (m, …) = trans (m)`; C110_compressed_assign: a compressed_matrix assigned
a dense expression. -/
example : (∃ q : MExp Int, arrExp true 2 2 (fun k l => l * 2 + k) [1, 2, 3, 4] = .ok q ∧ q.Presents 2 2 (fun k l => [1, 2, 3, 4].getD (l * 2 + k) 0) ∧
      matOpAssign true .iterating (fun _ => 0) .plus 2 2 (fun _ => q) [1, 2, 3, 4] = .ok [2, 5, 5, 8] ∧
      matViewOpAssign true (.threshold 1) (fun _ => 0) .minus 2 2 (fun k l => 2 * k + 1 - l) (fun _ => q) [1, 2, 3, 4] = .ok [-2, 1, -1, 2] ∧
      ((compressedMatAssign true .indexing .row 0 (id, fun _ => 0) (fun _ => q) ⟨1, 1, 1, 1, 0, [0, 0], [0], [0]⟩).map fun v => (v.size1, v.size2, v.filled2, v.val.take 4)) = .ok (2, 2, 4, [1, 3, 2, 4])) ∧
    ValidView [(1 : Int), 2, 3, 4] 2 2 (fun k l => 2 * k + 1 - l) := by
  obtain ⟨q, h1, h2, _⟩ := arrExp_ok true 2 2 (fun k l => l * 2 + k) [(1 : Int), 2, 3, 4] (fun k l _ _ => by simp; omega)
  refine ⟨⟨q, h1, h2, ?_, ?_, ?_⟩, fun k l i j _ _ _ _ h => by simp only at h; omega, fun k l _ _ => by simp only [List.length_cons, List.length_nil]; omega⟩
  all_goals
    cases h1
    rfl

/-! ## Without a temporary -/

section lazy
variable [Add R] [Sub R] [Zero R]

/-- (k', l') is assigned before (k, l). -/
def Before (k' l' k l : Nat) : Prop := k' < k ∨ (k' = k ∧ l' < l)

/-- Element (k, l) of `e` is `a k l` as long as only elements of the target assigned before (k, l) have changed. -/
def MLazy.Reads (e : MLazy (List R) R) (data : List R) (r c : Nat) (addr : Nat → Nat → Nat) (a : Nat → Nat → R) : Prop :=
  e.sizeM = r ∧ e.sizem = c ∧ ∀ k l s, k < r → l < c → s.length = data.length →
    (∀ p, (∀ k' l', k' < r → l' < c → Before k' l' k l → addr k' l' ≠ p) → s[p]? = data[p]?) → e.at_ k l s = .ok (a k l)

/-- State before (k, l) is assigned. -/
def Upto (F : AssignF) (data : List R) (r c : Nat) (addr : Nat → Nat → Nat) (a : Nat → Nat → R) (k l : Nat) (s : List R) : Prop :=
  s.length = data.length ∧ (∀ k' l', k' < r → l' < c → Before k' l' k l → s[addr k' l']? = some (F.apply (data.getD (addr k' l') 0) (a k' l'))) ∧
    ∀ p, (∀ k' l', k' < r → l' < c → Before k' l' k l → addr k' l' ≠ p) → s[p]? = data[p]?

variable {F : AssignF} {data : List R} {r c : Nat} {addr : Nat → Nat → Nat} {a : Nat → Nat → R}

theorem Upto.step (dbg : Bool) (hv : ValidView data r c addr) {k l : Nat} (hk : k < r) (hl : l < c) {s : List R} (h : Upto F data r c addr a k l s) :
    rd dbg s (addr k l) = .ok (data.getD (addr k l) 0) ∧
      ∃ s', wr dbg s (addr k l) (F.apply (data.getD (addr k l) 0) (a k l)) = .ok s' ∧ Upto F data r c addr a k (l + 1) s' := by
  obtain ⟨h1, h2, h3⟩ := h
  have hlt := hv.2 k l hk hl
  have hold : s[addr k l]? = data[addr k l]? := h3 _ fun k' l' a' b' hb e => by
    obtain ⟨rfl, rfl⟩ := hv.1 k' l' k l a' b' hk hl e
    unfold Before at hb; omega
  refine ⟨rd_eq_ok.2 (by rw [hold]; simp [List.getD, hlt]), _, wr_ok (by omega), by simpa using h1, fun k' l' a' b' hb => ?_, fun p hp => ?_⟩
  · by_cases e : k' = k ∧ l' = l
    · obtain ⟨rfl, rfl⟩ := e
      rw [List.getElem?_set_self (by omega)]
    · rw [List.getElem?_set_ne (fun x => e (by obtain ⟨p, q⟩ := hv.1 k l k' l' hk hl a' b' x; exact ⟨p.symm, q.symm⟩))]
      exact h2 k' l' a' b' (by unfold Before at hb ⊢; omega)
  · rw [List.getElem?_set_ne (hp k l hk hl (by unfold Before; omega))]
    exact h3 p fun k' l' a' b' hb => hp k' l' a' b' (by unfold Before at hb ⊢; omega)

theorem Upto.nextLine {k : Nat} {s : List R} (h : Upto F data r c addr a k c s) : Upto F data r c addr a (k + 1) 0 s := by
  obtain ⟨h1, h2, h3⟩ := h
  refine ⟨h1, fun k' l' a' b' hb => h2 k' l' a' b' (by unfold Before at hb ⊢; omega), fun p hp => h3 p fun k' l' a' b' hb => hp k' l' a' b' (by unfold Before at hb ⊢; omega)⟩

theorem Upto.start : Upto F data r c addr a 0 0 data :=
  ⟨rfl, fun _ _ _ _ hb => by unfold Before at hb; omega, fun _ _ => rfl⟩

theorem Upto.finish {s : List R} (h : Upto F data r c addr a r 0 s) : MViewHolds data s r c addr (fun k l => F.apply (data.getD (addr k l) 0) (a k l)) := by
  obtain ⟨h1, h2, h3⟩ := h
  exact ⟨h1, fun k l hk hl => h2 k l hk hl (.inl hk), fun p hp => h3 p fun k l hk hl _ => hp k l hk hl⟩

theorem lazyIndexing_ok (dbg : Bool) (F : AssignF) (e : MLazy (List R) R) (hv : ValidView data r c addr) (he : e.Reads data r c addr a) :
    ∃ data', lazyIndexing dbg (MT.view dbg r c addr) F e data = .ok data' ∧ Upto F data r c addr a r 0 data' := by
  obtain ⟨e1, e2, e3⟩ := he
  unfold lazyIndexing
  simp only [MT.view, same, e1, e2, check_True, bind_ok, Nat.min_self, pure_eq_ok]
  refine loop_inv (fun k s => Upto F data r c addr a k 0 s) Upto.start fun k s hk hs => ?_
  obtain ⟨s', q1, q2⟩ := loop_inv (f := fun j (s : List R) => (do
      let y ← e.at_ k j s
      let x ← (do check dbg (k < r) .badIndex; check dbg (j < c) .badIndex; rd dbg s (addr k j))
      (do check dbg (k < r) .badIndex; check dbg (j < c) .badIndex; wr dbg s (addr k j) (F.apply x y)) : M (List R))) (n := c) (s := s)
    (fun l s => Upto F data r c addr a k l s) hs (fun l s hl hs => by
      obtain ⟨w1, s', w2, w3⟩ := hs.step dbg hv hk hl
      refine ⟨s', ?_, w3⟩
      rw [e3 k l s hk hl hs.1 hs.2.2]
      simp only [bind_ok, check_true hk, check_true hl, w1, w2])
  exact ⟨s', q1, q2.nextLine⟩

theorem lazyRow_ok (dbg : Bool) (F : AssignF) (e : MLazy (List R) R) (hv : ValidView data r c addr) (he : e.Reads data r c addr a) {k : Nat} (hk : k < r) :
    ∀ (n l : Nat) (s : List R), l + n = c → Upto F data r c addr a k l s →
      ∃ s', VAssign.zipLoop ((MT.view dbg r c addr).line k) F (List.range' l n) ((List.range' l n).map fun j => (j, e.at_ k j)) s = .ok s' ∧ Upto F data r c addr a k c s' := by
  intro n
  induction n with
  | zero => intro l s hl hs; have hl' : l = c := hl; subst hl'; exact ⟨s, rfl, hs⟩
  | succ n ih =>
    intro l s hl hs
    obtain ⟨w1, s', w2, w3⟩ := hs.step dbg hv hk (by omega : l < c)
    obtain ⟨s'', z1, z2⟩ := ih (l + 1) s' (by omega) w3
    refine ⟨s'', ?_, z2⟩
    rw [List.range'_succ, List.map_cons, VAssign.zipLoop]
    have hstep : VAssign.applyAt ((MT.view dbg r c addr).line k) F s l (e.at_ k l) = .ok s' := by
      simp only [VAssign.applyAt, MT.line, MT.view, he.2.2 k l s hk (by omega) hs.1 hs.2.2, bind_ok, check_true hk, check_true (by omega : l < c), w1, w2]
    rw [hstep, bind_ok]
    exact z1

theorem lazyLines_ok (dbg : Bool) (F : AssignF) (e : MLazy (List R) R) (hv : ValidView data r c addr) (he : e.Reads data r c addr a) :
    ∀ (n k : Nat) (s : List R), k + n = r → Upto F data r c addr a k 0 s →
      ∃ s', lazyLines (MT.view dbg r c addr) F e c (List.range' k n) (List.range' k n) s = .ok s' ∧ Upto F data r c addr a r 0 s' := by
  intro n
  induction n with
  | zero => intro k s hk hs; have hk' : k = r := hk; subst hk'; exact ⟨s, rfl, hs⟩
  | succ n ih =>
    intro k s hk hs
    obtain ⟨s', z1, z2⟩ := lazyRow_ok dbg F e hv he (by omega : k < r) c 0 s (by omega) hs
    obtain ⟨s'', y1, y2⟩ := ih (k + 1) s' (by omega) z2.nextLine
    refine ⟨s'', ?_, y2⟩
    rw [List.range'_succ, lazyLines]
    have hits : ((MT.view dbg r c addr : MT (List R) R).its s k).take c = List.range' 0 c := by
      show (List.range c).take c = _
      rw [List.take_of_length_le (by simp), List.range_eq_range']
    rw [hits, List.range_eq_range', z1, bind_ok]
    exact y1

theorem lazyIterating_ok (dbg : Bool) (F : AssignF) (e : MLazy (List R) R) (hv : ValidView data r c addr) (he : e.Reads data r c addr a) :
    ∃ data', lazyIterating dbg (MT.view dbg r c addr) F e data = .ok data' ∧ Upto F data r c addr a r 0 data' := by
  have h1 : same dbg ((MT.view dbg r c addr : MT (List R) R).sizeM data) e.sizeM = .ok r := by simp only [MT.view, same, he.1, check_True, bind_ok, Nat.min_self, pure_eq_ok]
  have h2 : same dbg ((MT.view dbg r c addr : MT (List R) R).sizem data) e.sizem = .ok c := by simp only [MT.view, same, he.2.1, check_True, bind_ok, Nat.min_self, pure_eq_ok]
  unfold lazyIterating
  rw [h1, bind_ok, h2, bind_ok, check_true (by by_cases h0 : c = 0 <;> simp [h0, MT.view]), bind_ok]
  by_cases h0 : c = 0
  · rw [if_pos h0]
    refine ⟨data, rfl, rfl, fun _ l _ hl => by omega, fun _ _ => rfl⟩
  · rw [if_neg h0]
    obtain ⟨s', z1, z2⟩ := lazyLines_ok dbg F e hv he r 0 data (by omega) Upto.start
    refine ⟨s', ?_, z2⟩
    have hl : ((MT.view dbg r c addr : MT (List R) R).lines data).take r = List.range' 0 r := by
      show (if c = 0 then [] else List.range r).take r = _
      rw [if_neg h0, List.take_of_length_le (by simp), List.range_eq_range']
    rw [hl, List.range_eq_range', z1]

/-- **C110** without a temporary (partial): `noalias (m) = e`, `+=`, `-=`, `m.assign (e)`, … on a dense matrix or view.  If element (k, l) of `e` reads no cell that an element assigned
before it has overwritten, the result is the one computed from the old contents.  Missing: expressions that do (`C110_noalias_refuted`). -/
theorem C110_noalias_partial (dbg : Bool) (mode : ProdFn.Mode) (F : AssignF) (r c : Nat) (addr : Nat → Nat → Nat) (e : MLazy (List R) R) (data : List R) (a : Nat → Nat → R)
    (hv : ValidView data r c addr) (he : e.Reads data r c addr a) :
    ∃ data', matNoalias dbg mode F r c addr e data = .ok data' ∧ MViewHolds data data' r c addr (fun k l => F.apply (data.getD (addr k l) 0) (a k l)) := by
  have hx := lazyIndexing_ok dbg F e hv he
  have hy := lazyIterating_ok dbg F e hv he
  suffices h : ∃ data', matNoalias dbg mode F r c addr e data = .ok data' ∧ Upto F data r c addr a r 0 data' by
    obtain ⟨d, d1, d2⟩ := h; exact ⟨d, d1, d2.finish⟩
  unfold matNoalias lazyDense
  cases mode with
  | indexing => exact hx
  | iterating => exact hy
  | threshold n =>
    dsimp only
    rw [show same dbg ((MT.view dbg r c addr : MT (List R) R).sizeM data) e.sizeM = .ok r by simp only [MT.view, same, he.1, check_True, bind_ok, Nat.min_self, pure_eq_ok], bind_ok,
      show same dbg ((MT.view dbg r c addr : MT (List R) R).sizem data) e.sizem = .ok c by simp only [MT.view, same, he.2.1, check_True, bind_ok, Nat.min_self, pure_eq_ok], bind_ok]
    split
    · exact hy
    · exact hx

theorem lazyView_reads (dbg : Bool) (src : Nat → Nat → Nat) (hb : ∀ k l, k < r → l < c → src k l < data.length)
    (hsafe : ∀ k l k' l', k < r → l < c → k' < r → l' < c → Before k' l' k l → addr k' l' ≠ src k l) :
    (lazyView dbg r c src).Reads data r c addr (fun k l => data.getD (src k l) 0) := by
  refine ⟨rfl, rfl, fun k l s hk hl hs hp => ?_⟩
  simp only [lazyView, check_true hk, check_true hl, bind_ok]
  refine rd_eq_ok.2 ?_
  rw [hp _ fun k' l' a' b' h => hsafe k l k' l' hk hl a' b' h]
  simp [List.getD, hb k l hk hl]

/-- **C110**, copy assignment of matrix views (partial): `view1 = view2`, both views of the same type on one matrix.  No element of the source may be overwritten before it is copied.
Missing: the other overlaps, for which the result is wrong (`C110_range_copy_refuted`, `C110_slice_copy_refuted`). -/
theorem C110_view_copy_partial (dbg : Bool) (mode : ProdFn.Mode) (r c : Nat) (addr src : Nat → Nat → Nat) (data : List R) (hv : ValidView data r c addr)
    (hb : ∀ k l, k < r → l < c → src k l < data.length)
    (hsafe : ∀ k l k' l', k < r → l < c → k' < r → l' < c → Before k' l' k l → addr k' l' ≠ src k l) :
    ∃ data', viewCopy dbg mode r c addr r c src data = .ok data' ∧ MViewHolds data data' r c addr (fun k l => data.getD (src k l) 0) :=
  C110_noalias_partial dbg mode .assign r c addr (lazyView dbg r c src) data _ hv (lazyView_reads dbg src hb hsafe)

theorem rangeAddr_lt {M N a b r c k l : Nat} (ha : a + r ≤ M) (hb : b + c ≤ N) (hk : k < r) (hl : l < c) : rangeAddr N a b k l < M * N :=
  pair_lt (by omega) (by omega)

theorem rangeAddr_inj {N a b a' b' k l k' l' : Nat} (hl : b + l < N) (hl' : b' + l' < N) (h : rangeAddr N a b k l = rangeAddr N a' b' k' l') :
    a + k = a' + k' ∧ b + l = b' + l' := pair_inj hl hl' h

/-- **C110** for ranges (partial): `project (m, …) = project (m, …)` copies correctly when the source does not begin before the target (in the order of assignment: a later line, or the
same line and not to the left), or the two blocks are disjoint. -/
theorem C110_range_copy_partial (dbg : Bool) (mode : ProdFn.Mode) (M N a b a' b' r c : Nat) (data : List R) (hd : data.length = M * N)
    (h1 : a + r ≤ M) (h2 : b + c ≤ N) (h3 : a' + r ≤ M) (h4 : b' + c ≤ N)
    (h : (a < a' ∨ (a = a' ∧ b ≤ b')) ∨ (a' + r ≤ a ∨ b' + c ≤ b ∨ b + c ≤ b')) :
    ∃ data', viewCopy dbg mode r c (rangeAddr N a b) r c (rangeAddr N a' b') data = .ok data' ∧
      MViewHolds data data' r c (rangeAddr N a b) (fun k l => data.getD (rangeAddr N a' b' k l) 0) := by
  refine C110_view_copy_partial dbg mode r c _ _ data ⟨fun k l i j hk hl hi hj e => ?_, fun k l hk hl => by rw [hd]; exact rangeAddr_lt h1 h2 hk hl⟩
    (fun k l hk hl => by rw [hd]; exact rangeAddr_lt h3 h4 hk hl) fun k l k' l' hk hl hk' hl' hb e => ?_
  · obtain ⟨p, q⟩ := rangeAddr_inj (by omega) (by omega) e; omega
  · obtain ⟨p, q⟩ := rangeAddr_inj (by omega) (by omega) e
    unfold Before at hb; omega

end lazy

/-- A right-hand side that does not read the target at all (or reads it only where it is about to write) meets the hypothesis of `C110_noalias_partial`: `noalias (m) = 2 * m`. -/
example (dbg : Bool) (r c : Nat) (data : List Int) (hd : data.length = r * c) :
    ∃ data', matNoalias dbg .iterating .assign r c (denseAddr c) ⟨r, c, fun k l s => do let x ← rd dbg s (k * c + l); .ok (2 * x)⟩ data = .ok data' ∧
      MViewHolds data data' r c (denseAddr c) (fun k l => 2 * data.getD (k * c + l) 0) := by
  refine C110_noalias_partial dbg .iterating .assign r c (denseAddr c) _ data _ (denseAddr_valid data r c hd) ⟨rfl, rfl, fun k l s hk hl hs hp => ?_⟩
  have hlt := pair_lt hk hl
  have : rd dbg s (k * c + l) = .ok (data.getD (k * c + l) 0) := by
    refine rd_eq_ok.2 ?_
    rw [hp _ fun k' l' a' b' h e => ?_]
    · rw [List.getD_eq_getElem?_getD, List.getElem?_eq_getElem (by omega)]; rfl
    · obtain ⟨p, q⟩ := pair_inj b' hl e
      unfold Before at h; omega
  simp only [this, bind_ok]

/-- **C110** refuted for the copy assignment of `matrix_range`: on the 3 x 3 matrix 1 … 9, `project (m, range (1, 3), range (1, 3)) = project (m, range (0, 2), range (0, 2))` should store
1 2 / 4 5 and stores 1 2 / 4 1: element (2, 2) gets the new value of element (1, 1). -/
theorem C110_range_copy_refuted : ¬ ∀ (M N a b a' b' r c : Nat) (data : List Int), data.length = M * N → a + r ≤ M → b + c ≤ N → a' + r ≤ M → b' + c ≤ N →
    ∃ data', viewCopy true .indexing r c (rangeAddr N a b) r c (rangeAddr N a' b') data = .ok data' ∧
      MViewHolds data data' r c (rangeAddr N a b) (fun k l => data.getD (rangeAddr N a' b' k l) 0) := by
  intro h
  obtain ⟨d, e, _, h2, _⟩ := h 3 3 1 1 0 0 2 2 [1, 2, 3, 4, 5, 6, 7, 8, 9] rfl (by decide) (by decide) (by decide) (by decide)
  have : viewCopy true .indexing 2 2 (rangeAddr 3 1 1) 2 2 (rangeAddr 3 0 0) [(1 : Int), 2, 3, 4, 5, 6, 7, 8, 9] = .ok [1, 2, 3, 4, 1, 2, 7, 4, 1] := by rfl
  rw [this] at e; cases e
  exact absurd (h2 1 1 (by decide) (by decide)) (by decide)

/-- **C110** refuted for the copy assignment of `matrix_slice`: turning a matrix upside down, `project (m, slice (0, 1, 2), slice (0, 1, 1)) = project (m, slice (1, -1, 2), slice (0, 1, 1))`,
stores 2 2 instead of 2 1.  With a temporary (`C110_view_assign`) it is right. -/
theorem C110_slice_copy_refuted : ∃ (data : List Int) (addr src : Nat → Nat → Nat), ValidView data 2 1 addr ∧ ValidView data 2 1 src ∧
    viewCopy true .indexing 2 1 addr 2 1 src data = .ok [2, 2] ∧ ¬ MViewHolds data [2, 2] 2 1 addr (fun k l => data.getD (src k l) 0) ∧
    (∀ data', viewCopy true .iterating 2 1 addr 2 1 src data = .ok data' → data' = [2, 2]) ∧
    ∃ q, arrExp true 2 1 src data = .ok q ∧ matViewAssign true .indexing (fun _ => 0) 2 1 addr (fun _ => q) data = .ok [2, 1] := by
  refine ⟨[1, 2], fun k l => k + l, fun k l => 1 - k + l, ?_, ?_, by rfl, fun h => ?_, fun d h => ?_, _, rfl, by rfl⟩
  · exact ⟨fun k l i j _ _ _ _ h => by simp only at h; omega, fun k l _ _ => by simp only [List.length_cons, List.length_nil]; omega⟩
  · exact ⟨fun k l i j _ _ _ _ h => by simp only at h; omega, fun k l _ _ => by simp only [List.length_cons, List.length_nil]; omega⟩
  · exact absurd (h.2.1 1 0 (by decide) (by decide)) (by decide)
  · have : viewCopy true .iterating 2 1 (fun k l => k + l) 2 1 (fun k l => 1 - k + l) [(1 : Int), 2] = .ok [2, 2] := by rfl
    rw [this] at h; cases h; rfl

/-- `noalias` is a promise by the user: `noalias (m) = trans (m)` on 1 2 / 3 4 stores 1 3 / 3 4, and `m = trans (m)` stores 1 3 / 2 4. -/
theorem C110_noalias_refuted : matNoalias true .indexing .assign 2 2 (denseAddr 2) (lazyView true 2 2 (fun k l => l * 2 + k)) [(1 : Int), 2, 3, 4] = .ok [1, 3, 3, 4] ∧
    ∃ q, arrExp true 2 2 (fun k l => l * 2 + k) [(1 : Int), 2, 3, 4] = .ok q ∧ matAssign true .indexing (fun _ => 0) (fun _ => q) [1, 2, 3, 4] = .ok [1, 3, 2, 4] :=
  ⟨by rfl, _, rfl, by rfl⟩

end Ublas
