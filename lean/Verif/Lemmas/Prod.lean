import Verif.Spec.Prod
import Mathlib.Algebra.BigOperators.Ring.Finset
import Mathlib.Tactic.Abel
/-! # The product algorithms compute the sum -/
namespace Ublas.ProdFn
open Finset
variable {R : Type} [Semiring R]

/-- The value a list of (index, value) pairs gives to index `k`. -/
def val (l : List (Nat × R)) (k : Nat) : R := (l.map fun p => if p.1 = k then p.2 else 0).sum

@[simp] theorem val_nil (k : Nat) : val ([] : List (Nat × R)) k = 0 := rfl
@[simp] theorem val_cons (p : Nat × R) (l : List (Nat × R)) (k : Nat) : val (p :: l) k = (if p.1 = k then p.2 else 0) + val l k := by
  simp [val]

theorem val_zero {l : List (Nat × R)} {k : Nat} (h : k ∉ l.map (·.1)) : val l k = 0 := by
  induction l with
  | nil => rfl
  | cons p l ih =>
    simp only [List.map_cons, List.mem_cons, not_or] at h
    rw [val_cons, if_neg (fun e => h.1 e.symm), ih h.2, zero_add]

theorem val_mem {l : List (Nat × R)} (hs : (l.map (·.1)).Pairwise (· < ·)) {p : Nat × R} (hp : p ∈ l) : val l p.1 = p.2 := by
  induction l with
  | nil => cases hp
  | cons q l ih =>
    simp only [List.map_cons, List.pairwise_cons] at hs
    rcases List.mem_cons.1 hp with rfl | hp'
    · rw [val_cons, if_pos rfl, val_zero, add_zero]
      intro hm; exact absurd (hs.1 _ hm) (Nat.lt_irrefl _)
    · have := hs.1 p.1 (List.mem_map_of_mem hp')
      rw [val_cons, if_neg (by omega), ih hs.2 hp', zero_add]

theorem dot_congr {n : Nat} {v v' w w' : Nat → R} (hv : ∀ k, k < n → v k = v' k) (hw : ∀ k, k < n → w k = w' k) : dot n v w = dot n v' w' :=
  Finset.sum_congr rfl fun k hk => by rw [hv k (mem_range.1 hk), hw k (mem_range.1 hk)]

theorem dot_nil_left (n : Nat) (w : Nat → R) : dot n (val []) w = 0 := by simp [dot]
theorem dot_nil_right (n : Nat) (v : Nat → R) : dot n v (val []) = 0 := by simp [dot]

theorem dot_cons_left {n : Nat} {p : Nat × R} (hp : p.1 < n) (l : List (Nat × R)) (w : Nat → R) :
    dot n (val (p :: l)) w = p.2 * w p.1 + dot n (val l) w := by
  simp only [dot, val_cons, add_mul, sum_add_distrib]
  congr 1
  rw [Finset.sum_eq_single p.1]
  · simp
  · intro b _ hb; rw [if_neg (fun e => hb e.symm), zero_mul]
  · intro h; exact absurd (mem_range.2 hp) h
theorem dot_cons_right {n : Nat} {p : Nat × R} (hp : p.1 < n) (l : List (Nat × R)) (v : Nat → R) :
    dot n v (val (p :: l)) = v p.1 * p.2 + dot n v (val l) := by
  simp only [dot, val_cons, mul_add, sum_add_distrib]
  congr 1
  rw [Finset.sum_eq_single p.1]
  · simp
  · intro b _ hb; rw [if_neg (fun e => hb e.symm), mul_zero]
  · intro h; exact absurd (mem_range.2 hp) h

/-- Leading elements below everything in the other operand do not matter. -/
theorem dot_drop_left {n : Nat} {l1 : List (Nat × R)} {w : Nat → R} (m : Nat) (hb : ∀ p ∈ l1, p.1 < n)
    (h : ∀ p ∈ l1.take m, w p.1 = 0) : dot n (val l1) w = dot n (val (l1.drop m)) w := by
  induction m generalizing l1 with
  | zero => simp
  | succ m ih =>
    cases l1 with
    | nil => simp
    | cons p l1 =>
      rw [dot_cons_left (hb p (by simp)), h p (by simp), mul_zero, zero_add, List.drop_succ_cons]
      exact ih (fun q hq => hb q (by simp [hq])) (fun q hq => h q (by simp [hq]))
theorem dot_drop_right {n : Nat} {l2 : List (Nat × R)} {v : Nat → R} (m : Nat) (hb : ∀ p ∈ l2, p.1 < n)
    (h : ∀ p ∈ l2.take m, v p.1 = 0) : dot n v (val l2) = dot n v (val (l2.drop m)) := by
  induction m generalizing l2 with
  | zero => simp
  | succ m ih =>
    cases l2 with
    | nil => simp
    | cons p l2 =>
      rw [dot_cons_right (hb p (by simp)), h p (by simp), zero_mul, zero_add, List.drop_succ_cons]
      exact ih (fun q hq => hb q (by simp [hq])) (fun q hq => h q (by simp [hq]))

/-- A list of elements in range, in increasing order; consecutive when the category says so. -/
structure Good (n : Nat) (c : Cat) (l : List (Nat × R)) : Prop where
  lt : ∀ p ∈ l, p.1 < n
  sorted : (l.map (·.1)).Pairwise (· < ·)
  consec : c ≠ .sparse → ∃ off, l.map (·.1) = List.range' off l.length

theorem Good.drop {n : Nat} {c : Cat} {l : List (Nat × R)} (h : Good n c l) (m : Nat) : Good n c (l.drop m) where
  lt p hp := h.lt p (List.mem_of_mem_drop hp)
  sorted := by rw [List.map_drop]; exact h.sorted.sublist (List.drop_sublist _ _)
  consec hc := by
    obtain ⟨off, e⟩ := h.consec hc
    refine ⟨off + m, ?_⟩
    rw [List.map_drop, e, List.drop_range', List.length_drop]
    simp

theorem Good.tail {n : Nat} {c : Cat} {p : Nat × R} {l : List (Nat × R)} (h : Good n c (p :: l)) : Good n c l := h.drop 1

theorem Good.head_lt {n : Nat} {c : Cat} {p : Nat × R} {l : List (Nat × R)} (h : Good n c (p :: l)) {k : Nat} (hk : k ≤ p.1) : val l k = 0 := by
  have hs := h.sorted
  simp only [List.map_cons, List.pairwise_cons] at hs
  apply val_zero
  intro hm; have := hs.1 k hm; omega
theorem Good.below {n : Nat} {c : Cat} {p : Nat × R} {l : List (Nat × R)} (h : Good n c (p :: l)) {k : Nat} (hk : k < p.1) : val (p :: l) k = 0 := by
  rw [val_cons, if_neg (by omega), h.head_lt (by omega), zero_add]

/-- The first `m` elements of a list with consecutive indices starting at `p.1`. -/
theorem Good.take_lt {n : Nat} {c : Cat} {p : Nat × R} {l : List (Nat × R)} (h : Good n c (p :: l)) (hc : c ≠ .sparse) {m : Nat} :
    ∀ q ∈ (p :: l).take m, q.1 < p.1 + m := by
  obtain ⟨off, e⟩ := h.consec hc
  have ho : p.1 = off := by simp only [List.map_cons, List.length_cons, List.range'_succ] at e; exact (List.cons.inj e).1
  intro q hq
  have : q.1 ∈ ((p :: l).map (·.1)).take m := by rw [← List.map_take]; exact List.mem_map_of_mem hq
  rw [e] at this
  obtain ⟨i, hi, he⟩ := List.getElem_of_mem this
  rw [List.length_take] at hi
  rw [List.getElem_take, List.getElem_range'] at he
  omega

/-- increment before a larger index of the other operand. -/
theorem Good.increment {n : Nat} {c : Cat} {p : Nat × R} {l : List (Nat × R)} (h : Good n c (p :: l)) {x : Nat} (hx : p.1 < x) :
    ∃ m, increment c (p :: l) (x - p.1) = (p :: l).drop m ∧ 0 < m ∧ ∀ q ∈ (p :: l).take m, q.1 < x := by
  by_cases hc : c = .sparse
  · subst hc
    exact ⟨1, rfl, by omega, by simp; omega⟩
  · refine ⟨min (x - p.1) (p :: l).length, by cases c <;> first | rfl | exact absurd rfl hc, by simp; omega, fun q hq => ?_⟩
    have := h.take_lt hc q hq
    omega

theorem mergeLoop_ok {n : Nat} {c1 c2 : Cat} : ∀ (fuel : Nat) (l1 l2 : List (Nat × R)) (t : R), Good n c1 l1 → Good n c2 l2 → l1 ≠ [] → l2 ≠ [] →
    l1.length + l2.length ≤ fuel → mergeLoop c1 c2 fuel l1 l2 t = .ok (t + dot n (val l1) (val l2)) := by
  intro fuel
  induction fuel with
  | zero =>
    intro l1 l2 t _ _ hn1 _ hf
    have := List.length_pos_iff.2 hn1; omega
  | succ f ih =>
    intro l1 l2 t h1 h2 hn1 hn2 hf
    cases l1 with
    | nil => exact absurd rfl hn1
    | cons p r1 =>
    cases l2 with
    | nil => exact absurd rfl hn2
    | cons q r2 =>
    have hp := h1.lt p (by simp)
    have hq := h2.lt q (by simp)
    rw [mergeLoop]
    by_cases e : p.1 = q.1
    · have hd : dot n (val (p :: r1)) (val (q :: r2)) = p.2 * q.2 + dot n (val r1) (val r2) := by
        rw [dot_cons_left hp, dot_cons_right hq, h1.head_lt (by omega), zero_mul, zero_add, val_cons, if_pos e.symm, h2.head_lt (by omega), add_zero]
      simp only [if_pos e]
      split
      · rename_i he
        rw [hd]
        rcases he with he | he <;> rw [List.isEmpty_iff] at he <;> subst he <;> simp [dot_nil_left, dot_nil_right]
      · rename_i he
        simp only [not_or, List.isEmpty_iff] at he
        rw [ih r1 r2 _ h1.tail h2.tail he.1 he.2 (by simp only [List.length_cons] at hf; omega), hd, add_assoc]
    · simp only [if_neg e]
      by_cases hlt : p.1 < q.1
      · simp only [if_pos hlt]
        obtain ⟨m, em, hm, hb⟩ := h1.increment hlt
        rw [em]
        have hd : dot n (val (p :: r1)) (val (q :: r2)) = dot n (val ((p :: r1).drop m)) (val (q :: r2)) :=
          dot_drop_left m h1.lt fun x hx => h2.below (hb x hx)
        split
        · rename_i he
          rw [List.isEmpty_iff] at he
          rw [hd, he, dot_nil_left, add_zero]
        · rename_i he
          rw [List.isEmpty_iff] at he
          rw [ih _ _ _ (h1.drop m) h2 he hn2 ?_, hd]
          rw [List.length_drop]; simp only [List.length_cons] at hf ⊢; omega
      · simp only [if_neg hlt]
        obtain ⟨m, em, hm, hb⟩ := h2.increment (x := p.1) (by omega)
        rw [em]
        have hd : dot n (val (p :: r1)) (val (q :: r2)) = dot n (val (p :: r1)) (val ((q :: r2).drop m)) :=
          dot_drop_right m h2.lt fun x hx => h1.below (hb x hx)
        split
        · rename_i he
          rw [List.isEmpty_iff] at he
          rw [hd, he, dot_nil_right, add_zero]
        · rename_i he
          rw [List.isEmpty_iff] at he
          rw [ih _ _ _ h1 (h2.drop m) hn1 he ?_, hd]
          rw [List.length_drop]; simp only [List.length_cons] at hf ⊢; omega

theorem sparse_ok {n : Nat} {c1 c2 : Cat} {l1 l2 : List (Nat × R)} (h1 : Good n c1 l1) (h2 : Good n c2 l2) :
    sparse c1 c2 l1 l2 = .ok (dot n (val l1) (val l2)) := by
  unfold sparse
  split
  · rename_i he
    rcases he with he | he <;> rw [List.isEmpty_iff] at he <;> subst he <;> simp [dot_nil_left, dot_nil_right]
  · rename_i he
    simp only [not_or, List.isEmpty_iff] at he
    rw [mergeLoop_ok _ _ _ _ h1 h2 he.1 he.2 (Nat.le_refl _), zero_add]

/-- Aligned consecutive lists. -/
theorem dotLoop_ok {n : Nat} {c1 c2 : Cat} (hc1 : c1 ≠ .sparse) (hc2 : c2 ≠ .sparse) : ∀ (l1 l2 : List (Nat × R)) (t : R), Good n c1 l1 → Good n c2 l2 →
    (∀ p q r1 r2, l1 = p :: r1 → l2 = q :: r2 → p.1 = q.1) →
    dotLoop (min l1.length l2.length) l1 l2 t = .ok (t + dot n (val l1) (val l2)) := by
  intro l1
  induction l1 with
  | nil => intro l2 t _ _ _; simp [dotLoop, dot_nil_left]
  | cons p r1 ih =>
    intro l2 t h1 h2 ha
    cases l2 with
    | nil => simp [dotLoop, dot_nil_right]
    | cons q r2 =>
      have e : p.1 = q.1 := ha p q r1 r2 rfl rfl
      have hp := h1.lt p (by simp)
      have hq := h2.lt q (by simp)
      have hm : min (p :: r1).length (q :: r2).length = min r1.length r2.length + 1 := by simp only [List.length_cons]; omega
      rw [hm, dotLoop, ih r2 _ h1.tail h2.tail]
      · rw [dot_cons_left hp, dot_cons_right hq, h1.head_lt (by omega), zero_mul, zero_add, val_cons, if_pos e.symm, h2.head_lt (by omega), add_zero, add_assoc]
      · intro p' q' r1' r2' e1 e2
        obtain ⟨o1, k1⟩ := h1.consec hc1
        obtain ⟨o2, k2⟩ := h2.consec hc2
        subst e1 e2
        simp only [List.map_cons, List.length_cons, List.range'_succ, List.cons.injEq] at k1 k2
        omega

theorem packed_ok {n : Nat} {c1 c2 : Cat} (hc1 : c1 ≠ .sparse) (hc2 : c2 ≠ .sparse) {l1 l2 : List (Nat × R)} (h1 : Good n c1 l1) (h2 : Good n c2 l2) :
    packed l1 l2 = .ok (dot n (val l1) (val l2)) := by
  cases l1 with
  | nil => simp [packed, dotLoop, dot_nil_left]
  | cons p r1 =>
  cases l2 with
  | nil => simp [packed, dotLoop, dot_nil_right]
  | cons q r2 =>
  rcases Nat.lt_trichotomy p.1 q.1 with hlt | he | hgt
  · -- it1 is advanced
    have hx : ((q.1 : Int) - p.1) ≠ 0 := by omega
    have hs : (0 : Int) < min ((q.1 : Int) - p.1) ((p :: r1).length : Int) := by simp only [List.length_cons]; omega
    have hs2 : ¬ (0 : Int) < min (-((q.1 : Int) - p.1 - min ((q.1 : Int) - p.1) ((p :: r1).length : Int))) ((q :: r2).length : Int) := by omega
    simp only [packed, if_pos hx, if_pos hs, if_neg hs2]
    generalize hm : (min ((q.1 : Int) - p.1) ((p :: r1).length : Int)).toNat = m
    have hb : ∀ x ∈ (p :: r1).take m, val (q :: r2) x.1 = 0 := by
      intro x hx
      have := h1.take_lt hc1 x hx
      exact h2.below (by omega)
    rw [dotLoop_ok hc1 hc2 _ _ _ (h1.drop m) h2, zero_add, ← dot_drop_left m h1.lt hb]
    intro p' q' r1' r2' e1 e2
    obtain ⟨o1, k1⟩ := h1.consec hc1
    have hlen := congrArg List.length e1
    rw [List.length_drop] at hlen
    have k3 : ((p :: r1).drop m).map (·.1) = List.range' (o1 + m) ((p :: r1).length - m) := by
      rw [List.map_drop, k1, List.drop_range']; simp
    rw [e1] at k3
    have ho : p.1 = o1 := by simp only [List.map_cons, List.length_cons, List.range'_succ] at k1; exact (List.cons.inj k1).1
    rw [hlen, List.length_cons, List.range'_succ] at k3
    have hk := (List.cons.inj k3).1
    simp only at hk
    have hqq : q = q' := (List.cons.inj e2).1
    subst hqq
    simp only [List.length_cons] at hlen hm
    omega
  · -- aligned from the start
    have hx : ¬ ((q.1 : Int) - p.1) ≠ 0 := by omega
    simp only [packed, if_neg hx, lt_irrefl, if_false]
    rw [dotLoop_ok hc1 hc2 _ _ _ h1 h2, zero_add]
    intro p' q' r1' r2' e1 e2
    have a := (List.cons.inj e1).1
    have b := (List.cons.inj e2).1
    subst a b; exact he
  · -- it2 is advanced
    have hx : ((q.1 : Int) - p.1) ≠ 0 := by omega
    have hs : ¬ (0 : Int) < min ((q.1 : Int) - p.1) ((p :: r1).length : Int) := by omega
    have hs2 : (0 : Int) < min (-((q.1 : Int) - p.1)) ((q :: r2).length : Int) := by simp only [List.length_cons]; omega
    simp only [packed, if_pos hx, if_neg hs, if_pos hs2]
    generalize hm : (min (-((q.1 : Int) - p.1)) ((q :: r2).length : Int)).toNat = m
    have hb : ∀ x ∈ (q :: r2).take m, val (p :: r1) x.1 = 0 := by
      intro x hx
      have := h2.take_lt hc2 x hx
      exact h1.below (by omega)
    rw [dotLoop_ok hc1 hc2 _ _ _ h1 (h2.drop m), zero_add, ← dot_drop_right m h2.lt hb]
    intro p' q' r1' r2' e1 e2
    obtain ⟨o1, k1⟩ := h2.consec hc2
    have hlen := congrArg List.length e2
    rw [List.length_drop] at hlen
    have k3 : ((q :: r2).drop m).map (·.1) = List.range' (o1 + m) ((q :: r2).length - m) := by
      rw [List.map_drop, k1, List.drop_range']; simp
    rw [e2] at k3
    have ho : q.1 = o1 := by simp only [List.map_cons, List.length_cons, List.range'_succ] at k1; exact (List.cons.inj k1).1
    rw [hlen, List.length_cons, List.range'_succ] at k3
    have hk := (List.cons.inj k3).1
    simp only at hk
    have hqq : p = p' := (List.cons.inj e1).1
    subst hqq
    simp only [List.length_cons] at hlen hm
    omega

theorem sparsePacked_ok {n : Nat} {b : Nat → M R} {w : Nat → R} (hb : ∀ i, i < n → b i = .ok (w i)) : ∀ (l : List (Nat × R)) (t : R), (∀ p ∈ l, p.1 < n) →
    sparsePacked b l t = .ok (t + dot n (val l) w) := by
  intro l
  induction l with
  | nil => intro t _; simp [sparsePacked, dot_nil_left]
  | cons p l ih =>
    intro t h
    have hp := h p (by simp)
    rw [sparsePacked, hb _ hp, bind_ok, ih _ (fun q hq => h q (by simp [hq])), dot_cons_left hp, add_assoc]

theorem packedSparse_ok {n : Nat} {a : Nat → M R} {v : Nat → R} (ha : ∀ i, i < n → a i = .ok (v i)) : ∀ (l : List (Nat × R)) (t : R), (∀ p ∈ l, p.1 < n) →
    packedSparse a l t = .ok (t + dot n v (val l)) := by
  intro l
  induction l with
  | nil => intro t _; simp [packedSparse, dot_nil_right]
  | cons p l ih =>
    intro t h
    have hp := h p (by simp)
    rw [packedSparse, ha _ hp, bind_ok, ih _ (fun q hq => h q (by simp [hq])), dot_cons_right hp, add_assoc]

end ProdFn

open ProdFn
variable {R : Type} [Semiring R] {a b : Seq R} {n : Nat} {v w : Nat → R}

theorem Seq.Presents.good (h : a.Presents n v) : Good n a.cat a.els := ⟨fun p hp => (h.vals p hp).1, h.sorted, h.packed⟩

theorem Seq.Presents.val (h : a.Presents n v) {k : Nat} (hk : k < n) : ProdFn.val a.els k = v k := by
  by_cases hm : k ∈ a.els.map (·.1)
  · obtain ⟨p, hp, rfl⟩ := List.mem_map.1 hm
    rw [val_mem h.sorted hp, (h.vals p hp).2]
  · rw [val_zero hm, h.skipped k hk hm]

theorem Seq.Presents.dot (ha : a.Presents n v) (hb : b.Presents n w) : Ublas.dot n (ProdFn.val a.els) (ProdFn.val b.els) = Ublas.dot n v w :=
  dot_congr (fun _ hk => ha.val hk) (fun _ hk => hb.val hk)

theorem Seq.Presents.same (ha : a.Presents n v) (hb : b.Presents n w) (dbg : Bool) : Ublas.same dbg a.size b.size = .ok n := by
  rw [ha.size, hb.size]; simp [Ublas.same]

theorem Seq.Presents.byIndex (ha : a.Presents n v) (hb : b.Presents n w) (dbg : Bool) : ProdFn.byIndex dbg a b = .ok (Ublas.dot n v w) := by
  unfold ProdFn.byIndex
  rw [ha.same hb dbg, bind_ok]
  obtain ⟨t, e, hi⟩ := loop_inv (f := fun k t => do
    let x ← a.at_ k
    let y ← b.at_ k
    return t + x * y) (n := n) (s := (0 : R)) (fun k t => t = Ublas.dot k v w) (by simp [Ublas.dot]) (fun k t hk ht => by
      subst ht
      exact ⟨Ublas.dot k v w + v k * w k, by simp [ha.at_ k hk, hb.at_ k hk], by simp [Ublas.dot, Finset.sum_range_succ]⟩)
  rw [e, hi]

theorem Seq.Presents.denseEls (ha : a.Presents n v) (hb : b.Presents n w) (hca : a.cat = .dense) (hcb : b.cat = .dense) :
    ProdFn.dense n a.els b.els = .ok (Ublas.dot n v w) := by
  have la : a.els.length = n := by have := congrArg List.length (ha.dense hca); simpa using this
  have lb : b.els.length = n := by have := congrArg List.length (hb.dense hcb); simpa using this
  have hm : min a.els.length b.els.length = n := by omega
  have := dotLoop_ok (by rw [hca]; decide) (by rw [hcb]; decide) a.els b.els 0 ha.good hb.good ?_
  · rw [hm, zero_add, ha.dot hb] at this; exact this
  · intro p q r1 r2 e1 e2
    have h1 := ha.dense hca
    have h2 := hb.dense hcb
    rw [← h2, e1, e2] at h1
    simp only [List.map_cons, List.cons.injEq] at h1
    exact h1.1

theorem Seq.Presents.denseCase (ha : a.Presents n v) (hb : b.Presents n w) (hca : a.cat = .dense) (hcb : b.cat = .dense) (dbg : Bool) (mode : Mode) :
    ProdFn.denseCase dbg mode a b = .ok (Ublas.dot n v w) := by
  cases mode with
  | indexing => exact ha.byIndex hb dbg
  | iterating => simp only [ProdFn.denseCase, ha.same hb dbg, bind_ok, ha.denseEls hb hca hcb]
  | threshold k =>
    simp only [ProdFn.denseCase, ha.same hb dbg, bind_ok, ha.denseEls hb hca hcb, ha.byIndex hb dbg, ite_self]

theorem Seq.Presents.sparse (ha : a.Presents n v) (hb : b.Presents n w) : ProdFn.sparse a.cat b.cat a.els b.els = .ok (Ublas.dot n v w) := by
  rw [sparse_ok ha.good hb.good, ha.dot hb]

theorem Seq.Presents.packedEls (ha : a.Presents n v) (hb : b.Presents n w) (hca : a.cat ≠ .sparse) (hcb : b.cat ≠ .sparse) :
    ProdFn.packed a.els b.els = .ok (Ublas.dot n v w) := by
  rw [packed_ok hca hcb ha.good hb.good, ha.dot hb]

theorem Seq.Presents.mvSparse (ha : a.Presents n v) (hb : b.Presents n w) (hc : a.cat = .sparse ∨ b.cat = .sparse) : ProdFn.mvSparse a b = .ok (Ublas.dot n v w) := by
  unfold ProdFn.mvSparse
  have h1 : sparsePacked b.at_ a.els 0 = .ok (Ublas.dot n v w) := by
    rw [sparsePacked_ok hb.at_ _ _ (fun p hp => (ha.vals p hp).1), zero_add, dot_congr (fun _ hk => ha.val hk) (fun _ _ => rfl)]
  have h2 : packedSparse a.at_ b.els 0 = .ok (Ublas.dot n v w) := by
    rw [packedSparse_ok ha.at_ _ _ (fun p hp => (hb.vals p hp).1), zero_add, dot_congr (fun _ _ => rfl) (fun _ hk => hb.val hk)]
  split
  · exact ha.sparse hb
  · exact h1
  · exact h2

end Ublas
