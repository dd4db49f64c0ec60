import Verif.Model.ProxyIter
import Verif.Spec.ProxyIter
import Verif.Lemmas.Select
import Verif.Props.CompressedVector
import Mathlib.Tactic.Convert
import Mathlib.Tactic.Set
import Mathlib.Tactic.IntervalCases
import Mathlib.Data.List.GetD
/-! # C82: iterators of vector views -/
namespace Ublas
variable {R : Type}

/-- How many entries of `L` lie before index `i`. -/
def before (L : List (Nat × R)) (i : Nat) : Nat := L.countP fun x => decide (x.1 < i)

/-- Strictly increasing indices. -/
def Inc (L : List (Nat × R)) : Prop := L.Pairwise fun a b => a.1 < b.1

theorem before_cons (x : Nat × R) (L : List (Nat × R)) (i : Nat) : before (x :: L) i = before L i + if x.1 < i then 1 else 0 := by
  simp [before, List.countP_cons]

theorem before_le (L : List (Nat × R)) (i : Nat) : before L i ≤ L.length := List.countP_le_length

theorem before_zero (L : List (Nat × R)) : before L 0 = 0 := by simp [before]

theorem before_all {L : List (Nat × R)} {n : Nat} (h : ∀ x ∈ L, x.1 < n) : before L n = L.length := by
  rw [before, List.countP_eq_length]; simpa using h

theorem before_none {L : List (Nat × R)} {n : Nat} (h : ∀ x ∈ L, n ≤ x.1) : before L n = 0 := by
  rw [before, List.countP_eq_zero]; intro x hx; have := h x hx; simp; omega

theorem before_mono (L : List (Nat × R)) {s t : Nat} (h : s ≤ t) : before L s ≤ before L t := by
  induction L with
  | nil => simp [before]
  | cons x L ih => rw [before_cons, before_cons]; split <;> split <;> omega

theorem window_cons (s n : Nat) (x : Nat × R) (L : List (Nat × R)) :
    window s n (x :: L) = if s ≤ x.1 ∧ x.1 < s + n then (x.1 - s, x.2) :: window s n L else window s n L := by
  unfold window; rw [List.filter_cons]; split <;> simp_all

theorem before_window (L : List (Nat × R)) (s n i : Nat) (hi : i ≤ n) : before L s + before (window s n L) i = before L (s + i) := by
  induction L with
  | nil => simp [before, window]
  | cons x L ih =>
    rw [window_cons, before_cons, before_cons]
    by_cases h : s ≤ x.1 ∧ x.1 < s + n
    · rw [if_pos h, before_cons]; simp only; split <;> split <;> split <;> omega
    · rw [if_neg h]; split <;> split <;> omega

theorem window_eq {L : List (Nat × R)} (h : Inc L) (s n : Nat) :
    window s n L = ((L.take (before L (s + n))).drop (before L s)).map fun x => (x.1 - s, x.2) := by
  induction L with
  | nil => simp [window, before]
  | cons x L ih =>
    have h' := List.pairwise_cons.1 h
    rw [window_cons, before_cons, before_cons]
    by_cases h1 : x.1 < s
    · rw [if_neg (by omega), if_pos h1, if_pos (by omega), ih h'.2]; simp
    · have e1 : before L s = 0 := before_none fun y hy => by have := h'.1 y hy; omega
      rw [if_neg h1]
      by_cases h2 : x.1 < s + n
      · rw [if_pos (by omega), if_pos h2, ih h'.2, e1]; simp
      · have e2 : before L (s + n) = 0 := before_none fun y hy => by have := h'.1 y hy; omega
        rw [if_neg (by omega), if_neg h2, ih h'.2, e1, e2]; simp

theorem window_inc {L : List (Nat × R)} (h : Inc L) (s n : Nat) : Inc (window s n L) := by
  unfold window Inc
  rw [List.pairwise_map]
  refine List.Pairwise.imp_of_mem ?_ (h.filter _)
  intro a b ha hb hab
  simp only [List.mem_filter, decide_eq_true_eq] at ha hb
  simp only; omega

theorem window_below (L : List (Nat × R)) (s n : Nat) : ∀ x ∈ window s n L, x.1 < n := by
  intro x hx
  unfold window at hx
  simp only [List.mem_map, List.mem_filter, decide_eq_true_eq] at hx
  obtain ⟨y, ⟨_, hy⟩, rfl⟩ := hx
  simp only; omega

theorem window_length {L : List (Nat × R)} (h : Inc L) (s n : Nat) : before L s + (window s n L).length = before L (s + n) := by
  rw [← before_window L s n n (Nat.le_refl _), before_all (window_below L s n)]

theorem window_get {L : List (Nat × R)} (h : Inc L) (s n k : Nat) (hk : k < (window s n L).length) :
    ∃ hk' : before L s + k < L.length, (window s n L)[k] = (L[before L s + k].1 - s, L[before L s + k].2) ∧
      s ≤ L[before L s + k].1 ∧ L[before L s + k].1 < s + n := by
  have hl := window_length h s n
  have hk' : before L s + k < L.length := by have := before_le L (s + n); omega
  refine ⟨hk', ?_, ?_⟩
  · simp only [window_eq h, List.getElem_map, List.getElem_drop, List.getElem_take]
  · have hm : L[before L s + k] ∈ (L.take (before L (s + n))).drop (before L s) := by
      refine List.mem_iff_getElem.2 ⟨k, by simp; omega, by simp⟩
    have : ((L.take (before L (s + n))).drop (before L s)) = L.filter fun x => decide (s ≤ x.1 ∧ x.1 < s + n) := by
      clear hm hk' hl hk
      induction L with
      | nil => simp
      | cons x L ih =>
        have h' := List.pairwise_cons.1 h
        rw [List.filter_cons, before_cons, before_cons]
        by_cases h1 : x.1 < s
        · rw [if_pos h1, if_pos (by omega), if_neg (by simp; omega), ← ih h'.2]; simp
        · have e1 : before L s = 0 := before_none fun y hy => by have := h'.1 y hy; omega
          rw [if_neg h1]
          have ih := ih h'.2
          by_cases h2 : x.1 < s + n
          · rw [if_pos h2, if_pos (by simp; omega), ← ih, e1]; simp
          · have e2 : before L (s + n) = 0 := before_none fun y hy => by have := h'.1 y hy; omega
            rw [if_neg h2, if_neg (by simp; omega), ← ih, e1, e2]; simp
    rw [this] at hm
    simpa using (List.mem_filter.1 hm).2

theorem inc_length {L : List (Nat × R)} {n : Nat} (h : Inc L) (hb : ∀ x ∈ L, x.1 < n) : L.length ≤ n := by
  have hn : (L.map (·.1)).Nodup := by
    have : (L.map (·.1)).Pairwise (· < ·) := List.pairwise_map.2 h
    exact this.imp fun h => Nat.ne_of_lt h
  have := Assoc.nodup_length_le (L := L.map (·.1)) (K := List.range n) hn (by
    intro j hj
    obtain ⟨p, hp, rfl⟩ := List.mem_map.1 hj
    simpa using hb p hp)
  simpa using this

/-- Every element in order. -/
def everyone (n : Nat) (v : Nat → R) : List (Nat × R) := (List.range n).map fun k => (k, v k)

theorem everyone_inc (n : Nat) (v : Nat → R) : Inc (everyone n v) := by
  unfold Inc everyone; rw [List.pairwise_map]; exact List.pairwise_lt_range

theorem everyone_below (n : Nat) (v : Nat → R) : ∀ x ∈ everyone n v, x.1 < n := by
  intro x hx; simp only [everyone, List.mem_map, List.mem_range] at hx; obtain ⟨k, hk, rfl⟩ := hx; exact hk

theorem everyone_before (n : Nat) (v : Nat → R) {i : Nat} (hi : i ≤ n) : before (everyone n v) i = i := by
  unfold before everyone
  rw [List.countP_map]
  have : ((fun x : Nat × R => decide (x.1 < i)) ∘ fun k => (k, v k)) = fun k => decide (k < i) := rfl
  rw [this]
  clear this
  induction n with
  | zero => simp; omega
  | succ n ih =>
    rw [List.range_succ, List.countP_append]
    by_cases h : i ≤ n
    · rw [ih h]; simp; omega
    · have : i = n + 1 := by omega
      subst this
      rw [List.countP_eq_length.2 (by simp; omega)]; simp

theorem window_everyone (s n N : Nat) (v : Nat → R) (h : s + n ≤ N) : window s n (everyone N v) = everyone n fun k => v (s + k) := by
  refine List.ext_getElem ?_ ?_
  · have := window_length (everyone_inc N v) s n
    rw [everyone_before N v (by omega), everyone_before N v h] at this
    simp [everyone] at this ⊢; omega
  · intro k h1 h2
    obtain ⟨hk, e, _⟩ := window_get (everyone_inc N v) s n k h1
    rw [e]
    simp only [everyone_before N v (show s ≤ N by omega)]
    simp [everyone]

namespace VIter

/-- `At k p`: iterator `p` stands at the `k`-th shown entry (at the end if `k` is their number).  The iterators of `V` enumerate `L`: `find`
gives the first entry not before the index, `++` advances, `==` compares places, `index` and `*` read the entry. -/
structure Stands (V : VIter R) (L : List (Nat × R)) (At : Nat → V.Pos → Prop) : Prop where
  inc : Inc L
  below : ∀ x ∈ L, x.1 < V.size
  find : ∀ i, i ≤ V.size → ∃ p, V.find i = .ok p ∧ At (before L i) p
  next : ∀ k p, At k p → k < L.length → ∃ q, V.next p = .ok q ∧ At (k + 1) q
  eq : ∀ a b p q, a ≤ L.length → b ≤ L.length → At a p → At b q → V.eq p q = .ok (decide (a = b))
  see : ∀ k p (h : k < L.length), At k p → V.index p = .ok L[k].1 ∧ V.deref p = .ok L[k].2

/-- `--` steps back. -/
def Backs (V : VIter R) (L : List (Nat × R)) (At : Nat → V.Pos → Prop) : Prop :=
  ∀ k p, At (k + 1) p → k < L.length → ∃ q, V.prev p = .ok q ∧ At k q

/-- Element access. -/
def Reads (V : VIter R) (v : Nat → R) : Prop := ∀ i, i < V.size → V.at_ i = .ok (v i)

theorem Stands.walk {V : VIter R} {L : List (Nat × R)} {At} (h : V.Stands L At) {n : Nat} {e : V.Pos} (hn : n ≤ L.length) (he : At n e) :
    ∀ fuel k p, At k p → k ≤ n → n - k < fuel → V.walk e fuel p = .ok ((L.take n).drop k) := by
  intro fuel
  induction fuel with
  | zero => intro k p _ _ hf; omega
  | succ f ih =>
    intro k p hp hk hf
    rw [VIter.walk, h.eq _ _ _ _ (by omega) hn hp he, bind_ok]
    by_cases hkn : k = n
    · subst hkn
      rw [if_pos (by simp), List.drop_eq_nil_of_le (by simp)]
    · rw [if_neg (by simpa using hkn)]
      obtain ⟨s1, s2⟩ := h.see k p (by omega) hp
      obtain ⟨q, q1, q2⟩ := h.next k p hp (by omega)
      rw [s1, s2, q1]
      simp only [bind_ok]
      rw [ih (k + 1) q q2 (by omega) (by omega), bind_ok, List.drop_eq_getElem_cons (l := L.take n) (i := k) (by simp; omega)]
      simp

theorem Stands.walkBack {V : VIter R} {L : List (Nat × R)} {At} (h : V.Stands L At) (hb : V.Backs L At) {e : V.Pos} (he : At 0 e) :
    ∀ fuel k p, At k p → k ≤ L.length → k < fuel → V.walkBack e fuel p = .ok (L.take k).reverse := by
  intro fuel
  induction fuel with
  | zero => intro k p _ _ hf; omega
  | succ f ih =>
    intro k p hp hk hf
    rw [VIter.walkBack, h.eq _ _ _ _ hk (by omega) hp he, bind_ok]
    cases k with
    | zero => rw [if_pos (by simp)]; simp
    | succ k =>
      rw [if_neg (by simp)]
      obtain ⟨q, q1, q2⟩ := hb k p hp (by omega)
      obtain ⟨s1, s2⟩ := h.see k q (by omega) q2
      rw [q1, bind_ok, s1, s2]
      simp only [bind_ok]
      rw [ih k q q2 (by omega) (by omega), bind_ok]
      have : L.take (k + 1) = L.take k ++ [L[k]] := by rw [List.take_append_getElem]
      rw [this, List.reverse_append]; rfl

theorem Stands.els {V : VIter R} {L : List (Nat × R)} {At} (h : V.Stands L At) : V.els = .ok L := by
  obtain ⟨b, b1, b2⟩ := h.find 0 (Nat.zero_le _)
  obtain ⟨e, e1, e2⟩ := h.find V.size (Nat.le_refl _)
  rw [before_zero] at b2
  rw [before_all h.below] at e2
  have hl := inc_length h.inc h.below
  rw [VIter.els, b1, e1]
  simp only [bind_ok]
  rw [h.walk (Nat.le_refl _) e2 _ 0 b b2 (by omega) (by omega)]
  simp

theorem Stands.elsBack {V : VIter R} {L : List (Nat × R)} {At} (h : V.Stands L At) (hb : V.Backs L At) : V.elsBack = .ok L.reverse := by
  obtain ⟨b, b1, b2⟩ := h.find 0 (Nat.zero_le _)
  obtain ⟨e, e1, e2⟩ := h.find V.size (Nat.le_refl _)
  rw [before_zero] at b2
  rw [before_all h.below] at e2
  have hl := inc_length h.inc h.below
  rw [VIter.elsBack, b1, e1]
  simp only [bind_ok]
  rw [h.walkBack hb b2 _ _ e e2 (by omega) (by omega)]
  simp

theorem Stands.range {V : VIter R} {L : List (Nat × R)} {At} (h : V.Stands L At) (dbg : Bool) (r : Range) (hr : r.start + r.size ≤ V.size)
    (hs : V.size < 2 ^ 64) :
    (V.range dbg r).Stands (window r.start r.size L) (fun k p => At (before L r.start + k) p) := by
  have hl := window_length h.inc r.start r.size
  have hle := before_le L (r.start + r.size)
  refine ⟨window_inc h.inc _ _, window_below _ _ _, ?_, ?_, ?_, ?_⟩
  · intro i hi
    obtain ⟨p, p1, p2⟩ := h.find (r.start + i) (by simp only [VIter.range] at hi; omega)
    refine ⟨p, ?_, ?_⟩
    · simp only [VIter.range] at hi ⊢
      rw [u64_of (by omega) (by omega), ← p1]; congr 1
    · simp only [VIter.range] at hi
      rw [before_window _ _ _ _ hi]; exact p2
  · intro k p hp hk
    have hk2 : before L r.start + k < L.length := by omega
    obtain ⟨q, q1, q2⟩ := h.next _ p hp hk2
    exact ⟨q, q1, q2⟩
  · intro a b p q ha hb hp hq
    simp only [VIter.range]
    rw [h.eq _ _ p q (by omega) (by omega) hp hq]
    simp
  · intro k p hk hp
    obtain ⟨hk', e, l1, l2⟩ := window_get h.inc r.start r.size k hk
    obtain ⟨s1, s2⟩ := h.see _ p hk' hp
    have hb := h.below _ (List.getElem_mem hk')
    rw [e]
    simp only [VIter.range, s1, s2, bind_ok]
    have hu : u64 ((L[before L r.start + k].1 : Int) - r.start) = L[before L r.start + k].1 - r.start := by
      rw [u64_of (by omega) (by omega)]; omega
    rw [hu]
    refine ⟨rfl, ?_⟩
    cases dbg
    · rfl
    · simp only [if_true, check_true (show L[before L r.start + k].1 - r.start < r.size by omega), bind_ok]

theorem Backs.range {V : VIter R} {L : List (Nat × R)} {At} (h : V.Stands L At) (hb : V.Backs L At) (dbg : Bool) (r : Range) :
    (V.range dbg r).Backs (window r.start r.size L) (fun k p => At (before L r.start + k) p) := by
  intro k p hp hk
  have hl := window_length h.inc r.start r.size
  have hle := before_le L (r.start + r.size)
  exact hb _ p hp (by omega)

theorem Reads.range {V : VIter R} {v : Nat → R} (h : V.Reads v) (dbg : Bool) (r : Range) (hr : r.start + r.size ≤ V.size) (hs : V.size < 2 ^ 64) :
    (V.range dbg r).Reads fun i => v (r.start + i) := by
  intro i hi
  simp only [VIter.range] at hi ⊢
  rw [Range.at_, check_true hi, bind_ok, u64_of (by omega) (by omega)]
  simp only [pure_eq_ok, bind_ok]
  exact h (r.start + i) (by omega)

/-- A picker counts `0, 1, …, n - 1` and selects `f 0, f 1, …`. -/
structure Picker.Law (P : Picker) (n : Nat) (f : Nat → Nat) : Prop where
  size : P.size = n
  index : ∀ k, k < n → P.index (P.first + k) = .ok k
  star : ∀ k, k < n → P.star (P.first + k) = .ok (f k)
  back : ∀ k, k < n → P.back (P.first + (k + 1)) = .ok (P.first + k)

theorem Picker.law (dbg : Bool) (s : Sel) {N : Nat} (hN : N < 2 ^ 64) (hv : s.Valid N) (hs : s.size < 2 ^ 64) :
    (Picker.of dbg s).Law s.size fun k => (s.index k).toNat := by
  cases s with
  | range r =>
    have hv' : ∀ i, i < r.size → r.start + i < N := fun i hi => by have := hv i hi; simp only [Sel.index] at this; omega
    refine ⟨rfl, ?_, ?_, ?_⟩ <;> intro k hk <;> simp only [Sel.size] at hk <;> have := hv' k hk <;> simp only [Picker.of, Picker.ofRange]
    · rw [check_true (by omega), check_true (by omega), u64_of (by omega) (by omega)]; simp only [bind_ok]; congr 1; omega
    · rw [check_true (by omega), check_true (by omega)]; simp only [bind_ok, Sel.index]; congr 1
    · rw [check_true (by omega), u64_of (by omega) (by omega)]; simp only [bind_ok]; congr 1; omega
  | slice s =>
    refine ⟨rfl, ?_, ?_, ?_⟩ <;> intro k hk <;> simp only [Sel.size] at hk <;> have := hv k hk <;>
      simp only [Picker.of, Picker.ofSlice, Nat.zero_add, Slice.iterDeref, Sel.index] at this ⊢
    · rw [check_true hk]; rfl
    · rw [check_true hk, u64_of (by omega) (by omega)]; rfl
    · rw [check_true (by omega), u64_of (by omega) (by simp only [Sel.size] at hs; omega)]; simp only [bind_ok]; congr 1; omega
  | indirect ia =>
    refine ⟨rfl, ?_, ?_, ?_⟩ <;> intro k hk <;> simp only [Sel.size] at hk <;>
      simp only [Picker.of, Picker.ofIndirect, Nat.zero_add, Sel.index]
    · rw [Indirect.at_, check_true hk, bind_ok, rd_ok hk, List.getD_eq_getElem _ _ hk]; rfl
    · rw [u64_of (by omega) (by simp only [Sel.size] at hs; omega)]; congr 1; omega

theorem picked_stands {V : VIter R} {v : Nat → R} (h : V.Reads v) (dbg : Bool) {P : Picker} {n : Nat} {f : Nat → Nat} (hP : P.Law n f)
    (hf : ∀ k, k < n → f k < V.size) (sel : Nat → M Nat) :
    (V.picked dbg P sel).Stands (everyone n fun k => v (f k)) (fun k p => (p : Nat) = P.first + k) := by
  have hlen : (everyone n fun k => v (f k)).length = n := by simp [everyone]
  refine ⟨everyone_inc _ _, ?_, ?_, ?_, ?_, ?_⟩
  · intro x hx; simp only [VIter.picked, hP.size]; exact everyone_below _ _ x hx
  · intro i hi
    simp only [VIter.picked, hP.size] at hi ⊢
    exact ⟨_, rfl, by rw [everyone_before _ _ hi]⟩
  · intro k p hp hk
    exact ⟨_, rfl, by subst hp; rfl⟩
  · intro a b p q _ _ hp hq
    subst hp; subst hq
    simp [VIter.picked]
  · intro k p hk hp
    have hk' : k < n := by omega
    subst hp
    simp only [VIter.picked, hP.index k hk', hP.star k hk', bind_ok, everyone, List.getElem_map, List.getElem_range, true_and]
    rw [h _ (hf k hk')]
    cases dbg
    · rfl
    · simp only [if_true, check_true (show k < P.size by rw [hP.size]; exact hk'), bind_ok]

theorem picked_backs {V : VIter R} (dbg : Bool) {P : Picker} {n : Nat} {f : Nat → Nat} (hP : P.Law n f) (sel : Nat → M Nat) (v : Nat → R) :
    (V.picked dbg P sel).Backs (everyone n v) (fun k p => (p : Nat) = P.first + k) := by
  intro k p hp hk
  have hk' : k < n := by simpa [everyone] using hk
  refine ⟨P.first + k, ?_, rfl⟩
  subst hp
  exact hP.back k hk'

theorem picked_reads {V : VIter R} {v : Nat → R} (h : V.Reads v) (dbg : Bool) {P : Picker} {n : Nat} {f : Nat → Nat} (hP : P.Law n f)
    (hf : ∀ k, k < n → f k < V.size) (sel : Nat → M Nat) (hsel : ∀ k, k < n → sel k = .ok (f k)) :
    (V.picked dbg P sel).Reads fun k => v (f k) := by
  intro i hi
  simp only [VIter.picked, hP.size] at hi ⊢
  rw [hsel i hi, bind_ok]
  exact h _ (hf i hi)

/-- The iterators of `vector`. -/
theorem dense_stands (dbg : Bool) [Inhabited R] (data : List R) :
    (VIter.dense dbg data).Stands (everyone data.length fun i => data.getD i default) (fun k p => (p : Nat) = k) := by
  refine ⟨everyone_inc _ _, fun x hx => everyone_below _ _ x hx, ?_, ?_, ?_, ?_⟩
  · intro i hi; exact ⟨i, rfl, (everyone_before _ _ hi).symm⟩
  · intro k p hp _; exact ⟨k + 1, by subst hp; rfl, rfl⟩
  · intro a b p q _ _ hp hq; subst hp; subst hq; rfl
  · intro k p hk hp
    have hk' : k < data.length := by simpa [everyone] using hk
    replace hp : k = p := Eq.symm hp
    subst hp
    show (do check dbg (k < data.length) .badIndex; Except.ok k : M Nat) = _ ∧ (do check dbg (k < data.length) .badIndex; rd false data k : M R) = _
    rw [check_true hk', bind_ok, bind_ok, rd_ok hk']
    simp [everyone, hk']

theorem dense_backs (dbg : Bool) [Inhabited R] (data : List R) (v : Nat → R) :
    (VIter.dense dbg data).Backs (everyone data.length v) (fun k p => (p : Nat) = k) := by
  intro k p hp _
  refine ⟨k, ?_, rfl⟩
  subst hp
  simp [VIter.dense]

theorem dense_reads (dbg : Bool) [Inhabited R] (data : List R) : (VIter.dense dbg data).Reads fun i => data.getD i default := by
  intro i hi
  simp only [VIter.dense] at hi ⊢
  rw [rd_ok hi, List.getD_eq_getElem _ _ hi]

open Search in
theorem before_splits {E : List (Nat × R)} (h : Inc E) {i n : Nat} (hs : Splits (E.map (·.1)) 0 E.length i n) : before E i = n := by
  have hn := hs.2.1
  have : E = E.take n ++ E.drop n := (List.take_append_drop n E).symm
  rw [this, before, List.countP_append]
  have e1 : (E.take n).countP (fun x => decide (x.1 < i)) = n := by
    have : (E.take n).countP (fun x => decide (x.1 < i)) = (E.take n).length := by
      rw [List.countP_eq_length]
      intro x hx
      obtain ⟨m, hm, rfl⟩ := List.mem_iff_getElem.1 hx
      simp only [List.length_take] at hm
      simp only [List.getElem_take, decide_eq_true_eq]
      exact hs.2.2.1 m _ (by omega) (by omega) (by simp [List.getElem?_eq_getElem (show m < E.length by omega)])
    rw [this, List.length_take]; omega
  have e2 : (E.drop n).countP (fun x => decide (x.1 < i)) = 0 := by
    rw [List.countP_eq_zero]
    intro x hx
    obtain ⟨m, hm, rfl⟩ := List.mem_iff_getElem.1 hx
    simp only [List.length_drop] at hm
    have := hs.2.2.2 (n + m) (E[n + m]'(by omega)).1 (by omega) (by omega) (by simp [List.getElem?_eq_getElem (show n + m < E.length by omega)])
    simp only [List.getElem_drop, decide_eq_true_eq]; omega
  rw [e1, e2]
  rfl

/-- The iterators of `compressed_vector`. -/
theorem compressed_stands {IB : Nat} {v : CVec R} {E : List (Nat × R)} {s : SparseSpec.Vec R} (h : CVec.Repr IB v E s) (dbg : Bool) (zero : R) :
    (VIter.compressed dbg IB zero v).Stands E (fun k p => (p : Nat) = k) := by
  have hlen := h.holds.1
  have hb : ∀ x ∈ E, x.1 < v.size := by
    intro x hx
    have := (h.rep.2 x.1 x.2).2 hx
    by_contra hc
    rw [h.range x.1 (by rw [← h.size]; omega)] at this
    cases this
  refine ⟨h.rep.1, hb, ?_, ?_, ?_, ?_⟩
  · intro i _
    obtain ⟨n, n1, _, n3⟩ := h.lb i
    exact ⟨n, n1, (before_splits h.rep.1 n3).symm⟩
  · intro k p hp _; exact ⟨k + 1, by subst hp; rfl, rfl⟩
  · intro a b p q _ _ hp hq; subst hp; subst hq; rfl
  · intro k p hk hp
    replace hp : k = p := Eq.symm hp
    subst hp
    obtain ⟨n, n1, _, n3⟩ := h.lb v.size
    have hn : n = E.length := by rw [← before_splits h.rep.1 n3, before_all hb]
    have hkf : k < v.filled := by omega
    have e1 := h.idxAt hkf
    have e2 := h.valAt hkf
    rw [List.getElem?_eq_getElem hk] at e1 e2
    have hd : v.deref dbg IB k = .ok E[k] := by
      unfold CVec.deref
      rw [CVec.find, n1, bind_ok, check_true (by omega), bind_ok]
      simp only [rd, e1, e2, Option.map_some, bind_ok, pure_eq_ok, Nat.add_sub_cancel]
      rw [check_true (hb _ (List.getElem_mem hk)), bind_ok]
    show (do let x ← v.deref dbg IB k; Except.ok x.1 : M Nat) = _ ∧ (do let x ← v.deref dbg IB k; Except.ok x.2 : M R) = _
    rw [hd]
    exact ⟨rfl, rfl⟩

theorem compressed_backs (IB : Nat) (v : CVec R) (E : List (Nat × R)) (dbg : Bool) (zero : R) :
    (VIter.compressed dbg IB zero v).Backs E (fun k p => (p : Nat) = k) := by
  intro k p hp _
  refine ⟨k, ?_, rfl⟩
  subst hp
  simp [VIter.compressed]

/-- Views of views: the iterators of every well-formed (nested) view enumerate what it shows, forwards and backwards. -/
theorem view_stands {V : VIter R} {L : List (Nat × R)} {At} {v : Nat → R} (h : V.Stands L At) (hr : V.Reads v)
    (hs : V.size < 2 ^ 64) (dbg : Bool) : ∀ p : VRef, p.Fits V.size →
    (∃ At', (V.view dbg p).Stands (p.shown v L) At' ∧ (V.Backs L At → (V.view dbg p).Backs (p.shown v L) At')) ∧
    (V.view dbg p).Reads (fun i => v (p.index i)) ∧ (V.view dbg p).size = p.size V.size ∧ p.size V.size < 2 ^ 64
  | .base, _ => ⟨⟨At, h, id⟩, hr, rfl, hs⟩
  | .sel p (.range r), hf => by
    obtain ⟨hf, hle⟩ := hf
    obtain ⟨⟨At', i1, i2⟩, i3, i4, i5⟩ := view_stands h hr hs dbg p hf
    rw [← i4] at hle i5
    refine ⟨⟨_, i1.range dbg r hle i5, fun hb => Backs.range i1 (i2 hb) dbg r⟩, ?_, rfl, ?_⟩
    · have := i3.range dbg r hle i5
      intro i hi
      refine (this i hi).trans ?_
      simp only [VRef.index, Sel.index]
      congr 3
    · simp only [VRef.size, Sel.size]; omega
  | .sel p (.slice t), hf => by
    obtain ⟨hf, hv, hz⟩ := hf
    obtain ⟨_, i3, i4, i5⟩ := view_stands h hr hs dbg p hf
    have hP := Picker.law dbg (.slice t) i5 hv hz
    have hq : ∀ k, k < (Sel.slice t).size → ((Sel.slice t).index k).toNat < (V.view dbg p).size := by
      intro k hk; rw [i4]; have := hv k hk; omega
    exact ⟨⟨_, picked_stands i3 dbg hP hq _, fun _ => picked_backs dbg hP _ _⟩,
      picked_reads i3 dbg hP hq _ (fun k hk => Sel.at_ok (s := .slice t) i5 hv hk), rfl, hz⟩
  | .sel p (.indirect t), hf => by
    obtain ⟨hf, hv, hz⟩ := hf
    obtain ⟨_, i3, i4, i5⟩ := view_stands h hr hs dbg p hf
    have hP := Picker.law dbg (.indirect t) i5 hv hz
    have hq : ∀ k, k < (Sel.indirect t).size → ((Sel.indirect t).index k).toNat < (V.view dbg p).size := by
      intro k hk; rw [i4]; have := hv k hk; omega
    exact ⟨⟨_, picked_stands i3 dbg hP hq _, fun _ => picked_backs dbg hP _ _⟩,
      picked_reads i3 dbg hP hq _ (fun k hk => Sel.at_ok (s := .indirect t) i5 hv hk), rfl, hz⟩

end VIter

theorem VRef.shown_everyone (v : Nat → R) (n : Nat) : ∀ p : VRef, p.Fits n → p.shown v (everyone n v) = everyone (p.size n) fun i => v (p.index i)
  | .base, _ => rfl
  | .sel p (.range r), hf => by
    obtain ⟨hf, hle⟩ := hf
    rw [VRef.shown, VRef.shown_everyone v n p hf, window_everyone _ _ _ _ hle]
    simp only [VRef.size, Sel.size, VRef.index, Sel.index]
    rfl
  | .sel p (.slice t), _ => rfl
  | .sel p (.indirect t), _ => rfl

/-- **C82 (dense).** Whatever ranges, slices and indirect arrays are stacked on a `vector`, iterating the view forwards visits every one of its
elements in order, each with its index and the value of the vector element it denotes, and iterating backwards visits them in the opposite order. -/
theorem C82_dense_views (dbg : Bool) [Inhabited R] (data : List R) (hn : data.length < 2 ^ 64) (p : VRef) (hp : p.Fits data.length) :
    ((VIter.dense dbg data).view dbg p).els = .ok ((List.range (p.size data.length)).map fun k => (k, data.getD (p.index k) default)) ∧
    ((VIter.dense dbg data).view dbg p).elsBack = .ok ((List.range (p.size data.length)).map fun k => (k, data.getD (p.index k) default)).reverse ∧
    ∀ k, k < p.size data.length → ((VIter.dense dbg data).view dbg p).at_ k = .ok (data.getD (p.index k) default) := by
  obtain ⟨⟨At, h1, h2⟩, h3, h4, h5⟩ := VIter.view_stands (VIter.dense_stands dbg data) (VIter.dense_reads dbg data)
    hn dbg p hp
  have e := VRef.shown_everyone (fun i => data.getD i default) data.length p hp
  have e1 := h1.els
  have e2 := h1.elsBack (h2 (VIter.dense_backs dbg data _))
  rw [e] at e1 e2
  exact ⟨e1, e2, fun k hk => h3 k (by rw [h4]; exact hk)⟩

open SparseSpec in
/-- **C82 (sparse).** Views of a `compressed_vector` reached by any legal history.  `E` is the list of its stored elements: stacked ranges show
exactly those that fall inside, renumbered; slices and indirect arrays show every element, zeros included. -/
theorem C82_sparse_views (dbg : Bool) (IB : Nat) (zero : R) (junk : CVec.Junk R) (n nz : Nat)
    (ops : List (CVOp R × CVec.Junk R)) (hl : cvlegalRun zero ⟨n, fun _ => none⟩ (ops.map (·.1)))
    (hsz : (cvrun zero ⟨n, fun _ => none⟩ (ops.map (·.1))).size < 2 ^ 64)
    (p : VRef) (hp : p.Fits (cvrun zero ⟨n, fun _ => none⟩ (ops.map (·.1))).size) :
    ∃ v0 v E, CVec.ctor dbg IB junk n nz = .ok v0 ∧ CVec.run dbg IB zero v0 ops = .ok v ∧
      Lists E (cvrun zero ⟨n, fun _ => none⟩ (ops.map (·.1))).val ∧
      let elem := fun i => ((cvrun zero ⟨n, fun _ => none⟩ (ops.map (·.1))).val i).getD zero
      ((VIter.compressed dbg IB zero v).view dbg p).els = .ok (p.shown elem E) ∧
      ((VIter.compressed dbg IB zero v).view dbg p).elsBack = .ok (p.shown elem E).reverse ∧
      ∀ k, k < p.size (cvrun zero ⟨n, fun _ => none⟩ (ops.map (·.1))).size →
        ((VIter.compressed dbg IB zero v).view dbg p).at_ k = .ok (elem (p.index k)) := by
  obtain ⟨v0, c1, c2⟩ := CVec.inv_ctor (α := R) dbg IB junk n nz
  obtain ⟨v, r1, E, r2⟩ := CVec.run_inv dbg IB zero ops v0 _ c2 hl
  refine ⟨v0, v, E, c1, r1, ⟨r2.rep.1, fun i x => (r2.rep.2 i x).symm⟩, ?_⟩
  have hsize : (VIter.compressed dbg IB zero v).size = (cvrun zero ⟨n, fun _ => none⟩ (ops.map (·.1))).size := r2.size
  have hr : (VIter.compressed dbg IB zero v).Reads fun i => ((cvrun zero ⟨n, fun _ => none⟩ (ops.map (·.1))).val i).getD zero := by
    intro i hi
    rw [hsize] at hi
    exact r2.get dbg zero i hi
  obtain ⟨⟨At, h1, h2⟩, h3, h4, h5⟩ := VIter.view_stands (VIter.compressed_stands r2 dbg zero) hr
    (by rw [hsize]; exact hsz) dbg p (by rw [hsize]; exact hp)
  rw [hsize] at h4
  exact ⟨h1.els, h1.elsBack (h2 (VIter.compressed_backs IB v E dbg zero)), fun k hk => h3 k (by rw [h4]; exact hk)⟩

/-- Entry `(k, x)` of a window is entry `(s + k, x)` of what it looks at. -/
theorem C82_window_spec (s n : Nat) (L : List (Nat × R)) (k : Nat) (x : R) : (k, x) ∈ window s n L ↔ k < n ∧ (s + k, x) ∈ L := by
  unfold window
  simp only [List.mem_map, List.mem_filter, decide_eq_true_eq, Prod.exists, Prod.mk.injEq]
  constructor
  · rintro ⟨a, b, ⟨h1, h2, h3⟩, rfl, rfl⟩
    exact ⟨by omega, by rwa [Nat.add_sub_cancel' h2]⟩
  · rintro ⟨h1, h2⟩
    exact ⟨s + k, x, ⟨h2, by omega, by omega⟩, by omega, rfl⟩

/-- A reversed slice of a range of a permuted vector, and an empty range at the end. -/
example : VRef.Fits 5 (.sel (.sel (.sel .base (.indirect [4, 2, 0, 1])) (.range ⟨1, 3⟩)) (.slice ⟨2, -1, 3⟩)) ∧
    ((VIter.dense true [10, 11, 12, 13, 14]).view true
      (.sel (.sel (.sel .base (.indirect [4, 2, 0, 1])) (.range ⟨1, 3⟩)) (.slice ⟨2, -1, 3⟩))).els = .ok [(0, 11), (1, 10), (2, 12)] ∧
    VRef.Fits 5 (.sel .base (.range ⟨5, 0⟩)) ∧ ((VIter.dense true [10, 11, 12, 13, 14]).view true (.sel .base (.range ⟨5, 0⟩))).els = .ok [] := by
  refine ⟨?_, by rfl, ?_, by rfl⟩
  · simp only [VRef.Fits, VRef.size, Sel.size, Sel.Valid, Sel.index, true_and]
    refine ⟨⟨⟨?_, by decide⟩, by decide⟩, ?_, by decide⟩
    · intro i hi; simp at hi; interval_cases i <;> decide
    · intro i hi; interval_cases i <;> decide
  · simp [VRef.Fits, VRef.size]

/-- A range of a compressed vector shows the stored elements only; a slice shows zeros too. -/
example : ((VIter.compressed true 0 0 ⟨6, 3, 3, [1, 3, 5], [10, 30, 50]⟩ : VIter Int).view true (.sel .base (.range ⟨2, 4⟩))).els = .ok [(1, 30), (3, 50)] ∧
    ((VIter.compressed true 0 0 ⟨6, 3, 3, [1, 3, 5], [10, 30, 50]⟩ : VIter Int).view true (.sel .base (.slice ⟨1, 1, 3⟩))).els = .ok [(0, 10), (1, 0), (2, 30)] := by
  refine ⟨by rfl, by rfl⟩

end Ublas
