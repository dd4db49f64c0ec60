import Verif.Spec.Select
import Mathlib.Tactic.Ring
import Mathlib.Tactic.Linarith
import Mathlib.Tactic.NormNum
namespace Ublas

theorem u64_of {x : Int} (h0 : 0 ≤ x) (h1 : x < 2 ^ 64) : u64 x = x.toNat := by
  unfold u64; rw [Int.emod_eq_of_lt h0 h1]

theorem u64_le_of {x : Int} {n : Nat} (h0 : 0 ≤ x) (h : x ≤ n) : u64 x ≤ n := by
  unfold u64
  have : x % 2 ^ 64 ≤ x := by
    have := Int.mul_ediv_add_emod x (2 ^ 64)
    have : 0 ≤ x / 2 ^ 64 := Int.ediv_nonneg h0 (by norm_num)
    omega
  omega

theorem u64_cast (x : Int) : ((u64 x : Nat) : Int) = x % 2 ^ 64 := by
  unfold u64
  have := Int.emod_nonneg x (show (2 ^ 64 : Int) ≠ 0 by norm_num)
  omega

theorem Slice.at_ok {dbg : Bool} {s : Slice} {i N : Nat} (hN : N < 2 ^ 64) (hi : i < s.size)
    (h : 0 ≤ (s.start : Int) + i * s.stride ∧ (s.start : Int) + i * s.stride < N) :
    s.at_ dbg i = .ok ((s.start : Int) + i * s.stride).toNat := by
  have g : s.stride ≥ 0 ∨ s.start ≥ u64 (i * -s.stride) := by
    by_cases hs : s.stride ≥ 0
    · exact Or.inl hs
    · right
      apply u64_le_of
      · exact Int.mul_nonneg (by omega) (by omega)
      · have : (i : Int) * -s.stride = -((i : Int) * s.stride) := by ring
        omega
  simp only [Slice.at_, check_true hi, check_true g, bind_ok, pure_eq_ok]
  rw [u64_of h.1 (by omega)]

theorem Sel.at_ok {dbg : Bool} {s : Sel} {N i : Nat} (hN : N < 2 ^ 64) (hv : s.Valid N) (hi : i < s.size) :
    s.at_ dbg i = .ok (s.index i).toNat := by
  have h := hv i hi
  cases s with
  | range r =>
    simp only [Sel.size] at hi
    simp only [Sel.index] at h
    simp only [Sel.at_, Range.at_, check_true hi, bind_ok, pure_eq_ok, Sel.index]
    rw [u64_of h.1 (by omega)]
  | slice s => exact Slice.at_ok hN hi h
  | indirect ia =>
    simp only [Sel.size] at hi
    simp only [Sel.at_, Indirect.at_, check_true hi, bind_ok, Sel.index, rd_ok hi]
    simp [List.getD, hi]

theorem gather_ok {dbg : Bool} {ia : Indirect} {pre : Nat → M Unit} {idx : Nat → Nat} {n : Nat}
    (h : ∀ i, i < n → idx i < ia.length ∧ pre (idx i) = .ok ()) :
    ∃ l, Indirect.gather dbg ia pre idx n = .ok l ∧ l.length = n ∧ ∀ i, i < n → l.getD i 0 = ia.getD (idx i) 0 := by
  induction n with
  | zero => exact ⟨[], rfl, rfl, by intro i hi; omega⟩
  | succ n ih =>
    obtain ⟨l, e1, e2, e3⟩ := ih (fun i hi => h i (by omega))
    obtain ⟨g1, g2⟩ := h n (by omega)
    refine ⟨l ++ [ia[idx n]], by simp [Indirect.gather, e1, g2, rd_ok g1], by simp [e2], ?_⟩
    intro i hi
    by_cases hin : i < n
    · have := e3 i hin
      simp only [List.getD] at this ⊢
      rw [List.getElem?_append_left (by omega), this]
    · obtain rfl : i = n := by omega
      simp [List.getD, ← e2, g1]
      simp [e2, g1]

/-- Composition of selectors, all cases in which the code composes. -/
theorem composeSel_ok {dbg : Bool} {s t : Sel} {N : Nat} (hN : N < 2 ^ 64) (hs : s.Valid N)
    (hss : s.size < 2 ^ 64) (ht : t.Valid s.size) (htz : t.size ≠ 0) (hts : t.size < 2 ^ 64) :
    MRef.composeSel dbg s t = .ok none ∨
    ∃ c, MRef.composeSel dbg s t = .ok (some c) ∧ c.size = t.size ∧
      ∀ i, i < t.size → c.index i = s.index (t.index i).toNat := by
  have h0 := ht 0 (by omega)
  have slice_case : ∀ (a : Slice), s = .slice a → ∀ (tst : Nat), (tst : Int) = t.index 0 →
      check dbg (a.stride ≥ 0 ∨ a.start ≥ u64 (-a.stride * tst)) .badIndex = .ok () ∧
      u64 (a.start + a.stride * tst) = (a.start : Int) + a.stride * tst := by
    rintro a rfl tst htst
    have hv := hs tst (by omega)
    simp only [Sel.index] at hv
    have e : (tst : Int) * a.stride = a.stride * tst := by ring
    constructor
    · apply check_true
      by_cases hs' : a.stride ≥ 0
      · exact Or.inl hs'
      · right
        apply u64_le_of
        · exact Int.mul_nonneg (by omega) (by omega)
        · have : -a.stride * (tst : Int) = -((tst : Int) * a.stride) := by ring
          omega
    · rw [u64_of (by omega) (by omega)]; omega
  cases s with
  | range a =>
    cases t with
    | range b =>
      right
      have g : a.start + b.start ≤ a.start + b.start + b.size := by omega
      refine ⟨.range ⟨a.start + b.start, b.size⟩, ?_, rfl, ?_⟩
      · simp only [MRef.composeSel, Range.compose, Range.make, check_true g, bind_ok, pure_eq_ok]
        rw [u64_of (by omega) (by simp only [Sel.size] at hts; omega)]
        congr 4; omega
      · intro i hi; simp only [Sel.index]; omega
    | slice b => left; rfl
    | indirect b => left; rfl
  | slice a =>
    cases t with
    | range b =>
      right
      obtain ⟨c1, c2⟩ := slice_case a rfl b.start (by simp [Sel.index])
      refine ⟨.slice ⟨u64 (a.start + a.stride * b.start), a.stride, b.size⟩, ?_, rfl, ?_⟩
      · simp only [MRef.composeSel, Slice.composeRange, c1, bind_ok, pure_eq_ok]
      · intro i hi
        have := ht i hi
        simp only [Sel.index] at this ⊢
        rw [c2, Int.toNat_of_nonneg this.1]; ring
    | slice b =>
      right
      obtain ⟨c1, c2⟩ := slice_case a rfl b.start (by simp [Sel.index])
      refine ⟨.slice ⟨u64 (a.start + a.stride * b.start), a.stride * b.stride, b.size⟩, ?_, rfl, ?_⟩
      · simp only [MRef.composeSel, Slice.compose, c1, bind_ok, pure_eq_ok]
      · intro i hi
        have := ht i hi
        simp only [Sel.index] at this ⊢
        rw [c2, Int.toNat_of_nonneg this.1]; ring
    | indirect b => left; rfl
  | indirect a =>
    right
    cases t with
    | range b =>
      have hl : b.start + b.size ≤ a.length := by
        have := ht (b.size - 1) (by simp only [Sel.size] at htz ⊢; omega)
        simp only [Sel.index, Sel.size] at this htz; omega
      obtain ⟨l, e1, e2, e3⟩ := gather_ok (dbg := dbg) (ia := a) (pre := fun _ => .ok ())
        (idx := fun i => b.start + i) (n := b.size) (fun i hi => ⟨by omega, rfl⟩)
      refine ⟨.indirect l, by simp only [MRef.composeSel, Indirect.composeRange, check_true hl, bind_ok, e1, pure_eq_ok], e2, ?_⟩
      intro i hi
      simp only [Sel.index]
      rw [e3 i hi]; congr 2
    | slice b =>
      have hz : b.size > 0 := by simp only [Sel.size] at htz; omega
      have hl : u64 (b.start + b.stride * (b.size - (if b.size > 0 then 1 else 0))) ≤ a.length := by
        have := ht (b.size - 1) (by simp only [Sel.size]; omega)
        simp only [Sel.index, Sel.size] at this
        have e : ((b.size - 1 : Nat) : Int) * b.stride = b.stride * ((b.size : Int) - 1) := by
          rw [Nat.cast_sub (by omega)]; push_cast; ring
        rw [if_pos hz]
        apply u64_le_of <;> omega
      obtain ⟨l, e1, e2, e3⟩ := gather_ok (dbg := dbg) (ia := a) (pre := fun _ => .ok ())
        (idx := fun i => u64 (b.start + b.stride * i)) (n := b.size) (fun i hi => ⟨by
          have := ht i hi
          simp only [Sel.index, Sel.size] at this hss
          have e : (i : Int) * b.stride = b.stride * i := by ring
          rw [u64_of (by omega) (by omega)]; omega, rfl⟩)
      refine ⟨.indirect l, by simp only [MRef.composeSel, Indirect.composeSlice, check_true hl, bind_ok, e1, pure_eq_ok], e2, ?_⟩
      intro i hi
      have := ht i hi
      simp only [Sel.index, Sel.size] at this hss ⊢
      rw [e3 i hi]
      have e : (i : Int) * b.stride = b.stride * i := by ring
      rw [u64_of (by omega) (by omega), e]
    | indirect b =>
      have hv : ∀ i, i < b.length → b.getD i 0 < a.length := by
        intro i hi
        have := ht i hi
        simp only [Sel.index, Sel.size] at this; omega
      obtain ⟨l, e1, e2, e3⟩ := gather_ok (dbg := dbg) (ia := a) (pre := fun k => check dbg (k ≤ a.length) .badSize)
        (idx := fun i => b.getD i 0) (n := b.length) (fun i hi => ⟨hv i hi, check_true (Nat.le_of_lt (hv i hi))⟩)
      refine ⟨.indirect l, by simp only [MRef.composeSel, Indirect.compose, e1, bind_ok, pure_eq_ok], e2, ?_⟩
      intro i hi
      simp only [Sel.index, Int.toNat_natCast]
      rw [e3 i hi]

theorem VRef.addr_ok {dbg : Bool} {n : Nat} (hn : n < 2 ^ 64) : ∀ (p : VRef), p.Valid n → p.size n < 2 ^ 64 ∧
    ∀ i, i < p.size n → p.addr dbg i = .ok (p.index i) ∧ p.index i < n
  | .base, _ => ⟨hn, fun i hi => ⟨rfl, hi⟩⟩
  | .sel p s, ⟨hp, hs, hz⟩ => by
    obtain ⟨hb, ih⟩ := VRef.addr_ok (dbg := dbg) hn p hp
    refine ⟨hz, fun i hi => ?_⟩
    have h := hs i hi
    obtain ⟨e1, e2⟩ := ih (s.index i).toNat (by omega)
    refine ⟨?_, e2⟩
    simp only [VRef.addr, Sel.at_ok hb hs hi, bind_ok, e1, VRef.index]

theorem MRef.addr_ok {dbg : Bool} {n1 n2 : Nat} (hn1 : n1 < 2 ^ 64) (hn2 : n2 < 2 ^ 64) :
    ∀ (p : MRef), p.Valid n1 n2 → p.size1 n1 < 2 ^ 64 ∧ p.size2 n2 < 2 ^ 64 ∧
    ∀ i j, i < p.size1 n1 → j < p.size2 n2 →
      p.addr dbg i j = .ok (p.index i j) ∧ (p.index i j).1 < n1 ∧ (p.index i j).2 < n2
  | .base, _ => ⟨hn1, hn2, fun i j hi hj => ⟨rfl, hi, hj⟩⟩
  | .sel p s1 s2, ⟨hp, hs1, hs2, hz1, hz2⟩ => by
    obtain ⟨hb1, hb2, ih⟩ := MRef.addr_ok (dbg := dbg) hn1 hn2 p hp
    refine ⟨hz1, hz2, fun i j hi hj => ?_⟩
    have h1 := hs1 i hi
    have h2 := hs2 j hj
    obtain ⟨e1, e2⟩ := ih (s1.index i).toNat (s2.index j).toNat (by omega) (by omega)
    refine ⟨?_, e2⟩
    simp only [MRef.addr, Sel.at_ok hb1 hs1 hi, Sel.at_ok hb2 hs2 hj, bind_ok, e1, MRef.index]

end Ublas
