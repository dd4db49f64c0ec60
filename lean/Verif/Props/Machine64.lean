import Verif.Model.Machine64
import Verif.Props.Machine
import Verif.Lemmas.Tensor
import Verif.Spec.Tensor
/-! # C109: sizes and addresses in 64-bit arithmetic -/
namespace Ublas
open Machine

/-- A result read as a natural number. -/
def toN (x : M Sz) : M Nat := x >>= fun v => .ok v.toNat

theorem check_iff {dbg : Bool} {p q : Prop} [Decidable p] [Decidable q] {f : Fault} (h : p ↔ q) : check dbg p f = check dbg q f := by
  by_cases hp : p
  · rw [check_true hp, check_true (h.1 hp)]
  · cases dbg
    · simp only [check_release]
    · rw [check_dbg_false hp, check_dbg_false (fun g => hp (h.2 g))]

theorem toN_check {dbg : Bool} {p q : Prop} [Decidable p] [Decidable q] {f : Fault} {x : M Sz} {y : M Nat} (h : p ↔ q) (hx : toN x = y) : toN (check dbg p f >>= fun _ => x) = (check dbg q f >>= fun _ => y) := by
  rw [check_iff h, ← hx]
  unfold toN
  cases check dbg q f <;> rfl

theorem sz_ne_zero (a : Sz) : a ≠ 0 ↔ a.toNat ≠ 0 := by
  constructor
  · intro h g; exact h (BitVec.eq_of_toNat_eq (by simpa using g))
  · intro h g; subst g; exact h rfl

theorem sz_pred {a : Sz} (h : a.toNat ≠ 0) : (a - 1).toNat = a.toNat - 1 := by
  have := a.isLt
  rw [BitVec.toNat_sub, show (1 : Sz).toNat = 1 from rfl]
  omega

theorem tri_sum_le {n j : Nat} (h : j ≤ n) : j * (2 * n - j + 1) ≤ n * (n + 1) := by
  obtain ⟨d, rfl⟩ := Nat.exists_eq_add_of_le h
  have e : 2 * (j + d) - j + 1 = j + 2 * d + 1 := by omega
  rw [e]; nlinarith

theorem half_lt {n : Nat} (h : n < 2 ^ 32) : n * (n + 1) < 2 ^ 64 := by
  calc n * (n + 1) ≤ (2 ^ 32 - 1) * 2 ^ 32 := Nat.mul_le_mul (by omega) (by omega)
    _ < 2 ^ 64 := by norm_num

theorem mx_toNat (a b : Sz) : (mx a b).toNat = max a.toNat b.toNat := tri_size_eq a b

theorem lowerElement_exact (dbg : Bool) (o : Orient) {i si j sj : Sz} (hi : i < si) (hji : j ≤ i) (h : max si.toNat sj.toNat < 2 ^ 32) :
    toN (Machine.lowerElement dbg o i si j sj) = Packed.lowerElement dbg o i.toNat si.toNat j.toNat sj.toNat := by
  have hi' : i.toNat < si.toNat := hi
  have hj' : j.toNat ≤ i.toNat := hji
  have two : (2 : Sz).toNat = 2 := rfl
  have one : (1 : Sz).toNat = 1 := rfl
  unfold Machine.lowerElement Packed.lowerElement
  refine toN_check Iff.rfl (toN_check Iff.rfl (toN_check Iff.rfl ?_))
  cases o
  · have h1 : (i.toNat + 1) * i.toNat < 2 ^ 64 := by rw [Nat.mul_comm]; exact half_lt (by omega)
    have h2 : (i.toNat + 1) * i.toNat / 2 + j.toNat < 2 ^ 64 := by
      have : i.toNat * (i.toNat + 1) ≤ (2 ^ 32 - 1) * 2 ^ 32 := Nat.mul_le_mul (by omega) (by omega)
      rw [Nat.mul_comm]; omega
    simp only [toN, pure_eq_ok, bind_ok]
    rw [BitVec.toNat_add, BitVec.toNat_udiv, BitVec.toNat_mul, BitVec.toNat_add, two, one, Nat.mod_eq_of_lt (a := i.toNat + 1) (by omega), Nat.mod_eq_of_lt h1, Nat.mod_eq_of_lt h2]
  · have hm := mx_toNat si sj
    generalize mx si sj = n at hm
    rw [← hm] at h
    have hjn : j.toNat ≤ n.toNat := by omega
    simp only [toN, pure_eq_ok, bind_ok, Packed.colOff]
    rw [← hm]
    have h0 := tri_sum_le hjn
    have h1 := half_lt h
    have e1 : (i - j).toNat = i.toNat - j.toNat := by
      have := i.isLt
      rw [BitVec.toNat_sub]; omega
    have e2 : (2 * n - j + 1 : Sz).toNat = 2 * n.toNat - j.toNat + 1 := by
      rw [BitVec.toNat_add, BitVec.toNat_sub, BitVec.toNat_mul, two, one]; omega
    have h3 : n.toNat * (n.toNat + 1) ≤ (2 ^ 32 - 1) * 2 ^ 32 := Nat.mul_le_mul (by omega) (by omega)
    rw [BitVec.toNat_add, BitVec.toNat_udiv, BitVec.toNat_mul, e1, e2, two, Nat.mod_eq_of_lt (a := j.toNat * _) (by omega), Nat.mod_eq_of_lt (by omega)]
    congr 1
    omega

theorem lelement_exact (dbg : Bool) (o : Orient) (k : LKind) {i si j sj : Sz} (hi : i < si) (hj : j < sj) (ho : Packed.lother k i.toNat j.toNat = true)
    (h : max si.toNat sj.toNat < 2 ^ 32) : toN (Machine.lelement dbg o k i si j sj) = Packed.lelement dbg o k i.toNat si.toNat j.toNat sj.toNat := by
  have hi' : i.toNat < si.toNat := hi
  have hj' : j.toNat < sj.toNat := hj
  have key : j.toNat < i.toNat → toN (do
      check dbg (si ≠ 0 ∧ sj ≠ 0 ∧ i ≠ 0) .badIndex
      Machine.lowerElement dbg o (i - 1) (si - 1) j (sj - 1)) = (do
      check dbg (si.toNat ≠ 0 ∧ sj.toNat ≠ 0 ∧ i.toNat ≠ 0) .badIndex
      Packed.lowerElement dbg o (i.toNat - 1) (si.toNat - 1) j.toNat (sj.toNat - 1)) := by
    intro hlt
    have e1 := sz_pred (a := i) (by omega)
    have e2 := sz_pred (a := si) (by omega)
    have e3 := sz_pred (a := sj) (by omega)
    refine toN_check (by rw [sz_ne_zero, sz_ne_zero, sz_ne_zero]) ?_
    rw [lowerElement_exact dbg o (by rw [BitVec.lt_def, e1, e2]; omega) (by rw [BitVec.le_def, e1]; omega) (by rw [e2, e3]; omega), e1, e2, e3]
  cases k
  · exact lowerElement_exact dbg o hi (by simpa [Packed.lother, BitVec.le_def] using ho) h
  · exact key (by simpa [Packed.lother] using ho)
  · exact key (by simpa [Packed.lother] using ho)

/-- **C109** (packed matrices, element addresses).  For every triangular structure, orientation, build mode
and pair of dimensions below 2^32, the address computed in 64-bit arithmetic for any stored position is the
mathematical one (and the checks give the same verdict): nothing wraps. -/
theorem C109_packed_element (dbg : Bool) (t : Tri) (o : Orient) (i si j sj : Sz) (hi : i < si) (hj : j < sj)
    (ho : Packed.other t i.toNat j.toNat = true) (h : si.toNat < 2 ^ 32 ∧ sj.toNat < 2 ^ 32) :
    toN (Machine.packedElement dbg t o i si j sj) = Packed.element dbg t o i.toNat si.toNat j.toNat sj.toNat := by
  unfold Machine.packedElement Packed.element
  unfold Packed.other at ho
  cases hu : t.upper <;> rw [hu] at ho
  · exact lelement_exact dbg o t.kind hi hj ho (by omega)
  · exact lelement_exact dbg o.transposed t.kind hj hi ho (by omega)

example : Machine.packedElement true ⟨.lower, false⟩ .col 2 3 1 3 = .ok 4 := by decide
example : Machine.packedElement true ⟨.strict, true⟩ .row 1 4 3 4 = .ok 4 := by decide

theorem tri_exact (dbg : Bool) {si sj : Sz} (h : max si.toNat sj.toNat < 2 ^ 32) :
    toN (Machine.triangularSize dbg si sj) = .ok (Packed.triangularSize si.toNat sj.toNat) := by
  obtain ⟨r, h1, h2⟩ := (C03_triangular_size_partial dbg si sj).1 h
  rw [toN, h1, bind_ok, h2, Packed.triangularSize, Nat.mul_comm]

theorem tri_zero (a b : Sz) (h : a = 0 ∨ b = 0) : toN (Machine.triangularSize false (a - 1) (b - 1)) = .ok 0 := by
  have hm : (if a - 1 < b - 1 then b - 1 else a - 1) = (maxSz : Sz) := by
    have e0 : (0 - 1 : Sz) = maxSz := by decide
    have hmx := maxSz_toNat
    rcases h with rfl | rfl
    · rw [e0, if_neg]
      rw [BitVec.lt_def, hmx]
      have := (b - 1).isLt
      omega
    · rw [e0]
      split
      · rfl
      · rename_i hn
        rw [BitVec.lt_def, hmx] at hn
        apply BitVec.eq_of_toNat_eq
        rw [hmx]
        have := (a - 1).isLt
        omega
  unfold Machine.triangularSize toN
  simp only [check_release, bind_ok, pure_eq_ok, hm]
  decide

theorem lpackedSize_exact (dbg : Bool) (k : LKind) {si sj : Sz} (h : max si.toNat sj.toNat < 2 ^ 32) :
    toN (Machine.lpackedSize dbg k si sj) = Packed.lpackedSize dbg k si.toNat sj.toNat := by
  have key : toN (do
      check dbg (si ≠ 0 ∧ sj ≠ 0) .badIndex
      Machine.triangularSize dbg (si - 1) (sj - 1)) = (do
      check dbg (si.toNat ≠ 0 ∧ sj.toNat ≠ 0) .badIndex
      return if si.toNat = 0 ∨ sj.toNat = 0 then 0 else Packed.triangularSize (si.toNat - 1) (sj.toNat - 1)) := by
    by_cases hz : si.toNat = 0 ∨ sj.toNat = 0
    · have hz' : si = 0 ∨ sj = 0 := by
        rcases hz with g | g
        · exact Or.inl (BitVec.eq_of_toNat_eq (by simpa using g))
        · exact Or.inr (BitVec.eq_of_toNat_eq (by simpa using g))
      cases dbg
      · simp only [check_release, bind_ok]
        rw [tri_zero si sj hz', if_pos hz]; rfl
      · rw [check_dbg_false (by rw [sz_ne_zero, sz_ne_zero]; omega), check_dbg_false (by omega)]; rfl
    · refine toN_check (by rw [sz_ne_zero, sz_ne_zero]) ?_
      have e2 := sz_pred (a := si) (by omega)
      have e3 := sz_pred (a := sj) (by omega)
      rw [tri_exact dbg (by rw [e2, e3]; omega), e2, e3, if_neg hz]; rfl
  cases k
  · exact tri_exact dbg h
  · exact key
  · exact key

/-- **C109** (packed matrices, storage size): for dimensions below 2^32 the 64-bit packed size is the
mathematical one in both build modes, also for empty matrices. -/
theorem C109_packed_size (dbg : Bool) (t : Tri) (si sj : Sz) (h : si.toNat < 2 ^ 32 ∧ sj.toNat < 2 ^ 32) :
    toN (Machine.packedSize dbg t si sj) = Packed.packedSize dbg t si.toNat sj.toNat := by
  unfold Machine.packedSize Packed.packedSize
  cases t.upper
  · exact lpackedSize_exact dbg t.kind (by omega)
  · exact lpackedSize_exact dbg t.kind (by omega)

example : Machine.packedSize false ⟨.unit, false⟩ 0 5 = .ok 0 := by decide
example : Machine.packedSize true ⟨.lower, true⟩ 3 5 = .ok 15 := by decide

/-! ## Banded -/

theorem mul_ge_add {a b : Nat} (ha : 0 < a) (hb : 0 < b) : a + b ≤ a * b + 1 := by
  obtain ⟨a, rfl⟩ := Nat.exists_eq_add_of_lt ha
  obtain ⟨b, rfl⟩ := Nat.exists_eq_add_of_lt hb
  nlinarith

/-- **C109** (banded_matrix, proved part).  If the number of cells, major size × (lower + 1 + upper), is below
2^64, then for every in-range position the storage size, the in-band test and the address computed in 64-bit
arithmetic are the mathematical ones, in both build modes, and the address is inside the storage.  (No bound
on the minor size.)  Missing: the refusal of parameters whose cell count is not representable, refuted below. -/
theorem C109_banded_partial {α : Type} (dbg : Bool) (o : Orient) (s1 s2 l u i j : Sz) (d : List α) (hi : i < s1) (hj : j < s2)
    (h : BMat.bandSize o s1.toNat s2.toNat * (l.toNat + 1 + u.toNat) < 2 ^ 64) :
    (bandCells o s1 s2 l u).toNat = BMat.bandSize o s1.toNat s2.toNat * (l.toNat + 1 + u.toNat) ∧
    Machine.inBand l u i j = BMat.inBand (α := α) ⟨s1.toNat, s2.toNat, l.toNat, u.toNat, d⟩ i.toNat j.toNat ∧
    (Machine.inBand l u i j = true → ∃ k, bandIndex dbg o s1 s2 l u i j = .ok k ∧
      BMat.getIndex (α := α) dbg o ⟨s1.toNat, s2.toNat, l.toNat, u.toNat, d⟩ i.toNat j.toNat = .ok k.toNat ∧
      k.toNat < (bandCells o s1 s2 l u).toNat) := by
  have hi' : i.toNat < s1.toNat := hi
  have hj' : j.toNat < s2.toNat := hj
  have one : (1 : Sz).toNat = 1 := rfl
  have b1 := i.isLt
  have b2 := j.isLt
  have b3 := l.isLt
  have b4 := u.isLt
  have hM : 0 < BMat.bandSize o s1.toNat s2.toNat := by cases o <;> simp only [BMat.bandSize] <;> omega
  have hge := mul_ge_add (b := l.toNat + 1 + u.toNat) hM (by omega)
  have hw : (l + 1 + u : Sz).toNat = l.toNat + 1 + u.toNat := by
    rw [BitVec.toNat_add, BitVec.toNat_add, one]; omega
  have hcells : (bandCells o s1 s2 l u).toNat = BMat.bandSize o s1.toNat s2.toNat * (l.toNat + 1 + u.toNat) := by
    unfold bandCells
    cases o <;> (simp only [BMat.bandSize] at h ⊢; rw [BitVec.toNat_mul, hw, Nat.mod_eq_of_lt h])
  have hband : Machine.inBand l u i j = BMat.inBand (α := α) ⟨s1.toNat, s2.toNat, l.toNat, u.toNat, d⟩ i.toNat j.toNat := by
    unfold Machine.inBand BMat.inBand
    rw [decide_eq_decide, ge_iff_le, BitVec.le_def, BitVec.le_def, BitVec.toNat_add, BitVec.toNat_add]
    cases o <;> simp only [BMat.bandSize] at hge h ⊢ <;> omega
  refine ⟨hcells, hband, fun hb => ?_⟩
  rw [hband] at hb
  have hb' : j.toNat ≤ u.toNat + i.toNat ∧ i.toNat ≤ j.toNat + l.toNat := by simpa [BMat.inBand] using hb
  obtain ⟨hb1, hb2⟩ := hb'
  cases o
  · simp only [BMat.bandSize] at hge h
    have ea : (l + j - i : Sz).toNat = l.toNat + j.toNat - i.toNat := by
      rw [BitVec.toNat_sub, BitVec.toNat_add]; omega
    obtain ⟨k, hk1, hk2⟩ := C02_element_no_wrap dbg .row i s1 (l + j - i) (l + 1 + u) hi (by rw [BitVec.lt_def, ea, hw]; omega) (by rw [hw]; exact h)
    refine ⟨k, hk1, ?_, ?_⟩
    · rw [ea, hw, element_ok dbg .row hi' (by omega)] at hk2
      simp only [Except.ok.injEq, Orient.elementRaw] at hk2
      simp only [BMat.getIndex, check_true hi', check_true (show i.toNat ≤ l.toNat + j.toNat ∧ l.toNat + j.toNat - i.toNat < l.toNat + 1 + u.toNat by omega), bind_ok, pure_eq_ok, ← hk2]
      congr 1; omega
    · rw [ea, hw, element_ok dbg .row hi' (by omega)] at hk2
      simp only [Except.ok.injEq] at hk2
      rw [hcells, ← hk2]
      exact elementRaw_lt .row hi' (by omega)
  · simp only [BMat.bandSize] at hge h
    have ea : (u + i - j : Sz).toNat = u.toNat + i.toNat - j.toNat := by
      rw [BitVec.toNat_sub, BitVec.toNat_add]; omega
    obtain ⟨k, hk1, hk2⟩ := C02_element_no_wrap dbg .col (u + i - j) (l + 1 + u) j s2 (by rw [BitVec.lt_def, ea, hw]; omega) hj (by rw [hw, Nat.mul_comm]; exact h)
    refine ⟨k, hk1, ?_, ?_⟩
    · rw [ea, hw, element_ok dbg .col (by omega) hj'] at hk2
      simp only [Except.ok.injEq, Orient.elementRaw] at hk2
      simp only [BMat.getIndex, check_true hj', check_true (show j.toNat ≤ u.toNat + i.toNat ∧ u.toNat + i.toNat - j.toNat < l.toNat + 1 + u.toNat by omega), bind_ok, pure_eq_ok, ← hk2]
      congr 1; omega
    · rw [ea, hw, element_ok dbg .col (by omega) hj'] at hk2
      simp only [Except.ok.injEq] at hk2
      rw [hcells, ← hk2]
      have := elementRaw_lt .col (si := l.toNat + 1 + u.toNat) (sj := s2.toNat) (i := u.toNat + i.toNat - j.toNat) (j := j.toNat) (by omega) hj'
      rw [Nat.mul_comm]; exact this

example : bandIndex true .row 3 4 1 2 1 3 = .ok 7 ∧ bandCells .row 3 4 1 2 = 12 := ⟨by decide, by decide⟩

/-- **C109** is false for banded_matrix: `banded_matrix<T> m (4, 4, 2^62 - 1, 0)` asks for 4 · 2^62 cells; the
product wraps to 0, the constructor has no overflow check in either build mode, and an empty array is
allocated although (0, 0) is in the band. -/
theorem C109_banded_refuted : ∃ s1 s2 l u : Sz, bandCells .row s1 s2 l u = 0 ∧ s1.toNat * (l.toNat + 1 + u.toNat) = 2 ^ 64 ∧
    Machine.inBand l u 0 0 = true := ⟨4, 4, BitVec.ofNat 64 (2 ^ 62 - 1), 0, by decide, by decide, by decide⟩

/-! ## Map keys -/

theorem sub_max (x : Sz) : (maxSz - x).toNat = 2 ^ 64 - 1 - x.toNat := by
  have hx : x.toNat < 2 ^ 64 := x.isLt
  rw [BitVec.toNat_sub, maxSz_toNat]
  omega

theorem key_guard (i j s : Sz) (hj : j < s) : i ≤ (maxSz - j) / s ↔ i.toNat * s.toNat + j.toNat < 2 ^ 64 := by
  have hj' : j.toNat < s.toNat := hj
  have := j.isLt
  rw [BitVec.le_def, BitVec.toNat_udiv, sub_max, Nat.le_div_iff_mul_le (by omega)]
  omega

/-- **C109** (keys of map-based matrices, debug builds).  For every position of a matrix of any dimensions, also
when the number of positions exceeds 2^64: the key computed in 64-bit arithmetic is the mathematical one if that
is representable, and the access is refused with `bad_index` otherwise. -/
theorem C109_key_checked (o : Orient) (i si j sj : Sz) (hi : i < si) (hj : j < sj) :
    (o.elementRaw i.toNat si.toNat j.toNat sj.toNat < 2 ^ 64 →
      ∃ k, Machine.element true o i si j sj = .ok k ∧ k.toNat = o.elementRaw i.toNat si.toNat j.toNat sj.toNat) ∧
    (¬ o.elementRaw i.toNat si.toNat j.toNat sj.toNat < 2 ^ 64 → Machine.element true o i si j sj = .error .badIndex) := by
  cases o
  · simp only [Orient.elementRaw, Machine.element, check_true hi, check_true hj, bind_ok]
    constructor
    · intro h
      refine ⟨i * sj + j, by simp only [check_true ((key_guard i j sj hj).2 h), bind_ok, pure_eq_ok], ?_⟩
      rw [BitVec.toNat_add, BitVec.toNat_mul, Nat.mod_eq_of_lt (a := i.toNat * sj.toNat) (by omega), Nat.mod_eq_of_lt h]
    · intro h
      simp only [check_dbg_false (fun g => h ((key_guard i j sj hj).1 g)), bind_error]
  · simp only [Orient.elementRaw, Machine.element, check_true hi, check_true hj, bind_ok]
    have hc : i.toNat + j.toNat * si.toNat = j.toNat * si.toNat + i.toNat := Nat.add_comm ..
    constructor
    · intro h
      refine ⟨i + j * si, by simp only [check_true ((key_guard j i si hi).2 (by omega)), bind_ok, pure_eq_ok], ?_⟩
      rw [BitVec.toNat_add, BitVec.toNat_mul, Nat.mod_eq_of_lt (a := j.toNat * si.toNat) (by omega), Nat.mod_eq_of_lt h]
    · intro h
      simp only [check_dbg_false (fun g => h (by have := (key_guard j i si hi).1 g; omega)), bind_error]

/-- **C109** (two different positions of a map-based matrix never share a key in debug builds). -/
theorem C109_key_injective (o : Orient) (i si j sj i' j' k : Sz) (hi : i < si) (hj : j < sj) (hi' : i' < si) (hj' : j' < sj)
    (h : Machine.element true o i si j sj = .ok k) (h' : Machine.element true o i' si j' sj = .ok k) : i = i' ∧ j = j' := by
  obtain ⟨a1, a2⟩ := C109_key_checked o i si j sj hi hj
  obtain ⟨b1, b2⟩ := C109_key_checked o i' si j' sj hi' hj'
  have ha : o.elementRaw i.toNat si.toNat j.toNat sj.toNat < 2 ^ 64 := by
    by_contra hc; rw [a2 hc] at h; cases h
  have hb : o.elementRaw i'.toNat si.toNat j'.toNat sj.toNat < 2 ^ 64 := by
    by_contra hc; rw [b2 hc] at h'; cases h'
  obtain ⟨x, x1, x2⟩ := a1 ha
  obtain ⟨y, y1, y2⟩ := b1 hb
  rw [h] at x1; rw [h'] at y1
  cases x1; cases y1
  have := elementRaw_inj o (i := i.toNat) (si := si.toNat) (j := j.toNat) (sj := sj.toNat) (i' := i'.toNat) (j' := j'.toNat) hi hj hi' hj' (by omega)
  exact ⟨BitVec.eq_of_toNat_eq this.1, BitVec.eq_of_toNat_eq this.2⟩

example : Machine.element true .row (BitVec.ofNat 64 (2 ^ 31)) (BitVec.ofNat 64 (2 ^ 33)) 0 (BitVec.ofNat 64 (2 ^ 33)) = .error .badIndex := by decide

/-- **C109** is false for mapped_matrix in release builds: in a `mapped_matrix` of 2^33 × 2^33, after
`m (0, 0) = 1` the element `m (2^31, 0)`, never written, reads 1: its key wraps to 0. -/
theorem C109_mapped_refuted : ∃ s : Sz, ∃ i : Sz, i < s ∧ i ≠ 0 ∧
    (do let m ← mapPut false .row s s [] 0 0 (0 : Int) 1; mapGet false .row s s m 0 i 0) = .ok 1 ∧
    (do let m ← mapPut true .row s s [] 0 0 (0 : Int) 1; mapGet true .row s s m 0 i 0) = .error .badIndex :=
  ⟨BitVec.ofNat 64 (2 ^ 33), BitVec.ofNat 64 (2 ^ 31), by decide, by decide, by decide, by decide⟩

/-! ## Capacities -/

theorem mn_toNat (a b : Sz) : (mn a b).toNat = min a.toNat b.toNat := by
  unfold mn
  by_cases h : b < a
  · rw [if_pos h]; have : b.toNat < a.toNat := h; omega
  · rw [if_neg h]; have : ¬ b.toNat < a.toNat := h; omega

theorem restrict_core (s1 s2 nz : Sz) : (if s1 > 0 ∧ nz / s1 ≥ s2 then s1 * s2 else nz).toNat =
    (if s1.toNat > 0 ∧ nz.toNat / s1.toNat ≥ s2.toNat then s1.toNat * s2.toNat else nz.toNat) := by
  have hiff : (s1 > 0 ∧ nz / s1 ≥ s2) ↔ (s1.toNat > 0 ∧ nz.toNat / s1.toNat ≥ s2.toNat) := by
    rw [gt_iff_lt, ge_iff_le, BitVec.lt_def, BitVec.le_def, BitVec.toNat_udiv]; rfl
  by_cases h : s1 > 0 ∧ nz / s1 ≥ s2
  · rw [if_pos h, if_pos (hiff.1 h), BitVec.toNat_mul, Nat.mod_eq_of_lt]
    obtain ⟨g1, g2⟩ := hiff.1 h
    have := (Nat.le_div_iff_mul_le g1).1 g2
    have := nz.isLt
    rw [Nat.mul_comm]; omega
  · rw [if_neg h, if_neg (fun g => h (hiff.2 g))]

/-- **C109** (capacities of the sparse matrices): for ALL dimensions and requested numbers of non-zeros, the
capacity computed in 64-bit arithmetic is the mathematical one; the guard keeps the product from wrapping. -/
theorem C109_restrict_capacity (s1 s2 nz : Sz) :
    (mapRestrict s1 s2 nz).toNat = MappedMat.restrictCapacity s1.toNat s2.toNat nz.toNat ∧
    (compressedRestrict s1 s2 nz).toNat = CMat.restrictCapacity s1.toNat s2.toNat nz.toNat := by
  refine ⟨restrict_core s1 s2 nz, ?_⟩
  unfold compressedRestrict CMat.restrictCapacity
  dsimp only
  rw [restrict_core, mx_toNat, mn_toNat]

example : (compressedRestrict maxSz maxSz 7).toNat = 2 ^ 64 - 1 := by decide

/-! ## Tensors -/

/-- A natural number as a `std::size_t`. -/
abbrev bv (n : Nat) : Sz := BitVec.ofNat 64 n

theorem loop_hom {σ τ : Type} (φ : τ → σ) {f : Nat → σ → M σ} {g : Nat → τ → M τ} (h : ∀ k t, f k (φ t) = g k t >>= fun x => .ok (φ x)) (n : Nat) (t : τ) :
    loop f n (φ t) = loop g n t >>= fun x => .ok (φ x) := by
  induction n with
  | zero => rfl
  | succ n ih =>
    simp only [loop]
    rw [ih]
    cases loop g n t with
    | error e => rfl
    | ok x => exact h n x

theorem rd_map {α β : Type} (dbg : Bool) (φ : α → β) (l : List α) (k : Nat) : rd dbg (l.map φ) k = rd dbg l k >>= fun x => .ok (φ x) := by
  unfold rd
  rw [List.getElem?_map]
  cases l[k]? <;> (cases dbg <;> rfl)

theorem wr_map {α β : Type} (dbg : Bool) (φ : α → β) (l : List α) (k : Nat) (v : α) : wr dbg (l.map φ) k (φ v) = wr dbg l k v >>= fun x => .ok (x.map φ) := by
  unfold wr
  by_cases h : k < l.length
  · simp [h, List.map_set]
  · simp [h]

theorem cumulate_hom (e s : List Nat) : Machine.cumulate (e.map bv) (s.map bv) = Tens.cumulate e s >>= fun x => .ok (x.map bv) := by
  unfold Machine.cumulate Tens.cumulate
  rw [List.length_map]
  refine loop_hom (List.map bv) (fun k t => ?_) _ s
  rw [rd_map, rd_map]
  cases rd false e k with
  | error e => rfl
  | ok x =>
    cases rd false t k with
    | error e => rfl
    | ok y =>
      simp only [bind_ok]
      rw [show bv x * bv y = bv (x * y) from (BitVec.ofNat_mul ..).symm, wr_map]

theorem toIndex_hom (w i : List Nat) : Machine.toIndex (w.map bv) (i.map bv) = Tens.toIndex w i >>= fun x => .ok (bv x) := by
  unfold Machine.toIndex Tens.toIndex
  rw [List.length_map]
  refine loop_hom bv (fun k t => ?_) _ 0
  rw [rd_map, rd_map]
  cases rd false i k with
  | error e => rfl
  | ok x =>
    cases rd false w k with
    | error e => rfl
    | ok y =>
      simp only [bind_ok]
      rw [show bv x * bv y = bv (x * y) from (BitVec.ofNat_mul ..).symm, show bv t + bv (x * y) = bv (t + x * y) from (BitVec.ofNat_add ..).symm]

theorem foldl_bv (e : List Nat) (a : Nat) : (e.map bv).foldl (· * ·) (bv a) = bv (e.foldl (· * ·) a) := by
  induction e generalizing a with
  | nil => rfl
  | cons n e ih => rw [List.map_cons, List.foldl_cons, List.foldl_cons, ← ih, show bv a * bv n = bv (a * n) from (BitVec.ofNat_mul ..).symm]

theorem product_hom (e : List Nat) : Machine.product (e.map bv) = bv (Tens.product e) := by
  unfold Machine.product Tens.product
  by_cases h : e = []
  · subst h; rfl
  · rw [if_neg h, if_neg (by simpa using h)]; exact foldl_bv e 1

theorem bv_toNat {e : List Nat} (he : ∀ n ∈ e, n < 2 ^ 64) : (e.map bv).map BitVec.toNat = e := by
  rw [List.map_map]
  conv_rhs => rw [← List.map_id e]
  refine List.map_congr_left fun n hn => ?_
  simp only [Function.comp, bv, BitVec.toNat_ofNat, id]
  exact Nat.mod_eq_of_lt (he n hn)

theorem toStrides_hom (L : Tens.Layout) {e : List Nat} (he : ∀ n ∈ e, n < 2 ^ 64) :
    Machine.toStrides L (e.map bv) = Tens.toStrides L e >>= fun x => .ok (x.map bv) := by
  unfold Machine.toStrides Tens.toStrides
  dsimp only
  rw [bv_toNat he, List.length_map]
  have hr : List.replicate e.length (1 : Sz) = (List.replicate e.length 1).map bv := by rw [List.map_replicate]; rfl
  by_cases h : e = [] ∨ Tens.isVector e = true ∨ Tens.isScalar e = true
  · rw [if_pos h, if_pos (by simpa using h), hr]; rfl
  · rw [if_neg h, if_neg (by simpa using h), hr]
    cases L
    · exact cumulate_hom e _
    · dsimp only
      rw [← List.map_reverse, ← List.map_reverse, cumulate_hom]
      cases Tens.cumulate e.reverse _ with
      | error e => rfl
      | ok x => simp only [bind_ok, List.map_reverse]

theorem member_le_count {e : List Nat} (he : ∀ n ∈ e, 0 < n) : ∀ n ∈ e, n ≤ Tens.count e := by
  have hp : ∀ e : List Nat, (∀ n ∈ e, 0 < n) → 0 < Tens.count e := by
    intro e
    induction e with
    | nil => intro _; exact Nat.one_pos
    | cons a e ih =>
      intro h
      rw [Tens.count, List.prod_cons]
      exact Nat.mul_pos (h a (by simp)) (ih fun n hn => h n (by simp [hn]))
  intro n hn
  exact Nat.le_of_dvd (hp e he) (List.dvd_prod hn)

/-- **C109** (tensors, proved part).  For extents whose product is below 2^64, the number of elements and the
offset of every valid multi-index, computed in 64-bit arithmetic from the machine strides, are the mathematical
ones, for every rank and both layouts.  Missing: larger extents are not refused (below). -/
theorem C109_tensor_partial (L : Tens.Layout) (e i : List Nat) (he : e ≠ []) (hi : Tens.Valid e i) (h : Tens.count e < 2 ^ 64) :
    (Machine.product (e.map bv)).toNat = Tens.count e ∧
    ∃ w k, Machine.toStrides L (e.map bv) = .ok w ∧ Machine.toIndex w (i.map bv) = .ok k ∧ k.toNat = Tens.pos L e i := by
  have hpos : ∀ n ∈ e, 0 < n := by
    have aux : ∀ {e i : List Nat}, Tens.Valid e i → ∀ n ∈ e, 0 < n := by
      intro e i hv
      induction hv with
      | nil => intro n hn; cases hn
      | cons hk _ ih =>
        intro n hn
        rcases List.mem_cons.1 hn with rfl | hn
        · omega
        · exact ih n hn
    exact aux hi
  have hm := member_le_count hpos
  obtain ⟨w, hw1, hw2, hw3⟩ := Tens.toStrides_ok L e
  refine ⟨?_, w.map bv, bv (Tens.pos L e i), ?_, ?_, ?_⟩
  · rw [product_hom, Tens.product_eq he, BitVec.toNat_ofNat, Nat.mod_eq_of_lt h]
  · rw [toStrides_hom L (fun n hn => lt_of_le_of_lt (hm n hn) h), hw1]; rfl
  · rw [toIndex_hom, Tens.toIndex_ok (by rw [hi.length, hw2]), hw3 i hi]; rfl
  · rw [BitVec.toNat_ofNat, Nat.mod_eq_of_lt (lt_trans (Tens.pos_lt hi) h)]

example : Tens.Valid [2, 3, 4] [1, 2, 3] ∧ Tens.count [2, 3, 4] < 2 ^ 64 := ⟨.cons (by decide) (.cons (by decide) (.cons (by decide) .nil)), by decide⟩

/-- **C109** is false for tensors: the extents {2^32, 2^32} are accepted (they are all positive), the element
count wraps to 0 with no check in any build, and the storage of the tensor is empty. -/
theorem C109_tensor_refuted : ∃ e : List Sz, Tens.isValid (e.map BitVec.toNat) = true ∧ Tens.count (e.map BitVec.toNat) = 2 ^ 64 ∧ Machine.product e = 0 :=
  ⟨[BitVec.ofNat 64 (2 ^ 32), BitVec.ofNat 64 (2 ^ 32)], by decide, by decide, by decide⟩

end Ublas
