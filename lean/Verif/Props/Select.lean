import Verif.Lemmas.Select
import Verif.Props.Dense
/-! # C12, C13, C14, C15, C62: ranges, slices, indirect arrays and proxies -/
namespace Ublas
variable {α : Type}

/-! ## C12 -/

/-- **C12** (ranges).  For ranges with `s` inside `r`, `r.compose (s)` succeeds, has size `s.size ()` and at each
position `i` addresses what `r` addresses at `s (i)`. -/
theorem C12_range_compose (dbg : Bool) (r s : Range) (hr : r.start + r.size < 2 ^ 64)
    (hs : s.start + s.size ≤ r.size) :
    ∃ c, r.compose dbg s = .ok c ∧ c.size = s.size ∧
      ∀ i, i < s.size → ∃ j k, s.at_ dbg i = .ok j ∧ r.at_ dbg j = .ok k ∧ c.at_ dbg i = .ok k ∧
        k = r.start + (s.start + i) := by
  have g : r.start + s.start ≤ r.start + s.start + s.size := by omega
  refine ⟨⟨r.start + s.start, s.size⟩, ?_, rfl, ?_⟩
  · simp only [Range.compose, Range.make, check_true g, bind_ok, pure_eq_ok]
    rw [u64_of (by omega) (by omega)]; congr 2; omega
  · intro i hi
    have hi' : s.start + i < r.size := by omega
    refine ⟨s.start + i, r.start + (s.start + i), ?_, ?_, ?_, rfl⟩
    · simp only [Range.at_, check_true hi, bind_ok, pure_eq_ok]
      rw [u64_of (by omega) (by omega)]; congr 1
    · simp only [Range.at_, check_true hi', bind_ok, pure_eq_ok]
      rw [u64_of (by omega) (by omega)]; congr 1
    · simp only [Range.at_, check_true hi, bind_ok, pure_eq_ok]
      rw [u64_of (by omega) (by omega)]; congr 1; omega

/-- **C12** (slices).  For slices with every index of the non-empty `t` inside `s`, and every index of `s` inside a
container of size `N` (so starts are arbitrary and strides may be zero or negative), `s.compose (t)` succeeds, has
size `t.size ()` and addresses `s (t (i))` at position `i`. -/
theorem C12_slice_compose (dbg : Bool) (s t : Slice) (N : Nat) (hN : N < 2 ^ 64) (hss : s.size < 2 ^ 64)
    (hts : t.size < 2 ^ 64) (htz : t.size ≠ 0)
    (hs : ∀ i : Nat, i < s.size → 0 ≤ (s.start : Int) + i * s.stride ∧ (s.start : Int) + i * s.stride < N)
    (ht : ∀ i : Nat, i < t.size → 0 ≤ (t.start : Int) + i * t.stride ∧ (t.start : Int) + i * t.stride < s.size) :
    ∃ c, s.compose dbg t = .ok c ∧ c.size = t.size ∧
      ∀ i : Nat, i < t.size → ∃ j k, t.at_ dbg i = .ok j ∧ s.at_ dbg j = .ok k ∧ c.at_ dbg i = .ok k ∧
        (k : Int) = s.start + s.stride * (t.start + i * t.stride) := by
  rcases composeSel_ok (dbg := dbg) (s := .slice s) (t := .slice t) hN hs hss ht htz hts with h | ⟨c, h1, h2, h3⟩
  · simp only [MRef.composeSel] at h
    cases hc : s.compose dbg t <;> rw [hc] at h <;> simp at h
  · simp only [MRef.composeSel] at h1
    cases hc : s.compose dbg t with
    | error e => rw [hc] at h1; simp at h1
    | ok c' =>
      rw [hc] at h1
      simp only [bind_ok, pure_eq_ok, Except.ok.injEq, Option.some.injEq] at h1
      subst h1
      refine ⟨c', rfl, h2, ?_⟩
      intro i hi
      have hti := ht i hi
      have hj : ((t.start : Int) + i * t.stride).toNat < s.size := by omega
      have hsj := hs _ hj
      have hci := h3 i hi
      simp only [Sel.index] at hci
      refine ⟨_, _, Slice.at_ok hss hi hti, Slice.at_ok hN hj hsj, ?_, ?_⟩
      · rw [Slice.at_ok (N := N) hN (by simp only [Sel.size] at h2; omega) (by rw [hci]; exact hsj), hci]
      · rw [Int.toNat_of_nonneg hsj.1, Int.toNat_of_nonneg hti.1]; ring

/-- **C12** (slice with range). -/
theorem C12_slice_compose_range (dbg : Bool) (s : Slice) (r : Range) (N : Nat) (hN : N < 2 ^ 64)
    (hss : s.size < 2 ^ 64) (hrz : r.size ≠ 0) (hr : r.start + r.size ≤ s.size)
    (hs : ∀ i : Nat, i < s.size → 0 ≤ (s.start : Int) + i * s.stride ∧ (s.start : Int) + i * s.stride < N) :
    ∃ c, s.composeRange dbg r = .ok c ∧ c.size = r.size ∧
      ∀ i : Nat, i < r.size → ∃ k, s.at_ dbg (r.start + i) = .ok k ∧ c.at_ dbg i = .ok k := by
  have ht : (Sel.range r).Valid s.size := by
    intro i hi; simp only [Sel.size] at hi; simp only [Sel.index]; omega
  rcases composeSel_ok (dbg := dbg) (s := .slice s) (t := .range r) hN hs hss ht hrz
    (by simp only [Sel.size]; omega) with h | ⟨c, h1, h2, h3⟩
  · simp only [MRef.composeSel] at h
    cases hc : s.composeRange dbg r <;> rw [hc] at h <;> simp at h
  · simp only [MRef.composeSel] at h1
    cases hc : s.composeRange dbg r with
    | error e => rw [hc] at h1; simp at h1
    | ok c' =>
      rw [hc] at h1
      simp only [bind_ok, pure_eq_ok, Except.ok.injEq, Option.some.injEq] at h1
      subst h1
      refine ⟨c', rfl, h2, ?_⟩
      intro i hi
      have hj : r.start + i < s.size := by omega
      have hsj := hs _ hj
      have hci := h3 i hi
      simp only [Sel.index] at hci
      have hcast : ((r.start : Int) + i).toNat = r.start + i := by omega
      rw [hcast] at hci
      refine ⟨_, Slice.at_ok hN hj hsj, ?_⟩
      rw [Slice.at_ok (N := N) hN (by simp only [Sel.size] at h2; omega) (by rw [hci]; exact hsj), hci]

theorem u64_congr {x y : Int} (h : x % 2 ^ 64 = y % 2 ^ 64) : u64 x = u64 y := by unfold u64; rw [h]

/-- **C12** (associativity of slices), in a release build, for all slices whatsoever (modulo 2^64 arithmetic). -/
theorem C12_slice_assoc (a b c : Slice) :
    (a.compose false b >>= fun ab => ab.compose false c) = (b.compose false c >>= fun bc => a.compose false bc) := by
  simp only [Slice.compose, check_release, bind_ok, pure_eq_ok]
  congr 2
  · apply u64_congr
    rw [u64_cast, u64_cast]
    have e1 := Int.mul_ediv_add_emod ((a.start : Int) + a.stride * b.start) (2 ^ 64)
    have e2 := Int.mul_ediv_add_emod ((b.start : Int) + b.stride * c.start) (2 ^ 64)
    generalize ((a.start : Int) + a.stride * b.start) / 2 ^ 64 = q1 at *
    generalize ((b.start : Int) + b.stride * c.start) / 2 ^ 64 = q2 at *
    rw [show ((a.start : Int) + a.stride * b.start) % 2 ^ 64 = a.start + a.stride * b.start - 2 ^ 64 * q1 by linarith,
      show ((b.start : Int) + b.stride * c.start) % 2 ^ 64 = b.start + b.stride * c.start - 2 ^ 64 * q2 by linarith]
    rw [show (a.start : Int) + a.stride * b.start - 2 ^ 64 * q1 + a.stride * b.stride * c.start =
        (a.start + a.stride * b.start + a.stride * b.stride * c.start) + 2 ^ 64 * (-q1) by ring,
      show (a.start : Int) + a.stride * (b.start + b.stride * c.start - 2 ^ 64 * q2) =
        (a.start + a.stride * b.start + a.stride * b.stride * c.start) + 2 ^ 64 * (-(a.stride * q2)) by ring,
      Int.add_mul_emod_self_left, Int.add_mul_emod_self_left]
  · ring

/-- **C12** (associativity of ranges), both build modes. -/
theorem C12_range_assoc (dbg : Bool) (a b c : Range) (h : c.size < 2 ^ 64) :
    (a.compose dbg b >>= fun ab => ab.compose dbg c) = (b.compose dbg c >>= fun bc => a.compose dbg bc) := by
  have key : ∀ x y z : Nat, z < 2 ^ 64 → Range.make dbg (x + y) (x + y + z) = .ok ⟨x + y, z⟩ := by
    intro x y z hz
    have g : x + y ≤ x + y + z := by omega
    simp only [Range.make, check_true g, bind_ok, pure_eq_ok]
    rw [u64_of (by omega) (by omega)]; congr 2; omega
  have e : ∀ x y : Nat, ∃ z, Range.make dbg (x + y) (x + y + b.size) = .ok ⟨x + y, z⟩ := by
    intro x y
    have g : x + y ≤ x + y + b.size := by omega
    exact ⟨_, by simp only [Range.make, check_true g, bind_ok, pure_eq_ok]; rfl⟩
  obtain ⟨z, hz⟩ := e a.start b.start
  simp only [Range.compose, hz, bind_ok, key b.start c.start c.size h, key _ _ c.size h]
  congr 2; omega

/-- **C12** (identity).  Composing with `all ()` on the right (as `preprocess` resolves it for a container of the
selector's own size) or on the left (over a container of size `N`) changes nothing. -/
theorem C12_identity (dbg : Bool) (s : Slice) (r : Range) (N : Nat) (hr : r.size < 2 ^ 64) (hs : s.start < 2 ^ 64)  :
    r.compose dbg ⟨0, r.size⟩ = .ok r ∧ (Range.compose dbg ⟨0, N⟩ r) = .ok r ∧
    s.compose dbg ⟨0, 1, s.size⟩ = .ok s ∧ Slice.compose dbg ⟨0, 1, N⟩ s = .ok s := by
  have g1 : r.start + 0 ≤ r.start + 0 + r.size := by omega
  have g2 : 0 + r.start ≤ 0 + r.start + r.size := by omega
  have g3 : s.stride ≥ 0 ∨ s.start ≥ u64 (-s.stride * ((0 : Nat) : Int)) := by right; simp [u64]
  have g4 : (1 : Int) ≥ 0 ∨ 0 ≥ u64 (-1 * (s.start : Int)) := by left; omega
  refine ⟨?_, ?_, ?_, ?_⟩
  · simp only [Range.compose, Range.make, check_true g1, bind_ok, pure_eq_ok]
    rw [u64_of (by omega) (by omega)]; congr 2; omega
  · simp only [Range.compose, Range.make, check_true g2, bind_ok, pure_eq_ok]
    rw [u64_of (by omega) (by omega)]
    have e1 : 0 + r.start = r.start := by omega
    rw [e1]; congr 2; omega
  · simp only [Slice.compose, check_true g3, bind_ok, pure_eq_ok]
    rw [u64_of (by simp) (by simp; omega)]; simp
  · simp only [Slice.compose, check_true g4, bind_ok, pure_eq_ok]
    rw [u64_of (by simp) (by simp; omega)]; simp

/-- **C12** (iterators).  Dereferencing the slice iterator at position `i` yields `s (i)`. -/
theorem C12_slice_iterator (dbg : Bool) (s : Slice) (i k : Nat) (h : s.at_ dbg i = .ok k) :
    s.iterDeref dbg i = .ok k := by
  unfold Slice.at_ at h
  unfold Slice.iterDeref
  cases h1 : check dbg (i < s.size) .badIndex with
  | error e => rw [h1] at h; simp at h
  | ok u =>
    rw [h1] at h
    simp only [bind_ok] at h ⊢
    cases h2 : check dbg (s.stride ≥ 0 ∨ s.start ≥ u64 (i * -s.stride)) .badIndex with
    | error e => rw [h2] at h; simp at h
    | ok u => rw [h2] at h; simpa using h

-- Non-vacuity: a reversed slice of a strided slice.
example : Slice.compose true ⟨9, -2, 5⟩ ⟨1, 2, 2⟩ = .ok ⟨7, -4, 2⟩ ∧ Slice.at_ true ⟨7, -4, 2⟩ 1 = .ok 3 ∧
    Slice.at_ true ⟨1, 2, 2⟩ 1 = .ok 3 ∧ Slice.at_ true ⟨9, -2, 5⟩ 3 = .ok 3 := by decide
example : Range.compose true ⟨3, 6⟩ ⟨2, 4⟩ = .ok ⟨5, 4⟩ := by decide

/-! ## C13 -/

theorem gather_fails {dbg : Bool} {ia : Indirect} {pre : Nat → M Unit} {idx : Nat → Nat} {n : Nat}
    (h : ∃ i, i < n ∧ ¬ idx i < ia.length) : ∃ e, Indirect.gather dbg ia pre idx n = .error e := by
  induction n with
  | zero => obtain ⟨i, hi, _⟩ := h; omega
  | succ n ih =>
    unfold Indirect.gather
    cases hg : Indirect.gather dbg ia pre idx n with
    | error e => exact ⟨e, rfl⟩
    | ok l =>
      obtain ⟨i, hi, hbad⟩ := h
      have : i = n := by
        by_contra hne
        obtain ⟨e, he⟩ := ih ⟨i, by omega, hbad⟩
        rw [he] at hg; simp at hg
      subst this
      simp only [bind_ok]
      cases hp : pre (idx i) with
      | error e => exact ⟨e, rfl⟩
      | ok u =>
        have : rd dbg ia (idx i) = .error (if dbg then .badIndex else .ub) := by
          unfold rd; rw [List.getElem?_eq_none (by omega)]
        exact ⟨_, by simp only [bind_ok, this]; rfl⟩

/-- With checks on, a failing `gather` whose `pre` only raises `bad_size` fails with `bad_index` or `bad_size`. -/
theorem gather_error {ia : Indirect} {pre : Nat → M Unit} {idx : Nat → Nat} {n : Nat} {e : Fault}
    (hp : ∀ k e, pre k = .error e → e = .badSize) (h : Indirect.gather true ia pre idx n = .error e) :
    e = .badIndex ∨ e = .badSize := by
  induction n with
  | zero => simp [Indirect.gather] at h
  | succ n ih =>
    unfold Indirect.gather at h
    cases hg : Indirect.gather true ia pre idx n with
    | error e' => rw [hg] at h; simp at h; subst h; exact ih hg
    | ok l =>
      rw [hg] at h
      simp only [bind_ok] at h
      cases hq : pre (idx n) with
      | error e' => rw [hq] at h; simp at h; subst h; exact Or.inr (hp _ _ hq)
      | ok u =>
        rw [hq] at h
        simp only [bind_ok] at h
        cases hr : rd true ia (idx n) with
        | ok v => rw [hr] at h; simp at h
        | error e' =>
          rw [hr] at h; simp at h; subst h
          left
          unfold rd at hr
          cases hx : ia[idx n]? <;> rw [hx] at hr <;> simp at hr
          exact hr.symm

/-- **C13** (indirect_array in indirect_array), complete: if every inner index is valid, composition succeeds in
both build modes and addresses `ia (ib (i))`; otherwise, with checks on, it raises `bad_size` or `bad_index`. -/
theorem C13_indirect_compose (ia ib : Indirect) :
    ((∀ k ∈ ib, k < ia.length) → ∀ dbg, ∃ c, Indirect.compose dbg ia ib = .ok c ∧ c.length = ib.length ∧
      ∀ i, i < ib.length → ∃ j k, Indirect.at_ dbg ib i = .ok j ∧ Indirect.at_ dbg ia j = .ok k ∧
        Indirect.at_ dbg c i = .ok k) ∧
    ((¬ ∀ k ∈ ib, k < ia.length) →
      Indirect.compose true ia ib = .error .badIndex ∨ Indirect.compose true ia ib = .error .badSize) := by
  constructor
  · intro h dbg
    have hv : ∀ i, i < ib.length → ib.getD i 0 < ia.length := by
      intro i hi
      simp only [List.getD, List.getElem?_eq_getElem hi, Option.getD_some]
      exact h _ (List.getElem_mem hi)
    obtain ⟨l, e1, e2, e3⟩ := gather_ok (dbg := dbg) (ia := ia) (pre := fun k => check dbg (k ≤ ia.length) .badSize)
        (idx := fun i => ib.getD i 0) (n := ib.length) (fun i hi => ⟨hv i hi, check_true (Nat.le_of_lt (hv i hi))⟩)
    refine ⟨l, e1, e2, ?_⟩
    intro i hi
    have hc : i < l.length := by omega
    have hvi := hv i hi
    have e := e3 i hi
    simp only [List.getD, List.getElem?_eq_getElem hi, List.getElem?_eq_getElem hc, Option.getD_some] at hvi e
    rw [List.getElem?_eq_getElem hvi, Option.getD_some] at e
    refine ⟨ib[i], ia[ib[i]], ?_, ?_, ?_⟩
    · simp only [Indirect.at_, check_true hi, bind_ok, rd_ok hi]
    · simp only [Indirect.at_, check_true hvi, bind_ok, rd_ok hvi]
    · simp only [Indirect.at_, check_true hc, bind_ok, rd_ok hc, e]
  · intro h
    have : ∃ i, i < ib.length ∧ ¬ ib.getD i 0 < ia.length := by
      by_contra hcon
      apply h
      intro k hk
      obtain ⟨i, hi, rfl⟩ := List.getElem_of_mem hk
      by_contra hb
      exact hcon ⟨i, hi, by simpa [List.getD, List.getElem?_eq_getElem hi] using hb⟩
    obtain ⟨e, he⟩ := gather_fails (dbg := true) (ia := ia) (pre := fun k => check true (k ≤ ia.length) .badSize)
      (idx := fun i => ib.getD i 0) this
    have := gather_error (by
      intro k e h
      unfold check at h
      split at h <;> simp at h
      exact h.symm) he
    unfold Indirect.compose
    rcases this with rfl | rfl
    · exact Or.inl he
    · exact Or.inr he

/-- **C13** (range and slice arguments, non-empty).  With a non-empty range or slice `t`: if all its indices are
valid for `ia`, composition succeeds with the right entries; otherwise, with checks on, it raises. -/
theorem C13_selector_compose_partial (ia : Indirect) (t : Sel) (c : Bool → M Indirect)
    (hc : (∃ r, t = .range r ∧ (∀ dbg, c dbg = Indirect.composeRange dbg ia r) ∧ r.start + r.size < 2 ^ 64) ∨
      (∃ s, t = .slice s ∧ (∀ dbg, c dbg = Indirect.composeSlice dbg ia s) ∧
        ∀ i : Nat, i < s.size → 0 ≤ (s.start : Int) + i * s.stride ∧ (s.start : Int) + i * s.stride < 2 ^ 64))
    (hia : ia.length < 2 ^ 64) (htz : t.size ≠ 0) (hts : t.size < 2 ^ 64) :
    (t.Valid ia.length → ∀ dbg, ∃ l, c dbg = .ok l ∧ l.length = t.size ∧
      ∀ i, i < t.size → ∃ k, Indirect.at_ dbg ia (t.index i).toNat = .ok k ∧ Indirect.at_ dbg l i = .ok k) ∧
    (¬ t.Valid ia.length → c true = .error .badIndex ∨ c true = .error .badSize) := by
  constructor
  · intro hv dbg
    have hself : (Sel.indirect ia).Valid (ia.foldr max 0 + 1) := by
      intro i hi
      simp only [Sel.size] at hi
      simp only [Sel.index, List.getD, List.getElem?_eq_getElem hi, Option.getD_some]
      have : ∀ (l : List Nat) (x : Nat), x ∈ l → x ≤ l.foldr max 0 := by
        intro l
        induction l with
        | nil => simp
        | cons a l ih =>
          intro x hx
          simp only [List.mem_cons] at hx
          simp only [List.foldr_cons]
          rcases hx with rfl | hx
          · omega
          · have := ih x hx; omega
      have := this ia ia[i] (List.getElem_mem hi)
      omega
    have fin : ∀ l : Indirect, l.length = t.size →
        (∀ i, i < t.size → l.getD i 0 = ia.getD (t.index i).toNat 0) →
        ∀ i, i < t.size → ∃ k, Indirect.at_ dbg ia (t.index i).toNat = .ok k ∧ Indirect.at_ dbg l i = .ok k := by
      intro l hl hg i hi
      have hb : (t.index i).toNat < ia.length := by have := hv i hi; omega
      have hli : i < l.length := by omega
      have e := hg i hi
      simp only [List.getD, List.getElem?_eq_getElem hb, List.getElem?_eq_getElem hli, Option.getD_some] at e
      exact ⟨ia[(t.index i).toNat], by simp only [Indirect.at_, check_true hb, bind_ok, rd_ok hb],
        by simp only [Indirect.at_, check_true hli, bind_ok, rd_ok hli, e]⟩
    rcases hc with ⟨r, rfl, hcr, _⟩ | ⟨s, rfl, hcs, _⟩
    · simp only [Sel.size] at htz
      have hl : r.start + r.size ≤ ia.length := by
        have := hv (r.size - 1) (by simp only [Sel.size]; omega)
        simp only [Sel.index] at this; omega
      obtain ⟨l, e1, e2, e3⟩ := gather_ok (dbg := dbg) (ia := ia) (pre := fun _ => .ok ())
        (idx := fun i => r.start + i) (n := r.size) (fun i hi => ⟨by omega, rfl⟩)
      refine ⟨l, by rw [hcr]; simp only [Indirect.composeRange, check_true hl, bind_ok, e1], e2, fin l e2 ?_⟩
      intro i hi; rw [e3 i hi]; congr 1
    · simp only [Sel.size] at htz
      have hz : s.size > 0 := by omega
      have hl : u64 (s.start + s.stride * (s.size - (if s.size > 0 then 1 else 0))) ≤ ia.length := by
        have := hv (s.size - 1) (by simp only [Sel.size]; omega)
        simp only [Sel.index] at this
        have e : ((s.size - 1 : Nat) : Int) * s.stride = s.stride * ((s.size : Int) - 1) := by
          rw [Nat.cast_sub (by omega)]; push_cast; ring
        rw [if_pos hz]
        apply u64_le_of <;> omega
      have hu : ∀ i, i < s.size → u64 (s.start + s.stride * i) = ((s.start : Int) + i * s.stride).toNat := by
        intro i hi
        have := hv i hi
        simp only [Sel.index] at this
        have e : (i : Int) * s.stride = s.stride * i := by ring
        rw [u64_of (by omega) (by omega), e]
      obtain ⟨l, e1, e2, e3⟩ := gather_ok (dbg := dbg) (ia := ia) (pre := fun _ => .ok ())
        (idx := fun i => u64 (s.start + s.stride * i)) (n := s.size) (fun i hi => ⟨by
          have := hv i hi
          simp only [Sel.index] at this
          rw [hu i hi]; omega, rfl⟩)
      refine ⟨l, by rw [hcs]; simp only [Indirect.composeSlice, check_true hl, bind_ok, e1], e2, fin l e2 ?_⟩
      intro i hi; rw [e3 i hi, hu i hi]; rfl
  · intro hnv
    have hex : ∃ i, i < t.size ∧ ¬ (0 ≤ t.index i ∧ t.index i < ia.length) := by
      by_contra hcon
      apply hnv
      intro i hi
      by_contra hb
      exact hcon ⟨i, hi, hb⟩
    have chk : ∀ (p : Prop) [Decidable p] (x : M Indirect) (e : Fault), x = .error e →
        (e = .badIndex ∨ e = .badSize) →
        (check true p .badSize >>= fun _ => x) = .error .badIndex ∨
        (check true p .badSize >>= fun _ => x) = .error .badSize := by
      intro p _ x e hx he
      by_cases hp : p
      · rw [check_true hp, bind_ok, hx]; rcases he with rfl | rfl <;> simp
      · rw [check_dbg_false hp]; right; rfl
    obtain ⟨i, hi, hbad⟩ := hex
    rcases hc with ⟨r, rfl, hcr, _⟩ | ⟨s, rfl, hcs, hrange⟩
    · simp only [Sel.index, Sel.size] at hi hbad
      obtain ⟨e, he⟩ := gather_fails (dbg := true) (ia := ia) (pre := fun _ => .ok ()) (idx := fun i => r.start + i)
        ⟨i, hi, by omega⟩
      rw [hcr]
      exact chk _ _ e he (gather_error (by simp) he)
    · simp only [Sel.index, Sel.size] at hi hbad
      have h2 := hrange i hi
      obtain ⟨e, he⟩ := gather_fails (dbg := true) (ia := ia) (pre := fun _ => .ok ())
        (idx := fun i => u64 (s.start + s.stride * i)) (n := s.size) ⟨i, hi, by
          have e : (i : Int) * s.stride = s.stride * i := by ring
          rw [u64_of (by omega) (by omega)]; omega⟩
      rw [hcs]
      exact chk _ _ e he (gather_error (by simp) he)

/-- **C13** refuted part: an empty inner range or slice has no index outside `ia`, yet it is rejected with
`bad_size` when its start lies beyond the end. -/
theorem C13_empty_rejected_refuted :
    ¬ ∀ (ia : Indirect) (r : Range), (Sel.range r).Valid ia.length → ∃ c, Indirect.composeRange true ia r = .ok c := by
  intro h
  obtain ⟨c, hc⟩ := h [0, 1] ⟨3, 0⟩ (by intro i hi; simp [Sel.size] at hi)
  have : Indirect.composeRange true [0, 1] ⟨3, 0⟩ = .error .badSize := by decide
  rw [this] at hc; simp at hc

-- Non-vacuity, and the off-by-one in the guard (index equal to size passes the `bad_size` check and is caught by
-- the array's own check instead).
example : Indirect.compose true [5, 6, 7] [2, 0] = .ok [7, 5] ∧ Indirect.compose true [5, 6, 7] [3] = .error .badIndex ∧
    Indirect.compose true [5, 6, 7] [4] = .error .badSize ∧ Indirect.compose false [5, 6, 7] [3] = .error .ub := by decide

/-! ## C14 -/

/-- **C14** (write through and frame).  For any nest of vector ranges, slices and indirect views whose selectors
stay inside what they select from: element `i` can be written; reading it back gives the value; every base element
other than the selected one is unchanged; and reading returns the base element selected by the composed index
maps. -/
theorem C14_vector_proxy (dbg : Bool) (p : VRef) (l : List α) (hl : l.length < 2 ^ 64) (hp : p.Valid l.length)
    (i : Nat) (hi : i < p.size l.length) (v : α) :
    (∃ h : p.index i < l.length, p.read dbg l i = .ok l[p.index i]) ∧
    ∃ l', p.write dbg l i v = .ok l' ∧ l'.length = l.length ∧ p.read dbg l' i = .ok v ∧
      ∀ k, k ≠ p.index i → l'[k]? = l[k]? := by
  obtain ⟨e, hlt⟩ := (VRef.addr_ok (dbg := dbg) hl p hp).2 i hi
  refine ⟨⟨hlt, by simp only [VRef.read, e, bind_ok, rd_ok hlt]⟩, l.set (p.index i) v, ?_, by simp, ?_, ?_⟩
  · simp only [VRef.write, e, bind_ok, wr_ok hlt]
  · simp only [VRef.read, e, bind_ok]
    rw [rd_eq_ok, List.getElem?_set_self hlt]
  · intro k hk
    rw [List.getElem?_set_ne (Ne.symm hk)]

/-- **C14** (nested projections).  Projecting a proxy with an explicit (non-empty) range, slice or indirect array
succeeds and denotes, at each position, what the proxy denotes at the selected position. -/
theorem C14_project (dbg : Bool) (n : Nat) (hn : n < 2 ^ 64) (p : VRef) (hp : p.Valid n) (t : Sel)
    (ht : t.Valid (p.size n)) (htz : t.size ≠ 0) (hts : t.size < 2 ^ 64) :
    ∃ q, p.project dbg n (.given t) = .ok q ∧ q.Valid n ∧ q.size n = t.size ∧
      ∀ i, i < t.size → q.index i = p.index (t.index i).toNat := by
  have nest : ∃ q, (Except.ok (VRef.construct n p (.given t)) : M VRef) = .ok q ∧ q.Valid n ∧ q.size n = t.size ∧
      ∀ i, i < t.size → q.index i = p.index (t.index i).toNat :=
    ⟨_, rfl, ⟨hp, ht, hts⟩, rfl, fun i hi => rfl⟩
  cases p with
  | base => exact nest
  | sel q s =>
    obtain ⟨hq, hsv, hsz⟩ := hp
    have hqs := (VRef.addr_ok (dbg := dbg) hn q hq).1
    have hc := composeSel_ok (dbg := dbg) (s := s) (t := t) hqs hsv hsz ht htz hts
    -- the composed proxy
    have comp : ∀ c, c.size = t.size → (∀ i, i < t.size → c.index i = s.index (t.index i).toNat) →
        ∃ q', (Except.ok (VRef.sel q c) : M VRef) = .ok q' ∧ q'.Valid n ∧ q'.size n = t.size ∧
          ∀ i, i < t.size → q'.index i = (VRef.sel q s).index (t.index i).toNat := by
      intro c h2 h3
      refine ⟨_, rfl, ⟨hq, ?_, by omega⟩, h2, ?_⟩
      · intro i hi
        rw [h3 i (by omega)]
        exact hsv _ (by have := ht i (by omega); simp only [VRef.size] at this; omega)
      · intro i hi; simp only [VRef.index, h3 i hi]
    cases s with
    | range r =>
      cases t with
      | range r' =>
        simp only [MRef.composeSel] at hc
        simp only [VRef.project, SelArg.preprocess]
        cases hx : r.compose dbg r' with
        | error e => rw [hx] at hc; simp at hc
        | ok c =>
          rw [hx] at hc
          simp only [bind_ok, pure_eq_ok, Except.ok.injEq, reduceCtorEq, false_or] at hc ⊢
          obtain ⟨c', h1, h2, h3⟩ := hc
          obtain rfl : Sel.range c = c' := by simpa using h1
          simpa only [Except.ok.injEq] using comp _ h2 h3
      | slice s' => exact nest
      | indirect ib => exact nest
    | slice s =>
      cases t with
      | range r' =>
        simp only [MRef.composeSel] at hc
        simp only [VRef.project, SelArg.preprocess]
        cases hx : s.composeRange dbg r' with
        | error e => rw [hx] at hc; simp at hc
        | ok c =>
          rw [hx] at hc
          simp only [bind_ok, pure_eq_ok, Except.ok.injEq, reduceCtorEq, false_or] at hc ⊢
          obtain ⟨c', h1, h2, h3⟩ := hc
          obtain rfl : Sel.slice c = c' := by simpa using h1
          simpa only [Except.ok.injEq] using comp _ h2 h3
      | slice s' =>
        simp only [MRef.composeSel] at hc
        simp only [VRef.project, SelArg.preprocess]
        cases hx : s.compose dbg s' with
        | error e => rw [hx] at hc; simp at hc
        | ok c =>
          rw [hx] at hc
          simp only [bind_ok, pure_eq_ok, Except.ok.injEq, reduceCtorEq, false_or] at hc ⊢
          obtain ⟨c', h1, h2, h3⟩ := hc
          obtain rfl : Sel.slice c = c' := by simpa using h1
          simpa only [Except.ok.injEq] using comp _ h2 h3
      | indirect ib => exact nest
    | indirect ia =>
      cases t with
      | range r' =>
        simp only [MRef.composeSel] at hc
        simp only [VRef.project, SelArg.preprocess]
        cases hx : Indirect.composeRange dbg ia r' with
        | error e => rw [hx] at hc; simp at hc
        | ok c =>
          rw [hx] at hc
          simp only [bind_ok, pure_eq_ok, Except.ok.injEq, reduceCtorEq, false_or] at hc ⊢
          obtain ⟨c', h1, h2, h3⟩ := hc
          obtain rfl : Sel.indirect c = c' := by simpa using h1
          simpa only [Except.ok.injEq] using comp _ h2 h3
      | slice s' =>
        simp only [MRef.composeSel] at hc
        simp only [VRef.project, SelArg.preprocess]
        cases hx : Indirect.composeSlice dbg ia s' with
        | error e => rw [hx] at hc; simp at hc
        | ok c =>
          rw [hx] at hc
          simp only [bind_ok, pure_eq_ok, Except.ok.injEq, reduceCtorEq, false_or] at hc ⊢
          obtain ⟨c', h1, h2, h3⟩ := hc
          obtain rfl : Sel.indirect c = c' := by simpa using h1
          simpa only [Except.ok.injEq] using comp _ h2 h3
      | indirect ib =>
        simp only [MRef.composeSel] at hc
        simp only [VRef.project, SelArg.preprocess]
        cases hx : Indirect.compose dbg ia ib with
        | error e => rw [hx] at hc; simp at hc
        | ok c =>
          rw [hx] at hc
          simp only [bind_ok, pure_eq_ok, Except.ok.injEq, reduceCtorEq, false_or] at hc ⊢
          obtain ⟨c', h1, h2, h3⟩ := hc
          obtain rfl : Sel.indirect c = c' := by simpa using h1
          simpa only [Except.ok.injEq] using comp _ h2 h3

/-- **C14** (independent elements).  Ranges, and slices with a non-zero stride, select different base elements at
different positions. -/
theorem C14_selector_injective (s : Sel) (h : (∃ r, s = .range r) ∨ ∃ t, s = .slice t ∧ t.stride ≠ 0) (i j : Nat)
    (he : s.index i = s.index j) : i = j := by
  rcases h with ⟨r, rfl⟩ | ⟨t, rfl, ht⟩
  · simp only [Sel.index] at he; omega
  · simp only [Sel.index] at he
    have : ((i : Int) - j) * t.stride = 0 := by linarith
    rcases Int.mul_eq_zero.1 this with h | h
    · omega
    · exact absurd h ht

/-! ## C62 -/

/-- **C62** (proved part).  Projecting a plain vector with `all ()` gives the whole vector. -/
theorem C62_all_of_vector_partial (dbg : Bool) (n : Nat) (a : SelArg)
    (ha : a = .allRange ∨ a = .allSlice ∨ a = .allIndirect) :
    ∃ q, VRef.project dbg n .base a = .ok q ∧ q.size n = n ∧ ∀ i, i < n → q.index i = i := by
  rcases ha with rfl | rfl | rfl
  · exact ⟨_, rfl, rfl, fun i _ => by simp [VRef.construct, SelArg.preprocess, VRef.index, Sel.index]⟩
  · exact ⟨_, rfl, rfl, fun i _ => by simp [VRef.construct, SelArg.preprocess, VRef.index, Sel.index]⟩
  · refine ⟨_, rfl, by simp [VRef.construct, SelArg.preprocess, VRef.size, Sel.size], fun i hi => ?_⟩
    simp [VRef.construct, SelArg.preprocess, VRef.index, Sel.index, VRef.size, hi]

/-- **C62** refuted: `project (p, range::all ())` of a proxy `p` is not `p`: `all ()` is resolved with the size of
the underlying vector, so projecting elements [2,4) of a 6-vector with `all ()` gives a proxy of size 6 whose
element 4 lies outside the vector. -/
theorem C62_all_of_proxy_refuted :
    ¬ ∀ (n : Nat) (p q : VRef), p.Valid n → p.project true n .allRange = .ok q → q.size n = p.size n := by
  intro h
  have := h 6 (.sel .base (.range ⟨2, 2⟩)) (.sel .base (.range ⟨2, 6⟩))
    (by refine ⟨trivial, ?_, by decide⟩
        intro i hi; simp only [Sel.size] at hi; simp only [Sel.index, VRef.size]; omega) rfl
  simp [VRef.size, Sel.size] at this

/-- The element read through that proxy is outside the vector. -/
theorem C62_out_of_bounds : ∃ q, VRef.project false 6 (.sel .base (.range ⟨2, 2⟩)) .allRange = .ok q ∧
    q.size 6 = 6 ∧ q.read false [10, 11, 12, 13, 14, 15] 4 = .error .ub :=
  ⟨.sel .base (.range ⟨2, 6⟩), rfl, rfl, by decide⟩

/-! ## C15 -/

/-- **C15** (matrix_range / matrix_slice / matrix_indirect).  Through any valid nest of matrix proxies, reading
(i,j) returns the selected element of the base matrix and writing (i,j) changes exactly that element. -/
theorem C15_matrix_proxy (dbg : Bool) (o : Orient) (p : MRef) (m : Dense α) (hw : m.WF) (h1 : m.size1 < 2 ^ 64)
    (h2 : m.size2 < 2 ^ 64) (hp : p.Valid m.size1 m.size2) (i j : Nat) (hi : i < p.size1 m.size1)
    (hj : j < p.size2 m.size2) (v : α) :
    p.read dbg o m i j = m.get dbg o (p.index i j).1 (p.index i j).2 ∧
    (p.index i j).1 < m.size1 ∧ (p.index i j).2 < m.size2 ∧
    ∃ m', p.write dbg o m i j v = .ok m' ∧ m'.WF ∧ m'.size1 = m.size1 ∧ m'.size2 = m.size2 ∧
      p.read dbg o m' i j = .ok v ∧
      ∀ a b, a < m.size1 → b < m.size2 → (a, b) ≠ p.index i j → m'.get dbg o a b = m.get dbg o a b := by
  obtain ⟨e, l1, l2⟩ := (MRef.addr_ok (dbg := dbg) h1 h2 p hp).2.2 i j hi hj
  obtain ⟨m', e1, e2, e3, e4, e5, e6⟩ := C04_read_after_write dbg o m hw _ _ v l1 l2
  exact ⟨by simp only [MRef.read, e, bind_ok], l1, l2, m', by simp only [MRef.write, e, bind_ok, e1], e2, e3, e4,
    by simp only [MRef.read, e, bind_ok, e5], fun a b ha hb hne => e6 a b ha hb hne⟩

/-- **C15** (rows, columns and diagonal-like vectors, possibly of proxies). -/
theorem C15_matrix_vector_proxy (dbg : Bool) (o : Orient) (p : MVRef) (m : Dense α) (hw : m.WF)
    (h1 : m.size1 < 2 ^ 64) (h2 : m.size2 < 2 ^ 64) (hp : p.Valid m.size1 m.size2) (i : Nat)
    (hi : i < p.size m.size1 m.size2) (v : α) :
    p.read dbg o m i = m.get dbg o (p.index i).1 (p.index i).2 ∧
    (p.index i).1 < m.size1 ∧ (p.index i).2 < m.size2 ∧
    ∃ m', p.write dbg o m i v = .ok m' ∧ m'.WF ∧ m'.size1 = m.size1 ∧ m'.size2 = m.size2 ∧
      p.read dbg o m' i = .ok v ∧
      ∀ a b, a < m.size1 → b < m.size2 → (a, b) ≠ p.index i → m'.get dbg o a b = m.get dbg o a b := by
  have key : p.addr dbg i = .ok (p.index i) ∧ (p.index i).1 < m.size1 ∧ (p.index i).2 < m.size2 := by
    cases p with
    | row r k => exact (MRef.addr_ok (dbg := dbg) h1 h2 r hp.1).2.2 k i hp.2 hi
    | column r k => exact (MRef.addr_ok (dbg := dbg) h1 h2 r hp.1).2.2 i k hi hp.2
    | along r s1 s2 =>
      obtain ⟨hr, hs1, hs2⟩ := hp
      obtain ⟨b1, b2, ih⟩ := MRef.addr_ok (dbg := dbg) h1 h2 r hr
      simp only [MVRef.size] at hi
      have g1 := hs1 i (by omega)
      have g2 := hs2 i (by omega)
      simp only [MVRef.addr, Sel.at_ok b1 hs1 (show i < s1.size by omega),
        Sel.at_ok b2 hs2 (show i < s2.size by omega), bind_ok, MVRef.index]
      exact ih _ _ (by omega) (by omega)
  obtain ⟨e, l1, l2⟩ := key
  obtain ⟨m', e1, e2, e3, e4, e5, e6⟩ := C04_read_after_write dbg o m hw _ _ v l1 l2
  exact ⟨by simp only [MVRef.read, e, bind_ok], l1, l2, m', by simp only [MVRef.write, e, bind_ok, e1], e2, e3, e4,
    by simp only [MVRef.read, e, bind_ok, e5], fun a b ha hb hne => e6 a b ha hb hne⟩

/-- **C15** (what the views select).  Row i of a matrix is the elements (i, ·), column j the elements (·, j), and a
`matrix_vector_range` the elements (r1(k), r2(k)). -/
theorem C15_views (i j k : Nat) (s1 s2 : Sel) :
    (MVRef.row .base i).index k = (i, k) ∧ (MVRef.column .base j).index k = (k, j) ∧
    (MVRef.along .base s1 s2).index k = ((s1.index k).toNat, (s2.index k).toNat) := ⟨rfl, rfl, rfl⟩

/-- **C15** (nested projections).  Projecting a matrix proxy with explicit non-empty selectors denotes, at each
position, what the proxy denotes at the selected position. -/
theorem C15_project (dbg : Bool) (n1 n2 : Nat) (h1 : n1 < 2 ^ 64) (h2 : n2 < 2 ^ 64) (p : MRef)
    (hp : p.Valid n1 n2) (t1 t2 : Sel) (ht1 : t1.Valid (p.size1 n1)) (ht2 : t2.Valid (p.size2 n2))
    (hz1 : t1.size ≠ 0) (hz2 : t2.size ≠ 0) (hs1 : t1.size < 2 ^ 64) (hs2 : t2.size < 2 ^ 64) :
    ∃ q, p.project dbg n1 n2 (.given t1) (.given t2) = .ok q ∧ q.Valid n1 n2 ∧ q.size1 n1 = t1.size ∧
      q.size2 n2 = t2.size ∧ ∀ i j, i < t1.size → j < t2.size →
        q.index i j = p.index (t1.index i).toNat (t2.index j).toNat := by
  cases p with
  | base => exact ⟨_, rfl, ⟨trivial, ht1, ht2, hs1, hs2⟩, rfl, rfl, fun i j _ _ => rfl⟩
  | sel q s1 s2 =>
    obtain ⟨hq, hv1, hv2, hb1, hb2⟩ := hp
    obtain ⟨hq1, hq2, _⟩ := MRef.addr_ok (dbg := dbg) h1 h2 q hq
    have nest : ∃ r, (Except.ok (MRef.sel (.sel q s1 s2) t1 t2) : M MRef) = .ok r ∧ r.Valid n1 n2 ∧
        r.size1 n1 = t1.size ∧ r.size2 n2 = t2.size ∧ ∀ i j, i < t1.size → j < t2.size →
        r.index i j = (MRef.sel q s1 s2).index (t1.index i).toNat (t2.index j).toNat :=
      ⟨_, rfl, ⟨⟨hq, hv1, hv2, hb1, hb2⟩, ht1, ht2, hs1, hs2⟩, rfl, rfl, fun i j _ _ => rfl⟩
    rcases composeSel_ok (dbg := dbg) hq1 hv1 hb1 ht1 hz1 hs1 with e1 | ⟨c1, e1, l1, g1⟩ <;>
    rcases composeSel_ok (dbg := dbg) hq2 hv2 hb2 ht2 hz2 hs2 with e2 | ⟨c2, e2, l2, g2⟩ <;>
    simp only [MRef.project, SelArg.preprocess, e1, e2, bind_ok, pure_eq_ok]
    · exact nest
    · exact nest
    · exact nest
    · refine ⟨_, rfl, ⟨hq, ?_, ?_, by omega, by omega⟩, l1, l2, fun i j hi hj => ?_⟩
      · intro i hi
        rw [g1 i (by omega)]
        exact hv1 _ (by have := ht1 i (by omega); simp only [MRef.size1] at this; omega)
      · intro i hi
        rw [g2 i (by omega)]
        exact hv2 _ (by have := ht2 i (by omega); simp only [MRef.size2] at this; omega)
      · simp only [MRef.index, g1 i hi, g2 j hj]

-- Non-vacuity: column 1 of a reversed-row slice of a 3×3 matrix.
example : (MVRef.column (.sel .base (.slice ⟨2, -1, 3⟩) (.range ⟨1, 2⟩)) 1).read true .row
    (⟨3, 3, [1, 2, 3, 4, 5, 6, 7, 8, 9]⟩ : Dense Int) 0 = .ok 9 := by decide
example : (VRef.sel (.sel .base (.slice ⟨5, -2, 3⟩)) (.range ⟨1, 2⟩)).Valid 6 := by
  refine ⟨⟨trivial, ?_, by decide⟩, ?_, by decide⟩ <;> intro i hi <;>
    simp only [Sel.size, Sel.index, VRef.size] at hi ⊢ <;> omega

end Ublas
