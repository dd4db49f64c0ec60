import Verif.Spec.RandomAccess
import Verif.Lemmas.Select
/-! # C119: random-access iterators -/
namespace Ublas
variable {R : Type}

theorem i64_of {n : Nat} (h : n < 2 ^ 63) : i64 n = n := by simp only [i64, if_pos h]

/-- The difference of two counters, both below 2^63 apart, survives the detour through `size_type`. -/
theorem i64_u64 {x : Int} (h0 : - 2 ^ 63 ≤ x) (h1 : x < 2 ^ 63) : i64 (u64 x) = x := by
  have hc := u64_cast x
  unfold i64
  by_cases h : 0 ≤ x
  · rw [u64_of h (by omega), if_pos (by omega)]; omega
  · have : x % 2 ^ 64 = x + 2 ^ 64 := by omega
    rw [this] at hc
    rw [if_neg (by omega)]; omega

theorem u64_nat {n : Nat} (h : n < 2 ^ 64) : u64 (n : Int) = n := by rw [u64_of (by omega) (by omega)]; omega

namespace RVec

/-- The iterators of `V` follow positions: `At k p` says that `p` stands at position `k`. -/
structure Law (V : RVec R) (n : Nat) (x : Nat → R) (ix : Nat → Nat) (anyDiff : Bool) (At : Nat → V.Pos → Prop) : Prop where
  size : V.size = n
  find : ∀ k, k ≤ n → ∃ p, V.find k = .ok p ∧ At k p
  next : ∀ k p, At k p → k < n → ∃ q, V.next p = .ok q ∧ At (k + 1) q
  prev : ∀ k p, At (k + 1) p → k < n → ∃ q, V.prev p = .ok q ∧ At k q
  plus : ∀ k p (d : Int) (m : Nat), At k p → k ≤ n → m ≤ n → (k : Int) + d = m → ∃ q, V.plus p d = .ok q ∧ At m q
  minus : ∀ k p (d : Int) (m : Nat), At k p → k ≤ n → m ≤ n → (k : Int) - d = m → ∃ q, V.minus p d = .ok q ∧ At m q
  diff : ∀ k m p q, At k p → At m q → k ≤ n → m ≤ n → (anyDiff = true ∨ m ≤ k) → V.diff p q = .ok ((k : Int) - m)
  eq : ∀ k m p q, At k p → At m q → k ≤ n → m ≤ n → V.eq p q = .ok (decide (k = m))
  lt : ∀ k m p q, At k p → At m q → k ≤ n → m ≤ n → V.lt p q = .ok (decide (k < m))
  index : ∀ k p, At k p → k < n → V.index p = .ok (ix k)
  deref : ∀ k p, At k p → k < n → V.deref p = .ok (x k)
  sub : ∀ k p (d : Int) (m : Nat), At k p → k ≤ n → m < n → (k : Int) + d = m → V.sub p d = .ok (x m)
  at_ : ∀ k, k < n → V.at_ (ix k) = .ok (x k)

/-- What a checked build does at the end. -/
structure Guard (V : RVec R) (n : Nat) (subs : Bool) (At : Nat → V.Pos → Prop) : Prop where
  index : ∀ p, At n p → V.index p = .error .badIndex ∨ V.index p = .ok n
  deref : ∀ p, At n p → V.deref p = .error .badIndex
  sub : subs = true → ∀ k p (d : Int), At k p → k ≤ n → (k : Int) + d = n → V.sub p d = .error .badIndex

/-- Iterators that follow positions follow them along every sequence of operations. -/
theorem Law.run {V : RVec R} {n x ix ad At} (L : V.Law n x ix ad At) :
    ∀ (ms : List Move) (k : Nat) (p : V.Pos), At k p → k ≤ n → Stays n k ms →
      ∃ (m : Nat) (q : V.Pos), V.run ms p = .ok q ∧ At m q ∧ m ≤ n ∧ dest k ms = m := by
  intro ms
  induction ms with
  | nil => intro k p h hk _; exact ⟨k, p, rfl, h, hk, rfl⟩
  | cons mv ms ih =>
    intro k p h hk hs
    obtain ⟨h0, h1, h2⟩ := hs
    have key : ∀ (m : Nat) q, mv.step k = m → At m q →
        V.move p mv = .ok q →
        ∃ (m : Nat) (q : V.Pos), V.run (mv :: ms) p = .ok q ∧ At m q ∧ m ≤ n ∧ dest k (mv :: ms) = m := by
      intro m q e ha hq
      rw [e] at h1 h2
      obtain ⟨m', q', e1, e2, e3, e4⟩ := ih m q ha (by omega) h2
      refine ⟨m', q', ?_, e2, e3, ?_⟩
      · rw [RVec.run, hq, bind_ok, e1]
      · rw [dest, e, e4]
    obtain ⟨m, hm⟩ : ∃ m : Nat, mv.step k = m := ⟨(mv.step k).toNat, by omega⟩
    have hm' := hm
    rw [hm] at h1
    cases mv with
    | next =>
      simp only [Move.step] at hm'
      obtain ⟨q, e1, e2⟩ := L.next k p h (by omega)
      exact key m q hm (by rw [show m = k + 1 by omega]; exact e2) e1
    | prev =>
      simp only [Move.step] at hm'
      obtain ⟨q, e1, e2⟩ := L.prev m p (by rw [show m + 1 = k by omega]; exact h) (by omega)
      exact key m q hm e2 e1
    | plus d =>
      obtain ⟨q, e1, e2⟩ := L.plus k p d m h hk (by omega) hm'
      exact key m q hm e2 e1
    | minus d =>
      obtain ⟨q, e1, e2⟩ := L.minus k p d m h hk (by omega) hm'
      exact key m q hm e2 e1

theorem Law.reach {V : RVec R} {n x ix ad At} (L : V.Law n x ix ad At) (s : Bool) (ms : List Move) (h : Stays n (origin n s) ms) :
    ∃ (m : Nat) (q : V.Pos), V.reach s ms = .ok q ∧ At m q ∧ m ≤ n ∧ dest (origin n s) ms = m := by
  cases s with
  | false =>
    obtain ⟨p, e1, e2⟩ := L.find 0 (by omega)
    obtain ⟨m, q, f1, f2⟩ := L.run ms 0 p e2 (by omega) h
    exact ⟨m, q, by simp only [RVec.reach, bound, Bool.false_eq_true, if_false, e1, bind_ok, f1], f2⟩
  | true =>
    obtain ⟨p, e1, e2⟩ := L.find n (by omega)
    obtain ⟨m, q, f1, f2⟩ := L.run ms n p e2 (by omega) h
    exact ⟨m, q, by simp only [RVec.reach, bound, if_true, L.size, e1, bind_ok, f1], f2⟩

theorem Law.randomAccess {V : RVec R} {n x ix ad At} (L : V.Law n x ix ad At) : V.RandomAccess n x ix ad := by
  intro s ms s' ms' hs hs'
  obtain ⟨k, p, e1, e2, e3, e4⟩ := L.reach s ms hs
  obtain ⟨m, q, f1, f2, f3, f4⟩ := L.reach s' ms' hs'
  refine ⟨p, q, e1, f1, ?_⟩
  simp only [e4, f4]
  have hgt := L.lt m k q p f2 e2 f3 e3
  have hlt := L.lt k m p q e2 f2 e3 f3
  have heq := L.eq k m p q e2 f2 e3 f3
  refine ⟨?_, ?_, ?_, ?_, ?_, ?_, ?_, ?_, ?_⟩
  · rw [heq]; simp
  · rw [ne, heq]; simp
  · rw [hlt]; simp
  · rw [le, hgt, bind_ok]; congr 1
    by_cases h : m < k
    · have : ¬ (k ≤ m) := by omega
      simp [h]
    · have : k ≤ m := by omega
      simp [this]
  · rw [gt, hgt]; simp
  · rw [ge, hlt, bind_ok]; congr 1
    by_cases h : k < m
    · have : ¬ (m ≤ k) := by omega
      simp [h]
    · have : m ≤ k := by omega
      simp [this]
  · intro hd
    exact L.diff k m p q e2 f2 e3 f3 (hd.imp id (fun h => by omega))
  · intro h
    have h' : k < n := by omega
    simp only [Int.toNat_natCast]
    exact ⟨L.index k p e2 h', L.deref k p e2 h'⟩
  · intro d h0 h1
    exact L.sub k p d _ e2 e3 (by omega) (by omega)

theorem Law.endRefused {V : RVec R} {n x ix ad At sb} (L : V.Law n x ix ad At) (G : V.Guard n sb At) : V.EndRefused n sb := by
  intro s ms hs
  obtain ⟨k, p, e1, e2, e3, e4⟩ := L.reach s ms hs
  refine ⟨p, e1, ?_, ?_⟩
  · intro h
    exact G.deref p (by rw [← show k = n by omega]; exact e2)
  · intro h
    exact G.sub h k p _ e2 e3 (by omega)

theorem Law.rev {V : RVec R} {n x ix ad At} (L : V.Law n x ix ad At) :
    V.rev.Law n (fun k => x (n - 1 - k)) (fun k => ix (n - 1 - k)) ad (fun k p => k ≤ n ∧ At (n - k) p) where
  size := L.size
  find k hk := by
    obtain ⟨p, e1, e2⟩ := L.find (n - k) (by omega)
    exact ⟨p, by simp only [RVec.rev, L.size, e1], hk, e2⟩
  next k p h hk := by
    obtain ⟨q, e1, e2⟩ := L.prev (n - (k + 1)) p (by rw [show n - (k + 1) + 1 = n - k by omega]; exact h.2) (by omega)
    exact ⟨q, e1, by omega, e2⟩
  prev k p h hk := by
    obtain ⟨q, e1, e2⟩ := L.next (n - (k + 1)) p h.2 (by omega)
    exact ⟨q, e1, by omega, by rw [show n - k = n - (k + 1) + 1 by omega]; exact e2⟩
  plus k p d m h hk hm e := by
    obtain ⟨q, e1, e2⟩ := L.minus (n - k) p d (n - m) h.2 (by omega) (by omega) (by omega)
    exact ⟨q, e1, hm, e2⟩
  minus k p d m h hk hm e := by
    obtain ⟨q, e1, e2⟩ := L.plus (n - k) p d (n - m) h.2 (by omega) (by omega) (by omega)
    exact ⟨q, e1, hm, e2⟩
  diff k m p q hp hq hk hm h := by
    show V.diff q p = _
    rw [L.diff (n - m) (n - k) q p hq.2 hp.2 (by omega) (by omega) (h.imp id (fun h => by omega))]
    congr 1; omega
  eq k m p q hp hq hk hm := by
    show V.eq p q = _
    rw [L.eq (n - k) (n - m) p q hp.2 hq.2 (by omega) (by omega)]
    congr 1; apply decide_eq_decide.2; omega
  lt k m p q hp hq hk hm := by
    show V.lt q p = _
    rw [L.lt (n - m) (n - k) q p hq.2 hp.2 (by omega) (by omega)]
    congr 1; apply decide_eq_decide.2; omega
  index k p h hk := by
    obtain ⟨q, e1, e2⟩ := L.prev (n - 1 - k) p (by rw [show n - 1 - k + 1 = n - k by omega]; exact h.2) (by omega)
    show (V.prev p >>= fun q => V.index q) = _
    rw [e1, bind_ok, L.index _ q e2 (by omega)]
  deref k p h hk := by
    obtain ⟨q, e1, e2⟩ := L.prev (n - 1 - k) p (by rw [show n - 1 - k + 1 = n - k by omega]; exact h.2) (by omega)
    show (V.prev p >>= fun q => V.deref q) = _
    rw [e1, bind_ok, L.deref _ q e2 (by omega)]
  sub k p d m h hk hm e := by
    obtain ⟨r, f1, f2⟩ := L.minus (n - k) p d (n - m) h.2 (by omega) (by omega) (by omega)
    obtain ⟨q, e1, e2⟩ := L.prev (n - 1 - m) r (by rw [show n - 1 - m + 1 = n - m by omega]; exact f2) (by omega)
    show (V.minus p d >>= fun r => V.prev r >>= fun q => V.deref q) = _
    rw [f1, bind_ok, e1, bind_ok, L.deref _ q e2 (by omega)]
  at_ k hk := L.at_ (n - 1 - k) (by omega)

theorem ptr_ok {n : Nat} {k : Int} {m : Nat} (h : m ≤ n) (e : k = m) : ptr n k = .ok m := by
  subst e; rw [ptr, if_pos (by omega)]; rfl

theorem dense_law (dbg : Bool) [Inhabited R] (data : List R) :
    (dense dbg data).Law data.length (fun k => data.getD k default) id true (fun k p => k = p) where
  size := rfl
  find k hk := ⟨k, ptr_ok hk rfl, rfl⟩
  next k p h hk := by subst h; exact ⟨k + 1, ptr_ok (by omega) (by omega), rfl⟩
  prev k p h hk := by subst h; exact ⟨k, ptr_ok (by omega) (by omega), rfl⟩
  plus k p d m h hk hm e := by subst h; exact ⟨m, ptr_ok hm e, rfl⟩
  minus k p d m h hk hm e := by subst h; exact ⟨m, ptr_ok hm e, rfl⟩
  diff k m p q hp hq hk hm h := by subst hp hq; rfl
  eq k m p q hp hq hk hm := by subst hp hq; rfl
  lt k m p q hp hq hk hm := by subst hp hq; rfl
  index k p h hk := by subst h; simp only [dense, check_true hk, bind_ok, id]
  deref k p h hk := by
    subst h; simp only [dense, check_true hk, bind_ok, rd_ok hk]
    simp [List.getD, hk]
  sub k p d m h hk hm e := by
    subst h; simp only [dense, ptr_ok (Nat.le_of_lt hm) e, bind_ok, rd_ok hm]
    simp [List.getD, hm]
  at_ k hk := by
    simp only [dense, id, rd_ok hk]
    simp [List.getD, hk]

theorem dense_guard (data : List R) : (dense true data).Guard data.length false (fun k p => k = p) where
  index p h := by subst h; left; simp only [dense, check_dbg_false (Nat.lt_irrefl _), bind_error]
  deref p h := by subst h; simp only [dense, check_dbg_false (Nat.lt_irrefl _), bind_error]
  sub h := by simp at h

theorem scalar_law (dbg : Bool) (n : Nat) (v : R) (hn : n < 2 ^ 63) :
    (scalar dbg n v).Law n (fun _ => v) id true (fun k p => k = p) where
  size := rfl
  find k hk := ⟨k, rfl, rfl⟩
  next k p h hk := by subst h; exact ⟨_, rfl, by symm; rw [u64_of (by omega) (by omega)]; omega⟩
  prev k p h hk := by subst h; exact ⟨_, rfl, by symm; rw [u64_of (by omega) (by omega)]; omega⟩
  plus k p d m h hk hm e := by subst h; exact ⟨_, rfl, by symm; rw [u64_of (by omega) (by omega)]; omega⟩
  minus k p d m h hk hm e := by subst h; exact ⟨_, rfl, by symm; rw [u64_of (by omega) (by omega)]; omega⟩
  diff k m p q hp hq hk hm h := by subst hp hq; simp only [scalar]; rw [i64_u64 (by omega) (by omega)]
  eq k m p q hp hq hk hm := by subst hp hq; rfl
  lt k m p q hp hq hk hm := by subst hp hq; rfl
  index k p h hk := by subst h; simp only [scalar, check_true hk, bind_ok, id]
  deref k p h hk := by subst h; simp only [scalar, check_true hk, bind_ok]
  sub k p d m h hk hm e := by
    subst h
    have : u64 ((k : Int) + d) = m := by rw [e]; exact u64_nat (by omega)
    simp only [scalar, this, check_true hm, bind_ok]
  at_ k hk := rfl

theorem scalar_guard (n : Nat) (v : R) (hn : n < 2 ^ 63) : (scalar true n v).Guard n true (fun k p => k = p) where
  index p h := by subst h; left; simp only [scalar, check_dbg_false (Nat.lt_irrefl _), bind_error]
  deref p h := by subst h; simp only [scalar, check_dbg_false (Nat.lt_irrefl _), bind_error]
  sub _ k p d h hk e := by
    subst h
    have : u64 ((k : Int) + d) = n := by rw [e]; exact u64_nat (by omega)
    simp only [scalar, this, check_dbg_false (Nat.lt_irrefl _), bind_error]

/-- The counters of selectors. -/
theorem counter_law {guard : Bool} {n first : Nat} {index star at_ : Nat → M Nat} {x : Nat → Nat} (hn : n < 2 ^ 63)
    (hf : first + n < 2 ^ 64)
    (hi : ∀ k, k < n → index (first + k) = .ok k) (hs : ∀ k, k < n → star (first + k) = .ok (x k))
    (ha : ∀ k, k < n → at_ k = .ok (x k)) :
    (counter guard n first index star at_).Law n x id true (fun k p => p = first + k) where
  size := rfl
  find k hk := by
    refine ⟨first + k, ?_, rfl⟩
    simp only [counter]
    rw [i64_of (by omega), check_true (Or.inl (by omega)), bind_ok, u64_of (by omega) (by omega)]
    rfl
  next k p h hk := by
    subst h
    refine ⟨first + (k + 1), ?_, rfl⟩
    simp only [counter]
    rw [u64_of (by omega) (by omega)]
    congr 1
  prev k p h hk := by
    subst h
    refine ⟨first + k, ?_, rfl⟩
    simp only [counter]
    rw [check_true (by omega), bind_ok, u64_of (by omega) (by omega)]
    congr 1; omega
  plus k p d m h hk hm e := by
    subst h
    refine ⟨first + m, ?_, rfl⟩
    simp only [counter]
    have g : d ≥ 0 ∨ first + k ≥ u64 (-d) := by
      by_cases hd : d ≥ 0
      · exact Or.inl hd
      · right; exact u64_le_of (by omega) (by omega)
    rw [check_true g, bind_ok, u64_of (by omega) (by omega)]
    congr 1; omega
  minus k p d m h hk hm e := by
    subst h
    refine ⟨first + m, ?_, rfl⟩
    simp only [counter]
    have g : d ≤ 0 ∨ first + k ≥ u64 d := by
      by_cases hd : d ≤ 0
      · exact Or.inl hd
      · right; exact u64_le_of (by omega) (by omega)
    rw [check_true g, bind_ok, u64_of (by omega) (by omega)]
    congr 1; omega
  diff k m p q hp hq hk hm h := by
    subst hp hq; simp only [counter]; rw [i64_u64 (by omega) (by omega)]
    congr 1; omega
  eq k m p q hp hq hk hm := by
    subst hp hq; simp only [counter]; congr 1; apply decide_eq_decide.2; omega
  lt k m p q hp hq hk hm := by
    subst hp hq; simp only [counter]; congr 1; apply decide_eq_decide.2; omega
  index k p h hk := by subst h; exact hi k hk
  deref k p h hk := by subst h; exact hs k hk
  sub k p d m h hk hm e := by
    subst h
    simp only [counter]
    have g : d ≥ 0 ∨ first + k ≥ u64 (-d) := by
      by_cases hd : d ≥ 0
      · exact Or.inl hd
      · right; exact u64_le_of (by omega) (by omega)
    have e2 : u64 (((first + k : Nat) : Int) + d) = first + m := by rw [u64_of (by omega) (by omega)]; omega
    rw [check_true g, bind_ok, e2, hs m hm]
  at_ k hk := ha k hk

theorem counter_guard {guard : Bool} {n first : Nat} {index star at_ : Nat → M Nat} (hf : first + n < 2 ^ 64)
    (hi : index (first + n) = .error .badIndex ∨ index (first + n) = .ok n) (hs : star (first + n) = .error .badIndex) :
    (counter guard n first index star at_).Guard n true (fun k p => p = first + k) where
  index p h := by subst h; exact hi
  deref p h := by subst h; exact hs
  sub _ k p d h hk e := by
    subst h
    simp only [counter]
    have g : d ≥ 0 ∨ first + k ≥ u64 (-d) := by
      by_cases hd : d ≥ 0
      · exact Or.inl hd
      · right; exact u64_le_of (by omega) (by omega)
    have e2 : u64 (((first + k : Nat) : Int) + d) = first + n := by rw [u64_of (by omega) (by omega)]; omega
    rw [check_true g, bind_ok, e2, hs]

/-- Where the counter of `begin ()` stands. -/
def selFirst : Sel → Nat
  | .range r => r.start
  | _ => 0

theorem ofSel_pos (dbg : Bool) (s : Sel) : (ofSel dbg s).Pos = Nat := by cases s <;> rfl

theorem ofSel_law (dbg : Bool) {s : Sel} {N : Nat} (hN : N < 2 ^ 63) (h : s.Inside N) :
    ∃ At, (ofSel dbg s).Law s.size (fun k => (s.index k).toNat) id true At ∧ (dbg = true → (ofSel dbg s).Guard s.size true At) := by
  obtain ⟨hv, hz, hr⟩ := h
  cases s with
  | range r =>
    simp only [Sel.size] at hz hr
    refine ⟨fun k p => p = r.start + k, ?_, ?_⟩
    · refine counter_law hz (by omega) ?_ ?_ ?_
      · intro k hk
        simp only [VIter.Picker.ofRange]
        rw [check_true (by omega), bind_ok, check_true (by omega), bind_ok, u64_of (by omega) (by omega)]
        congr 1; omega
      · intro k hk
        simp only [VIter.Picker.ofRange]
        rw [check_true (by omega), bind_ok, check_true (by omega), bind_ok]
        simp only [Sel.index]; congr 1
      · intro k hk
        simp only [Range.at_, check_true hk, bind_ok, pure_eq_ok, Sel.index]
        rw [u64_of (by omega) (by omega)]
    · intro hd; subst hd
      refine counter_guard (by omega) (Or.inl ?_) ?_
      · simp only [VIter.Picker.ofRange]
        rw [check_true (by omega), bind_ok, check_dbg_false (by omega), bind_error]
      · simp only [VIter.Picker.ofRange]
        rw [check_true (by omega), bind_ok, check_dbg_false (by omega), bind_error]
  | slice s =>
    simp only [Sel.size] at hz
    refine ⟨fun k p => p = 0 + k, ?_, ?_⟩
    · refine counter_law hz (by omega) ?_ ?_ ?_
      · intro k hk
        simp only [VIter.Picker.ofSlice, Nat.zero_add, check_true hk, bind_ok]
      · intro k hk
        have := hv k hk
        simp only [Sel.index] at this
        simp only [VIter.Picker.ofSlice, Slice.iterDeref, Nat.zero_add, check_true hk, bind_ok, pure_eq_ok, Sel.index]
        rw [u64_of this.1 (by omega)]
      · intro k hk
        have := hv k hk
        exact Slice.at_ok (N := N) (by omega) hk this
    · intro hd; subst hd
      refine counter_guard (by omega) (Or.inl ?_) ?_
      · simp only [VIter.Picker.ofSlice, Nat.zero_add, check_dbg_false (Nat.lt_irrefl _), bind_error]
      · simp only [VIter.Picker.ofSlice, Slice.iterDeref, Nat.zero_add, check_dbg_false (Nat.lt_irrefl _), bind_error]
  | indirect ia =>
    simp only [Sel.size] at hz
    refine ⟨fun k p => p = 0 + k, ?_, ?_⟩
    · refine counter_law hz (by omega) ?_ ?_ ?_
      · intro k hk
        simp only [VIter.Picker.ofIndirect, Nat.zero_add]
      · intro k hk
        have := Sel.at_ok (dbg := dbg) (s := .indirect ia) (N := N) (by omega) hv hk
        simp only [VIter.Picker.ofIndirect, Nat.zero_add]; exact this
      · intro k hk
        exact Sel.at_ok (dbg := dbg) (s := .indirect ia) (N := N) (by omega) hv hk
    · intro hd; subst hd
      refine counter_guard (by omega) (Or.inr ?_) ?_
      · simp only [VIter.Picker.ofIndirect, Nat.zero_add]
      · simp only [VIter.Picker.ofIndirect, Indirect.at_, Nat.zero_add, check_dbg_false (Nat.lt_irrefl _), bind_error]

theorem range_law {dbg : Bool} {V : RVec R} {n x ad At} (L : V.Law n x id ad At) (hn : n < 2 ^ 63) {r : Range} (hr : r.start + r.size ≤ n) :
    (V.range dbg r).Law r.size (fun k => x (r.start + k)) id ad (fun k p => At (r.start + k) p) :=
  have hd : ∀ k p, At (r.start + k) p → k < r.size → (V.range dbg r).deref p = .ok (x (r.start + k)) := by
    intro k p h hk
    have hg : u64 (((r.start + k : Nat) : Int) - r.start) = k := by rw [u64_of (by omega) (by omega)]; omega
    simp only [range]
    rw [L.index _ p h (by omega), L.deref _ p h (by omega)]
    simp only [id, bind_ok, hg, check_true hk]
    split <;> rfl
  { size := rfl
    find := by
      intro k hk
      obtain ⟨p, e1, e2⟩ := L.find (r.start + k) (by omega)
      refine ⟨p, ?_, e2⟩
      simp only [range]
      rw [show u64 ((r.start : Int) + k) = r.start + k by rw [u64_of (by omega) (by omega)]; omega, e1]
    next := by
      intro k p h hk
      exact L.next (r.start + k) p h (by omega)
    prev := by
      intro k p h hk
      exact L.prev (r.start + k) p h (by omega)
    plus := by
      intro k p d m h hk hm e
      exact L.plus _ p d (r.start + m) h (by omega) (by omega) (by omega)
    minus := by
      intro k p d m h hk hm e
      exact L.minus _ p d (r.start + m) h (by omega) (by omega) (by omega)
    diff := by
      intro k m p q hp hq hk hm h
      show V.diff p q = _
      rw [L.diff _ _ p q hp hq (by omega) (by omega) (h.imp id (fun h => by omega))]
      congr 1; omega
    eq := by
      intro k m p q hp hq hk hm
      show V.eq p q = _
      rw [L.eq _ _ p q hp hq (by omega) (by omega)]
      congr 1; apply decide_eq_decide.2; omega
    lt := by
      intro k m p q hp hq hk hm
      show V.lt p q = _
      rw [L.lt _ _ p q hp hq (by omega) (by omega)]
      congr 1; apply decide_eq_decide.2; omega
    index := by
      intro k p h hk
      simp only [range]
      rw [L.index _ p h (by omega), bind_ok, id, u64_of (by omega) (by omega)]
      congr 1; simp only [id]; omega
    deref := hd
    sub := by
      intro k p d m h hk hm e
      obtain ⟨q, e1, e2⟩ := L.plus _ p d (r.start + m) h (by omega) (by omega) (by omega)
      show (V.plus p d >>= fun q => (V.range dbg r).deref q) = _
      rw [e1, bind_ok, hd m q e2 hm]
    at_ := by
      intro k hk
      simp only [range, Range.at_, id, check_true hk, bind_ok, pure_eq_ok]
      rw [show u64 ((r.start : Int) + k) = r.start + k by rw [u64_of (by omega) (by omega)]; omega]
      exact L.at_ _ (by omega) }

theorem range_guard {V : RVec R} {n x ad At sb} (L : V.Law n x id ad At) (G : V.Guard n sb At) (hn : n < 2 ^ 63) {r : Range}
    (hr : r.start + r.size ≤ n) : (V.range true r).Guard r.size true (fun k p => At (r.start + k) p) :=
  have hg : u64 (((r.start + r.size : Nat) : Int) - r.start) = r.size := by rw [u64_of (by omega) (by omega)]; omega
  have hi : ∀ p, At (r.start + r.size) p → V.index p = .error .badIndex ∨ V.index p = .ok (r.start + r.size) := by
    intro p h
    by_cases hl : r.start + r.size < n
    · right; exact L.index _ p h hl
    · have : r.start + r.size = n := by omega
      rw [this] at h ⊢
      exact G.index p h
  have hd : ∀ p, At (r.start + r.size) p → (V.range true r).deref p = .error .badIndex := by
    intro p h
    simp only [range, if_true]
    rcases hi p h with e | e
    · rw [e, bind_error, bind_error]
    · rw [e, bind_ok, hg, check_dbg_false (Nat.lt_irrefl _), bind_error]
  { index := by
      intro p h
      simp only [range]
      rcases hi p h with e | e
      · left; rw [e, bind_error]
      · right; rw [e, bind_ok, hg]
    deref := hd
    sub := by
      intro _ k p d h hk e
      obtain ⟨q, e1, e2⟩ := L.plus _ p d (r.start + r.size) h (by omega) (by omega) (by omega)
      show (V.plus p d >>= fun q => (V.range true r).deref q) = _
      rw [e1, bind_ok, hd q e2] }

theorem picked_law {dbg : Bool} {V : RVec R} {n x ad At} (L : V.Law n x id ad At) {S : RVec Nat} {n' : Nat} {y : Nat → Nat} {ad' At'}
    (LS : S.Law n' y id ad' At') (hy : ∀ k, k < n' → y k < n) :
    (V.picked dbg S).Law n' (fun k => x (y k)) id ad' At' :=
  have hd : ∀ k p, At' k p → k < n' → (V.picked dbg S).deref p = .ok (x (y k)) := by
    intro k p h hk
    simp only [picked]
    rw [LS.index k p h hk, LS.deref k p h hk]
    simp only [id, bind_ok, LS.size, check_true hk]
    have := L.at_ (y k) (hy k hk)
    simp only [id] at this
    split <;> simpa only [bind_ok] using this
  { size := LS.size
    find := LS.find
    next := LS.next
    prev := LS.prev
    plus := LS.plus
    minus := LS.minus
    diff := LS.diff
    eq := LS.eq
    lt := LS.lt
    index := LS.index
    deref := hd
    sub := by
      intro k p d m h hk hm e
      obtain ⟨q, e1, e2⟩ := LS.plus k p d m h hk (by omega) e
      show (S.plus p d >>= fun q => (V.picked dbg S).deref q) = _
      rw [e1, bind_ok, hd m q e2 hm]
    at_ := by
      intro k hk
      have h1 := LS.at_ k hk
      have h2 := L.at_ (y k) (hy k hk)
      simp only [id] at h1 h2
      simp only [picked, id]
      rw [h1, bind_ok, h2] }

theorem picked_guard {V : RVec R} {S : RVec Nat} {n' : Nat} {y : Nat → Nat} {ad' At' sb}
    (LS : S.Law n' y id ad' At') (G : S.Guard n' sb At') : (V.picked true S).Guard n' true At' :=
  have hd : ∀ p, At' n' p → (V.picked true S).deref p = .error .badIndex := by
    intro p h
    simp only [picked, if_true]
    rcases G.index p h with e | e
    · rw [e, bind_error, bind_error]
    · rw [e, bind_ok, LS.size, check_dbg_false (Nat.lt_irrefl _), bind_error]
  { index := G.index
    deref := hd
    sub := by
      intro _ k p d h hk e
      obtain ⟨q, e1, e2⟩ := LS.plus k p d n' h hk (by omega) e
      show (S.plus p d >>= fun q => (V.picked true S).deref q) = _
      rw [e1, bind_ok, hd q e2] }

theorem map_law {V : RVec R} {n x ad At} (f : R → R) (L : V.Law n x id ad At) : (V.map f).Law n (fun k => f (x k)) id ad At :=
  have hd : ∀ k p, At k p → k < n → (V.map f).deref p = .ok (f (x k)) := by
    intro k p h hk
    simp only [map]
    rw [L.deref k p h hk, bind_ok]
  { size := L.size
    find := L.find
    next := L.next
    prev := L.prev
    plus := L.plus
    minus := L.minus
    diff := L.diff
    eq := L.eq
    lt := L.lt
    index := L.index
    deref := hd
    sub := by
      intro k p d m h hk hm e
      obtain ⟨q, e1, e2⟩ := L.plus k p d m h hk (by omega) e
      show (V.plus p d >>= fun q => (V.map f).deref q) = _
      rw [e1, bind_ok, hd m q e2 hm]
    at_ := by
      intro k hk
      simp only [map]
      rw [L.at_ k hk, bind_ok] }

theorem map_guard {V : RVec R} {n x ad At sb} (f : R → R) (L : V.Law n x id ad At) (G : V.Guard n sb At) : (V.map f).Guard n true At :=
  have hd : ∀ p, At n p → (V.map f).deref p = .error .badIndex := by
    intro p h
    simp only [map]
    rw [G.deref p h, bind_error]
  { index := G.index
    deref := hd
    sub := by
      intro _ k p d h hk e
      obtain ⟨q, e1, e2⟩ := L.plus k p d n h hk (by omega) e
      show (V.plus p d >>= fun q => (V.map f).deref q) = _
      rw [e1, bind_ok, hd q e2] }

theorem headIndex_ok {V : RVec R} {n x ad At} (L : V.Law n x id ad At) {k : Nat} {p e : V.Pos} (hp : At k p) (hk : k ≤ n) (he : At n e) :
    V.headIndex n p e = .ok k := by
  simp only [headIndex, ne]
  rw [L.eq k n p e hp he hk (Nat.le_refl _)]
  by_cases h : k = n
  · simp [h]
  · have := L.index k p hp (by omega)
    simp only [h, decide_false, Bool.not_false, bind_ok, if_true, this, id]

theorem map2_law {dbg : Bool} {V W : RVec R} {n x y ad ad' At At'} (f : R → R → R) (hn : n < 2 ^ 63) (L : V.Law n x id ad At)
    (L' : W.Law n y id ad' At') :
    (map2 dbg f V W).Law n (fun k => f (x k) (y k)) id true (fun k t => t.i = k ∧ At k t.p ∧ At' k t.q) :=
  have hd : ∀ k (t : Two V.Pos W.Pos), At k t.p → At' k t.q → k < n → (map2 dbg f V W).deref t = .ok (f (x k) (y k)) := by
    intro k t h h' hk
    simp only [map2]
    rw [L.deref k t.p h hk, bind_ok, L'.deref k t.q h' hk, bind_ok]
  have hp : ∀ k (t : Two V.Pos W.Pos) (d : Int) (m : Nat), t.i = k → At k t.p → At' k t.q → k ≤ n → m ≤ n → (k : Int) + d = m →
      ∃ u, (map2 dbg f V W).plus t d = .ok u ∧ u.i = m ∧ At m u.p ∧ At' m u.q := by
    intro k t d m hi h h' hk hm e
    obtain ⟨p, e1, e2⟩ := L.plus k t.p d m h hk hm e
    obtain ⟨q, f1, f2⟩ := L'.plus k t.q d m h' hk hm e
    refine ⟨⟨u64 (t.i + d), p, q⟩, ?_, ?_, e2, f2⟩
    · simp only [map2]
      rw [e1, bind_ok, f1, bind_ok]
    · show u64 (t.i + d) = m
      rw [hi, e]; exact u64_nat (by omega)
  { size := L.size
    find := by
      intro k hk
      obtain ⟨p, e1, e2⟩ := L.find k hk
      obtain ⟨q, f1, f2⟩ := L'.find k hk
      obtain ⟨pe, g1, g2⟩ := L.find n (Nat.le_refl _)
      obtain ⟨qe, h1, h2⟩ := L'.find n (Nat.le_refl _)
      refine ⟨⟨k, p, q⟩, ?_, rfl, e2, f2⟩
      simp only [map2, L.size, L'.size, same, check_True, pure_eq_ok, bind_ok, e1, f1, g1, h1, headIndex_ok L e2 hk g2,
        headIndex_ok L' f2 hk h2, Nat.min_self]
    next := by
      intro k t h hk
      obtain ⟨p, e1, e2⟩ := L.next k t.p h.2.1 hk
      obtain ⟨q, f1, f2⟩ := L'.next k t.q h.2.2 hk
      refine ⟨⟨u64 (t.i + 1), p, q⟩, ?_, ?_, e2, f2⟩
      · simp only [map2]
        rw [e1, bind_ok, f1, bind_ok]
      · show u64 (t.i + 1) = k + 1
        rw [h.1, u64_of (by omega) (by omega)]; omega
    prev := by
      intro k t h hk
      obtain ⟨p, e1, e2⟩ := L.prev k t.p h.2.1 hk
      obtain ⟨q, f1, f2⟩ := L'.prev k t.q h.2.2 hk
      refine ⟨⟨u64 (t.i - 1), p, q⟩, ?_, ?_, e2, f2⟩
      · simp only [map2]
        rw [e1, bind_ok, f1, bind_ok]
      · show u64 (t.i - 1) = k
        rw [h.1, u64_of (by omega) (by omega)]; omega
    plus := by
      intro k t d m h hk hm e
      exact hp k t d m h.1 h.2.1 h.2.2 hk hm e
    minus := by
      intro k t d m h hk hm e
      obtain ⟨p, e1, e2⟩ := L.minus k t.p d m h.2.1 hk hm e
      obtain ⟨q, f1, f2⟩ := L'.minus k t.q d m h.2.2 hk hm e
      refine ⟨⟨u64 (t.i - d), p, q⟩, ?_, ?_, e2, f2⟩
      · simp only [map2]
        rw [e1, bind_ok, f1, bind_ok]
      · show u64 (t.i - d) = m
        rw [h.1, e]; exact u64_nat (by omega)
    diff := by
      intro k m t u ht hu hk hm _
      simp only [map2]
      rw [ht.1, hu.1, i64_u64 (by omega) (by omega)]
    eq := by
      intro k m t u ht hu hk hm
      simp only [map2]
      rw [ht.1, hu.1]
    lt := by
      intro k m t u ht hu hk hm
      simp only [map2]
      rw [ht.1, hu.1]
    index := by
      intro k t h hk
      simp only [map2]
      rw [h.1]; rfl
    deref := fun k t h hk => hd k t h.2.1 h.2.2 hk
    sub := by
      intro k t d m h hk hm e
      obtain ⟨u, e1, e2, e3, e4⟩ := hp k t d m h.1 h.2.1 h.2.2 hk (by omega) e
      show ((map2 dbg f V W).plus t d >>= fun q => (map2 dbg f V W).deref q) = _
      rw [e1, bind_ok, hd m u e3 e4 hm]
    at_ := by
      intro k hk
      simp only [map2]
      rw [L.at_ k hk, bind_ok, L'.at_ k hk, bind_ok] }

theorem map2_guard {V W : RVec R} {n x y ad ad' At At' sb sb'} (f : R → R → R) (hn : n < 2 ^ 63) (L : V.Law n x id ad At)
    (L' : W.Law n y id ad' At') (G : V.Guard n sb At) (G' : W.Guard n sb' At') :
    (map2 true f V W).Guard n true (fun k t => t.i = k ∧ At k t.p ∧ At' k t.q) :=
  have hd : ∀ (t : Two V.Pos W.Pos), At n t.p → (map2 true f V W).deref t = .error .badIndex := by
    intro t h
    simp only [map2]
    rw [G.deref t.p h, bind_error]
  { index := by
      intro t h
      right; simp only [map2]; rw [h.1]
    deref := fun t h => hd t h.2.1
    sub := by
      intro _ k t d h hk e
      obtain ⟨u, e1, e2⟩ := (map2_law (dbg := true) f hn L L').plus k t d n h hk (by omega) e
      show ((map2 true f V W).plus t d >>= fun q => (map2 true f V W).deref q) = _
      rw [e1, bind_ok, hd u e2.2.1] }

theorem diag_law {dbg : Bool} {get : Nat → Nat → M R} {S T : RVec Nat} {n : Nat} {y z : Nat → Nat} {x : Nat → R} {At At'}
    (L : S.Law n y id true At) (L' : T.Law n z id true At') (hg : ∀ k, k < n → get (y k) (z k) = .ok (x k)) :
    (diag dbg get S T).Law n x id true (fun k t => At k t.1 ∧ At' k t.2) :=
  have hd : ∀ k (t : S.Pos × T.Pos), At k t.1 → At' k t.2 → k < n → (diag dbg get S T).deref t = .ok (x k) := by
    intro k t h h' hk
    simp only [diag]
    rw [L.deref k t.1 h hk, bind_ok, L'.deref k t.2 h' hk, bind_ok, hg k hk]
  have hp : ∀ k (t : S.Pos × T.Pos) (d : Int) (m : Nat), At k t.1 → At' k t.2 → k ≤ n → m ≤ n → (k : Int) + d = m →
      ∃ u, (diag dbg get S T).plus t d = .ok u ∧ At m u.1 ∧ At' m u.2 := by
    intro k t d m h h' hk hm e
    obtain ⟨p, e1, e2⟩ := L.plus k t.1 d m h hk hm e
    obtain ⟨q, f1, f2⟩ := L'.plus k t.2 d m h' hk hm e
    refine ⟨⟨p, q⟩, ?_, e2, f2⟩
    simp only [diag]
    rw [e1, bind_ok, f1, bind_ok]
  { size := L.size
    find := by
      intro k hk
      obtain ⟨p, e1, e2⟩ := L.find k hk
      obtain ⟨q, f1, f2⟩ := L'.find k hk
      exact ⟨⟨p, q⟩, by simp only [diag, e1, f1, bind_ok], e2, f2⟩
    next := by
      intro k t h hk
      obtain ⟨p, e1, e2⟩ := L.next k t.1 h.1 hk
      obtain ⟨q, f1, f2⟩ := L'.next k t.2 h.2 hk
      exact ⟨⟨p, q⟩, by simp only [diag, e1, f1, bind_ok], e2, f2⟩
    prev := by
      intro k t h hk
      obtain ⟨p, e1, e2⟩ := L.prev k t.1 h.1 hk
      obtain ⟨q, f1, f2⟩ := L'.prev k t.2 h.2 hk
      exact ⟨⟨p, q⟩, by simp only [diag, e1, f1, bind_ok], e2, f2⟩
    plus := by
      intro k t d m h hk hm e
      exact hp k t d m h.1 h.2 hk hm e
    minus := by
      intro k t d m h hk hm e
      obtain ⟨p, e1, e2⟩ := L.minus k t.1 d m h.1 hk hm e
      obtain ⟨q, f1, f2⟩ := L'.minus k t.2 d m h.2 hk hm e
      exact ⟨⟨p, q⟩, by simp only [diag, e1, f1, bind_ok], e2, f2⟩
    diff := by
      intro k m t u ht hu hk hm _
      simp only [diag]
      rw [L.diff k m t.1 u.1 ht.1 hu.1 hk hm (Or.inl rfl), L'.diff k m t.2 u.2 ht.2 hu.2 hk hm (Or.inl rfl)]
      simp only [bind_ok, sameInt, check_true, Int.lt_irrefl, if_false, ite_self]
    eq := by
      intro k m t u ht hu hk hm
      simp only [diag]
      rw [L.eq k m t.1 u.1 ht.1 hu.1 hk hm, L'.eq k m t.2 u.2 ht.2 hu.2 hk hm, bind_ok]
      by_cases h : k = m <;> simp [h]
    lt := by
      intro k m t u ht hu hk hm
      simp only [diag]
      rw [L.lt k m t.1 u.1 ht.1 hu.1 hk hm, L'.lt k m t.2 u.2 ht.2 hu.2 hk hm, bind_ok]
      by_cases h : k < m <;> simp [h]
    index := by
      intro k t h hk
      simp only [diag]
      rw [L.index k t.1 h.1 hk, L'.index k t.2 h.2 hk]
      simp only [bind_ok, same, check_true, pure_eq_ok, id]
    deref := fun k t h hk => hd k t h.1 h.2 hk
    sub := by
      intro k t d m h hk hm e
      obtain ⟨u, e1, e2, e3⟩ := hp k t d m h.1 h.2 hk (by omega) e
      show ((diag dbg get S T).plus t d >>= fun q => (diag dbg get S T).deref q) = _
      rw [e1, bind_ok, hd m u e2 e3 hm]
    at_ := by
      intro k hk
      have h1 := L.at_ k hk
      have h2 := L'.at_ k hk
      simp only [id] at h1 h2
      simp only [diag, id]
      rw [h1, bind_ok, h2, bind_ok, hg k hk] }

theorem diag_guard {get : Nat → Nat → M R} {S T : RVec Nat} {n : Nat} {y z : Nat → Nat} {At At' sb sb'}
    (L : S.Law n y id true At) (L' : T.Law n z id true At') (G : S.Guard n sb At) (G' : T.Guard n sb' At') :
    (diag true get S T).Guard n true (fun k t => At k t.1 ∧ At' k t.2) :=
  have hd : ∀ (t : S.Pos × T.Pos), At n t.1 → (diag true get S T).deref t = .error .badIndex := by
    intro t h
    simp only [diag]
    rw [G.deref t.1 h, bind_error]
  { index := by
      intro t h
      simp only [diag]
      rcases G.index t.1 h.1 with e | e
      · left; rw [e, bind_error]
      · rcases G'.index t.2 h.2 with e' | e'
        · left; rw [e, bind_ok, e', bind_error]
        · right; rw [e, bind_ok, e', bind_ok]; simp only [same, check_true, bind_ok, pure_eq_ok]
    deref := fun t h => hd t h.1
    sub := by
      intro _ k t d h hk e
      obtain ⟨p, e1, e2⟩ := L.plus k t.1 d n h.1 hk (by omega) e
      obtain ⟨q, f1, f2⟩ := L'.plus k t.2 d n h.2 hk (by omega) e
      simp only [diag]
      rw [e1, bind_ok, f1, bind_ok, bind_ok, G.deref p e2, bind_error] }

theorem u64_shift {a b : Nat} {x : Int} (hb : b < 2 ^ 64) (e : (a : Int) + x = b) : u64 ((a : Int) + u64 x) = b := by
  have h1 := u64_cast x
  have h2 := u64_cast ((a : Int) + u64 x)
  omega

theorem u64_shift_sub {a b : Nat} {x : Int} (hb : b < 2 ^ 64) (e : (a : Int) - x = b) : u64 ((a : Int) - u64 x) = b := by
  have h1 := u64_cast x
  have h2 := u64_cast ((a : Int) - u64 x)
  omega

/-- What is needed of the layout: position `k` of the line is at offset `c + k * st`, and the indices computed from that offset are right. -/
structure Lay (o : Orient) (ax : Axis) (m : Dense R) (l c : Nat) : Prop where
  pos : 0 < stride o ax m
  top : c + CMat.along ax m.size1 m.size2 * stride o ax m < 2 ^ 63
  addr : ∀ k, o.elementRaw (CMat.along ax k l) m.size1 (CMat.along ax l k) m.size2 = c + k * stride o ax m
  idx : ∀ k, k < CMat.along ax m.size1 m.size2 →
    o.indexI (c + k * stride o ax m) m.size1 m.size2 = CMat.along ax k l ∧ o.indexJ (c + k * stride o ax m) m.size1 m.size2 = CMat.along ax l k

theorem line_law {dbg : Bool} [Inhabited R] {o : Orient} {ax : Axis} {m : Dense R} {l c : Nat} (Y : Lay o ax m l c) {ad : Bool}
    (hdata : m.data.length = m.size1 * m.size2) (hl : l < CMat.along ax m.size2 m.size1)
    (hel : ∀ k, k < CMat.along ax m.size1 m.size2 → c + k * stride o ax m < m.data.length)
    (hdiff : ∀ k j : Nat, k ≤ CMat.along ax m.size1 m.size2 → j ≤ CMat.along ax m.size1 m.size2 → (ad = true ∨ j ≤ k) →
      distance o ax m (((c + k * stride o ax m : Nat) : Int) - (c + j * stride o ax m : Nat)) = (k : Int) - j) :
    (line dbg o ax m l).Law (CMat.along ax m.size1 m.size2) (fun k => m.data.getD (c + k * stride o ax m) default) id ad
      (fun k p => p = c + k * stride o ax m) :=
  have top : ∀ k, k ≤ CMat.along ax m.size1 m.size2 → c + k * stride o ax m < 2 ^ 63 := by
    intro k hk
    have := Nat.mul_le_mul_right (stride o ax m) hk
    have := Y.top
    omega
  have hd : ∀ k p, p = c + k * stride o ax m → k < CMat.along ax m.size1 m.size2 →
      (line dbg o ax m l).deref p = .ok (m.data.getD (c + k * stride o ax m) default) := by
    intro k p h hk
    subst h
    obtain ⟨h1, h2⟩ := Y.idx k hk
    simp only [line]
    rw [h1, h2]
    have g1 : CMat.along ax (CMat.along ax k l) (CMat.along ax l k) < CMat.along ax m.size1 m.size2 := by
      cases ax <;> simpa [CMat.along] using hk
    have g2 : CMat.along ax k l < m.size1 := by
      cases ax
      · simpa [CMat.along] using hk
      · simpa [CMat.along] using hl
    have g3 : CMat.along ax l k < m.size2 := by
      cases ax
      · simpa [CMat.along] using hl
      · simpa [CMat.along] using hk
    rw [check_true g1, bind_ok, check_true g2, bind_ok, check_true g3, bind_ok, rd_ok (hel k hk)]
    simp [List.getD, hel k hk]
  have hp : ∀ (k : Nat) (p : Nat) (d : Int) (j : Nat), p = c + k * stride o ax m → k ≤ CMat.along ax m.size1 m.size2 →
      j ≤ CMat.along ax m.size1 m.size2 → (k : Int) + d = j →
      ∃ q, (line dbg o ax m l).plus p d = .ok q ∧ q = c + j * stride o ax m := by
    intro k p d j h hk hj e
    subst h
    refine ⟨_, rfl, ?_⟩
    have := top j hj
    apply u64_shift (by omega)
    have : d = (j : Int) - k := by omega
    subst this
    push_cast
    ring
  { size := rfl
    find := by
      intro k hk
      refine ⟨c + k * stride o ax m, ?_, rfl⟩
      have := Y.addr k
      cases ax <;> simp only [CMat.along] at this hk hl <;> simp only [line, Orient.address] <;>
        rw [check_true (by omega), bind_ok, check_true (by omega), bind_ok, this] <;> rfl
    next := by
      intro k p h hk
      subst h
      refine ⟨c + (k + 1) * stride o ax m, ?_, rfl⟩
      have := top (k + 1) (by omega)
      have e : (k + 1) * stride o ax m = k * stride o ax m + stride o ax m := by ring
      show (Except.ok (u64 (((c + k * stride o ax m : Nat) : Int) + stride o ax m)) : M Nat) = .ok (c + (k + 1) * stride o ax m)
      rw [e] at this ⊢
      generalize k * stride o ax m = t at this ⊢
      generalize stride o ax m = st at this ⊢
      rw [u64_of (by omega) (by omega)]; congr 1; omega
    prev := by
      intro k p h hk
      subst h
      refine ⟨c + k * stride o ax m, ?_, rfl⟩
      have := top (k + 1) (by omega)
      have e : (k + 1) * stride o ax m = k * stride o ax m + stride o ax m := by ring
      show (Except.ok (u64 (((c + (k + 1) * stride o ax m : Nat) : Int) - stride o ax m)) : M Nat) = .ok (c + k * stride o ax m)
      rw [e] at this ⊢
      generalize k * stride o ax m = t at this ⊢
      generalize stride o ax m = st at this ⊢
      rw [u64_of (by omega) (by omega)]; congr 1; omega
    plus := hp
    minus := by
      intro k p d j h hk hj e
      subst h
      refine ⟨_, rfl, ?_⟩
      have := top j hj
      apply u64_shift_sub (by omega)
      have : d = (k : Int) - j := by omega
      subst this
      push_cast
      ring
    diff := by
      intro k j p q h h' hk hj hh
      subst h h'
      show Except.ok _ = _
      rw [hdiff k j hk hj hh]
    eq := by
      intro k j p q h h' hk hj
      subst h h'
      show Except.ok _ = _
      congr 1; apply decide_eq_decide.2
      constructor
      · intro e; exact Nat.eq_of_mul_eq_mul_right Y.pos (by omega)
      · intro e; rw [e]
    lt := by
      intro k j p q h h' hk hj
      subst h h'
      show Except.ok _ = _
      congr 1; apply decide_eq_decide.2
      constructor
      · intro e; exact Nat.lt_of_mul_lt_mul_right (a := stride o ax m) (by omega)
      · intro e; have := Nat.mul_lt_mul_of_pos_right e Y.pos; omega
    index := by
      intro k p h hk
      subst h
      obtain ⟨h1, h2⟩ := Y.idx k hk
      simp only [line]
      rw [h1, h2]
      cases ax <;> rfl
    deref := hd
    sub := by
      intro k p d j h hk hj e
      obtain ⟨q, e1, e2⟩ := hp k p d j h hk (by omega) e
      show ((line dbg o ax m l).plus p d >>= fun q => (line dbg o ax m l).deref q) = _
      rw [e1, bind_ok, hd j q e2 hj]
    at_ := by
      intro k hk
      have := Y.addr k
      have h2 := hel k hk
      cases ax <;> simp only [CMat.along] at this hk hl <;> simp only [line, Dense.get, Orient.element, id] <;>
        rw [check_true (by omega), bind_ok, check_true (by omega), bind_ok, this, pure_eq_ok, bind_ok, rd_ok h2] <;> simp [List.getD, h2] }

theorem lay_row_one {m : Dense R} {l : Nat} (hl : l < m.size2) (h : (m.size1 + 1) * (m.size2 + 1) < 2 ^ 63) : Lay .row .one m l l where
  pos := by simp only [stride]; omega
  top := by simp only [stride, CMat.along]; nlinarith
  addr k := by simp only [stride, CMat.along, Orient.elementRaw]; omega
  idx k hk := by
    simp only [stride, CMat.along, Orient.indexI, Orient.indexJ]
    rw [if_pos (by omega), if_pos (by omega)]
    constructor
    · rw [Nat.add_mul_div_right _ _ (by omega), Nat.div_eq_of_lt hl]; omega
    · rw [Nat.add_mul_mod_self_right, Nat.mod_eq_of_lt hl]

theorem lay_col_two {m : Dense R} {l : Nat} (hl : l < m.size1) (h : (m.size1 + 1) * (m.size2 + 1) < 2 ^ 63) : Lay .col .two m l l where
  pos := by simp only [stride]; omega
  top := by simp only [stride, CMat.along]; nlinarith
  addr k := by simp only [stride, CMat.along, Orient.elementRaw]
  idx k hk := by
    simp only [stride, CMat.along, Orient.indexI, Orient.indexJ]
    rw [if_pos (by omega), if_pos (by omega)]
    constructor
    · rw [Nat.add_mul_mod_self_right, Nat.mod_eq_of_lt hl]
    · rw [Nat.add_mul_div_right _ _ (by omega), Nat.div_eq_of_lt hl]; omega

theorem lay_row_two {m : Dense R} {l : Nat} (hl : l < m.size1) (h : (m.size1 + 1) * (m.size2 + 1) < 2 ^ 63) :
    Lay .row .two m l (l * m.size2) where
  pos := by simp only [stride]; omega
  top := by simp only [stride, CMat.along]; nlinarith
  addr k := by simp only [stride, CMat.along, Orient.elementRaw]; omega
  idx k hk := by
    simp only [stride, CMat.along, Orient.indexI, Orient.indexJ] at hk ⊢
    rw [if_pos (by omega), if_pos (by omega), Nat.mul_one, Nat.add_comm]
    constructor
    · rw [Nat.add_mul_div_right _ _ (by omega), Nat.div_eq_of_lt hk]; omega
    · rw [Nat.add_mul_mod_self_right, Nat.mod_eq_of_lt hk]

theorem lay_col_one {m : Dense R} {l : Nat} (hl : l < m.size2) (h : (m.size1 + 1) * (m.size2 + 1) < 2 ^ 63) :
    Lay .col .one m l (l * m.size1) where
  pos := by simp only [stride]; omega
  top := by simp only [stride, CMat.along]; nlinarith
  addr k := by simp only [stride, CMat.along, Orient.elementRaw]; omega
  idx k hk := by
    simp only [stride, CMat.along, Orient.indexI, Orient.indexJ] at hk ⊢
    rw [if_pos (by omega), if_pos (by omega), Nat.mul_one, Nat.add_comm]
    constructor
    · rw [Nat.add_mul_mod_self_right, Nat.mod_eq_of_lt hk]
    · rw [Nat.add_mul_div_right _ _ (by omega), Nat.div_eq_of_lt hk]; omega

/-- A difference that is not negative survives the division in `size_type`. -/
theorem quotient_ok {c k j st n : Nat} (hs : 0 < st) (hn : c + n * st < 2 ^ 63) (hk : k ≤ n) (h : j ≤ k) :
    i64 (u64 (((c + k * st : Nat) : Int) - (c + j * st : Nat)) / st) = (k : Int) - j := by
  obtain ⟨d, rfl⟩ := Nat.exists_eq_add_of_le h
  have e : (((c + (j + d) * st : Nat) : Int) - (c + j * st : Nat)) = ((d * st : Nat) : Int) := by push_cast; ring
  have h1 : d * st ≤ n * st := Nat.mul_le_mul_right _ (by omega)
  have h2 : d ≤ d * st := Nat.le_mul_of_pos_right _ hs
  rw [e, u64_nat (by omega), Nat.mul_div_cancel _ hs, i64_of (by omega)]
  omega

/-- The lines that stride over storage notice their end. -/
theorem line_guard {o : Orient} {ax : Axis} {m : Dense R} {l : Nat} [Inhabited R] {x ad}
    (L : (line true o ax m l).Law (CMat.along ax m.size1 m.size2) x id ad (fun k p => p = l + k * stride o ax m))
    (hi : CMat.along ax (o.indexI (l + CMat.along ax m.size1 m.size2 * stride o ax m) m.size1 m.size2)
      (o.indexJ (l + CMat.along ax m.size1 m.size2 * stride o ax m) m.size1 m.size2) = CMat.along ax m.size1 m.size2) :
    (line true o ax m l).Guard (CMat.along ax m.size1 m.size2) true (fun k p => p = l + k * stride o ax m) :=
  have hd : ∀ p, p = l + CMat.along ax m.size1 m.size2 * stride o ax m → (line true o ax m l).deref p = .error .badIndex := by
    intro p h
    subst h
    simp only [line]
    rw [hi, check_dbg_false (Nat.lt_irrefl _), bind_error]
  { index := by
      intro p h
      subst h
      right
      simp only [line]
      rw [hi]
    deref := hd
    sub := by
      intro _ k p d h hk e
      obtain ⟨q, e1, e2⟩ := L.plus k p d _ h hk (Nat.le_refl _) e
      show ((line true o ax m l).plus p d >>= fun q => (line true o ax m l).deref q) = _
      rw [e1, bind_ok, hd q e2] }

theorem row_lt {a b i j : Nat} (hi : i < a) (hj : j < b) : j + i * b < a * b := by
  have : (i + 1) * b ≤ a * b := Nat.mul_le_mul_right _ hi
  have : (i + 1) * b = i * b + b := by ring
  omega

end RVec

namespace RExp
open RVec

theorem size_lt (e : RExp R) (h : e.Ok) : e.size < 2 ^ 63 := by
  induction e with
  | dense data => exact h
  | scalar n v => exact h
  | line o ax m l =>
    obtain ⟨_, h2, h3⟩ := h
    cases ax <;> simp only [size, CMat.along] at h2 ⊢ <;> nlinarith
  | diag o m s t => exact h.2.2.2.1.2.1
  | proxy e s ih => exact h.2.2.1
  | map f e ih => exact ih h
  | map2 f e e' ih ih' => exact ih h.1

theorem law (dbg : Bool) [Inhabited R] (e : RExp R) (h : e.Ok) :
    ∃ At, (e.iters dbg).Law e.size e.val id e.anyDiff At ∧
      (dbg = true → e.guarded = true → (e.iters dbg).Guard e.size e.guardedSub At) := by
  induction e with
  | dense data =>
    refine ⟨_, dense_law dbg data, ?_⟩
    intro hd _; subst hd; exact dense_guard data
  | scalar n v =>
    refine ⟨_, scalar_law dbg n v h, ?_⟩
    intro hd _; subst hd; exact scalar_guard n v h
  | line o ax m l =>
    obtain ⟨h1, h2, h3⟩ := h
    cases o <;> cases ax <;> simp only [CMat.along] at h2
    · have Y := lay_row_one h2 h3
      have ht := Y.top
      have L : (RVec.line dbg .row .one m l).Law _ _ id false _ := line_law Y h1 h2
        (by intro k hk; rw [h1]; simp only [CMat.along] at hk; exact row_lt hk h2)
        (by
          intro k j hk hj hh
          simp only [Bool.false_eq_true, false_or] at hh
          simp only [distance, stride]
          rw [if_pos (by omega)]
          exact quotient_ok (n := m.size1) (by omega) ht hk hh)
      have hv : (fun k => m.data.getD (l + k * stride .row .one m) default) = (RExp.line .row .one m l).val := by
        funext k
        simp only [val]
        have := Y.addr k
        simp only [CMat.along] at this
        rw [this]
      rw [hv] at L
      refine ⟨_, L, ?_⟩
      · intro hd _; subst hd
        refine line_guard L ?_
        simp only [CMat.along, stride, Orient.indexI]
        rw [if_pos (by omega), Nat.add_mul_div_right _ _ (by omega), Nat.div_eq_of_lt h2]; omega
    · have Y := lay_row_two h2 h3
      have ht := Y.top
      have L : (RVec.line dbg .row .two m l).Law _ _ id true _ := line_law Y h1 h2
        (by intro k hk; rw [h1]; simp only [CMat.along] at hk; simp only [stride]; have := row_lt h2 hk; omega)
        (by
          intro k j hk hj hh
          simp only [distance, stride]
          omega)
      have hv : (fun k => m.data.getD (l * m.size2 + k * stride .row .two m) default) = (RExp.line .row .two m l).val := by
        funext k
        simp only [val]
        have := Y.addr k
        simp only [CMat.along] at this
        rw [this]
      rw [hv] at L
      refine ⟨_, L, ?_⟩
      · intro _ hg; simp [guarded] at hg
    · have Y := lay_col_one h2 h3
      have ht := Y.top
      have L : (RVec.line dbg .col .one m l).Law _ _ id true _ := line_law Y h1 h2
        (by
          intro k hk; rw [h1]; simp only [CMat.along] at hk; simp only [stride]
          have := row_lt h2 hk; rw [Nat.mul_comm m.size1]; omega)
        (by
          intro k j hk hj hh
          simp only [distance, stride]
          omega)
      have hv : (fun k => m.data.getD (l * m.size1 + k * stride .col .one m) default) = (RExp.line .col .one m l).val := by
        funext k
        simp only [val]
        have := Y.addr k
        simp only [CMat.along] at this
        rw [this]
      rw [hv] at L
      refine ⟨_, L, ?_⟩
      · intro _ hg; simp [guarded] at hg
    · have Y := lay_col_two h2 h3
      have ht := Y.top
      have L : (RVec.line dbg .col .two m l).Law _ _ id false _ := line_law Y h1 h2
        (by intro k hk; rw [h1]; simp only [CMat.along] at hk; rw [Nat.mul_comm m.size1]; exact row_lt hk h2)
        (by
          intro k j hk hj hh
          simp only [Bool.false_eq_true, false_or] at hh
          simp only [distance, stride]
          rw [if_pos (by omega)]
          exact quotient_ok (n := m.size2) (by omega) ht hk hh)
      have hv : (fun k => m.data.getD (l + k * stride .col .two m) default) = (RExp.line .col .two m l).val := by
        funext k
        simp only [val]
        have := Y.addr k
        simp only [CMat.along] at this
        rw [this]
      rw [hv] at L
      refine ⟨_, L, ?_⟩
      · intro hd _; subst hd
        refine line_guard L ?_
        simp only [CMat.along, stride, Orient.indexJ]
        rw [if_pos (by omega), Nat.add_mul_div_right _ _ (by omega), Nat.div_eq_of_lt h2]; omega
  | diag o m s t =>
    obtain ⟨h1, h2, h3, h4, h5, h6⟩ := h
    obtain ⟨At, L, G⟩ := ofSel_law dbg h2 h4
    obtain ⟨At', L', G'⟩ := ofSel_law dbg h3 h5
    rw [← h6] at L' G'
    refine ⟨_, diag_law L L' ?_, ?_⟩
    · intro k hk
      have v1 := h4.1 k hk
      have v2 := h5.1 k (by rw [← h6]; exact hk)
      have b1 : (s.index k).toNat < m.size1 := by omega
      have b2 : (t.index k).toNat < m.size2 := by omega
      have b3 : o.elementRaw (s.index k).toNat m.size1 (t.index k).toNat m.size2 < m.data.length := by
        rw [h1]
        cases o
        · simp only [Orient.elementRaw]; have := row_lt b1 b2; omega
        · simp only [Orient.elementRaw]; have := row_lt b2 b1; rw [Nat.mul_comm m.size1]; omega
      simp only [Dense.get, Orient.element, check_true b1, check_true b2, bind_ok, pure_eq_ok, rd_ok b3, val]
      simp [List.getD, b3]
    · intro hd _; subst hd
      exact diag_guard L L' (G rfl) (G' rfl)
  | proxy e s ih =>
    obtain ⟨h1, h2⟩ := h
    obtain ⟨At, L, G⟩ := ih h1
    have hN := e.size_lt h1
    cases s with
    | range r =>
      have hr : r.start + r.size ≤ e.size := h2.2.2
      refine ⟨_, range_law L hN hr, ?_⟩
      · intro hd hg; subst hd
        exact range_guard L (G rfl hg) hN hr
    | slice s =>
      obtain ⟨At', LS, GS⟩ := ofSel_law dbg hN h2
      refine ⟨At', ?_, ?_⟩
      · exact picked_law L LS (fun k hk => by have := h2.1 k hk; omega)
      · intro hd _; subst hd
        exact picked_guard LS (GS rfl)
    | indirect ia =>
      obtain ⟨At', LS, GS⟩ := ofSel_law dbg hN h2
      refine ⟨At', ?_, ?_⟩
      · exact picked_law L LS (fun k hk => by have := h2.1 k hk; omega)
      · intro hd _; subst hd
        exact picked_guard LS (GS rfl)
  | map f e ih =>
    obtain ⟨At, L, G⟩ := ih h
    exact ⟨At, map_law f L, fun hd hg => map_guard f L (G hd hg)⟩
  | map2 f e e' ih ih' =>
    obtain ⟨h1, h2, h3⟩ := h
    obtain ⟨At, L, G⟩ := ih h1
    obtain ⟨At', L', G'⟩ := ih' h2
    rw [← h3] at L' G'
    refine ⟨_, map2_law f (e.size_lt h1) L L', ?_⟩
    intro hd hg; subst hd
    simp only [guarded, Bool.and_eq_true] at hg
    exact map2_guard f (e.size_lt h1) L L' (G rfl hg.1) (G' rfl hg.2)

end RExp

namespace RVec

/-- **C119** (iterators): the iterators of every such vector are random-access iterators over its elements, except that the difference of two
iterators of a line striding over storage is only claimed when it is not negative (`RExp.anyDiff`). -/
theorem C119_random_access_partial (dbg : Bool) [Inhabited R] (e : RExp R) (h : e.Ok) :
    (e.iters dbg).RandomAccess e.size e.val id e.anyDiff := by
  obtain ⟨At, L, _⟩ := e.law dbg h
  exact L.randomAccess

/-- **C119** (reverse iterators): the reverse iterators are random-access iterators over the reversed sequence; `index ()` is still the
index in the vector. -/
theorem C119_reverse_partial (dbg : Bool) [Inhabited R] (e : RExp R) (h : e.Ok) :
    (e.iters dbg).rev.RandomAccess e.size (fun k => e.val (e.size - 1 - k)) (fun k => e.size - 1 - k) e.anyDiff := by
  obtain ⟨At, L, _⟩ := e.law dbg h
  exact L.rev.randomAccess

/-- **C119** (selectors): the iterators of a range, slice or indirect array are random-access iterators over the indices it selects. -/
theorem C119_selector (dbg : Bool) (s : Sel) (N : Nat) (hN : N < 2 ^ 63) (h : s.Inside N) :
    (ofSel dbg s).RandomAccess s.size (fun k => (s.index k).toNat) id true := by
  obtain ⟨At, L, _⟩ := ofSel_law dbg hN h
  exact L.randomAccess

/-- **C119** (the end in a checked build): `*` at the end raises `bad_index`, and so does `it [d]` meaning the end unless the vector is a bare dense
container. -/
theorem C119_end_refused_partial [Inhabited R] (e : RExp R) (h : e.Ok) (hg : e.guarded = true) :
    (e.iters true).EndRefused e.size e.guardedSub := by
  obtain ⟨At, L, G⟩ := e.law true h
  exact L.endRefused (G rfl hg)

/-- A row-major 2 × 2 matrix. -/
def demoM : Dense Int := ⟨2, 2, [1, 2, 3, 4]⟩

/-- The restriction on differences is needed: `begin1 () - end1 ()` of a row-major 2 × 2 matrix is 2^63 - 2, not -2. -/
theorem C119_distance_refuted :
    ¬ ∀ (e : RExp Int), e.Ok → (e.iters false).RandomAccess e.size e.val id true := by
  intro H
  obtain ⟨p, q, e1, e2, h⟩ := H (.line .row .one demoM 0) (by simp only [RExp.Ok]; decide) false [] true [] trivial trivial
  cases e1
  cases e2
  have := h.2.2.2.2.2.2.1 (Or.inl rfl)
  revert this
  decide

example : (RExp.line .row .one demoM 0).Ok := by simp only [RExp.Ok]; decide
example : ((RExp.line .row .one demoM 0).iters false).diff (0 : Nat) (4 : Nat) = .ok 9223372036854775806 := by decide

/-- A checked build does not notice `it [d]` at the end of a dense vector (the documentation of the operator promises `bad_index`). -/
theorem C119_subscript_refuted :
    ¬ ∀ (e : RExp Int), e.Ok → e.guarded = true → (e.iters true).EndRefused e.size true := by
  intro H
  obtain ⟨p, e1, h⟩ := H (.dense [7]) (by simp only [RExp.Ok]; decide) rfl false [] trivial
  cases e1
  have := h.2 rfl
  revert this
  decide

/-- A checked build does not notice `*` at the end of a row of a row-major matrix: it reads the first element of the next row. -/
theorem C119_line_end_refuted :
    ¬ ∀ (e : RExp Int), e.Ok → (e.iters true).EndRefused e.size e.guardedSub := by
  intro H
  obtain ⟨p, e1, h⟩ := H (.line .row .two demoM 0) (by simp only [RExp.Ok]; decide) true [] trivial
  cases e1
  have := h.1 rfl
  revert this
  decide

example : ((RExp.line .row .two demoM 0).iters true).deref (2 : Nat) = .ok 3 := by decide

/-- The second row of the matrix backwards, plus the tail of a vector negated. -/
def demoE : RExp Int :=
  .map2 (· + ·) (.proxy (.line .row .two demoM 1) (.slice ⟨1, -1, 2⟩)) (.map (- ·) (.proxy (.dense [5, 6, 7]) (.range ⟨1, 2⟩)))

theorem demoE_ok : demoE.Ok := by
  refine ⟨⟨by simp only [RExp.Ok]; decide, ?_, by decide, trivial⟩, ⟨by simp only [RExp.Ok]; decide, ?_, by decide, by decide⟩, rfl⟩ <;>
  · intro i hi
    have : i = 0 ∨ i = 1 := by simp only [Sel.size] at hi; omega
    rcases this with rfl | rfl <;> decide

/-- `-= 1`, `++`, `--`, `-= 1` from the end, then `*` and `[1]`: the elements 4 - 6 and 3 - 7. -/
example : ((demoE.iters true).reach true [.minus 1, .next, .prev, .minus 1] >>= fun p => (demoE.iters true).deref p) = .ok (-2) := by decide
example : ((demoE.iters true).reach true [.minus 1, .next, .prev, .minus 1] >>= fun p => (demoE.iters true).sub p 1) = .ok (-4) := by decide
example : Stays demoE.size (origin demoE.size true) [.minus 1, .next, .prev, .minus 1] := by simp only [Stays]; decide
example : ((demoE.iters true).rev.reach false [.next] >>= fun p => (demoE.iters true).rev.deref p) = .ok (-2) := by decide

end RVec
end Ublas
