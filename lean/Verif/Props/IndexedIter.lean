import Verif.Spec.IndexedIter
import Verif.Props.RandomAccess
/-! # C124: random-access iterators in a build with BOOST_UBLAS_USE_INDEXED_ITERATOR -/
namespace Ublas
variable {R : Type}

namespace RVec

theorem indexed_law {dbg : Bool} {n : Nat} {find : Nat → M Nat} {at_ : Nat → M R} {x : Nat → R} (hn : n < 2 ^ 63)
    (hf : ∀ k, k ≤ n → find k = .ok k) (ha : ∀ k, k < n → at_ k = .ok (x k)) :
    (indexed dbg n find at_).Law n x id true (fun k p => k = p) where
  size := rfl
  find k hk := ⟨k, hf k hk, rfl⟩
  next k p h hk := by subst h; exact ⟨_, rfl, by symm; rw [u64_of (by omega) (by omega)]; omega⟩
  prev k p h hk := by subst h; exact ⟨_, rfl, by symm; rw [u64_of (by omega) (by omega)]; omega⟩
  plus k p d m h hk hm e := by subst h; exact ⟨_, rfl, by symm; rw [u64_of (by omega) (by omega)]; omega⟩
  minus k p d m h hk hm e := by subst h; exact ⟨_, rfl, by symm; rw [u64_of (by omega) (by omega)]; omega⟩
  diff k m p q hp hq hk hm h := by subst hp hq; simp only [indexed]; rw [i64_u64 (by omega) (by omega)]
  eq k m p q hp hq hk hm := by subst hp hq; rfl
  lt k m p q hp hq hk hm := by subst hp hq; rfl
  index k p h hk := by subst h; rfl
  deref k p h hk := by subst h; simp only [indexed, check_true hk, bind_ok, ha k hk]
  sub k p d m h hk hm e := by
    subst h
    have : u64 ((k : Int) + d) = m := by rw [e]; exact u64_nat (by omega)
    simp only [indexed, this, check_true hm, bind_ok, ha m hm]
  at_ k hk := ha k hk

theorem indexed_guard {n : Nat} {find : Nat → M Nat} {at_ : Nat → M R} (hn : n < 2 ^ 63) :
    (indexed true n find at_).Guard n true (fun k p => k = p) where
  index p h := by subst h; right; rfl
  deref p h := by subst h; simp only [indexed, check_dbg_false (Nat.lt_irrefl _), bind_error]
  sub _ k p d h hk e := by
    subst h
    have : u64 ((k : Int) + d) = n := by rw [e]; exact u64_nat (by omega)
    simp only [indexed, this, check_dbg_false (Nat.lt_irrefl _), bind_error]

/-- The iterators of `V` follow positions, a checked build refuses the end, and `index ()` at the end is the size. -/
structure Ix (dbg : Bool) (V : RVec R) (n : Nat) (x : Nat → R) (At : Nat → V.Pos → Prop) : Prop where
  law : V.Law n x id true At
  guard : dbg = true → V.Guard n true At
  top : ∀ p, At n p → V.index p = .ok n

theorem indexed_ix {dbg : Bool} {n : Nat} {find : Nat → M Nat} {at_ : Nat → M R} {x : Nat → R} (hn : n < 2 ^ 63)
    (hf : ∀ k, k ≤ n → find k = .ok k) (ha : ∀ k, k < n → at_ k = .ok (x k)) :
    Ix dbg (indexed dbg n find at_) n x (fun k p => k = p) where
  law := indexed_law hn hf ha
  guard h := by subst h; exact indexed_guard hn
  top p h := by subst h; rfl

theorem indexed_ix_of {dbg : Bool} {n n' : Nat} (e : n' = n) {find : Nat → M Nat} {at_ : Nat → M R} {x : Nat → R} (hn : n < 2 ^ 63)
    (hf : ∀ k, k ≤ n → find k = .ok k) (ha : ∀ k, k < n → at_ k = .ok (x k)) :
    Ix dbg (indexed dbg n' find at_) n x (fun k p => k = p) := by
  subst e; exact indexed_ix hn hf ha

theorem Ix.indexOfFind {dbg : Bool} {V : RVec R} {n x At} (I : Ix dbg V n x At) {k : Nat} (hk : k ≤ n) : V.indexOfFind k = .ok k := by
  obtain ⟨p, e1, e2⟩ := I.law.find k hk
  simp only [RVec.indexOfFind, e1, bind_ok]
  by_cases h : k = n
  · subst h; exact I.top p e2
  · exact I.law.index k p e2 (by omega)

theorem ofSelIx_ix (dbg : Bool) {s : Sel} {N : Nat} (hN : N < 2 ^ 63) (h : s.Inside N) (h0 : s.FromZero) :
    ∃ At, Ix dbg (ofSelIx dbg s) s.size (fun k => (s.index k).toNat) At := by
  obtain ⟨At, L, _⟩ := ofSel_law dbg hN h
  have ha : ∀ k, k < s.size → s.at_ dbg k = .ok (s.index k).toNat := by
    intro k hk
    have := L.at_ k hk
    cases s <;> exact this
  obtain ⟨_, hz, _⟩ := h
  cases s with
  | range r =>
    refine ⟨_, indexed_ix hz ?_ ha⟩
    intro k hk
    simp only [Sel.size] at hz hk
    have : r.start = 0 := h0
    rw [this, i64_of (by omega), u64_of (by omega) (by omega)]
    congr 1; omega
  | slice s =>
    refine ⟨_, indexed_ix hz ?_ ha⟩
    intro k hk
    simp only [Sel.size] at hz hk
    rw [i64_of (by omega), u64_nat (by omega)]
  | indirect ia =>
    refine ⟨_, indexed_ix hz ?_ ha⟩
    intro k hk
    simp only [Sel.size] at hz hk
    rw [i64_of (by omega), u64_nat (by omega)]

end RVec

namespace RExp
open RVec

/-- Element access of a proxy. -/
theorem proxy_at {dbg : Bool} {V : RVec R} {n x At} (L : V.Law n x id true At) (hn : n < 2 ^ 63) {s : Sel} (h : s.Inside n) :
    ∀ k, k < s.size → (do let i ← s.at_ dbg k; V.at_ i) = (.ok (x (s.index k).toNat) : M R) := by
  intro k hk
  obtain ⟨At', LS, _⟩ := ofSel_law dbg hn h
  have h1 := LS.at_ k hk
  have h2 := L.at_ (s.index k).toNat (by have := h.1 k hk; omega)
  simp only [id] at h1 h2
  have h3 : s.at_ dbg k = .ok (s.index k).toNat := by cases s <;> exact h1
  rw [h3, bind_ok, h2]

theorem line_at {dbg : Bool} [Inhabited R] {o : Orient} {ax : Axis} {m : Dense R} {l : Nat} (h : (RExp.line o ax m l).Ok) :
    ∀ k, k < CMat.along ax m.size1 m.size2 →
      (match ax with | .one => m.get dbg o k l | .two => m.get dbg o l k) = .ok ((RExp.line o ax m l).val k) := by
  intro k hk
  obtain ⟨At, L, _⟩ := (RExp.line o ax m l).law dbg h
  have := L.at_ k hk
  cases ax <;> exact this

theorem ix (dbg : Bool) [Inhabited R] (e : RExp R) (h : e.Ok) (h0 : e.FromZero) : ∃ At, Ix dbg (e.indexed dbg) e.size e.val At := by
  induction e with
  | dense data =>
    refine ⟨_, indexed_ix h (fun k _ => rfl) ?_⟩
    intro k hk
    rw [rd_ok hk]; simp [val, List.getD, hk]
  | scalar n v => exact ⟨_, indexed_ix h (fun k _ => rfl) (fun k _ => rfl)⟩
  | line o ax m l =>
    refine ⟨_, indexed_ix ((RExp.line o ax m l).size_lt h) (fun k _ => rfl) ?_⟩
    intro k hk
    rw [check_true h.2.1, bind_ok]
    have := line_at (dbg := dbg) h k hk
    cases ax <;> exact this
  | diag o m s t =>
    obtain ⟨At0, L0, _⟩ := (RExp.diag o m s t).law dbg h
    obtain ⟨h1, h2, h3, h4, h5, h6⟩ := h
    obtain ⟨At, I⟩ := ofSelIx_ix dbg h2 h4 h0.1
    obtain ⟨At', I'⟩ := ofSelIx_ix dbg h3 h5 h0.2
    rw [← h6] at I'
    have L : (RVec.diag dbg (m.get dbg o) (ofSelIx dbg s) (ofSelIx dbg t)).Law s.size (RExp.diag o m s t).val id true
        (fun k u => At k u.1 ∧ At' k u.2) := by
      refine diag_law I.law I'.law ?_
      intro k hk
      have v1 := h4.1 k hk
      have v2 := h5.1 k (by rw [← h6]; exact hk)
      have b1 : (s.index k).toNat < m.size1 := by omega
      have b2 : (t.index k).toNat < m.size2 := by omega
      have b3 : o.elementRaw (s.index k).toNat m.size1 (t.index k).toNat m.size2 < m.data.length := by
        rw [h1]
        cases o
        · simp only [Orient.elementRaw]; have := row_lt b1 b2; omega
        · simp only [Orient.elementRaw]; have := row_lt b2 b1; rw [Nat.mul_comm m.size1]; omega
      simp only [Dense.get, Orient.element, check_true b1, check_true b2, bind_ok, pure_eq_ok, rd_ok b3, val]
      simp [List.getD, b3]
    refine ⟨_, ⟨L, ?_, ?_⟩⟩
    · intro hd; subst hd
      exact diag_guard I.law I'.law (I.guard rfl) (I'.guard rfl)
    · intro u hu
      simp only [indexed, RVec.diag]
      rw [I.top u.1 hu.1, I'.top u.2 hu.2]
      simp only [bind_ok, same, check_true, pure_eq_ok]; rfl
  | proxy e s ih =>
    obtain ⟨h1, h2⟩ := h
    obtain ⟨At, I⟩ := ih h1 h0.1
    have hN := e.size_lt h1
    have ha := proxy_at (dbg := dbg) I.law hN h2
    have hz := h2.2.1
    cases s with
    | range r =>
      refine ⟨_, indexed_ix hz ?_ ha⟩
      intro k hk
      have hr : r.start + r.size ≤ e.size := h2.2.2
      have hs : r.start = 0 := h0.2
      have hk : k ≤ r.size := hk
      have : u64 ((r.start : Int) + k) = k := by rw [hs, u64_of (by omega) (by omega)]; omega
      rw [this]
      exact I.indexOfFind (by omega)
    | slice s => exact ⟨_, indexed_ix hz (fun k _ => rfl) ha⟩
    | indirect ia => exact ⟨_, indexed_ix hz (fun k _ => rfl) ha⟩
  | map f e ih =>
    obtain ⟨At, I⟩ := ih h h0
    have hs := I.law.size
    refine ⟨_, indexed_ix_of (n := e.size) hs (e.size_lt h) (fun k hk => I.indexOfFind hk) ?_⟩
    intro k hk
    have := I.law.at_ k hk
    simp only [id] at this
    rw [this, bind_ok]; rfl
  | map2 f e e' ih ih' =>
    obtain ⟨h1, h2, h3⟩ := h
    obtain ⟨At, I⟩ := ih h1 h0.1
    obtain ⟨At', I'⟩ := ih' h2 h0.2
    rw [← h3] at I'
    have L := I.law
    have L' := I'.law
    refine ⟨_, indexed_ix_of (n := e.size) L.size (e.size_lt h1) ?_ ?_⟩
    · intro k hk
      obtain ⟨p, e1, e2⟩ := L.find k hk
      obtain ⟨q, f1, f2⟩ := L'.find k hk
      obtain ⟨pe, g1, g2⟩ := L.find e.size (Nat.le_refl _)
      obtain ⟨qe, h1, h2⟩ := L'.find e.size (Nat.le_refl _)
      simp only [L.size, L'.size, same, check_True, pure_eq_ok, bind_ok, e1, f1, g1, h1, headIndex_ok L e2 hk g2, headIndex_ok L' f2 hk h2, Nat.min_self]
    · intro k hk
      have a1 := L.at_ k hk
      have a2 := L'.at_ k hk
      simp only [id] at a1 a2
      rw [a1, bind_ok, a2, bind_ok]; rfl

end RExp

namespace RVec

/-- **C124** (iterators): in a build with indexed iterators, the iterators of every vector all of whose ranges start at 0 are random-access
iterators over its elements, differences of both signs included. -/
theorem C124_random_access_partial (dbg : Bool) [Inhabited R] (e : RExp R) (h : e.Ok) (h0 : e.FromZero) :
    (e.indexed dbg).RandomAccess e.size e.val id true := by
  obtain ⟨At, I⟩ := e.ix dbg h h0
  exact I.law.randomAccess

/-- **C124** (reverse iterators). -/
theorem C124_reverse_partial (dbg : Bool) [Inhabited R] (e : RExp R) (h : e.Ok) (h0 : e.FromZero) :
    (e.indexed dbg).rev.RandomAccess e.size (fun k => e.val (e.size - 1 - k)) (fun k => e.size - 1 - k) true := by
  obtain ⟨At, I⟩ := e.ix dbg h h0
  exact I.law.rev.randomAccess

/-- **C124** (selectors). -/
theorem C124_selector_partial (dbg : Bool) (s : Sel) (N : Nat) (hN : N < 2 ^ 63) (h : s.Inside N) (h0 : s.FromZero) :
    (ofSelIx dbg s).RandomAccess s.size (fun k => (s.index k).toNat) id true := by
  obtain ⟨At, I⟩ := ofSelIx_ix dbg hN h h0
  exact I.law.randomAccess

/-- **C124** (the end in a checked build): `*` at the end and `it [d]` meaning the end raise `bad_index`. -/
theorem C124_end_refused_partial [Inhabited R] (e : RExp R) (h : e.Ok) (h0 : e.FromZero) : (e.indexed true).EndRefused e.size true := by
  obtain ⟨At, I⟩ := e.ix true h h0
  exact I.law.endRefused (I.guard rfl)

/-- **C124** fails for every non-empty `vector_range` that does not start at 0: its iterator at position `k` carries the index `start + k`; `*` gives
the element `start + k` of the range (the element `2 * start + k` of the vector behind) as long as there is one, and then, in a checked build,
raises `bad_index` — for the last position of the range at the latest. -/
theorem C124_range_refuted (dbg : Bool) [Inhabited R] (e : RExp R) (h : e.Ok) (h0 : e.FromZero) (r : Range)
    (hr : r.start + r.size ≤ e.size) (k : Nat) (hk : k < r.size) :
    ∃ p, ((RExp.proxy e (.range r)).indexed dbg).find k = .ok p ∧
      ((RExp.proxy e (.range r)).indexed dbg).index p = .ok (r.start + k) ∧
      (r.start + k < r.size → ((RExp.proxy e (.range r)).indexed dbg).deref p = .ok (e.val (r.start + (r.start + k)))) ∧
      (r.size ≤ r.start + k → dbg = true → ((RExp.proxy e (.range r)).indexed dbg).deref p = .error .badIndex) := by
  obtain ⟨At, I⟩ := e.ix dbg h h0
  have hN := e.size_lt h
  have hu : u64 ((r.start : Int) + k) = r.start + k := by rw [u64_of (by omega) (by omega)]; omega
  refine ⟨r.start + k, ?_, rfl, ?_, ?_⟩
  · show (e.indexed dbg).indexOfFind (u64 ((r.start : Int) + k)) = _
    rw [hu]
    exact I.indexOfFind (by omega)
  · intro hlt
    have hu2 : u64 ((r.start : Int) + (r.start + k : Nat)) = r.start + (r.start + k) := by rw [u64_of (by omega) (by omega)]; omega
    have := I.law.at_ (r.start + (r.start + k)) (by omega)
    simp only [id] at this
    simp only [RExp.indexed, proxyIx, indexed, check_true hlt, bind_ok, Range.at_, pure_eq_ok]
    rw [hu2, this]
  · intro hge hd
    subst hd
    have : ¬ r.start + k < r.size := by omega
    simp only [RExp.indexed, proxyIx, indexed, check_dbg_false this, bind_error]

/-- So no non-empty range that does not start at 0 has iterators over its elements. -/
theorem C124_range_never_refuted (dbg : Bool) [Inhabited R] (e : RExp R) (h : e.Ok) (h0 : e.FromZero) (r : Range)
    (hr : r.start + r.size ≤ e.size) (hs : 0 < r.start) (hz : 0 < r.size) (x : Nat → R) (b : Bool) :
    ¬ ((RExp.proxy e (.range r)).indexed dbg).RandomAccess r.size x id b := by
  intro H
  obtain ⟨p, e1, e2, _, _⟩ := C124_range_refuted dbg e h h0 r hr 0 hz
  obtain ⟨q, q', f1, f2, f3⟩ := H false [] false [] trivial trivial
  have hq : q = p := by
    simp only [RVec.reach, bound, Bool.false_eq_true, if_false, run] at f1
    rw [e1, bind_ok] at f1
    cases f1; rfl
  subst hq
  have h8 := (f3.2.2.2.2.2.2.2.1 (by simp only [dest, origin, Bool.false_eq_true, if_false]; omega)).1
  rw [e2] at h8
  simp only [dest, origin, Bool.false_eq_true, if_false, Int.toNat_zero, id, Nat.add_zero] at h8
  have := Except.ok.inj h8
  omega

/-- The same for the iterators of a range itself: `* begin ()` of `range (start, start + size)` is `2 * start`, not `start`, or `bad_index`. -/
theorem C124_selector_refuted (dbg : Bool) (r : Range) (hr : r.start + r.size < 2 ^ 63) (k : Nat) (hk : k < r.size) :
    ∃ p, (ofSelIx dbg (.range r)).find k = .ok p ∧ (ofSelIx dbg (.range r)).index p = .ok (r.start + k) ∧
      (r.start + k < r.size → (ofSelIx dbg (.range r)).deref p = .ok (r.start + (r.start + k))) ∧
      (r.size ≤ r.start + k → dbg = true → (ofSelIx dbg (.range r)).deref p = .error .badIndex) := by
  have hu : u64 ((r.start : Int) + i64 k) = r.start + k := by rw [i64_of (by omega), u64_of (by omega) (by omega)]; omega
  refine ⟨r.start + k, ?_, rfl, ?_, ?_⟩
  · simp only [ofSelIx, indexed, hu]
  · intro hlt
    have hu2 : u64 ((r.start : Int) + (r.start + k : Nat)) = r.start + (r.start + k) := by rw [u64_of (by omega) (by omega)]; omega
    simp only [ofSelIx, indexed, check_true hlt, bind_ok, Range.at_, pure_eq_ok]
    rw [hu2]
  · intro hge hd
    subst hd
    have : ¬ r.start + k < r.size := by omega
    simp only [ofSelIx, indexed, check_dbg_false this, bind_error]

/-- **C124** (`matrix_range`): when both ranges start at 0, `iterator1` and `iterator2` are random-access iterators over the column or row. -/
theorem C124_matrix_range_partial (dbg : Bool) [Inhabited R] (o : Orient) (ax : Axis) (m : Dense R) (r1 r2 : Range) (l : Nat)
    (hd : m.data.length = m.size1 * m.size2) (hb : (m.size1 + 1) * (m.size2 + 1) < 2 ^ 63)
    (h1 : r1.start = 0) (h2 : r2.start = 0) (hr1 : r1.size ≤ m.size1) (hr2 : r2.size ≤ m.size2) (hl : l < CMat.along ax r2.size r1.size) :
    (rangeLineIx dbg o ax m r1 r2 l).RandomAccess (CMat.along ax r1.size r2.size) (RExp.line o ax m l).val id true ∧
    (dbg = true → (rangeLineIx dbg o ax m r1 r2 l).EndRefused (CMat.along ax r1.size r2.size) true) := by
  have hs1 : m.size1 < 2 ^ 63 := by nlinarith
  have hs2 : m.size2 < 2 ^ 63 := by nlinarith
  cases ax with
  | one =>
    simp only [CMat.along] at hl ⊢
    have hOk : (RExp.line o .one m l).Ok := ⟨hd, by simp only [CMat.along]; omega, hb⟩
    have I : Ix dbg (rangeLineIx dbg o .one m r1 r2 l) r1.size (RExp.line o .one m l).val (fun k p => k = p) := by
      refine indexed_ix (n := r1.size) (by omega) ?_ ?_
      · intro k hk
        rw [h1, u64_of (by omega) (by omega)]; congr 1; omega
      · intro k hk
        have hu : u64 ((r2.start : Int) + l) = l := by rw [h2, u64_of (by omega) (by omega)]; omega
        have hk' : u64 ((r1.start : Int) + k) = k := by rw [h1, u64_of (by omega) (by omega)]; omega
        rw [hu, check_true hl, bind_ok]
        simp only [Range.at_, check_true hk, check_true hl, bind_ok, pure_eq_ok, hu, hk']
        exact RExp.line_at (dbg := dbg) hOk k (by simp only [CMat.along]; omega)
    exact ⟨I.law.randomAccess, fun h => I.law.endRefused (I.guard h)⟩
  | two =>
    simp only [CMat.along] at hl ⊢
    have hOk : (RExp.line o .two m l).Ok := ⟨hd, by simp only [CMat.along]; omega, hb⟩
    have I : Ix dbg (rangeLineIx dbg o .two m r1 r2 l) r2.size (RExp.line o .two m l).val (fun k p => k = p) := by
      refine indexed_ix (n := r2.size) (by omega) ?_ ?_
      · intro k hk
        rw [h2, u64_of (by omega) (by omega)]; congr 1; omega
      · intro k hk
        have hu : u64 ((r1.start : Int) + l) = l := by rw [h1, u64_of (by omega) (by omega)]; omega
        have hk' : u64 ((r2.start : Int) + k) = k := by rw [h2, u64_of (by omega) (by omega)]; omega
        rw [hu, check_true hl, bind_ok]
        simp only [Range.at_, check_true hk, check_true hl, bind_ok, pure_eq_ok, hu, hk']
        exact RExp.line_at (dbg := dbg) hOk k (by simp only [CMat.along]; omega)
    exact ⟨I.law.randomAccess, fun h => I.law.endRefused (I.guard h)⟩

/-- **C124** fails for a `matrix_range` with a start beyond its own size: in a checked build `*` of every iterator raises `bad_index`. -/
theorem C124_matrix_range_refuted (o : Orient) (m : Dense R) (r1 r2 : Range) (l k : Nat) (h1 : r1.size ≤ r1.start)
    (hb : r1.start + r1.size < 2 ^ 63) (hl : l < r1.size) :
    ∃ p, (rangeLineIx true o .two m r1 r2 l).find k = .ok p ∧ (rangeLineIx true o .two m r1 r2 l).deref p = .error .badIndex := by
  refine ⟨_, rfl, ?_⟩
  have hu : u64 ((r1.start : Int) + l) = r1.start + l := by rw [u64_of (by omega) (by omega)]; omega
  have hn : ¬ r1.start + l < r1.size := by omega
  simp only [rangeLineIx, indexed]
  rw [hu]
  by_cases hp : u64 ((r2.start : Int) + k) < r2.size
  · rw [check_true hp, bind_ok, check_dbg_false hn, bind_error]
  · rw [check_dbg_false hp, bind_error]

/-! Concrete cases. -/

/-- A vector of 6 and its range [1, 5). -/
def demoIx : RExp Int := .proxy (.dense [10, 11, 12, 13, 14, 15]) (.range ⟨1, 4⟩)

example : (RExp.dense ([10, 11, 12, 13, 14, 15] : List Int)).Ok := by simp only [RExp.Ok]; decide
/-- The first element of the range is 11; `* begin ()` gives 12, and at the last position a checked build throws. -/
example : ((demoIx.indexed true).reach false [] >>= fun p => (demoIx.indexed true).deref p) = .ok 12 := by decide
example : ((demoIx.indexed true).reach true [.prev] >>= fun p => (demoIx.indexed true).deref p) = .error .badIndex := by decide
/-- Without checks the last position reads past the range: here the last element of the vector behind; with a larger start, past the vector. -/
example : (((RExp.proxy (.dense [10, 11, 12, 13, 14, 15]) (.range ⟨3, 3⟩) : RExp Int).indexed false).reach false [] >>= fun p =>
    ((RExp.proxy (.dense [10, 11, 12, 13, 14, 15]) (.range ⟨3, 3⟩) : RExp Int).indexed false).deref p) = .error .ub := by decide
/-- `range (2, 5)` iterates over 4 and then throws. -/
example : ((ofSelIx true (.range ⟨2, 3⟩)).reach false [] >>= fun p => (ofSelIx true (.range ⟨2, 3⟩)).deref p) = .ok 4 := by decide
example : ((ofSelIx true (.range ⟨2, 3⟩)).reach false [.next] >>= fun p => (ofSelIx true (.range ⟨2, 3⟩)).deref p) = .error .badIndex := by decide

/-- The second row of a matrix backwards plus the head of a vector negated. -/
def demoF : RExp Int :=
  .map2 (· + ·) (.proxy (.line .row .two demoM 1) (.slice ⟨1, -1, 2⟩)) (.map (- ·) (.proxy (.dense [5, 6, 7]) (.range ⟨0, 2⟩)))

theorem demoF_ok : demoF.Ok := by
  refine ⟨⟨by simp only [RExp.Ok]; decide, ?_, by decide, trivial⟩, ⟨by simp only [RExp.Ok]; decide, ?_, by decide, by decide⟩, rfl⟩ <;>
  · intro i hi
    have : i = 0 ∨ i = 1 := by simp only [Sel.size] at hi; omega
    rcases this with rfl | rfl <;> decide

example : demoF.FromZero := ⟨⟨trivial, trivial⟩, trivial, rfl⟩
example : ((demoF.indexed true).reach true [.minus 1, .next, .prev, .minus 1] >>= fun p => (demoF.indexed true).deref p) = .ok (-1) := by decide
/-- The difference that is wrong without indexed iterators (`C119_distance_refuted`) is right here. -/
example : ((RExp.line .row .one demoM 0).indexed false).diff (0 : Nat) (2 : Nat) = .ok (-2) := by decide
example : ((rangeLineIx true .row .two demoM ⟨0, 2⟩ ⟨0, 1⟩ 1).reach false [] >>= fun p =>
    (rangeLineIx true .row .two demoM ⟨0, 2⟩ ⟨0, 1⟩ 1).deref p) = .ok 3 := by decide
/-- The 1 × 2 range of row 1: `bad_index` at once. -/
example : ((rangeLineIx true .row .two demoM ⟨1, 1⟩ ⟨0, 2⟩ 0).reach false [] >>= fun p =>
    (rangeLineIx true .row .two demoM ⟨1, 1⟩ ⟨0, 2⟩ 0).deref p) = .error .badIndex := by decide

end RVec
end Ublas
