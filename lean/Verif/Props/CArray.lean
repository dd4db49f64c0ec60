import Verif.Spec.CArray
import Verif.Props.AssignOps
import Verif.Props.MatrixAssign
import Mathlib.Tactic.Tauto
import Mathlib.Tactic.IntervalCases
/-! # C77: c_vector and c_matrix are vectors and matrices of bounded capacity -/
namespace Ublas
open CArraySpec
variable {R : Type}

/-! ## Loops over a block of cells -/

theorem grid_inv {σ : Type} {F : Nat → Nat → σ → M σ} {r c : Nat} {s : σ} (I : Nat → Nat → σ → Prop) (h0 : I 0 0 s)
    (hs : ∀ i j t, i < r → j < c → I i j t → ∃ t', F i j t = .ok t' ∧ I i (j + 1) t') (hr : ∀ i t, I i c t → I (i + 1) 0 t) :
    ∃ t, loop (fun i t => loop (F i) c t) r s = .ok t ∧ I r 0 t :=
  loop_inv (I := fun i t => I i 0 t) h0 fun i t hi ht => by
    obtain ⟨t', e, h⟩ := loop_inv (n := c) (f := F i) (I := fun j t => I i j t) ht fun j u hj hu => hs i j u hi hj hu
    exact ⟨t', e, hr i t' h⟩

/-- Cell `p` belongs to the part of an r x c block (rows of `C` cells) that a row-wise loop has passed when it stands at (i, j). -/
def Passed (C c i j p : Nat) : Prop := (p / C < i ∧ p % C < c) ∨ (p / C = i ∧ p % C < j)
instance (C c i j p : Nat) : Decidable (Passed C c i j p) := by unfold Passed; infer_instance

theorem passed_zero (C c p : Nat) : ¬ Passed C c 0 0 p := by
  rintro (⟨h, _⟩ | ⟨_, h⟩) <;> exact absurd h (Nat.not_lt_zero _)

theorem cell_div {C i j : Nat} (hj : j < C) : (i * C + j) / C = i ∧ (i * C + j) % C = j := by
  have hC : 0 < C := by omega
  constructor
  · rw [Nat.mul_comm, Nat.mul_add_div hC, Nat.div_eq_of_lt hj, Nat.add_zero]
  · rw [Nat.mul_comm, Nat.mul_add_mod, Nat.mod_eq_of_lt hj]
theorem cell_of {C p : Nat} : p = p / C * C + p % C := by
  rw [Nat.mul_comm]; exact (Nat.div_add_mod p C).symm
theorem passed_step {C c i j : Nat} (hj : j < C) (p : Nat) : Passed C c i (j + 1) p ↔ Passed C c i j p ∨ p = i * C + j := by
  have := cell_div (i := i) hj
  constructor
  · rintro (h | ⟨h1, h2⟩)
    · exact .inl (.inl h)
    · by_cases h : p % C = j
      · right; rw [cell_of (p := p) (C := C), h1, h]
      · exact .inl (.inr ⟨h1, by omega⟩)
  · rintro ((h | ⟨h1, h2⟩) | h)
    · exact .inl h
    · exact .inr ⟨h1, by omega⟩
    · subst h; exact .inr ⟨this.1, by omega⟩
theorem passed_roll {C c i : Nat} (p : Nat) : Passed C c i c p ↔ Passed C c (i + 1) 0 p := by
  unfold Passed; constructor
  · rintro (⟨h1, h2⟩ | ⟨h1, h2⟩) <;> left <;> exact ⟨by omega, h2⟩
  · rintro (⟨h1, h2⟩ | ⟨h1, h2⟩)
    · by_cases h : p / C = i
      · exact .inr ⟨h, h2⟩
      · exact .inl ⟨by omega, h2⟩
    · omega
theorem cell_lt {N C i j : Nat} (hi : i < N) (hj : j < C) : i * C + j < N * C := by
  have : (i + 1) * C ≤ N * C := Nat.mul_le_mul_right _ (by omega)
  rw [Nat.add_mul] at this; omega
theorem passed_cell {C r c i j : Nat} (hj : j < C) : Passed C c r 0 (i * C + j) ↔ i < r ∧ j < c := by
  have := cell_div (i := i) hj
  unfold Passed; rw [this.1, this.2]; omega

namespace CMatx

theorem get_iff {N C : Nat} {m : CMatx R} (hd : m.data.length = N * C) {dbg : Bool} {i j : Nat} {x : R} (hi : i < m.size1) (hj : j < m.size2) (h1 : m.size1 ≤ N) (h2 : m.size2 ≤ C) :
    m.get dbg C i j = .ok x ↔ m.data[i * C + j]? = some x := by
  unfold get
  rw [check_true hi, bind_ok, check_true hj, bind_ok, if_pos (by omega), rd_eq_ok]

/-- `HoldsM` in terms of the cells. -/
theorem holds_iff {N C : Nat} {m : CMatx R} {s : Mtx R} : HoldsM N C m s ↔ m.data.length = N * C ∧ m.size1 = s.rows ∧ m.size2 = s.cols ∧ s.rows ≤ N ∧ s.cols ≤ C ∧
    ∀ i j x, i < s.rows → j < s.cols → s.val i j = some x → m.data[i * C + j]? = some x := by
  constructor
  · rintro ⟨h1, h2, h3, h4, h5, h6⟩
    refine ⟨h1, h2, h3, h4, h5, fun i j x hi hj hx => ?_⟩
    exact (get_iff h1 (by omega) (by omega) (by omega) (by omega)).1 (h6 true i j x hi hj hx)
  · rintro ⟨h1, h2, h3, h4, h5, h6⟩
    refine ⟨h1, h2, h3, h4, h5, fun dbg i j x hi hj hx => ?_⟩
    exact (get_iff h1 (by omega) (by omega) (by omega) (by omega)).2 (h6 i j x hi hj hx)

/-- Copying the block `r x c` from `src` onto `dst`. -/
theorem copyBlock_ok {N C r c : Nat} (src dst : List R) (hs : src.length = N * C) (hd : dst.length = N * C) (hr : r ≤ N) (hc : c ≤ C) :
    ∃ d, loop (fun i d => copyRow C i src c d) r dst = .ok d ∧ d.length = N * C ∧ ∀ p, d[p]? = if Passed C c r 0 p then src[p]? else dst[p]? := by
  obtain ⟨d, e, h1, h2⟩ := grid_inv (r := r) (c := c) (s := dst) (F := fun i j d => (do let x ← rd false src (i * C + j); wr false d (i * C + j) x : M (List R)))
    (fun i j d => d.length = N * C ∧ ∀ p, d[p]? = if Passed C c i j p then src[p]? else dst[p]?)
    ⟨hd, fun p => by rw [if_neg (passed_zero _ _ _)]⟩
    (fun i j d hi hj ⟨h1, h2⟩ => by
      have hp := cell_lt (N := N) (C := C) (i := i) (j := j) (by omega) (by omega)
      refine ⟨d.set (i * C + j) src[i * C + j], ?_, by simpa using h1, fun p => ?_⟩
      · rw [rd_ok (by omega), bind_ok, wr_ok (by omega)]
      · rw [List.getElem?_set, h2 p]
        by_cases hq : i * C + j = p
        · subst hq
          rw [if_pos rfl, if_pos (by omega), if_pos ((passed_step (by omega) _).2 (.inr rfl)), List.getElem?_eq_getElem]
        · rw [if_neg hq]
          have : Passed C c i (j + 1) p ↔ Passed C c i j p := by
            rw [passed_step (by omega)]
            constructor
            · rintro (h | h)
              · exact h
              · exact absurd h.symm hq
            · exact .inl
          by_cases hh : Passed C c i j p
          · rw [if_pos hh, if_pos (this.2 hh)]
          · rw [if_neg hh, if_neg (fun h => hh (this.1 h))])
    (fun i d ⟨h1, h2⟩ => ⟨h1, fun p => by
      rw [h2 p]
      by_cases hh : Passed C c i c p
      · rw [if_pos hh, if_pos ((passed_roll p).1 hh)]
      · rw [if_neg hh, if_neg (fun h => hh ((passed_roll p).2 h))]⟩)
  exact ⟨d, e, h1, h2⟩

/-- Exchanging the block `r x c`. -/
theorem swapBlock_ok {N C r c : Nat} (a b : List R) (ha : a.length = N * C) (hb : b.length = N * C) (hr : r ≤ N) (hc : c ≤ C) :
    ∃ q, loop (fun i p => swapRow C i c p) r (a, b) = .ok q ∧ (q.1.length = N * C ∧ q.2.length = N * C) ∧
      (∀ p, q.1[p]? = if Passed C c r 0 p then b[p]? else a[p]?) ∧ ∀ p, q.2[p]? = if Passed C c r 0 p then a[p]? else b[p]? := by
  obtain ⟨d, e, h1, h2⟩ := grid_inv (r := r) (c := c) (s := (a, b)) (F := fun i j (p : List R × List R) => (do
      let x ← rd false p.1 (i * C + j)
      let y ← rd false p.2 (i * C + j)
      let a ← wr false p.1 (i * C + j) y
      let b ← wr false p.2 (i * C + j) x
      return (a, b) : M (List R × List R)))
    (fun i j q => (q.1.length = N * C ∧ q.2.length = N * C) ∧
      (∀ p, q.1[p]? = if Passed C c i j p then b[p]? else a[p]?) ∧ ∀ p, q.2[p]? = if Passed C c i j p then a[p]? else b[p]?)
    ⟨⟨ha, hb⟩, fun p => by rw [if_neg (passed_zero _ _ _)], fun p => by rw [if_neg (passed_zero _ _ _)]⟩
    (fun i j q hi hj ⟨⟨h1, h1'⟩, h2, h3⟩ => by
      have hp := cell_lt (N := N) (C := C) (i := i) (j := j) (by omega) (by omega)
      have hn : ¬ Passed C c i j (i * C + j) := by
        have := cell_div (i := i) (show j < C by omega)
        unfold Passed; omega
      have hst : ∀ p, i * C + j ≠ p → (Passed C c i (j + 1) p ↔ Passed C c i j p) := fun p hq => by
        rw [passed_step (by omega)]
        constructor
        · rintro (h | h)
          · exact h
          · exact absurd h.symm hq
        · exact .inl
      have g1 : q.1[i * C + j]? = a[i * C + j]? := by rw [h2, if_neg hn]
      have g2 : q.2[i * C + j]? = b[i * C + j]? := by rw [h3, if_neg hn]
      refine ⟨(q.1.set (i * C + j) (q.2[i * C + j]'(by omega)), q.2.set (i * C + j) (q.1[i * C + j]'(by omega))), ?_, ⟨by simpa using h1, by simpa using h1'⟩, fun p => ?_, fun p => ?_⟩
      · rw [rd_ok (by omega), bind_ok, rd_ok (by omega), bind_ok, wr_ok (by omega), bind_ok, wr_ok (by omega)]; rfl
      · simp only [List.getElem?_set]
        by_cases hq : i * C + j = p
        · subst hq
          rw [if_pos rfl, if_pos (by omega), if_pos ((passed_step (by omega) _).2 (.inr rfl)), ← g2, List.getElem?_eq_getElem]
        · rw [if_neg hq, h2 p]
          by_cases hh : Passed C c i j p
          · rw [if_pos hh, if_pos ((hst p hq).2 hh)]
          · rw [if_neg hh, if_neg (fun h => hh ((hst p hq).1 h))]
      · simp only [List.getElem?_set]
        by_cases hq : i * C + j = p
        · subst hq
          rw [if_pos rfl, if_pos (by omega), if_pos ((passed_step (by omega) _).2 (.inr rfl)), ← g1, List.getElem?_eq_getElem]
        · rw [if_neg hq, h3 p]
          by_cases hh : Passed C c i j p
          · rw [if_pos hh, if_pos ((hst p hq).2 hh)]
          · rw [if_neg hh, if_neg (fun h => hh ((hst p hq).1 h))])
    (fun i d ⟨h1, h2, h3⟩ => ⟨h1, fun p => by
      rw [h2 p]
      by_cases hh : Passed C c i c p
      · rw [if_pos hh, if_pos ((passed_roll p).1 hh)]
      · rw [if_neg hh, if_neg (fun h => hh ((passed_roll p).2 h))], fun p => by
      rw [h3 p]
      by_cases hh : Passed C c i c p
      · rw [if_pos hh, if_pos ((passed_roll p).1 hh)]
      · rw [if_neg hh, if_neg (fun h => hh ((passed_roll p).2 h))]⟩)
  exact ⟨d, e, h1, h2⟩

/-- `clear ()`. -/
theorem clear_ok [Zero R] {N C : Nat} {m : CMatx R} {s : Mtx R} (h : HoldsM N C m s) : ∃ m', m.clear C = .ok m' ∧ HoldsM N C m' { s with val := fun _ _ => some 0 } := by
  obtain ⟨h1, h2, h3, h4, h5, h6⟩ := h
  obtain ⟨d, e, g1, g2⟩ := grid_inv (r := m.size1) (c := m.size2) (s := m.data) (F := fun i j d => wr false d (i * C + j) 0)
    (fun i j d => d.length = N * C ∧ ∀ p, p < N * C → Passed C m.size2 i j p → d[p]? = some 0)
    ⟨h1, fun p _ hp => absurd hp (passed_zero _ _ _)⟩
    (fun i j d hi hj ⟨a1, a2⟩ => by
      have hp := cell_lt (N := N) (C := C) (i := i) (j := j) (by omega) (by omega)
      refine ⟨d.set (i * C + j) 0, wr_ok (by omega), by simpa using a1, fun p hp' hh => ?_⟩
      rw [List.getElem?_set]
      by_cases hq : i * C + j = p
      · rw [if_pos hq, if_pos (by omega)]
      · rw [if_neg hq]
        rcases (passed_step (by omega) p).1 hh with hh | hh
        · exact a2 p hp' hh
        · exact absurd hh.symm hq)
    (fun i d ⟨a1, a2⟩ => ⟨a1, fun p hp hh => a2 p hp ((passed_roll p).2 hh)⟩)
  refine ⟨{ m with data := d }, by unfold clear; rw [e]; rfl, holds_iff.2 ⟨g1, h2, h3, h4, h5, fun i j x hi hj hx => ?_⟩⟩
  have hx : some 0 = some x := hx
  cases hx
  have hi : i < s.rows := hi
  have hj : j < s.cols := hj
  exact g2 _ (cell_lt (by omega) (by omega)) ((passed_cell (by omega)).2 ⟨by omega, by omega⟩)

/-- `m (i, j) = t`. -/
theorem set_ok {N C : Nat} {m : CMatx R} {s : Mtx R} (h : HoldsM N C m s) (dbg : Bool) {i j : Nat} (t : R) (hi : i < s.rows) (hj : j < s.cols) :
    ∃ m', m.set dbg C i j t = .ok m' ∧ HoldsM N C m' { s with val := fun k l => if k = i ∧ l = j then some t else s.val k l } := by
  obtain ⟨h1, h2, h3, h4, h5, h6⟩ := holds_iff.1 h
  have hp := cell_lt (N := N) (C := C) (i := i) (j := j) (by omega) (by omega)
  refine ⟨{ m with data := m.data.set (i * C + j) t }, ?_, holds_iff.2 ⟨by simpa using h1, h2, h3, h4, h5, fun k l x hk hl hx => ?_⟩⟩
  · unfold set
    rw [check_true (by omega), bind_ok, check_true (by omega), bind_ok, if_pos (by omega), wr_ok (by omega)]; rfl
  · show (m.data.set (i * C + j) t)[k * C + l]? = some x
    have hk : k < s.rows := hk
    have hl : l < s.cols := hl
    have hx : (if k = i ∧ l = j then some t else s.val k l) = some x := hx
    rw [List.getElem?_set]
    by_cases hq : k = i ∧ l = j
    · obtain ⟨rfl, rfl⟩ := hq
      rw [if_pos ⟨rfl, rfl⟩] at hx
      rw [if_pos rfl, if_pos (by omega), hx]
    · rw [if_neg hq] at hx
      rw [if_neg, h6 k l x hk hl hx]
      intro he
      have d1 := cell_div (i := i) (show j < C by omega)
      have d2 := cell_div (i := k) (show l < C by omega)
      rw [he] at d1
      exact hq ⟨by omega, by omega⟩

/-- `m = other`. -/
theorem copyAssign_ok {N C : Nat} {m src : CMatx R} {t : Mtx R} (hm : m.data.length = N * C) (h : HoldsM N C src t) : ∃ m', m.copyAssign C src = .ok m' ∧ HoldsM N C m' t := by
  obtain ⟨h1, h2, h3, h4, h5, h6⟩ := holds_iff.1 h
  obtain ⟨d, e, g1, g2⟩ := copyBlock_ok (N := N) (C := C) (r := src.size1) (c := src.size2) src.data m.data h1 hm (by omega) (by omega)
  refine ⟨⟨src.size1, src.size2, d⟩, by unfold copyAssign; rw [e]; rfl, holds_iff.2 ⟨g1, h2, h3, h4, h5, fun i j x hi hj hx => ?_⟩⟩
  show d[i * C + j]? = _
  rw [g2, if_pos ((passed_cell (by omega)).2 ⟨by omega, by omega⟩)]
  exact h6 i j x hi hj hx

/-- `swap` from the point of view of `a`: it takes over the other matrix; debug builds refuse different sizes. -/
theorem swap_fst {N C : Nat} (dbg : Bool) {a m : CMatx R} {t : Mtx R} (ha : a.data.length = N * C) (h : HoldsM N C m t) (hsz : dbg = true → a.size1 = m.size1 ∧ a.size2 = m.size2) :
    ∃ q, a.swap dbg C m = .ok q ∧ HoldsM N C q.1 t := by
  obtain ⟨h1, h2, h3, h4, h5, h6⟩ := holds_iff.1 h
  obtain ⟨d, e, ⟨g1, g1'⟩, g2, g3⟩ := swapBlock_ok (N := N) (C := C) (r := m.size1) (c := m.size2) a.data m.data ha h1 (by omega) (by omega)
  have c1 : check dbg (a.size1 = m.size1) .badSize = .ok () := by cases dbg with | true => exact check_true (hsz rfl).1 | false => exact check_release
  have c2 : check dbg (a.size2 = m.size2) .badSize = .ok () := by cases dbg with | true => exact check_true (hsz rfl).2 | false => exact check_release
  refine ⟨(⟨m.size1, m.size2, d.1⟩, ⟨a.size1, a.size2, d.2⟩), by unfold swap; rw [c1, bind_ok, c2, bind_ok, e]; rfl, holds_iff.2 ⟨g1, h2, h3, h4, h5, fun i j x hi hj hx => ?_⟩⟩
  show d.1[i * C + j]? = _
  rw [g2, if_pos ((passed_cell (by omega)).2 ⟨by omega, by omega⟩)]
  exact h6 i j x hi hj hx

/-- `swap` exchanges two matrices when the first one is not larger; in debug builds only matrices of the same size are accepted. -/
theorem swap_ok {N C : Nat} (dbg : Bool) {a m : CMatx R} {s t : Mtx R} (ha : HoldsM N C a s) (h : HoldsM N C m t)
    (hsz : if dbg then s.rows = t.rows ∧ s.cols = t.cols else s.rows ≤ t.rows ∧ s.cols ≤ t.cols) :
    ∃ q, a.swap dbg C m = .ok q ∧ HoldsM N C q.1 t ∧ HoldsM N C q.2 s := by
  obtain ⟨h1, h2, h3, h4, h5, h6⟩ := holds_iff.1 h
  obtain ⟨k1, k2, k3, k4, k5, k6⟩ := holds_iff.1 ha
  obtain ⟨d, e, ⟨g1, g1'⟩, g2, g3⟩ := swapBlock_ok (N := N) (C := C) (r := m.size1) (c := m.size2) a.data m.data k1 h1 (by omega) (by omega)
  have hle : s.rows ≤ t.rows ∧ s.cols ≤ t.cols := by cases dbg <;> simp at hsz <;> omega
  have c1 : check dbg (a.size1 = m.size1) .badSize = .ok () := by
    cases dbg with
    | true => simp at hsz; exact check_true (by omega)
    | false => exact check_release
  have c2 : check dbg (a.size2 = m.size2) .badSize = .ok () := by
    cases dbg with
    | true => simp at hsz; exact check_true (by omega)
    | false => exact check_release
  refine ⟨(⟨m.size1, m.size2, d.1⟩, ⟨a.size1, a.size2, d.2⟩), by unfold swap; rw [c1, bind_ok, c2, bind_ok, e]; rfl,
    holds_iff.2 ⟨g1, h2, h3, h4, h5, fun i j x hi hj hx => ?_⟩, holds_iff.2 ⟨g1', k2, k3, k4, k5, fun i j x hi hj hx => ?_⟩⟩
  · show d.1[i * C + j]? = _
    rw [g2, if_pos ((passed_cell (by omega)).2 ⟨by omega, by omega⟩)]
    exact h6 i j x hi hj hx
  · show d.2[i * C + j]? = _
    rw [g3, if_pos ((passed_cell (by omega)).2 ⟨by omega, by omega⟩)]
    exact k6 i j x hi hj hx

/-- `resize` within the capacity. -/
theorem resize_ok {N C : Nat} (dbg : Bool) (junk : Nat → R) {m : CMatx R} {s : Mtx R} (h : HoldsM N C m s) (r c : Nat) (p : Bool) (hr : r ≤ N) (hc : c ≤ C)
    (hsz : dbg = true → p = true → s.rows = r ∧ s.cols = c) :
    ∃ m', m.resize dbg N C junk r c p = .ok m' ∧ HoldsM N C m' ⟨r, c, fun k l => if p = true ∧ k < s.rows ∧ l < s.cols then s.val k l else none⟩ := by
  have hcap : ¬ (r > N ∨ c > C) := by omega
  obtain ⟨h1, h2, h3, h4, h5, h6⟩ := holds_iff.1 h
  unfold resize
  rw [if_neg hcap]
  cases p with
  | false => exact ⟨_, rfl, holds_iff.2 ⟨h1, rfl, rfl, hr, hc, fun i j x _ _ hx => by simp at hx⟩⟩
  | true =>
    rw [if_pos rfl]
    unfold ctor
    rw [if_neg hcap, bind_ok]
    have hj : ((List.range (N * C)).map junk).length = N * C := by simp
    obtain ⟨d, e, g1, g2⟩ := copyBlock_ok (N := N) (C := C) (r := min r m.size1) (c := min c m.size2) m.data ((List.range (N * C)).map junk) h1 hj (by omega) (by omega)
    have e' : loop (fun i d => copyRow C i m.data (min c m.size2) d) (min r m.size1) ({ size1 := r, size2 := c, data := (List.range (N * C)).map junk } : CMatx R).data = .ok d := e
    rw [e', bind_ok]
    have ht : HoldsM N C (⟨r, c, d⟩ : CMatx R) ⟨r, c, fun k l => if true = true ∧ k < s.rows ∧ l < s.cols then s.val k l else none⟩ := by
      refine holds_iff.2 ⟨g1, rfl, rfl, hr, hc, fun i j x hi hj hx => ?_⟩
      show d[i * C + j]? = _
      have hi : i < r := hi
      have hj : j < c := hj
      have hx : (if true = true ∧ i < s.rows ∧ j < s.cols then s.val i j else none) = some x := hx
      by_cases hq : true = true ∧ i < s.rows ∧ j < s.cols
      · rw [if_pos hq] at hx
        rw [g2, if_pos ((passed_cell (by omega)).2 ⟨by omega, by omega⟩)]
        exact h6 i j x hq.2.1 hq.2.2 hx
      · rw [if_neg hq] at hx; cases hx
    obtain ⟨q, e2, hq⟩ := swap_fst (N := N) dbg (a := m) h1 ht (fun hd => by
      have := hsz hd rfl
      exact ⟨by show m.size1 = r; omega, by show m.size2 = c; omega⟩)
    exact ⟨q.1, by show (swap dbg C m ⟨r, c, d⟩ >>= _) = _; rw [e2]; rfl, hq⟩

section expr
variable [Ring R] [DecidableEq R]

/-- `c_matrix (ae)`. -/
theorem fromExpr_ok {N C : Nat} (dbg : Bool) (mode : ProdFn.Mode) (junk : Nat → R) (e : MExp R) (r c : Nat) (a : Nat → Nat → R) (he : e.Presents r c a) (hr : r ≤ N) (hc : c ≤ C) :
    ∃ m, fromExpr dbg mode N C junk e = .ok m ∧ HoldsM N C m ⟨r, c, fun k l => some (a k l)⟩ := by
  obtain ⟨s1, s2⟩ := he.sizes
  have hj : ((List.range (N * C)).map junk).length = N * C := by simp
  have hinj : ∀ k l i j, k < r → l < c → i < r → j < c → k * C + l = i * C + j → k = i ∧ l = j := by
    intro k l i j _ hl _ hj h
    have d1 := cell_div (i := k) (show l < C by omega)
    have d2 := cell_div (i := i) (show j < C by omega)
    rw [h] at d1; omega
  obtain ⟨d, w', Ls', S', e1, ⟨_, _, _, _, a5, a6, _⟩, h2⟩ := C68_matrix_assign dbg mode .dense .assign e r c a ((List.range (N * C)).map junk)
    (fun k l => ((List.range (N * C)).map junk).getD (k * C + l) 0) _ _ (mview_supports dbg r c (fun i j => i * C + j) _ hinj).1 (by simp) he
    ⟨rfl, rfl, rfl, rfl, rfl, fun k l hk hl => by
      have := cell_lt (N := N) (C := C) (i := k) (j := l) (by omega) (by omega)
      simp [List.getD, this], fun _ _ => rfl⟩
  refine ⟨⟨r, c, d⟩, ?_, holds_iff.2 ⟨by rw [← hj]; exact a5, rfl, rfl, hr, hc, fun i j x hi hj' hx => ?_⟩⟩
  · unfold fromExpr
    rw [s1, s2, if_neg (by omega), e1]; rfl
  · have hx : some (a i j) = some x := hx
    rw [← hx]
    show d[i * C + j]? = _
    rw [a6 i j hi hj', h2 i j hi hj']; rfl

/-- `m = ae`. -/
theorem assignExpr_ok {N C : Nat} (dbg : Bool) (mode : ProdFn.Mode) (junk : Nat → R) (e : MExp R) (r c : Nat) (a : Nat → Nat → R) (he : e.Presents r c a) (hr : r ≤ N) (hc : c ≤ C)
    (m : CMatx R) (hm : m.data.length = N * C) (hsz : dbg = true → m.size1 = r ∧ m.size2 = c) :
    ∃ m', m.assignExpr dbg mode N C junk e = .ok m' ∧ HoldsM N C m' ⟨r, c, fun k l => some (a k l)⟩ := by
  obtain ⟨t, e1, ht⟩ := fromExpr_ok dbg mode junk e r c a he hr hc
  obtain ⟨q, e2, hq⟩ := swap_fst (N := N) dbg (a := m) hm ht (fun hd => by rw [ht.2.1, ht.2.2.1]; exact hsz hd)
  exact ⟨q.1, by unfold assignExpr; rw [e1, bind_ok, e2]; rfl, hq⟩

end expr

/-- The operation keeps the size or moves no elements through `swap`: the operations a debug build accepts. -/
def Accepted (s : Mtx R) (t : Mtx R) : MOp R → Prop
  | .resize _ _ p => p = true → s.rows = t.rows ∧ s.cols = t.cols
  | .assign _ => s.rows = t.rows ∧ s.cols = t.cols
  | _ => True

variable [Ring R] [DecidableEq R]

theorem step_ok {N C : Nat} (dbg : Bool) (mode : ProdFn.Mode) (junk : Nat → R) {m : CMatx R} {s t : Mtx R} {op : MOp R} (h : HoldsM N C m s) (hs : MStep N C s op t)
    (hd : dbg = true → Accepted s t op) : ∃ m', op.run dbg mode N C junk m = .ok m' ∧ HoldsM N C m' t := by
  cases hs with
  | set i j x hi hj => exact set_ok h dbg x hi hj
  | clear => exact clear_ok h
  | resize r c p hr hc => exact resize_ok dbg junk h r c p hr hc hd
  | copy _ src hsrc => exact copyAssign_ok h.1 hsrc
  | assign e r c a hr hc he => exact assignExpr_ok dbg mode junk e r c a he hr hc m h.1 (fun hdb => by rw [h.2.1, h.2.2.1]; exact hd hdb)

end CMatx

variable [Ring R] [DecidableEq R]

/-- **C77**, c_matrix, release builds: after any history of element writes, `clear`, `resize` (both flavours), copies and assignments of expressions within the
capacity, the matrix has the expected size and every specified element. -/
theorem C77_c_matrix_release_partial (mode : ProdFn.Mode) (N C : Nat) (junk : Nat → R) (m : CMatx R) (s t : Mtx R) (ops : List (MOp R)) (h : HoldsM N C m s) (hh : MHist N C s ops t) :
    ∃ m', ops.foldlM (MOp.run false mode N C junk) m = .ok m' ∧ HoldsM N C m' t := by
  induction hh generalizing m with
  | nil s => exact ⟨m, rfl, h⟩
  | cons hs _ ih =>
    obtain ⟨m1, e1, h1⟩ := CMatx.step_ok false mode junk h hs (by simp)
    obtain ⟨m2, e2, h2⟩ := ih m1 h1
    exact ⟨m2, by rw [List.foldlM_cons, e1]; exact e2, h2⟩

/-- **C77**, c_matrix, one operation in either build: as specified, for debug builds if neither a preserving resize nor an assigned expression changes the size. -/
theorem C77_c_matrix_step_partial (dbg : Bool) (mode : ProdFn.Mode) (N C : Nat) (junk : Nat → R) (m : CMatx R) (s t : Mtx R) (op : MOp R) (h : HoldsM N C m s) (hs : MStep N C s op t)
    (hd : dbg = true → CMatx.Accepted s t op) : ∃ m', op.run dbg mode N C junk m = .ok m' ∧ HoldsM N C m' t := CMatx.step_ok dbg mode junk h hs hd

/-- Sizes beyond the capacity are refused in every build. -/
theorem C77_c_matrix_capacity (dbg : Bool) (mode : ProdFn.Mode) (N C : Nat) (junk : Nat → R) (m : CMatx R) (r c : Nat) (p : Bool) (e : MExp R) (hx : r > N ∨ c > C) :
    CMatx.ctor N C junk r c = .error .badSize ∧ m.resize dbg N C junk r c p = .error .badSize ∧
    (e.sizeM = r → e.sizem = c → CMatx.fromExpr dbg mode N C junk e = .error .badSize ∧ m.assignExpr dbg mode N C junk e = .error .badSize) := by
  refine ⟨if_pos hx, if_pos hx, fun h1 h2 => ?_⟩
  have : CMatx.fromExpr dbg mode N C junk e = .error .badSize := by unfold CMatx.fromExpr; rw [h1, h2, if_pos hx]
  exact ⟨this, by unfold CMatx.assignExpr; rw [this]; rfl⟩

/-- The full claim for `resize` and assignment: every operation within the capacity is carried out, in both builds. -/
def C77_c_matrix_claim (R : Type) [Ring R] [DecidableEq R] : Prop :=
  ∀ (dbg : Bool) (mode : ProdFn.Mode) (N C : Nat) (junk : Nat → R) (m : CMatx R) (s t : Mtx R) (op : MOp R), HoldsM N C m s → MStep N C s op t →
    ∃ m', op.run dbg mode N C junk m = .ok m' ∧ HoldsM N C m' t

/-- It fails in debug builds: every preserving `resize` to another size (within the capacity) and every assignment of an expression of another size throws `bad_size`. -/
theorem C77_c_matrix_resize_throws (mode : ProdFn.Mode) (N C : Nat) (junk : Nat → R) (m : CMatx R) (s : Mtx R) (h : HoldsM N C m s) (r c : Nat) (hr : r ≤ N) (hc : c ≤ C)
    (hne : ¬ (s.rows = r ∧ s.cols = c)) :
    m.resize true N C junk r c true = .error .badSize ∧ ∀ e a, (e : MExp R).Presents r c a → m.assignExpr true mode N C junk e = .error .badSize := by
  have hsw : ∀ t : CMatx R, t.size1 = r → t.size2 = c → m.swap true C t = .error .badSize := by
    intro t h1 h2
    unfold CMatx.swap
    by_cases hq : m.size1 = t.size1
    · rw [check_true hq, bind_ok, check_dbg_false]; rfl
      intro hq2; apply hne; rw [← h.2.1, ← h.2.2.1]; exact ⟨by omega, by omega⟩
    · rw [check_dbg_false hq]; rfl
  constructor
  · obtain ⟨h1, h2, h3, h4, h5, h6⟩ := h
    unfold CMatx.resize CMatx.ctor
    rw [if_neg (by omega), if_pos rfl, if_neg (by omega), bind_ok]
    have hj : ((List.range (N * C)).map junk).length = N * C := by simp
    obtain ⟨d, e, g1, g2⟩ := CMatx.copyBlock_ok (N := N) (C := C) (r := min r m.size1) (c := min c m.size2) m.data ((List.range (N * C)).map junk) h1 hj (by omega) (by omega)
    have e' : loop (fun i d => CMatx.copyRow C i m.data (min c m.size2) d) (min r m.size1) ({ size1 := r, size2 := c, data := (List.range (N * C)).map junk } : CMatx R).data = .ok d := e
    rw [e', bind_ok]
    show (CMatx.swap true C m ⟨r, c, d⟩ >>= _) = _
    rw [hsw _ rfl rfl]; rfl
  · intro e a he
    obtain ⟨t, e1, ht⟩ := CMatx.fromExpr_ok true mode junk e r c a he hr hc
    unfold CMatx.assignExpr
    rw [e1, bind_ok, hsw t ht.2.1 ht.2.2.1]; rfl

theorem C77_c_matrix_refuted : ¬ C77_c_matrix_claim R := by
  intro h
  have hm : HoldsM 2 2 (⟨2, 2, [0, 0, 0, 0]⟩ : CMatx R) ⟨2, 2, fun _ _ => none⟩ := ⟨rfl, rfl, rfl, Nat.le_refl _, Nat.le_refl _, fun _ _ _ _ _ _ hx => by cases hx⟩
  obtain ⟨m', e, _⟩ := h true .indexing 2 2 (fun _ => 0) _ _ _ (.resize 1 1 true) hm (.resize _ 1 1 true (by omega) (by omega))
  have := (C77_c_matrix_resize_throws .indexing 2 2 (fun _ => 0) _ _ hm 1 1 (by omega) (by omega) (by simp)).1
  rw [show MOp.run true .indexing 2 2 (fun _ => 0) (⟨2, 2, [0, 0, 0, 0]⟩ : CMatx R) (.resize 1 1 true) = .error .badSize from this] at e
  cases e

/-- **C77**, `swap` of two c_matrix: exchanges them in debug builds if the sizes agree, in release builds if the first is not larger. -/
theorem C77_c_matrix_swap_partial (dbg : Bool) (N C : Nat) (a m : CMatx R) (s t : Mtx R) (ha : HoldsM N C a s) (h : HoldsM N C m t)
    (hsz : if dbg then s.rows = t.rows ∧ s.cols = t.cols else s.rows ≤ t.rows ∧ s.cols ≤ t.cols) :
    ∃ q, a.swap dbg C m = .ok q ∧ HoldsM N C q.1 t ∧ HoldsM N C q.2 s := CMatx.swap_ok dbg ha h hsz

/-- Release builds lose elements when the first matrix is larger: swapping (1 2) with a 1x1 matrix (9). -/
theorem C77_c_matrix_swap_refuted : ∃ (a m : CMatx Int) (q : CMatx Int × CMatx Int), a.size1 = 1 ∧ a.size2 = 2 ∧ m.size1 = 1 ∧ m.size2 = 1 ∧ a.swap false 2 m = .ok q ∧
    a.get false 2 0 1 = .ok 2 ∧ q.2.size2 = 2 ∧ q.2.get false 2 0 1 ≠ .ok 2 :=
  ⟨⟨1, 2, [1, 2]⟩, ⟨1, 1, [9, 7]⟩, (⟨1, 1, [9, 2]⟩, ⟨1, 2, [1, 7]⟩), rfl, rfl, rfl, rfl, by decide, by decide, rfl, by decide⟩

/-! ## c_vector -/
namespace CVect

theorem get_iff {v : CVect R} {dbg : Bool} {i : Nat} {x : R} (hi : i < v.size) : v.get dbg i = .ok x ↔ v.data[i]? = some x := by
  unfold get; rw [check_true hi, bind_ok, rd_eq_ok]

theorem holds_iff {N : Nat} {v : CVect R} {s : Vct R} : HoldsV N v s ↔ v.data.length = N ∧ v.size = s.size ∧ s.size ≤ N ∧ ∀ i x, i < s.size → s.val i = some x → v.data[i]? = some x := by
  constructor
  · rintro ⟨h1, h2, h3, h4⟩
    exact ⟨h1, h2, h3, fun i x hi hx => (get_iff (by omega)).1 (h4 true i x hi hx)⟩
  · rintro ⟨h1, h2, h3, h4⟩
    exact ⟨h1, h2, h3, fun dbg i x hi hx => (get_iff (by omega)).2 (h4 i x hi hx)⟩

theorem swapRanges_get (n : Nat) (a b : List R) (ha : n ≤ a.length) (hb : n ≤ b.length) (p : Nat) :
    (swapRanges n a b).1[p]? = (if p < n then b[p]? else a[p]?) ∧ (swapRanges n a b).2[p]? = (if p < n then a[p]? else b[p]?) := by
  have key : ∀ x y : List R, n ≤ x.length → n ≤ y.length → (x.take n ++ y.drop n)[p]? = if p < n then x[p]? else y[p]? := by
    intro x y hx hy
    rw [List.getElem?_append]
    have : (x.take n).length = n := by simp; omega
    rw [this]
    by_cases h : p < n
    · rw [if_pos h, if_pos h, List.getElem?_take, if_pos h]
    · rw [if_neg h, if_neg h, List.getElem?_drop]; congr 1; omega
  exact ⟨key b a hb ha, key a b ha hb⟩

end CVect

/-- **C77**, c_vector, the operations that work in every build: construction, `resize` (which keeps the common elements), element writes, `clear`, copies. -/
theorem C77_c_vector (dbg : Bool) (N : Nat) (v : CVect R) (s : Vct R) (h : HoldsV N v s) :
    (∀ (junk : Nat → R) n, n ≤ N → ∃ u, CVect.ctor N junk n = .ok u ∧ HoldsV N u ⟨n, fun _ => none⟩) ∧
    (∀ n, n ≤ N → ∃ u, v.resize N n = .ok u ∧ HoldsV N u ⟨n, fun i => if i < s.size then s.val i else none⟩) ∧
    (∀ n, n > N → v.resize N n = .error .badSize) ∧
    (∀ i t, i < s.size → ∃ u, v.set dbg i t = .ok u ∧ HoldsV N u { s with val := fun k => if k = i then some t else s.val k }) ∧
    (∃ u, v.clear = .ok u ∧ HoldsV N u { s with val := fun _ => some 0 }) ∧
    (∀ u t, HoldsV N u t → HoldsV N (v.copyAssign u) t) := by
  obtain ⟨h1, h2, h3, h4⟩ := CVect.holds_iff.1 h
  refine ⟨fun junk n hn => ⟨⟨n, (List.range N).map junk⟩, if_neg (by omega), CVect.holds_iff.2 ⟨by simp, rfl, hn, fun _ _ _ hx => by cases hx⟩⟩,
    fun n hn => ⟨{ v with size := n }, if_neg (by omega), CVect.holds_iff.2 ⟨h1, rfl, hn, fun i x hi hx => ?_⟩⟩, fun n hn => if_pos hn, fun i t hi => ?_, ?_, fun u t hu => ?_⟩
  · have hx : (if i < s.size then s.val i else none) = some x := hx
    by_cases hq : i < s.size
    · rw [if_pos hq] at hx; exact h4 i x hq hx
    · rw [if_neg hq] at hx; cases hx
  · refine ⟨{ v with data := v.data.set i t }, ?_, CVect.holds_iff.2 ⟨by simpa using h1, h2, h3, fun k x hk hx => ?_⟩⟩
    · unfold CVect.set
      rw [check_true (by omega), bind_ok, wr_ok (by omega)]; rfl
    · show (v.data.set i t)[k]? = _
      have hx : (if k = i then some t else s.val k) = some x := hx
      rw [List.getElem?_set]
      by_cases hq : i = k
      · subst hq
        rw [if_pos rfl] at hx
        rw [if_pos rfl, if_pos (by omega), hx]
      · rw [if_neg (Ne.symm hq)] at hx
        rw [if_neg hq]; exact h4 k x hk hx
  · obtain ⟨d, e, g1, g2⟩ := loop_inv (n := v.size) (f := fun i d => wr false d i (0 : R)) (s := v.data) (I := fun i d => d.length = N ∧ ∀ p, p < i → d[p]? = some 0)
      ⟨h1, fun p hp => by omega⟩ (fun i d hi ⟨a1, a2⟩ => ⟨d.set i 0, wr_ok (by omega), by simpa using a1, fun p hp => by
        rw [List.getElem?_set]
        by_cases hq : i = p
        · rw [if_pos hq, if_pos (by omega)]
        · rw [if_neg hq]; exact a2 p (by omega)⟩)
    refine ⟨{ v with data := d }, by unfold CVect.clear; rw [e]; rfl, CVect.holds_iff.2 ⟨g1, h2, h3, fun k x hk hx => ?_⟩⟩
    have hx : some 0 = some x := hx
    have hk : k < s.size := hk
    rw [← hx]; exact g2 k (by omega)
  · obtain ⟨k1, k2, k3, k4⟩ := CVect.holds_iff.1 hu
    have hg := fun p => (CVect.swapRanges_get u.size v.data u.data (by omega) (by omega) p).1
    refine CVect.holds_iff.2 ⟨?_, k2, k3, fun i x hi hx => ?_⟩
    · show (u.data.take u.size ++ v.data.drop u.size).length = N
      simp; omega
    · show (swapRanges u.size v.data u.data).1[i]? = _
      rw [hg i, if_pos (by omega)]; exact k4 i x hi hx

/-- **C77**, c_vector `swap`: debug builds need equal sizes, release builds a first vector that is not larger. -/
theorem C77_c_vector_swap_partial (dbg : Bool) (N : Nat) (a v : CVect R) (s t : Vct R) (ha : HoldsV N a s) (h : HoldsV N v t) (hsz : if dbg then s.size = t.size else s.size ≤ t.size) :
    ∃ q, a.swap dbg v = .ok q ∧ HoldsV N q.1 t ∧ HoldsV N q.2 s := by
  obtain ⟨h1, h2, h3, h4⟩ := CVect.holds_iff.1 h
  obtain ⟨k1, k2, k3, k4⟩ := CVect.holds_iff.1 ha
  have hle : s.size ≤ t.size := by cases dbg <;> simp at hsz <;> omega
  have c1 : check dbg (a.size = v.size) .badSize = .ok () := by
    cases dbg with
    | true => simp at hsz; exact check_true (by omega)
    | false => exact check_release
  have hg := fun p => CVect.swapRanges_get v.size a.data v.data (by omega) (by omega) p
  refine ⟨(⟨v.size, (swapRanges v.size a.data v.data).1⟩, ⟨a.size, (swapRanges v.size a.data v.data).2⟩), by unfold CVect.swap; rw [c1]; rfl,
    CVect.holds_iff.2 ⟨?_, h2, h3, fun i x hi hx => ?_⟩, CVect.holds_iff.2 ⟨?_, k2, k3, fun i x hi hx => ?_⟩⟩
  · simp [swapRanges]; omega
  · show (swapRanges v.size a.data v.data).1[i]? = _
    rw [(hg i).1, if_pos (by omega)]; exact h4 i x hi hx
  · simp [swapRanges]; omega
  · show (swapRanges v.size a.data v.data).2[i]? = _
    rw [(hg i).2, if_pos (by omega)]; exact k4 i x hi hx

/-- **C77**, `v = e` for a c_vector: in release builds always (within the capacity), in debug builds if the sizes agree; otherwise it throws `bad_size`. -/
theorem C77_c_vector_assign_partial (dbg : Bool) (mode : ProdFn.Mode) (N : Nat) (junk : Nat → R) (v : CVect R) (s : Vct R) (h : HoldsV N v s) (e : Seq R) (n : Nat) (c : Nat → R)
    (he : e.Presents n c) (hn : n ≤ N) :
    (dbg = false ∨ s.size = n → ∃ u, v.assignExpr dbg mode N junk e = .ok u ∧ HoldsV N u ⟨n, fun i => some (c i)⟩) ∧
    (dbg = true → s.size ≠ n → v.assignExpr dbg mode N junk e = .error .badSize) := by
  obtain ⟨h1, h2, h3, h4⟩ := CVect.holds_iff.1 h
  have hj : ((List.range N).map junk).length = N := by simp
  obtain ⟨d, w', S', e1, ⟨a1, a2, a3, a4, a5⟩, g2⟩ := C44_assign_every_element dbg mode .dense .assign e n c ((List.range N).map junk) _ _
    (view_supports dbg n id ((List.range N).map junk) (fun i j _ _ h => h)).1 (by simp) (he.reads _) (view_rep n id ((List.range N).map junk) (fun i hi => by show i < _; omega))
  have hf : CVect.fromExpr dbg mode N junk e = .ok ⟨n, d⟩ := by
    unfold CVect.fromExpr
    rw [he.size, if_neg (by omega), e1]; rfl
  have hd : d.length = N := by rw [a3, hj]
  constructor
  · intro hc
    have c1 : check dbg (v.size = n) .badSize = .ok () := by
      rcases hc with hc | hc
      · subst hc; exact check_release
      · exact check_true (by omega)
    have hg := fun p => (CVect.swapRanges_get n v.data d (by omega) (by omega) p).1
    refine ⟨⟨n, (swapRanges n v.data d).1⟩, by unfold CVect.assignExpr; rw [hf, bind_ok]; unfold CVect.swap; rw [c1]; rfl, CVect.holds_iff.2 ⟨?_, rfl, hn, fun i x hi hx => ?_⟩⟩
    · simp [swapRanges]; omega
    · have hi : i < n := hi
      have hx : some (c i) = some x := hx
      show (swapRanges n v.data d).1[i]? = _
      rw [hg i, if_pos hi, ← hx, show d[i]? = some (w' i) from a4 i hi, g2 i hi]; rfl
  · intro hdb hne
    subst hdb
    unfold CVect.assignExpr CVect.swap
    rw [hf, bind_ok, check_dbg_false (show ¬ v.size = n by omega)]; rfl

/-- Release builds lose elements when the first vector is larger. -/
theorem C77_c_vector_swap_refuted : ∃ (a v : CVect Int) (q : CVect Int × CVect Int), a.size = 2 ∧ v.size = 1 ∧ a.swap false v = .ok q ∧ a.get false 1 = .ok 2 ∧ q.2.size = 2 ∧
    q.2.get false 1 ≠ .ok 2 :=
  ⟨⟨2, [1, 2]⟩, ⟨1, [9, 7]⟩, (⟨1, [9, 2]⟩, ⟨2, [1, 7]⟩), rfl, rfl, by decide, by decide, rfl, by decide⟩

/-- A c_matrix of capacity 3 x 3 that holds the 1 x 2 matrix (4 5) (junk elsewhere). -/
example : HoldsM 3 3 (⟨1, 2, [4, 5, 9, 9, 9, 9, 9, 9, 9]⟩ : CMatx Int) ⟨1, 2, fun _ j => some (if j = 0 then 4 else 5)⟩ := by
  refine ⟨rfl, rfl, rfl, by decide, by decide, fun dbg i j x hi hj hx => ?_⟩
  simp only at hi hj hx
  have : i = 0 := by omega
  subst this
  interval_cases j <;> cases dbg <;> simp at hx <;> subst hx <;> rfl

end Ublas
