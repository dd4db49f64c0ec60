import Verif.Props.AssignerUse
import Mathlib.Algebra.BigOperators.Group.Finset.Basic
import Mathlib.Algebra.Order.BigOperators.Group.Finset
/-! # C57: blocks, sparse targets, and where comma assignment does not do what it should -/
namespace Ublas.Assigner
open SparseSpec Finset
variable {σ ι R : Type}

/-! ## A matrix from blocks -/

theorem mem_blockWrites {byRow : Bool} {f : Fill} {i j s1 s2 : Nat} {b : Nat → Nat → R} {a : Write (Nat × Nat) R} :
    a ∈ blockWrites byRow f i j s1 s2 b ↔ ∃ k l, k < s1 ∧ l < s2 ∧ a = ⟨f, (i + k, j + l), b k l⟩ := by
  cases byRow <;> simp only [blockWrites, if_true, Bool.false_eq_true, if_false, List.mem_flatMap, List.mem_map, List.mem_range]
  · constructor
    · rintro ⟨l, hl, k, hk, rfl⟩; exact ⟨k, l, hk, hl, rfl⟩
    · rintro ⟨k, l, hk, hl, rfl⟩; exact ⟨l, hl, k, hk, rfl⟩
  · constructor
    · rintro ⟨k, hk, l, hl, rfl⟩; exact ⟨k, l, hk, hl, rfl⟩
    · rintro ⟨k, l, hk, hl, rfl⟩; exact ⟨k, hk, l, hl, rfl⟩

/-- Sum of the first `a` sizes. -/
def offset (h : Nat → Nat) (a : Nat) : Nat := ∑ x ∈ range a, h x

theorem offset_succ (h : Nat → Nat) (a : Nat) : offset h (a + 1) = offset h a + h a := sum_range_succ _ _
theorem offset_zero (h : Nat → Nat) : offset h 0 = 0 := rfl
theorem offset_mono (h : Nat → Nat) {a b : Nat} (hab : a ≤ b) : offset h a ≤ offset h b := by
  induction b, hab using Nat.le_induction with
  | base => exact le_refl _
  | succ b _ ih => rw [offset_succ]; omega

theorem offset_lt {h : Nat → Nat} {a p k : Nat} (ha : a < p) (hk : k < h a) : offset h a + k < offset h p := by
  have := offset_mono h (show a + 1 ≤ p from ha)
  rw [offset_succ] at this; omega

theorem offset_cover {h : Nat → Nat} {p i : Nat} (hi : i < offset h p) : ∃ a k, a < p ∧ k < h a ∧ i = offset h a + k := by
  induction p with
  | zero => simp [offset_zero] at hi
  | succ p ih =>
    by_cases hp : i < offset h p
    · obtain ⟨a, k, h1, h2, h3⟩ := ih hp
      exact ⟨a, k, by omega, h2, h3⟩
    · rw [offset_succ] at hi
      exact ⟨p, i - offset h p, by omega, by omega, by omega⟩

/-- The blocks of `G` that the heights `h` and widths `wd` cut out, band by band. -/
def gridSpec (byRow : Bool) (h wd : Nat → Nat) (p q : Nat) (G : Nat × Nat → R) : List (MSpec R) :=
  if byRow then (List.range' 0 p).flatMap fun a => (List.range' 0 q).map fun b => .block (h a) (wd b) fun k l => G (offset h a + k, offset wd b + l)
  else (List.range' 0 q).flatMap fun b => (List.range' 0 p).map fun a => .block (h a) (wd b) fun k l => G (offset h a + k, offset wd b + l)

theorem row_band (h wd : Nat → Nat) {q : Nat} (hw : ∀ b, b < q → 0 < wd b) (G : Nat × Nat → R) (r a : Nat) (rest : List (MSpec R)) : ∀ m b, b + m = q → 0 < m →
    mwrites r (offset wd q) .assign ⟨true, true⟩ (offset h a) (offset wd b) (((List.range' b m).map fun b => .block (h a) (wd b) fun k l => G (offset h a + k, offset wd b + l)) ++ rest) =
      ((List.range' b m).flatMap fun b => blockWrites true .assign (offset h a) (offset wd b) (h a) (wd b) fun k l => G (offset h a + k, offset wd b + l)) ++
        mwrites r (offset wd q) .assign ⟨true, true⟩ (offset h (a + 1)) 0 rest := by
  intro m
  induction m with
  | zero => intro b _ h0; omega
  | succ m ih =>
    intro b hb _
    rw [List.range'_succ, List.map_cons, List.cons_append, mwrites, List.flatMap_cons, List.append_assoc]
    congr 1
    by_cases hm : m = 0
    · subst hm
      have : b + 1 = q := by omega
      subst this
      simp only [blockEnd, if_true, ← offset_succ, le_refl]
      rfl
    · have hlt : offset wd (b + 1) < offset wd q := by
        have := offset_lt (h := wd) (a := b + 1) (p := q) (k := 0) (by omega) (hw _ (by omega))
        omega
      simp only [blockEnd, if_true, ← offset_succ, if_neg (Nat.not_le.2 hlt)]
      exact ih (b + 1) (by omega) (by omega)

theorem col_band (h wd : Nat → Nat) {p : Nat} (hh : ∀ a, a < p → 0 < h a) (G : Nat × Nat → R) (c b : Nat) (rest : List (MSpec R)) : ∀ m a, a + m = p → 0 < m →
    mwrites (offset h p) c .assign ⟨false, true⟩ (offset h a) (offset wd b) (((List.range' a m).map fun a => .block (h a) (wd b) fun k l => G (offset h a + k, offset wd b + l)) ++ rest) =
      ((List.range' a m).flatMap fun a => blockWrites false .assign (offset h a) (offset wd b) (h a) (wd b) fun k l => G (offset h a + k, offset wd b + l)) ++
        mwrites (offset h p) c .assign ⟨false, true⟩ 0 (offset wd (b + 1)) rest := by
  intro m
  induction m with
  | zero => intro b _ h0; omega
  | succ m ih =>
    intro a ha _
    rw [List.range'_succ, List.map_cons, List.cons_append, mwrites, List.flatMap_cons, List.append_assoc]
    congr 1
    by_cases hm : m = 0
    · subst hm
      have : a + 1 = p := by omega
      subst this
      simp only [blockEnd, if_true, Bool.false_eq_true, if_false, ← offset_succ, le_refl]
      rfl
    · have hlt : offset h (a + 1) < offset h p := by
        have := offset_lt (h := h) (a := a + 1) (p := p) (k := 0) (by omega) (hh _ (by omega))
        omega
      simp only [blockEnd, if_true, Bool.false_eq_true, if_false, ← offset_succ, if_neg (Nat.not_le.2 hlt)]
      exact ih (a + 1) (by omega) (by omega)

theorem mwrites_grid (byRow : Bool) {h wd : Nat → Nat} {p q : Nat} (hp : 0 < p) (hq : 0 < q) (hh : ∀ a, a < p → 0 < h a) (hw : ∀ b, b < q → 0 < wd b) (G : Nat × Nat → R) :
    mwrites (offset h p) (offset wd q) .assign ⟨byRow, true⟩ 0 0 (gridSpec byRow h wd p q G) =
      if byRow then (List.range' 0 p).flatMap fun a => (List.range' 0 q).flatMap fun b => blockWrites true .assign (offset h a) (offset wd b) (h a) (wd b) fun k l => G (offset h a + k, offset wd b + l)
      else (List.range' 0 q).flatMap fun b => (List.range' 0 p).flatMap fun a => blockWrites false .assign (offset h a) (offset wd b) (h a) (wd b) fun k l => G (offset h a + k, offset wd b + l) := by
  cases byRow with
  | true =>
    simp only [gridSpec, if_true]
    suffices ∀ m a, mwrites (offset h p) (offset wd q) .assign ⟨true, true⟩ (offset h a) 0 ((List.range' a m).flatMap fun a => (List.range' 0 q).map fun b => .block (h a) (wd b) fun k l => G (offset h a + k, offset wd b + l)) =
      (List.range' a m).flatMap fun a => (List.range' 0 q).flatMap fun b => blockWrites true .assign (offset h a) (offset wd b) (h a) (wd b) fun k l => G (offset h a + k, offset wd b + l) from this p 0
    intro m
    induction m with
    | zero => intro a; rfl
    | succ m ih =>
      intro a
      rw [List.range'_succ, List.flatMap_cons, List.flatMap_cons, ← ih (a + 1)]
      exact row_band h wd hw G _ a _ q 0 (by omega) hq
  | false =>
    simp only [gridSpec, Bool.false_eq_true, if_false]
    suffices ∀ m b, mwrites (offset h p) (offset wd q) .assign ⟨false, true⟩ 0 (offset wd b) ((List.range' b m).flatMap fun b => (List.range' 0 p).map fun a => .block (h a) (wd b) fun k l => G (offset h a + k, offset wd b + l)) =
      (List.range' b m).flatMap fun b => (List.range' 0 p).flatMap fun a => blockWrites false .assign (offset h a) (offset wd b) (h a) (wd b) fun k l => G (offset h a + k, offset wd b + l) from this q 0
    intro m
    induction m with
    | zero => intro a; rfl
    | succ m ih =>
      intro b
      rw [List.range'_succ, List.flatMap_cons, List.flatMap_cons, ← ih (b + 1)]
      exact col_band h wd hh G _ b _ p 0 (by omega) hp

/-- **C57**, blocks: cut a matrix `G` into `p` × `q` non-empty blocks of any heights and widths and assign the blocks with commas, by rows of blocks or by columns of blocks: the target becomes `G`. -/
theorem C57_matrix_blocks [Add R] [Sub R] {A : Acc σ (Nat × Nat) R} {h wd : Nat → Nat} {p q : Nat} {Rep : σ → (Nat × Nat → R) → Prop}
    (hA : A.Lawful (fun x => x.1 < offset h p ∧ x.2 < offset wd q) Rep) (push ins : σ → Nat × Nat → R → M σ) (byRow : Bool) (hp : 0 < p) (hq : 0 < q) (hh : ∀ a, a < p → 0 < h a) (hw : ∀ b, b < q → 0 < wd b)
    (G : Nat × Nat → R) {items : List (MItem R)} (hi : List.Forall₂ MItem.Means items (gridSpec byRow h wd p q G)) {s : σ} {w : Nat × Nat → R} (hs : Rep s w) :
    ∃ s' w', massign (Target.ofAcc A push ins) (offset h p) (offset wd q) s (.traverse ⟨byRow, true⟩ :: items) = .ok s' ∧ Rep s' w' ∧ ∀ i j, i < offset h p → j < offset wd q → w' (i, j) = G (i, j) := by
  have hr : 0 < offset h p := by have := offset_lt (h := h) hp (hh 0 hp); omega
  have hc : 0 < offset wd q := by have := offset_lt (h := wd) hq (hw 0 hq); omega
  have he : mwrites (offset h p) (offset wd q) .assign ⟨true, true⟩ 0 0 (.traverse ⟨byRow, true⟩ :: gridSpec byRow h wd p q G) = mwrites (offset h p) (offset wd q) .assign ⟨byRow, true⟩ 0 0 (gridSpec byRow h wd p q G) := by
    rw [mwrites]
    have : carry true (offset wd q) (0, 0) = (0, 0) := by rw [carry, if_neg]; simp; omega
    simp only [inLines, if_true, this]
  have hm : ∀ a : Write (Nat × Nat) R, a ∈ mwrites (offset h p) (offset wd q) .assign ⟨true, true⟩ 0 0 (.traverse ⟨byRow, true⟩ :: gridSpec byRow h wd p q G) ↔
      ∃ x y k l, x < p ∧ y < q ∧ k < h x ∧ l < wd y ∧ a = ⟨.assign, (offset h x + k, offset wd y + l), G (offset h x + k, offset wd y + l)⟩ := by
    intro a
    rw [he, mwrites_grid byRow hp hq hh hw]
    cases byRow <;> simp only [if_true, Bool.false_eq_true, if_false, List.mem_flatMap, List.mem_range'_1, mem_blockWrites, Nat.zero_le, true_and, Nat.zero_add]
    · constructor
      · rintro ⟨y, hy, x, hx, k, l, hk, hl, rfl⟩; exact ⟨x, y, k, l, hx, hy, hk, hl, rfl⟩
      · rintro ⟨x, y, k, l, hx, hy, hk, hl, rfl⟩; exact ⟨y, hy, x, hx, k, l, hk, hl, rfl⟩
    · constructor
      · rintro ⟨x, hx, y, hy, k, l, hk, hl, rfl⟩; exact ⟨x, y, k, l, hx, hy, hk, hl, rfl⟩
      · rintro ⟨x, y, k, l, hx, hy, hk, hl, rfl⟩; exact ⟨x, hx, y, hy, k, l, hk, hl, rfl⟩
  obtain ⟨s', e, h'⟩ := (C57_matrix hA push ins hr hc (.cons (.traverse ⟨byRow, true⟩) hi) hs (fun a ha => by
    obtain ⟨x, y, k, l, _, _, _, _, rfl⟩ := (hm a).1 ha; exact .inl rfl)).1 (fun a ha => by
    obtain ⟨x, y, k, l, h1, h2, h3, h4, rfl⟩ := (hm a).1 ha; exact ⟨offset_lt h1 h3, offset_lt h2 h4⟩)
  refine ⟨s', _, e, h', fun i j hi hj => ?_⟩
  refine effects_mem (G := G) (fun a ha => ?_) (.inr ?_)
  · obtain ⟨x, y, k, l, _, _, _, _, rfl⟩ := (hm a).1 ha; exact ⟨rfl, rfl⟩
  · obtain ⟨x, k, h1, h2, rfl⟩ := offset_cover hi
    obtain ⟨y, l, h3, h4, rfl⟩ := offset_cover hj
    exact ⟨_, (hm _).2 ⟨x, y, k, l, h1, h3, h2, h4, rfl⟩, rfl⟩

/-! ## Sparse targets -/

/-- The container operation of a write. -/
def Write.cvop [Add R] [Sub R] (a : Write Nat R) : CVOp R :=
  match a.fill with
  | .assign => .modify a.at_ fun _ => a.val
  | .plus => .modify a.at_ (· + a.val)
  | .minus => .modify a.at_ (· - a.val)
  | .pushBack => .pushBack a.at_ a.val
  | .insert => .insert a.at_ a.val

def Write.cmop [Add R] [Sub R] (a : Write (Nat × Nat) R) : CMOp R :=
  match a.fill with
  | .assign => .modify a.at_.1 a.at_.2 fun _ => a.val
  | .plus => .modify a.at_.1 a.at_.2 (· + a.val)
  | .minus => .modify a.at_.1 a.at_.2 (· - a.val)
  | .pushBack => .pushBack a.at_.1 a.at_.2 a.val
  | .insert => .insert a.at_.1 a.at_.2 a.val

/-- **C57** for a compressed_vector: any script, with any mixture of the five fill policies, whose writes are legal container operations (push_back behind all stored elements, insert_element at a
free index) leaves the vector in the state these operations specify. -/
theorem C57_compressed_vector [Add R] [Sub R] (dbg : Bool) (IB : Nat) (zero : R) (junk : CVec.Junk R) {items : List (VItem R)} {specs : List (VSpec R)} (h : List.Forall₂ VItem.Means items specs)
    {v : CVec R} {s : SparseSpec.Vec R} (hv : CVec.Inv IB v s) (hl : cvlegalRun zero s ((vwrites .assign 0 specs).map Write.cvop)) :
    ∃ v', vassign (Target.compressedVector dbg IB zero junk) v items = .ok v' ∧ CVec.Inv IB v' (cvrun zero s ((vwrites .assign 0 specs).map Write.cvop)) ∧
      CVObserves dbg IB zero v' (cvrun zero s ((vwrites .assign 0 specs).map Write.cvop)) := by
  rw [C57_vector_writes _ h]
  generalize vwrites .assign 0 specs = ws at hl ⊢
  have hr : ∀ (ws : List (Write Nat R)) v, perform (Target.compressedVector dbg IB zero junk) ws v = CVec.run dbg IB zero v (ws.map fun a => (a.cvop, junk)) := by
    intro ws
    induction ws with
    | nil => intro v; rfl
    | cons a ws ih =>
      intro v
      rw [perform_cons, List.map_cons, CVec.run]
      have : Target.compressedVector dbg IB zero junk a.fill v a.at_ a.val = CVec.step dbg IB zero junk v a.cvop := by
        obtain ⟨f, i, x⟩ := a
        cases f <;> rfl
      rw [this]
      congr 1; funext v'; exact ih v'
  rw [hr]
  obtain ⟨v', e, h'⟩ := CVec.run_inv dbg IB zero (ws.map fun a => (a.cvop, junk)) v s hv (by rw [List.map_map]; exact hl)
  rw [List.map_map] at h'
  exact ⟨v', e, h', h'.observes dbg IB zero⟩

/-- **C57** for a compressed_matrix. -/
theorem C57_compressed_matrix [Add R] [Sub R] (dbg : Bool) (o : Orient) (IB : Nat) (zero : R) (junk : CMat.Junk R) {items : List (MItem R)} {specs : List (MSpec R)} (h : List.Forall₂ MItem.Means items specs)
    {v : CMat R} {s : CMatS R} (hr : 0 < s.rows) (hc : 0 < s.cols) (hv : CMat.Inv o IB v s) (hl : cmlegalRun o zero s ((mwrites s.rows s.cols .assign ⟨true, true⟩ 0 0 specs).map Write.cmop)) :
    ∃ v', massign (Target.compressedMatrix dbg o IB zero junk) s.rows s.cols v items = .ok v' ∧ CMat.Inv o IB v' (cmrun o zero s ((mwrites s.rows s.cols .assign ⟨true, true⟩ 0 0 specs).map Write.cmop)) ∧
      CMObserves dbg o IB zero v' (cmrun o zero s ((mwrites s.rows s.cols .assign ⟨true, true⟩ 0 0 specs).map Write.cmop)) := by
  rw [C57_matrix_writes _ hr hc h]
  generalize mwrites s.rows s.cols .assign ⟨true, true⟩ 0 0 specs = ws at hl ⊢
  have hr : ∀ (ws : List (Write (Nat × Nat) R)) v, perform (Target.compressedMatrix dbg o IB zero junk) ws v = CMat.run dbg o IB zero v (ws.map fun a => (a.cmop, junk)) := by
    intro ws
    induction ws with
    | nil => intro v; rfl
    | cons a ws ih =>
      intro v
      rw [perform_cons, List.map_cons, CMat.run]
      have : Target.compressedMatrix dbg o IB zero junk a.fill v a.at_ a.val = CMat.step dbg o IB zero junk v a.cmop := by
        obtain ⟨f, i, x⟩ := a
        cases f <;> rfl
      rw [this]
      congr 1; funext v'; exact ih v'
  rw [hr]
  obtain ⟨v', e, h'⟩ := CMat.run_inv dbg o IB zero (ws.map fun a => (a.cmop, junk)) v s hv (by rw [List.map_map]; exact hl)
  rw [List.map_map] at h'
  exact ⟨v', e, h', h'.observes dbg o IB zero⟩

theorem push_legal [Add R] [Sub R] (zero : R) : ∀ (xs : List R) (p : Nat) (s : SparseSpec.Vec R), (∀ j, s.val j ≠ none → j < p) → p + xs.length ≤ s.size →
    cvlegalRun zero s ((xs.mapIdx fun t x => (⟨.pushBack, p + t, x⟩ : Write Nat R)).map Write.cvop) ∧
    cvrun zero s ((xs.mapIdx fun t x => (⟨.pushBack, p + t, x⟩ : Write Nat R)).map Write.cvop) = ⟨s.size, fun j => if p ≤ j ∧ j < p + xs.length then xs[j - p]? else s.val j⟩ := by
  intro xs
  induction xs with
  | nil =>
    intro p s _ _
    refine ⟨trivial, ?_⟩
    show s = _
    obtain ⟨n, val⟩ := s
    congr 1
    funext j
    rw [if_neg]; simp
  | cons x xs ih =>
    intro p s h1 h2
    rw [List.length_cons] at h2
    have hstep : cvstep zero s (.pushBack p x) = ⟨s.size, fun j => if j = p then some x else s.val j⟩ := rfl
    have e : ((x :: xs).mapIdx fun t x => (⟨.pushBack, p + t, x⟩ : Write Nat R)).map Write.cvop = .pushBack p x :: (xs.mapIdx fun t x => (⟨.pushBack, (p + 1) + t, x⟩ : Write Nat R)).map Write.cvop := by
      rw [List.mapIdx_cons, List.map_cons]
      simp only [Write.cvop, Nat.add_zero]
      congr 4
      funext t x
      rw [show p + (t + 1) = p + 1 + t by omega]
    rw [e]
    obtain ⟨i1, i2⟩ := ih (p + 1) ⟨s.size, fun j => if j = p then some x else s.val j⟩ (by
      intro j hj
      simp only at hj
      split_ifs at hj with hjp
      · omega
      · have := h1 j hj; omega) (by simp only; omega)
    refine ⟨⟨⟨by omega, h1⟩, by rw [hstep]; exact i1⟩, ?_⟩
    rw [cvrun, hstep, i2]
    congr 1
    funext j
    by_cases hj : j = p
    · subst hj; simp
    · by_cases hj2 : p + 1 ≤ j ∧ j < p + 1 + xs.length
      · have hj3 : p ≤ j ∧ j < p + (x :: xs).length := by simp only [List.length_cons]; omega
        simp only [if_pos hj2, if_pos hj3]
        rw [show j - p = (j - (p + 1)) + 1 by omega, List.getElem?_cons_succ]
      · have hj3 : ¬ (p ≤ j ∧ j < p + (x :: xs).length) := by simp only [List.length_cons]; omega
        simp only [if_neg hj2, if_neg hj3, if_neg hj]

/-- **C57**: `v <<= sparse_push_back (), x0, x1, …` on an empty compressed_vector with room for the values stores exactly them. -/
theorem C57_push_back_values [Add R] [Sub R] (dbg : Bool) (IB : Nat) (zero : R) (junk : CVec.Junk R) {items : List (VItem R)} {xss : List (List R)} (h : List.Forall₂ VItem.Means items (xss.map .vals))
    {v : CVec R} {n : Nat} (hv : CVec.Inv IB v ⟨n, fun _ => none⟩) (hn : xss.flatten.length ≤ n) :
    ∃ v', vassign (Target.compressedVector dbg IB zero junk) v (.fill .pushBack :: items) = .ok v' ∧ CVObserves dbg IB zero v' ⟨n, fun i => xss.flatten[i]?⟩ := by
  have e : vwrites .assign 0 (.fill .pushBack :: xss.map .vals) = xss.flatten.mapIdx fun t x => (⟨.pushBack, 0 + t, x⟩ : Write Nat R) := by rw [vwrites, vwrites_vals]
  obtain ⟨l1, l2⟩ := push_legal zero xss.flatten 0 ⟨n, fun _ => none⟩ (by simp) (by simpa using hn)
  obtain ⟨v', e1, _, e2⟩ := C57_compressed_vector dbg IB zero junk (.cons (.fill .pushBack) h) hv (by rw [e]; exact l1)
  refine ⟨v', e1, ?_⟩
  rw [e, l2] at e2
  convert e2 using 3
  simp only [Nat.zero_le, Nat.zero_add, true_and, Nat.sub_zero]
  split_ifs with hi
  · rfl
  · exact List.getElem?_eq_none (Nat.not_lt.1 hi)

theorem mpush_legal [Add R] [Sub R] (b : Bool) (zero : R) {r c : Nat} (hr : 0 < r) (hc : 0 < c) : ∀ (xs : List R) (p : Nat) (s : CMatS R), s.rows = r → s.cols = c →
    (∀ q, s.val q ≠ none → ∃ k, k < p ∧ q = inLines b (k / (if b then c else r), k % (if b then c else r))) → s.opened ≤ p / (if b then c else r) + 1 → p + xs.length ≤ r * c →
    cmlegalRun (if b then .row else .col) zero s ((xs.mapIdx fun t x => (⟨.pushBack, inLines b ((p + t) / (if b then c else r), (p + t) % (if b then c else r)), x⟩ : Write (Nat × Nat) R)).map Write.cmop) ∧
    (cmrun (if b then .row else .col) zero s ((xs.mapIdx fun t x => (⟨.pushBack, inLines b ((p + t) / (if b then c else r), (p + t) % (if b then c else r)), x⟩ : Write (Nat × Nat) R)).map Write.cmop)).rows = r ∧
    (cmrun (if b then .row else .col) zero s ((xs.mapIdx fun t x => (⟨.pushBack, inLines b ((p + t) / (if b then c else r), (p + t) % (if b then c else r)), x⟩ : Write (Nat × Nat) R)).map Write.cmop)).cols = c ∧
    ∀ i j, i < r → j < c → (cmrun (if b then .row else .col) zero s ((xs.mapIdx fun t x => (⟨.pushBack, inLines b ((p + t) / (if b then c else r), (p + t) % (if b then c else r)), x⟩ : Write (Nat × Nat) R)).map Write.cmop)).val (i, j) =
      if p ≤ (if b then i * c + j else j * r + i) ∧ (if b then i * c + j else j * r + i) < p + xs.length then xs[(if b then i * c + j else j * r + i) - p]? else s.val (i, j) := by
  have hl : 0 < (if b then c else r) := by split_ifs <;> assumption
  have hM : ∀ q : Nat × Nat, (if b then Orient.row else Orient.col).indexM (inLines b q).1 (inLines b q).2 = q.1 ∧ (if b then Orient.row else Orient.col).indexm (inLines b q).1 (inLines b q).2 = q.2 := by
    intro q; cases b <;> exact ⟨rfl, rfl⟩
  have hord : ∀ k p, k < p → k / (if b then c else r) < p / (if b then c else r) ∨ (k / (if b then c else r) = p / (if b then c else r) ∧ k % (if b then c else r) < p % (if b then c else r)) := by
    intro k p hkp
    generalize (if b then c else r) = len
    have h1 := Nat.div_add_mod k len
    have h2 := Nat.div_add_mod p len
    have h3 := Nat.div_le_div_right (c := len) hkp.le
    rcases Nat.lt_or_ge (k / len) (p / len) with h | h
    · exact .inl h
    · have : k / len = p / len := by omega
      rw [this] at h1
      exact .inr ⟨this, by omega⟩
  intro xs
  induction xs with
  | nil =>
    intro p s h1 h2 _ _ _
    refine ⟨trivial, h1, h2, fun i j _ _ => ?_⟩
    have : ¬ (p ≤ (if b then i * c + j else j * r + i) ∧ (if b then i * c + j else j * r + i) < p + ([] : List R).length) := by simp
    rw [if_neg this]
    rfl
  | cons x xs ih =>
    intro p s h1 h2 h3 h4 h5
    rw [List.length_cons] at h5
    generalize hpos : inLines b (p / (if b then c else r), p % (if b then c else r)) = pos at *
    have hin : pos.1 < r ∧ pos.2 < c := by
      rw [← hpos]
      have hp : p < r * c := by omega
      cases b with
      | true => exact ⟨(Nat.div_lt_iff_lt_mul hc).2 hp, Nat.mod_lt _ hc⟩
      | false => exact ⟨Nat.mod_lt _ hr, (Nat.div_lt_iff_lt_mul hr).2 (by rwa [Nat.mul_comm])⟩
    have hmaj : (if b then Orient.row else Orient.col).indexM pos.1 pos.2 = p / (if b then c else r) := by rw [← hpos]; exact (hM _).1
    have hmin : (if b then Orient.row else Orient.col).indexm pos.1 pos.2 = p % (if b then c else r) := by rw [← hpos]; exact (hM _).2
    have e : ((x :: xs).mapIdx fun t x => (⟨.pushBack, inLines b ((p + t) / (if b then c else r), (p + t) % (if b then c else r)), x⟩ : Write (Nat × Nat) R)).map Write.cmop =
        .pushBack pos.1 pos.2 x :: (xs.mapIdx fun t x => (⟨.pushBack, inLines b ((p + 1 + t) / (if b then c else r), (p + 1 + t) % (if b then c else r)), x⟩ : Write (Nat × Nat) R)).map Write.cmop := by
      rw [List.mapIdx_cons, List.map_cons]
      simp only [Write.cmop, Nat.add_zero, hpos]
      congr 3
      funext t x
      rw [show p + (t + 1) = p + 1 + t by omega]
    rw [e]
    have hstep : cmstep (if b then .row else .col) zero s (.pushBack pos.1 pos.2 x) = { s with val := fun q => if q = (pos.1, pos.2) then some x else s.val q, opened := p / (if b then c else r) + 1 } := by
      simp only [cmstep, hmaj]
    obtain ⟨i1, i2, i3, i4⟩ := ih (p + 1) { s with val := fun q => if q = (pos.1, pos.2) then some x else s.val q, opened := p / (if b then c else r) + 1 } h1 h2 (by
      intro q hq
      simp only at hq
      split_ifs at hq with hqp
      · exact ⟨p, by omega, by rw [hqp, hpos]⟩
      · obtain ⟨k, k1, k2⟩ := h3 q hq; exact ⟨k, by omega, k2⟩) (by
      have := Nat.div_le_div_right (c := if b then c else r) (Nat.le_succ p)
      show p / (if b then c else r) + 1 ≤ (p + 1) / (if b then c else r) + 1
      exact Nat.succ_le_succ this) (by omega)
    refine ⟨⟨⟨by rw [h1]; exact hin.1, by rw [h2]; exact hin.2, by rw [hmaj]; exact h4, ?_⟩, by rw [hstep]; exact i1⟩, by rw [cmrun, hstep]; exact i2, by rw [cmrun, hstep]; exact i3, ?_⟩
    · intro q hq
      obtain ⟨k, k1, k2⟩ := h3 q hq
      rw [Before, k2, (hM _).1, (hM _).2, hmaj, hmin]
      exact hord k p k1
    · intro i j hi hj
      rw [cmrun, hstep, i4 i j hi hj]
      have hlin : (i, j) = (pos.1, pos.2) ↔ (if b then i * c + j else j * r + i) = p := by
        constructor
        · intro hij
          have hij' : pos = (i, j) := hij.symm
          rw [← hpos] at hij'
          cases b with
          | true =>
            simp only [inLines, if_true, Prod.mk.injEq] at hij' ⊢
            have := Nat.div_add_mod p c; rw [hij'.1, hij'.2, Nat.mul_comm] at this; exact this
          | false =>
            simp only [inLines, Bool.false_eq_true, if_false, Prod.mk.injEq] at hij' ⊢
            have := Nat.div_add_mod p r; rw [hij'.1, hij'.2, Nat.mul_comm] at this; exact this
        · intro hp
          rw [Prod.mk.eta, ← hpos, ← hp]
          cases b with
          | true => simp only [inLines, if_true, CMat.key_div hj, CMat.key_mod hj]
          | false => simp only [inLines, Bool.false_eq_true, if_false, CMat.key_div hi, CMat.key_mod hi]
      generalize (if b then i * c + j else j * r + i) = m at hlin ⊢
      by_cases hm : m = p
      · have q1 : ¬ (p + 1 ≤ m ∧ m < p + 1 + xs.length) := by omega
        have q2 : p ≤ m ∧ m < p + (x :: xs).length := by simp only [List.length_cons]; omega
        rw [if_neg q1, if_pos q2]
        show (if (i, j) = (pos.1, pos.2) then some x else s.val (i, j)) = _
        rw [if_pos (hlin.2 hm), hm, Nat.sub_self]; rfl
      · by_cases hm2 : p + 1 ≤ m ∧ m < p + 1 + xs.length
        · have q2 : p ≤ m ∧ m < p + (x :: xs).length := by simp only [List.length_cons]; omega
          rw [if_pos hm2, if_pos q2, show m - p = (m - (p + 1)) + 1 by omega, List.getElem?_cons_succ]
        · have q2 : ¬ (p ≤ m ∧ m < p + (x :: xs).length) := by simp only [List.length_cons]; omega
          rw [if_neg hm2, if_neg q2]
          show (if (i, j) = (pos.1, pos.2) then some x else s.val (i, j)) = _
          rw [if_neg (fun h => hm (hlin.1 h))]

/-- **C57**: filling an empty compressed_matrix with `sparse_push_back ()`, by rows if it is row_major, by columns if it is column_major, stores exactly the values. -/
theorem C57_matrix_push_back_values [Add R] [Sub R] (dbg : Bool) (byRow : Bool) (IB : Nat) (zero : R) (junk : CMat.Junk R) {items : List (MItem R)} {xss : List (List R)}
    (h : List.Forall₂ MItem.Means items (xss.map .vals)) {v : CMat R} {r c : Nat} (hr : 0 < r) (hc : 0 < c) (hv : CMat.Inv (if byRow then .row else .col) IB v ⟨r, c, fun _ => none, 0⟩) (hn : xss.flatten.length ≤ r * c) :
    ∃ v', massign (Target.compressedMatrix dbg (if byRow then .row else .col) IB zero junk) r c v (.traverse ⟨byRow, true⟩ :: .fill .pushBack :: items) = .ok v' ∧
      ∀ i j, i < r → j < c → v'.get dbg (if byRow then .row else .col) IB zero i j = .ok (xss.flatten.getD (if byRow then i * c + j else j * r + i) zero) := by
  have e : mwrites r c .assign ⟨true, true⟩ 0 0 (.traverse ⟨byRow, true⟩ :: .fill .pushBack :: xss.map .vals) =
      xss.flatten.mapIdx fun t x => (⟨.pushBack, inLines byRow ((0 + t) / (if byRow then c else r), (0 + t) % (if byRow then c else r)), x⟩ : Write (Nat × Nat) R) := by
    rw [mwrites]
    have h1 : carry true c (0, 0) = (0, 0) := by rw [carry, if_neg]; simp; omega
    simp only [inLines, if_true, h1, mwrites]
    obtain ⟨i, j, e⟩ := mwrites_vals r c hr hc .pushBack byRow [] xss 0 0
    have h0 : carry true (if byRow then c else r) (inLines byRow (0, 0)) = (0, 0) := by
      rw [carry, if_neg]
      · cases byRow <;> rfl
      · cases byRow <;> simp_all [inLines] <;> omega
    rw [List.append_nil] at e
    rw [e, h0, mwrites, List.append_nil]
    simp [runPos, inLines]
  obtain ⟨l1, l2, l3, l4⟩ := mpush_legal byRow zero hr hc xss.flatten 0 ⟨r, c, fun _ => none, 0⟩ rfl rfl (by simp) (by simp) (by simpa using hn)
  obtain ⟨v', e1, _, e2⟩ := C57_compressed_matrix dbg (if byRow then .row else .col) IB zero junk (.cons (.traverse ⟨byRow, true⟩) (.cons (.fill .pushBack) h)) (s := ⟨r, c, fun _ => none, 0⟩) hr hc hv (by rw [e]; exact l1)
  refine ⟨v', e1, fun i j hi hj => ?_⟩
  rw [e] at e2
  have := e2.2.2.1 i j (by rw [l2]; exact hi) (by rw [l3]; exact hj)
  rw [this, l4 i j hi hj]
  simp only [Nat.zero_le, Nat.zero_add, true_and, Nat.sub_zero, List.getD_eq_getElem?_getD]
  generalize (if byRow = true then i * c + j else j * r + i) = m
  by_cases hk : m < xss.flatten.length
  · rw [if_pos hk]
  · rw [if_neg hk, List.getElem?_eq_none (Nat.not_lt.1 hk)]

end Ublas.Assigner
