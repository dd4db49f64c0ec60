import Verif.Model.SymAdaptor
import Verif.Spec.SymAdaptor
import Verif.Props.Packed
import Mathlib.Tactic.Ring
import Mathlib.Tactic.Linarith
/-! # C80: symmetric_adaptor and hermitian_adaptor -/
namespace Ublas
open SymAd SymAdSpec Packed
variable {R : Type}

theorem SymAd.other_eq (upper : Bool) (i j : Nat) : other (tri upper) i j = decide (stored upper i j) := by
  cases upper <;> simp [other, tri, lother, stored]

theorem SymAd.base_ok (dbg : Bool) {n : Nat} (a : Nat → Nat → R) {i j : Nat} (hi : i < n) (hj : j < n) :
    base dbg n a (i : Int) (j : Int) = .ok (a i j) := by
  unfold base
  rw [if_pos ⟨by omega, by omega, by omega, by omega⟩]
  simp

/-- Reading through an adaptor shows the presented matrix, whatever the build. -/
theorem C80_read (dbg upper : Bool) (cj : R → R) (n : Nat) (a : Nat → Nat → R) {i j : Nat} (hi : i < n) (hj : j < n) :
    SymAd.read dbg upper cj n a i j = .ok (shown upper cj a i j) := by
  simp only [SymAd.read, check_true hi, check_true hj, bind_ok, other_eq, decide_eq_true_eq]
  unfold shown
  split
  · rw [base_ok dbg a hi hj]
  · rw [base_ok dbg a hj hi]; rfl

/-- The presented matrix is symmetric. -/
theorem C80_symmetric (dbg upper : Bool) (n : Nat) (a : Nat → Nat → R) {i j : Nat} (hi : i < n) (hj : j < n) :
    SymAd.read dbg upper id n a i j = SymAd.read dbg upper id n a j i := by
  rw [C80_read dbg upper id n a hi hj, C80_read dbg upper id n a hj hi]
  unfold shown stored
  congr 1
  cases upper <;> simp only [Bool.false_eq_true, if_false, if_true, id] <;> split <;> split <;>
    first | rfl | (exfalso; omega) | (have e : i = j := by omega
                                      rw [e])

/-- The matrix presented by `hermitian_adaptor` is its own conjugate transpose away from the diagonal. -/
theorem C80_hermitian (dbg upper : Bool) (cj : R → R) (hcj : ∀ x, cj (cj x) = x) (n : Nat) (a : Nat → Nat → R) {i j : Nat}
    (hi : i < n) (hj : j < n) (hne : i ≠ j) :
    (do let x ← SymAd.read dbg upper cj n a j i; pure (cj x) : M R) = SymAd.read dbg upper cj n a i j := by
  rw [C80_read dbg upper cj n a hi hj, C80_read dbg upper cj n a hj hi]
  simp only [bind_ok, pure_eq_ok]
  unfold shown stored
  congr 1
  cases upper <;> simp <;> split <;> split <;> first | rfl | (exfalso; omega) | (exact hcj _)

/-- On the diagonal nothing is conjugated: the stored element is shown as it is, even if it is not real. -/
theorem C80_diagonal (dbg upper : Bool) (cj : R → R) (n : Nat) (a : Nat → Nat → R) {i : Nat} (hi : i < n) :
    SymAd.read dbg upper cj n a i i = .ok (a i i) := by
  rw [C80_read dbg upper cj n a hi hi]
  simp [shown, stored]

/-- A write through `symmetric_adaptor` sets the element and its mirror image and leaves every other presented element alone;
the elements of the adapted matrix outside the triangle are not touched. -/
theorem C80_write (dbg upper : Bool) (n : Nat) (a : Nat → Nat → R) (x : R) {i j : Nat} (hi : i < n) (hj : j < n) :
    ∃ b, writeSym dbg upper n a i j x = .ok b ∧
      (∀ p q, shown upper id b p q = if (p = i ∧ q = j) ∨ (p = j ∧ q = i) then x else shown upper id a p q) ∧
      (∀ p q, ¬ stored upper p q → b p q = a p q) := by
  simp only [writeSym, check_true hi, check_true hj, bind_ok, other_eq, decide_eq_true_eq]
  by_cases hs : stored upper i j
  · rw [if_pos hs, store, if_pos ⟨hi, hj⟩]
    refine ⟨_, rfl, ?_, ?_⟩
    · intro p q
      unfold shown stored at *
      cases upper <;> simp only [Bool.false_eq_true, if_false, if_true, id] at * <;> split_ifs <;>
        first | rfl | (exfalso; omega) | (have e : p = q := by omega
                                          rw [e])
    · intro p q hpq
      rw [if_neg]
      rintro ⟨rfl, rfl⟩; exact hpq hs
  · rw [if_neg hs, store, if_pos ⟨hj, hi⟩]
    refine ⟨_, rfl, ?_, ?_⟩
    · intro p q
      unfold shown stored at *
      cases upper <;> simp only [Bool.false_eq_true, if_false, if_true, id] at * <;> split_ifs <;>
        first | rfl | (exfalso; omega) | (have e : p = q := by omega
                                          rw [e])
    · intro p q hpq
      rw [if_neg]
      rintro ⟨rfl, rfl⟩
      unfold stored at *; cases upper <;> simp_all <;> omega

/-- What storing `x` at a place of the triangle does to the presented matrix. -/
theorem SymAd.shown_store (upper : Bool) (cj : R → R) (a : Nat → Nat → R) (x : R) {i j : Nat} (hs : stored upper i j) (p q : Nat) :
    shown upper cj (fun p q => if p = i ∧ q = j then x else a p q) p q =
      if p = i ∧ q = j then x else if p = j ∧ q = i then cj x else shown upper cj a p q := by
  unfold shown stored at *
  cases upper <;> simp only [Bool.false_eq_true, if_false, if_true] at * <;> split_ifs <;>
    first | rfl | (exfalso; omega) | tauto

/-- With BOOST_UBLAS_NO_ELEMENT_PROXIES, a write through the reference of `hermitian_adaptor` inside the triangle sets the element, its mirror image becomes the
conjugate, nothing else changes; outside the triangle the access raises external_logic in every build. -/
theorem C80_write_hermitian_loose (dbg upper : Bool) (cj : R → R) (n : Nat) (a : Nat → Nat → R) (x : R) {i j : Nat} (hi : i < n) (hj : j < n) :
    (stored upper i j → ∃ b, writeHermLoose dbg upper n a i j x = .ok b ∧ (∀ p q, shown upper cj b p q =
      if p = i ∧ q = j then x else if p = j ∧ q = i then cj x else shown upper cj a p q)) ∧
    (¬ stored upper i j → writeHermLoose dbg upper n a i j x = .error .externalLogic) := by
  simp only [writeHermLoose, check_true hi, check_true hj, bind_ok, other_eq, decide_eq_true_eq]
  refine ⟨fun hs => ?_, fun hs => by rw [if_neg hs]⟩
  rw [if_pos hs, store, if_pos ⟨hi, hj⟩]
  exact ⟨_, rfl, fun p q => shown_store upper cj a x hs p q⟩

/-- `insert_element` of `hermitian_adaptor` works on both sides of the diagonal. -/
theorem C80_insert_hermitian (dbg upper : Bool) (cj : R → R) (hcj : ∀ x, cj (cj x) = x) (n : Nat) (a : Nat → Nat → R) (x : R)
    {i j : Nat} (hi : i < n) (hj : j < n) :
    ∃ b, insertHerm dbg upper cj n a i j x = .ok b ∧ (∀ p q, shown upper cj b p q =
      if p = i ∧ q = j then x else if p = j ∧ q = i then cj x else shown upper cj a p q) := by
  simp only [insertHerm, check_true hi, check_true hj, bind_ok, other_eq, decide_eq_true_eq]
  by_cases hs : stored upper i j
  · rw [if_pos hs, store, if_pos ⟨hi, hj⟩]
    exact ⟨_, rfl, fun p q => shown_store upper cj a x hs p q⟩
  · rw [if_neg hs, store, if_pos ⟨hj, hi⟩]
    have hs' : stored upper j i := by unfold stored at *; cases upper <;> simp_all <;> omega
    have hne : i ≠ j := by rintro rfl; unfold stored at *; cases upper <;> simp_all
    refine ⟨_, rfl, fun p q => ?_⟩
    rw [shown_store upper cj a (cj x) hs' p q]
    split_ifs with h1 h2 <;> first | rfl | (exfalso; omega) | exact hcj x

/-- A write `ha (i, j) = x` through the element proxy of `hermitian_adaptor` (default configuration) sets the element on either side of the diagonal, its mirror image becomes the
conjugate, nothing else changes. -/
theorem C80_write_hermitian (dbg upper : Bool) (cj : R → R) (hcj : ∀ x, cj (cj x) = x) (n : Nat) (a : Nat → Nat → R) (x : R) {i j : Nat} (hi : i < n) (hj : j < n) :
    ∃ b, writeHerm dbg upper cj n a i j x = .ok b ∧ (∀ p q, shown upper cj b p q =
      if p = i ∧ q = j then x else if p = j ∧ q = i then cj x else shown upper cj a p q) := by
  obtain ⟨b, e, h⟩ := C80_insert_hermitian dbg upper cj hcj n a x hi hj
  refine ⟨b, ?_, h⟩
  simp only [writeHerm, HCont.exec, HCont.ref, hcont, C80_read dbg upper cj n a hi hj, bind_ok, pure_eq_ok, HProxy.set, HProxy.destroy, if_true, e]

/-! ## Iterators -/

/-- `p` stands on element `k` of line `l` (`k = n`: past the end): the first `l` elements come from row `l` (lower) or column `l`
(upper), the others from column `l` (lower) or row `l` (upper). -/
def SymAd.Stands (upper : Bool) (n l k : Nat) (p : It) : Prop :=
  if upper then
    p.fin = 1 ∧ (k < l → p.cur = 0 ∧ p.c1 = ⟨k, l⟩ ∧ p.e1 = ⟨l, l⟩ ∧ p.b2 = ⟨l, l⟩ ∧ p.e2 = ⟨l, n⟩) ∧
      (l ≤ k → p.cur = 1 ∧ p.c2 = ⟨l, k⟩ ∧ p.e2 = ⟨l, n⟩)
  else
    p.fin = 0 ∧ (k < l → p.cur = 1 ∧ p.c2 = ⟨l, k⟩ ∧ p.e2 = ⟨l, l⟩ ∧ p.b1 = ⟨l, l⟩ ∧ p.e1 = ⟨n, l⟩) ∧
      (l ≤ k → p.cur = 0 ∧ p.c1 = ⟨k, l⟩ ∧ p.e1 = ⟨n, l⟩)

/-- `p` also remembers where its line begins (iterators obtained from `begin`, not from `end`). -/
def SymAd.Rooted (upper : Bool) (l : Nat) (p : It) : Prop :=
  if upper then p.b2 = ⟨l, l⟩ ∧ (0 < l → p.begin = 0 ∧ p.e1 = ⟨l, l⟩ ∧ p.b1 = ⟨0, l⟩)
  else p.b1 = ⟨l, l⟩ ∧ (0 < l → p.begin = 1 ∧ p.e2 = ⟨l, l⟩ ∧ p.b2 = ⟨l, 0⟩)

theorem SymAd.begin_stands (dbg upper : Bool) (n : Nat) (one : One) {l : Nat} (hl : l < n) :
    ∃ p, lineBegin dbg upper n one l = .ok p ∧ Stands upper n l 0 p ∧ Rooted upper l p := by
  have hn : ¬ n ≤ l := by omega
  have hln : l ≤ n := by omega
  have hnn : (n : Int) ≠ l := by omega
  rcases Nat.eq_zero_or_pos l with rfl | hl0
  · cases upper <;> cases one <;>
      simp [lineBegin, find1, find2, other_eq, stored, It.make, check_True, Stands, Rooted, hn, hl, Nat.pos_iff_ne_zero] <;>
      first | omega | (refine ⟨by omega, ?_⟩; omega) | skip
  · have h0 : ¬ l = 0 := by omega
    have h0' : ¬ l ≤ 0 := by omega
    have hz : (0 : Int) ≠ l := by omega
    cases upper <;> cases one <;>
      simp [lineBegin, find1, find2, other_eq, stored, It.make, check_True, Stands, Rooted, hn, hl, hln, h0, h0', hl0, hz, hnn]

theorem SymAd.end_stands (dbg upper : Bool) (n : Nat) (one : One) {l : Nat} (hl : l < n) :
    ∃ p, lineEnd dbg upper n one l = .ok p ∧ Stands upper n l n p := by
  have hn : ¬ n ≤ l := by omega
  have hln : l ≤ n := by omega
  have hnl : ¬ n < l := by omega
  cases upper <;> cases one <;>
    simp [lineEnd, find1, find2, other_eq, stored, It.make, check_True, Stands, hn, hl, hln, hnl]

/-- `++` moves one element further along the line. -/
theorem SymAd.next_stands (dbg upper : Bool) (n : Nat) {l k : Nat} (hk : k < n) (hl : l < n) {p : It} (h : Stands upper n l k p) :
    ∃ q, p.next dbg = .ok q ∧ Stands upper n l (k + 1) q ∧ (Rooted upper l p → Rooted upper l q) := by
  obtain ⟨b, f, c, b1, e1, c1, b2, e2, c2⟩ := p
  have hkn : ¬ (k : Int) = n := by omega
  rcases Nat.lt_or_ge k l with hkl | hkl
  · have hkl' : ¬ (k : Int) = l := by omega
    have hlk : ¬ l ≤ k := by omega
    rcases Nat.lt_or_ge (k + 1) l with h1 | h1
    · have h1' : ¬ (k : Int) + 1 = l := by omega
      have h1'' : ¬ l ≤ k + 1 := by omega
      cases upper <;> simp [Stands, hkl, hlk] at h <;> obtain ⟨rfl, rfl, rfl, rfl, rfl, rfl⟩ := h <;>
        simp [It.next, Sub.down, Sub.right, check_true, hkl', h1', Stands, Rooted, h1, h1'']
    · have h2 : l = k + 1 := by omega
      subst h2
      cases upper <;> simp [Stands] at h <;> obtain ⟨rfl, rfl, rfl, rfl, rfl, rfl⟩ := h <;>
        simp [It.next, Sub.down, Sub.right, check_true, Stands, Rooted] <;> tauto
  · have hkl' : ¬ k < l := by omega
    have h1 : ¬ k + 1 < l := by omega
    have h2 : l ≤ k + 1 := by omega
    cases upper <;> simp [Stands, hkl, hkl'] at h <;> obtain ⟨rfl, rfl, rfl, rfl⟩ := h <;>
      simp [It.next, Sub.down, Sub.right, check_true, hkn, Stands, Rooted, h1, h2] <;> tauto

theorem SymAd.eq_stands (dbg upper : Bool) (n l : Nat) {k m : Nat} {p q : It} (hp : Stands upper n l k p)
    (hq : Stands upper n l m q) : p.eq dbg q = .ok (decide (k = m)) := by
  cases upper <;> simp only [Stands, if_true, if_false, Bool.false_eq_true] at hp hq <;>
    obtain ⟨hp0, hp1, hp2⟩ := hp <;> obtain ⟨hq0, hq1, hq2⟩ := hq <;>
    rcases Nat.lt_or_ge k l with h1 | h1 <;> rcases Nat.lt_or_ge m l with h2 | h2 <;>
    (first
      | (have A := hp1 h1; have B := hq1 h2; simp [It.eq, check_true, hp0, hq0, A, B]; done)
      | (have A := hp1 h1; have B := hq2 h2; simp [It.eq, check_true, hp0, hq0, A, B]; omega)
      | (have A := hp2 h1; have B := hq1 h2; simp [It.eq, check_true, hp0, hq0, A, B]; omega)
      | (have A := hp2 h1; have B := hq2 h2; simp [It.eq, check_true, hp0, hq0, A, B]; done))

/-- An iterator standing on element `k` of line `l` reports the indices of that element and reads what the adaptor shows there. -/
theorem SymAd.see_stands (dbg upper : Bool) (cj : R → R) (n : Nat) (a : Nat → Nat → R) (one : One) {l k : Nat} (hk : k < n)
    (hl : l < n) {p : It} (h : Stands upper n l k p) :
    see dbg upper cj n a one p = .ok (if one then (((k : Int), (l : Int)), shown upper cj a k l)
      else (((l : Int), (k : Int)), shown upper cj a l k)) := by
  have hkn : ¬ (k : Int) = n := by omega
  obtain ⟨b, f, c, b1, e1, c1, b2, e2, c2⟩ := p
  have B1 := base_ok dbg a hk hl
  have B2 := base_ok dbg a hl hk
  rcases Nat.lt_or_ge k l with hkl | hkl
  · have hkl' : ¬ (k : Int) = l := by omega
    have hlk : ¬ l ≤ k := by omega
    have hkl2 : k ≤ l := by omega
    have hkl3 : (k : Int) ≤ l := by omega
    have hlk2 : ¬ (l : Int) ≤ k := by omega
    cases upper <;> cases one <;> simp [Stands, hkl, hlk] at h <;> obtain ⟨rfl, rfl, rfl, rfl, rfl, rfl⟩ := h <;>
      simp [see, It.index, It.deref, check_true, hkl', B1, B2, otherI, shown, stored, hlk, hkl2]
  · have hkl' : ¬ k < l := by omega
    rcases Nat.lt_or_ge l k with hlt | hge
    · have h3 : ¬ k ≤ l := by omega
      cases upper <;> cases one <;> simp [Stands, hkl, hkl'] at h <;> obtain ⟨rfl, rfl, rfl, rfl⟩ := h <;>
        simp [see, It.index, It.deref, check_true, hkn, B1, B2, otherI, shown, stored, hkl, h3]
    · have h3 : k = l := by omega
      subst h3
      cases upper <;> cases one <;> simp [Stands] at h <;> obtain ⟨rfl, rfl, rfl, rfl⟩ := h <;>
        simp [see, It.index, It.deref, check_true, hkn, B1, otherI, shown, stored]

theorem SymAd.walk_stands {β : Type} (dbg upper : Bool) (n l : Nat) (hl : l < n) (visit : It → M β) (g : Nat → β)
    (hv : ∀ k p, k < n → Stands upper n l k p → visit p = .ok (g k)) {e : It} (he : Stands upper n l n e) :
    ∀ (m k fuel : Nat) (p : It), k + m = n → m < fuel → Stands upper n l k p →
      walk dbg visit e fuel p = .ok ((List.range' k m).map g) := by
  intro m
  induction m with
  | zero =>
    intro k fuel p hk hf hp
    obtain ⟨f, rfl⟩ : ∃ f, fuel = f + 1 := ⟨fuel - 1, by omega⟩
    simp only [walk, eq_stands dbg upper n l hp he, bind_ok]
    simp [show k = n by omega]
  | succ m ih =>
    intro k fuel p hk hf hp
    obtain ⟨f, rfl⟩ : ∃ f, fuel = f + 1 := ⟨fuel - 1, by omega⟩
    obtain ⟨q, hq, hs, -⟩ := next_stands dbg upper n (show k < n by omega) hl hp
    simp only [walk, eq_stands dbg upper n l hp he, bind_ok, hv k p (by omega) hp, hq, ih (k + 1) f q (by omega) (by omega) hs]
    simp [show ¬ k = n by omega, List.range'_succ]

/-- The inner loop over a line visits every place of it once, in order, with the presented element. -/
theorem C80_line (dbg upper : Bool) (cj : R → R) (n : Nat) (a : Nat → Nat → R) (one : One) {l : Nat} (hl : l < n) {fuel : Nat}
    (hf : n < fuel) : line dbg upper cj n a one fuel l = .ok (shownLine upper cj n a one l) := by
  obtain ⟨b, hb, hbs, -⟩ := begin_stands dbg upper n one hl
  obtain ⟨e, he, hes⟩ := end_stands dbg upper n one hl
  simp only [line, hb, he, bind_ok]
  rw [walk_stands dbg upper n l hl _ _ (fun k p hk hp => see_stands dbg upper cj n a one hk hl hp) hes n 0 fuel b (by omega) hf hbs]
  rw [shownLine, List.range_eq_range']

/-- The nested loop visits all the lines in order: all of the presented matrix, row by row or column by column. -/
theorem C80_traverse (dbg upper : Bool) (cj : R → R) (n : Nat) (a : Nat → Nat → R) (one : One) {fuel : Nat} (hf : n < fuel) :
    traverse dbg upper cj n a one fuel = .ok ((List.range n).map (shownLine upper cj n a (!one))) := by
  rcases Nat.eq_zero_or_pos n with rfl | hn
  · obtain ⟨f, rfl⟩ : ∃ f, fuel = f + 1 := ⟨fuel - 1, by omega⟩
    cases upper <;> cases one <;>
      simp [traverse, lineBegin, lineEnd, find1, find2, other_eq, stored, It.make, check_True, walk, It.eq, check_true]
  · obtain ⟨b, hb, hbs, -⟩ := begin_stands dbg upper n one hn
    obtain ⟨e, he, hes⟩ := end_stands dbg upper n one hn
    simp only [traverse, hb, he, bind_ok]
    rw [walk_stands dbg upper n 0 hn _ (shownLine upper cj n a (!one)) ?_ hes n 0 fuel b (by omega) hf hbs]
    · rw [List.range_eq_range']
    · intro k p hk hp
      have hkn : ¬ (k : Int) = n := by omega
      obtain ⟨b, f, c, b1, e1, c1, b2, e2, c2⟩ := p
      cases upper <;> cases one <;> simp [Stands] at hp <;> obtain ⟨rfl, rfl, rfl, rfl⟩ := hp <;>
        simp [It.index, check_true, hkn, C80_line dbg _ cj n a _ hk hf]

theorem SymAd.diff1_col (o : Orient) {n : Nat} (hn : 0 < n) (x y c : Int) : Sub.diff1 o n ⟨x, c⟩ ⟨y, c⟩ = x - y := by
  cases o
  · simp only [Sub.diff1, Sub.offset]
    rw [show x * (n : Int) + c - (y * n + c) = (x - y) * n by ring]
    exact Int.mul_tdiv_cancel _ (by omega)
  · simp only [Sub.diff1, Sub.offset]; ring

theorem SymAd.diff2_row (o : Orient) {n : Nat} (hn : 0 < n) (x y r : Int) : Sub.diff2 o n ⟨r, x⟩ ⟨r, y⟩ = x - y := by
  cases o
  · simp only [Sub.diff2, Sub.offset]; ring
  · simp only [Sub.diff2, Sub.offset]
    rw [show r + x * (n : Int) - (r + y * n) = (x - y) * n by ring]
    exact Int.mul_tdiv_cancel _ (by omega)

/-- `it += d` lands on the element `d` places further, also when it has to change from row to column on the way. -/
theorem SymAd.plus_stands (dbg upper : Bool) (o : Orient) (n : Nat) {l k d : Nat} (hd : k + d ≤ n) (hl : l < n) {p : It}
    (h : Stands upper n l k p) :
    ∃ q, p.plus dbg o n d = .ok q ∧ Stands upper n l (k + d) q ∧ (Rooted upper l p → Rooted upper l q) := by
  have hn : 0 < n := by omega
  obtain ⟨b, f, c, b1, e1, c1, b2, e2, c2⟩ := p
  rcases Nat.lt_or_ge k l with hkl | hkl
  · have hlk : ¬ l ≤ k := by omega
    rcases Nat.lt_or_ge (k + d) l with h1 | h1
    · have hm : min (d : Int) ((l : Int) - k) = d := by omega
      have h2 : ¬ l ≤ k + d := by omega
      have h3 : ¬ (k : Int) + d = l := by omega
      cases upper <;> simp [Stands, hkl, hlk] at h <;> obtain ⟨rfl, rfl, rfl, rfl, rfl, rfl⟩ := h <;>
        simp [It.plus, diff1_col o hn, diff2_row o hn, hm, Sub.down, Sub.right, check_True, Stands, Rooted, h1, h2, h3]
    · have hm : min (d : Int) ((l : Int) - k) = l - k := by omega
      have h2 : ¬ k + d < l := by omega
      have hm2 : min ((d : Int) - (l - k)) (n - l) = d - (l - k) := by omega
      have h4 : (l : Int) + (d - (l - k)) = k + d := by omega
      cases upper <;> simp [Stands, hkl, hlk] at h <;> obtain ⟨rfl, rfl, rfl, rfl, rfl, rfl⟩ := h <;>
        simp [It.plus, diff1_col o hn, diff2_row o hn, hm, hm2, h4, Sub.down, Sub.right, check_True, Stands, Rooted, h1, h2] <;>
        tauto
  · have hkl' : ¬ k < l := by omega
    have h1 : ¬ k + d < l := by omega
    have h2 : l ≤ k + d := by omega
    have hm : min (d : Int) ((n : Int) - k) = d := by omega
    cases upper <;> simp [Stands, hkl, hkl'] at h <;> obtain ⟨rfl, rfl, rfl, rfl⟩ := h <;>
      simp [It.plus, diff1_col o hn, diff2_row o hn, hm, Sub.down, Sub.right, check_True, Stands, Rooted, h1, h2] <;> tauto

/-- `it - jt` is the number of places from `jt` to `it` whenever `jt` is not behind `it`. -/
theorem SymAd.diff_stands (dbg upper : Bool) (o : Orient) (n : Nat) {l k m : Nat} (hkm : m ≤ k) (hl : l < n) {p q : It}
    (hp : Stands upper n l k p) (hq : Stands upper n l m q) : p.diff dbg o n q = .ok ((k : Int) - m) := by
  have hn : 0 < n := by omega
  cases upper <;> simp only [Stands, if_true, if_false, Bool.false_eq_true] at hp hq <;>
    obtain ⟨hp0, hp1, hp2⟩ := hp <;> obtain ⟨hq0, hq1, hq2⟩ := hq <;>
    rcases Nat.lt_or_ge k l with h1 | h1 <;> rcases Nat.lt_or_ge m l with h2 | h2 <;>
    (first
      | (exfalso; omega)
      | (have A := hp1 h1; have B := hq1 h2; simp [It.diff, check_true, hp0, hq0, A, B, diff1_col o hn, diff2_row o hn]; done)
      | (have A := hp2 h1; have B := hq1 h2; simp [It.diff, check_true, hp0, hq0, A, B, diff1_col o hn, diff2_row o hn]; done)
      | (have A := hp2 h1; have B := hq2 h2; simp [It.diff, check_true, hp0, hq0, A, B, diff1_col o hn, diff2_row o hn]; done))

/-- `--` on an iterator that came from `begin` goes back one element. -/
theorem SymAd.prev_stands (dbg upper : Bool) (n : Nat) {l k : Nat} (hk : k < n) (hl : l < n) {p : It}
    (h : Stands upper n l (k + 1) p) (hr : Rooted upper l p) :
    ∃ q, p.prev dbg = .ok q ∧ Stands upper n l k q ∧ Rooted upper l q := by
  obtain ⟨b, f, c, b1, e1, c1, b2, e2, c2⟩ := p
  rcases Nat.lt_or_ge (k + 1) l with hkl | hkl
  · have hlk : ¬ l ≤ k + 1 := by omega
    have h1 : k < l := by omega
    have h2 : ¬ l ≤ k := by omega
    have hl0 : 0 < l := by omega
    have h3 : ¬ (k : Int) + 1 = 0 := by omega
    cases upper <;> simp [Stands, Rooted, hkl, hlk, hl0] at h hr <;> simp_all <;>
      obtain ⟨rfl, rfl, rfl, rfl, rfl⟩ := h <;> simp_all [It.prev, Sub.down, Sub.right, Stands, Rooted]
  · have hkl' : ¬ k + 1 < l := by omega
    rcases Nat.lt_or_ge k l with h1 | h1
    · have h2 : l = k + 1 := by omega
      subst h2
      have h3 : ¬ ((k : Int) + 1 = 0) := by omega
      have h3' : ¬ (0 = (k : Int) + 1) := by omega
      cases upper <;> simp [Stands, Rooted] at h hr <;> obtain ⟨rfl, rfl, rfl, rfl⟩ := h <;>
        obtain ⟨rfl, rfl, rfl, rfl⟩ := hr <;>
        simp [It.prev, Sub.down, Sub.right, Stands, Rooted, check_true, h3, h3']
    · have h2 : ¬ k < l := by omega
      have h3 : ¬ ((k : Int) + 1 = l) := by omega
      cases upper <;> simp [Stands, Rooted, hkl, hkl'] at h hr <;> obtain ⟨rfl, rfl, rfl, rfl⟩ := h <;>
        obtain ⟨rfl, hr⟩ := hr <;>
        simp [It.prev, Sub.down, Sub.right, Stands, Rooted, check_true, h3, h1, h2] <;> exact hr

/-- Random access: `begin + k` is the iterator at element `k` (the end iterator for `k = n`), jumps add up, and distances
- also to the end iterator - are the differences of the positions. -/
theorem C80_jump (dbg upper : Bool) (cj : R → R) (o : Orient) (n : Nat) (a : Nat → Nat → R) (one : One) {l : Nat} (hl : l < n)
    {j k : Nat} (hjk : j ≤ k) (hk : k ≤ n) :
    ∃ b e p q, lineBegin dbg upper n one l = .ok b ∧ lineEnd dbg upper n one l = .ok e ∧
      b.plus dbg o n j = .ok p ∧ p.plus dbg o n ((k - j : Nat) : Int) = .ok q ∧
      q.eq dbg e = .ok (decide (k = n)) ∧ q.eq dbg p = .ok (decide (k = j)) ∧
      q.diff dbg o n p = .ok ((k : Int) - j) ∧ e.diff dbg o n q = .ok ((n : Int) - k) ∧
      (k < n → see dbg upper cj n a one q = .ok (if one then (((k : Int), (l : Int)), shown upper cj a k l)
        else (((l : Int), (k : Int)), shown upper cj a l k))) := by
  obtain ⟨b, hb, hbs, -⟩ := begin_stands dbg upper n one hl
  obtain ⟨e, he, hes⟩ := end_stands dbg upper n one hl
  obtain ⟨p, hp, hps, -⟩ := plus_stands dbg upper o n (k := 0) (d := j) (by omega) hl hbs
  rw [Nat.zero_add] at hps
  obtain ⟨q, hq, hqs, -⟩ := plus_stands dbg upper o n (k := j) (d := k - j) (by omega) hl hps
  rw [show j + (k - j) = k by omega] at hqs
  exact ⟨b, e, p, q, hb, he, hp, hq, eq_stands dbg upper n l hqs hes, eq_stands dbg upper n l hqs hps,
    diff_stands dbg upper o n hjk hl hqs hps, diff_stands dbg upper o n hk hl hes hqs,
    fun h => see_stands dbg upper cj n a one h hl hqs⟩

/-- Stepping back with `--` from an iterator reached from `begin` works (what is missing: from `end`, see
`C80_reverse_refuted`). -/
theorem C80_step_back_partial (dbg upper : Bool) (cj : R → R) (o : Orient) (n : Nat) (a : Nat → Nat → R) (one : One) {l : Nat}
    (hl : l < n) {k : Nat} (hk : k < n) :
    ∃ b p q, lineBegin dbg upper n one l = .ok b ∧ b.plus dbg o n ((k + 1 : Nat) : Int) = .ok p ∧ p.prev dbg = .ok q ∧
      see dbg upper cj n a one q = .ok (if one then (((k : Int), (l : Int)), shown upper cj a k l)
        else (((l : Int), (k : Int)), shown upper cj a l k)) := by
  obtain ⟨b, hb, hbs, hbr⟩ := begin_stands dbg upper n one hl
  obtain ⟨p, hp, hps, hpr⟩ := plus_stands dbg upper o n (k := 0) (d := k + 1) (by omega) hl hbs
  rw [Nat.zero_add] at hps
  obtain ⟨q, hq, hqs, -⟩ := prev_stands dbg upper n hk hl hps (hpr hbr)
  exact ⟨b, p, q, hb, hp, hq, see_stands dbg upper cj n a one hk hl hqs⟩

/-- `it -= d` inside one of the two segments. -/
theorem SymAd.minus_stands (dbg upper : Bool) (o : Orient) (n : Nat) {l k d : Nat} (hd : d ≤ k) (hk : k ≤ n) (hl : l < n)
    {p : It} (h : Stands upper n l k p) (hr : Rooted upper l p) :
    (k < l ∨ l ≤ k - d → ∃ q, p.minus dbg o n d = .ok q ∧ Stands upper n l (k - d) q) ∧
    (l ≤ k → k - d < l → (∃ q, p.minus false o n d = .ok q ∧ Stands upper n l (k - d) q) ∧
      p.minus true o n d = .error .externalLogic) := by
  have hn : 0 < n := by omega
  obtain ⟨b, f, c, b1, e1, c1, b2, e2, c2⟩ := p
  refine ⟨fun hc => ?_, fun h1 h2 => ?_⟩
  · rcases Nat.lt_or_ge k l with hkl | hkl
    · have hlk : ¬ l ≤ k := by omega
      have hl0 : 0 < l := by omega
      have h1 : k - d < l := by omega
      have h2 : ¬ l ≤ k - d := by omega
      have hm : min (d : Int) (k : Int) = d := by omega
      have h3 : (k : Int) + -d = ((k - d : Nat) : Int) := by omega
      cases upper <;> simp [Stands, Rooted, hkl, hlk, hl0] at h hr <;>
        obtain ⟨rfl, rfl, rfl, rfl, rfl, rfl⟩ := h <;> obtain ⟨-, rfl, -, rfl⟩ := hr <;>
        simp [It.minus, diff1_col o hn, diff2_row o hn, hm, Sub.down, Sub.right, check_True, Stands, h1, h2, h3]
    · have hkl' : ¬ k < l := by omega
      have h2 : l ≤ k - d := by omega
      have h1 : ¬ k - d < l := by omega
      have hm : min (d : Int) ((k : Int) - l) = d := by omega
      have h3 : (k : Int) + -d = ((k - d : Nat) : Int) := by omega
      cases upper <;> simp [Stands, Rooted, hkl, hkl'] at h hr <;> obtain ⟨rfl, rfl, rfl, rfl⟩ := h <;>
        obtain ⟨rfl, hr⟩ := hr <;>
        simp [It.minus, diff1_col o hn, diff2_row o hn, hm, Sub.down, Sub.right, check_True, Stands, h1, h2, h3]
  · have hkl' : ¬ k < l := by omega
    have hl0 : 0 < l := by omega
    have h4 : ¬ l ≤ k - d := by omega
    have hm : min (d : Int) ((k : Int) - l) = k - l := by omega
    have h5 : (0 : Int) < d - (k - l) := by omega
    have h5' : (k : Int) - l < d := by omega
    have hm2 : min ((d : Int) - (k - l)) l = d - (k - l) := by omega
    have h6 : (l : Int) + -(d - (k - l)) = ((k - d : Nat) : Int) := by omega
    have h7 : (l : Int) + (k - l - d) = ((k - d : Nat) : Int) := by omega
    cases upper <;> simp [Stands, Rooted, h1, hkl', hl0] at h hr <;> obtain ⟨rfl, rfl, rfl, rfl⟩ := h <;>
      obtain ⟨rfl, rfl, rfl, rfl⟩ := hr <;>
      simp [It.minus, diff1_col o hn, diff2_row o hn, hm, hm2, h5, h5', h6, h7, Sub.down, Sub.right, check_release, Stands, h2, h4,
        check]

/-- Jumping back with `-=` from an iterator reached from `begin` works in a release build; in a debug build it works unless the
jump crosses the diagonal, and then external_logic is raised although source and target are both in the line: `-=` tests `end_`
where it should test `begin_` (symmetric.hpp:1404, 1415, hermitian.hpp:1712, 1723). -/
theorem C80_jump_back_refuted (upper : Bool) (cj : R → R) (o : Orient) (n : Nat) (a : Nat → Nat → R) (one : One) {l : Nat}
    (hl : l < n) {k d : Nat} (hk : k ≤ n) (hd : d ≤ k) (hd0 : 0 < d) :
    (∃ b p q, lineBegin false upper n one l = .ok b ∧ b.plus false o n k = .ok p ∧ p.minus false o n d = .ok q ∧
      see false upper cj n a one q = .ok (if one then ((((k - d : Nat) : Int), (l : Int)), shown upper cj a (k - d) l)
        else (((l : Int), ((k - d : Nat) : Int)), shown upper cj a l (k - d)))) ∧
    (∃ b p, lineBegin true upper n one l = .ok b ∧ b.plus true o n k = .ok p ∧
      (k < l ∨ l ≤ k - d → ∃ q, p.minus true o n d = .ok q ∧
        see true upper cj n a one q = .ok (if one then ((((k - d : Nat) : Int), (l : Int)), shown upper cj a (k - d) l)
          else (((l : Int), ((k - d : Nat) : Int)), shown upper cj a l (k - d)))) ∧
      (k - d < l → l ≤ k → p.minus true o n d = .error .externalLogic)) := by
  constructor
  · obtain ⟨b, hb, hbs, hbr⟩ := begin_stands false upper n one hl
    obtain ⟨p, hp, hps, hpr⟩ := plus_stands false upper o n (k := 0) (d := k) (by omega) hl hbs
    rw [Nat.zero_add] at hps
    have hm := minus_stands false upper o n hd hk hl hps (hpr hbr)
    by_cases hc : k < l ∨ l ≤ k - d
    · obtain ⟨q, hq, hqs⟩ := hm.1 hc
      exact ⟨b, p, q, hb, hp, hq, see_stands false upper cj n a one (by omega) hl hqs⟩
    · obtain ⟨⟨q, hq, hqs⟩, -⟩ := hm.2 (by omega) (by omega)
      exact ⟨b, p, q, hb, hp, hq, see_stands false upper cj n a one (by omega) hl hqs⟩
  · obtain ⟨b, hb, hbs, hbr⟩ := begin_stands true upper n one hl
    obtain ⟨p, hp, hps, hpr⟩ := plus_stands true upper o n (k := 0) (d := k) (by omega) hl hbs
    rw [Nat.zero_add] at hps
    have hm := minus_stands true upper o n hd hk hl hps (hpr hbr)
    refine ⟨b, p, hb, hp, fun hc => ?_, fun h1 h2 => (hm.2 h2 h1).2⟩
    obtain ⟨q, hq, hqs⟩ := hm.1 hc
    exact ⟨q, hq, see_stands true upper cj n a one (by omega) hl hqs⟩

/-! ## Going backwards from `end` -/

/-- `p` is the end iterator of line `l` moved back to place `k` (a signed number): only one segment is known to it. -/
def SymAd.Falls (upper : Bool) (n l : Nat) (k : Int) (p : It) : Prop :=
  if upper then p.fin = 1 ∧ p.begin = 1 ∧ p.cur = 1 ∧ p.c2 = ⟨l, k⟩ ∧ p.e2 = ⟨l, n⟩
  else p.fin = 0 ∧ p.begin = 0 ∧ p.cur = 0 ∧ p.c1 = ⟨k, l⟩ ∧ p.e1 = ⟨n, l⟩

theorem SymAd.end_falls (dbg upper : Bool) (n : Nat) (one : One) {l : Nat} (hl : l < n) :
    ∃ p, lineEnd dbg upper n one l = .ok p ∧ Falls upper n l n p := by
  have hn : ¬ n ≤ l := by omega
  have hln : l ≤ n := by omega
  cases upper <;> cases one <;>
    simp [lineEnd, find1, find2, other_eq, stored, It.make, check_True, Falls, hn, hl, hln]

theorem SymAd.prev_falls (dbg upper : Bool) (n l : Nat) (k : Int) {p : It} (h : Falls upper n l k p) :
    ∃ q, p.prev dbg = .ok q ∧ Falls upper n l (k - 1) q := by
  obtain ⟨b, f, c, b1, e1, c1, b2, e2, c2⟩ := p
  cases upper <;> simp [Falls] at h <;> obtain ⟨rfl, rfl, rfl, rfl, rfl⟩ := h <;>
    simp [It.prev, Sub.down, Sub.right, Falls] <;> omega

theorem SymAd.eq_falls (dbg upper : Bool) (n l : Nat) (hl : 0 < l) (k : Int) {p q : It} (h : Falls upper n l k p)
    (hq : Stands upper n l 0 q) : p.eq dbg q = .ok false := by
  cases upper <;> simp [Stands, hl, show l ≠ 0 by omega] at hq <;> simp [Falls] at h <;> simp [It.eq, h, hq, check_true]

/-- The place of the adapted matrix an iterator falling back from `end` reads. -/
theorem SymAd.see_falls (dbg upper : Bool) (cj : R → R) (n : Nat) (a : Nat → Nat → R) (one : One) {l : Nat} (hl : l < n) (k : Int)
    (hk : k < n) {p : It} (h : Falls upper n l k p) :
    (∀ m : Nat, (m : Int) = k → see dbg upper cj n a one p = .ok
      (let x := if upper then a l m else a m l
       if one then (((m : Int), (l : Int)), if stored upper m l then x else cj x)
       else (((l : Int), (m : Int)), if stored upper l m then x else cj x))) ∧
    (k < 0 → see dbg upper cj n a one p = .error (if dbg then .badIndex else .ub)) := by
  have hkn : ¬ k = n := by omega
  obtain ⟨b, f, c, b1, e1, c1, b2, e2, c2⟩ := p
  constructor
  · rintro m rfl
    have hm : m < n := by omega
    have B1 := base_ok dbg a hm hl
    have B2 := base_ok dbg a hl hm
    cases upper <;> cases one <;> simp [Falls] at h <;> obtain ⟨rfl, rfl, rfl, rfl, rfl⟩ := h <;>
      simp [see, It.index, It.deref, check_true, hkn, B1, B2, otherI, stored]
  · intro h0
    have hk' : ¬ (0 ≤ k) := by omega
    cases upper <;> cases one <;> simp [Falls] at h <;> obtain ⟨rfl, rfl, rfl, rfl, rfl⟩ := h <;>
      simp [see, It.index, It.deref, check_true, hkn, base, hk']

theorem SymAd.walkBack_falls (dbg upper : Bool) (cj : R → R) (n : Nat) (a : Nat → Nat → R) (one : One) {l : Nat} (hl0 : 0 < l)
    (hl : l < n) {b : It} (hb : Stands upper n l 0 b) :
    ∀ (k fuel : Nat) (p : It), k < fuel → k ≤ n → Falls upper n l k p →
      walkBack dbg (see dbg upper cj n a one) b fuel p = .error (if dbg then .badIndex else .ub) := by
  intro k
  induction k with
  | zero =>
    intro fuel p hf _ hp
    obtain ⟨f, rfl⟩ : ∃ f, fuel = f + 1 := ⟨fuel - 1, by omega⟩
    obtain ⟨q, hq, hqf⟩ := prev_falls dbg upper n l _ hp
    simp only [walkBack, eq_falls dbg upper n l hl0 _ hp hb, bind_ok, hq,
      (see_falls dbg upper cj n a one hl _ (by omega) hqf).2 (by omega)]
    rfl
  | succ k ih =>
    intro fuel p hf hkn hp
    obtain ⟨f, rfl⟩ : ∃ f, fuel = f + 1 := ⟨fuel - 1, by omega⟩
    obtain ⟨q, hq, hqf⟩ := prev_falls dbg upper n l _ hp
    rw [show (((k + 1 : Nat) : Int) - 1) = k by omega] at hqf
    simp only [walkBack, eq_falls dbg upper n l hl0 _ hp hb, bind_ok, hq,
      (see_falls dbg upper cj n a one hl _ (by omega) hqf).1 k rfl, ih f q (by omega) (by omega) hqf]
    rfl

/-- Expected: a reverse loop over a line sees it from back to front.  Refuted: for every line but the first the loop from `rbegin`
to `rend` never meets `rend`; it leaves the matrix (bad_index in a debug build, undefined behaviour in a release build). -/
theorem C80_reverse_refuted (dbg upper : Bool) (cj : R → R) (n : Nat) (a : Nat → Nat → R) (one : One) {l : Nat} (hl0 : 0 < l)
    (hl : l < n) {fuel : Nat} (hf : n < fuel) :
    lineBack dbg upper cj n a one fuel l = .error (if dbg then .badIndex else .ub) := by
  obtain ⟨b, hb, hbs, -⟩ := begin_stands dbg upper n one hl
  obtain ⟨e, he, hes⟩ := end_falls dbg upper n one hl
  simp only [lineBack, hb, he, bind_ok]
  exact walkBack_falls dbg upper cj n a one hl0 hl hbs n fuel e hf (le_refl n) hes

/-- Before that it reports, under the right indices, elements of the triangle the adaptor is not about: after `n - k` steps back
from `end` with `k < l` the element read is the one outside the triangle. -/
theorem C80_reverse_element_refuted (dbg upper : Bool) (n : Nat) (a : Nat → Nat → R) (one : One) {l : Nat} (hl : l < n) {k : Nat}
    (hk : k < l) :
    ∃ e p, lineEnd dbg upper n one l = .ok e ∧ loop (fun _ p => p.prev dbg) (n - k) e = .ok p ∧
      see dbg upper id n a one p = .ok (if one then ((k : Int), (l : Int)) else ((l : Int), (k : Int)), if upper then a l k else a k l) ∧
      ¬ (if upper then stored upper l k else stored upper k l) := by
  obtain ⟨e, he, hes⟩ := end_falls dbg upper n one hl
  have key : ∀ t, t ≤ n → ∃ p, loop (fun _ p => It.prev dbg p) t e = .ok p ∧ Falls upper n l ((n - t : Nat) : Int) p := by
    intro t
    induction t with
    | zero => intro _; exact ⟨e, rfl, by simpa using hes⟩
    | succ t ih =>
      intro ht
      obtain ⟨p, hp, hf⟩ := ih (by omega)
      obtain ⟨q, hq, hqf⟩ := prev_falls dbg upper n l _ hf
      refine ⟨q, by simp only [loop, hp, bind_ok, hq], ?_⟩
      rw [show (((n - (t + 1) : Nat) : Int)) = ((n - t : Nat) : Int) - 1 by omega]
      exact hqf
  obtain ⟨p, hp, hf⟩ := key (n - k) (by omega)
  rw [show n - (n - k) = k by omega] at hf
  refine ⟨e, p, he, hp, ?_, ?_⟩
  · rw [(see_falls dbg upper id n a one hl _ (by omega) hf).1 k rfl]
    cases one <;> simp
  · cases upper <;> simp [stored] <;> omega

/-- The reverse loop over the first line works (so the outer reverse loops `rbegin1 () .. rend1 ()`, `rbegin2 () .. rend2 ()`
do); missing: the other lines, see `C80_reverse_refuted`. -/
theorem C80_reverse_partial (dbg upper : Bool) (cj : R → R) (n : Nat) (a : Nat → Nat → R) (one : One) (hn : 0 < n) {fuel : Nat}
    (hf : n < fuel) : lineBack dbg upper cj n a one fuel 0 = .ok (shownLine upper cj n a one 0).reverse := by
  obtain ⟨b, hb, hbs, -⟩ := begin_stands dbg upper n one hn
  obtain ⟨e, he, hes⟩ := end_falls dbg upper n one hn
  simp only [lineBack, hb, he, bind_ok]
  have stands : ∀ (k : Nat) p, Falls upper n 0 k p → Stands upper n 0 k p := by
    intro k p h
    cases upper <;> simp [Falls] at h <;> simp [Stands, h]
  have key : ∀ (k fuel : Nat) (p : It), k < fuel → k ≤ n → Falls upper n 0 k p →
      walkBack dbg (see dbg upper cj n a one) b fuel p = .ok (((List.range k).map fun (k : Nat) =>
        if one then (((k : Int), ((0 : Nat) : Int)), shown upper cj a k 0)
        else ((((0 : Nat) : Int), (k : Int)), shown upper cj a 0 k)).reverse) := by
    intro k
    induction k with
    | zero =>
      intro fuel p hf _ hp
      obtain ⟨f, rfl⟩ : ∃ f, fuel = f + 1 := ⟨fuel - 1, by omega⟩
      simp only [walkBack, eq_stands dbg upper n 0 (stands _ _ hp) hbs, bind_ok]
      rfl
    | succ k ih =>
      intro fuel p hf hkn hp
      obtain ⟨f, rfl⟩ : ∃ f, fuel = f + 1 := ⟨fuel - 1, by omega⟩
      obtain ⟨q, hq, hqf⟩ := prev_falls dbg upper n 0 _ hp
      rw [show (((k + 1 : Nat) : Int) - 1) = k by omega] at hqf
      simp only [walkBack, eq_stands dbg upper n 0 (stands _ _ hp) hbs, bind_ok, hq,
        see_stands dbg upper cj n a one (show k < n by omega) hn (stands _ _ hqf), ih f q (by omega) (by omega) hqf]
      simp [List.range_succ]
  exact key n fuel e hf (le_refl n) hes

/-- Expected: `begin - end` is minus the length of the line.  Refuted: the end iterator does not know where the other segment of
its line ends; in column 1 of a 2 × 2 row-major lower adaptor the distance comes out as -4. -/
theorem C80_distance_refuted (dbg : Bool) :
    ∃ b e, lineBegin dbg false 2 true 1 = .ok b ∧ lineEnd dbg false 2 true 1 = .ok e ∧
      e.diff dbg .row 2 b = .ok 2 ∧ b.diff dbg .row 2 e = .ok (-4) := by
  cases dbg
  · exact ⟨_, _, rfl, rfl, rfl, rfl⟩
  · exact ⟨_, _, rfl, rfl, rfl, rfl⟩

/-! Concrete cases. -/
def SymAd.sample : Nat → Nat → Int := fun i j => 10 * i + j

example : traverse true false id 3 SymAd.sample true 4 =
    .ok [[((0, 0), 0), ((0, 1), 10), ((0, 2), 20)], [((1, 0), 10), ((1, 1), 11), ((1, 2), 21)],
      [((2, 0), 20), ((2, 1), 21), ((2, 2), 22)]] := by decide
example : line true true (fun x => -x) 3 SymAd.sample true 4 1 = .ok [((0, 1), 1), ((1, 1), 11), ((2, 1), -12)] := by decide
example : lineBack true false id 3 SymAd.sample true 4 1 = .error .badIndex := by decide
example : 1 < 3 ∧ (2 : Nat) ≤ 3 ∧ 2 ≤ 2 := by decide

end Ublas
