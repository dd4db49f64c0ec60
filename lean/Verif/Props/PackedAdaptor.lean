import Verif.Model.PackedAdaptor
import Verif.Props.PackedIter
/-! # C81: triangular_adaptor and banded_adaptor over a dense matrix -/
namespace Ublas
open Packed PackedSpec Adapt
variable {R α : Type}

/-- What triangular_adaptor presents: the adapted matrix inside the triangle, one on the diagonal of a unit triangle, zero elsewhere. -/
def triShown [Zero R] [One R] (t : Tri) (a : Nat → Nat → R) (i j : Nat) : R :=
  if Mutable t i j then a i j else fixedValue t i j

/-- What banded_adaptor presents. -/
def bandShown [Zero R] (l u : Nat) (a : Nat → Nat → R) (i j : Nat) : R :=
  if (j : Int) - i ≤ u ∧ (i : Int) - j ≤ l then a i j else 0

theorem Adapt.base_ok (dbg : Bool) {r c : Nat} (a : Nat → Nat → R) {i j : Nat} (hi : i < r) (hj : j < c) :
    base dbg r c a i j = .ok (a i j) := by rw [base, if_pos ⟨hi, hj⟩]

theorem Packed.one_iff (t : Tri) (i j : Nat) : one t i j = true ↔ (t.kind = .unit ∧ i = j) := by
  obtain ⟨k, u⟩ := t
  cases k <;> cases u <;> simp [one, lone] <;> omega

/-- Reading through triangular_adaptor. -/
theorem C81_triangular_read [Zero R] [One R] (dbg : Bool) (t : Tri) {r c : Nat} (a : Nat → Nat → R) {i j : Nat} (hi : i < r) (hj : j < c) :
    tget dbg t r c a i j = .ok (triShown t a i j) := by
  simp only [tget, check_true hi, check_true hj, bind_ok, triShown, fixedValue]
  by_cases hm : Mutable t i j
  · rw [if_pos ((other_iff t i j).2 hm), if_pos hm, Adapt.base_ok dbg a hi hj]
  · rw [if_neg (fun h => hm ((other_iff t i j).1 h)), if_neg hm]
    by_cases h1 : t.kind = .unit ∧ i = j
    · rw [if_pos ((one_iff t i j).2 h1), if_pos h1]; rfl
    · rw [if_neg (fun h => h1 ((one_iff t i j).1 h)), if_neg h1]; rfl

theorem Adapt.tderef_eq [Zero R] [One R] (dbg : Bool) (t : Tri) (r c : Nat) (a : Nat → Nat → R) (i j : Nat) :
    tderef dbg t r c a i j = tget dbg t r c a i j := by
  by_cases hi : i < r
  · by_cases hj : j < c
    · simp only [tderef, tget, check_true hi, check_true hj, bind_ok]
      split <;> simp_all
    · cases dbg
      · simp only [tderef, tget, check_release, bind_ok]; split <;> simp_all
      · simp only [tderef, tget, check_true hi, bind_ok, check_dbg_false hj]; rfl
  · cases dbg
    · simp only [tderef, tget, check_release, bind_ok]; split <;> simp_all
    · simp only [tderef, tget, check_dbg_false hi]; rfl

/-- Writing through triangular_adaptor: inside the triangle exactly that element of the presented - and of the adapted - matrix changes;
outside, bad_index is raised in every build. -/
theorem C81_triangular_write [Zero R] [One R] (dbg : Bool) (t : Tri) {r c : Nat} (a : Nat → Nat → R) (x : R) {i j : Nat} (hi : i < r) (hj : j < c) :
    (Mutable t i j → ∃ b, tset dbg t r c a i j x = .ok b ∧ (∀ p q, b p q = if p = i ∧ q = j then x else a p q) ∧
      ∀ p q, triShown t b p q = if p = i ∧ q = j then x else triShown t a p q) ∧
    (¬ Mutable t i j → tset dbg t r c a i j x = .error .badIndex) := by
  simp only [tset, check_true hi, check_true hj, bind_ok]
  refine ⟨fun hm => ?_, fun hm => by rw [if_neg (fun h => hm ((other_iff t i j).1 h))]⟩
  rw [if_pos ((other_iff t i j).2 hm), store, if_pos ⟨hi, hj⟩]
  refine ⟨_, rfl, fun p q => rfl, fun p q => ?_⟩
  unfold triShown
  by_cases h : p = i ∧ q = j
  · obtain ⟨rfl, rfl⟩ := h; simp [hm]
  · simp [h]

theorem walkIdx_congr {β : Type} {f g : Nat → M β} : ∀ (fuel b e : Nat), b ≤ e → (∀ k, b ≤ k → k < e → f k = g k) →
    walkIdx f fuel b e = walkIdx g fuel b e := by
  intro fuel
  induction fuel with
  | zero => intro b e _ _; rfl
  | succ n ih =>
    intro b e hbe h
    by_cases hb : b = e
    · simp [walkIdx, hb]
    · rw [walkIdx, walkIdx, if_neg hb, if_neg hb, h b (Nat.le_refl _) (by omega), ih (b + 1) e (by omega) (fun k h1 h2 => h k (by omega) h2)]

/-- As `visits_of_ranges`, for lines that are walks only inside the outer range. -/
theorem visits_of_lines {rows cols : Nat} {shown : Nat → Nat → Prop} {get : Nat → Nat → M α} {b e F F' : Nat} {lo hi : Nat → Nat} {line : Nat → M (List (Nat × α))}
    (hbe : b ≤ e) (hF : e - b ≤ F) (hsub : ∀ i, b ≤ i → i < e → i < rows)
    (hline : ∀ i, b ≤ i → i < e → line i = walkIdx (get i) F' (lo i) (hi i))
    (hlo : ∀ i, b ≤ i → i < e → lo i ≤ hi i ∧ hi i - lo i ≤ F')
    (hin : ∀ i, b ≤ i → i < e → ∀ j, (lo i ≤ j ∧ j < hi i ↔ j < cols ∧ shown i j))
    (hout : ∀ i j, i < rows → j < cols → shown i j → b ≤ i ∧ i < e)
    (hget : ∀ i j, i < rows → j < cols → ∃ v, get i j = .ok v) :
    ∃ L, walkIdx line F b e = .ok L ∧ VisitsExactly rows cols shown get L := by
  rw [walkIdx_congr F b e hbe hline]
  exact visits_of_ranges hbe hF hsub (fun i => rfl) hlo hin hout hget

theorem Adapt.findB_ok (dbg : Bool) {r c i j : Nat} (h : dbg = true → i ≤ r ∧ j ≤ c) : findB dbg r c i j = .ok () := by
  cases dbg
  · simp [findB]
  · simp [findB, check_true (h rfl).1, check_true (h rfl).2]

/-- Shapes for which the loops work in a debug build: columns of a lower (rows of an upper) adaptor must not start below (right of) the
matrix. -/
def AdaptShape (dbg : Bool) (t : Tri) (r c : Nat) : Prop :=
  IterShape t r c ∧ (dbg = true → if t.upper then r ≤ c + 1 else c ≤ r + 1)

/-- **C81** (triangular_adaptor, partial).  For const and mutable iterators of every triangle the nested loops by rows and by columns visit
exactly the places of the triangle (with the diagonal of a unit triangle for const ones), once and in order, with the presented element.
Missing: strict and unit triangles of the shapes of `C66_refuted`, and in debug builds lower (upper) adaptors of matrices with more than
one column (row) beyond square, see `C81_wide_refuted`. -/
theorem C81_triangular_partial [Zero R] [One R] (dbg : Bool) (k : Access) (t : Tri) (r c : Nat) (a : Nat → Nat → R) (hs : AdaptShape dbg t r c) :
    (∃ L, ttraverse dbg k t r c a .one = .ok L ∧ VisitsExactly r c (Shown k t) (fun i j => .ok (triShown t a i j)) L) ∧
    (∃ L, ttraverse dbg k t r c a .two = .ok L ∧ VisitsExactly c r (fun j i => Shown k t i j) (fun j i => .ok (triShown t a i j)) L) := by
  have hd : ∀ i j, i < r → j < c → tderef dbg t r c a i j = .ok (triShown t a i j) := fun i j hi hj => by
    rw [Adapt.tderef_eq, C81_triangular_read dbg t a hi hj]
  obtain ⟨kd, u⟩ := t
  obtain ⟨hs, hsd⟩ := hs
  constructor
  · have key : ∃ b e, grestrict1 dbg k ⟨kd, u⟩ 0 r 0 c = .ok b ∧ grestrict1 dbg k ⟨kd, u⟩ r r 0 c = .ok e ∧
        b ≤ e ∧ e ≤ r ∧ (∀ i, b ≤ i → i < e → restrict2 k ⟨kd, u⟩ i 0 r c ≤ restrict2 k ⟨kd, u⟩ i c r c ∧
          restrict2 k ⟨kd, u⟩ i c r c ≤ max c (restrict2 k ⟨kd, u⟩ i 0 r c) ∧ (dbg = true → restrict2 k ⟨kd, u⟩ i c r c ≤ c)) ∧
        (∀ i, b ≤ i → i < e → ∀ j, (restrict2 k ⟨kd, u⟩ i 0 r c ≤ j ∧ j < restrict2 k ⟨kd, u⟩ i c r c ↔ j < c ∧ Shown k ⟨kd, u⟩ i j)) ∧
        (∀ i j, i < r → j < c → Shown k ⟨kd, u⟩ i j → b ≤ i ∧ i < e) := by
      unfold IterShape at hs
      cases dbg <;> cases kd <;> cases u <;> cases k <;>
        simp only [forall_const, true_implies, false_implies, IsEmpty.forall_iff, and_true, grestrict1, lgrestrict1, lgmrestrict1, lgrestrict2, lgmrestrict2, reduceCtorEq, false_or, if_true, if_false, Bool.false_eq_true] at hs hsd ⊢ <;>
        (try rw [check_true (by omega), bind_ok, bind_ok]) <;>
        refine ⟨_, _, rfl, rfl, ?_, ?_, ?_, ?_, ?_⟩ <;>
        (try simp only [restrict2, lrestrict1, lrestrict2, lmrestrict1, lmrestrict2, Shown, Mutable, reduceCtorEq, false_and, or_false, true_and]) <;>
        (try split) <;> omega
    obtain ⟨b, e, h1, h2, hbe, her, hlo, hin, hout⟩ := key
    have hl : ∀ i, b ≤ i → i < e → trow dbg k ⟨kd, u⟩ r c a i =
        walkIdx (fun j => .ok (triShown ⟨kd, u⟩ a i j)) (r + c + 1) (restrict2 k ⟨kd, u⟩ i 0 r c) (restrict2 k ⟨kd, u⟩ i c r c) := by
      intro i hi hi'
      obtain ⟨g1, g2, g3⟩ := hlo i hi hi'
      simp only [trow]
      rw [findB_ok dbg (fun h => ⟨by omega, by have := g3 h; omega⟩), bind_ok, findB_ok dbg (fun h => ⟨by omega, g3 h⟩), bind_ok]
      refine walkIdx_congr _ _ _ g1 fun j hj hj' => hd i j (by omega) ((hin i hi hi' j).1 ⟨hj, hj'⟩).1
    obtain ⟨L, hL, hV⟩ := visits_of_lines (F := r + c + 1) hbe (by omega) (fun i h h' => by omega) hl
      (fun i h h' => ⟨(hlo i h h').1, by have := (hlo i h h').2.1; omega⟩) hin hout (fun i j _ _ => ⟨_, rfl⟩)
    refine ⟨L, ?_, hV⟩
    simp only [ttraverse, h1, h2, bind_ok, hL, findB_ok dbg (r := r) (c := c) (i := b) (j := 0) (fun _ => ⟨by omega, by omega⟩),
      findB_ok dbg (r := r) (c := c) (i := e) (j := 0) (fun _ => ⟨by omega, by omega⟩)]
  · have key : ∃ b e, grestrict2 dbg k ⟨kd, u⟩ 0 r 0 c = .ok b ∧ grestrict2 dbg k ⟨kd, u⟩ 0 r c c = .ok e ∧
        b ≤ e ∧ e ≤ c ∧ (∀ j, b ≤ j → j < e → restrict1 k ⟨kd, u⟩ 0 j r c ≤ restrict1 k ⟨kd, u⟩ r j r c ∧
          restrict1 k ⟨kd, u⟩ r j r c ≤ max r (restrict1 k ⟨kd, u⟩ 0 j r c) ∧ (dbg = true → restrict1 k ⟨kd, u⟩ r j r c ≤ r)) ∧
        (∀ j, b ≤ j → j < e → ∀ i, (restrict1 k ⟨kd, u⟩ 0 j r c ≤ i ∧ i < restrict1 k ⟨kd, u⟩ r j r c ↔ i < r ∧ Shown k ⟨kd, u⟩ i j)) ∧
        (∀ j i, j < c → i < r → Shown k ⟨kd, u⟩ i j → b ≤ j ∧ j < e) := by
      unfold IterShape at hs
      cases dbg <;> cases kd <;> cases u <;> cases k <;>
        simp only [forall_const, true_implies, false_implies, IsEmpty.forall_iff, and_true, grestrict2, lgrestrict1, lgmrestrict1, lgrestrict2, lgmrestrict2, reduceCtorEq, false_or, if_true, if_false, Bool.false_eq_true] at hs hsd ⊢ <;>
        (try rw [check_true (by omega), bind_ok, bind_ok]) <;>
        refine ⟨_, _, rfl, rfl, ?_, ?_, ?_, ?_, ?_⟩ <;>
        (try simp only [restrict1, lrestrict1, lrestrict2, lmrestrict1, lmrestrict2, Shown, Mutable, reduceCtorEq, false_and, or_false, true_and]) <;>
        (try split) <;> omega
    obtain ⟨b, e, h1, h2, hbe, her, hlo, hin, hout⟩ := key
    have hl : ∀ j, b ≤ j → j < e → tcol dbg k ⟨kd, u⟩ r c a j =
        walkIdx (fun i => .ok (triShown ⟨kd, u⟩ a i j)) (r + c + 1) (restrict1 k ⟨kd, u⟩ 0 j r c) (restrict1 k ⟨kd, u⟩ r j r c) := by
      intro j hj hj'
      obtain ⟨g1, g2, g3⟩ := hlo j hj hj'
      simp only [tcol]
      rw [findB_ok dbg (fun h => ⟨by have := g3 h; omega, by omega⟩), bind_ok, findB_ok dbg (fun h => ⟨g3 h, by omega⟩), bind_ok]
      refine walkIdx_congr _ _ _ g1 fun i hi hi' => hd i j ((hin j hj hj' i).1 ⟨hi, hi'⟩).1 (by omega)
    obtain ⟨L, hL, hV⟩ := visits_of_lines (F := r + c + 1) (get := fun j i => .ok (triShown ⟨kd, u⟩ a i j)) hbe (by omega) (fun i h h' => by omega) hl
      (fun i h h' => ⟨(hlo i h h').1, by have := (hlo i h h').2.1; omega⟩) hin hout (fun i j _ _ => ⟨_, rfl⟩)
    refine ⟨L, ?_, hV⟩
    simp only [ttraverse, h1, h2, bind_ok, hL, findB_ok dbg (r := r) (c := c) (i := 0) (j := b) (fun _ => ⟨by omega, by omega⟩),
      findB_ok dbg (r := r) (c := c) (i := 0) (j := e) (fun _ => ⟨by omega, by omega⟩)]

theorem walkIdx_err {β : Type} {get : Nat → M β} {m : Nat} {x : Fault} (hm : get m = .error x) : ∀ (fuel b e : Nat), b ≤ m → m < e → m - b < fuel →
    (∀ k, b ≤ k → k < m → ∃ v, get k = .ok v) → walkIdx get fuel b e = .error x := by
  intro fuel
  induction fuel with
  | zero => intro b e _ _ h; omega
  | succ n ih =>
    intro b e hb he hf h
    rw [walkIdx, if_neg (by omega)]
    by_cases hbm : b = m
    · rw [hbm, hm]; rfl
    · obtain ⟨v, hv⟩ := h b (Nat.le_refl _) (by omega)
      rw [hv, bind_ok, ih (b + 1) e (by omega) he (by omega) (fun k h1 h2 => h k (by omega) h2)]
      rfl

/-- Expected: the column-wise loop over a lower adaptor visits its elements whatever the shape.  Refuted in debug builds for every matrix
with at least two more columns than rows: for column r + 1 the restricted row index r + 1 lies below the matrix and the adapted matrix
refuses to form the iterator (bad_index).  The same holds with rows and columns exchanged for upper adaptors. -/
theorem C81_wide_refuted [Zero R] [One R] (k : Access) (r c : Nat) (a : Nat → Nat → R) (h : r + 1 < c) :
    ttraverse true k ⟨.lower, false⟩ r c a .two = .error .badIndex ∧ ttraverse true k ⟨.lower, true⟩ c r a .one = .error .badIndex := by
  constructor
  · have h1 : ∀ x y, grestrict2 true k ⟨.lower, false⟩ x r y c = .ok (min c y) := fun x y => by cases k <;> simp [grestrict2, lgrestrict2, lgmrestrict2]
    have hr : ∀ i j, restrict1 k ⟨.lower, false⟩ i j r c = max j (min r i) := fun i j => by cases k <;> rfl
    simp only [ttraverse, h1, bind_ok, findB_ok true (r := r) (c := c) (i := 0) (j := min c 0) (fun _ => ⟨by omega, by omega⟩),
      findB_ok true (r := r) (c := c) (i := 0) (j := min c c) (fun _ => ⟨by omega, by omega⟩)]
    refine walkIdx_err (m := r + 1) ?_ _ _ _ (by omega) (by omega) (by omega) ?_
    · simp only [tcol, hr, findB]
      rw [check_dbg_false (by omega)]; rfl
    · intro j _ hj
      simp only [tcol, hr]
      rw [findB_ok true (fun _ => ⟨by omega, by omega⟩), bind_ok, findB_ok true (fun _ => ⟨by omega, by omega⟩), bind_ok]
      obtain ⟨L, e1, _⟩ := walkIdx_ok (get := fun i => tderef true ⟨.lower, false⟩ r c a i j) (r + c + 1) (max j (min r 0)) (max j (min r r)) (by omega) (by omega)
        (fun i _ hi => ⟨_, by rw [Adapt.tderef_eq]; exact C81_triangular_read true _ a (by omega) (by omega)⟩)
      exact ⟨L, e1⟩
  · have h1 : ∀ x y, grestrict1 true k ⟨.lower, true⟩ x c y r = .ok (min c x) := fun x y => by cases k <;> simp [grestrict1, lgrestrict2, lgmrestrict2]
    have hr : ∀ i j, restrict2 k ⟨.lower, true⟩ i j c r = max i (min r j) := fun i j => by cases k <;> rfl
    simp only [ttraverse, h1, bind_ok, findB_ok true (r := c) (c := r) (i := min c 0) (j := 0) (fun _ => ⟨by omega, by omega⟩),
      findB_ok true (r := c) (c := r) (i := min c c) (j := 0) (fun _ => ⟨by omega, by omega⟩)]
    refine walkIdx_err (m := r + 1) ?_ _ _ _ (by omega) (by omega) (by omega) ?_
    · simp only [trow, hr, findB]
      rw [check_true (by omega), bind_ok, check_dbg_false (by omega)]; rfl
    · intro i _ hi
      simp only [trow, hr]
      rw [findB_ok true (fun _ => ⟨by omega, by omega⟩), bind_ok, findB_ok true (fun _ => ⟨by omega, by omega⟩), bind_ok]
      obtain ⟨L, e1, _⟩ := walkIdx_ok (get := tderef true ⟨.lower, true⟩ c r a i) (c + r + 1) (max i (min r 0)) (max i (min r r)) (by omega) (by omega)
        (fun j _ hj => ⟨_, by rw [Adapt.tderef_eq]; exact C81_triangular_read true _ a (by omega) (by omega)⟩)
      exact ⟨L, e1⟩

theorem walkIdx_snoc {β : Type} {get : Nat → M β} {g : Nat → β} : ∀ (fuel b e : Nat), b ≤ e → e - b ≤ fuel → (∀ k, b ≤ k → k < e → get k = .ok (g k)) →
    walkIdx get fuel b e = .ok ((List.range' b (e - b)).map fun k => (k, g k)) ∧
    walkIdxBack get fuel b e = .ok ((List.range' b (e - b)).map fun k => (k, g k)).reverse := by
  intro fuel
  induction fuel with
  | zero => intro b e h1 h2 _; have : b = e := by omega
            subst this; simp [walkIdx, walkIdxBack]
  | succ n ih =>
    intro b e h1 h2 h
    by_cases hb : b = e
    · subst hb; simp [walkIdx, walkIdxBack]
    · constructor
      · rw [walkIdx, if_neg hb, h b (Nat.le_refl _) (by omega), bind_ok, (ih (b + 1) e (by omega) (by omega) (fun k h1 h2 => h k (by omega) h2)).1]
        rw [show e - b = (e - (b + 1)) + 1 by omega, List.range'_succ]; rfl
      · rw [walkIdxBack, if_neg hb, if_neg (by omega), h (e - 1) (by omega) (by omega), bind_ok,
          (ih b (e - 1) (by omega) (by omega) (fun k h1 h2 => h k h1 (by omega))).2]
        rw [show e - b = (e - 1 - b) + 1 by omega, List.range'_concat]
        simp only [bind_ok, pure_eq_ok, List.map_append, List.map_cons, List.map_nil, List.reverse_append, List.reverse_cons, List.reverse_nil,
          List.nil_append, List.singleton_append]
        rw [show b + 1 * (e - 1 - b) = e - 1 by omega]

/-- The reverse loop over a row visits what the forward loop visits, in opposite order. -/
theorem C81_triangular_reverse_row [Zero R] [One R] (dbg : Bool) (k : Access) (t : Tri) (r c : Nat) (a : Nat → Nat → R) {i : Nat} (hi : i < r)
    (hs : AdaptShape dbg t r c) (hi' : dbg = true → i ≤ c ∧ (t.kind ≠ .lower → t.upper = true → i < c)) :
    ∃ L, trow dbg k t r c a i = .ok L ∧ trowBack dbg k t r c a i = .ok L.reverse := by
  have hd : ∀ j, j < c → tderef dbg t r c a i j = .ok (triShown t a i j) := fun j hj => by
    rw [Adapt.tderef_eq, C81_triangular_read dbg t a hi hj]
  have key : restrict2 k t i 0 r c ≤ restrict2 k t i c r c ∧ restrict2 k t i c r c ≤ max c (restrict2 k t i 0 r c) ∧
      (dbg = true → restrict2 k t i c r c ≤ c) := by
    obtain ⟨kd, u⟩ := t
    obtain ⟨hs, hsd⟩ := hs
    unfold IterShape at hs
    cases dbg <;> cases kd <;> cases u <;> cases k <;>
      simp [restrict2, lrestrict1, lrestrict2, lmrestrict1, lmrestrict2] at hs hsd hi' ⊢ <;> omega
  obtain ⟨g1, g2, g3⟩ := key
  have hw := walkIdx_snoc (get := tderef dbg t r c a i) (g := triShown t a i) (r + c + 1) _ _ g1 (by omega) (fun j hj hj' => hd j (by omega))
  refine ⟨(List.range' (restrict2 k t i 0 r c) (restrict2 k t i c r c - restrict2 k t i 0 r c)).map fun q => (q, triShown t a i q), ?_, ?_⟩
  · simp only [trow]
    rw [findB_ok dbg (fun h => ⟨by omega, by have := g3 h; omega⟩), bind_ok, findB_ok dbg (fun h => ⟨by omega, g3 h⟩), bind_ok]
    exact hw.1
  · simp only [trowBack]
    rw [findB_ok dbg (fun h => ⟨by omega, by have := g3 h; omega⟩), bind_ok, findB_ok dbg (fun h => ⟨by omega, g3 h⟩), bind_ok]
    exact hw.2

/-! ## banded_adaptor -/

theorem Adapt.inBand_iff (l u i j : Nat) : inBand l u i j = true ↔ ((j : Int) - i ≤ u ∧ (i : Int) - j ≤ l) := by
  simp [inBand]; omega

/-- Reading through banded_adaptor. -/
theorem C81_banded_read [Zero R] (dbg : Bool) (l u : Nat) {r c : Nat} (a : Nat → Nat → R) {i j : Nat} (hi : i < r) (hj : j < c) :
    bget dbg l u r c a i j = .ok (bandShown l u a i j) := by
  simp only [bget, check_true hi, check_true hj, bind_ok, bandShown]
  by_cases h : (j : Int) - i ≤ u ∧ (i : Int) - j ≤ l
  · rw [if_pos ((Adapt.inBand_iff l u i j).2 h), if_pos h, Adapt.base_ok dbg a hi hj]
  · rw [if_neg (fun h' => h ((Adapt.inBand_iff l u i j).1 h')), if_neg h]; rfl

/-- Writing through banded_adaptor. -/
theorem C81_banded_write [Zero R] (dbg : Bool) (l u : Nat) {r c : Nat} (a : Nat → Nat → R) (x : R) {i j : Nat} (hi : i < r) (hj : j < c) :
    (BandSpec.InBand l u i j → ∃ b, bset dbg l u r c a i j x = .ok b ∧ (∀ p q, b p q = if p = i ∧ q = j then x else a p q) ∧
      ∀ p q, bandShown l u b p q = if p = i ∧ q = j then x else bandShown l u a p q) ∧
    (¬ BandSpec.InBand l u i j → bset dbg l u r c a i j x = .error .badIndex) := by
  simp only [bset, check_true hi, check_true hj, bind_ok]
  refine ⟨fun hm => ?_, fun hm => by rw [if_neg (fun h => hm ((Adapt.inBand_iff l u i j).1 h))]⟩
  rw [if_pos ((Adapt.inBand_iff l u i j).2 hm), store, if_pos ⟨hi, hj⟩]
  refine ⟨_, rfl, fun p q => rfl, fun p q => ?_⟩
  unfold BandSpec.InBand at hm
  unfold bandShown
  by_cases h : p = i ∧ q = j
  · obtain ⟨rfl, rfl⟩ := h; simp [hm]
  · simp [h]

theorem Adapt.bderef_ok [Zero R] (dbg : Bool) (l u : Nat) {r c : Nat} (a : Nat → Nat → R) {i j : Nat} (hi : i < r) (hj : j < c) :
    bderef dbg l u r c a i j = .ok (bandShown l u a i j) := by
  simp only [bderef, check_true hi, check_true hj, bind_ok]
  by_cases h : j < c ∧ j ≤ u + i ∧ u + i - j < l + 1 + u
  · rw [if_pos h, Adapt.base_ok dbg a hi hj, bandShown, if_pos (by omega)]
  · rw [if_neg h, C81_banded_read dbg l u a hi hj]

/-- **C81** (banded_adaptor).  For every shape, bandwidths and build the nested loops visit exactly the band, once and in order, with the
presented elements. -/
theorem C81_banded [Zero R] (dbg : Bool) (l u r c : Nat) (a : Nat → Nat → R) :
    (∃ L, btraverse dbg l u r c a .one = .ok L ∧ VisitsExactly r c (BandSpec.InBand l u) (fun i j => .ok (bandShown l u a i j)) L) ∧
    (∃ L, btraverse dbg l u r c a .two = .ok L ∧ VisitsExactly c r (fun j i => BandSpec.InBand l u i j) (fun j i => .ok (bandShown l u a i j)) L) := by
  constructor
  · refine visits_of_lines (lo := fun i => bfind2 l u c i 0) (hi := fun i => bfind2 l u c i c) (F' := r + c + 1) (Nat.zero_le _) (by omega)
      (fun i _ h => h) ?_ ?_ ?_ (fun i j hi _ _ => ⟨Nat.zero_le _, hi⟩) (fun i j _ _ => ⟨_, rfl⟩)
    · intro i _ hi
      simp only [brow]
      rw [findB_ok dbg (fun _ => ⟨by omega, by unfold bfind2; omega⟩), bind_ok, findB_ok dbg (fun _ => ⟨by omega, by unfold bfind2; omega⟩), bind_ok]
      exact walkIdx_congr _ _ _ (by unfold bfind2; omega) fun j _ hj => bderef_ok dbg l u a hi (by unfold bfind2 at hj; omega)
    · intro i _ hi; simp only [bfind2]; omega
    · intro i _ hi j; simp only [bfind2, BandSpec.InBand]; omega
  · refine visits_of_lines (get := fun j i => .ok (bandShown l u a i j)) (lo := fun j => bfind1 l u r 0 j) (hi := fun j => bfind1 l u r r j) (F' := r + c + 1) (Nat.zero_le _) (by omega)
      (fun i _ h => h) ?_ ?_ ?_ (fun i j hi _ _ => ⟨Nat.zero_le _, hi⟩) (fun i j _ _ => ⟨_, rfl⟩)
    · intro j _ hj
      simp only [bcol]
      rw [findB_ok dbg (fun _ => ⟨by unfold bfind1; omega, by omega⟩), bind_ok, findB_ok dbg (fun _ => ⟨by unfold bfind1; omega, by omega⟩), bind_ok]
      exact walkIdx_congr _ _ _ (by unfold bfind1; omega) fun i _ hi => bderef_ok dbg l u a (by unfold bfind1 at hi; omega) hj
    · intro i _ hi; simp only [bfind1]; omega
    · intro i _ hi j; simp only [bfind1, BandSpec.InBand]; omega

/-! Concrete cases. -/
def Adapt.sample : Nat → Nat → Int := fun i j => 10 * i + j + 1

example : ttraverse true .const ⟨.unit, false⟩ 3 3 Adapt.sample .two =
    .ok [(0, [(0, 1), (1, 11), (2, 21)]), (1, [(1, 1), (2, 22)]), (2, [(2, 1)])] := by decide
example : AdaptShape true ⟨.unit, false⟩ 3 3 ∧ AdaptShape true ⟨.lower, false⟩ 3 4 := by
  simp [AdaptShape, IterShape]
example : ttraverse true .mut ⟨.lower, false⟩ 2 4 Adapt.sample .two = .error .badIndex ∧
    ttraverse false .mut ⟨.lower, false⟩ 2 4 Adapt.sample .two = .ok [(0, [(0, 1), (1, 11)]), (1, [(1, 12)]), (2, []), (3, [])] := by decide
example : btraverse true 1 0 3 2 Adapt.sample .two = .ok [(0, [(0, 1), (1, 11)]), (1, [(1, 12), (2, 22)])] := by decide
example : trowBack true .const ⟨.lower, true⟩ 3 3 Adapt.sample 1 = .ok [(2, 13), (1, 12)] := by decide

end Ublas
