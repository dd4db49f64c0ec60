import Verif.Model.PackedIter
import Verif.Props.Packed
import Verif.Props.Banded
/-! # C66: iterators of triangular_matrix and banded_matrix -/
namespace Ublas
open Packed PackedSpec
variable {α : Type}

/-- What a nested traversal of outer and inner indices must produce: every shown position once, in increasing order of the outer and then the
inner index, with the value element access gives. -/
def VisitsExactly (rows cols : Nat) (shown : Nat → Nat → Prop) (get : Nat → Nat → M α) (L : List (Nat × List (Nat × α))) : Prop :=
  (L.map (·.1)).Pairwise (· < ·) ∧ (∀ p ∈ L, (p.2.map (·.1)).Pairwise (· < ·)) ∧
  ∀ i j v, (∃ l, (i, l) ∈ L ∧ (j, v) ∈ l) ↔ (i < rows ∧ j < cols ∧ shown i j ∧ get i j = .ok v)

/-- Positions `const_iterator`s show: those not zero by definition of the structure; `iterator`s show the mutable ones. -/
def Shown (a : Access) (t : Tri) (i j : Nat) : Prop :=
  match a with
  | .mut => Mutable t i j
  | .const => Mutable t i j ∨ (t.kind = .unit ∧ i = j)

theorem walkIdx_ok {β : Type} {get : Nat → M β} : ∀ (fuel b e : Nat), b ≤ e → e - b ≤ fuel → (∀ k, b ≤ k → k < e → ∃ v, get k = .ok v) →
    ∃ L, walkIdx get fuel b e = .ok L ∧ L.map (·.1) = List.range' b (e - b) ∧ ∀ k v, (k, v) ∈ L ↔ (b ≤ k ∧ k < e ∧ get k = .ok v) := by
  intro fuel
  induction fuel with
  | zero =>
    intro b e h1 h2 _
    have : b = e := by omega
    subst this
    exact ⟨[], by simp [walkIdx], by simp, fun k v => by simp; omega⟩
  | succ n ih =>
    intro b e h1 h2 h3
    rw [walkIdx]
    by_cases hbe : b = e
    · subst hbe; exact ⟨[], by simp, by simp, fun k v => by simp; omega⟩
    · obtain ⟨v, hv⟩ := h3 b (Nat.le_refl _) (by omega)
      obtain ⟨L, e1, e2, e3⟩ := ih (b + 1) e (by omega) (by omega) (fun k hk hk' => h3 k (by omega) hk')
      refine ⟨(b, v) :: L, by rw [if_neg hbe, hv, bind_ok, e1, bind_ok]; rfl, ?_, fun k w => ?_⟩
      · have : e - b = (e - (b + 1)) + 1 := by omega
        rw [this, List.range'_succ, List.map_cons, e2]
      · rw [List.mem_cons, e3]
        constructor
        · rintro (h | ⟨a, b', c⟩)
          · obtain ⟨rfl, rfl⟩ := Prod.mk.inj h; exact ⟨Nat.le_refl _, by omega, hv⟩
          · exact ⟨by omega, b', c⟩
        · rintro ⟨a, b', c⟩
          by_cases hk : k = b
          · subst hk; rw [hv] at c; left; rw [Except.ok.inj c]
          · right; exact ⟨by omega, b', c⟩

theorem range'_sorted (b n : Nat) : (List.range' b n).Pairwise (· < ·) := List.pairwise_lt_range'

/-- Inner lines given by `[lo, hi)`, outer range `[b, e)`. -/
theorem visits_of_ranges {rows cols : Nat} {shown : Nat → Nat → Prop} {get : Nat → Nat → M α} {b e F F' : Nat} {lo hi : Nat → Nat} {line : Nat → M (List (Nat × α))}
    (hbe : b ≤ e) (hF : e - b ≤ F) (hsub : ∀ i, b ≤ i → i < e → i < rows)
    (hline : ∀ i, line i = walkIdx (get i) F' (lo i) (hi i))
    (hlo : ∀ i, b ≤ i → i < e → lo i ≤ hi i ∧ hi i - lo i ≤ F')
    (hin : ∀ i, b ≤ i → i < e → ∀ j, (lo i ≤ j ∧ j < hi i ↔ j < cols ∧ shown i j))
    (hout : ∀ i j, i < rows → j < cols → shown i j → b ≤ i ∧ i < e)
    (hget : ∀ i j, i < rows → j < cols → ∃ v, get i j = .ok v) :
    ∃ L, walkIdx line F b e = .ok L ∧ VisitsExactly rows cols shown get L := by
  have hl : ∀ i, b ≤ i → i < e → ∃ l, line i = .ok l ∧ l.map (·.1) = List.range' (lo i) (hi i - lo i) ∧
      ∀ k v, (k, v) ∈ l ↔ (lo i ≤ k ∧ k < hi i ∧ get i k = .ok v) := by
    intro i h1 h2
    rw [hline]
    exact walkIdx_ok F' _ _ (hlo i h1 h2).1 (hlo i h1 h2).2 fun k hk hk' =>
      hget i k (hsub i h1 h2) ((hin i h1 h2 k).1 ⟨hk, hk'⟩).1
  obtain ⟨L, e1, e2, e3⟩ := walkIdx_ok (get := line) F b e hbe hF (fun k h1 h2 => by obtain ⟨l, h, _⟩ := hl k h1 h2; exact ⟨l, h⟩)
  refine ⟨L, e1, by rw [e2]; exact range'_sorted _ _, ?_, fun i j v => ?_⟩
  · rintro ⟨i, l⟩ hp
    obtain ⟨h1, h2, h3⟩ := (e3 i l).1 hp
    obtain ⟨l', g1, g2, _⟩ := hl i h1 h2
    rw [h3] at g1; cases g1
    show (l.map (·.1)).Pairwise _
    rw [g2]; exact range'_sorted _ _
  · constructor
    · rintro ⟨l, hp, hj⟩
      obtain ⟨h1, h2, h3⟩ := (e3 i l).1 hp
      obtain ⟨l', g1, _, g3⟩ := hl i h1 h2
      rw [h3] at g1; cases g1
      obtain ⟨k1, k2, k3⟩ := (g3 j v).1 hj
      obtain ⟨m1, m2⟩ := (hin i h1 h2 j).1 ⟨k1, k2⟩
      exact ⟨hsub i h1 h2, m1, m2, k3⟩
    · rintro ⟨h1, h2, h3, h4⟩
      obtain ⟨k1, k2⟩ := hout i j h1 h2 h3
      obtain ⟨l, g1, _, g3⟩ := hl i k1 k2
      obtain ⟨m1, m2⟩ := (hin i k1 k2 j).2 ⟨h2, h3⟩
      exact ⟨l, (e3 i l).2 ⟨k1, k2, g1⟩, (g3 j v).2 ⟨m1, m2, h4⟩⟩

/-- Shapes whose strict or unit triangle is not taller (lower) or wider (upper) than square and not empty; every shape for plain lower / upper. -/
def IterShape (t : Tri) (r c : Nat) : Prop := t.kind = .lower ∨ (r ≠ 0 ∧ c ≠ 0 ∧ if t.upper then c ≤ r else r ≤ c)

theorem Implements.get [Zero α] [One α] {dbg : Bool} {t : Tri} {o : Orient} {m : TMat α} {s : DenseSpec.Spec α} (h : PackedSpec.Implements dbg t o m s)
    (i j : Nat) (hi : i < m.size1) (hj : j < m.size2) : ∃ v, m.get dbg t o i j = .ok v := by
  obtain ⟨h1, h2, h3⟩ := h
  rw [h1] at hi; rw [h2] at hj
  obtain ⟨g1, g2⟩ := h3 i j hi hj
  by_cases hm : Mutable t i j
  · obtain ⟨v, hv, _⟩ := g1 hm; exact ⟨v, hv⟩
  · exact ⟨_, g2 hm⟩

/-- Both directions of the nested traversal. -/
def TVisits [Zero α] [One α] (dbg : Bool) (a : Access) (t : Tri) (o : Orient) (m : TMat α) : Prop :=
  (∃ L, m.traverse dbg a t o .one = .ok L ∧ VisitsExactly m.size1 m.size2 (Shown a t) (m.get dbg t o) L) ∧
  (∃ L, m.traverse dbg a t o .two = .ok L ∧ VisitsExactly m.size2 m.size1 (fun j i => Shown a t i j) (fun j i => m.get dbg t o i j) L)

/-- **C66** (triangular_matrix, partial).  For every structure, orientation and build mode, const and mutable iterators: the nested traversals
by rows and by columns visit exactly the positions of the triangle, each once and in order, with the value `m (i, j)`.  Missing: unit and
strict triangles taller (lower) / wider (upper) than square, see `C66_refuted`. -/
theorem C66_triangular_partial [Zero α] [One α] (dbg : Bool) (a : Access) (t : Tri) (o : Orient) (m : TMat α) (s : DenseSpec.Spec α)
    (hm : PackedSpec.Implements dbg t o m s) (hs : IterShape t m.size1 m.size2) : TVisits dbg a t o m := by
  have hg := Implements.get hm
  obtain ⟨k, u⟩ := t
  refine ⟨?_, ?_⟩
  · have key : ∃ b e, grestrict1 dbg a ⟨k, u⟩ 0 m.size1 0 m.size2 = .ok b ∧ grestrict1 dbg a ⟨k, u⟩ m.size1 m.size1 0 m.size2 = .ok e ∧
        ∃ L, walkIdx (m.rowEls dbg a ⟨k, u⟩ o) (m.size1 + m.size2 + 1) b e = .ok L ∧ VisitsExactly m.size1 m.size2 (Shown a ⟨k, u⟩) (m.get dbg ⟨k, u⟩ o) L := by
      unfold IterShape at hs
      cases k <;> cases u <;> cases a <;>
        simp only [grestrict1, lgrestrict1, lgmrestrict1, lgrestrict2, lgmrestrict2, reduceCtorEq, false_or, if_true, if_false, Bool.false_eq_true] at hs ⊢ <;>
        (try rw [check_true (by omega), bind_ok, bind_ok]) <;>
        refine ⟨_, _, rfl, rfl, visits_of_ranges (lo := fun i => restrict2 _ _ i 0 m.size1 m.size2) (hi := fun i => restrict2 _ _ i m.size2 m.size1 m.size2)
          ?_ ?_ ?_ (fun i => rfl) ?_ ?_ ?_ hg⟩ <;>
        (try simp only [restrict2, lrestrict1, lrestrict2, lmrestrict1, lmrestrict2, Shown, Mutable, reduceCtorEq, false_and, or_false, true_and]) <;>
        (try split) <;> omega
    obtain ⟨b, e, h1, h2, L, h3, h4⟩ := key
    exact ⟨L, by simp only [TMat.traverse, h1, h2, bind_ok, h3], h4⟩
  · have key : ∃ b e, grestrict2 dbg a ⟨k, u⟩ 0 m.size1 0 m.size2 = .ok b ∧ grestrict2 dbg a ⟨k, u⟩ 0 m.size1 m.size2 m.size2 = .ok e ∧
        ∃ L, walkIdx (m.colEls dbg a ⟨k, u⟩ o) (m.size1 + m.size2 + 1) b e = .ok L ∧
          VisitsExactly m.size2 m.size1 (fun j i => Shown a ⟨k, u⟩ i j) (fun j i => m.get dbg ⟨k, u⟩ o i j) L := by
      unfold IterShape at hs
      cases k <;> cases u <;> cases a <;>
        simp only [grestrict2, lgrestrict1, lgmrestrict1, lgrestrict2, lgmrestrict2, reduceCtorEq, false_or, if_true, if_false, Bool.false_eq_true] at hs ⊢ <;>
        (try rw [check_true (by omega), bind_ok, bind_ok]) <;>
        refine ⟨_, _, rfl, rfl, visits_of_ranges (lo := fun j => restrict1 _ _ 0 j m.size1 m.size2) (hi := fun j => restrict1 _ _ m.size1 j m.size1 m.size2)
          ?_ ?_ ?_ (fun i => rfl) ?_ ?_ ?_ (fun j i hj hi => hg i j hi hj)⟩ <;>
        (try simp only [restrict1, lrestrict1, lrestrict2, lmrestrict1, lmrestrict2, Shown, Mutable, reduceCtorEq, false_and, or_false, true_and]) <;>
        (try split) <;> omega
    obtain ⟨b, e, h1, h2, L, h3, h4⟩ := key
    exact ⟨L, by simp only [TMat.traverse, h1, h2, bind_ok, h3], h4⟩

/-- **C66** refuted in general: the column-wise traversal of a 3x2 strict lower triangular matrix (without checks; with checks C08 already fails)
stops before column 1, so the element (2, 1) is never visited. -/
theorem C66_refuted : ¬ ∀ (a : Access) (t : Tri) (o : Orient) (m : TMat Int) (s : DenseSpec.Spec Int),
    PackedSpec.Implements false t o m s → TVisits false a t o m := by
  intro h
  obtain ⟨m, hm, _, hi⟩ := C07_initial (α := Int) false ⟨.strict, false⟩ .row (fun _ => 7) 3 2 (fun h => by cases h)
  have hm' : TMat.make false ⟨.strict, false⟩ (fun _ => (7 : Int)) 3 2 = .ok ⟨3, 2, [7, 7, 7]⟩ := by decide
  rw [hm'] at hm; cases hm
  obtain ⟨_, L, e, _, _, hL⟩ := h .const ⟨.strict, false⟩ .row ⟨3, 2, [7, 7, 7]⟩ _ hi
  have e' : TMat.traverse false .const ⟨.strict, false⟩ .row (⟨3, 2, [7, 7, 7]⟩ : TMat Int) .two = .ok [(0, [(1, 7), (2, 7)])] := by decide
  rw [e'] at e; cases e
  obtain ⟨l, h1, h2⟩ := (hL 1 2 7).2 ⟨by decide, by decide, Or.inl (by decide), by decide⟩
  simp at h1

/-- Non-vacuity: a 3x3 unit upper matrix reachable by a legal history, and its traversal. -/
example : TVisits true .const ⟨.unit, true⟩ .col (⟨3, 3, [4, 5, 6]⟩ : TMat Int) ∧
    TMat.traverse true .const ⟨.unit, true⟩ .col (⟨3, 3, [4, 5, 6]⟩ : TMat Int) .one = .ok [(0, [(0, 1), (1, 4), (2, 5)]), (1, [(1, 1), (2, 6)]), (2, [(2, 1)])] := by
  constructor
  · obtain ⟨m, hm, _, hi⟩ := C07_initial (α := Int) true ⟨.unit, true⟩ .col (fun k => (4 + k : Int)) 3 3 (shapeOk_square _ _ _ (by decide))
    have hm' : TMat.make true ⟨.unit, true⟩ (fun k => (4 + k : Int)) 3 3 = .ok ⟨3, 3, [4, 5, 6]⟩ := by decide
    rw [hm'] at hm; cases hm
    exact C66_triangular_partial true .const _ .col _ _ hi (by unfold IterShape; simp)
  · decide

/-- **C66** (banded_matrix).  The nested traversals by rows and by columns visit exactly the positions of the band, each once and in order,
with the value `m (i, j)`, for every shape, bandwidths, orientation and build mode. -/
theorem C66_banded [Zero α] (dbg : Bool) (o : Orient) (m : BMat α) (s : BandSpec.Spec α) (hm : BandSpec.Implements dbg o m s) :
    (∃ L, m.traverse dbg o .one = .ok L ∧ VisitsExactly m.size1 m.size2 (BandSpec.InBand m.lower m.upper) (m.get dbg o) L) ∧
    (∃ L, m.traverse dbg o .two = .ok L ∧ VisitsExactly m.size2 m.size1 (fun j i => BandSpec.InBand m.lower m.upper i j) (fun j i => m.get dbg o i j) L) := by
  have hg : ∀ i j, i < m.size1 → j < m.size2 → ∃ v, m.get dbg o i j = .ok v := by
    intro i j hi hj
    obtain ⟨h1, h2, _, _, h3⟩ := hm
    rw [h1] at hi; rw [h2] at hj
    obtain ⟨g1, g2⟩ := h3 i j hi hj
    by_cases hb : BandSpec.InBand s.lower s.upper i j
    · obtain ⟨v, hv, _⟩ := g1 hb; exact ⟨v, hv⟩
    · exact ⟨_, g2 hb⟩
  constructor
  · apply visits_of_ranges (lo := fun i => m.find2 i 0) (hi := fun i => m.find2 i m.size2) (F' := m.size1 + m.size2 + 1) (Nat.zero_le _) (by omega)
      (fun i _ h => h) (fun i => rfl) _ _ (fun i j hi _ _ => ⟨Nat.zero_le _, hi⟩) hg <;>
    simp only [BMat.find2, BandSpec.InBand] <;> omega
  · apply visits_of_ranges (lo := fun j => m.find1 0 j) (hi := fun j => m.find1 m.size1 j) (F' := m.size1 + m.size2 + 1) (Nat.zero_le _) (by omega)
      (fun i _ h => h) (fun i => rfl) _ _ (fun i j hi _ _ => ⟨Nat.zero_le _, hi⟩) (fun j i hj hi => hg i j hi hj) <;>
    simp only [BMat.find1, BandSpec.InBand] <;> omega

/-- Non-vacuity: a 3x4 banded matrix with one lower and one upper diagonal, written once. -/
example : ∃ m : BMat Int, (BMat.make .row (fun k => (k : Int)) 3 4 1 1).run true .row [(.insert 1 2 50, fun _ => 0)] = .ok m ∧
    (∃ L, m.traverse true .row .one = .ok L ∧ VisitsExactly m.size1 m.size2 (BandSpec.InBand m.lower m.upper) (m.get true .row) L) ∧
    m.traverse true .row .one = .ok [(0, [(0, 1), (1, 2)]), (1, [(0, 3), (1, 4), (2, 50)]), (2, [(1, 6), (2, 7), (3, 8)])] := by
  obtain ⟨m, e, h⟩ := C11_history (α := Int) true .row 3 4 1 1 (fun k => (k : Int)) [(.insert 1 2 50, fun _ => 0)]
    ⟨⟨by decide, by decide, by unfold BandSpec.InBand; decide⟩, trivial⟩
  refine ⟨m, e, (C66_banded true .row m _ h).1, ?_⟩
  have e' : (BMat.make .row (fun k => (k : Int)) 3 4 1 1).run true .row [(.insert 1 2 50, fun _ => 0)] = .ok ⟨3, 4, 1, 1, [0, 1, 2, 3, 4, 50, 6, 7, 8]⟩ := by decide
  rw [e'] at e; cases e
  decide

end Ublas
