import Verif.Props.ProxyIter
import Verif.Props.DenseIter
/-! # C83: iterators of matrix views -/
namespace Ublas
variable {R : Type}

namespace MIter

/-- The laws of matrix iterators.  `lines ax` are the lines the outer iterators of axis `ax` visit, `L ax l` the entries the inner iterators of
axis `ax` show across line `l`; `At0 ax l a p`: outer iterator `p` (made at across index `l`) stands at the `a`-th line; `At1 ax l k p`: inner
iterator `p` stands at the `k`-th entry of line `l`. -/
structure Stands (X : MIter R) (lines : Axis → List (Nat × Unit)) (L : Axis → Nat → List (Nat × R))
    (At0 At1 : Axis → Nat → Nat → X.Pos → Prop) : Prop where
  linc : ∀ ax, Inc (lines ax)
  lbelow : ∀ ax, ∀ x ∈ lines ax, x.1 < X.len ax
  inc : ∀ ax l, l < X.len ax.other → Inc (L ax l)
  below : ∀ ax l, l < X.len ax.other → ∀ x ∈ L ax l, x.1 < X.len ax
  find0 : ∀ ax k l, k ≤ X.len ax → l < X.len ax.other → ∃ p, X.look ax 0 k l = .ok p ∧ At0 ax l (before (lines ax) k) p
  next0 : ∀ ax l a p, l < X.len ax.other → At0 ax l a p → a < (lines ax).length → ∃ q, X.next ax p = .ok q ∧ At0 ax l (a + 1) q
  eq0 : ∀ ax l a b p q, l < X.len ax.other → a ≤ (lines ax).length → b ≤ (lines ax).length → At0 ax l a p → At0 ax l b q →
    X.eq ax p q = .ok (decide (a = b))
  see0 : ∀ ax l a p (h : a < (lines ax).length), l < X.len ax.other → At0 ax l a p → X.indexAlong ax p = .ok (lines ax)[a].1
  inner : ∀ ax l a p (h : a < (lines ax).length), l < X.len ax.other → At0 ax l a p → ∃ ib ie, X.innerBegin ax p = .ok ib ∧ X.innerEnd ax p = .ok ie ∧
    At1 ax.other (lines ax)[a].1 0 ib ∧ At1 ax.other (lines ax)[a].1 (L ax.other (lines ax)[a].1).length ie
  find1 : ∀ ax k l, k ≤ X.len ax → l < X.len ax.other → ∃ p, X.look ax 1 k l = .ok p ∧ At1 ax l (before (L ax l) k) p
  next1 : ∀ ax l k p, l < X.len ax.other → At1 ax l k p → k < (L ax l).length → ∃ q, X.next ax p = .ok q ∧ At1 ax l (k + 1) q
  eq1 : ∀ ax l a b p q, l < X.len ax.other → a ≤ (L ax l).length → b ≤ (L ax l).length → At1 ax l a p → At1 ax l b q →
    X.eq ax p q = .ok (decide (a = b))
  see1 : ∀ ax l k p (h : k < (L ax l).length), l < X.len ax.other → At1 ax l k p →
    X.indexAlong ax p = .ok (L ax l)[k].1 ∧ X.indexAcross ax p = .ok l ∧ X.deref ax p = .ok (L ax l)[k].2

/-- Inner iterators of axis `ax` step back. -/
def Backs (X : MIter R) (L : Axis → Nat → List (Nat × R)) (At1 : Axis → Nat → Nat → X.Pos → Prop) (ax : Axis) : Prop :=
  ∀ l k p, l < X.len ax.other → At1 ax l (k + 1) p → k < (L ax l).length → ∃ q, X.prev ax p = .ok q ∧ At1 ax l k q

/-- Element access. -/
def Reads (X : MIter R) (a : Nat → Nat → R) : Prop := ∀ i j, i < X.size1 → j < X.size2 → X.at_ i j = .ok (a i j)

/-- Coordinates of the entry at `k` along `ax` and `l` across. -/
def coord (ax : Axis) (k l : Nat) : Nat × Nat := match ax with | .one => (k, l) | .two => (l, k)

/-- The expected result of the nested loops. -/
def table (lines : Axis → List (Nat × Unit)) (L : Axis → Nat → List (Nat × R)) (ax : Axis) : List (Nat × List ((Nat × Nat) × R)) :=
  (lines ax).map fun k => (k.1, (L ax.other k.1).map fun x => (coord ax k.1 x.1, x.2))

theorem other_other (ax : Axis) : ax.other.other = ax := by cases ax <;> rfl

theorem Stands.walk {X : MIter R} {lines L At0 At1} (h : X.Stands lines L At0 At1) {ax : Axis} {l : Nat} (hl : l < X.len ax.other) {e : X.Pos}
    (he : At1 ax l (L ax l).length e) :
    ∀ fuel k p, At1 ax l k p → k ≤ (L ax l).length → (L ax l).length - k < fuel →
      X.walk ax e fuel p = .ok (((L ax l).drop k).map fun x => (coord ax x.1 l, x.2)) := by
  intro fuel
  induction fuel with
  | zero => intro k p _ _ hf; omega
  | succ f ih =>
    intro k p hp hk hf
    rw [MIter.walk, h.eq1 _ _ _ _ _ _ hl hk (Nat.le_refl _) hp he, bind_ok]
    by_cases hkn : k = (L ax l).length
    · rw [if_pos (by simpa using hkn), List.drop_eq_nil_of_le (by omega)]; rfl
    · rw [if_neg (by simpa using hkn)]
      have hk' : k < (L ax l).length := by omega
      obtain ⟨s1, s2, s3⟩ := h.see1 ax l k p hk' hl hp
      obtain ⟨q, q1, q2⟩ := h.next1 ax l k p hl hp hk'
      have ih := ih (k + 1) q q2 (by omega) (by omega)
      rw [List.drop_eq_getElem_cons hk']
      cases ax
      · simp only [MIter.indexAlong, MIter.indexAcross] at s1 s2
        rw [s1, s2, s3, q1]
        simp only [bind_ok, ih, List.map_cons, coord]
      · simp only [MIter.indexAlong, MIter.indexAcross] at s1 s2
        rw [s1, s2, s3, q1]
        simp only [bind_ok, ih, List.map_cons, coord]

theorem Stands.walkOuter {X : MIter R} {lines L At0 At1} (h : X.Stands lines L At0 At1) {ax : Axis} {l : Nat} (hl : l < X.len ax.other) {e : X.Pos}
    (he : At0 ax l (lines ax).length e) :
    ∀ fuel a p, At0 ax l a p → a ≤ (lines ax).length → (lines ax).length - a < fuel →
      X.walkOuter ax e fuel p = .ok (((lines ax).drop a).map fun k => (k.1, (L ax.other k.1).map fun x => (coord ax k.1 x.1, x.2))) := by
  intro fuel
  induction fuel with
  | zero => intro a p _ _ hf; omega
  | succ f ih =>
    intro a p hp ha hf
    rw [MIter.walkOuter, h.eq0 _ _ _ _ _ _ hl ha (Nat.le_refl _) hp he, bind_ok]
    by_cases han : a = (lines ax).length
    · rw [if_pos (by simpa using han), List.drop_eq_nil_of_le (by omega)]; rfl
    · rw [if_neg (by simpa using han)]
      have ha' : a < (lines ax).length := by omega
      obtain ⟨ib, ie, i1, i2, i3, i4⟩ := h.inner ax l a p ha' hl hp
      obtain ⟨q, q1, q2⟩ := h.next0 ax l a p hl hp ha'
      have hin : (lines ax)[a].1 < X.len ax.other.other := by rw [other_other]; exact h.lbelow ax _ (List.getElem_mem ha')
      have hlen := inc_length (h.inc ax.other _ hin) (h.below ax.other _ hin)
      have hw := h.walk hin i4 (X.len ax.other + 1) 0 ib i3 (by omega) (by omega)
      have ih := ih (a + 1) q q2 (by omega) (by omega)
      rw [h.see0 ax l a p ha' hl hp, i1, i2]
      simp only [bind_ok]
      rw [hw, q1]
      simp only [bind_ok, ih]
      rw [List.drop_eq_getElem_cons ha', List.map_cons]
      simp only [List.drop_zero]
      cases ax <;> rfl

theorem Stands.traverse {X : MIter R} {lines L At0 At1} (h : X.Stands lines L At0 At1) {ax : Axis} (hl : 0 < X.len ax.other) :
    X.traverse ax = .ok (table lines L ax) := by
  obtain ⟨b, b1, b2⟩ := h.find0 ax 0 0 (Nat.zero_le _) hl
  obtain ⟨e, e1, e2⟩ := h.find0 ax (X.len ax) 0 (Nat.le_refl _) hl
  rw [before_zero] at b2
  rw [before_all (h.lbelow ax)] at e2
  have hlen := inc_length (h.linc ax) (h.lbelow ax)
  rw [MIter.traverse, b1, e1]
  simp only [bind_ok]
  rw [h.walkOuter hl e2 _ 0 b b2 (by omega) (by omega)]
  simp [table]

/-- A row or column of the matrix. -/
theorem Stands.line {X : MIter R} {lines L At0 At1} (h : X.Stands lines L At0 At1) (dbg : Bool) (ax : Axis) {l : Nat} (hl : l < X.len ax.other) :
    (X.line dbg ax l).Stands (L ax l) (At1 ax l) := by
  refine ⟨h.inc ax l hl, h.below ax l hl, fun i hi => h.find1 ax i l hi hl, fun k p => h.next1 ax l k p hl,
    fun a b p q ha hb hp hq => h.eq1 ax l a b p q hl ha hb hp hq, ?_⟩
  intro k p hk hp
  obtain ⟨s1, s2, s3⟩ := h.see1 ax l k p hk hl hp
  refine ⟨s1, ?_⟩
  simp only [MIter.line, s1, bind_ok]
  have hb := h.below ax l hl _ (List.getElem_mem hk)
  cases dbg
  · exact s3
  · simp only [if_true, check_true hb, bind_ok]; exact s3

theorem Backs.line {X : MIter R} {L At1} {ax : Axis} (h : X.Backs L At1 ax) (dbg : Bool) {l : Nat} (hl : l < X.len ax.other) :
    (X.line dbg ax l).Backs (L ax l) (At1 ax l) := fun k p => h l k p hl

theorem Reads.line {X : MIter R} {a : Nat → Nat → R} (h : X.Reads a) (dbg : Bool) (ax : Axis) {l : Nat} (hl : l < X.len ax.other) :
    (X.line dbg ax l).Reads fun k => a (coord ax k l).1 (coord ax k l).2 := by
  intro k hk
  cases ax
  · exact h k l hk hl
  · exact h l k hl hk

/-- What is shown along `ax` by a `matrix_range`. -/
def rlines (lines : Axis → List (Nat × Unit)) (r1 r2 : Range) (ax : Axis) : List (Nat × Unit) :=
  match ax with
  | .one => window r1.start r1.size (lines .one)
  | .two => window r2.start r2.size (lines .two)
def rshown (L : Axis → Nat → List (Nat × R)) (r1 r2 : Range) (ax : Axis) (l : Nat) : List (Nat × R) :=
  match ax with
  | .one => window r1.start r1.size (L .one (r2.start + l))
  | .two => window r2.start r2.size (L .two (r1.start + l))
def rAt0 {X : MIter R} (At0 : Axis → Nat → Nat → X.Pos → Prop) (lines : Axis → List (Nat × Unit)) (r1 r2 : Range) (ax : Axis) (l a : Nat) (p : X.Pos) : Prop :=
  match ax with
  | .one => At0 .one (r2.start + l) (before (lines .one) r1.start + a) p
  | .two => At0 .two (r1.start + l) (before (lines .two) r2.start + a) p
def rAt1 {X : MIter R} (At1 : Axis → Nat → Nat → X.Pos → Prop) (L : Axis → Nat → List (Nat × R)) (r1 r2 : Range) (ax : Axis) (l k : Nat) (p : X.Pos) : Prop :=
  match ax with
  | .one => At1 .one (r2.start + l) (before (L .one (r2.start + l)) r1.start + k) p
  | .two => At1 .two (r1.start + l) (before (L .two (r1.start + l)) r2.start + k) p

theorem u64_add {a b N : Nat} (h : a + b ≤ N) (hN : N < 2 ^ 64) : u64 ((a : Int) + b) = a + b := by
  rw [u64_of (by omega) (by omega)]; omega
theorem u64_sub {a b N : Nat} (h : b ≤ a) (ha : a ≤ N) (hN : N < 2 ^ 64) : u64 ((a : Int) - b) = a - b := by
  rw [u64_of (by omega) (by omega)]; omega

set_option maxHeartbeats 1000000 in
theorem Stands.range {X : MIter R} {lines L At0 At1} (h : X.Stands lines L At0 At1) (dbg : Bool) (r1 r2 : Range)
    (h1 : r1.start + r1.size ≤ X.size1) (h2 : r2.start + r2.size ≤ X.size2) (hs1 : X.size1 < 2 ^ 64) (hs2 : X.size2 < 2 ^ 64) :
    (X.range dbg r1 r2).Stands (rlines lines r1 r2) (rshown L r1 r2) (rAt0 At0 lines r1 r2) (rAt1 At1 L r1 r2) := by
  have wl1 := window_length (h.linc .one) r1.start r1.size
  have wl2 := window_length (h.linc .two) r2.start r2.size
  have bl1 := before_le (lines .one) (r1.start + r1.size)
  have bl2 := before_le (lines .two) (r2.start + r2.size)
  have key1 : ∀ l, l < r2.size → r2.start + l < X.len Axis.one.other := fun l hl => by simp only [MIter.len, CMat.along, Axis.other]; omega
  have key2 : ∀ l, l < r1.size → r1.start + l < X.len Axis.two.other := fun l hl => by simp only [MIter.len, CMat.along, Axis.other]; omega
  refine ⟨?_, ?_, ?_, ?_, ?_, ?_, ?_, ?_, ?_, ?_, ?_, ?_, ?_⟩
  · intro ax; cases ax <;> exact window_inc (h.linc _) _ _
  · intro ax; cases ax <;> exact window_below _ _ _
  · intro ax l hl
    cases ax
    · exact window_inc (h.inc .one _ (key1 l hl)) _ _
    · exact window_inc (h.inc .two _ (key2 l hl)) _ _
  · intro ax l _; cases ax <;> exact window_below _ _ _
  · intro ax k l hk hl
    cases ax
    · replace hk : k ≤ r1.size := hk
      obtain ⟨p, p1, p2⟩ := h.find0 .one (r1.start + k) (r2.start + l) (show r1.start + k ≤ X.size1 by omega) (key1 l hl)
      replace hl : l < r2.size := hl
      refine ⟨p, ?_, ?_⟩
      · simp only [MIter.look, MIter.range] at p1 ⊢
        rw [u64_add (N := X.size1) (by omega) hs1, u64_add (N := X.size2) (by omega) hs2]; exact p1
      · simp only [rAt0, rlines, before_window _ _ _ _ hk]; exact p2
    · replace hk : k ≤ r2.size := hk
      obtain ⟨p, p1, p2⟩ := h.find0 .two (r2.start + k) (r1.start + l) (show r2.start + k ≤ X.size2 by omega) (key2 l hl)
      replace hl : l < r1.size := hl
      refine ⟨p, ?_, ?_⟩
      · simp only [MIter.look, MIter.range] at p1 ⊢
        rw [u64_add (N := X.size1) (by omega) hs1, u64_add (N := X.size2) (by omega) hs2]; exact p1
      · simp only [rAt0, rlines, before_window _ _ _ _ hk]; exact p2
  · intro ax l a p hl hp ha
    cases ax
    · exact h.next0 .one (r2.start + l) (before (lines .one) r1.start + a) p (key1 l hl) hp (by have ha' : a < (window r1.start r1.size (lines .one)).length := ha; omega)
    · exact h.next0 .two (r1.start + l) (before (lines .two) r2.start + a) p (key2 l hl) hp (by have ha' : a < (window r2.start r2.size (lines .two)).length := ha; omega)
  · intro ax l a b p q hl ha hb hp hq
    cases ax
    · simp only [rlines] at ha hb
      exact (h.eq0 .one _ _ _ p q (key1 l hl) (by omega) (by omega) hp hq).trans (by simp)
    · simp only [rlines] at ha hb
      exact (h.eq0 .two _ _ _ p q (key2 l hl) (by omega) (by omega) hp hq).trans (by simp)
  · intro ax l a p ha hl hp
    cases ax
    · obtain ⟨hk', e, l1, l2⟩ := window_get (h.linc .one) r1.start r1.size a ha
      have := h.see0 .one _ _ p hk' (key1 l hl) hp
      have e' : ((rlines lines r1 r2 Axis.one)[a]'ha).1 = ((lines .one)[before (lines .one) r1.start + a]'hk').1 - r1.start := congrArg Prod.fst e
      rw [e']
      simp only [MIter.indexAlong, MIter.range] at this ⊢
      rw [this, bind_ok, u64_sub (N := X.size1) l1 (by omega) hs1]
    · obtain ⟨hk', e, l1, l2⟩ := window_get (h.linc .two) r2.start r2.size a ha
      have := h.see0 .two _ _ p hk' (key2 l hl) hp
      have e' : ((rlines lines r1 r2 Axis.two)[a]'ha).1 = ((lines .two)[before (lines .two) r2.start + a]'hk').1 - r2.start := congrArg Prod.fst e
      rw [e']
      simp only [MIter.indexAlong, MIter.range] at this ⊢
      rw [this, bind_ok, u64_sub (N := X.size2) l1 (by omega) hs2]
  · intro ax l a p ha hl hp
    cases ax
    · obtain ⟨hk', e, l1, l2⟩ := window_get (h.linc .one) r1.start r1.size a ha
      have e' : ((rlines lines r1 r2 Axis.one)[a]'ha).1 = ((lines .one)[before (lines .one) r1.start + a]'hk').1 - r1.start := congrArg Prod.fst e
      have hsee := h.see0 .one _ _ p hk' (key1 l hl) hp
      simp only [MIter.indexAlong] at hsee
      rw [e']
      simp only [MIter.range, Axis.other, rAt1, rshown, hsee, bind_ok]
      generalize hK : ((lines .one)[before (lines .one) r1.start + a]'hk').1 = K at *
      have hKl : K < X.len Axis.two.other := show K < X.size1 by omega
      have hKs : r1.start + (K - r1.start) = K := by omega
      obtain ⟨b, b1, b2⟩ := h.find1 .two r2.start K (show r2.start ≤ X.size2 by omega) hKl
      obtain ⟨c, c1, c2⟩ := h.find1 .two (r2.start + r2.size) K h2 hKl
      refine ⟨b, c, ?_, ?_, ?_, ?_⟩
      · rw [u64_sub (N := X.size1) l1 (by omega) hs1, u64_add (N := X.size1) (by omega) hs1, hKs, ← b1]
        simp only [MIter.look]; congr 1
        exact u64_add (b := 0) (N := X.size2) (by omega) hs2
      · rw [u64_sub (N := X.size1) l1 (by omega) hs1, u64_add (N := X.size1) (by omega) hs1, hKs, u64_add (N := X.size2) h2 hs2, ← c1]
        rfl
      · rw [hKs]; exact b2
      · rw [hKs, window_length (h.inc .two K hKl)]; exact c2
    · obtain ⟨hk', e, l1, l2⟩ := window_get (h.linc .two) r2.start r2.size a ha
      have e' : ((rlines lines r1 r2 Axis.two)[a]'ha).1 = ((lines .two)[before (lines .two) r2.start + a]'hk').1 - r2.start := congrArg Prod.fst e
      have hsee := h.see0 .two _ _ p hk' (key2 l hl) hp
      simp only [MIter.indexAlong] at hsee
      rw [e']
      simp only [MIter.range, Axis.other, rAt1, rshown, hsee, bind_ok]
      generalize hK : ((lines .two)[before (lines .two) r2.start + a]'hk').1 = K at *
      have hKl : K < X.len Axis.one.other := show K < X.size2 by omega
      have hKs : r2.start + (K - r2.start) = K := by omega
      obtain ⟨b, b1, b2⟩ := h.find1 .one r1.start K (show r1.start ≤ X.size1 by omega) hKl
      obtain ⟨c, c1, c2⟩ := h.find1 .one (r1.start + r1.size) K h1 hKl
      refine ⟨b, c, ?_, ?_, ?_, ?_⟩
      · rw [u64_sub (N := X.size2) l1 (by omega) hs2, u64_add (N := X.size2) (by omega) hs2, hKs, ← b1]
        simp only [MIter.look]; congr 1
        exact u64_add (b := 0) (N := X.size1) (by omega) hs1
      · rw [u64_sub (N := X.size2) l1 (by omega) hs2, u64_add (a := r2.start) (N := X.size2) (by omega) hs2, hKs, u64_add (N := X.size1) h1 hs1, ← c1]
        rfl
      · rw [hKs]; exact b2
      · rw [hKs, window_length (h.inc .one K hKl)]; exact c2
  · intro ax k l hk hl
    cases ax
    · replace hk : k ≤ r1.size := hk
      obtain ⟨p, p1, p2⟩ := h.find1 .one (r1.start + k) (r2.start + l) (show r1.start + k ≤ X.size1 by omega) (key1 l hl)
      replace hl : l < r2.size := hl
      refine ⟨p, ?_, ?_⟩
      · simp only [MIter.look, MIter.range] at p1 ⊢
        rw [u64_add (N := X.size1) (by omega) hs1, u64_add (N := X.size2) (by omega) hs2]; exact p1
      · simp only [rAt1, rshown, before_window _ _ _ _ hk]; exact p2
    · replace hk : k ≤ r2.size := hk
      obtain ⟨p, p1, p2⟩ := h.find1 .two (r2.start + k) (r1.start + l) (show r2.start + k ≤ X.size2 by omega) (key2 l hl)
      replace hl : l < r1.size := hl
      refine ⟨p, ?_, ?_⟩
      · simp only [MIter.look, MIter.range] at p1 ⊢
        rw [u64_add (N := X.size1) (by omega) hs1, u64_add (N := X.size2) (by omega) hs2]; exact p1
      · simp only [rAt1, rshown, before_window _ _ _ _ hk]; exact p2
  · intro ax l k p hl hp hk
    cases ax
    · have w := window_length (h.inc .one _ (key1 l hl)) r1.start r1.size
      have bb := before_le (L .one (r2.start + l)) (r1.start + r1.size)
      exact h.next1 .one (r2.start + l) (before (L .one (r2.start + l)) r1.start + k) p (key1 l hl) hp (by have hk' : k < (window r1.start r1.size (L .one (r2.start + l))).length := hk; omega)
    · have w := window_length (h.inc .two _ (key2 l hl)) r2.start r2.size
      have bb := before_le (L .two (r1.start + l)) (r2.start + r2.size)
      exact h.next1 .two (r1.start + l) (before (L .two (r1.start + l)) r2.start + k) p (key2 l hl) hp (by have hk' : k < (window r2.start r2.size (L .two (r1.start + l))).length := hk; omega)
  · intro ax l a b p q hl ha hb hp hq
    cases ax
    · have w := window_length (h.inc .one _ (key1 l hl)) r1.start r1.size
      have bb := before_le (L .one (r2.start + l)) (r1.start + r1.size)
      simp only [rshown] at ha hb
      exact (h.eq1 .one (r2.start + l) (before (L .one (r2.start + l)) r1.start + a) (before (L .one (r2.start + l)) r1.start + b) p q (key1 l hl) (by omega) (by omega) hp hq).trans (by simp)
    · have w := window_length (h.inc .two _ (key2 l hl)) r2.start r2.size
      have bb := before_le (L .two (r1.start + l)) (r2.start + r2.size)
      simp only [rshown] at ha hb
      exact (h.eq1 .two (r1.start + l) (before (L .two (r1.start + l)) r2.start + a) (before (L .two (r1.start + l)) r2.start + b) p q (key2 l hl) (by omega) (by omega) hp hq).trans (by simp)
  · intro ax l k p hk hl hp
    cases ax
    · obtain ⟨hk', e, l1, l2⟩ := window_get (h.inc .one _ (key1 l hl)) r1.start r1.size k hk
      have e' : (rshown L r1 r2 Axis.one l)[k]'hk = (((L .one (r2.start + l))[before (L .one (r2.start + l)) r1.start + k]'hk').1 - r1.start, ((L .one (r2.start + l))[before (L .one (r2.start + l)) r1.start + k]'hk').2) := e
      rw [e']
      obtain ⟨s1, s2, s3⟩ := h.see1 .one _ _ p hk' (key1 l hl) hp
      replace hl : l < r2.size := hl
      simp only [MIter.indexAlong, MIter.indexAcross, MIter.range] at s1 s2 s3 ⊢
      rw [s1, s2, s3]
      simp only [bind_ok]
      rw [u64_sub (N := X.size1) l1 (by omega) hs1, u64_sub (a := r2.start + l) (N := X.size2) (by omega) (by omega) hs2]
      refine ⟨rfl, ?_, trivial⟩
      congr 1; omega
    · obtain ⟨hk', e, l1, l2⟩ := window_get (h.inc .two _ (key2 l hl)) r2.start r2.size k hk
      have e' : (rshown L r1 r2 Axis.two l)[k]'hk = (((L .two (r1.start + l))[before (L .two (r1.start + l)) r2.start + k]'hk').1 - r2.start, ((L .two (r1.start + l))[before (L .two (r1.start + l)) r2.start + k]'hk').2) := e
      rw [e']
      obtain ⟨s1, s2, s3⟩ := h.see1 .two _ _ p hk' (key2 l hl) hp
      replace hl : l < r1.size := hl
      simp only [MIter.indexAlong, MIter.indexAcross, MIter.range] at s1 s2 s3 ⊢
      rw [s1, s2, s3]
      simp only [bind_ok]
      rw [u64_sub (N := X.size2) l1 (by omega) hs2, u64_sub (a := r1.start + l) (N := X.size1) (by omega) (by omega) hs1]
      refine ⟨rfl, ?_, trivial⟩
      congr 1; omega

theorem Backs.range {X : MIter R} {lines L At0 At1} (h : X.Stands lines L At0 At1) {ax : Axis} (hb : X.Backs L At1 ax) (dbg : Bool) (r1 r2 : Range)
    (h1 : r1.start + r1.size ≤ X.size1) (h2 : r2.start + r2.size ≤ X.size2) :
    (X.range dbg r1 r2).Backs (rshown L r1 r2) (rAt1 At1 L r1 r2) ax := by
  intro l k p hl hp hk
  cases ax
  · have hl' : r2.start + l < X.len Axis.one.other := by have : l < r2.size := hl; show r2.start + l < X.size2; omega
    have w := window_length (h.inc .one _ hl') r1.start r1.size
    have bb := before_le (L .one (r2.start + l)) (r1.start + r1.size)
    have hk' : k < (window r1.start r1.size (L .one (r2.start + l))).length := hk
    exact hb (r2.start + l) (before (L .one (r2.start + l)) r1.start + k) p hl' hp (by omega)
  · have hl' : r1.start + l < X.len Axis.two.other := by have : l < r1.size := hl; show r1.start + l < X.size1; omega
    have w := window_length (h.inc .two _ hl') r2.start r2.size
    have bb := before_le (L .two (r1.start + l)) (r2.start + r2.size)
    have hk' : k < (window r2.start r2.size (L .two (r1.start + l))).length := hk
    exact hb (r1.start + l) (before (L .two (r1.start + l)) r2.start + k) p hl' hp (by omega)

theorem Reads.range {X : MIter R} {a : Nat → Nat → R} (h : X.Reads a) (dbg : Bool) (r1 r2 : Range)
    (h1 : r1.start + r1.size ≤ X.size1) (h2 : r2.start + r2.size ≤ X.size2) (hs1 : X.size1 < 2 ^ 64) (hs2 : X.size2 < 2 ^ 64) :
    (X.range dbg r1 r2).Reads fun i j => a (r1.start + i) (r2.start + j) := by
  intro i j hi hj
  simp only [MIter.range] at hi hj ⊢
  rw [Range.at_, Range.at_, check_true hi, check_true hj]
  simp only [bind_ok, pure_eq_ok]
  rw [u64_add (N := X.size1) (by omega) hs1, u64_add (N := X.size2) (by omega) hs2]
  exact h _ _ (by omega) (by omega)

/-- Everything. -/
def full (n1 n2 : Nat) (a : Nat → Nat → R) (ax : Axis) (l : Nat) : List (Nat × R) :=
  match ax with
  | .one => everyone n1 fun k => a k l
  | .two => everyone n2 fun k => a l k
def flines (n1 n2 : Nat) (ax : Axis) : List (Nat × Unit) := everyone (CMat.along ax n1 n2) fun _ => ()

theorem full_length (n1 n2 : Nat) (a : Nat → Nat → R) (ax : Axis) (l : Nat) : (full n1 n2 a ax l).length = CMat.along ax n1 n2 := by
  cases ax <;> simp [full, everyone, CMat.along]
theorem flines_length (n1 n2 : Nat) (ax : Axis) : (flines n1 n2 ax).length = CMat.along ax n1 n2 := by simp [flines, everyone]
theorem full_before (n1 n2 : Nat) (a : Nat → Nat → R) (ax : Axis) (l : Nat) {k : Nat} (hk : k ≤ CMat.along ax n1 n2) : before (full n1 n2 a ax l) k = k := by
  cases ax <;> exact everyone_before _ _ hk
theorem flines_before (n1 n2 : Nat) (ax : Axis) {k : Nat} (hk : k ≤ CMat.along ax n1 n2) : before (flines n1 n2 ax) k = k := everyone_before _ _ hk
theorem full_get (n1 n2 : Nat) (a : Nat → Nat → R) (ax : Axis) (l k : Nat) (h : k < (full n1 n2 a ax l).length) :
    (full n1 n2 a ax l)[k] = (k, a (coord ax k l).1 (coord ax k l).2) := by
  cases ax <;> simp [full, everyone, coord]
theorem flines_get (n1 n2 : Nat) (ax : Axis) (k : Nat) (h : k < (flines n1 n2 ax).length) : (flines n1 n2 ax)[k] = (k, ()) := by
  simp [flines, everyone]
theorem full_inc (n1 n2 : Nat) (a : Nat → Nat → R) (ax : Axis) (l : Nat) : Inc (full n1 n2 a ax l) := by
  cases ax <;> exact everyone_inc _ _
theorem full_below (n1 n2 : Nat) (a : Nat → Nat → R) (ax : Axis) (l : Nat) : ∀ x ∈ full n1 n2 a ax l, x.1 < CMat.along ax n1 n2 := by
  cases ax <;> exact everyone_below _ _

/-- The counters of an index-like matrix proxy. -/
def pAt (P1 P2 : VIter.Picker) (ax : Axis) (l k : Nat) (p : Nat × Nat) : Prop :=
  match ax with
  | .one => p = (P1.first + k, P2.first + l)
  | .two => p = (P1.first + l, P2.first + k)

theorem picked_stands {X : MIter R} {a : Nat → Nat → R} (h : X.Reads a) (dbg : Bool) {P1 P2 : VIter.Picker} {n1 n2 : Nat} {f1 f2 : Nat → Nat}
    (hP1 : P1.Law n1 f1) (hP2 : P2.Law n2 f2) (hf1 : ∀ k, k < n1 → f1 k < X.size1) (hf2 : ∀ k, k < n2 → f2 k < X.size2) (sel1 sel2 : Nat → M Nat) :
    (X.picked dbg P1 P2 sel1 sel2).Stands (flines n1 n2) (full n1 n2 fun i j => a (f1 i) (f2 j)) (pAt P1 P2) (pAt P1 P2) := by
  have hlen : ∀ ax, (X.picked dbg P1 P2 sel1 sel2).len ax = CMat.along ax n1 n2 := by
    intro ax; simp only [MIter.len, MIter.picked, hP1.size, hP2.size]
  have hnext : ∀ ax l k p, pAt P1 P2 ax l k p → ∃ q, (X.picked dbg P1 P2 sel1 sel2).next ax p = .ok q ∧ pAt P1 P2 ax l (k + 1) q := by
    intro ax l k p hp
    cases ax <;> (simp only [pAt] at hp; subst hp; exact ⟨_, rfl, rfl⟩)
  have hfind : ∀ ax r k l, ∃ p, (X.picked dbg P1 P2 sel1 sel2).look ax r k l = .ok p ∧ pAt P1 P2 ax l k p := by
    intro ax r k l; cases ax <;> exact ⟨_, rfl, rfl⟩
  have heq : ∀ ax l k m p q, pAt P1 P2 ax l k p → pAt P1 P2 ax l m q → (X.picked dbg P1 P2 sel1 sel2).eq ax p q = .ok (decide (k = m)) := by
    intro ax l k m p q hp hq
    cases ax <;> (simp only [pAt] at hp hq; subst hp; subst hq; simp [MIter.picked, check_True])
  refine ⟨fun ax => everyone_inc _ _, ?_, fun ax l _ => full_inc _ _ _ _ _, ?_, ?_, ?_, ?_, ?_, ?_, ?_, ?_, ?_, ?_⟩
  · intro ax; rw [hlen]; exact everyone_below _ _
  · intro ax l _; rw [hlen]; exact full_below _ _ _ _ _
  · intro ax k l hk _; rw [hlen] at hk; rw [flines_before _ _ _ hk]; exact hfind ax 0 k l
  · intro ax l k p _ hp _; exact hnext ax l k p hp
  · intro ax l k m p q _ _ _ hp hq; exact heq ax l k m p q hp hq
  · intro ax l k p hk _ hp
    rw [flines_get]
    rw [flines_length] at hk
    cases ax
    · replace hp : p = _ := hp; subst hp; exact hP1.index k hk
    · replace hp : p = _ := hp; subst hp; exact hP2.index k hk
  · intro ax l k p hk _ hp
    rw [flines_get, full_length]
    cases ax
    · replace hp : p = _ := hp; subst hp
      refine ⟨_, _, rfl, rfl, rfl, ?_⟩
      simp only [Axis.other, pAt, CMat.along, hP2.size]
    · replace hp : p = _ := hp; subst hp
      refine ⟨_, _, rfl, rfl, rfl, ?_⟩
      simp only [Axis.other, pAt, CMat.along, hP1.size]
  · intro ax k l hk _; rw [hlen] at hk; rw [full_before _ _ _ _ _ hk]; exact hfind ax 1 k l
  · intro ax l k p _ hp _; exact hnext ax l k p hp
  · intro ax l k m p q _ _ _ hp hq; exact heq ax l k m p q hp hq
  · intro ax l k p hk hl hp
    rw [full_get]
    rw [full_length] at hk
    rw [hlen] at hl
    cases ax
    · replace hp : p = _ := hp; subst hp
      replace hk : k < n1 := hk
      replace hl : l < n2 := hl
      simp only [MIter.indexAlong, MIter.indexAcross, MIter.picked, hP1.index k hk, hP2.index l hl, hP1.star k hk, hP2.star l hl, bind_ok, true_and]
      exact h _ _ (hf1 k hk) (hf2 l hl)
    · replace hp : p = _ := hp; subst hp
      replace hk : k < n2 := hk
      replace hl : l < n1 := hl
      simp only [MIter.indexAlong, MIter.indexAcross, MIter.picked, hP2.index k hk, hP1.index l hl, hP2.star k hk, hP1.star l hl, bind_ok, true_and]
      exact h _ _ (hf1 l hl) (hf2 k hk)

theorem picked_backs {X : MIter R} (dbg : Bool) {P1 P2 : VIter.Picker} {n1 n2 : Nat} {f1 f2 : Nat → Nat}
    (hP1 : P1.Law n1 f1) (hP2 : P2.Law n2 f2) (sel1 sel2 : Nat → M Nat) (a : Nat → Nat → R) (ax : Axis) :
    (X.picked dbg P1 P2 sel1 sel2).Backs (full n1 n2 a) (pAt P1 P2) ax := by
  intro l k p hl hp hk
  rw [full_length] at hk
  cases ax
  · replace hp : p = _ := hp; subst hp
    refine ⟨(P1.first + k, P2.first + l), ?_, rfl⟩
    simp only [MIter.picked, hP1.back k hk, bind_ok]
  · replace hp : p = _ := hp; subst hp
    refine ⟨(P1.first + l, P2.first + k), ?_, rfl⟩
    simp only [MIter.picked, hP2.back k hk, bind_ok]

theorem picked_reads {X : MIter R} {a : Nat → Nat → R} (h : X.Reads a) (dbg : Bool) {P1 P2 : VIter.Picker} {n1 n2 : Nat} {f1 f2 : Nat → Nat}
    (hP1 : P1.Law n1 f1) (hP2 : P2.Law n2 f2) (hf1 : ∀ k, k < n1 → f1 k < X.size1) (hf2 : ∀ k, k < n2 → f2 k < X.size2) {sel1 sel2 : Nat → M Nat}
    (e1 : ∀ k, k < n1 → sel1 k = .ok (f1 k)) (e2 : ∀ k, k < n2 → sel2 k = .ok (f2 k)) :
    (X.picked dbg P1 P2 sel1 sel2).Reads fun i j => a (f1 i) (f2 j) := by
  intro i j hi hj
  simp only [MIter.picked, hP1.size, hP2.size] at hi hj ⊢
  rw [e1 i hi, e2 j hj]
  exact h _ _ (hf1 i hi) (hf2 j hj)

/-- `matrix_vector_range`, `matrix_vector_slice`, `matrix_vector_indirect`. -/
theorem diag_stands {X : MIter R} {a : Nat → Nat → R} (h : X.Reads a) (dbg : Bool) {P1 P2 : VIter.Picker} {n : Nat} {f1 f2 : Nat → Nat}
    (hP1 : P1.Law n f1) (hP2 : P2.Law n f2) (hf1 : ∀ k, k < n → f1 k < X.size1) (hf2 : ∀ k, k < n → f2 k < X.size2) (sel1 sel2 : Nat → M Nat) :
    (X.diag dbg P1 P2 sel1 sel2).Stands (everyone n fun k => a (f1 k) (f2 k)) (fun k p => (p : Nat × Nat) = (P1.first + k, P2.first + k)) ∧
    (X.diag dbg P1 P2 sel1 sel2).Backs (everyone n fun k => a (f1 k) (f2 k)) (fun k p => (p : Nat × Nat) = (P1.first + k, P2.first + k)) := by
  have hsz : (X.diag dbg P1 P2 sel1 sel2).size = n := hP1.size
  have hlen : (everyone n fun k => a (f1 k) (f2 k)).length = n := by simp [everyone]
  refine ⟨⟨everyone_inc _ _, ?_, ?_, ?_, ?_, ?_⟩, ?_⟩
  · rw [hsz]; exact everyone_below _ _
  · intro i hi; rw [hsz] at hi; rw [everyone_before _ _ hi]; exact ⟨_, rfl, rfl⟩
  · intro k p hp _; subst hp; exact ⟨_, rfl, rfl⟩
  · intro k m p q _ _ hp hq; subst hp; subst hq; simp [MIter.diag]
  · intro k p hk hp
    have hk' : k < n := by omega
    subst hp
    simp only [MIter.diag, hP1.index k hk', hP2.index k hk', hP1.star k hk', hP2.star k hk', bind_ok, check_True, ite_self, everyone,
      List.getElem_map, List.getElem_range, true_and]
    exact h _ _ (hf1 k hk') (hf2 k hk')
  · intro k p hp hk
    have hk' : k < n := by omega
    subst hp
    refine ⟨(P1.first + k, P2.first + k), ?_, rfl⟩
    simp only [MIter.diag, hP1.back k hk', hP2.back k hk', bind_ok]

/-- Nested matrix views. -/
theorem view_stands {X : MIter R} {lines L At0 At1} {a : Nat → Nat → R} (h : X.Stands lines L At0 At1) (hr : X.Reads a)
    (hs1 : X.size1 < 2 ^ 64) (hs2 : X.size2 < 2 ^ 64) (dbg : Bool) : ∀ p : MRef, p.Fits X.size1 X.size2 →
    (∃ At0' At1', (X.view dbg p).Stands (p.shownLines lines) (p.shown a L) At0' At1' ∧
      ∀ ax, X.Backs L At1 ax → (X.view dbg p).Backs (p.shown a L) At1' ax) ∧
    (X.view dbg p).Reads (fun i j => a (p.index i j).1 (p.index i j).2) ∧
    (X.view dbg p).size1 = p.size1 X.size1 ∧ (X.view dbg p).size2 = p.size2 X.size2 ∧ p.size1 X.size1 < 2 ^ 64 ∧ p.size2 X.size2 < 2 ^ 64
  | .base, _ => ⟨⟨At0, At1, h, fun _ h => h⟩, hr, rfl, rfl, hs1, hs2⟩
  | .sel p (.range r1) (.range r2), hf => by
    obtain ⟨hf, g1, g2⟩ := hf
    obtain ⟨⟨A0, A1, i1, i2⟩, i3, i4, i5, i6, i7⟩ := view_stands h hr hs1 hs2 dbg p hf
    rw [← i4] at g1 i6
    rw [← i5] at g2 i7
    have eL : rlines (p.shownLines lines) r1 r2 = (MRef.sel p (.range r1) (.range r2)).shownLines lines := by funext ax; cases ax <;> rfl
    have eS : rshown (p.shown a L) r1 r2 = (MRef.sel p (.range r1) (.range r2)).shown a L := by funext ax l; cases ax <;> rfl
    have k1 := i1.range dbg r1 r2 g1 g2 i6 i7
    have k2 := fun ax (hb : X.Backs L At1 ax) => Backs.range i1 (i2 ax hb) dbg r1 r2 g1 g2
    rw [eL, eS] at k1
    rw [eS] at k2
    refine ⟨⟨_, _, k1, k2⟩, ?_, rfl, rfl, ?_, ?_⟩
    · have := i3.range dbg r1 r2 g1 g2 i6 i7
      intro i j hi hj
      exact this i j hi hj
    · simp only [MRef.size1, Sel.size]; omega
    · simp only [MRef.size2, Sel.size]; omega
  | .sel p (.slice t1) (.slice t2), hf => by
    obtain ⟨hf, v1, v2, z1, z2⟩ := hf
    obtain ⟨_, i3, i4, i5, i6, i7⟩ := view_stands h hr hs1 hs2 dbg p hf
    have P1 := VIter.Picker.law dbg (.slice t1) i6 v1 z1
    have P2 := VIter.Picker.law dbg (.slice t2) i7 v2 z2
    have q1 : ∀ k, k < (Sel.slice t1).size → ((Sel.slice t1).index k).toNat < (X.view dbg p).size1 := by
      intro k hk; rw [i4]; have := v1 k hk; omega
    have q2 : ∀ k, k < (Sel.slice t2).size → ((Sel.slice t2).index k).toNat < (X.view dbg p).size2 := by
      intro k hk; rw [i5]; have := v2 k hk; omega
    have k1 := picked_stands i3 dbg P1 P2 q1 q2 ((Sel.slice t1).at_ dbg) ((Sel.slice t2).at_ dbg)
    have k2 := fun (ax : Axis) (_ : X.Backs L At1 ax) => picked_backs (X := X.view dbg p) dbg P1 P2 ((Sel.slice t1).at_ dbg) ((Sel.slice t2).at_ dbg)
      (fun i j => a (p.index ((Sel.slice t1).index i).toNat ((Sel.slice t2).index j).toNat).1 (p.index ((Sel.slice t1).index i).toNat ((Sel.slice t2).index j).toNat).2) ax
    have eL : flines (Sel.slice t1).size (Sel.slice t2).size = (MRef.sel p (.slice t1) (.slice t2)).shownLines lines := by funext ax; cases ax <;> rfl
    have eS : full (Sel.slice t1).size (Sel.slice t2).size (fun i j => a (p.index ((Sel.slice t1).index i).toNat ((Sel.slice t2).index j).toNat).1 (p.index ((Sel.slice t1).index i).toNat ((Sel.slice t2).index j).toNat).2) =
      (MRef.sel p (.slice t1) (.slice t2)).shown a L := by funext ax l; cases ax <;> rfl
    rw [eL, eS] at k1
    rw [eS] at k2
    exact ⟨⟨_, _, k1, k2⟩, picked_reads i3 dbg P1 P2 q1 q2 (fun k hk => Sel.at_ok i6 v1 hk) (fun k hk => Sel.at_ok i7 v2 hk), rfl, rfl, z1, z2⟩
  | .sel p (.indirect t1) (.indirect t2), hf => by
    obtain ⟨hf, v1, v2, z1, z2⟩ := hf
    obtain ⟨_, i3, i4, i5, i6, i7⟩ := view_stands h hr hs1 hs2 dbg p hf
    have P1 := VIter.Picker.law dbg (.indirect t1) i6 v1 z1
    have P2 := VIter.Picker.law dbg (.indirect t2) i7 v2 z2
    have q1 : ∀ k, k < (Sel.indirect t1).size → ((Sel.indirect t1).index k).toNat < (X.view dbg p).size1 := by
      intro k hk; rw [i4]; have := v1 k hk; omega
    have q2 : ∀ k, k < (Sel.indirect t2).size → ((Sel.indirect t2).index k).toNat < (X.view dbg p).size2 := by
      intro k hk; rw [i5]; have := v2 k hk; omega
    have k1 := picked_stands i3 dbg P1 P2 q1 q2 ((Sel.indirect t1).at_ dbg) ((Sel.indirect t2).at_ dbg)
    have k2 := fun (ax : Axis) (_ : X.Backs L At1 ax) => picked_backs (X := X.view dbg p) dbg P1 P2 ((Sel.indirect t1).at_ dbg) ((Sel.indirect t2).at_ dbg)
      (fun i j => a (p.index ((Sel.indirect t1).index i).toNat ((Sel.indirect t2).index j).toNat).1 (p.index ((Sel.indirect t1).index i).toNat ((Sel.indirect t2).index j).toNat).2) ax
    have eL : flines (Sel.indirect t1).size (Sel.indirect t2).size = (MRef.sel p (.indirect t1) (.indirect t2)).shownLines lines := by funext ax; cases ax <;> rfl
    have eS : full (Sel.indirect t1).size (Sel.indirect t2).size (fun i j => a (p.index ((Sel.indirect t1).index i).toNat ((Sel.indirect t2).index j).toNat).1 (p.index ((Sel.indirect t1).index i).toNat ((Sel.indirect t2).index j).toNat).2) =
      (MRef.sel p (.indirect t1) (.indirect t2)).shown a L := by funext ax l; cases ax <;> rfl
    rw [eL, eS] at k1
    rw [eS] at k2
    exact ⟨⟨_, _, k1, k2⟩, picked_reads i3 dbg P1 P2 q1 q2 (fun k hk => Sel.at_ok i6 v1 hk) (fun k hk => Sel.at_ok i7 v2 hk), rfl, rfl, z1, z2⟩

end MIter
end Ublas
