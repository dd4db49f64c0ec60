import Verif.Props.ProxyIterDense
import Verif.Props.PackedIter
import Verif.Props.Symmetric
/-! # C84: iterators of triangular, banded, symmetric and hermitian matrices, and of their views -/
namespace Ublas
open Packed PackedSpec
variable {R : Type}

/-- The indices `[lo, hi)`. -/
def interval (lo hi : Nat) (f : Nat → R) : List (Nat × R) := (List.range' lo (hi - lo)).map fun k => (k, f k)

theorem interval_length (lo hi : Nat) (f : Nat → R) : (interval lo hi f).length = hi - lo := by simp [interval]
theorem interval_get (lo hi : Nat) (f : Nat → R) (k : Nat) (h : k < (interval lo hi f).length) : (interval lo hi f)[k] = (lo + k, f (lo + k)) := by
  simp [interval, List.getElem_range']
theorem interval_inc (lo hi : Nat) (f : Nat → R) : Inc (interval lo hi f) := by
  unfold Inc interval; rw [List.pairwise_map]; exact List.pairwise_lt_range'
theorem interval_mem (lo hi : Nat) (f : Nat → R) (x : Nat × R) : x ∈ interval lo hi f ↔ lo ≤ x.1 ∧ x.1 < hi ∧ x.2 = f x.1 := by
  obtain ⟨k, w⟩ := x
  simp only [interval, List.mem_map, List.mem_range'_1, Prod.mk.injEq]
  constructor
  · rintro ⟨a, h, rfl, rfl⟩; exact ⟨h.1, by omega, rfl⟩
  · rintro ⟨h1, h2, rfl⟩; exact ⟨k, by omega, rfl, rfl⟩

theorem interval_before (lo hi : Nat) (f : Nat → R) (k : Nat) : before (interval lo hi f) k = max lo (min k hi) - lo := by
  by_cases h : k ≤ lo
  · rw [before_none]
    · omega
    · intro x hx; have := (interval_mem lo hi f x).1 hx; omega
  · by_cases h2 : hi ≤ k
    · rw [before_all, interval_length]
      · omega
      · intro x hx; have := (interval_mem lo hi f x).1 hx; omega
    · have hk : k - lo < (interval lo hi f).length := by rw [interval_length]; omega
      have hb : before (interval lo hi f) k = k - lo := by
        unfold before interval
        rw [List.countP_map]
        have e1 : ((fun x : Nat × R => decide (x.1 < k)) ∘ fun k => (k, f k)) = fun j => decide (j < k) := rfl
        rw [e1]
        have e2 : hi - lo = (k - lo) + (hi - k) := by omega
        rw [e2, ← List.range'_append_1, List.countP_append]
        have c1 : (List.range' lo (k - lo)).countP (fun j => decide (j < k)) = k - lo := by
          rw [List.countP_eq_length.2, List.length_range']
          intro a ha; simp only [List.mem_range'_1] at ha; simp; omega
        have c2 : (List.range' (lo + (k - lo)) (hi - k)).countP (fun j => decide (j < k)) = 0 := by
          rw [List.countP_eq_zero]
          intro a ha; simp only [List.mem_range'_1] at ha; simp; omega
        rw [c1, c2, Nat.add_zero]
      rw [hb]; omega

/-- Two increasing lists with the same members. -/
theorem inc_ext {L L' : List (Nat × R)} (h : Inc L) (h' : Inc L') (hm : ∀ x, x ∈ L ↔ x ∈ L') : L = L' := by
  refine List.Perm.eq_of_pairwise (le := fun a b : Nat × R => a.1 < b.1) ?_ h h' ?_
  · intro a b _ _ h1 h2; omega
  · refine (List.perm_ext_iff_of_nodup ?_ ?_).2 hm
    · exact h.imp fun hab => by rintro rfl; omega
    · exact h'.imp fun hab => by rintro rfl; omega

namespace MIter

/-- `f` clamps an index to `[lo, hi)`; an interval with elements lies below `n`. -/
structure Clamp (f : Nat → M Nat) (n lo hi : Nat) : Prop where
  le : lo ≤ hi
  top : lo < hi → hi ≤ n
  eq : ∀ k, k ≤ n → f k = .ok (max lo (min k hi))

/-- Where an iterator stands. -/
def iAt0 (lo0 : Axis → Nat) (ax : Axis) (l k : Nat) (p : Nat × Nat) : Prop := p = coord ax (lo0 ax + k) l
def iAt1 (lo1 : Axis → Nat → Nat) (ax : Axis) (l k : Nat) (p : Nat × Nat) : Prop := p = coord ax (lo1 ax l + k) l

/-- What `indexed` iterators show. -/
def iL (lo1 hi1 : Axis → Nat → Nat) (a : Nat → Nat → R) (ax : Axis) (l : Nat) : List (Nat × R) :=
  interval (lo1 ax l) (hi1 ax l) fun k => a (coord ax k l).1 (coord ax k l).2
def iLines (lo0 hi0 : Axis → Nat) (ax : Axis) : List (Nat × Unit) := interval (lo0 ax) (hi0 ax) fun _ => ()

theorem indexed_stands {dbg : Bool} {n1 n2 : Nat} {f : Axis → Nat → Nat → Nat → M Nat} {get : Nat → Nat → M R} {a : Nat → Nat → R}
    {lo0 hi0 : Axis → Nat} {lo1 hi1 : Axis → Nat → Nat} (hget : ∀ i j, i < n1 → j < n2 → get i j = .ok (a i j))
    (h0 : ∀ ax l, l < CMat.along ax.other n1 n2 → Clamp (fun k => f ax 0 (coord ax k l).1 (coord ax k l).2) (CMat.along ax n1 n2) (lo0 ax) (hi0 ax))
    (h1 : ∀ ax l, l < CMat.along ax.other n1 n2 → Clamp (fun k => f ax 1 (coord ax k l).1 (coord ax k l).2) (CMat.along ax n1 n2) (lo1 ax l) (hi1 ax l))
    (hne : ∀ ax, CMat.along ax.other n1 n2 = 0 → hi0 ax ≤ lo0 ax ∨ (lo0 ax ≤ hi0 ax ∧ hi0 ax ≤ CMat.along ax n1 n2)) :
    (MIter.indexed dbg n1 n2 f get).Stands (iLines lo0 hi0) (iL lo1 hi1 a) (iAt0 lo0) (iAt1 lo1) := by
  have hlen : ∀ ax, (MIter.indexed dbg n1 n2 f get).len ax = CMat.along ax n1 n2 := fun ax => rfl
  have hlb : ∀ ax, ∀ x ∈ iLines lo0 hi0 ax, x.1 < CMat.along ax n1 n2 := by
    intro ax x hx
    obtain ⟨x1, x2, _⟩ := (interval_mem _ _ _ _).1 hx
    by_cases hz : CMat.along ax.other n1 n2 = 0
    · rcases hne ax hz with c | c <;> omega
    · have := (h0 ax 0 (by omega)).top (by omega); omega
  have hbelow : ∀ ax l, l < CMat.along ax.other n1 n2 → ∀ x ∈ iL lo1 hi1 a ax l, x.1 < CMat.along ax n1 n2 := by
    intro ax l hl x hx
    obtain ⟨x1, x2, _⟩ := (interval_mem _ _ _ _).1 hx
    have := (h1 ax l hl).top (by omega); omega
  have hnext : ∀ ax l k (p : Nat × Nat), p = coord ax k l → (MIter.indexed dbg n1 n2 f get).next ax p = .ok (coord ax (k + 1) l) := by
    rintro ax l k p rfl; cases ax <;> rfl
  have heq : ∀ ax l k k' (p q : Nat × Nat), p = coord ax k l → q = coord ax k' l → (MIter.indexed dbg n1 n2 f get).eq ax p q = .ok (decide (k = k')) := by
    rintro ax l k k' p q rfl rfl
    cases ax <;> simp only [indexed, coord, check_True, bind_ok]
  refine ⟨fun ax => interval_inc _ _ _, hlb, fun ax l _ => interval_inc _ _ _, hbelow, ?_, ?_, ?_, ?_, ?_, ?_, ?_, ?_, ?_⟩
  · intro ax k l hk hl
    have hc := h0 ax l hl
    refine ⟨coord ax (max (lo0 ax) (min k (hi0 ax))) l, ?_, ?_⟩
    · have := hc.eq k hk
      cases ax <;> simp only [look, indexed, coord] at this ⊢ <;> rw [this] <;> rfl
    · show _ = _
      rw [iLines, interval_before]
      congr 1
      omega
  · intro ax l k p hl hp hk
    exact ⟨_, hnext ax l _ p hp, rfl⟩
  · intro ax l k k' p q _ _ _ hp hq
    rw [heq ax l _ _ p q hp hq]
    simp
  · intro ax l k p hk hl hp
    rw [show (iLines lo0 hi0 ax)[k] = _ from interval_get _ _ _ k hk]
    replace hp : p = coord ax (lo0 ax + k) l := hp
    subst hp
    cases ax <;> rfl
  · intro ax l k p hk hl hp
    have hm := hlb ax _ (List.getElem_mem hk)
    rw [show (iLines lo0 hi0 ax)[k] = _ from interval_get _ _ _ k hk] at hm ⊢
    replace hp : p = coord ax (lo0 ax + k) l := hp
    subst hp
    simp only at hm ⊢
    have hc := h1 ax.other (lo0 ax + k) (by rw [other_other]; exact hm)
    have e0 := hc.eq 0 (Nat.zero_le _)
    have e1 := hc.eq _ (Nat.le_refl _)
    have hlo := hc.le
    have htop := hc.top
    refine ⟨coord ax.other (lo1 ax.other (lo0 ax + k)) (lo0 ax + k), coord ax.other (hi1 ax.other (lo0 ax + k)) (lo0 ax + k), ?_, ?_, ?_, ?_⟩
    · have q : max (lo1 ax.other (lo0 ax + k)) (min 0 (hi1 ax.other (lo0 ax + k))) = lo1 ax.other (lo0 ax + k) := by omega
      rw [q] at e0
      cases ax <;> simp only [indexed, coord, Axis.other] at e0 ⊢ <;> rw [e0] <;> rfl
    · have q : max (lo1 ax.other (lo0 ax + k)) (min (CMat.along ax.other n1 n2) (hi1 ax.other (lo0 ax + k))) = hi1 ax.other (lo0 ax + k) := by omega
      rw [q] at e1
      cases ax <;> simp only [indexed, coord, Axis.other, CMat.along] at e1 ⊢ <;> rw [e1] <;> rfl
    · exact rfl
    · show _ = _
      rw [iL, interval_length]
      congr 1
      omega
  · intro ax k l hk hl
    have hc := h1 ax l hl
    refine ⟨coord ax (max (lo1 ax l) (min k (hi1 ax l))) l, ?_, ?_⟩
    · have := hc.eq k hk
      cases ax <;> simp only [look, indexed, coord] at this ⊢ <;> rw [this] <;> rfl
    · show _ = _
      rw [iL, interval_before]
      congr 1
      omega
  · intro ax l k p hl hp hk
    exact ⟨_, hnext ax l _ p hp, rfl⟩
  · intro ax l k k' p q _ _ _ hp hq
    rw [heq ax l _ _ p q hp hq]
    simp
  · intro ax l k p hk hl hp
    have hm := hbelow ax l hl _ (List.getElem_mem hk)
    rw [show (iL lo1 hi1 a ax l)[k] = _ from interval_get _ _ _ k hk] at hm ⊢
    replace hp : p = coord ax (lo1 ax l + k) l := hp
    subst hp
    cases ax
    · exact ⟨rfl, rfl, hget _ _ hm hl⟩
    · exact ⟨rfl, rfl, hget _ _ hl hm⟩

theorem indexed_backs {dbg : Bool} {n1 n2 : Nat} {f : Axis → Nat → Nat → Nat → M Nat} {get : Nat → Nat → M R} {a : Nat → Nat → R}
    {lo1 hi1 : Axis → Nat → Nat} (ax : Axis) : (MIter.indexed dbg n1 n2 f get).Backs (iL lo1 hi1 a) (iAt1 lo1) ax := by
  intro l k p hl hp hk
  replace hp : p = coord ax (lo1 ax l + (k + 1)) l := hp
  subst hp
  refine ⟨coord ax (lo1 ax l + k) l, ?_, rfl⟩
  cases ax <;> rfl

end MIter

/-- Lines the outer iterators skip show nothing. -/
theorem MRef.shown_unvisited {a : Nat → Nat → R} {L : Axis → Nat → List (Nat × R)} {K : Axis → List (Nat × Unit)} {n1 n2 : Nat}
    (h : ∀ ax k, k < CMat.along ax n1 n2 → (k, ()) ∉ K ax → L ax.other k = []) :
    ∀ p : MRef, p.Fits n1 n2 → ∀ ax k, k < CMat.along ax (p.size1 n1) (p.size2 n2) → (k, ()) ∉ p.shownLines K ax → p.shown a L ax.other k = []
  | .base, _, ax, k, hk, hn => h ax k hk hn
  | .sel p (.range r1) (.range r2), hf, ax, k, hk, hn => by
    obtain ⟨hf, g1, g2⟩ := hf
    cases ax <;> simp only [MRef.shownLines, C82_window_spec, CMat.along, MRef.size1, MRef.size2, Sel.size] at hn hk
    · have e := MRef.shown_unvisited (a := a) h p hf .one (r1.start + k) (by simp only [CMat.along]; omega) (fun hm => hn ⟨hk, hm⟩)
      simp only [Axis.other, MRef.shown] at e ⊢
      rw [e]; rfl
    · have e := MRef.shown_unvisited (a := a) h p hf .two (r2.start + k) (by simp only [CMat.along]; omega) (fun hm => hn ⟨hk, hm⟩)
      simp only [Axis.other, MRef.shown] at e ⊢
      rw [e]; rfl
  | .sel p (.slice t1) (.slice t2), _, ax, k, hk, hn => by
    exfalso; apply hn
    cases ax <;> simp only [MRef.shownLines, List.mem_map, List.mem_range] <;> exact ⟨k, hk, rfl⟩
  | .sel p (.indirect t1) (.indirect t2), _, ax, k, hk, hn => by
    exfalso; apply hn
    cases ax <;> simp only [MRef.shownLines, List.mem_map, List.mem_range] <;> exact ⟨k, hk, rfl⟩

theorem flatMap_skip {β γ : Type} (g : β → List γ) (P : β → Bool) : ∀ l : List β, (∀ x ∈ l, P x = false → g x = []) → (l.filter P).flatMap g = l.flatMap g
  | [], _ => rfl
  | x :: l, h => by
    have ih := flatMap_skip g P l (fun y hy => h y (List.mem_cons_of_mem _ hy))
    rw [List.filter_cons]
    cases hP : P x with
    | true => simp only [if_true, List.flatMap_cons, ih]
    | false => simp only [Bool.false_eq_true, if_false, List.flatMap_cons, h x List.mem_cons_self hP, List.nil_append, ih]

theorem flatMap_lines {γ : Type} {K : List (Nat × Unit)} {n : Nat} (hK : Inc K) (hb : ∀ x ∈ K, x.1 < n) (g : Nat → List γ)
    (h : ∀ k, k < n → (k, ()) ∉ K → g k = []) : (K.flatMap fun x => g x.1) = (List.range n).flatMap g := by
  have e : K = ((List.range n).filter fun k => decide ((k, ()) ∈ K)).map fun k => (k, ()) := by
    refine inc_ext hK ?_ ?_
    · unfold Inc; rw [List.pairwise_map]; exact List.pairwise_lt_range.filter _
    · rintro ⟨k, ⟨⟩⟩
      simp only [List.mem_map, List.mem_filter, List.mem_range, decide_eq_true_eq, Prod.mk.injEq, and_true, exists_eq_right]
      exact ⟨fun hk => ⟨hb _ hk, hk⟩, fun hk => hk.2⟩
  rw [← flatMap_skip g (fun k => decide ((k, ()) ∈ K)) (List.range n)]
  · conv => lhs; rw [e]
    rw [List.flatMap_map]
  · intro k hk hP
    exact h k (List.mem_range.1 hk) (by simpa using hP)

/-- What is claimed of a structured matrix `X` of size n1 × n2 with elements `a` which shows `L`, and of every stack `p` of views of it.  The nested
loops — by rows (columns) — yield, in this order, the shown elements of row 0, row 1, … (column 0, …) with their indices, each under the
outer iterator of its own row (column); rows and columns of the view, again seen through any stack `q` of vector views, yield what they show, forwards and
backwards. -/
def MIter.Enumerates (X : MIter R) (dbg : Bool) (n1 n2 : Nat) (a : Nat → Nat → R) (L : Axis → Nat → List (Nat × R)) (p : MRef) : Prop :=
  (0 < p.size2 n2 → ∃ T, (X.view dbg p).traverse .one = .ok T ∧ (∀ y ∈ T, ∀ x ∈ y.2, x.1.1 = y.1) ∧
    (T.flatMap fun y => y.2) = (List.range (p.size1 n1)).flatMap fun i => (p.shown a L .two i).map fun x => ((i, x.1), x.2)) ∧
  (0 < p.size1 n1 → ∃ T, (X.view dbg p).traverse .two = .ok T ∧ (∀ y ∈ T, ∀ x ∈ y.2, x.1.2 = y.1) ∧
    (T.flatMap fun y => y.2) = (List.range (p.size2 n2)).flatMap fun j => (p.shown a L .one j).map fun x => ((x.1, j), x.2)) ∧
  (∀ i q, i < p.size1 n1 → VRef.Fits (p.size2 n2) q →
    (((X.view dbg p).line dbg .two i).view dbg q).els = .ok (q.shown (fun j => a (p.index i j).1 (p.index i j).2) (p.shown a L .two i)) ∧
    (((X.view dbg p).line dbg .two i).view dbg q).elsBack = .ok (q.shown (fun j => a (p.index i j).1 (p.index i j).2) (p.shown a L .two i)).reverse) ∧
  (∀ j q, j < p.size2 n2 → VRef.Fits (p.size1 n1) q →
    (((X.view dbg p).line dbg .one j).view dbg q).els = .ok (q.shown (fun i => a (p.index i j).1 (p.index i j).2) (p.shown a L .one j)) ∧
    (((X.view dbg p).line dbg .one j).view dbg q).elsBack = .ok (q.shown (fun i => a (p.index i j).1 (p.index i j).2) (p.shown a L .one j)).reverse)

namespace MIter

theorem enumerates {X : MIter R} {n1 n2 : Nat} {K : Axis → List (Nat × Unit)} {L : Axis → Nat → List (Nat × R)} {At0 At1} {a : Nat → Nat → R}
    (z1 : X.size1 = n1) (z2 : X.size2 = n2) (h1 : n1 < 2 ^ 64) (h2 : n2 < 2 ^ 64)
    (hst : X.Stands K L At0 At1) (hb : ∀ ax, X.Backs L At1 ax) (hr : X.Reads a)
    (hk : ∀ ax k, k < CMat.along ax n1 n2 → (k, ()) ∉ K ax → L ax.other k = []) (dbg : Bool) (p : MRef) (hp : p.Fits n1 n2) :
    X.Enumerates dbg n1 n2 a L p := by
  subst z1; subst z2
  obtain ⟨⟨A0, A1, k1, k2⟩, k3, k4, k5, k6, k7⟩ := MIter.view_stands hst hr h1 h2 dbg p hp
  have e1 : ∀ {m : Nat}, m < p.size1 X.size1 → m < (X.view dbg p).len Axis.two.other := by intro m hm; show m < MIter.size1 _; rw [k4]; exact hm
  have e2 : ∀ {m : Nat}, m < p.size2 X.size2 → m < (X.view dbg p).len Axis.one.other := by intro m hm; show m < MIter.size2 _; rw [k5]; exact hm
  have hun := MRef.shown_unvisited (a := a) hk p hp
  have hlen : ∀ ax, (X.view dbg p).len ax = CMat.along ax (p.size1 X.size1) (p.size2 X.size2) := by
    intro ax; cases ax
    · exact k4
    · exact k5
  refine ⟨fun h => ⟨_, k1.traverse (ax := .one) (e2 h), ?_, ?_⟩, fun h => ⟨_, k1.traverse (ax := .two) (e1 h), ?_, ?_⟩, fun i q hi hq => ?_, fun j q hj hq => ?_⟩
  · intro y hy x hx
    simp only [table, List.mem_map] at hy
    obtain ⟨k, _, rfl⟩ := hy
    simp only [List.mem_map] at hx
    obtain ⟨z, _, rfl⟩ := hx
    rfl
  · unfold table
    rw [List.flatMap_map, ← flatMap_lines (k1.linc .one) (n := p.size1 X.size1) (fun x hx => by have := k1.lbelow .one x hx; rw [hlen] at this; exact this)]
    · rfl
    · intro k hk hn
      have := hun .one k hk hn
      simp only [Axis.other] at this
      rw [this]; rfl
  · intro y hy x hx
    simp only [table, List.mem_map] at hy
    obtain ⟨k, _, rfl⟩ := hy
    simp only [List.mem_map] at hx
    obtain ⟨z, _, rfl⟩ := hx
    rfl
  · unfold table
    rw [List.flatMap_map, ← flatMap_lines (k1.linc .two) (n := p.size2 X.size2) (fun x hx => by have := k1.lbelow .two x hx; rw [hlen] at this; exact this)]
    · rfl
    · intro k hk hn
      have := hun .two k hk hn
      simp only [Axis.other] at this
      rw [this]; rfl
  · have t1 := k1.line dbg .two (e1 hi)
    have t3 := k3.line dbg .two (e1 hi)
    have hsz : ((X.view dbg p).line dbg .two i).size = p.size2 X.size2 := k5
    obtain ⟨⟨At, u1, u2⟩, _⟩ := VIter.view_stands t1 t3 (by rw [hsz]; exact k7) dbg q (by rw [hsz]; exact hq)
    exact ⟨u1.els, u1.elsBack (u2 ((k2 .two (hb .two)).line dbg (e1 hi)))⟩
  · have t1 := k1.line dbg .one (e2 hj)
    have t3 := k3.line dbg .one (e2 hj)
    have hsz : ((X.view dbg p).line dbg .one j).size = p.size1 X.size1 := k4
    obtain ⟨⟨At, u1, u2⟩, _⟩ := VIter.view_stands t1 t3 (by rw [hsz]; exact k6) dbg q (by rw [hsz]; exact hq)
    exact ⟨u1.els, u1.elsBack (u2 ((k2 .one (hb .one)).line dbg (e2 hj)))⟩

/-- `indexed` iterators whose lines are intervals of the shown positions. -/
theorem indexed_enumerates {dbg : Bool} {n1 n2 : Nat} {f : Axis → Nat → Nat → Nat → M Nat} {get : Nat → Nat → M R} {a : Nat → Nat → R}
    {lo0 hi0 : Axis → Nat} {lo1 hi1 : Axis → Nat → Nat} {sh : Nat → Nat → Prop} (hget : ∀ i j, i < n1 → j < n2 → get i j = .ok (a i j))
    (h0 : ∀ ax l, l < CMat.along ax.other n1 n2 → Clamp (fun k => f ax 0 (coord ax k l).1 (coord ax k l).2) (CMat.along ax n1 n2) (lo0 ax) (hi0 ax))
    (h1 : ∀ ax l, l < CMat.along ax.other n1 n2 → Clamp (fun k => f ax 1 (coord ax k l).1 (coord ax k l).2) (CMat.along ax n1 n2) (lo1 ax l) (hi1 ax l))
    (hne : ∀ ax, CMat.along ax.other n1 n2 = 0 → hi0 ax ≤ lo0 ax ∨ (lo0 ax ≤ hi0 ax ∧ hi0 ax ≤ CMat.along ax n1 n2))
    (hsh : ∀ ax l k, l < CMat.along ax.other n1 n2 → k < CMat.along ax n1 n2 → (lo1 ax l ≤ k ∧ k < hi1 ax l ↔ sh (coord ax k l).1 (coord ax k l).2))
    (hout : ∀ ax l k, l < CMat.along ax.other n1 n2 → k < CMat.along ax n1 n2 → sh (coord ax k l).1 (coord ax k l).2 → lo0 ax ≤ k ∧ k < hi0 ax)
    (s1 : n1 < 2 ^ 64) (s2 : n2 < 2 ^ 64) (p : MRef) (hp : p.Fits n1 n2) :
    (MIter.indexed dbg n1 n2 f get).Enumerates dbg n1 n2 a (structural n1 n2 sh a) p := by
  have hS := indexed_stands (dbg := dbg) hget h0 h1 hne
  have hL : ∀ ax l, l < CMat.along ax.other n1 n2 → iL lo1 hi1 a ax l = structural n1 n2 sh a ax l := by
    intro ax l hl
    refine inc_ext (interval_inc _ _ _) ?_ ?_
    · unfold Inc structural
      cases ax <;> simp only <;> rw [List.pairwise_map] <;> exact List.pairwise_lt_range.filter _
    · rintro ⟨k, w⟩
      rw [iL, interval_mem]
      have key : (k, w) ∈ structural n1 n2 sh a ax l ↔ k < CMat.along ax n1 n2 ∧ sh (coord ax k l).1 (coord ax k l).2 ∧ w = a (coord ax k l).1 (coord ax k l).2 := by
        cases ax <;> simp only [structural, List.mem_map, List.mem_filter, List.mem_range, decide_eq_true_eq, Prod.mk.injEq, CMat.along, coord] <;>
          exact ⟨fun ⟨b, ⟨b1, b2⟩, b3, b4⟩ => by subst b3; exact ⟨b1, b2, b4.symm⟩, fun ⟨b1, b2, b3⟩ => ⟨k, ⟨b1, b2⟩, rfl, b3.symm⟩⟩
      rw [key]
      constructor
      · rintro ⟨x1, x2, x3⟩
        have hk := (h1 ax l hl).top (by omega)
        have hk' : k < CMat.along ax n1 n2 := by simp only at x2; omega
        exact ⟨hk', (hsh ax l k hl hk').1 ⟨x1, x2⟩, x3⟩
      · rintro ⟨x1, x2, x3⟩
        obtain ⟨y1, y2⟩ := (hsh ax l k hl x1).2 x2
        exact ⟨y1, y2, x3⟩
  -- replace the shown lists by their specification
  have hS' : (MIter.indexed dbg n1 n2 f get).Stands (iLines lo0 hi0) (structural n1 n2 sh a) (iAt0 lo0) (iAt1 lo1) := by
    refine ⟨hS.linc, hS.lbelow, fun ax l hl => hL ax l hl ▸ hS.inc ax l hl, fun ax l hl => hL ax l hl ▸ hS.below ax l hl, hS.find0, hS.next0, hS.eq0, hS.see0, ?_,
      fun ax k l hk hl => hL ax l hl ▸ hS.find1 ax k l hk hl, fun ax l k p hl hp hk => hS.next1 ax l k p hl hp (by rw [hL ax l hl]; exact hk),
      fun ax l x y p q hl hx hy => hS.eq1 ax l x y p q hl (by rw [hL ax l hl]; exact hx) (by rw [hL ax l hl]; exact hy), ?_⟩
    · intro ax l k p hk hl hp
      have := hS.inner ax l k p hk hl hp
      rw [hL ax.other _ (by rw [other_other]; exact hS.lbelow ax _ (List.getElem_mem hk))] at this
      exact this
    · intro ax l k p hk hl hp
      have := hS.see1 ax l k p (by rw [hL ax l hl]; exact hk) hl hp
      simp only [hL ax l hl] at this
      exact this
  have hB : ∀ ax, (MIter.indexed dbg n1 n2 f get).Backs (structural n1 n2 sh a) (iAt1 lo1) ax :=
    fun ax l k p hl hp hk => indexed_backs (a := a) (hi1 := hi1) ax l k p hl hp (by rw [hL ax l hl]; exact hk)
  refine enumerates (X := MIter.indexed dbg n1 n2 f get) rfl rfl s1 s2 hS' hB (fun i j hi hj => hget i j hi hj) ?_ dbg p hp
  intro ax k hk hn
  rw [← hL ax.other k (by rw [other_other]; exact hk)]
  rw [List.eq_nil_iff_forall_not_mem]
  intro x hx
  apply hn
  have hx2 := (interval_mem _ _ _ _).1 hx
  have hb := hS.below ax.other k (by rw [other_other]; exact hk) x hx
  have hs := (hsh ax.other k x.1 (by rw [other_other]; exact hk) hb).1 ⟨hx2.1, hx2.2.1⟩
  have := hout ax x.1 k hb hk (by cases ax <;> exact hs)
  exact (interval_mem _ _ _ _).2 ⟨this.1, this.2, rfl⟩

/-- First line and end of the lines with elements. -/
def tLo0 (t : Tri) (ax : Axis) : Nat :=
  match t.kind, t.upper, ax with
  | .strict, false, .one => 1
  | .strict, true, .two => 1
  | _, _, _ => 0
def tHi0 (t : Tri) (n1 n2 : Nat) (ax : Axis) : Nat :=
  match t.kind, t.upper, ax with
  | .strict, false, .one => max 1 n1
  | .strict, true, .two => max 1 n2
  | .strict, false, .two => n2 - 1
  | .strict, true, .one => n1 - 1
  | _, _, .one => n1
  | _, _, .two => n2
/-- Begin and end of line `l`. -/
def tLo1 (t : Tri) (ax : Axis) (l : Nat) : Nat :=
  match t.kind, t.upper, ax with
  | .strict, false, .one => l + 1
  | .strict, true, .two => l + 1
  | _, false, .one => l
  | _, true, .two => l
  | _, _, _ => 0
def tHi1 (t : Tri) (n1 n2 : Nat) (ax : Axis) (l : Nat) : Nat :=
  match t.kind, t.upper, ax with
  | .strict, false, .one => max (l + 1) n1
  | .strict, true, .two => max (l + 1) n2
  | .strict, false, .two => min l n2
  | .strict, true, .one => min l n1
  | _, false, .one => max l n1
  | _, true, .two => max l n2
  | _, false, .two => min (l + 1) n2
  | _, true, .one => min (l + 1) n1

theorem tri_clamp0 (dbg : Bool) (t : Tri) {n1 n2 : Nat} (hs : t.kind = .strict → n1 ≠ 0 ∧ n2 ≠ 0) (ax : Axis) (l : Nat) :
    Clamp (fun k => triFind dbg .const t n1 n2 ax 0 (coord ax k l).1 (coord ax k l).2) (CMat.along ax n1 n2) (tLo0 t ax) (tHi0 t n1 n2 ax) := by
  obtain ⟨k, u⟩ := t
  cases k with
  | strict =>
    obtain ⟨z1, z2⟩ := hs rfl
    cases u <;> cases ax <;> refine ⟨?_, ?_, fun k hk => ?_⟩ <;>
      simp only [tLo0, tHi0, CMat.along, triFind, coord, grestrict1, grestrict2, lgrestrict1, lgrestrict2, lgmrestrict1, lgmrestrict2] at * <;>
      (try rw [check_true (show 1 ≤ n2 by omega)]) <;> (try rw [check_true (show 1 ≤ n1 by omega)]) <;>
      (try simp only [z1, z2, if_false, bind_ok, pure_eq_ok, Nat.zero_ne_one]) <;> (try congr 1) <;> omega
  | _ =>
    cases u <;> cases ax <;> refine ⟨?_, ?_, fun k hk => ?_⟩ <;>
      simp only [tLo0, tHi0, CMat.along, triFind, coord, grestrict1, grestrict2, lgrestrict1, lgrestrict2, Nat.zero_ne_one, if_false] at * <;>
      (try congr 1) <;> omega

theorem tri_clamp1 (dbg : Bool) (t : Tri) {n1 n2 : Nat} (ax : Axis) (l : Nat) :
    Clamp (fun k => triFind dbg .const t n1 n2 ax 1 (coord ax k l).1 (coord ax k l).2) (CMat.along ax n1 n2) (tLo1 t ax l) (tHi1 t n1 n2 ax l) := by
  obtain ⟨k, u⟩ := t
  cases k <;> cases u <;> cases ax <;> refine ⟨?_, ?_, fun k hk => ?_⟩ <;>
    simp only [tLo1, tHi1, CMat.along, triFind, coord, restrict1, restrict2, lrestrict1, lrestrict2, if_true] at * <;>
    (try congr 1) <;> omega

end MIter

/-- **C84 (triangular).** Iterators of a triangular matrix and of all views of it.  Shown are the stored elements and the unit diagonal.  (Strict
structures of other shapes: `C66_refuted`.) -/
theorem C84_triangular_views [Zero R] [One R] (dbg : Bool) (t : Tri) (o : Orient) (m : TMat R) (a : Nat → Nat → R)
    (ha : ∀ i j, i < m.size1 → j < m.size2 → m.get dbg t o i j = .ok (a i j)) (h1 : m.size1 < 2 ^ 64) (h2 : m.size2 < 2 ^ 64)
    (hs : t.kind = .strict → m.size1 ≠ 0 ∧ m.size2 ≠ 0 ∧ if t.upper then m.size2 ≤ m.size1 else m.size1 ≤ m.size2)
    (p : MRef) (hp : p.Fits m.size1 m.size2) :
    (MIter.triangular dbg t o m).Enumerates dbg m.size1 m.size2 a (structural m.size1 m.size2 (Shown .const t) a) p := by
  refine MIter.indexed_enumerates (lo0 := MIter.tLo0 t) (hi0 := MIter.tHi0 t m.size1 m.size2) (lo1 := MIter.tLo1 t) (hi1 := MIter.tHi1 t m.size1 m.size2) ha
    (fun ax l _ => MIter.tri_clamp0 dbg t (fun h => ⟨(hs h).1, (hs h).2.1⟩) ax l) (fun ax l _ => MIter.tri_clamp1 dbg t ax l) ?_ ?_ ?_ h1 h2 p hp
  · intro ax _
    obtain ⟨k, u⟩ := t
    cases k <;> cases u <;> cases ax <;> simp only [MIter.tLo0, MIter.tHi0, CMat.along] <;> omega
  · intro ax l k hl hk
    obtain ⟨kd, u⟩ := t
    cases kd <;> cases u <;> cases ax <;>
      simp only [MIter.tLo1, MIter.tHi1, CMat.along, MIter.coord, Shown, Mutable, Axis.other, reduceCtorEq, false_and, true_and, or_false] at hl hk ⊢ <;>
      first | omega | (simp; omega)
  · intro ax l k hl hk hsh
    obtain ⟨kd, u⟩ := t
    cases kd <;> cases u <;> cases ax <;>
      simp only [MIter.tLo0, MIter.tHi0, CMat.along, MIter.coord, Shown, Mutable, Axis.other, reduceCtorEq, false_and, true_and, or_false, forall_const,
        Bool.false_eq_true, if_true, if_false, false_implies] at hl hk hs hsh ⊢ <;>
      (try simp at hsh) <;> (try simp at hs) <;> omega

/-- **C84 (banded).** -/
theorem C84_banded_views [Zero R] (dbg : Bool) (o : Orient) (m : BMat R) (a : Nat → Nat → R)
    (ha : ∀ i j, i < m.size1 → j < m.size2 → m.get dbg o i j = .ok (a i j)) (h1 : m.size1 < 2 ^ 64) (h2 : m.size2 < 2 ^ 64)
    (p : MRef) (hp : p.Fits m.size1 m.size2) :
    (MIter.banded dbg o m).Enumerates dbg m.size1 m.size2 a (structural m.size1 m.size2 (BandSpec.InBand m.lower m.upper) a) p := by
  refine MIter.indexed_enumerates (lo0 := fun _ => 0) (hi0 := fun ax => CMat.along ax m.size1 m.size2)
    (lo1 := fun ax l => match ax with | .one => min (l - m.upper) (min (l + 1 + m.lower) m.size1) | .two => min (l - m.lower) (min (l + 1 + m.upper) m.size2))
    (hi1 := fun ax l => match ax with | .one => min (l + 1 + m.lower) m.size1 | .two => min (l + 1 + m.upper) m.size2) ha ?_ ?_ ?_ ?_ ?_ h1 h2 p hp
  · intro ax l _
    refine ⟨Nat.zero_le _, fun _ => Nat.le_refl _, fun k hk => ?_⟩
    cases ax <;> simp only [CMat.along, MIter.coord, Nat.zero_ne_one, if_false] at hk ⊢ <;> congr 1 <;> omega
  · intro ax l _
    cases ax <;> refine ⟨?_, ?_, fun k hk => ?_⟩ <;> simp only [CMat.along, MIter.coord, if_true, BMat.find1, BMat.find2] at * <;> (try congr 1) <;> omega
  · intro ax _; right; exact ⟨Nat.zero_le _, Nat.le_refl _⟩
  · intro ax l k hl hk
    cases ax <;> simp only [CMat.along, MIter.coord, BandSpec.InBand, Axis.other] at hl hk ⊢ <;> omega
  · intro ax l k _ hk _; exact ⟨Nat.zero_le _, hk⟩

/-- **C84 (symmetric).** The const iterators show every element, the mutable ones the stored triangle. -/
theorem C84_symmetric_views (dbg : Bool) (acc : Access) (t : Tri) (ht : t.kind = .lower) (o : Orient) (m : SMat R) (a : Nat → Nat → R)
    (ha : ∀ i j, i < m.size → j < m.size → m.get dbg t o i j = .ok (a i j)) (h1 : m.size < 2 ^ 64)
    (p : MRef) (hp : p.Fits m.size m.size) :
    (MIter.symmetric dbg acc t o m).Enumerates dbg m.size m.size a (structural m.size m.size (fun i j => acc = .mut → Mutable t i j) a) p := by
  cases acc with
  | const =>
    refine MIter.indexed_enumerates (lo0 := fun _ => 0) (hi0 := fun _ => m.size) (lo1 := fun _ _ => 0) (hi1 := fun _ _ => m.size) ha ?_ ?_ ?_ ?_ ?_ h1 h1 p hp
    · intro ax l _
      refine ⟨Nat.zero_le _, fun _ => by cases ax <;> exact Nat.le_refl _, fun k hk => ?_⟩
      cases ax <;> simp only [CMat.along, MIter.coord] at hk ⊢ <;> congr 1 <;> omega
    · intro ax l _
      refine ⟨Nat.zero_le _, fun _ => by cases ax <;> exact Nat.le_refl _, fun k hk => ?_⟩
      cases ax <;> simp only [CMat.along, MIter.coord] at hk ⊢ <;> congr 1 <;> omega
    · intro ax _; right; exact ⟨Nat.zero_le _, by cases ax <;> exact Nat.le_refl _⟩
    · intro ax l k hl hk
      have : k < m.size := by cases ax <;> exact hk
      simp [this]
    · intro ax l k _ hk _; exact ⟨Nat.zero_le _, by cases ax <;> exact hk⟩
  | «mut» =>
    have e : MIter.triFind dbg .mut t m.size m.size = MIter.triFind dbg .const t m.size m.size := by
      obtain ⟨k, u⟩ := t
      cases ht
      funext ax r i j
      cases u <;> cases ax <;> rfl
    have hsy : MIter.symmetric dbg .mut t o m = MIter.indexed dbg m.size m.size (MIter.triFind dbg .const t m.size m.size) (m.get dbg t o) := by
      unfold MIter.symmetric
      simp only
      rw [e]
    rw [hsy]
    refine MIter.indexed_enumerates (lo0 := MIter.tLo0 t) (hi0 := MIter.tHi0 t m.size m.size) (lo1 := MIter.tLo1 t) (hi1 := MIter.tHi1 t m.size m.size) ha
      (fun ax l _ => MIter.tri_clamp0 dbg t (fun h => by rw [ht] at h; cases h) ax l) (fun ax l _ => MIter.tri_clamp1 dbg t ax l) ?_ ?_ ?_ h1 h1 p hp
    · intro ax _
      obtain ⟨k, u⟩ := t
      cases ht
      cases u <;> cases ax <;> simp only [MIter.tLo0, MIter.tHi0, CMat.along] <;> omega
    · intro ax l k hl hk
      obtain ⟨kd, u⟩ := t
      cases ht
      cases u <;> cases ax <;>
        simp only [MIter.tLo1, MIter.tHi1, CMat.along, MIter.coord, Mutable, Axis.other, forall_const] at hl hk ⊢ <;>
        first | omega | (simp; omega)
    · intro ax l k hl hk hsh
      obtain ⟨kd, u⟩ := t
      cases ht
      cases u <;> cases ax <;>
        simp only [MIter.tLo0, MIter.tHi0, CMat.along] at hl hk ⊢ <;> omega

/-- **C84 (hermitian).** The const iterators show every element. -/
theorem C84_hermitian_views (conj : R → R) (dbg : Bool) (t : Tri) (o : Orient) (m : SMat R) (a : Nat → Nat → R)
    (ha : ∀ i j, i < m.size → j < m.size → m.hget conj dbg t o i j = .ok (a i j)) (h1 : m.size < 2 ^ 64)
    (p : MRef) (hp : p.Fits m.size m.size) :
    (MIter.hermitian conj dbg t o m).Enumerates dbg m.size m.size a (structural m.size m.size (fun _ _ => True) a) p := by
  refine MIter.indexed_enumerates (lo0 := fun _ => 0) (hi0 := fun _ => m.size) (lo1 := fun _ _ => 0) (hi1 := fun _ _ => m.size) ha ?_ ?_ ?_ ?_ ?_ h1 h1 p hp
  · intro ax l _
    refine ⟨Nat.zero_le _, fun _ => by cases ax <;> exact Nat.le_refl _, fun k hk => ?_⟩
    cases ax <;> simp only [CMat.along, MIter.coord] at hk ⊢ <;> congr 1 <;> omega
  · intro ax l _
    refine ⟨Nat.zero_le _, fun _ => by cases ax <;> exact Nat.le_refl _, fun k hk => ?_⟩
    cases ax <;> simp only [CMat.along, MIter.coord] at hk ⊢ <;> congr 1 <;> omega
  · intro ax _; right; exact ⟨Nat.zero_le _, by cases ax <;> exact Nat.le_refl _⟩
  · intro ax l k hl hk
    have : k < m.size := by cases ax <;> exact hk
    simp [this]
  · intro ax l k _ hk _; exact ⟨Nat.zero_le _, by cases ax <;> exact hk⟩

/-- Every element of a triangular (banded, symmetric) matrix that satisfies its refinement can be read, so the hypotheses `ha` are met after every
legal history (C07, C11, C09, C10). -/
theorem C84_readable [Zero R] [One R] [Inhabited R] (dbg : Bool) (t : Tri) (o : Orient) :
    (∀ (m : TMat R) s, PackedSpec.Implements dbg t o m s → ∃ a : Nat → Nat → R, ∀ i j, i < m.size1 → j < m.size2 → m.get dbg t o i j = .ok (a i j)) ∧
    (∀ (m : BMat R) s, BandSpec.Implements dbg o m s → ∃ a : Nat → Nat → R, ∀ i j, i < m.size1 → j < m.size2 → m.get dbg o i j = .ok (a i j)) ∧
    (∀ (m : SMat R) s, SImplements dbg t o m s → ∃ a : Nat → Nat → R, ∀ i j, i < m.size → j < m.size → m.get dbg t o i j = .ok (a i j)) ∧
    (∀ conj (m : SMat R) s, HImplements conj dbg t o m s → ∃ a : Nat → Nat → R, ∀ i j, i < m.size → j < m.size → m.hget conj dbg t o i j = .ok (a i j)) := by
  have pick : ∀ (g : Nat → Nat → M R) (n1 n2 : Nat), (∀ i j, i < n1 → j < n2 → ∃ v, g i j = .ok v) → ∃ a : Nat → Nat → R, ∀ i j, i < n1 → j < n2 → g i j = .ok (a i j) := by
    intro g n1 n2 h
    refine ⟨fun i j => match g i j with | .ok v => v | .error _ => default, fun i j hi hj => ?_⟩
    obtain ⟨v, hv⟩ := h i j hi hj
    simp only [hv]
  refine ⟨fun m s h => pick _ _ _ (Implements.get h), fun m s h => pick _ _ _ ?_, fun m s h => pick _ _ _ ?_, fun conj m s h => pick _ _ _ ?_⟩
  · intro i j hi hj
    obtain ⟨h1, h2, _, _, h3⟩ := h
    rw [h1] at hi; rw [h2] at hj
    obtain ⟨g1, g2⟩ := h3 i j hi hj
    by_cases hb : BandSpec.InBand s.lower s.upper i j
    · obtain ⟨v, hv, _⟩ := g1 hb; exact ⟨v, hv⟩
    · exact ⟨_, g2 hb⟩
  · intro i j hi hj
    obtain ⟨h1, h2⟩ := h
    rw [h1] at hi hj
    obtain ⟨⟨v, hv, _⟩, _⟩ := h2 i j hi hj
    exact ⟨v, hv⟩
  · intro i j hi hj
    obtain ⟨h1, h2⟩ := h
    rw [h1] at hi hj
    obtain ⟨v, hv, _⟩ := h2 i j hi hj
    exact ⟨v, hv⟩

/-- A window of a 3 × 3 unit lower matrix: stored elements and the ones on the diagonal; its last column backwards. -/
example : MRef.Fits 3 3 (.sel .base (.range ⟨1, 2⟩) (.range ⟨0, 2⟩)) ∧
    ((MIter.triangular true ⟨.unit, false⟩ .row (⟨3, 3, [4, 5, 6]⟩ : TMat Int)).view true (.sel .base (.range ⟨1, 2⟩) (.range ⟨0, 2⟩))).traverse .one =
      .ok [(0, [((0, 0), 4), ((0, 1), 1)]), (1, [((1, 0), 5), ((1, 1), 6)])] ∧
    (((MIter.triangular true ⟨.unit, false⟩ .row (⟨3, 3, [4, 5, 6]⟩ : TMat Int)).view true (.sel .base (.range ⟨1, 2⟩) (.range ⟨0, 2⟩))).line true .one 1).elsBack =
      .ok [(1, 6), (0, 1)] := by
  refine ⟨by simp [MRef.Fits, MRef.size1, MRef.size2], by rfl, by rfl⟩

end Ublas
