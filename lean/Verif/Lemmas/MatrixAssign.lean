import Verif.Spec.MatrixAssign
import Verif.Lemmas.VectorAssign
import Mathlib.Algebra.Group.Pi.Basic
/-! # The matrix assignment loops -/
namespace Ublas.MAssign
open VAssign (upd upd_nil upd_cons upd_congr upd_upd apply_zero sorted_nodup Con incr_ok take_range1)
variable {σ R : Type} [AddGroup R]

theorem eq_of_key {β : Type} {key : β → Nat} : ∀ {Q : List β}, (Q.map key).Pairwise (· < ·) → ∀ {x y : β}, x ∈ Q → y ∈ Q → key x = key y → x = y := by
  intro Q
  induction Q with
  | nil => intro _ x y hx; simp at hx
  | cons q Q ih =>
    intro h x y hx hy e
    rw [List.map_cons, List.pairwise_cons] at h
    rw [List.mem_cons] at hx hy
    rcases hx with rfl | hx <;> rcases hy with rfl | hy
    · rfl
    · have := h.1 _ (List.mem_map.2 ⟨y, hy, rfl⟩); omega
    · have := h.1 _ (List.mem_map.2 ⟨x, hx, rfl⟩); omega
    · exact ih h.2 hx hy e

theorem update2_eq (w : Nat → Nat → R) (k l : Nat) (t : R) : update2 w k l t = Function.update w k (Function.update (w k) l t) := by
  funext i j
  by_cases h : i = k
  · subst h; by_cases h' : j = l <;> simp [update2, Function.update, h']
  · simp [update2, Function.update, h]

/-- Line `k` of a matrix as a vector, the other lines being those of `w0`. -/
def LRep (Rep : MRep σ R) (r : Nat) (w0 : Nat → Nat → R) (Ls : List Nat) (S : Nat → List Nat) (k : Nat) : σ → Nat → (Nat → R) → List Nat → Prop :=
  fun s n wl Sl => Sl = S k ∧ Rep s r n (Function.update w0 k wl) Ls S

variable {T : MT σ R} {Rep : MRep σ R} {r c : Nat} {Ls : List Nat} {S : Nat → List Nat} {k : Nat}

theorem line_lawful (hT : T.Lawful Rep) (hk : k ∈ Ls) (w0 : Nat → Nat → R) : (T.line k).Lawful (LRep Rep r w0 Ls S k) where
  size s n w S' h := (hT.sizes _ _ _ _ _ _ h.2).2
  its s n w S' h := by rw [h.1]; exact (hT.its _ _ _ _ _ _ h.2 k hk).1
  sorted s n w S' h := by rw [h.1]; exact (hT.its _ _ _ _ _ _ h.2 k hk).2.1
  lt s n w S' h := by rw [h.1]; exact (hT.its _ _ _ _ _ _ h.2 k hk).2.2
  off s n w S' h i hi hm := by
    have := hT.off _ _ _ _ _ _ h.2 k i ((hT.lines _ _ _ _ _ _ h.2).2.2 k hk) hi (by rw [← h.1]; exact fun c => hm c.2)
    simpa using this
  get s n w S' h i hi := by
    have := hT.get _ _ _ _ _ _ h.2 k hk i (by rw [← h.1]; exact hi)
    simpa [MT.line] using this
  put s n w S' h i hi t := by
    obtain ⟨s', e, h'⟩ := hT.put _ _ _ _ _ _ h.2 k hk i (by rw [← h.1]; exact hi) t
    refine ⟨s', e, h.1, ?_⟩
    rw [update2_eq] at h'
    simpa using h'
  consec s n w S' h hc := by rw [h.1]; exact (hT.consec _ _ _ _ _ _ h.2 hc).2 k hk

theorem lrep_of {s : σ} {w : Nat → Nat → R} (h : Rep s r c w Ls S) (k : Nat) : LRep Rep r w Ls S k s c (w k) (S k) := ⟨rfl, by rw [Function.update_eq_self]; exact h⟩

variable {e : MExp R} {a : Nat → Nat → R}

theorem line_reads (he : e.Presents r c a) {q : Nat × List (Nat × R)} (hq : q ∈ e.lines) (LR : σ → Nat → (Nat → R) → List Nat → Prop) :
    (e.line q : VExpr σ R).Reads LR c (q.2.map (·.1)) (fun l _ => a q.1 l) where
  size := he.sizes.2
  begin_ s w S _ := by simp [MExp.line, VExpr.const, Function.comp_def]
  deref s w S s0 w0 S0 _ _ x hx := by
    simp only [MExp.line, VExpr.const, List.mem_map] at hx
    obtain ⟨p, hp, rfl⟩ := hx
    simp only [((he.inner q hq).2 p hp).2]
  at_ s w S _ i hi := he.at_ q.1 i (he.lt q hq) hi
  sorted := (he.inner q hq).1
  lt i hi := by
    obtain ⟨p, hp, rfl⟩ := List.mem_map.1 hi
    exact ((he.inner q hq).2 p hp).1
  skipped i hi hm _ := he.skipped q.1 i (he.lt q hq) hi (fun q' hq' e' => by
    have : q' = q := eq_of_key he.sorted hq' hq e'
    rw [this]; exact hm)
  packed hc := by rw [List.length_map]; exact (he.packed hc).2 q hq
  dense hc := by
    by_cases h0 : c = 0
    · subst h0
      cases hq2 : q.2 with
      | nil => rfl
      | cons p l => exact absurd ((he.inner q hq).2 p (by rw [hq2]; simp)).1 (by omega)
    · exact (he.dense hc h0).2 q hq

/-- What assigning line `k` does to it. -/
def hG (F : AssignF) (S : Nat → List Nat) (a : Nat → Nat → R) (k : Nat) (x : Nat → R) : Nat → R := upd (S k) (fun l y => F.apply y (a k l)) x
/-- What zeroing line `k` does to it. -/
def hZ (F : AssignF) (S : Nat → List Nat) (k : Nat) (x : Nat → R) : Nat → R := upd (S k) (fun _ y => F.apply y 0) x

theorem hG_zero {F : AssignF} (hz : ∀ l ∈ S k, a k l = 0) (x : Nat → R) : hG F S a k x = hZ F S k x :=
  upd_congr (fun _ => Iff.rfl) (fun l hl => by simp only [hz l hl])
theorem hG_id {F : AssignF} (hF : F.computed = true) (hz : ∀ l ∈ S k, a k l = 0) (x : Nat → R) : hG F S a k x = x := by
  funext l
  simp only [hG, upd]
  split
  · rw [hz l (by assumption), apply_zero F hF]
  · rfl

theorem zeroLine_ok (hT : T.Lawful Rep) {F : AssignF} {s : σ} {w : Nat → Nat → R} (h : Rep s r c w Ls S) (hk : k ∈ Ls) :
    ∃ s', VAssign.zeroLoop (T.line k) F (T.its s k) s = .ok s' ∧ Rep s' r c (Function.update w k (hZ F S k (w k))) Ls S := by
  obtain ⟨i1, i2, i3⟩ := hT.its _ _ _ _ _ _ h k hk
  obtain ⟨s', e', h'⟩ := VAssign.zeroLoop_ok (line_lawful hT hk w) (F := F) (S k) s (w k) (lrep_of h k) (sorted_nodup i2) (fun _ hi => hi)
  exact ⟨s', by rw [i1]; exact e', h'.2⟩

theorem zeroLines_ok (hT : T.Lawful Rep) {F : AssignF} : ∀ (L : List Nat) (s : σ) (w : Nat → Nat → R), Rep s r c w Ls S → L.Nodup → (∀ i ∈ L, i ∈ Ls) →
    ∃ s', zeroLines T F L s = .ok s' ∧ Rep s' r c (upd L (hZ F S) w) Ls S := by
  intro L
  induction L with
  | nil => intro s w h _ _; exact ⟨s, rfl, by rw [upd_nil]; exact h⟩
  | cons i L ih =>
    intro s w h hn hs
    rw [List.nodup_cons] at hn
    obtain ⟨s1, e1, h1⟩ := zeroLine_ok hT (F := F) h (hs i (by simp))
    obtain ⟨s2, e2, h2⟩ := ih s1 _ h1 hn.2 (fun j hj => hs j (by simp [hj]))
    exact ⟨s2, by simp only [zeroLines, e1, bind_ok, e2], by rw [upd_cons _ _ hn.1]; exact h2⟩

theorem zipLines_ok (hT : T.Lawful Rep) (he : e.Presents r c a) (hc : T.cat ≠ .sparse) (hce : e.cat ≠ .sparse) {F : AssignF} :
    ∀ (L : List Nat) (Q : List (Nat × List (Nat × R))) (s : σ) (w : Nat → Nat → R), Rep s r c w Ls S → L.Nodup → (∀ i ∈ L, i ∈ Ls) → (∀ q ∈ Q, q ∈ e.lines) →
    (∀ (k i : Nat) q, L[k]? = some i → Q[k]? = some q → q.1 = i) →
    ∃ s', zipLines T F e L Q s = .ok s' ∧ Rep s' r c (upd (L.take Q.length) (hG F S a) w) Ls S := by
  intro L
  induction L with
  | nil => intro Q s w h _ _ _ _; exact ⟨s, by simp [zipLines], by simpa [upd_nil] using h⟩
  | cons i L ih =>
    intro Q s w h hn hs hQ hal
    cases Q with
    | nil => exact ⟨s, by simp [zipLines], by simpa [upd_nil] using h⟩
    | cons q Q =>
      rw [List.nodup_cons] at hn
      have hqi : q.1 = i := hal 0 i q (by simp) (by simp)
      obtain ⟨s1, e1, h1⟩ := VAssign.packed_ok (line_lawful hT (hs i (by simp)) w) (line_reads he (hQ q (by simp)) _) hc hce false F (lrep_of h i)
      have h1' : Rep s1 r c (Function.update w i (hG F S a i (w i))) Ls S := by rw [← hqi] at h1 ⊢; exact h1.2
      obtain ⟨s2, e2, h2⟩ := ih Q s1 _ h1' hn.2 (fun j hj => hs j (by simp [hj])) (fun x hx => hQ x (by simp [hx])) (fun k i' q' x1 x2 => hal (k + 1) i' q' (by simpa using x1) (by simpa using x2))
      refine ⟨s2, by simp only [zipLines, e1, bind_ok, e2], ?_⟩
      rw [List.length_cons, List.take_succ_cons, upd_cons _ _ (fun hm => hn.1 (List.mem_of_mem_take hm))]
      exact h2

/-- The lines in (skip | common | rest) pieces: common part of the packed case. -/
theorem packed_pieces (hT : T.Lawful Rep) (he : e.Presents r c a) (hc : T.cat ≠ .sparse) (hce : e.cat ≠ .sparse) (F : AssignF) {b p skip d q : Nat}
    (hS : Ls = List.range' b p) (Q : List (Nat × List (Nat × R))) (hQe : ∀ x ∈ Q, x ∈ e.lines)
    (hQ : Q.map (·.1) = List.range' d q) (hskip : skip ≤ p) (hal : 0 < p - skip → 0 < q → b + skip = d)
    (hz : ∀ i ∈ Ls, ¬ (d ≤ i ∧ i < d + q) → ∀ l ∈ S i, a i l = 0)
    (hbelow : 0 < skip → 0 < q → b + skip ≤ d) {s : σ} {w : Nat → Nat → R} (h : Rep s r c w Ls S) :
    ∃ s', (do
      let s ← (if F.computed then .ok s else zeroLines T F (Ls.take skip) s : M σ)
      let s ← zipLines T F e (Ls.drop skip) Q s
      if F.computed then .ok s else zeroLines T F ((Ls.drop skip).drop Q.length) s : M σ) = .ok s' ∧
      Rep s' r c (upd Ls (hG F S a) w) Ls S := by
  have hql : Q.length = q := by have := congrArg List.length hQ; simpa using this
  have hnd := sorted_nodup (hT.lines _ _ _ _ _ _ h).2.1
  have hdrop : Ls.drop skip = List.range' (b + skip) (p - skip) := by rw [hS, List.drop_range']; simp
  have htake : Ls.take skip = List.range' b skip := by rw [hS, take_range1]; congr 1; omega
  have htake2 : (Ls.drop skip).take Q.length = List.range' (b + skip) (min q (p - skip)) := by rw [hdrop, take_range1, hql]
  have hdrop2 : (Ls.drop skip).drop Q.length = List.range' (b + skip + q) (p - skip - q) := by rw [hdrop, List.drop_range', hql]; simp
  have hmem : ∀ i, i ∈ Ls ↔ b ≤ i ∧ i < b + p := fun i => by rw [hS, List.mem_range'_1]
  have halign : ∀ (k i : Nat) x, (Ls.drop skip)[k]? = some i → Q[k]? = some x → x.1 = i := by
    intro k i x h1 h2
    have h3 : (Q.map (·.1))[k]? = some x.1 := by rw [List.getElem?_map, h2]; rfl
    rw [hQ] at h3
    rw [hdrop] at h1
    rw [List.getElem?_eq_some_iff] at h1 h3
    obtain ⟨l1, h1⟩ := h1
    obtain ⟨l3, h3⟩ := h3
    rw [List.length_range'] at l1 l3
    rw [List.getElem_range'] at h1 h3
    have := hal (by omega) (by omega)
    omega
  have hzip := fun s w h => zipLines_ok (S := S) hT he hc hce (F := F) (Ls.drop skip) Q s w h (hnd.sublist (List.drop_sublist _ _)) (fun i hi => List.mem_of_mem_drop hi) hQe halign
  rw [htake2] at hzip
  cases hF : F.computed with
  | true =>
    obtain ⟨s', e', h'⟩ := hzip s w h
    refine ⟨s', by simp only [if_true, bind_ok, e'], ?_⟩
    convert h' using 1
    funext i
    simp only [upd, hmem, List.mem_range'_1]
    by_cases hi : b ≤ i ∧ i < b + p
    · rw [if_pos hi]
      split
      · rfl
      · rename_i hn
        rw [hG_id hF (hz i ((hmem i).2 hi) (by omega))]
    · rw [if_neg hi, if_neg (by omega)]
  | false =>
    obtain ⟨s1, e1, h1⟩ := zeroLines_ok hT (F := F) (Ls.take skip) s w h (hnd.sublist (List.take_sublist _ _)) (fun i hi => List.mem_of_mem_take hi)
    obtain ⟨s2, e2, h2⟩ := hzip s1 _ h1
    obtain ⟨s3, e3, h3⟩ := zeroLines_ok hT (F := F) ((Ls.drop skip).drop Q.length) s2 _ h2
      ((hnd.sublist (List.drop_sublist _ _)).sublist (List.drop_sublist _ _)) (fun i hi => List.mem_of_mem_drop (List.mem_of_mem_drop hi))
    refine ⟨s3, by simp only [Bool.false_eq_true, if_false, bind_ok, e1, e2, e3], ?_⟩
    convert h3 using 1
    rw [hdrop2, htake]
    funext i
    simp only [upd, hmem, List.mem_range'_1]
    by_cases c1 : b ≤ i ∧ i < b + skip
    · rw [if_pos (by omega), if_neg (by omega : ¬ (b + skip + q ≤ i ∧ i < b + skip + q + (p - skip - q))), if_neg (by omega), if_pos c1,
        hG_zero (hz i ((hmem i).2 (by omega)) (by omega))]
    · by_cases c2 : b + skip ≤ i ∧ i < b + skip + min q (p - skip)
      · rw [if_pos (by omega), if_neg (by omega : ¬ (b + skip + q ≤ i ∧ i < b + skip + q + (p - skip - q))), if_pos c2, if_neg c1]
      · by_cases c3 : b + skip + q ≤ i ∧ i < b + skip + q + (p - skip - q)
        · rw [if_pos (by omega), if_pos c3, if_neg c2, if_neg c1, hG_zero (hz i ((hmem i).2 (by omega)) (by omega))]
        · rw [if_neg (by omega), if_neg c3, if_neg c2, if_neg c1]

/-- A line the expression's outer iterators do not visit is zero. -/
theorem zero_of_skipped (he : e.Presents r c a) {k l : Nat} (hk : k < r) (hl : l < c) (hm : k ∉ e.lines.map (·.1)) : a k l = 0 :=
  he.skipped k l hk hl (fun q hq e' => absurd (List.mem_map.2 ⟨q, hq, e'⟩) hm)

theorem packed_ok (hT : T.Lawful Rep) (he : e.Presents r c a) (hc : T.cat ≠ .sparse) (hce : e.cat ≠ .sparse) (dbg : Bool) (F : AssignF) {s : σ} {w : Nat → Nat → R}
    (h : Rep s r c w Ls S) : ∃ s', packed dbg T F e s = .ok s' ∧ Rep s' r c (upd Ls (hG F S a) w) Ls S := by
  obtain ⟨b, hS⟩ := (hT.consec _ _ _ _ _ _ h hc).1
  obtain ⟨d, hI⟩ := (he.packed hce).1
  obtain ⟨z1, z2⟩ := hT.sizes _ _ _ _ _ _ h
  obtain ⟨y1, y2, y3⟩ := hT.lines _ _ _ _ _ _ h
  have hits := fun i hi => (hT.its _ _ _ _ _ _ h i hi).2.2
  have hzero : ∀ i ∈ Ls, ¬ (d ≤ i ∧ i < d + e.lines.length) → ∀ l ∈ S i, a i l = 0 := fun i hi hn l hl =>
    zero_of_skipped he (y3 i hi) (hits i hi l hl) (by rw [hI, List.mem_range'_1]; exact hn)
  unfold packed
  simp only [z1, z2, he.sizes.1, he.sizes.2, check_True, bind_ok, y1]
  generalize hp : Ls.length = p at hS
  have hmem : ∀ x ∈ e.lines, x ∈ e.lines := fun _ hx => hx
  generalize hQd : e.lines = Q at hI hzero
  generalize hqn : Q.length = q at *
  have hQe : ∀ x ∈ Q, x ∈ e.lines := fun x hx => by rw [hQd]; exact hx
  cases hLs : Ls with
  | nil =>
    have : p = 0 := by rw [← hp, hLs]; rfl
    subst this
    have := packed_pieces hT he hc hce F (skip := 0) hS Q hQe hI (by omega) (by omega) hzero (by omega) h
    simpa [hLs, skipE, skipT] using this
  | cons i0 L' =>
  cases Q with
  | nil =>
    have : q = 0 := by simpa using hqn.symm
    subst this
    have := packed_pieces hT he hc hce F (skip := 0) hS [] hQe hI (by omega) (by omega) hzero (by omega) h
    simpa [hLs, skipE, skipT] using this
  | cons q0 Q' =>
    have hp0 : 0 < p := by rw [← hp, hLs]; simp
    have hq0 : 0 < q := by rw [← hqn]; simp
    have ha0 : i0 = b := by
      obtain ⟨p', rfl⟩ : ∃ p', p = p' + 1 := ⟨p - 1, by omega⟩
      rw [List.range'_succ, hLs] at hS; exact (List.cons.inj hS).1
    have hb0 : q0.1 = d := by
      obtain ⟨q', rfl⟩ : ∃ q', q = q' + 1 := ⟨q - 1, by omega⟩
      rw [List.range'_succ, List.map_cons] at hI; exact (List.cons.inj hI).1
    subst ha0 hb0
    have hadv : ∀ x y k : Nat, VAssign.advance x y k = min (x - y) k := fun x y k => by simp only [VAssign.advance]; omega
    rw [← hLs]
    have hsk : skipE Ls (q0 :: Q') = (q0 :: Q').drop (min (i0 - q0.1) q) := by rw [hLs]; simp only [skipE, hadv, hqn]
    rw [hsk]
    set k1 := min (i0 - q0.1) q with hk1
    have hQ' : ((q0 :: Q').drop k1).map (·.1) = List.range' (q0.1 + k1) (q - k1) := by rw [List.map_drop, hI, List.drop_range']; simp
    have hQe' : ∀ x ∈ (q0 :: Q').drop k1, x ∈ e.lines := fun x hx => hQe x (List.mem_of_mem_drop hx)
    have hzero' : ∀ i ∈ Ls, ¬ (q0.1 + k1 ≤ i ∧ i < q0.1 + k1 + (q - k1)) → ∀ l ∈ S i, a i l = 0 := by
      intro i hi hn
      have : i0 ≤ i := by rw [hS, List.mem_range'_1] at hi; exact hi.1
      exact hzero i hi (by omega)
    cases hQd' : (q0 :: Q').drop k1 with
    | nil =>
      rw [hQd'] at hQ'
      have hq1 : q - k1 = 0 := by simpa using (congrArg List.length hQ').symm
      rw [hq1] at hQ' hzero'
      have := packed_pieces hT he hc hce F (skip := 0) hS [] (by simp) hQ' (by omega) (by omega) hzero' (by omega) h
      have hskt : skipT Ls ([] : List (Nat × List (Nat × R))) = 0 := by rw [hLs]; rfl
      rw [hskt]; exact this
    | cons q1 Q1 =>
      rw [hQd'] at hQ' hQe'
      have hq1 : 0 < q - k1 := by
        rcases Nat.eq_zero_or_pos (q - k1) with h0 | h0
        · rw [h0] at hQ'; simp at hQ'
        · exact h0
      have hq1' : q1.1 = q0.1 + k1 := by
        obtain ⟨q', hq'⟩ : ∃ q', q - k1 = q' + 1 := ⟨q - k1 - 1, by omega⟩
        rw [hq', List.range'_succ, List.map_cons] at hQ'; exact (List.cons.inj hQ').1
      have hskt : skipT Ls (q1 :: Q1) = min (q1.1 - i0) p := by
        have hp' := hp
        rw [hLs] at hp' ⊢; simp only [skipT, hadv, hp']
      rw [hskt]
      exact packed_pieces hT he hc hce F (skip := min (q1.1 - i0) p) hS (q1 :: Q1) hQe' hQ' (by omega)
        (by rw [hq1']; omega) hzero' (by rw [hq1']; omega) h

/-! ## Dense -/

theorem line_full (hT : T.Lawful Rep) (hf : T.Full Rep) (hk : k ∈ Ls) (w0 : Nat → Nat → R) : (T.line k).Full (LRep Rep r w0 Ls S k) where
  all s n w S' h := by rw [h.1]; exact (hf.all _ _ _ _ _ _ h.2).2 k hk
  ref s n w S' h i hi t := by
    obtain ⟨s', e, h'⟩ := hf.ref _ _ _ _ _ _ h.2 k i ((hT.lines _ _ _ _ _ _ h.2).2.2 k hk) hi t
    refine ⟨s', e, h.1, ?_⟩
    rw [update2_eq] at h'
    simpa using h'

theorem iterLines_ok (hT : T.Lawful Rep) (hf : T.Full Rep) (he : e.Presents r c a) (hce : e.cat = .dense) (hc0 : c ≠ 0) (dbg : Bool) {F : AssignF} :
    ∀ (L : List Nat) (Q : List (Nat × List (Nat × R))) (s : σ) (w : Nat → Nat → R), Rep s r c w Ls S → L.Nodup → (∀ i ∈ L, i ∈ Ls) → (∀ q ∈ Q, q ∈ e.lines) →
    (∀ (k i : Nat) q, L[k]? = some i → Q[k]? = some q → q.1 = i) →
    ∃ s', iterLines dbg T F c L Q s = .ok s' ∧ Rep s' r c (upd (L.take Q.length) (hG F S a) w) Ls S := by
  intro L
  induction L with
  | nil => intro Q s w h _ _ _ _; exact ⟨s, by simp [iterLines], by simpa [upd_nil] using h⟩
  | cons i L ih =>
    intro Q s w h hn hs hQ hal
    cases Q with
    | nil => exact ⟨s, by simp [iterLines], by simpa [upd_nil] using h⟩
    | cons q Q =>
      rw [List.nodup_cons] at hn
      have hqi : q.1 = i := hal 0 i q (by simp) (by simp)
      have hi : i ∈ Ls := hs i (by simp)
      have hSi := (hf.all _ _ _ _ _ _ h).2 i hi
      have hq2 := (he.dense hce hc0).2 q (hQ q (by simp))
      have hql : q.2.length = c := by have := congrArg List.length hq2; simpa using this
      have hil : (T.its s i).length = c := by rw [(hT.its _ _ _ _ _ _ h i hi).1, hSi, List.length_range]
      obtain ⟨s1, e1, h1⟩ := VAssign.iterating_ok (line_lawful hT hi w) (line_full hT hf hi w) (line_reads he (hQ q (by simp)) _) hq2 dbg F (lrep_of h i)
      have h1' : Rep s1 r c (Function.update w i (hG F S a i (w i))) Ls S := by
        have := h1.2
        rw [hqi] at this
        simp only [hG, hSi]; exact this
      have hz : (T.line i).its s = T.its s i := rfl
      have hb : ((e.line q : VExpr σ R).begin_ s).length = c := by simp [MExp.line, VExpr.const, hql]
      simp only [VAssign.iterating, same, (line_lawful hT hi w).size s c _ _ (lrep_of h i), (line_reads he (hQ q (by simp)) (LRep Rep r w Ls S i)).size, check_True,
        bind_ok, Nat.min_self, pure_eq_ok, hz, check_true hil, check_true hb] at e1
      rw [if_neg (by omega)] at e1
      obtain ⟨s2, e2, h2⟩ := ih Q s1 _ h1' hn.2 (fun j hj => hs j (by simp [hj])) (fun x hx => hQ x (by simp [hx])) (fun k i' q' x1 x2 => hal (k + 1) i' q' (by simpa using x1) (by simpa using x2))
      refine ⟨s2, ?_, ?_⟩
      · simp only [iterLines, check_true hil, check_true hql, bind_ok]
        rw [if_neg (by omega)]
        have : (e.line q : VExpr σ R).begin_ s = q.2.map fun p => (p.1, fun _ => .ok p.2) := rfl
        rw [this, ← List.map_take] at e1
        rw [e1, bind_ok, e2]
      · rw [List.length_cons, List.take_succ_cons, upd_cons _ _ (fun hm => hn.1 (List.mem_of_mem_take hm))]
        exact h2

/-- Every element of the target changed. -/
def full (F : AssignF) (r c : Nat) (a w : Nat → Nat → R) : Nat → Nat → R := fun k l => if k < r ∧ l < c then F.apply (w k l) (a k l) else w k l

theorem indexing_at (hT : T.Lawful Rep) (hf : T.Full Rep) (he1 : e.sizeM = r ∧ e.sizem = c) (he2 : ∀ k l, k < r → l < c → e.at_ k l = .ok (a k l)) (dbg : Bool) (F : AssignF)
    {s : σ} {w : Nat → Nat → R} (h : Rep s r c w Ls S) : ∃ s', indexing dbg T F e s = .ok s' ∧ Rep s' r c (full F r c a w) Ls S := by
  obtain ⟨z1, z2⟩ := hT.sizes _ _ _ _ _ _ h
  simp only [indexing, same, z1, z2, he1.1, he1.2, check_True, bind_ok, Nat.min_self, pure_eq_ok]
  have key : ∀ k l, k < r → l < c → ∀ s w, Rep s r c w Ls S → T.get s k l = .ok (w k l) := by
    intro k l hk hl s w h
    have hL := (hf.all _ _ _ _ _ _ h).1 (by omega)
    have hkL : k ∈ Ls := by rw [hL]; simpa using hk
    refine hT.get _ _ _ _ _ _ h k hkL l ?_
    rw [(hf.all _ _ _ _ _ _ h).2 k hkL]; simpa using hl
  refine loop_inv (fun k s => Rep s r c (fun i j => if i < k ∧ j < c then F.apply (w i j) (a i j) else w i j) Ls S) (by simpa using h) ?_
  intro k t hk ht
  obtain ⟨s', e', h'⟩ := loop_inv (f := fun j s => (do
    let y ← e.at_ k j
    let x ← T.get s k j
    T.ref s k j (F.apply x y) : M σ)) (n := c) (s := t)
    (fun l s => Rep s r c (fun i j => if (i < k ∧ j < c) ∨ (i = k ∧ j < l) then F.apply (w i j) (a i j) else w i j) Ls S)
    (by simpa using ht) (by
      intro l t hl ht
      obtain ⟨s', e', h'⟩ := hf.ref _ _ _ _ _ _ ht k l hk hl (F.apply (w k l) (a k l))
      refine ⟨s', ?_, ?_⟩
      · simp only [he2 k l hk hl, bind_ok, key k l hk hl t _ ht]
        rw [if_neg (by omega)]; exact e'
      · convert h' using 1
        funext i j
        simp only [update2]
        by_cases hij : i = k ∧ j = l
        · rw [if_pos hij, if_pos (by omega)]; rw [hij.1, hij.2]
        · rw [if_neg hij]
          by_cases h1 : (i < k ∧ j < c) ∨ (i = k ∧ j < l)
          · rw [if_pos h1, if_pos (by omega)]
          · rw [if_neg h1, if_neg (by omega)])
  refine ⟨s', e', ?_⟩
  convert h' using 1
  funext i j
  by_cases h1 : i < k + 1 ∧ j < c
  · rw [if_pos h1, if_pos (by omega)]
  · rw [if_neg h1, if_neg (by omega)]

theorem indexing_ok (hT : T.Lawful Rep) (hf : T.Full Rep) (he : e.Presents r c a) (dbg : Bool) (F : AssignF) {s : σ} {w : Nat → Nat → R}
    (h : Rep s r c w Ls S) : ∃ s', indexing dbg T F e s = .ok s' ∧ Rep s' r c (full F r c a w) Ls S := indexing_at hT hf he.sizes he.at_ dbg F h

theorem iterating_ok (hT : T.Lawful Rep) (hf : T.Full Rep) (he : e.Presents r c a) (hce : e.cat = .dense) (dbg : Bool) (F : AssignF) {s : σ} {w : Nat → Nat → R}
    (h : Rep s r c w Ls S) : ∃ s', iterating dbg T F e s = .ok s' ∧ Rep s' r c (full F r c a w) Ls S := by
  obtain ⟨z1, z2⟩ := hT.sizes _ _ _ _ _ _ h
  simp only [iterating, same, z1, z2, he.sizes.1, he.sizes.2, check_True, bind_ok, Nat.min_self, pure_eq_ok]
  by_cases hc0 : c = 0
  · refine ⟨s, by simp [hc0, check_true], ?_⟩
    convert h using 1
    funext k l
    simp [full, hc0]
  · have hLs := (hf.all _ _ _ _ _ _ h).1 hc0
    have hQ := (he.dense hce hc0).1
    have l1 : (T.lines s).length = r := by rw [(hT.lines _ _ _ _ _ _ h).1, hLs, List.length_range]
    have l2 : e.lines.length = r := by have := congrArg List.length hQ; simpa using this
    rw [check_true (Or.inr l1), bind_ok, check_true (Or.inr l2), bind_ok, if_neg hc0, if_neg (by omega)]
    rw [(hT.lines _ _ _ _ _ _ h).1] at l1 ⊢
    rw [List.take_of_length_le (by omega), List.take_of_length_le (by omega)]
    obtain ⟨s', e', h'⟩ := iterLines_ok (F := F) hT hf he hce hc0 dbg Ls e.lines s w h (by rw [hLs]; exact List.nodup_range) (fun _ h => h) (fun _ h => h) (by
      intro k i q h1 h2
      have h3 : (e.lines.map (·.1))[k]? = some q.1 := by rw [List.getElem?_map, h2]; rfl
      rw [hQ, ← hLs, h1] at h3
      exact (Option.some.inj h3).symm)
    refine ⟨s', e', ?_⟩
    rw [List.take_of_length_le (by omega)] at h'
    convert h' using 1
    funext k l
    simp only [full, upd, hLs, List.mem_range]
    by_cases hk : k < r
    · have := (hf.all _ _ _ _ _ _ h).2 k (by rw [hLs]; simpa using hk)
      simp only [hk, true_and, if_true, hG, upd, this, List.mem_range]
    · simp [hk]

theorem dense_ok (hT : T.Lawful Rep) (hf : T.Full Rep) (he : e.Presents r c a) (hce : e.cat = .dense) (dbg : Bool) (mode : ProdFn.Mode) (F : AssignF) {s : σ}
    {w : Nat → Nat → R} (h : Rep s r c w Ls S) : ∃ s', dense dbg mode T F e s = .ok s' ∧ Rep s' r c (full F r c a w) Ls S := by
  cases mode with
  | indexing => exact indexing_ok hT hf he dbg F h
  | iterating => exact iterating_ok hT hf he hce dbg F h
  | threshold n =>
    obtain ⟨z1, z2⟩ := hT.sizes _ _ _ _ _ _ h
    simp only [dense, same, z1, z2, he.sizes.1, he.sizes.2, check_True, bind_ok, Nat.min_self, pure_eq_ok]
    split
    · exact iterating_ok hT hf he hce dbg F h
    · exact indexing_ok hT hf he dbg F h

/-! ## Sparse -/

/-- Position (k, l) is visited by the target's iterators. -/
def Vis (Ls : List Nat) (S : Nat → List Nat) (k l : Nat) : Prop := k ∈ Ls ∧ l ∈ S k

theorem insertLine_ok [DecidableEq R] (hi : T.Inserts Rep) (g : Nat → R) (hk : k < r) : ∀ (Q : List (Nat × (σ → M R))) (s : σ) (w : Nat → Nat → R) (Ls : List Nat)
    (S : Nat → List Nat), Rep s r c w Ls S → (Q.map (·.1)).Nodup → (∀ l ∈ Q.map (·.1), l < c ∧ w k l = 0 ∧ (¬ Vis Ls S k l ∨ T.Full Rep)) →
    (∀ q ∈ Q, ∀ s, q.2 s = .ok (g q.1)) →
    ∃ s' Ls' S', VAssign.insertLoop (T.line k) Q s = .ok s' ∧ Rep s' r c (fun i j => if i = k ∧ j ∈ Q.map (·.1) then g j else w i j) Ls' S' ∧
      ∀ i j, i < r → j < c → (Vis Ls' S' i j → (i = k ∧ j ∈ Q.map (·.1)) ∨ Vis Ls S i j) := by
  intro Q
  induction Q with
  | nil => intro s w Ls S h _ _ _; exact ⟨s, Ls, S, rfl, by simpa using h, fun i j _ _ hv => .inr hv⟩
  | cons q Q ih =>
    intro s w Ls S h hn hb hd
    rw [List.map_cons, List.nodup_cons] at hn
    obtain ⟨b1, b2, b3⟩ := hb q.1 (by simp)
    have hstep : ∃ s1 Ls1 S1, (if g q.1 ≠ 0 then (T.line k).insert s q.1 (g q.1) else .ok s : M σ) = .ok s1 ∧
        Rep s1 r c (update2 w k q.1 (g q.1)) Ls1 S1 ∧ ∀ i j, i < r → j < c → Vis Ls1 S1 i j → (i = k ∧ j = q.1) ∨ Vis Ls S i j := by
      by_cases ht : g q.1 = 0
      · refine ⟨s, Ls, S, by simp [ht], ?_, fun _ _ _ _ hv => .inr hv⟩
        convert h using 1
        funext i j
        simp only [update2]
        split
        · rename_i hij; rw [hij.1, hij.2, b2, ht]
        · rfl
      · obtain ⟨s1, Ls1, S1, e1, h1, m1⟩ := hi.insert _ _ _ _ _ _ h k q.1 hk b1 b3 (g q.1)
        exact ⟨s1, Ls1, S1, by rw [if_pos ht]; exact e1, h1, fun i j hi hj hv => (m1 i j hi hj).1 hv⟩
    obtain ⟨s1, Ls1, S1, e1, h1, m1⟩ := hstep
    obtain ⟨s2, Ls2, S2, e2, h2, m2⟩ := ih s1 _ Ls1 S1 h1 hn.2 (fun l hl => by
      obtain ⟨d1, d2, d3⟩ := hb l (by simp [List.mem_map] at hl ⊢; exact .inr hl)
      have hne : l ≠ q.1 := fun c => hn.1 (by rw [← c]; exact hl)
      refine ⟨d1, by simp [update2, hne, d2], d3.imp (fun d3 hv => ?_) id⟩
      rcases m1 k l hk d1 hv with c | c
      · exact hne c.2
      · exact d3 c) (fun x hx => hd x (by simp [hx]))
    refine ⟨s2, Ls2, S2, ?_, ?_, ?_⟩
    · simp only [VAssign.insertLoop, hd q (by simp) s, bind_ok, e1, e2]
    · convert h2 using 1
      funext i j
      simp only [update2, List.map_cons, List.mem_cons]
      by_cases hij : i = k ∧ j ∈ Q.map (·.1)
      · rw [if_pos hij, if_pos ⟨hij.1, .inr hij.2⟩]
      · rw [if_neg hij]
        by_cases h3 : i = k ∧ j = q.1
        · rw [if_pos h3, if_pos ⟨h3.1, .inl h3.2⟩, h3.2]
        · rw [if_neg h3, if_neg (by tauto)]
    · intro i j hi' hj hv
      simp only [List.map_cons, List.mem_cons]
      rcases m2 i j hi' hj hv with c | c
      · exact .inl ⟨c.1, .inr c.2⟩
      · rcases m1 i j hi' hj c with c | c
        · exact .inl ⟨c.1, .inl c.2⟩
        · exact .inr c

theorem insertLines_ok [DecidableEq R] (hi : T.Inserts Rep) (he : e.Presents r c a) : ∀ (Q : List (Nat × List (Nat × R))) (s : σ) (w : Nat → Nat → R) (Ls : List Nat)
    (S : Nat → List Nat), Rep s r c w Ls S → (∀ q ∈ Q, q ∈ e.lines) → (Q.map (·.1)).Nodup →
    (∀ k l, k ∈ Q.map (·.1) → l < c → w k l = 0 ∧ (¬ Vis Ls S k l ∨ T.Full Rep)) →
    ∃ s' Ls' S', insertLines T e Q s = .ok s' ∧ Rep s' r c (fun i j => if i ∈ Q.map (·.1) ∧ j < c then a i j else w i j) Ls' S' := by
  intro Q
  induction Q with
  | nil => intro s w Ls S h _ _ _; exact ⟨s, Ls, S, rfl, by simpa using h⟩
  | cons q Q ih =>
    intro s w Ls S h hQ hn hb
    rw [List.map_cons, List.nodup_cons] at hn
    have hq := hQ q (by simp)
    have hr := line_reads (σ := σ) he hq (fun _ _ _ _ => True)
    have hbeg : ((e.line q : VExpr σ R).begin_ s).map (·.1) = q.2.map (·.1) := hr.begin_ s (fun _ => 0) [] trivial
    obtain ⟨s1, Ls1, S1, e1, h1, m1⟩ := insertLine_ok (k := q.1) hi (a q.1) (he.lt q hq) ((e.line q : VExpr σ R).begin_ s) s w Ls S h
      (by rw [hbeg]; exact sorted_nodup hr.sorted)
      (fun l hl => by
        rw [hbeg] at hl
        have hlc := hr.lt l hl
        exact ⟨hlc, hb q.1 l (by simp) hlc⟩)
      (fun x hx s' => hr.deref s' (fun _ => 0) [] s (fun _ => 0) [] trivial trivial x hx)
    rw [hbeg] at h1 m1
    obtain ⟨s2, Ls2, S2, e2, h2⟩ := ih s1 _ Ls1 S1 h1 (fun x hx => hQ x (by simp [hx])) hn.2 (fun i l hi' hl => by
      obtain ⟨d1, d2⟩ := hb i l (by simp only [List.map_cons, List.mem_cons]; exact .inr hi') hl
      have hne : i ≠ q.1 := fun c => hn.1 (by rw [← c]; exact hi')
      refine ⟨by simp [hne, d1], d2.imp (fun d2 hv => ?_) id⟩
      obtain ⟨x, hx, hxi⟩ := List.mem_map.1 hi'
      rcases m1 i l (by rw [← hxi]; exact he.lt x (hQ x (by simp [hx]))) hl hv with c | c
      · exact hne c.1
      · exact d2 c)
    refine ⟨s2, Ls2, S2, by simp only [insertLines, e1, bind_ok, e2], ?_⟩
    convert h2 using 1
    funext i j
    simp only [List.map_cons, List.mem_cons]
    by_cases hi' : i ∈ Q.map (·.1) ∧ j < c
    · rw [if_pos hi', if_pos ⟨.inr hi'.1, hi'.2⟩]
    · rw [if_neg hi']
      by_cases hiq : i = q.1
      · subst hiq
        by_cases hj : j < c
        · rw [if_pos ⟨.inl rfl, hj⟩]
          by_cases hm : j ∈ q.2.map (·.1)
          · rw [if_pos ⟨rfl, hm⟩]
          · rw [if_neg (fun c => hm c.2), (hb q.1 j (by simp) hj).1]
            exact hr.skipped j hj hm 0
        · rw [if_neg (fun c => hj c.2), if_neg (fun c => hj (hr.lt j c.2))]
      · rw [if_neg (by tauto), if_neg (fun c => hiq c.1)]

theorem sparse_ok [DecidableEq R] (hT : T.Lawful Rep) (hi : T.Inserts Rep) (he : e.Presents r c a) (dbg : Bool) {s : σ} {w : Nat → Nat → R}
    (h : Rep s r c w Ls S) : ∃ s' w' Ls' S', sparse dbg T e s = .ok s' ∧ Rep s' r c w' Ls' S' ∧ ∀ k l, k < r → l < c → w' k l = a k l := by
  obtain ⟨s1, Ls1, S1, e1, h1, hS1⟩ := hi.clear _ _ _ _ _ _ h
  obtain ⟨z1, z2⟩ := hT.sizes _ _ _ _ _ _ h
  obtain ⟨s2, Ls2, S2, e2, h2⟩ := insertLines_ok hi he e.lines s1 _ Ls1 S1 h1 (fun _ hq => hq) (sorted_nodup he.sorted) (fun k l hk hl => by
    obtain ⟨q, hq, rfl⟩ := List.mem_map.1 hk
    exact ⟨rfl, hS1.imp (fun hs => hs q.1 l (he.lt q hq) hl) id⟩)
  refine ⟨s2, _, Ls2, S2, by simp only [sparse, z1, z2, he.sizes.1, he.sizes.2, check_True, bind_ok, e1, e2], h2, fun k l hk hl => ?_⟩
  by_cases hm : k ∈ e.lines.map (·.1)
  · simp only [hm, hl, true_and, if_true]
  · simp only [hm, false_and, if_false]
    exact (zero_of_skipped he hk hl hm).symm

/-! ## Sparse proxy -/

theorem tailLine_ok [DecidableEq R] (he : e.Presents r c a) (s : σ) {q : Nat × List (Nat × R)} (hq : q ∈ e.lines) :
    ∃ K, tailLine e s q = .ok K ∧ ∀ k l, (k, l) ∈ K ↔ k = q.1 ∧ l ∈ q.2.map (·.1) ∧ a k l ≠ 0 := by
  have hr := line_reads (σ := σ) he hq (fun _ _ _ _ => True)
  obtain ⟨K, e1, h1⟩ := VAssign.missingTail_ok (s := s) (val := a q.1) ((e.line q : VExpr σ R).begin_ s)
    (fun x hx => hr.deref s (fun _ => 0) [] s (fun _ => 0) [] trivial trivial x hx)
  rw [hr.begin_ s (fun _ => 0) [] trivial] at h1
  refine ⟨K.map fun j => (q.1, j), by simp only [tailLine, e1, bind_ok], fun k l => ?_⟩
  simp only [List.mem_map, Prod.mk.injEq]
  constructor
  · rintro ⟨j, hj, rfl, rfl⟩
    obtain ⟨c1, c2⟩ := (h1 j).1 hj
    exact ⟨rfl, by simpa using c1, c2⟩
  · rintro ⟨rfl, c1, c2⟩
    exact ⟨l, (h1 l).2 ⟨by simpa using c1, c2⟩, rfl, rfl⟩

theorem tailLines_ok [DecidableEq R] (he : e.Presents r c a) (s : σ) : ∀ (Q : List (Nat × List (Nat × R))), (∀ q ∈ Q, q ∈ e.lines) →
    ∃ K, tailLines e s Q = .ok K ∧ ∀ k l, (k, l) ∈ K ↔ (∃ q ∈ Q, q.1 = k ∧ l ∈ q.2.map (·.1)) ∧ a k l ≠ 0 := by
  intro Q
  induction Q with
  | nil => intro _; exact ⟨[], rfl, by simp⟩
  | cons q Q ih =>
    intro hQ
    obtain ⟨K1, e1, h1⟩ := tailLine_ok he s (hQ q (by simp))
    obtain ⟨K2, e2, h2⟩ := ih fun x hx => hQ x (by simp [hx])
    refine ⟨K1 ++ K2, by simp only [tailLines, e1, e2, bind_ok], fun k l => ?_⟩
    rw [List.mem_append, h1, h2]
    constructor
    · rintro (⟨c1, c2, c3⟩ | ⟨⟨q', c0, c1, c2⟩, c3⟩)
      · exact ⟨⟨q, by simp, c1.symm, c2⟩, c3⟩
      · exact ⟨⟨q', by simp [c0], c1, c2⟩, c3⟩
    · rintro ⟨⟨q', c0, c1, c2⟩, c3⟩
      rw [List.mem_cons] at c0
      rcases c0 with rfl | c0
      · exact .inl ⟨c1.symm, c2, c3⟩
      · exact .inr ⟨⟨q', c0, c1, c2⟩, c3⟩

theorem missing_ok [DecidableEq R] (hT : T.Lawful Rep) (he : e.Presents r c a) {s : σ} {w : Nat → Nat → R} (h : Rep s r c w Ls S) :
    ∀ (fuel : Nat) (L : List Nat) (Q : List (Nat × List (Nat × R))), L.length + Q.length < fuel → L.Pairwise (· < ·) → Con T.cat L → (∀ i ∈ L, i ∈ Ls) →
    (Q.map (·.1)).Pairwise (· < ·) → (∀ q ∈ Q, q ∈ e.lines) →
    ∃ K, missing T e s fuel L Q = .ok K ∧ ∀ k l, (k, l) ∈ K ↔ (∃ q ∈ Q, q.1 = k ∧ l ∈ q.2.map (·.1)) ∧ ¬ Vis L S k l ∧ a k l ≠ 0 := by
  intro fuel
  induction fuel with
  | zero => intro L Q hf; omega
  | succ f ih =>
    intro L Q hf hL hc hLs hQ hQe
    cases L with
    | nil =>
      obtain ⟨K, e1, hK⟩ := tailLines_ok he s Q hQe
      exact ⟨K, by simp only [missing, e1], by simpa [Vis] using hK⟩
    | cons i l =>
    cases Q with
    | nil => exact ⟨[], by simp [missing, tailLines], by simp⟩
    | cons q qs =>
      simp only [List.length_cons] at hf
      have hL' := hL
      have hQ' := hQ
      rw [List.pairwise_cons] at hL'
      rw [List.map_cons, List.pairwise_cons] at hQ'
      have hlt : ∀ q' ∈ qs, q.1 < q'.1 := fun q' hq' => hQ'.1 _ (List.mem_map.2 ⟨q', hq', rfl⟩)
      by_cases h1 : i = q.1
      · obtain ⟨K, e1, hK⟩ := ih l qs (by omega) hL'.2 (hc.drop 1) (fun k hk => hLs k (by simp [hk])) hQ'.2 (fun x hx => hQe x (by simp [hx]))
        obtain ⟨i1, i2, i3⟩ := hT.its _ _ _ _ _ _ h i (hLs i (by simp))
        have hr := line_reads (σ := σ) he (hQe q (by simp)) (fun _ _ _ _ => True)
        have hb := hr.begin_ s (fun _ => 0) [] trivial
        have hbl : ((e.line q : VExpr σ R).begin_ s).length = q.2.length := by simpa using congrArg List.length hb
        obtain ⟨K1, e2, hK1⟩ := VAssign.missing_ok (c := T.cat) (s := s) (val := a q.1) ((S i).length + q.2.length + 1) (S i) ((e.line q : VExpr σ R).begin_ s)
          (by omega) i2 (fun hcc => (hT.consec _ _ _ _ _ _ h hcc).2 i (hLs i (by simp))) (by rw [hb]; exact hr.sorted)
          (fun x hx => hr.deref s (fun _ => 0) [] s (fun _ => 0) [] trivial trivial x hx)
        rw [hb] at hK1
        refine ⟨(K1.map fun j => (q.1, j)) ++ K, by simp only [missing, if_pos h1, i1, e2, e1, bind_ok], fun k l' => ?_⟩
        rw [List.mem_append, hK]
        simp only [List.mem_map (l := K1), Prod.mk.injEq, Vis]
        constructor
        · rintro (⟨j, hj, rfl, rfl⟩ | ⟨⟨q', c0, c1, c2⟩, c3, c4⟩)
          · obtain ⟨d1, d2, d3⟩ := (hK1 j).1 hj
            refine ⟨⟨q, by simp, rfl, d1⟩, fun hv => d2 ?_, d3⟩
            rw [h1]; exact hv.2
          · refine ⟨⟨q', by simp [c0], c1, c2⟩, fun hv => c3 ⟨?_, hv.2⟩, c4⟩
            have := hlt q' c0
            rcases List.mem_cons.1 hv.1 with hv | hv
            · omega
            · exact hv
        · rintro ⟨⟨q', c0, c1, c2⟩, c3, c4⟩
          rcases List.mem_cons.1 c0 with rfl | c0
          · subst c1
            refine .inl ⟨l', (hK1 l').2 ⟨c2, fun hm => c3 ⟨by simp [h1], ?_⟩, c4⟩, rfl, rfl⟩
            rw [← h1]; exact hm
          · exact .inr ⟨⟨q', c0, c1, c2⟩, fun hv => c3 ⟨List.mem_cons_of_mem _ hv.1, hv.2⟩, c4⟩
      · by_cases h2 : i < q.1
        · obtain ⟨m, hm, em, _, hb⟩ := incr_ok (d := q.1 - i) hc (by omega)
          obtain ⟨K, e1, hK⟩ := ih ((i :: l).drop m) (q :: qs) (by simp only [List.length_drop, List.length_cons]; omega)
            (hL.sublist (List.drop_sublist _ _)) (hc.drop m) (fun k hk => hLs k (List.mem_of_mem_drop hk)) hQ hQe
          refine ⟨K, by simp only [missing, if_neg h1, if_pos h2, em, e1], fun k l' => ?_⟩
          rw [hK]
          constructor
          · rintro ⟨⟨q', c0, c1, c2⟩, c3, c4⟩
            refine ⟨⟨q', c0, c1, c2⟩, fun hv => c3 ⟨?_, hv.2⟩, c4⟩
            have hk := hv.1
            rw [← List.take_append_drop m (i :: l), List.mem_append] at hk
            rcases hk with hk | hk
            · have := hb k hk
              rcases List.mem_cons.1 c0 with rfl | c0
              · omega
              · have := hlt q' c0; omega
            · exact hk
          · rintro ⟨c0, c3, c4⟩
            exact ⟨c0, fun hv => c3 ⟨List.mem_of_mem_drop hv.1, hv.2⟩, c4⟩
        · obtain ⟨K, e1, hK⟩ := ih (i :: l) qs (by simp only [List.length_cons]; omega) hL hc hLs hQ'.2 (fun x hx => hQe x (by simp [hx]))
          obtain ⟨K1, e2, hK1⟩ := tailLine_ok he s (hQe q (by simp))
          refine ⟨K1 ++ K, by simp only [missing, if_neg h1, if_neg h2, e1, e2, bind_ok], fun k l' => ?_⟩
          rw [List.mem_append, hK, hK1]
          have hqn : q.1 ∉ i :: l := by
            rw [List.mem_cons]; rintro (c | c)
            · exact h1 c.symm
            · have := hL'.1 _ c; omega
          constructor
          · rintro (⟨c1, c2, c3⟩ | ⟨⟨q', c0, c1, c2⟩, c3⟩)
            · exact ⟨⟨q, by simp, c1.symm, c2⟩, fun hv => hqn (by rw [← c1]; exact hv.1), c3⟩
            · exact ⟨⟨q', by simp [c0], c1, c2⟩, c3⟩
          · rintro ⟨⟨q', c0, c1, c2⟩, c3, c4⟩
            rcases List.mem_cons.1 c0 with rfl | c0
            · exact .inl ⟨c1.symm, c2, c4⟩
            · exact .inr ⟨⟨q', c0, c1, c2⟩, c3, c4⟩

theorem refLoop_ok (hg : T.Grows Rep) : ∀ (K : List (Nat × Nat)) (s : σ) (w : Nat → Nat → R) (Ls : List Nat) (S : Nat → List Nat), Rep s r c w Ls S →
    (∀ p ∈ K, p.1 < r ∧ p.2 < c ∧ w p.1 p.2 = 0) →
    ∃ s' Ls' S', K.foldlM (fun s p => T.ref s p.1 p.2 0) s = .ok s' ∧ Rep s' r c w Ls' S' ∧
      ∀ k l, k < r → l < c → (Vis Ls' S' k l ↔ (k, l) ∈ K ∨ Vis Ls S k l) := by
  intro K
  induction K with
  | nil => intro s w Ls S h _; exact ⟨s, Ls, S, rfl, h, by simp⟩
  | cons p K ih =>
    intro s w Ls S h hk
    obtain ⟨a1, a2, a3⟩ := hk p (by simp)
    obtain ⟨s1, Ls1, S1, e1, h1, m1⟩ := hg _ _ _ _ _ _ h p.1 p.2 a1 a2 0
    have hw : update2 w p.1 p.2 0 = w := by
      funext i j; simp only [update2]; split
      · rename_i hij; rw [hij.1, hij.2, a3]
      · rfl
    rw [hw] at h1
    obtain ⟨s2, Ls2, S2, e2, h2, m2⟩ := ih s1 w Ls1 S1 h1 fun x hx => hk x (by simp [hx])
    refine ⟨s2, Ls2, S2, by rw [List.foldlM_cons, e1, bind_ok, e2], h2, fun k l hk hl => ?_⟩
    have hp : (k, l) = p ↔ k = p.1 ∧ l = p.2 := by constructor <;> rintro h <;> [subst h; (cases p; simp_all)] ; exact ⟨rfl, rfl⟩
    rw [m2 k l hk hl, show Vis Ls1 S1 k l ↔ _ from m1 k l hk hl, List.mem_cons, hp]
    unfold Vis
    tauto

theorem mergeLines_ok (hT : T.Lawful Rep) (he : e.Presents r c a) {F : AssignF} : ∀ (fuel : Nat) (L : List Nat) (Q : List (Nat × List (Nat × R))) (s : σ)
    (w : Nat → Nat → R), Rep s r c w Ls S → L.length + Q.length < fuel → L.Pairwise (· < ·) → Con T.cat L → (∀ i ∈ L, i ∈ Ls) → (Q.map (·.1)).Pairwise (· < ·) →
    Con e.cat (Q.map (·.1)) → (∀ q ∈ Q, q ∈ e.lines) → (∀ i ∈ L, i ∉ Q.map (·.1) → ∀ l ∈ S i, a i l = 0) →
    ∃ s', mergeLines T F e fuel L Q s = .ok s' ∧ Rep s' r c (upd L (hG F S a) w) Ls S := by
  intro fuel
  induction fuel with
  | zero => intro L Q s w _ h; omega
  | succ f ih =>
    intro L Q s w h hf hL hc hLS hQ hcq hQe hz
    have hend : (∀ i ∈ L, ∀ l ∈ S i, a i l = 0) → ∃ s', (if F.computed then .ok s else zeroLines T F L s : M σ) = .ok s' ∧
        Rep s' r c (upd L (hG F S a) w) Ls S := by
      intro hz'
      cases hF : F.computed with
      | true =>
        refine ⟨s, rfl, ?_⟩
        convert h using 1
        funext i
        simp only [upd]
        split
        · rw [hG_id hF (hz' i (by assumption))]
        · rfl
      | false =>
        obtain ⟨s', e', h'⟩ := zeroLines_ok hT (F := F) L s w h (sorted_nodup hL) hLS
        refine ⟨s', e', ?_⟩
        rw [upd_congr (L' := L) (h' := hZ F S) (fun _ => Iff.rfl) (fun i hi => hG_zero (hz' i hi) _)]
        exact h'
    cases L with
    | nil => simp only [mergeLines]; exact hend (by simp)
    | cons i l =>
    cases Q with
    | nil => simp only [mergeLines]; exact hend (fun i hi => hz i hi (by simp))
    | cons q qs =>
      simp only [List.length_cons] at hf
      have hL' := hL
      have hQ' := hQ
      rw [List.pairwise_cons] at hL'
      rw [List.map_cons, List.pairwise_cons] at hQ'
      have hil : i ∉ l := fun hm => absurd (hL'.1 i hm) (by omega)
      have hi : i ∈ Ls := hLS i (by simp)
      by_cases h1 : i = q.1
      · obtain ⟨i1, i2, i3⟩ := hT.its _ _ _ _ _ _ h i hi
        have hr := line_reads he (hQe q (by simp)) (LRep Rep r w Ls S i)
        have hb := hr.begin_ s _ _ (lrep_of h i)
        have hbl : ((e.line q : VExpr σ R).begin_ s).length = q.2.length := by simpa using congrArg List.length hb
        obtain ⟨s1, e1, h1'⟩ := VAssign.mergeLoop_ok (line_lawful hT hi w) (ce := e.cat) (F := F) (g := fun l _ => a q.1 l) ((S i).length + q.2.length + 1) (S i)
          ((e.line q : VExpr σ R).begin_ s) s (w i) (lrep_of h i) (by omega) i2 (fun hcc => (hT.consec _ _ _ _ _ _ h hcc).2 i hi) (fun _ hx => hx)
          (by rw [hb]; exact hr.sorted) (by rw [hb]; intro hcc; exact hr.packed hcc)
          (fun x hx s' w' h' => hr.deref s' w' _ s _ _ h' (lrep_of h i) x hx) (fun l hl hn x => hr.skipped l (i3 l hl) (by rw [← hb]; exact hn) x)
        have h1'' : Rep s1 r c (Function.update w i (hG F S a i (w i))) Ls S := by
          have := h1'.2
          rw [← h1] at this; exact this
        obtain ⟨s2, e2, h2⟩ := ih l qs s1 _ h1'' (by omega) hL'.2 (hc.drop 1) (fun k hk => hLS k (by simp [hk])) hQ'.2 (hcq.drop 1) (fun x hx => hQe x (by simp [hx]))
          (fun k hk hn => hz k (by simp [hk]) (by
            simp only [List.map_cons, List.mem_cons]; rintro (c | c)
            · have := hL'.1 k hk; omega
            · exact hn c))
        refine ⟨s2, by simp only [mergeLines, if_pos h1, i1, e1, bind_ok, e2], ?_⟩
        rw [upd_cons _ _ hil]; exact h2
      · by_cases h2 : i < q.1
        · have hg : ∀ k, k < q.1 → k ∈ i :: l → ∀ l' ∈ S k, a k l' = 0 := fun k hk hm => hz k hm (by
            simp only [List.map_cons, List.mem_cons]; rintro (c | c)
            · omega
            · have := hQ'.1 k c; omega)
          cases hF : F.computed with
          | true =>
            obtain ⟨m, hm, em, _, hb⟩ := incr_ok (d := q.1 - i) hc (by omega)
            obtain ⟨s', e', h'⟩ := ih ((i :: l).drop m) (q :: qs) s w h (by simp only [List.length_drop, List.length_cons]; omega)
              (hL.sublist (List.drop_sublist _ _)) (hc.drop m) (fun k hk => hLS k (List.mem_of_mem_drop hk)) hQ hcq hQe (fun k hk => hz k (List.mem_of_mem_drop hk))
            refine ⟨s', by simp only [mergeLines, if_neg h1, if_pos h2, hF, if_true, em, e'], ?_⟩
            convert h' using 1
            funext k
            simp only [upd]
            by_cases hk : k ∈ (i :: l).drop m
            · rw [if_pos hk, if_pos (List.mem_of_mem_drop hk)]
            · rw [if_neg hk]
              split
              · rename_i hkm
                have hkm' := hkm
                rw [← List.take_append_drop m (i :: l), List.mem_append] at hkm
                rcases hkm with hkm | hkm
                · rw [hG_id hF (hg k (by have := hb k hkm; omega) hkm')]
                · exact absurd hkm hk
              · rfl
          | false =>
            obtain ⟨s1, e1, h1'⟩ := zeroLine_ok hT (F := F) h hi
            obtain ⟨s2, e2, h2'⟩ := ih l (q :: qs) s1 _ h1' (by simp only [List.length_cons]; omega) hL'.2 (hc.drop 1) (fun k hk => hLS k (by simp [hk])) hQ hcq hQe
              (fun k hk => hz k (by simp [hk]))
            refine ⟨s2, by simp only [mergeLines, if_neg h1, if_pos h2, hF, Bool.false_eq_true, if_false, bind_ok, e1, e2], ?_⟩
            rw [upd_cons _ _ hil, hG_zero (hg i h2 (by simp))]; exact h2'
        · have hcq' : Con e.cat (q.1 :: qs.map (·.1)) := hcq
          obtain ⟨m, hm, _, em, hb⟩ := incr_ok (d := i - q.1) hcq' (by omega)
          have em' := em (q :: qs) (by simp)
          obtain ⟨s', e', h'⟩ := ih (i :: l) ((q :: qs).drop m) s w h (by simp only [List.length_drop, List.length_cons]; omega) hL hc hLS
            (by rw [List.map_drop]; exact hQ.sublist (List.drop_sublist _ _)) (by rw [List.map_drop]; exact hcq.drop m) (fun x hx => hQe x (List.mem_of_mem_drop hx))
            (fun k hk hn => hz k hk (by
              intro c
              rw [List.map_drop] at hn
              rw [← List.take_append_drop m ((q :: qs).map (·.1)), List.mem_append] at c
              rcases c with c | c
              · have := hb k c
                rw [List.mem_cons] at hk
                rcases hk with hk | hk
                · omega
                · have := hL'.1 k hk; omega
              · exact hn c))
          exact ⟨s', by simp only [mergeLines, if_neg h1, if_neg h2, em', e'], h'⟩

theorem sparseProxy_ok [DecidableEq R] (hT : T.Lawful Rep) (he : e.Presents r c a) (dbg : Bool) (F : AssignF) {s : σ} {w : Nat → Nat → R}
    (h : Rep s r c w Ls S) (hg : T.Grows Rep ∨ ∀ k l, k < r → l < c → ¬ Vis Ls S k l → a k l = 0) :
    ∃ s' Ls' S', sparseProxy dbg T F e s = .ok s' ∧ Rep s' r c (upd Ls' (hG F S' a) w) Ls' S' ∧
      (∀ k l, k < r → l < c → ¬ Vis Ls' S' k l → a k l = 0) ∧ ((∀ k l, k < r → l < c → ¬ Vis Ls S k l → a k l = 0) → Ls' = Ls ∧ S' = S) := by
  obtain ⟨z1, z2⟩ := hT.sizes _ _ _ _ _ _ h
  obtain ⟨y1, y2, y3⟩ := hT.lines _ _ _ _ _ _ h
  obtain ⟨K, eK, hK⟩ := missing_ok hT he h (Ls.length + e.lines.length + 1) Ls e.lines (by omega) y2 (fun hc => (hT.consec _ _ _ _ _ _ h hc).1) (fun _ h => h)
    he.sorted (fun _ h => h)
  have hin : ∀ k l, (k, l) ∈ K → k < r ∧ l < c := by
    intro k l hkl
    obtain ⟨⟨q, q1, q2, q3⟩, _⟩ := (hK k l).1 hkl
    obtain ⟨p, p1, p2⟩ := List.mem_map.1 q3
    exact ⟨by rw [← q2]; exact he.lt q q1, by rw [← p2]; exact ((he.inner q q1).2 p p1).1⟩
  have hK0 : (∀ k l, k < r → l < c → ¬ Vis Ls S k l → a k l = 0) → K = [] := by
    intro hz
    rw [List.eq_nil_iff_forall_not_mem]
    rintro ⟨k, l⟩ hk
    obtain ⟨b1, b2, b3⟩ := (hK k l).1 hk
    exact b3 (hz k l (hin k l hk).1 (hin k l hk).2 b2)
  have hconf : ∃ s1 Ls1 S1, makeConformant dbg T e s = .ok s1 ∧ Rep s1 r c w Ls1 S1 ∧ (∀ k l, k < r → l < c → (Vis Ls1 S1 k l ↔ (k, l) ∈ K ∨ Vis Ls S k l)) ∧
      (K = [] → Ls1 = Ls ∧ S1 = S) := by
    simp only [makeConformant, z1, z2, he.sizes.1, he.sizes.2, check_True, bind_ok, y1, eK]
    by_cases hn : K = []
    · subst hn
      exact ⟨s, Ls, S, rfl, h, by simp, fun _ => ⟨rfl, rfl⟩⟩
    · rcases hg with hg | hg
      · obtain ⟨s1, Ls1, S1, e1, h1, m1⟩ := refLoop_ok hg K s w Ls S h fun p hp => by
          obtain ⟨_, b2, _⟩ := (hK p.1 p.2).1 hp
          obtain ⟨i1, i2⟩ := hin p.1 p.2 hp
          exact ⟨i1, i2, hT.off _ _ _ _ _ _ h p.1 p.2 i1 i2 b2⟩
        exact ⟨s1, Ls1, S1, e1, h1, m1, fun c => absurd c hn⟩
      · exact absurd (hK0 hg) hn
  obtain ⟨s1, Ls1, S1, e1, h1, m1, zz⟩ := hconf
  obtain ⟨y1', y2', y3'⟩ := hT.lines _ _ _ _ _ _ h1
  obtain ⟨s2, e2, h2⟩ := mergeLines_ok hT he (F := F) (Ls1.length + e.lines.length + 1) Ls1 e.lines s1 w h1 (by omega) y2' (fun hc => (hT.consec _ _ _ _ _ _ h1 hc).1)
    (fun _ h => h) he.sorted (by intro hc; rw [List.length_map]; exact (he.packed hc).1) (fun _ h => h)
    (fun k hk hn l hl => zero_of_skipped he (y3' k hk) ((hT.its _ _ _ _ _ _ h1 k hk).2.2 l hl) hn)
  refine ⟨s2, Ls1, S1, ?_, h2, ?_, fun hz => zz (hK0 hz)⟩
  · simp only [sparseProxy, z1, z2, he.sizes.1, he.sizes.2, check_True, bind_ok, e1, y1', e2]
  · intro k l hk hl hn
    rw [m1 k l hk hl, not_or] at hn
    by_contra hne
    refine hn.1 ((hK k l).2 ⟨?_, hn.2, hne⟩)
    by_contra hq
    refine hne (he.skipped k l hk hl (fun q q1 q2 q3 => hq ⟨q, q1, q2, q3⟩))

end Ublas.MAssign
