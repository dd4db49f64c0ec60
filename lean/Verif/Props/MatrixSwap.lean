import Verif.Props.Swap
import Verif.Props.MatrixRange
/-! # C79: swapping matrix views, packed and sparse -/
namespace Ublas
namespace MSwap
open MAssign (Vis LRep line_lawful)
variable {σ R : Type} [AddGroup R] {T1 T2 : MT σ R} {P : MPRep σ R} {r c : Nat} {L1 L2 : List Nat} {S1 S2 : Nat → List Nat}

/-- Lines `k` of the two views as a pair of vectors, the other lines being those of `a` and `b`. -/
def LPair (P : MPRep σ R) (r : Nat) (a : Nat → Nat → R) (L1 : List Nat) (S1 : Nat → List Nat) (b : Nat → Nat → R) (L2 : List Nat) (S2 : Nat → List Nat) (k : Nat) : PRep σ R :=
  fun s n x X y Y => X = S1 k ∧ Y = S2 k ∧ P s r n (Function.update a k x) L1 S1 (Function.update b k y) L2 S2

theorem LPair.pair (hP : MT.Pair T1 T2 P) {k : Nat} (h1 : k ∈ L1) (h2 : k ∈ L2) (a b : Nat → Nat → R) :
    VT.Pair (T1.line k) (T2.line k) (LPair P r a L1 S1 b L2 S2 k) where
  fst y Y := by
    have h := line_lawful (r := r) (S := S1) (hP.fst (Function.update b k y) L2 S2) h1 a
    by_cases hY : Y = S2 k
    · have : (fun s n x X => LPair P r a L1 S1 b L2 S2 k s n x X y Y) = LRep (fun s r c w L S => P s r c w L S (Function.update b k y) L2 S2) r a L1 S1 k := by
        funext s n x X; simp only [LPair, LRep, hY, true_and]
      rw [this]; exact h
    · have : (fun s n x X => LPair P r a L1 S1 b L2 S2 k s n x X y Y) = fun _ _ _ _ => False := by
        funext s n x X; simp only [LPair, hY, false_and, and_false]
      rw [this]; constructor <;> intros <;> contradiction
  snd x X := by
    have h := line_lawful (r := r) (S := S2) (hP.snd (Function.update a k x) L1 S1) h2 b
    by_cases hX : X = S1 k
    · have : (fun s n y Y => LPair P r a L1 S1 b L2 S2 k s n x X y Y) = LRep (fun s r c w L S => P s r c (Function.update a k x) L1 S1 w L S) r b L2 S2 k := by
        funext s n y Y; simp only [LPair, LRep, hX, true_and]
      rw [this]; exact h
    · have : (fun s n y Y => LPair P r a L1 S1 b L2 S2 k s n x X y Y) = fun _ _ _ _ => False := by
        funext s n y Y; simp only [LPair, hX, false_and]
      rw [this]; constructor <;> intros <;> contradiction

/-- `a`, with the elements that both views visit (in the lines of both lists) taken from `b`. -/
def exch2 (K1 K2 : List Nat) (S1 S2 : Nat → List Nat) (a b : Nat → Nat → R) : Nat → Nat → R :=
  fun k l => if k ∈ K1 ∧ k ∈ K2 ∧ l ∈ S1 k ∧ l ∈ S2 k then b k l else a k l

theorem exch2_nil_left (K2 : List Nat) (S1 S2 : Nat → List Nat) (a b : Nat → Nat → R) : exch2 [] K2 S1 S2 a b = a := by funext k l; simp [exch2]
theorem exch2_nil_right (K1 : List Nat) (S1 S2 : Nat → List Nat) (a b : Nat → Nat → R) : exch2 K1 [] S1 S2 a b = a := by funext k l; simp [exch2]

theorem exch2_cons {k : Nat} {l r : List Nat} (hl : k ∉ l) (S1 S2 : Nat → List Nat) (a b : Nat → Nat → R) :
    exch2 (k :: l) (k :: r) S1 S2 a b =
      exch2 l r S1 S2 (Function.update a k (VSwap.exch (S1 k) (S2 k) (a k) (b k))) (Function.update b k (VSwap.exch (S2 k) (S1 k) (b k) (a k))) := by
  funext i j
  simp only [exch2, List.mem_cons]
  by_cases hi : i = k
  · subst hi; simp [hl, VSwap.exch]
  · simp [hi, Function.update_of_ne hi]

theorem exch_comm (L Q : List Nat) (a b : Nat → R) : VSwap.exch L Q a b = VSwap.exch Q L a b := by
  funext i; simp only [VSwap.exch, and_comm]

theorem exch2_comm (L Q : List Nat) (S1 S2 : Nat → List Nat) (a b : Nat → Nat → R) : exch2 L Q S1 S2 a b = exch2 Q L S2 S1 a b := by
  funext i j; simp only [exch2]; congr 1; apply propext; tauto

theorem exch2_drop_left {K : List Nat} {j : Nat} {r : List Nat} (m : Nat) (hb : ∀ k ∈ K.take m, k < j) (hr : ∀ k ∈ r, j < k) (S1 S2 : Nat → List Nat)
    (a b : Nat → Nat → R) : exch2 K (j :: r) S1 S2 a b = exch2 (K.drop m) (j :: r) S1 S2 a b := by
  funext k l
  simp only [exch2]
  congr 1
  apply propext
  constructor
  · rintro ⟨h1, h2, h3⟩
    refine ⟨?_, h2, h3⟩
    rw [← List.take_append_drop m K, List.mem_append] at h1
    rcases h1 with h1 | h1
    · have := hb k h1
      rcases List.mem_cons.1 h2 with h2 | h2
      · omega
      · have := hr k h2; omega
    · exact h1
  · rintro ⟨h1, h2⟩
    exact ⟨List.mem_of_mem_drop h1, h2⟩

theorem line_ok (hP : MT.Pair T1 T2 P) {s : σ} {w1 w2 : Nat → Nat → R} (h : P s r c w1 L1 S1 w2 L2 S2) {k : Nat} (h1 : k ∈ L1) (h2 : k ∈ L2) :
    LPair P r w1 L1 S1 w2 L2 S2 k s c (w1 k) (S1 k) (w2 k) (S2 k) :=
  ⟨rfl, rfl, by rw [Function.update_eq_self, Function.update_eq_self]; exact h⟩

theorem mergeLines_ok (hP : MT.Pair T1 T2 P) : ∀ (fuel : Nat) (L Q : List Nat) (s : σ) (w1 w2 : Nat → Nat → R),
    P s r c w1 L1 S1 w2 L2 S2 → L.length + Q.length < fuel → L.Pairwise (· < ·) → VAssign.Con T1.cat L → (∀ i ∈ L, i ∈ L1) → Q.Pairwise (· < ·) →
    VAssign.Con T2.cat Q → (∀ i ∈ Q, i ∈ L2) →
    ∃ s', mergeLines T1 T2 fuel L Q s = .ok s' ∧ P s' r c (exch2 L Q S1 S2 w1 w2) L1 S1 (exch2 Q L S2 S1 w2 w1) L2 S2 := by
  intro fuel
  induction fuel with
  | zero => intro L Q s w1 w2 _ h; omega
  | succ f ih =>
    intro L Q s w1 w2 h hf hL hc hLS hQ hcq hQS
    cases L with
    | nil => exact ⟨s, by simp only [mergeLines], by rw [exch2_nil_left, exch2_nil_right]; exact h⟩
    | cons i l =>
    cases Q with
    | nil => exact ⟨s, by simp only [mergeLines], by rw [exch2_nil_left, exch2_nil_right]; exact h⟩
    | cons j q =>
      simp only [List.length_cons] at hf
      have hL' := hL
      have hQ' := hQ
      rw [List.pairwise_cons] at hL' hQ'
      by_cases h1 : i = j
      · subst h1
        have k1 := hLS i (by simp)
        have k2 := hQS i (by simp)
        obtain ⟨a1, a2, _⟩ := (hP.fst w2 L2 S2).its _ _ _ _ _ _ h i k1
        obtain ⟨b1, b2, _⟩ := (hP.snd w1 L1 S1).its _ _ _ _ _ _ h i k2
        obtain ⟨s1, e1, p1⟩ := VSwap.mergeLoop_ok (LPair.pair hP k1 k2 w1 w2) ((S1 i).length + (S2 i).length + 1) (S1 i) (S2 i) s _ _ (line_ok hP h k1 k2) (by omega)
          a2 (fun hcc => ((hP.fst w2 L2 S2).consec _ _ _ _ _ _ h hcc).2 i k1) (fun _ h => h)
          b2 (fun hcc => ((hP.snd w1 L1 S1).consec _ _ _ _ _ _ h hcc).2 i k2) (fun _ h => h)
        obtain ⟨s2, e2, p2⟩ := ih l q s1 _ _ p1.2.2 (by omega) hL'.2 (hc.drop 1) (fun k hk => hLS k (by simp [hk])) hQ'.2 (hcq.drop 1) (fun k hk => hQS k (by simp [hk]))
        refine ⟨s2, by simp only [mergeLines, if_true, a1, b1, e1, bind_ok, e2], ?_⟩
        have hil : i ∉ l := fun hm => absurd (hL'.1 i hm) (by omega)
        have hiq : i ∉ q := fun hm => absurd (hQ'.1 i hm) (by omega)
        rw [exch2_cons hil, exch2_cons hiq, exch_comm (S2 i) (S1 i)]; exact p2
      · by_cases h2 : i < j
        · obtain ⟨m, hm, em, _, hb⟩ := VAssign.incr_ok (d := j - i) hc (by omega)
          obtain ⟨s', e', p'⟩ := ih ((i :: l).drop m) (j :: q) s w1 w2 h (by simp only [List.length_drop, List.length_cons]; omega)
            (hL.sublist (List.drop_sublist _ _)) (hc.drop m) (fun k hk => hLS k (List.mem_of_mem_drop hk)) hQ hcq hQS
          refine ⟨s', by simp only [mergeLines, if_neg h1, if_pos h2, em, e'], ?_⟩
          have key := fun a b S1 S2 => exch2_drop_left (R := R) (K := i :: l) m (fun k hk => by have := hb k hk; omega) hQ'.1 S1 S2 a b
          rw [key w1 w2, exch2_comm (j :: q) (i :: l), key w2 w1, exch2_comm _ (j :: q) _ _ w2 w1]; exact p'
        · obtain ⟨m, hm, em, _, hb⟩ := VAssign.incr_ok (d := i - j) hcq (by omega)
          obtain ⟨s', e', p'⟩ := ih (i :: l) ((j :: q).drop m) s w1 w2 h (by simp only [List.length_drop, List.length_cons]; omega) hL hc hLS
            (hQ.sublist (List.drop_sublist _ _)) (hcq.drop m) (fun k hk => hQS k (List.mem_of_mem_drop hk))
          refine ⟨s', by simp only [mergeLines, if_neg h1, if_neg h2, em, e'], ?_⟩
          have key := fun a b S1 S2 => exch2_drop_left (R := R) (K := j :: q) m (fun k hk => by have := hb k hk; omega) hL'.1 S1 S2 a b
          rw [key w2 w1, exch2_comm (i :: l) (j :: q), key w1 w2, exch2_comm _ (i :: l) _ _ w1 w2]; exact p'

/-! ## make_conformant with the other view -/

theorem missing_congr [DecidableEq R] {T : MT σ R} {e e' : MExp R} (s : σ) : ∀ (fuel : Nat) (L : List Nat) (Q : List (Nat × List (Nat × R))),
    MAssign.missing T e s fuel L Q = MAssign.missing T e' s fuel L Q := by
  have ht : ∀ Q : List (Nat × List (Nat × R)), MAssign.tailLines e s Q = MAssign.tailLines e' s Q := by
    intro Q
    induction Q with
    | nil => rfl
    | cons q Q ih => simp only [MAssign.tailLines, ih]; rfl
  intro fuel
  induction fuel with
  | zero => intro L Q; rfl
  | succ f ih =>
    intro L Q
    cases L with
    | nil => simp only [MAssign.missing, ht]
    | cons k l =>
      cases Q with
      | nil => simp only [MAssign.missing, ht]
      | cons q qs =>
        simp only [MAssign.missing, ih]; rfl

theorem mapM_ok {α β : Type} (f : α → M β) (g : α → β) : ∀ (l : List α), (∀ x ∈ l, f x = .ok (g x)) → l.mapM f = .ok (l.map g) := by
  intro l
  induction l with
  | nil => intro _; rfl
  | cons a l ih =>
    intro h
    rw [List.mapM_cons, h a (by simp), bind_ok, ih fun x hx => h x (by simp [hx])]
    rfl

theorem shown_ok {T : MT σ R} {Rep : MRep σ R} {L : List Nat} {S : Nat → List Nat} (hT : T.Lawful Rep) {s : σ} {w : Nat → Nat → R} (h : Rep s r c w L S) :
    T.shown s = .ok ⟨r, c, .sparse, L.map fun k => (k, (S k).map fun l => (l, w k l)), T.get s⟩ := by
  obtain ⟨z1, z2⟩ := hT.sizes _ _ _ _ _ _ h
  obtain ⟨y1, _, _⟩ := hT.lines _ _ _ _ _ _ h
  have := mapM_ok (fun k => do
    let els ← (T.its s k).mapM fun l => do
      let x ← T.get s k l
      .ok (l, x)
    .ok (k, els)) (fun k => (k, (S k).map fun l => (l, w k l))) L fun k hk => by
      rw [(hT.its _ _ _ _ _ _ h k hk).1, mapM_ok _ (fun l => (l, w k l)) (S k) fun l hl => by simp only [hT.get _ _ _ _ _ _ h k hk l hl, bind_ok], bind_ok]
  simp only [MT.shown, y1, z1, z2]
  rw [this, bind_ok]

/-- The same elements with a total element access. -/
theorem shown_presents {T : MT σ R} {Rep : MRep σ R} {L : List Nat} {S : Nat → List Nat} (hT : T.Lawful Rep) {s : σ} {w : Nat → Nat → R} (h : Rep s r c w L S) :
    (⟨r, c, .sparse, L.map fun k => (k, (S k).map fun l => (l, w k l)), fun k l => .ok (w k l)⟩ : MExp R).Presents r c w := by
  obtain ⟨_, y2, y3⟩ := hT.lines _ _ _ _ _ _ h
  have hi := hT.its _ _ _ _ _ _ h
  have hm : ∀ q ∈ L.map (fun k => (k, (S k).map fun l => (l, w k l))), ∃ k ∈ L, q = (k, (S k).map fun l => (l, w k l)) := by
    intro q hq
    obtain ⟨k, hk, rfl⟩ := List.mem_map.1 hq
    exact ⟨k, hk, rfl⟩
  refine ⟨⟨rfl, rfl⟩, fun _ _ _ _ => rfl, ?_, ?_, ?_, ?_, fun hc => absurd rfl hc, fun hc => by cases hc⟩
  · rw [List.map_map]; simpa [Function.comp_def] using y2
  · intro q hq; obtain ⟨k, hk, rfl⟩ := hm q hq; exact y3 k hk
  · intro q hq
    obtain ⟨k, hk, rfl⟩ := hm q hq
    refine ⟨by rw [List.map_map]; simpa [Function.comp_def] using (hi k hk).2.1, fun p hp => ?_⟩
    obtain ⟨l, hl, rfl⟩ := List.mem_map.1 hp
    exact ⟨(hi k hk).2.2 l hl, rfl⟩
  · intro k l hk hl hn
    refine hT.off _ _ _ _ _ _ h k l hk hl fun hv => ?_
    refine hn _ (List.mem_map.2 ⟨k, hv.1, rfl⟩) rfl ?_
    rw [List.map_map]; simpa [Function.comp_def] using hv.2

theorem conform_ok [DecidableEq R] {T : MT σ R} {Rep : MRep σ R} {L : List Nat} {S : Nat → List Nat} (hT : T.Lawful Rep) (hg : T.Grows Rep) {T' : MT σ R}
    {Rep' : MRep σ R} (hT' : T'.Lawful Rep') {L' : List Nat} {S' : Nat → List Nat} (dbg : Bool) {s : σ} {w w' : Nat → Nat → R} (h : Rep s r c w L S)
    (h' : Rep' s r c w' L' S') :
    ∃ s1 Ls Ss, (do let e ← T'.shown s; MAssign.makeConformant dbg T e s) = .ok s1 ∧ Rep s1 r c w Ls Ss ∧
      ∀ k l, k < r → l < c → (Vis L S k l → Vis Ls Ss k l) ∧ (Vis L' S' k l → w' k l ≠ 0 → Vis Ls Ss k l) := by
  obtain ⟨z1, z2⟩ := hT.sizes _ _ _ _ _ _ h
  obtain ⟨y1, y2, y3⟩ := hT.lines _ _ _ _ _ _ h
  have he := shown_presents hT' h'
  obtain ⟨_, y3'⟩ := (hT'.lines _ _ _ _ _ _ h').2
  have hi := hT'.its _ _ _ _ _ _ h'
  obtain ⟨K, eK, hK⟩ := MAssign.missing_ok hT he h (L.length + (L'.map fun k => (k, (S' k).map fun l => (l, w' k l))).length + 1) L _ (Nat.lt_succ_self _) y2
    (fun hc => (hT.consec _ _ _ _ _ _ h hc).1) (fun _ h => h) he.sorted (fun _ h => h)
  have hin : ∀ k l, (k, l) ∈ K ↔ Vis L' S' k l ∧ ¬ Vis L S k l ∧ w' k l ≠ 0 := by
    intro k l
    rw [hK]
    refine and_congr_left fun _ => ?_
    constructor
    · rintro ⟨q, hq, rfl, hl⟩
      obtain ⟨k, hk, rfl⟩ := List.mem_map.1 hq
      rw [List.map_map] at hl
      exact ⟨hk, by simpa [Function.comp_def] using hl⟩
    · rintro ⟨hk, hl⟩
      exact ⟨_, List.mem_map.2 ⟨k, hk, rfl⟩, rfl, by rw [List.map_map]; simpa [Function.comp_def] using hl⟩
  obtain ⟨s1, Ls1, Ss1, e1, h1, m1⟩ := MAssign.refLoop_ok hg K s w L S h fun p hp => by
    obtain ⟨b1, b2, _⟩ := (hin p.1 p.2).1 hp
    have i1 := y3' p.1 b1.1
    have i2 := (hi p.1 b1.1).2.2 p.2 b1.2
    exact ⟨i1, i2, hT.off _ _ _ _ _ _ h p.1 p.2 i1 i2 b2⟩
  refine ⟨s1, Ls1, Ss1, ?_, h1, fun k l hk hl => ⟨fun hv => (m1 k l hk hl).2 (.inr hv), fun hv hne => ?_⟩⟩
  · rw [shown_ok hT' h', bind_ok]
    simp only [MAssign.makeConformant, z1, z2, check_True, bind_ok, y1]
    rw [missing_congr (e' := ⟨r, c, .sparse, L'.map fun k => (k, (S' k).map fun l => (l, w' k l)), fun k l => .ok (w' k l)⟩), eK, bind_ok, e1]
  · by_cases hv' : Vis L S k l
    · exact (m1 k l hk hl).2 (.inr hv')
    · exact (m1 k l hk hl).2 (.inl ((hin k l).2 ⟨hv, hv', hne⟩))

theorem sparse_ok [DecidableEq R] (hP : MT.Pair T1 T2 P) (hg : MT.PairGrows T1 T2 P) (dbg : Bool) {s : σ} {w1 w2 : Nat → Nat → R}
    (h : P s r c w1 L1 S1 w2 L2 S2) :
    ∃ s' w1' L1' S1' w2' L2' S2', MSwap.sparse dbg T1 T2 s = .ok s' ∧ P s' r c w1' L1' S1' w2' L2' S2' ∧
      ∀ k l, k < r → l < c → w1' k l = w2 k l ∧ w2' k l = w1 k l := by
  obtain ⟨s1, K1, X1, e1, p1, m1⟩ := conform_ok (hP.fst w2 L2 S2) (hg.fst w2 L2 S2) (hP.snd w1 L1 S1) dbg h h
  obtain ⟨s2, K2, X2, e2, p2, m2⟩ := conform_ok (hP.snd w1 K1 X1) (hg.snd w1 K1 X1) (hP.fst w2 L2 S2) dbg p1 p1
  have q1 := hP.fst w2 K2 X2
  have q2 := hP.snd w1 K1 X1
  obtain ⟨a1, a2, _⟩ := q1.lines _ _ _ _ _ _ p2
  obtain ⟨b1, b2, _⟩ := q2.lines _ _ _ _ _ _ p2
  obtain ⟨s3, e3, p3⟩ := mergeLines_ok hP (K1.length + K2.length + 1) K1 K2 s2 w1 w2 p2 (by omega) a2 (fun hc => (q1.consec _ _ _ _ _ _ p2 hc).1) (fun _ h => h)
    b2 (fun hc => (q2.consec _ _ _ _ _ _ p2 hc).1) (fun _ h => h)
  refine ⟨s3, _, _, _, _, _, _, ?_, p3, fun k l hk hl => ?_⟩
  · obtain ⟨z1, z2⟩ := (hP.fst w2 L2 S2).sizes _ _ _ _ _ _ h
    obtain ⟨z3, z4⟩ := (hP.snd w1 L1 S1).sizes _ _ _ _ _ _ h
    have e1' := shown_ok (hP.snd w1 L1 S1) h
    have e2' := shown_ok (hP.fst w2 L2 S2) p1
    rw [e1', bind_ok] at e1
    rw [e2', bind_ok] at e2
    simp only [MSwap.sparse, z1, z2, z3, z4, check_True, bind_ok, e1', e1, e2', e2, a1, b1, e3]
  · have o1 := q1.off _ _ _ _ _ _ p2 k l hk hl
    have o2 := q2.off _ _ _ _ _ _ p2 k l hk hl
    have o3 := (hP.snd w1 L1 S1).off _ _ _ _ _ _ h k l hk hl
    have c1 := (m1 k l hk hl).2
    have c2 := (m2 k l hk hl).2
    simp only [Vis] at c1 c2
    by_cases v1 : k ∈ K1 ∧ l ∈ X1 k
    · by_cases v2 : k ∈ K2 ∧ l ∈ X2 k
      · simp [exch2, v1, v2]
      · have z2 : w2 k l = 0 := o2 v2
        have z1 : w1 k l = 0 := by by_contra hne; exact v2 (c2 v1 hne)
        have n1 : ¬ (k ∈ K1 ∧ k ∈ K2 ∧ l ∈ X1 k ∧ l ∈ X2 k) := fun c => v2 ⟨c.2.1, c.2.2.2⟩
        have n2 : ¬ (k ∈ K2 ∧ k ∈ K1 ∧ l ∈ X2 k ∧ l ∈ X1 k) := fun c => v2 ⟨c.1, c.2.2.1⟩
        simp only [exch2, if_neg n1, if_neg n2, z1, z2, and_self]
    · have z1 : w1 k l = 0 := o1 v1
      have z2 : w2 k l = 0 := by
        by_cases v : k ∈ L2 ∧ l ∈ S2 k
        · by_contra hne; exact v1 (c1 v hne)
        · exact o3 v
      have n1 : ¬ (k ∈ K1 ∧ k ∈ K2 ∧ l ∈ X1 k ∧ l ∈ X2 k) := fun c => v1 ⟨c.1, c.2.2.1⟩
      have n2 : ¬ (k ∈ K2 ∧ k ∈ K1 ∧ l ∈ X2 k ∧ l ∈ X1 k) := fun c => v1 ⟨c.2.1, c.2.2.2⟩
      simp only [exch2, if_neg n1, if_neg n2, z1, z2, and_self]

/-! ## The packed and dense cases: both views visit the same positions -/

theorem packedLoop_ok (hP : MT.Pair T1 T2 P) (dbg : Bool) (hL : L1 = L2) (hS : ∀ k ∈ L1, S1 k = S2 k) : ∀ (L : List Nat) (s : σ) (w1 w2 : Nat → Nat → R),
    P s r c w1 L1 S1 w2 L2 S2 → L.Nodup → (∀ i ∈ L, i ∈ L1) →
    ∃ s', packedLoop dbg T1 T2 L L s = .ok s' ∧ P s' r c (exch2 L L S1 S2 w1 w2) L1 S1 (exch2 L L S2 S1 w2 w1) L2 S2 := by
  intro L
  induction L with
  | nil => intro s w1 w2 h _ _; exact ⟨s, by simp only [packedLoop], by rw [exch2_nil_left, exch2_nil_right]; exact h⟩
  | cons i l ih =>
    intro s w1 w2 h hn hm
    rw [List.nodup_cons] at hn
    have k1 := hm i (by simp)
    have k2 : i ∈ L2 := hL ▸ k1
    obtain ⟨a1, a2, _⟩ := (hP.fst w2 L2 S2).its _ _ _ _ _ _ h i k1
    obtain ⟨b1, b2, _⟩ := (hP.snd w1 L1 S1).its _ _ _ _ _ _ h i k2
    have e := hS i k1
    obtain ⟨s1, e1, p1⟩ := VSwap.swapLoop_ok (LPair.pair hP k1 k2 w1 w2) (S1 i) s _ _ (line_ok hP h k1 k2) (VAssign.sorted_nodup a2) (fun _ h => h) (fun _ h => e ▸ h)
    obtain ⟨s2, e2, p2⟩ := ih s1 _ _ p1.2.2 hn.2 (fun k hk => hm k (by simp [hk]))
    refine ⟨s2, ?_, ?_⟩
    · simp only [packedLoop, a1, b1, ← e, same, check_True, bind_ok, pure_eq_ok, Nat.lt_irrefl, if_false]
      rw [List.take_of_length_le (Nat.le_refl _), e1, bind_ok, e2]
    · rw [exch2_cons hn.1, exch2_cons hn.1, ← e]; exact p2

theorem packed_ok (hP : MT.Pair T1 T2 P) (dbg : Bool) (hL : L1 = L2) (hS : ∀ k ∈ L1, S1 k = S2 k) {s : σ} {w1 w2 : Nat → Nat → R}
    (h : P s r c w1 L1 S1 w2 L2 S2) : ∃ s' w1' w2', MSwap.packed dbg T1 T2 s = .ok s' ∧ P s' r c w1' L1 S1 w2' L2 S2 ∧
      ∀ k l, k < r → l < c → w1' k l = w2 k l ∧ w2' k l = w1 k l := by
  obtain ⟨a1, a2, _⟩ := (hP.fst w2 L2 S2).lines _ _ _ _ _ _ h
  obtain ⟨b1, b2, _⟩ := (hP.snd w1 L1 S1).lines _ _ _ _ _ _ h
  obtain ⟨s', e, p⟩ := packedLoop_ok hP dbg hL hS L1 s w1 w2 h (VAssign.sorted_nodup a2) (fun _ h => h)
  refine ⟨s', _, _, ?_, p, fun k l hk hl => ?_⟩
  · simp only [MSwap.packed, a1, b1, ← hL, same, check_True, bind_ok, pure_eq_ok, Nat.lt_irrefl, if_false]
    rw [List.take_of_length_le (Nat.le_refl _), e]
  · have o1 := (hP.fst w2 L2 S2).off _ _ _ _ _ _ h k l hk hl
    have o2 := (hP.snd w1 L1 S1).off _ _ _ _ _ _ h k l hk hl
    by_cases v : k ∈ L1 ∧ l ∈ S1 k
    · have := hS k v.1
      simp [exch2, v, ← this]
    · have z1 := o1 v
      have z2 := o2 fun c => v ⟨hL ▸ c.1, by rw [hS k (hL ▸ c.1)]; exact c.2⟩
      have n1 : ¬ (k ∈ L1 ∧ k ∈ L1 ∧ l ∈ S1 k ∧ l ∈ S2 k) := fun c => v ⟨c.1, c.2.2.1⟩
      have n2 : ¬ (k ∈ L1 ∧ k ∈ L1 ∧ l ∈ S2 k ∧ l ∈ S1 k) := fun c => v ⟨c.1, c.2.2.2⟩
      simp only [exch2, if_neg n1, if_neg n2, z1, z2, and_self]

end MSwap

variable {σ R : Type} [Ring R] [DecidableEq R] {T1 T2 : MT σ R} {P : MPRep σ R}

/-- **C79** `view1.swap (view2)` for two matrix views that do not share elements, at least one of them sparse (ranges of compressed matrices; a dense view and a sparse one): the
elements change places, whatever positions are stored on either side. -/
theorem C79_matrix_sparse (dbg : Bool) (sc : StorageCat) (hP : MT.Pair T1 T2 P) (hg : MT.PairGrows T1 T2 P)
    (hsc : sc = .sparseProxy ∨ (sc = .denseProxy ∧ T2.cat = .sparse)) {s : σ} {r c : Nat} {w1 w2 : Nat → Nat → R} {L1 L2 : List Nat} {S1 S2 : Nat → List Nat}
    (h : P s r c w1 L1 S1 w2 L2 S2) :
    ∃ s' w1' L1' S1' w2' L2' S2', MSwap.view dbg sc T1 T2 s = .ok s' ∧ P s' r c w1' L1' S1' w2' L2' S2' ∧
      ∀ k l, k < r → l < c → w1' k l = w2 k l ∧ w2' k l = w1 k l := by
  obtain ⟨z1, z2⟩ := (hP.fst w2 L2 S2).sizes _ _ _ _ _ _ h
  obtain ⟨z3, z4⟩ := (hP.snd w1 L1 S1).sizes _ _ _ _ _ _ h
  obtain ⟨s', w1', L1', S1', w2', L2', S2', e, q⟩ := MSwap.sparse_ok hP hg dbg h
  refine ⟨s', w1', L1', S1', w2', L2', S2', ?_, q⟩
  simp only [MSwap.view, z1, z2, z3, z4, check_True, bind_ok]
  rcases hsc with rfl | ⟨rfl, hc⟩
  · simp only [MSwap.swap, e]
  · simp only [MSwap.swap, hc, e]

/-- **C79** The same for two packed views of the same shape (ranges of triangular matrices, triangular adaptors): they visit the same positions. -/
theorem C79_matrix_packed (dbg : Bool) (hP : MT.Pair T1 T2 P) (hc : T2.cat ≠ .sparse) {s : σ} {r c : Nat} {w1 w2 : Nat → Nat → R} {L1 L2 : List Nat}
    {S1 S2 : Nat → List Nat} (h : P s r c w1 L1 S1 w2 L2 S2) (hL : L1 = L2) (hS : ∀ k ∈ L1, S1 k = S2 k) :
    ∃ s' w1' w2', MSwap.view dbg .packedProxy T1 T2 s = .ok s' ∧ P s' r c w1' L1 S1 w2' L2 S2 ∧
      ∀ k l, k < r → l < c → w1' k l = w2 k l ∧ w2' k l = w1 k l := by
  obtain ⟨z1, z2⟩ := (hP.fst w2 L2 S2).sizes _ _ _ _ _ _ h
  obtain ⟨z3, z4⟩ := (hP.snd w1 L1 S1).sizes _ _ _ _ _ _ h
  obtain ⟨s', w1', w2', e, q⟩ := MSwap.packed_ok hP dbg hL hS h
  refine ⟨s', w1', w2', ?_, q⟩
  simp only [MSwap.view, z1, z2, z3, z4, check_True, bind_ok]
  cases hcc : T2.cat with
  | sparse => exact absurd hcc hc
  | dense => simp only [MSwap.swap, hcc, e]
  | packed => simp only [MSwap.swap, hcc, e]

/-- **C79** In debug, matrix views of different sizes are refused before anything is written. -/
theorem C79_matrix_size_mismatch (sc : StorageCat) (T1 T2 : MT σ R) (s : σ) (h : T1.sizeM s ≠ T2.sizeM s ∨ T1.sizem s ≠ T2.sizem s) :
    MSwap.view true sc T1 T2 s = .error .badSize := by
  simp only [MSwap.view]
  by_cases h1 : T1.sizeM s = T2.sizeM s
  · rw [check_true h1, bind_ok, check_dbg_false (h.resolve_left (fun c => c h1))]; rfl
  · rw [check_dbg_false h1]; rfl

/-! ## Matrices side by side -/

/-- The states of two matrices side by side. -/
def MSideBySide {σ1 σ2 : Type} (Rep1 : MRep σ1 R) (Rep2 : MRep σ2 R) : MPRep (σ1 × σ2) R :=
  fun s r c w1 L1 S1 w2 L2 S2 => Rep1 s.1 r c w1 L1 S1 ∧ Rep2 s.2 r c w2 L2 S2

section
variable {σ1 σ2 : Type} {Rep1 : MRep σ1 R} {Rep2 : MRep σ2 R} {U1 : MT σ1 R} {U2 : MT σ2 R}

omit [DecidableEq R] in
theorem MSideBySide.pair (h1 : U1.Lawful Rep1) (h2 : U2.Lawful Rep2) : MT.Pair (MT.left U1 : MT (σ1 × σ2) R) (MT.right U2) (MSideBySide Rep1 Rep2) where
  fst w2 L2 S2 :=
    { sizes := fun s r c w L S h => h1.sizes _ _ _ _ _ _ h.1
      lines := fun s r c w L S h => h1.lines _ _ _ _ _ _ h.1
      its := fun s r c w L S h => h1.its _ _ _ _ _ _ h.1
      off := fun s r c w L S h => h1.off _ _ _ _ _ _ h.1
      get := fun s r c w L S h => h1.get _ _ _ _ _ _ h.1
      put := fun s r c w L S h k hk l hl t => by
        obtain ⟨s', e, h'⟩ := h1.put _ _ _ _ _ _ h.1 k hk l hl t
        exact ⟨(s', s.2), by show (do .ok (← U1.put s.1 k l t, s.2)) = _; rw [e]; rfl, h', h.2⟩
      consec := fun s r c w L S h hc => h1.consec _ _ _ _ _ _ h.1 hc }
  snd w1 L1 S1 :=
    { sizes := fun s r c w L S h => h2.sizes _ _ _ _ _ _ h.2
      lines := fun s r c w L S h => h2.lines _ _ _ _ _ _ h.2
      its := fun s r c w L S h => h2.its _ _ _ _ _ _ h.2
      off := fun s r c w L S h => h2.off _ _ _ _ _ _ h.2
      get := fun s r c w L S h => h2.get _ _ _ _ _ _ h.2
      put := fun s r c w L S h k hk l hl t => by
        obtain ⟨s', e, h'⟩ := h2.put _ _ _ _ _ _ h.2 k hk l hl t
        exact ⟨(s.1, s'), by show (do .ok (s.1, ← U2.put s.2 k l t)) = _; rw [e]; rfl, h.1, h'⟩
      consec := fun s r c w L S h hc => h2.consec _ _ _ _ _ _ h.2 hc }

omit [DecidableEq R] in
theorem MSideBySide.grows (h1 : U1.Grows Rep1) (h2 : U2.Grows Rep2) : MT.PairGrows (MT.left U1 : MT (σ1 × σ2) R) (MT.right U2) (MSideBySide Rep1 Rep2) where
  fst w2 L2 S2 s r c w L S h k l hk hl t := by
    obtain ⟨s', L', S', e, h', m⟩ := h1 _ _ _ _ _ _ h.1 k l hk hl t
    exact ⟨(s', s.2), L', S', by show (do .ok (← U1.ref s.1 k l t, s.2)) = _; rw [e]; rfl, ⟨h', h.2⟩, m⟩
  snd w1 L1 S1 s r c w L S h k l hk hl t := by
    obtain ⟨s', L', S', e, h', m⟩ := h2 _ _ _ _ _ _ h.2 k l hk hl t
    exact ⟨(s.1, s'), L', S', by show (do .ok (s.1, ← U2.ref s.2 k l t)) = _; rw [e]; rfl, ⟨h.1, h'⟩, m⟩
end

/-- **C79** Swapping a range of one compressed_matrix with a range of another of the same size (in the orientation of the first): the windows change places, all other elements of both
matrices stay, and both keep their invariants. -/
theorem C79_compressed_ranges (dbg : Bool) (o : Orient) (IB : Nat) (junk : CMat.Junk R) (v1 v2 : CMat R) (s1 s2 : SparseSpec.CMatS R) (h1 : CMat.Inv o IB v1 s1)
    (h2 : CMat.Inv o IB v2 s2) (a1 b1 a2 b2 r c : Nat) (ha1 : a1 + r ≤ o.sizeM s1.rows s1.cols) (hb1 : b1 + c ≤ o.sizem s1.rows s1.cols)
    (ha2 : a2 + r ≤ o.sizeM s2.rows s2.cols) (hb2 : b2 + c ≤ o.sizem s2.rows s2.cols) :
    ∃ v1' v2' s1' s2', MSwap.view dbg .sparseProxy (MT.left ((MT.compressed dbg o IB junk).range dbg a1 r b1 c)) (MT.right ((MT.compressed dbg o IB junk).range dbg a2 r b2 c))
        (v1, v2) = .ok (v1', v2') ∧ CMat.Inv o IB v1' s1' ∧ CMat.Inv o IB v2' s2' ∧
      (∀ k l, k < r → l < c →
        (s1'.val (o.indexM (a1 + k) (b1 + l), o.indexm (a1 + k) (b1 + l))).getD 0 = (s2.val (o.indexM (a2 + k) (b2 + l), o.indexm (a2 + k) (b2 + l))).getD 0 ∧
        (s2'.val (o.indexM (a2 + k) (b2 + l), o.indexm (a2 + k) (b2 + l))).getD 0 = (s1.val (o.indexM (a1 + k) (b1 + l), o.indexm (a1 + k) (b1 + l))).getD 0) ∧
      (∀ i j, i < o.sizeM s1.rows s1.cols → j < o.sizem s1.rows s1.cols → ¬ (a1 ≤ i ∧ i < a1 + r ∧ b1 ≤ j ∧ j < b1 + c) →
        (s1'.val (o.indexM i j, o.indexm i j)).getD 0 = (s1.val (o.indexM i j, o.indexm i j)).getD 0) ∧
      ∀ i j, i < o.sizeM s2.rows s2.cols → j < o.sizem s2.rows s2.cols → ¬ (a2 ≤ i ∧ i < a2 + r ∧ b2 ≤ j ∧ j < b2 + c) →
        (s2'.val (o.indexM i j, o.indexm i j)).getD 0 = (s2.val (o.indexM i j, o.indexm i j)).getD 0 := by
  have hC := compressedMatrix_supports dbg o IB junk (R := R)
  have w := fun (s : SparseSpec.CMatS R) (k l : Nat) => (s.val (o.indexM k l, o.indexm k l)).getD 0
  obtain ⟨s', w1', L1', S1', w2', L2', S2', e, ⟨p1, p2⟩, hw⟩ := C79_matrix_sparse dbg .sparseProxy
    (MSideBySide.pair (MT.range_lawful (w0 := fun k l => (s1.val (o.indexM k l, o.indexm k l)).getD 0) dbg hC.1 ha1 hb1)
      (MT.range_lawful (w0 := fun k l => (s2.val (o.indexM k l, o.indexm k l)).getD 0) dbg hC.1 ha2 hb2))
    (MSideBySide.grows (MT.range_grows dbg hC.2.1 ha1 hb1) (MT.range_grows dbg hC.2.1 ha2 hb2)) (.inl rfl) (s := (v1, v2))
    ⟨RangeRep.init (Rep := CMatRep o IB) ⟨s1, h1, rfl, rfl, rfl, rfl, rfl⟩ a1 r b1 c, RangeRep.init (Rep := CMatRep o IB) ⟨s2, h2, rfl, rfl, rfl, rfl, rfl⟩ a2 r b2 c⟩
  obtain ⟨_, _, W1, K1, X1, ⟨s1', q1, _, _, q4, _, _⟩, x1, _, _, f1⟩ := p1
  obtain ⟨_, _, W2, K2, X2, ⟨s2', y1, _, _, y4, _, _⟩, x2, _, _, f2⟩ := p2
  refine ⟨s'.1, s'.2, s1', s2', e, q1, y1, fun k l hk hl => ?_, fun i j hi hj hn => ?_, fun i j hi hj hn => ?_⟩
  · have := hw k l hk hl
    rw [x1, x2, q4, y4] at this
    exact this
  · have := f1 i j hi hj hn
    rw [q4] at this
    exact this
  · have := f2 i j hi hj hn
    rw [y4] at this
    exact this

open Packed PackedSpec in
/-- **C79** Swapping two windows of two lower (or two upper) triangular matrices that lie at the same distance from the diagonal: the elements of the windows' triangles change places,
the other stored elements of both matrices stay. -/
theorem C79_triangular_ranges (dbg u : Bool) (o : Orient) (m1 m2 : TMat R) (hw1 : TWF ⟨.lower, u⟩ m1) (hw2 : TWF ⟨.lower, u⟩ m2) (a1 b1 a2 b2 r c : Nat)
    (ha1 : a1 + r ≤ o.sizeM m1.size1 m1.size2) (hb1 : b1 + c ≤ o.sizem m1.size1 m1.size2) (ha2 : a2 + r ≤ o.sizeM m2.size1 m2.size2)
    (hb2 : b2 + c ≤ o.sizem m2.size1 m2.size2) (hdiag : a1 + b2 = a2 + b1) :
    ∃ m1' m2', MSwap.view dbg .packedProxy (MT.left ((MT.tri dbg u o).range dbg a1 r b1 c)) (MT.right ((MT.tri dbg u o).range dbg a2 r b2 c)) (m1, m2) = .ok (m1', m2') ∧
      TWF ⟨.lower, u⟩ m1' ∧ TWF ⟨.lower, u⟩ m2' ∧
      (∀ k l, k < r → l < c → Mutable ⟨.lower, u⟩ (o.indexM (a1 + k) (b1 + l)) (o.indexm (a1 + k) (b1 + l)) → ∃ x y,
        m1.get dbg ⟨.lower, u⟩ o (o.indexM (a1 + k) (b1 + l)) (o.indexm (a1 + k) (b1 + l)) = .ok x ∧
        m2.get dbg ⟨.lower, u⟩ o (o.indexM (a2 + k) (b2 + l)) (o.indexm (a2 + k) (b2 + l)) = .ok y ∧
        m1'.get dbg ⟨.lower, u⟩ o (o.indexM (a1 + k) (b1 + l)) (o.indexm (a1 + k) (b1 + l)) = .ok y ∧
        m2'.get dbg ⟨.lower, u⟩ o (o.indexM (a2 + k) (b2 + l)) (o.indexm (a2 + k) (b2 + l)) = .ok x) ∧
      (∀ i j, i < o.sizeM m1.size1 m1.size2 → j < o.sizem m1.size1 m1.size2 → Mutable ⟨.lower, u⟩ (o.indexM i j) (o.indexm i j) →
        ¬ (a1 ≤ i ∧ i < a1 + r ∧ b1 ≤ j ∧ j < b1 + c) → m1'.get dbg ⟨.lower, u⟩ o (o.indexM i j) (o.indexm i j) = m1.get dbg ⟨.lower, u⟩ o (o.indexM i j) (o.indexm i j)) ∧
      ∀ i j, i < o.sizeM m2.size1 m2.size2 → j < o.sizem m2.size1 m2.size2 → Mutable ⟨.lower, u⟩ (o.indexM i j) (o.indexm i j) →
        ¬ (a2 ≤ i ∧ i < a2 + r ∧ b2 ≤ j ∧ j < b2 + c) → m2'.get dbg ⟨.lower, u⟩ o (o.indexM i j) (o.indexm i j) = m2.get dbg ⟨.lower, u⟩ o (o.indexM i j) (o.indexm i j) := by
  obtain ⟨w1, h1⟩ := triMRep_init dbg u o m1 hw1
  obtain ⟨w2, h2⟩ := triMRep_init dbg u o m2 hw2
  have hT := (tri_supports (R := R) dbg u o).1.1
  have hM : ∀ k l, Mutable ⟨.lower, u⟩ (o.indexM (a1 + k) (b1 + l)) (o.indexm (a1 + k) (b1 + l)) ↔
      Mutable ⟨.lower, u⟩ (o.indexM (a2 + k) (b2 + l)) (o.indexm (a2 + k) (b2 + l)) := by
    intro k l
    cases o <;> cases u <;> simp only [Mutable, Orient.indexM, Orient.indexm] <;> omega
  obtain ⟨s', w1', w2', e, ⟨p1, p2⟩, hw⟩ := C79_matrix_packed dbg (MSideBySide.pair (MT.range_lawful (w0 := w1) dbg hT ha1 hb1) (MT.range_lawful (w0 := w2) dbg hT ha2 hb2))
    (by intro h; cases h) (s := (m1, m2)) ⟨RangeRep.init h1 a1 r b1 c, RangeRep.init h2 a2 r b2 c⟩ (by rw [range_window ha1, range_window ha2]) (by
      intro k hk
      rw [range_window ha1, List.mem_range] at hk
      have i1 := hT.its _ _ _ _ _ _ h1 (a1 + k) (List.mem_range.2 (by omega))
      have i2 := hT.its _ _ _ _ _ _ h2 (a2 + k) (List.mem_range.2 (by omega))
      refine eq_of_sorted_mem (projLines_sorted i1.2.1 _ _) (projLines_sorted i2.2.1 _ _) fun l => ?_
      rw [mem_projLines, mem_projLines, tri_mem dbg u o m1 _ _ (by omega), tri_mem dbg u o m2 _ _ (by omega), hM k l]
      constructor
      · rintro ⟨⟨q1, q2⟩, q3⟩; exact ⟨⟨by omega, q2⟩, by omega⟩
      · rintro ⟨⟨q1, q2⟩, q3⟩; exact ⟨⟨by omega, q2⟩, by omega⟩)
  obtain ⟨_, _, W1, K1, X1, g1, x1, _, _, f1⟩ := p1
  obtain ⟨_, _, W2, K2, X2, g2, x2, _, _, f2⟩ := p2
  have key : ∀ (m m' : TMat R) (w W : Nat → Nat → R) (K : List Nat) (X : Nat → List Nat),
      TriMRep dbg u o m (o.sizeM m.size1 m.size2) (o.sizem m.size1 m.size2) w (List.range (o.sizeM m.size1 m.size2)) ((MT.tri dbg u o : MT (TMat R) R).its m) →
      TriMRep dbg u o m' (o.sizeM m.size1 m.size2) (o.sizem m.size1 m.size2) W K X → ∀ i j, i < o.sizeM m.size1 m.size2 → j < o.sizem m.size1 m.size2 →
      Mutable ⟨.lower, u⟩ (o.indexM i j) (o.indexm i j) → m.get dbg ⟨.lower, u⟩ o (o.indexM i j) (o.indexm i j) = .ok (w i j) ∧
        m'.get dbg ⟨.lower, u⟩ o (o.indexM i j) (o.indexm i j) = .ok (W i j) := by
    intro m m' w W K X h h' i j hi hj hm
    refine ⟨h.2.2.2.2.2.1 i j hi ((tri_mem dbg u o m i j hi).2 ⟨hj, hm⟩), h'.2.2.2.2.2.1 i j hi ?_⟩
    rw [h'.2.2.2.2.1, tri_mem dbg u o m' i j (by rw [h'.1]; exact hi), h'.2.1]
    exact ⟨hj, hm⟩
  refine ⟨s'.1, s'.2, e, g1.2.2.1, g2.2.2.1, fun k l hk hl hm => ?_, fun i j hi hj hm hn => ?_, fun i j hi hj hm hn => ?_⟩
  · obtain ⟨c1, c2⟩ := key m1 s'.1 w1 W1 K1 X1 h1 g1 (a1 + k) (b1 + l) (by omega) (by omega) hm
    obtain ⟨c3, c4⟩ := key m2 s'.2 w2 W2 K2 X2 h2 g2 (a2 + k) (b2 + l) (by omega) (by omega) ((hM k l).1 hm)
    have := hw k l hk hl
    rw [x1, x2] at this
    exact ⟨_, _, c1, c3, by rw [c2]; exact congrArg _ this.1, by rw [c4]; exact congrArg _ this.2⟩
  · obtain ⟨c1, c2⟩ := key m1 s'.1 w1 W1 K1 X1 h1 g1 i j hi hj hm
    rw [c1, c2, f1 i j hi hj hn]
  · obtain ⟨c1, c2⟩ := key m2 s'.2 w2 W2 K2 X2 h2 g2 i j hi hj hm
    rw [c1, c2, f2 i j hi hj hn]

/-- **C79** refuted for packed views of different shape: in debug, swapping a lower with an upper triangular view of the same size is refused with bad_argument after the sizes have
been accepted; without the checks it advances past the end of the shorter lines (row 1 of the upper matrix has one element, that of the lower one two). -/
theorem C79_mixed_triangles_refuted :
    MSwap.view true .packedProxy (MT.left (MT.tri true false .row)) (MT.right (MT.tri true true .row)) ((⟨2, 2, [1, 2, 3]⟩ : Packed.TMat Int), (⟨2, 2, [4, 5, 6]⟩ : Packed.TMat Int)) =
      .error .badArgument ∧
    MSwap.view false .packedProxy (MT.left (MT.tri false false .row)) (MT.right (MT.tri false true .row)) ((⟨2, 2, [1, 2, 3]⟩ : Packed.TMat Int), (⟨2, 2, [4, 5, 6]⟩ : Packed.TMat Int)) =
      .error .ub := ⟨by rfl, by rfl⟩

/-- Non-vacuity of `C79_compressed_ranges`: a window with a stored element against one of another matrix with none. -/
example : ∃ (v1 v2 : CMat Int) (s1 s2 : SparseSpec.CMatS Int), CMat.Inv .row 0 v1 s1 ∧ CMat.Inv .row 0 v2 s2 ∧ s1.val (0, 1) = some 7 ∧ s2.val (1, 1) = none ∧
    s1.rows = 2 ∧ s2.rows = 3 := by
  obtain ⟨v0, e0, h0⟩ := CMat.inv_ctor (α := Int) true .row 0 cmJunk 2 2 0
  obtain ⟨v1, e1, h1⟩ := CMat.step_inv true .row 0 0 cmJunk v0 _ (.insert 0 1 7) h0 ⟨by decide, by decide, rfl⟩
  obtain ⟨v2, e2, h2⟩ := CMat.inv_ctor (α := Int) true .row 0 cmJunk 3 2 0
  exact ⟨v1, v2, _, _, h1, h2, by simp [SparseSpec.cmstep], rfl, by simp [SparseSpec.cmstep], rfl⟩

/-- Non-vacuity of `C79_triangular_ranges`: the lower right 2 x 2 windows of two lower triangular 3 x 3 matrices. -/
example : MSwap.view true .packedProxy (MT.left ((MT.tri true false .row).range true 1 2 1 2)) (MT.right ((MT.tri true false .row).range true 1 2 1 2))
    ((⟨3, 3, [1, 2, 3, 4, 5, 6]⟩ : Packed.TMat Int), (⟨3, 3, [11, 12, 13, 14, 15, 16]⟩ : Packed.TMat Int)) =
      .ok (⟨3, 3, [1, 2, 13, 4, 15, 16]⟩, ⟨3, 3, [11, 12, 3, 14, 5, 6]⟩) := by rfl

end Ublas
