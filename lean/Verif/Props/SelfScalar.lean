import Verif.Model.SelfScalar
import Verif.Props.ScalarAssign
/-! # C101: scaling a container by one of its own elements -/
namespace Ublas
variable {σ R : Type} [Ring R]

namespace VAssign
variable {T : VT σ R} {Rep : σ → Nat → (Nat → R) → List Nat → Prop}

theorem scalarLoopRef_const (hT : T.Lawful Rep) {F : R → R → R} {t : σ → M R} {n : Nat} {S : List Nat} {y : R} (ht : ∀ s w, Rep s n w S → t s = .ok y) :
    ∀ (L : List Nat) (s : σ) (w : Nat → R), Rep s n w S → L.Nodup → (∀ i ∈ L, i ∈ S) →
    ∃ s', scalarLoopRef T F t L s = .ok s' ∧ Rep s' n (upd L (fun _ x => F x y) w) S := by
  intro L
  induction L with
  | nil => intro s w h _ _; exact ⟨s, rfl, by rw [upd_nil]; exact h⟩
  | cons i L ih =>
    intro s w h hn hs
    rw [List.nodup_cons] at hn
    obtain ⟨s1, e1, h1⟩ := hT.put s n w S h i (hs i (by simp)) (F (w i) y)
    obtain ⟨s2, e2, h2⟩ := ih s1 _ h1 hn.2 fun k hk => hs k (by simp [hk])
    refine ⟨s2, ?_, by rw [upd_cons _ _ hn.1]; exact h2⟩
    simp only [scalarLoopRef, hT.get s n w S h i (hs i (by simp)), ht s w h, bind_ok, e1, e2]

/-- The value the elements in `L` get: those up to `k` see the old value of `k`, the later ones the new one. -/
def selfUpd (F : R → R → R) (k : Nat) (L : List Nat) (w : Nat → R) : Nat → R :=
  fun i => if i ∈ L then F (w i) (if i ≤ k ∨ k ∉ L then w k else F (w k) (w k)) else w i

theorem selfUpd_cons (F : R → R → R) (k i : Nat) (L : List Nat) (w : Nat → R) (hs : (i :: L).Pairwise (· < ·)) :
    selfUpd F k (i :: L) w = selfUpd F k L (Function.update w i (F (w i) (w k))) := by
  rw [List.pairwise_cons] at hs
  have hi : i ∉ L := fun h => Nat.lt_irrefl _ (hs.1 i h)
  funext j
  by_cases hki : k = i
  · subst hki
    by_cases hjk : j = k
    · subst hjk; simp [selfUpd, hi]
    · by_cases hj : j ∈ L
      · have := hs.1 j hj
        simp [selfUpd, hj, hjk, hi, Nat.not_le.2 this]
      · simp [selfUpd, hj, hjk]
  · by_cases hji : j = i
    · subst hji
      by_cases hk : k ∈ L
      · have := hs.1 k hk
        simp [selfUpd, hi, Nat.le_of_lt this]
      · simp [selfUpd, hi, hk, hki]
    · simp [selfUpd, hji, hki]

theorem scalarLoopRef_self (hT : T.Lawful Rep) {F : R → R → R} {t : σ → M R} {n : Nat} {S : List Nat} {k : Nat} (ht : ∀ s w, Rep s n w S → t s = .ok (w k)) :
    ∀ (L : List Nat) (s : σ) (w : Nat → R), Rep s n w S → L.Pairwise (· < ·) → (∀ i ∈ L, i ∈ S) →
    ∃ s', scalarLoopRef T F t L s = .ok s' ∧ Rep s' n (selfUpd F k L w) S := by
  intro L
  induction L with
  | nil => intro s w h _ _; exact ⟨s, rfl, by rw [show selfUpd F k [] w = w from by funext i; simp [selfUpd]]; exact h⟩
  | cons i L ih =>
    intro s w h hn hs
    obtain ⟨s1, e1, h1⟩ := hT.put s n w S h i (hs i (by simp)) (F (w i) (w k))
    obtain ⟨s2, e2, h2⟩ := ih s1 _ h1 (List.pairwise_cons.1 hn).2 fun k hk => hs k (by simp [hk])
    refine ⟨s2, ?_, by rw [selfUpd_cons F k i L w hn]; exact h2⟩
    simp only [scalarLoopRef, hT.get s n w S h i (hs i (by simp)), ht s w h, bind_ok, e1, e2]

theorem indexingScalarRef_ok (hT : T.Lawful Rep) (hf : T.Full Rep) {F : R → R → R} {n : Nat} {S : List Nat} {s : σ} {w : Nat → R} {k : Nat} (hk : k ∈ S) (h : Rep s n w S) :
    ∃ s' w', indexingScalarRef T F (fun s => T.get s k) s = .ok s' ∧ Rep s' n w' S ∧ ∀ i, i < n → w' i = F (w i) (if i ≤ k then w k else F (w k) (w k)) := by
  have hS := hf.all s n w S h
  have hkn := hT.lt s n w S h k hk
  unfold indexingScalarRef
  rw [hT.size s n w S h]
  obtain ⟨s', e, w', h1, h2⟩ := loop_inv (n := n) (f := fun i s => do
      let x ← T.get s i
      let y ← T.get s k
      T.ref s i (F x y)) (I := fun i s => ∃ w', Rep s n w' S ∧ ∀ j, j < n → w' j = if j < i then F (w j) (if j ≤ k then w k else F (w k) (w k)) else w j)
    ⟨w, h, fun j _ => by simp⟩ (by
      rintro i s hi ⟨w', h', hw'⟩
      obtain ⟨s2, e2, h2⟩ := hf.ref s n w' S h' i hi (F (w' i) (w' k))
      refine ⟨s2, by simp only [hT.get s n w' S h' i (by rw [hS]; simpa using hi), hT.get s n w' S h' k hk, bind_ok, e2], _, h2, fun j hj => ?_⟩
      by_cases hki : j = i
      · subst hki
        rw [Function.update_self, hw' j hj, if_neg (Nat.lt_irrefl j), if_pos (Nat.lt_succ_self j), hw' k hkn, if_pos (Nat.le_refl k)]
        congr 1
        by_cases hle : j ≤ k
        · rw [if_neg (by omega), if_pos hle]
        · rw [if_pos (by omega), if_neg hle]
      · rw [Function.update_of_ne hki, hw' j hj]
        by_cases hlt : j < i
        · rw [if_pos hlt, if_pos (show j < i + 1 from by omega)]
        · rw [if_neg hlt, if_neg (show ¬ j < i + 1 from by omega)])
  exact ⟨s', w', e, h1, fun i hi => by rw [h2 i hi, if_pos hi]⟩

end VAssign

/-- **C101** (vectors, exact).  `v *= v (k)` (`F x y = x * y`) and `v /= v (k)` for a stored element `k` of a dense, packed or sparse vector or view: the elements up to and including `k` are
combined with the value `v (k)` had before, the later ones with the value it got meanwhile. -/
theorem C101_vector {T : VT σ R} {Rep : σ → Nat → (Nat → R) → List Nat → Prop} (dbg : Bool) (mode : ProdFn.Mode) (sc : StorageCat) (hT : T.Supports sc Rep) (F : R → R → R)
    (hF : ∀ y, F 0 y = 0) (s : σ) (n : Nat) (w : Nat → R) (S : List Nat) (h : Rep s n w S) (k : Nat) (hk : k ∈ S) :
    ∃ s' w', VAssign.assignScalarRef dbg mode sc T F k s = .ok s' ∧ Rep s' n w' S ∧ ∀ i, i < n → w' i = F (w i) (if i ≤ k then w k else F (w k) (w k)) := by
  have hL := hT.1
  have hits : VAssign.scalarLoopRef T F (fun s => T.get s k) (T.its s) s = VAssign.scalarLoopRef T F (fun s => T.get s k) S s := by rw [hL.its s n w S h]
  obtain ⟨s1, e1, h1⟩ := VAssign.scalarLoopRef_self hL (F := F) (fun s w h => hL.get s n w S h k hk) S s w h (hL.sorted s n w S h) fun _ hi => hi
  have hval : ∀ i, i < n → VAssign.selfUpd F k S w i = F (w i) (if i ≤ k then w k else F (w k) (w k)) := by
    intro i hi
    simp only [VAssign.selfUpd, hk, not_true_eq_false, or_false]
    split
    · rfl
    · rw [hL.off s n w S h i hi (by assumption), hF]
  have hall : ∀ hf : T.Full Rep, VAssign.iteratingScalarRef dbg T F (fun s => T.get s k) s = VAssign.scalarLoopRef T F (fun s => T.get s k) S s := by
    intro hf
    have hS := hf.all s n w S h
    have hl : S.length = n := by rw [hS, List.length_range]
    simp only [VAssign.iteratingScalarRef, hL.its s n w S h, hL.size s n w S h, hl, check_True, bind_ok, Nat.lt_irrefl, if_false]
    rw [List.take_of_length_le (Nat.le_of_eq hl)]
  have dense : ∀ hf : T.Full Rep, ∀ mode : ProdFn.Mode, ∃ s' w', VAssign.assignScalarRef dbg mode .dense T F k s = .ok s' ∧ Rep s' n w' S ∧
      ∀ i, i < n → w' i = F (w i) (if i ≤ k then w k else F (w k) (w k)) := by
    intro hf mode
    have hi := VAssign.indexingScalarRef_ok hL hf (F := F) hk h
    have hr : ∃ s' w', VAssign.iteratingScalarRef dbg T F (fun s => T.get s k) s = .ok s' ∧ Rep s' n w' S ∧
      ∀ i, i < n → w' i = F (w i) (if i ≤ k then w k else F (w k) (w k)) := ⟨s1, _, by rw [hall hf]; exact e1, h1, hval⟩
    cases mode with
    | indexing => exact hi
    | iterating => exact hr
    | threshold m =>
      simp only [VAssign.assignScalarRef]
      split
      · exact hr
      · exact hi
  cases sc with
  | dense => exact dense hT.2.1 mode
  | denseProxy => exact dense hT.2.1 mode
  | packed => exact ⟨s1, _, by simp only [VAssign.assignScalarRef, hits, e1], h1, hval⟩
  | packedProxy => exact ⟨s1, _, by simp only [VAssign.assignScalarRef, hits, e1], h1, hval⟩
  | sparse => exact ⟨s1, _, by simp only [VAssign.assignScalarRef, hits, e1], h1, hval⟩
  | sparseProxy => exact ⟨s1, _, by simp only [VAssign.assignScalarRef, hits, e1], h1, hval⟩

namespace MAssign
variable {T : MT σ R} {Rep : MRep σ R} {r c : Nat} {Ls : List Nat} {S : Nat → List Nat}
open VAssign (upd upd_nil upd_cons sorted_nodup selfUpd)

/-- Element (k, l) is visited no later than (a, b). -/
def upTo (a b k l : Nat) : Prop := k < a ∨ (k = a ∧ l ≤ b)
instance (a b k l : Nat) : Decidable (upTo a b k l) := inferInstanceAs (Decidable (_ ∨ _))

/-- The values after the lines `L` have been passed over. -/
def selfLines (F : R → R → R) (S : Nat → List Nat) (a b : Nat) (L : List Nat) (w : Nat → Nat → R) : Nat → Nat → R :=
  fun k l => if k ∈ L ∧ l ∈ S k then F (w k l) (if upTo a b k l ∨ a ∉ L then w a b else F (w a b) (w a b)) else w k l

theorem scalarLineRef_ok (hT : T.Lawful Rep) {F : R → R → R} {s : σ} {w : Nat → Nat → R} (h : Rep s r c w Ls S) {k a b : Nat} (hk : k ∈ Ls) (ha : a ∈ Ls) (hb : b ∈ S a) :
    ∃ s', VAssign.scalarLoopRef (T.line k) F (fun s => T.get s a b) (S k) s = .ok s' ∧
      Rep s' r c (Function.update w k (if k = a then selfUpd F b (S k) (w k) else upd (S k) (fun _ x => F x (w a b)) (w k))) Ls S := by
  obtain ⟨i1, i2, i3⟩ := hT.its _ _ _ _ _ _ h k hk
  by_cases hka : k = a
  · subst hka
    obtain ⟨s', e', h'⟩ := VAssign.scalarLoopRef_self (line_lawful hT hk w) (F := F) (t := fun s => T.get s k b) (k := b)
      (fun s w' h => by simpa using hT.get _ _ _ _ _ _ h.2 k hk b hb) (S k) s (w k) (lrep_of h k) i2 (fun _ hi => hi)
    exact ⟨s', e', by rw [if_pos rfl]; exact h'.2⟩
  · obtain ⟨s', e', h'⟩ := VAssign.scalarLoopRef_const (line_lawful hT hk w) (F := F) (t := fun s => T.get s a b) (y := w a b)
      (fun s w' h => by
        have := hT.get _ _ _ _ _ _ h.2 a ha b hb
        rwa [Function.update_of_ne (fun e => hka e.symm)] at this) (S k) s (w k) (lrep_of h k) (sorted_nodup i2) (fun _ hi => hi)
    exact ⟨s', e', by rw [if_neg hka]; exact h'.2⟩

theorem selfLines_cons (F : R → R → R) {a b i : Nat} {L : List Nat} (w : Nat → Nat → R) (hb : b ∈ S a) (hs : (i :: L).Pairwise (· < ·)) :
    selfLines F S a b (i :: L) w =
      selfLines F S a b L (Function.update w i (if i = a then selfUpd F b (S i) (w i) else upd (S i) (fun _ x => F x (w a b)) (w i))) := by
  rw [List.pairwise_cons] at hs
  have hi : i ∉ L := fun h => Nat.lt_irrefl _ (hs.1 i h)
  funext k l
  by_cases hia : i = a
  · subst hia
    by_cases hk : k = i
    · subst hk
      simp [selfLines, hi, selfUpd, upTo, hb]
    · by_cases hkL : k ∈ L
      · have := hs.1 k hkL
        simp [selfLines, hk, hi, hkL, upTo, selfUpd, hb, Nat.not_lt.2 (Nat.le_of_lt this)]
      · simp [selfLines, hk, hkL]
  · by_cases hk : k = i
    · subst hk
      by_cases haL : a ∈ L
      · have := hs.1 a haL
        simp [selfLines, hi, hia, upd, upTo, this]
      · simp [selfLines, hi, hia, upd, upTo, haL, Ne.symm hia]
    · simp [selfLines, hk, Ne.symm hia]

theorem scalarLinesRef_ok (hT : T.Lawful Rep) {F : R → R → R} {a b : Nat} (ha : a ∈ Ls) (hb : b ∈ S a) : ∀ (L : List Nat) (s : σ) (w : Nat → Nat → R), Rep s r c w Ls S →
    L.Pairwise (· < ·) → (∀ i ∈ L, i ∈ Ls) →
    ∃ s', scalarLinesRef T F (fun s => T.get s a b) L s = .ok s' ∧ Rep s' r c (selfLines F S a b L w) Ls S := by
  intro L
  induction L with
  | nil => intro s w h _ _; exact ⟨s, rfl, by rw [show selfLines F S a b [] w = w from by funext i j; simp [selfLines]]; exact h⟩
  | cons i L ih =>
    intro s w h hn hs
    obtain ⟨s1, e1, h1⟩ := scalarLineRef_ok hT (F := F) h (hs i (by simp)) ha hb
    obtain ⟨s2, e2, h2⟩ := ih s1 _ h1 (List.pairwise_cons.1 hn).2 fun k hk => hs k (by simp [hk])
    refine ⟨s2, ?_, by rw [selfLines_cons F w hb hn]; exact h2⟩
    simp only [scalarLinesRef, (hT.its _ _ _ _ _ _ h i (hs i (by simp))).1, e1, bind_ok, e2]

theorem iterScalarLinesRef_ok (hT : T.Lawful Rep) (hf : T.Full Rep) (dbg : Bool) {F : R → R → R} {a b : Nat} (ha : a ∈ Ls) (hb : b ∈ S a) :
    ∀ (L : List Nat) (s : σ) (w : Nat → Nat → R), Rep s r c w Ls S → (∀ i ∈ L, i ∈ Ls) →
    iterScalarLinesRef dbg T F (fun s => T.get s a b) c L s = scalarLinesRef T F (fun s => T.get s a b) L s := by
  intro L
  induction L with
  | nil => intro s w h _; rfl
  | cons i L ih =>
    intro s w h hs
    have hi := hs i (by simp)
    obtain ⟨s1, e1, h1⟩ := scalarLineRef_ok hT (F := F) h hi ha hb
    have hl : (S i).length = c := by rw [(hf.all _ _ _ _ _ _ h).2 i hi, List.length_range]
    simp only [iterScalarLinesRef, scalarLinesRef, (hT.its _ _ _ _ _ _ h i hi).1, hl, check_True, bind_ok, Nat.lt_irrefl, if_false]
    rw [List.take_of_length_le (Nat.le_of_eq hl), e1, bind_ok, bind_ok]
    exact ih s1 _ h1 fun k hk => hs k (by simp [hk])

theorem indexingScalarRef_ok (hT : T.Lawful Rep) (hf : T.Full Rep) {F : R → R → R} {s : σ} {w : Nat → Nat → R} {a b : Nat} (ha : a ∈ Ls) (hb : b ∈ S a) (h : Rep s r c w Ls S) :
    ∃ s' w', indexingScalarRef T F (fun s => T.get s a b) s = .ok s' ∧ Rep s' r c w' Ls S ∧
      ∀ k l, k < r → l < c → w' k l = F (w k l) (if upTo a b k l then w a b else F (w a b) (w a b)) := by
  obtain ⟨z1, z2⟩ := hT.sizes _ _ _ _ _ _ h
  have har := (hT.lines _ _ _ _ _ _ h).2.2 a ha
  have hbc := (hT.its _ _ _ _ _ _ h a ha).2.2 b hb
  have key : ∀ k l, k < r → l < c → ∀ s w, Rep s r c w Ls S → T.get s k l = .ok (w k l) := by
    intro k l hk hl s w h
    have h1 := (hf.all _ _ _ _ _ _ h).1 (by omega)
    have hkL : k ∈ Ls := by rw [h1]; simpa using hk
    exact hT.get _ _ _ _ _ _ h k hkL l (by rw [(hf.all _ _ _ _ _ _ h).2 k hkL]; simpa using hl)
  -- the value seen when (i, j) is about to be updated
  have step : ∀ i j, i < r → j < c → ∀ s w', Rep s r c w' Ls S →
      (∀ k l, k < r → l < c → w' k l = if k < i ∨ (k = i ∧ l < j) then F (w k l) (if upTo a b k l then w a b else F (w a b) (w a b)) else w k l) →
      ∃ s2 w2, (do let x ← T.get s i j; let y ← T.get s a b; T.ref s i j (F x y) : M σ) = .ok s2 ∧ Rep s2 r c w2 Ls S ∧
      ∀ k l, k < r → l < c → w2 k l = if k < i ∨ (k = i ∧ l < j + 1) then F (w k l) (if upTo a b k l then w a b else F (w a b) (w a b)) else w k l := by
    intro i j hi hj s w' h' hw'
    obtain ⟨s2, e2, h2⟩ := hf.ref _ _ _ _ _ _ h' i j hi hj (F (w' i j) (w' a b))
    refine ⟨s2, _, by simp only [key i j hi hj s w' h', key a b har hbc s w' h', bind_ok, e2], h2, fun k l hk hl => ?_⟩
    simp only [update2]
    by_cases hkl : k = i ∧ l = j
    · obtain ⟨rfl, rfl⟩ := hkl
      rw [if_pos ⟨rfl, rfl⟩, hw' k l hk hl, if_neg (by omega), if_pos (Or.inr ⟨rfl, Nat.lt_succ_self l⟩), hw' a b har hbc]
      congr 1
      by_cases hu : upTo a b k l
      · rw [if_pos hu, if_neg (by unfold upTo at hu; omega)]
      · rw [if_neg hu, if_pos (by unfold upTo at hu; omega), if_pos (show upTo a b a b from Or.inr ⟨rfl, Nat.le_refl b⟩)]
    · rw [if_neg hkl, hw' k l hk hl]
      by_cases hlt : k < i ∨ (k = i ∧ l < j)
      · rw [if_pos hlt, if_pos (show k < i ∨ (k = i ∧ l < j + 1) from by omega)]
      · rw [if_neg hlt, if_neg (show ¬ (k < i ∨ (k = i ∧ l < j + 1)) from by omega)]
  unfold indexingScalarRef
  rw [z1]
  obtain ⟨s', e, w', h1, h2⟩ := loop_inv (n := r) (f := fun i s => loop (fun j s => do
      let x ← T.get s i j
      let y ← T.get s a b
      T.ref s i j (F x y)) (T.sizem s) s)
    (I := fun i s => ∃ w', Rep s r c w' Ls S ∧ ∀ k l, k < r → l < c → w' k l = if k < i then F (w k l) (if upTo a b k l then w a b else F (w a b) (w a b)) else w k l)
    ⟨w, h, fun k l _ _ => by simp⟩ (by
      rintro i s hi ⟨w', h', hw'⟩
      rw [(hT.sizes _ _ _ _ _ _ h').2]
      obtain ⟨s2, e2, w2, h2, h3⟩ := loop_inv (n := c) (s := s) (f := fun j s => do
          let x ← T.get s i j
          let y ← T.get s a b
          T.ref s i j (F x y))
        (I := fun j s => ∃ w', Rep s r c w' Ls S ∧ ∀ k l, k < r → l < c → w' k l = if k < i ∨ (k = i ∧ l < j) then F (w k l) (if upTo a b k l then w a b else F (w a b) (w a b)) else w k l)
        ⟨w', h', fun k l hk hl => by simpa using hw' k l hk hl⟩ (by
          rintro j s hj ⟨w1, h1, hw1⟩
          obtain ⟨s2, w2, e2, q2, q3⟩ := step i j hi hj s w1 h1 hw1
          exact ⟨s2, e2, w2, q2, q3⟩)
      refine ⟨s2, e2, w2, h2, fun k l hk hl => ?_⟩
      rw [h3 k l hk hl]
      by_cases hki : k < i + 1
      · rw [if_pos (by omega), if_pos hki]
      · rw [if_neg (by omega), if_neg hki])
  exact ⟨s', w', e, h1, fun k l hk hl => by rw [h2 k l hk hl, if_pos hk]⟩

end MAssign

/-- **C101** (matrices, exact).  `m *= m (a, b)` and `m /= m (a, b)`, indices being (major, minor): elements visited up to and including (a, b) are combined with the old value of that
element, the later ones with its new value. -/
theorem C101_matrix {T : MT σ R} {Rep : MRep σ R} (dbg : Bool) (mode : ProdFn.Mode) (sc : StorageCat) (hT : T.Supports sc Rep) (F : R → R → R)
    (hF : ∀ y, F 0 y = 0) (s : σ) (r c : Nat) (w : Nat → Nat → R) (Ls : List Nat) (S : Nat → List Nat) (h : Rep s r c w Ls S) (a b : Nat) (ha : a ∈ Ls) (hb : b ∈ S a) :
    ∃ s' w', MAssign.assignScalarRef dbg mode sc T F a b s = .ok s' ∧ Rep s' r c w' Ls S ∧
      ∀ k l, k < r → l < c → w' k l = F (w k l) (if k < a ∨ (k = a ∧ l ≤ b) then w a b else F (w a b) (w a b)) := by
  have hL := hT.1
  obtain ⟨z1, z2⟩ := hL.sizes _ _ _ _ _ _ h
  obtain ⟨y1, y2, y3⟩ := hL.lines _ _ _ _ _ _ h
  have har := y3 a ha
  have hbc := (hL.its _ _ _ _ _ _ h a ha).2.2 b hb
  obtain ⟨s1, e1, h1⟩ := MAssign.scalarLinesRef_ok hL (F := F) ha hb Ls s w h y2 fun _ hi => hi
  have hval : ∀ k l, k < r → l < c → MAssign.selfLines F S a b Ls w k l = F (w k l) (if k < a ∨ (k = a ∧ l ≤ b) then w a b else F (w a b) (w a b)) := by
    intro k l hk hl
    by_cases hm : k ∈ Ls ∧ l ∈ S k
    · simp [MAssign.selfLines, hm, MAssign.upTo, ha]
    · simp only [MAssign.selfLines, if_neg hm]
      rw [hL.off _ _ _ _ _ _ h k l hk hl hm, hF]
  have hlines : MAssign.scalarLinesRef T F (fun s => T.get s a b) (T.lines s) s = .ok s1 := by rw [y1]; exact e1
  have hall : ∀ hf : T.Full Rep, MAssign.iteratingScalarRef dbg T F (fun s => T.get s a b) s = .ok s1 := by
    intro hf
    have hc : c ≠ 0 := by omega
    have hl : Ls.length = r := by rw [(hf.all _ _ _ _ _ _ h).1 hc, List.length_range]
    simp only [MAssign.iteratingScalarRef, z1, z2, y1, hl, hc, or_true, check_True, bind_ok, if_false, Nat.lt_irrefl]
    rw [List.take_of_length_le (Nat.le_of_eq hl), MAssign.iterScalarLinesRef_ok hL hf dbg ha hb Ls s w h fun _ hi => hi]
    exact e1
  have dense : ∀ hf : T.Full Rep, ∀ mode : ProdFn.Mode, ∃ s' w', MAssign.assignScalarRef dbg mode .dense T F a b s = .ok s' ∧ Rep s' r c w' Ls S ∧
      ∀ k l, k < r → l < c → w' k l = F (w k l) (if k < a ∨ (k = a ∧ l ≤ b) then w a b else F (w a b) (w a b)) := by
    intro hf mode
    have hi := MAssign.indexingScalarRef_ok hL hf (F := F) ha hb h
    cases mode with
    | indexing => exact hi
    | iterating => exact ⟨s1, _, hall hf, h1, hval⟩
    | threshold m =>
      simp only [MAssign.assignScalarRef]
      split
      · exact ⟨s1, _, hall hf, h1, hval⟩
      · exact hi
  cases sc with
  | dense => exact dense hT.2.1 mode
  | denseProxy => exact dense hT.2.1 mode
  | packed => exact ⟨s1, _, hlines, h1, hval⟩
  | packedProxy => exact ⟨s1, _, hlines, h1, hval⟩
  | sparse => exact ⟨s1, _, hlines, h1, hval⟩
  | sparseProxy => exact ⟨s1, _, hlines, h1, hval⟩

/-- **C101** (vectors, partial).  If no stored element lies after `k`, scaling by `v (k)` is scaling by the value it had: what a user expects.  Missing: the other `k` (refuted below). -/
theorem C101_vector_partial {T : VT σ R} {Rep : σ → Nat → (Nat → R) → List Nat → Prop} (dbg : Bool) (mode : ProdFn.Mode) (sc : StorageCat) (hT : T.Supports sc Rep) (F : R → R → R)
    (hF : ∀ y, F 0 y = 0) (s : σ) (n : Nat) (w : Nat → R) (S : List Nat) (h : Rep s n w S) (k : Nat) (hk : k ∈ S) (hlast : ∀ i ∈ S, i ≤ k) :
    ∃ s' w', VAssign.assignScalarRef dbg mode sc T F k s = .ok s' ∧ Rep s' n w' S ∧ ∀ i, i < n → w' i = F (w i) (w k) := by
  obtain ⟨s', w', e, h1, h2⟩ := C101_vector dbg mode sc hT F hF s n w S h k hk
  refine ⟨s', w', e, h1, fun i hi => ?_⟩
  rw [h2 i hi]
  by_cases hm : i ∈ S
  · rw [if_pos (hlast i hm)]
  · rw [hT.1.off s n w S h i hi hm, hF, hF]

/-- **C101** (matrices, partial): the element visited last. -/
theorem C101_matrix_partial {T : MT σ R} {Rep : MRep σ R} (dbg : Bool) (mode : ProdFn.Mode) (sc : StorageCat) (hT : T.Supports sc Rep) (F : R → R → R)
    (hF : ∀ y, F 0 y = 0) (s : σ) (r c : Nat) (w : Nat → Nat → R) (Ls : List Nat) (S : Nat → List Nat) (h : Rep s r c w Ls S) (a b : Nat) (ha : a ∈ Ls) (hb : b ∈ S a)
    (hlast : ∀ k ∈ Ls, ∀ l ∈ S k, k < a ∨ (k = a ∧ l ≤ b)) :
    ∃ s' w', MAssign.assignScalarRef dbg mode sc T F a b s = .ok s' ∧ Rep s' r c w' Ls S ∧ ∀ k l, k < r → l < c → w' k l = F (w k l) (w a b) := by
  obtain ⟨s', w', e, h1, h2⟩ := C101_matrix dbg mode sc hT F hF s r c w Ls S h a b ha hb
  refine ⟨s', w', e, h1, fun k l hk hl => ?_⟩
  rw [h2 k l hk hl]
  by_cases hm : k ∈ Ls ∧ l ∈ S k
  · rw [if_pos (hlast k hm.1 l hm.2)]
  · rw [hT.1.off _ _ _ _ _ _ h k l hk hl hm, hF, hF]

/-- **C101** (refuted).  A user expects `v *= v (0)` to multiply every element by the value of `v (0)`; (2, 3, 5) becomes (4, 12, 20) instead of (4, 6, 10), in every evaluation mode.  The same happens to
matrices and sparse vectors, and to `/=`, where normalising by the first element, `v /= v (0)`, leaves all but that one element unchanged. -/
theorem C101_self_scale_refuted (dbg : Bool) :
    VAssign.assignScalarRef dbg .indexing .dense (VT.view dbg 3 id) (· * ·) 0 [2, 3, (5 : Int)] = .ok [4, 12, 20] ∧
    VAssign.assignScalarRef dbg .iterating .dense (VT.view dbg 3 id) (· * ·) 0 [2, 3, (5 : Int)] = .ok [4, 12, 20] ∧
    VAssign.assignScalarRef dbg .indexing .dense (VT.view dbg 3 id) (· / ·) 0 [2, 4, (6 : Int)] = .ok [1, 4, 6] ∧
    MAssign.assignScalarRef dbg .indexing .dense (MT.view dbg 2 2 fun k l => 2 * k + l) (· * ·) 0 1 [1, 2, 3, (4 : Int)] = .ok [2, 4, 12, 16] ∧
    VAssign.assignScalarRef dbg .indexing .sparse (VT.compressed dbg 0 (id, fun _ => 0)) (· * ·) 1 (⟨4, 2, 2, [1, 3], [7, 8]⟩ : CVec Int) = .ok ⟨4, 2, 2, [1, 3], [49, 392]⟩ := by
  cases dbg <;> decide

end Ublas
