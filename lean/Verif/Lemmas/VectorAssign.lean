import Verif.Spec.VectorAssign
import Mathlib.Algebra.Group.Basic
import Mathlib.Tactic.Convert
import Mathlib.Tactic.Set
import Mathlib.Tactic.Tauto
/-! # The assignment loops -/
namespace Ublas.VAssign
variable {σ R : Type} [AddGroup R]

/-- The elements at the indices in `L` changed by `h`. -/
def upd (L : List Nat) (h : Nat → R → R) (w : Nat → R) : Nat → R := fun i => if i ∈ L then h i (w i) else w i

theorem upd_nil (h : Nat → R → R) (w : Nat → R) : upd [] h w = w := by funext i; simp [upd]
theorem upd_cons {i : Nat} {L : List Nat} (h : Nat → R → R) (w : Nat → R) (hi : i ∉ L) :
    upd (i :: L) h w = upd L h (Function.update w i (h i (w i))) := by
  funext k
  simp only [upd, List.mem_cons]
  by_cases hk : k = i
  · subst hk; simp [hi]
  · simp [hk, Function.update_of_ne hk]

theorem apply_zero (F : AssignF) (h : F.computed = true) (x : R) : F.apply x 0 = x := by
  cases F <;> simp_all [AssignF.apply, AssignF.computed]

variable {T : VT σ R} {Rep : σ → Nat → (Nat → R) → List Nat → Prop}

theorem applyAt_ok (hT : T.Lawful Rep) {F : AssignF} {s : σ} {n : Nat} {w : Nat → R} {S : List Nat} (h : Rep s n w S) {i : Nat} (hi : i ∈ S)
    {d : σ → M R} {y : R} (hd : d s = .ok y) : ∃ s', applyAt T F s i d = .ok s' ∧ Rep s' n (Function.update w i (F.apply (w i) y)) S := by
  obtain ⟨s', e, h'⟩ := hT.put s n w S h i hi (F.apply (w i) y)
  exact ⟨s', by simp only [applyAt, hd, bind_ok, hT.get s n w S h i hi, e], h'⟩

theorem zeroLoop_ok (hT : T.Lawful Rep) {F : AssignF} {n : Nat} {S : List Nat} : ∀ (L : List Nat) (s : σ) (w : Nat → R), Rep s n w S → L.Nodup →
    (∀ i ∈ L, i ∈ S) → ∃ s', zeroLoop T F L s = .ok s' ∧ Rep s' n (upd L (fun _ x => F.apply x 0) w) S := by
  intro L
  induction L with
  | nil => intro s w h _ _; exact ⟨s, rfl, by rw [upd_nil]; exact h⟩
  | cons i L ih =>
    intro s w h hn hs
    rw [List.nodup_cons] at hn
    obtain ⟨s1, e1, h1⟩ := hT.put s n w S h i (hs i (by simp)) (F.apply (w i) 0)
    obtain ⟨s2, e2, h2⟩ := ih s1 _ h1 hn.2 fun k hk => hs k (by simp [hk])
    refine ⟨s2, ?_, by rw [upd_cons _ _ hn.1]; exact h2⟩
    simp only [zeroLoop, hT.get s n w S h i (hs i (by simp)), bind_ok, e1, e2]

/-- The zipped loop over ranges whose indices agree position by position. -/
theorem zipLoop_ok (hT : T.Lawful Rep) {F : AssignF} {n : Nat} {S : List Nat} {g : Nat → R → R} : ∀ (L : List Nat) (Q : List (Nat × (σ → M R))) (s : σ) (w : Nat → R),
    Rep s n w S → L.Nodup → (∀ i ∈ L, i ∈ S) → (∀ (k i : Nat) q, L[k]? = some i → Q[k]? = some q → q.1 = i) →
    (∀ q ∈ Q, ∀ s w, Rep s n w S → q.2 s = .ok (g q.1 (w q.1))) →
    ∃ s', zipLoop T F L Q s = .ok s' ∧ Rep s' n (upd (L.take Q.length) (fun i x => F.apply x (g i x)) w) S := by
  intro L
  induction L with
  | nil => intro Q s w h _ _ _ _; exact ⟨s, by simp [zipLoop], by simpa [upd_nil] using h⟩
  | cons i L ih =>
    intro Q s w h hn hs ha hd
    cases Q with
    | nil => exact ⟨s, by simp [zipLoop], by simpa [upd_nil] using h⟩
    | cons q Q =>
      rw [List.nodup_cons] at hn
      have hq : q.1 = i := ha 0 i q rfl rfl
      obtain ⟨s1, e1, h1⟩ := applyAt_ok hT (F := F) h (hs i (by simp)) (hd q (by simp) s w h)
      obtain ⟨s2, e2, h2⟩ := ih Q s1 _ h1 hn.2 (fun k hk => hs k (by simp [hk])) (fun k a b h1 h2 => ha (k + 1) a b h1 h2) (fun q hq => hd q (by simp [hq]))
      refine ⟨s2, by simp only [zipLoop, e1, bind_ok, e2], ?_⟩
      rw [List.length_cons, List.take_succ_cons, upd_cons _ _ (fun hm => hn.1 (List.mem_of_mem_take hm))]
      rw [hq] at h2; exact h2

theorem sorted_nodup {L : List Nat} (h : L.Pairwise (· < ·)) : L.Nodup := h.imp fun hab => Nat.ne_of_lt hab

theorem range'_aligned {a b c : Nat} {L : List Nat} {Q : List (Nat × (σ → M R))} (hL : L = List.range' a b) (hQ : Q.map (·.1) = List.range' a c) :
    ∀ (k i : Nat) q, L[k]? = some i → Q[k]? = some q → q.1 = i := by
  intro k i q h1 h2
  have h3 : (Q.map (·.1))[k]? = some q.1 := by rw [List.getElem?_map, h2]; rfl
  rw [hQ] at h3
  rw [hL] at h1
  rw [List.getElem?_eq_some_iff] at h1 h3
  obtain ⟨_, h1⟩ := h1
  obtain ⟨_, h3⟩ := h3
  rw [List.getElem_range'] at h1 h3
  omega

/-- Element-wise result of an assignment. -/
def result (F : AssignF) (g : Nat → R → R) (w : Nat → R) : Nat → R := fun i => F.apply (w i) (g i (w i))

variable {e : VExpr σ R} {n : Nat} {I : List Nat} {g : Nat → R → R}

theorem begin_length (he : e.Reads Rep n I g) {s : σ} {w : Nat → R} {S : List Nat} (h : Rep s n w S) : (e.begin_ s).length = I.length := by
  rw [← he.begin_ s w S h, List.length_map]

theorem upd_congr {L L' : List Nat} {h h' : Nat → R → R} {w : Nat → R} (hL : ∀ i, i ∈ L ↔ i ∈ L') (hh : ∀ i ∈ L, h i (w i) = h' i (w i)) :
    upd L h w = upd L' h' w := by
  funext i
  simp only [upd, ← hL]
  split
  · exact hh i (by assumption)
  · rfl

theorem iterating_ok (hT : T.Lawful Rep) (hf : T.Full Rep) (he : e.Reads Rep n I g) (hI : I = List.range n) (dbg : Bool) (F : AssignF) {s : σ} {w : Nat → R}
    {S : List Nat} (h : Rep s n w S) : ∃ s', iterating dbg T F e s = .ok s' ∧ Rep s' n (upd (List.range n) (fun i x => F.apply x (g i x)) w) S := by
  have hl : (e.begin_ s).length = n := by rw [begin_length he h, hI, List.length_range]
  have hS := hf.all s n w S h
  have hz := zipLoop_ok hT (F := F) (g := g) (S.take n) ((e.begin_ s).take n) s w h ((sorted_nodup (hT.sorted s n w S h)).sublist (List.take_sublist _ _))
    (fun i hi => List.mem_of_mem_take hi) (range'_aligned (a := 0) (b := n) (c := n) (by rw [hS, ← List.range_eq_range', List.take_of_length_le (by simp)])
      (by rw [List.map_take, he.begin_ s w S h, hI, ← List.range_eq_range', List.take_of_length_le (by simp)]))
    (fun q hq s' w' h' => he.deref s' w' S s w S h' h q (List.mem_of_mem_take hq))
  obtain ⟨s', e', h'⟩ := hz
  refine ⟨s', ?_, ?_⟩
  · simp only [iterating, same, hT.size s n w S h, he.size, check_True, hT.its s n w S h, bind_ok, hl, Nat.min_self, pure_eq_ok]
    rw [hS] at e' ⊢
    simp only [List.length_range, check_True, bind_ok, Nat.lt_irrefl, or_self, if_false, e']
  · rw [List.take_of_length_le (by simp [hl, hS])] at h'
    rw [List.take_of_length_le (l := S) (by simp [hS])] at h'
    rw [hS] at h' ⊢
    exact h'

theorem indexing_at (hT : T.Lawful Rep) (hf : T.Full Rep) {g : Nat → R → R} (he1 : e.size = n) (he2 : ∀ s w S, Rep s n w S → ∀ i, i < n → e.at_ i s = .ok (g i (w i))) (dbg : Bool)
    (F : AssignF) {s : σ} {w : Nat → R} {S : List Nat} (h : Rep s n w S) : ∃ s', indexing dbg T F e s = .ok s' ∧ Rep s' n (upd (List.range n) (fun i x => F.apply x (g i x)) w) S := by
  simp only [indexing, same, hT.size s n w S h, he1, check_True, bind_ok, Nat.min_self, pure_eq_ok]
  refine loop_inv (fun k s => Rep s n (upd (List.range k) (fun i x => F.apply x (g i x)) w) S) (by simpa [upd_nil] using h) ?_
  intro k t hk ht
  have hk' : upd (List.range k) (fun i x => F.apply x (g i x)) w k = w k := by simp [upd]
  have hS := hf.all s n w S h
  obtain ⟨s', e', h'⟩ := hf.ref t n _ S ht k hk (F.apply (w k) (g k (w k)))
  refine ⟨s', ?_, ?_⟩
  · have h1 := he2 t _ S ht k hk
    have h2 := hT.get t n _ S ht k (by rw [hS]; simpa using hk)
    rw [hk'] at h1 h2
    simp only [h1, h2, bind_ok, e']
  · convert h' using 1
    funext i
    by_cases hi : i = k
    · subst hi; simp [upd]
    · rw [Function.update_of_ne hi]
      simp only [upd, List.mem_range]
      by_cases hik : i < k
      · rw [if_pos hik, if_pos (by omega)]
      · rw [if_neg hik, if_neg (by omega)]

theorem indexing_ok (hT : T.Lawful Rep) (hf : T.Full Rep) (he : e.Reads Rep n I g) (dbg : Bool) (F : AssignF) {s : σ} {w : Nat → R}
    {S : List Nat} (h : Rep s n w S) : ∃ s', indexing dbg T F e s = .ok s' ∧ Rep s' n (upd (List.range n) (fun i x => F.apply x (g i x)) w) S :=
  indexing_at hT hf he.size he.at_ dbg F h

theorem dense_ok (hT : T.Lawful Rep) (hf : T.Full Rep) (he : e.Reads Rep n I g) (hI : I = List.range n) (dbg : Bool) (mode : ProdFn.Mode) (F : AssignF)
    {s : σ} {w : Nat → R} {S : List Nat} (h : Rep s n w S) :
    ∃ s', dense dbg mode T F e s = .ok s' ∧ Rep s' n (upd (List.range n) (fun i x => F.apply x (g i x)) w) S := by
  unfold dense
  cases mode with
  | indexing => exact indexing_ok hT hf he dbg F h
  | iterating => exact iterating_ok hT hf he hI dbg F h
  | threshold k =>
    simp only [same, hT.size s n w S h, he.size, check_True, bind_ok, Nat.min_self, pure_eq_ok]
    split
    · exact iterating_ok hT hf he hI dbg F h
    · exact indexing_ok hT hf he dbg F h

theorem aligned_of_starts {a b p q : Nat} {L : List Nat} {Q : List (Nat × (σ → M R))} (hL : L = List.range' a p) (hQ : Q.map (·.1) = List.range' b q)
    (hab : 0 < p → 0 < q → a = b) : ∀ (k i : Nat) x, L[k]? = some i → Q[k]? = some x → x.1 = i := by
  intro k i x h1 h2
  have hp : 0 < p := by
    rcases Nat.eq_zero_or_pos p with h0 | h0
    · subst h0; subst hL; simp at h1
    · exact h0
  have hq : 0 < q := by
    rcases Nat.eq_zero_or_pos q with h0 | h0
    · subst h0
      simp only [List.range'_zero, List.map_eq_nil_iff] at hQ
      subst hQ; simp at h2
    · exact h0
  rw [← hab hp hq] at hQ
  exact range'_aligned hL hQ k i x h1 h2

theorem upd_upd {L1 L2 : List Nat} {h1 h2 : Nat → R → R} {w : Nat → R} (hd : ∀ i ∈ L1, i ∉ L2) :
    upd L2 h2 (upd L1 h1 w) = fun i => if i ∈ L1 then h1 i (w i) else if i ∈ L2 then h2 i (w i) else w i := by
  funext i
  simp only [upd]
  by_cases h1 : i ∈ L1
  · simp [h1, hd i h1]
  · simp [h1]

theorem take_range1 (k a p : Nat) : (List.range' a p).take k = List.range' a (min k p) := by
  induction k generalizing a p with
  | zero => simp
  | succ k ih =>
    cases p with
    | zero => simp
    | succ p => rw [List.range'_succ, List.take_succ_cons, ih, Nat.add_min_add_right, List.range'_succ]

/-- The three pieces of the packed loop. -/
theorem packed_pieces (hT : T.Lawful Rep) (F : AssignF) {S : List Nat} {a p skip b q : Nat} (hS : S = List.range' a p) (Q : List (Nat × (σ → M R)))
    (hQ : Q.map (·.1) = List.range' b q) (hskip : skip ≤ p) (hal : 0 < p - skip → 0 < q → a + skip = b)
    (hd : ∀ q ∈ Q, ∀ s w, Rep s n w S → q.2 s = .ok (g q.1 (w q.1))) (hz : ∀ i ∈ S, ¬ (b ≤ i ∧ i < b + q) → ∀ x, g i x = 0)
    (hbelow : 0 < skip → 0 < q → a + skip ≤ b) {s : σ} {w : Nat → R} (h : Rep s n w S) :
    ∃ s', (do
      let s ← (if F.computed then .ok s else zeroLoop T F (S.take skip) s : M σ)
      let s ← zipLoop T F (S.drop skip) Q s
      if F.computed then .ok s else zeroLoop T F ((S.drop skip).drop Q.length) s : M σ) = .ok s' ∧
      Rep s' n (upd S (fun i x => F.apply x (g i x)) w) S := by
  have hql : Q.length = q := by have := congrArg List.length hQ; simpa using this
  have hnd := sorted_nodup (hT.sorted s n w S h)
  have hdrop : S.drop skip = List.range' (a + skip) (p - skip) := by rw [hS, List.drop_range']; simp
  have htake : S.take skip = List.range' a skip := by rw [hS, take_range1]; congr 1; omega
  have htake2 : (S.drop skip).take Q.length = List.range' (a + skip) (min q (p - skip)) := by rw [hdrop, take_range1, hql]
  have hdrop2 : (S.drop skip).drop Q.length = List.range' (a + skip + q) (p - skip - q) := by rw [hdrop, List.drop_range', hql]; simp
  have hmem : ∀ i, i ∈ S ↔ a ≤ i ∧ i < a + p := fun i => by rw [hS, List.mem_range'_1]
  have hzip := fun s w h => zipLoop_ok hT (F := F) (g := g) (S.drop skip) Q s w h (hnd.sublist (List.drop_sublist _ _)) (fun i hi => List.mem_of_mem_drop hi)
    (aligned_of_starts hdrop hQ hal) hd
  rw [htake2] at hzip
  cases hF : F.computed with
  | true =>
    obtain ⟨s', e', h'⟩ := hzip s w h
    refine ⟨s', by simp only [if_true, bind_ok, e'], ?_⟩
    convert h' using 1
    funext i
    simp only [upd, hmem, List.mem_range'_1]
    by_cases hi : a ≤ i ∧ i < a + p
    · rw [if_pos hi]
      split
      · rfl
      · rename_i hn
        rw [hz i ((hmem i).2 hi) (by omega), apply_zero F hF]
    · rw [if_neg hi, if_neg (by omega)]
  | false =>
    obtain ⟨s1, e1, h1⟩ := zeroLoop_ok hT (F := F) (S.take skip) s w h (hnd.sublist (List.take_sublist _ _)) (fun i hi => List.mem_of_mem_take hi)
    obtain ⟨s2, e2, h2⟩ := hzip s1 _ h1
    obtain ⟨s3, e3, h3⟩ := zeroLoop_ok hT (F := F) ((S.drop skip).drop Q.length) s2 _ h2
      ((hnd.sublist (List.drop_sublist _ _)).sublist (List.drop_sublist _ _)) (fun i hi => List.mem_of_mem_drop (List.mem_of_mem_drop hi))
    refine ⟨s3, by simp only [Bool.false_eq_true, if_false, bind_ok, e1, e2, e3], ?_⟩
    convert h3 using 1
    rw [hdrop2, htake]
    funext i
    simp only [upd, hmem, List.mem_range'_1]
    by_cases c1 : a ≤ i ∧ i < a + skip
    · rw [if_pos (by omega), if_neg (by omega : ¬ (a + skip + q ≤ i ∧ i < a + skip + q + (p - skip - q))), if_neg (by omega), if_pos c1,
        hz i ((hmem i).2 (by omega)) (by omega)]
    · by_cases c2 : a + skip ≤ i ∧ i < a + skip + min q (p - skip)
      · rw [if_pos (by omega), if_neg (by omega : ¬ (a + skip + q ≤ i ∧ i < a + skip + q + (p - skip - q))), if_pos c2, if_neg c1]
      · by_cases c3 : a + skip + q ≤ i ∧ i < a + skip + q + (p - skip - q)
        · rw [if_pos (by omega), if_pos c3, if_neg c2, if_neg c1, hz i ((hmem i).2 (by omega)) (by omega)]
        · rw [if_neg (by omega), if_neg c3, if_neg c2, if_neg c1]

theorem packed_ok (hT : T.Lawful Rep) (he : e.Reads Rep n I g) (hc : T.cat ≠ .sparse) (hce : e.cat ≠ .sparse) (dbg : Bool) (F : AssignF) {s : σ} {w : Nat → R}
    {S : List Nat} (h : Rep s n w S) : ∃ s', packed dbg T F e s = .ok s' ∧ Rep s' n (upd S (fun i x => F.apply x (g i x)) w) S := by
  obtain ⟨a, hS⟩ := hT.consec s n w S h hc
  obtain ⟨b, hI⟩ := he.packed hce
  have hb := he.begin_ s w S h
  have hlt := hT.lt s n w S h
  have hzero : ∀ i ∈ S, ¬ (b ≤ i ∧ i < b + I.length) → ∀ x, g i x = 0 := fun i hi hn => he.skipped i (hlt i hi) (by rw [hI, List.mem_range'_1]; exact hn)
  have hder : ∀ q ∈ e.begin_ s, ∀ s' w', Rep s' n w' S → q.2 s' = .ok (g q.1 (w' q.1)) := fun q hq s' w' h' => he.deref s' w' S s w S h' h q hq
  unfold packed
  simp only [hT.size s n w S h, he.size, check_True, bind_ok, hT.its s n w S h]
  have hql : (e.begin_ s).length = I.length := begin_length he h
  generalize hp : S.length = p at hS
  generalize hqn : I.length = q at *
  rw [hI] at hb
  generalize e.begin_ s = Q at *
  cases S with
  | nil =>
    have : p = 0 := by simpa using hp.symm
    subst this
    have := packed_pieces hT F (n := n) (g := g) (S := []) (a := a) (p := 0) (skip := 0) (b := b) (q := q) hS Q hb (by omega) (by omega) hder hzero (by omega) h
    simpa using this
  | cons i0 S' =>
  cases Q with
  | nil =>
    have : q = 0 := by simpa using hql.symm
    subst this
    have := packed_pieces hT F (n := n) (g := g) (S := i0 :: S') (a := a) (p := p) (skip := 0) (b := b) (q := 0) hS [] hb (by omega) (by omega) hder hzero (by omega) h
    simpa using this
  | cons q0 Q' =>
    have hp0 : 0 < p := by rw [← hp]; simp
    have hq0 : 0 < q := by rw [← hql]; simp
    have ha0 : i0 = a := by
      obtain ⟨p', rfl⟩ : ∃ p', p = p' + 1 := ⟨p - 1, by omega⟩
      rw [List.range'_succ] at hS; exact (List.cons.inj hS).1
    have hb0 : q0.1 = b := by
      obtain ⟨q', rfl⟩ : ∃ q', q = q' + 1 := ⟨q - 1, by omega⟩
      rw [List.range'_succ, List.map_cons] at hb; exact (List.cons.inj hb).1
    subst ha0 hb0
    simp only []
    have hadv : ∀ x y k : Nat, advance x y k = min (x - y) k := fun x y k => by simp only [advance]; omega
    rw [hadv, hql]
    set k1 := min (i0 - q0.1) q with hk1
    have hQ' : ((q0 :: Q').drop k1).map (·.1) = List.range' (q0.1 + k1) (q - k1) := by rw [List.map_drop, hb, List.drop_range']; simp
    have hder' : ∀ x ∈ (q0 :: Q').drop k1, ∀ s' w', Rep s' n w' (i0 :: S') → x.2 s' = .ok (g x.1 (w' x.1)) := fun x hx => hder x (List.mem_of_mem_drop hx)
    have hzero' : ∀ i ∈ i0 :: S', ¬ (q0.1 + k1 ≤ i ∧ i < q0.1 + k1 + (q - k1)) → ∀ x, g i x = 0 := by
      intro i hi hn
      have : i0 ≤ i := by rw [hS, List.mem_range'_1] at hi; exact hi.1
      exact hzero i hi (by omega)
    cases hQd : (q0 :: Q').drop k1 with
    | nil =>
      rw [hQd] at hQ' hder'
      have hq1 : q - k1 = 0 := by simpa using (congrArg List.length hQ').symm
      rw [hq1] at hQ' hzero'
      have := packed_pieces hT F (n := n) (g := g) (S := i0 :: S') (skip := 0) hS [] hQ' (by omega) (by omega) hder' hzero' (by omega) h
      simpa using this
    | cons q1 Q1 =>
      rw [hQd] at hQ' hder'
      have hq1 : 0 < q - k1 := by rcases Nat.eq_zero_or_pos (q - k1) with h0 | h0; · rw [h0] at hQ'; simp at hQ'
                                  · exact h0
      have hq1' : q1.1 = q0.1 + k1 := by
        obtain ⟨q', hq'⟩ : ∃ q', q - k1 = q' + 1 := ⟨q - k1 - 1, by omega⟩
        rw [hq', List.range'_succ, List.map_cons] at hQ'; exact (List.cons.inj hQ').1
      have := packed_pieces hT F (n := n) (g := g) (S := i0 :: S') (skip := advance q1.1 i0 (i0 :: S').length) hS (q1 :: Q1) hQ' (by rw [hadv]; omega)
        (by rw [hadv, hq1', hp]; omega) hder' hzero' (by rw [hadv, hq1', hp]; omega) h
      rw [hp] at this
      exact this

theorem insertLoop_ok [DecidableEq R] (hi : T.Inserts Rep) : ∀ (Q : List (Nat × (σ → M R))) (s : σ) (w : Nat → R) (S : List Nat),
    Rep s n w S → (Q.map (·.1)).Nodup → (∀ i ∈ Q.map (·.1), i < n ∧ w i = 0 ∧ (i ∉ S ∨ T.Full Rep)) →
    (∀ q ∈ Q, ∀ s w S, Rep s n w S → q.2 s = .ok (g q.1 (w q.1))) →
    ∃ s' S', insertLoop T Q s = .ok s' ∧ Rep s' n (upd (Q.map (·.1)) (fun i _ => g i 0) w) S' := by
  intro Q
  induction Q with
  | nil => intro s w S h _ _ _; exact ⟨s, S, rfl, by simpa [upd_nil] using h⟩
  | cons q Q ih =>
    intro s w S h hn hw hd
    rw [List.map_cons, List.nodup_cons] at hn
    obtain ⟨a1, a2, a3⟩ := hw q.1 (by simp)
    have e1 : q.2 s = .ok (g q.1 0) := by rw [hd q (by simp) s w S h, a2]
    simp only [insertLoop, e1, bind_ok]
    by_cases ht : g q.1 0 = 0
    · obtain ⟨s2, S2, e2, h2⟩ := ih s w S h hn.2 (fun i hi => hw i (by simp [List.mem_map] at hi ⊢; exact .inr hi)) (fun x hx => hd x (by simp [hx]))
      refine ⟨s2, S2, by simp only [ht, ne_eq, not_true_eq_false, if_false, bind_ok, e2], ?_⟩
      convert h2 using 1
      funext i
      simp only [upd, List.map_cons, List.mem_cons]
      by_cases hi : i = q.1
      · subst hi; rw [if_pos (.inl rfl), if_neg hn.1, ht, a2]
      · simp only [hi, false_or]
    · obtain ⟨s1, S1, e2, h1, hS1⟩ := hi.insert s n w S h q.1 a1 a3 (g q.1 0)
      obtain ⟨s2, S2, e3, h2⟩ := ih s1 _ S1 h1 hn.2 (fun i hi => by
        obtain ⟨b1, b2, b3⟩ := hw i (by rw [List.map_cons]; exact List.mem_cons_of_mem _ hi)
        have hne : i ≠ q.1 := fun e => hn.1 (e ▸ hi)
        refine ⟨b1, by rw [Function.update_of_ne hne, b2], ?_⟩
        rcases b3 with b3 | b3
        · left; rw [hS1]; exact fun c => c.elim hne b3
        · exact .inr b3) (fun x hx => hd x (by simp [hx]))
      refine ⟨s2, S2, by simp only [ne_eq, ht, not_false_eq_true, if_true, e2, bind_ok, e3], ?_⟩
      rw [List.map_cons, upd_cons _ _ hn.1]; exact h2

theorem sparse_ok [DecidableEq R] (hT : T.Lawful Rep) (hi : T.Inserts Rep) (he : e.Reads Rep n I g) (dbg : Bool) {s : σ} {w : Nat → R} {S : List Nat}
    (h : Rep s n w S) : ∃ s' S', sparse dbg T e s = .ok s' ∧ Rep s' n (upd I (fun i _ => g i 0) (fun _ => 0)) S' := by
  obtain ⟨s1, S1, e1, h1, hS1⟩ := hi.clear s n w S h
  have hb := he.begin_ s1 _ S1 h1
  obtain ⟨s2, S2, e2, h2⟩ := insertLoop_ok (g := g) hi (e.begin_ s1) s1 _ S1 h1 (by rw [hb]; exact sorted_nodup he.sorted)
    (fun i hi => by
      rw [hb] at hi
      refine ⟨he.lt i hi, rfl, ?_⟩
      rcases hS1 with e | e
      · left; rw [e]; simp
      · exact .inr e)
    (fun q hq s w S h => he.deref s w S s1 _ S1 h h1 q hq)
  rw [hb] at h2
  refine ⟨s2, S2, ?_, h2⟩
  simp only [sparse, hT.size s n w S h, he.size, check_True, bind_ok, e1, e2]

/-- Consecutive unless sparse. -/
def Con (c : Cat) (l : List Nat) : Prop := c ≠ .sparse → ∃ off, l = List.range' off l.length

theorem Con.drop {c : Cat} {l : List Nat} (h : Con c l) (m : Nat) : Con c (l.drop m) := by
  intro hc
  obtain ⟨off, e⟩ := h hc
  refine ⟨off + m, ?_⟩
  rw [List.length_drop]
  have := congrArg (List.drop m) e
  rw [this, List.drop_range']; simp

theorem incr_ok {c : Cat} {i d : Nat} {l : List Nat} (hc : Con c (i :: l)) (hd : 0 < d) :
    ∃ m, 0 < m ∧ incr c (i :: l) d = (i :: l).drop m ∧ (∀ {β : Type} (l' : List β), l'.length = l.length + 1 → incr c l' d = l'.drop m) ∧
      ∀ k ∈ (i :: l).take m, k < i + d := by
  by_cases h : c = .sparse
  · subst h
    exact ⟨1, by omega, rfl, fun _ _ => rfl, by simp; omega⟩
  · refine ⟨min d (l.length + 1), by omega, by cases c <;> first | rfl | exact absurd rfl h, fun l' hl => ?_, fun k hk => ?_⟩
    · rw [← hl]; cases c <;> first | rfl | exact absurd rfl h
    · obtain ⟨off, e⟩ := hc h
      have ho : i = off := by rw [List.length_cons, List.range'_succ] at e; exact (List.cons.inj e).1
      rw [e, take_range1, List.mem_range'_1] at hk
      omega

theorem missingTail_ok [DecidableEq R] {s : σ} {val : Nat → R} : ∀ (Q : List (Nat × (σ → M R))), (∀ q ∈ Q, q.2 s = .ok (val q.1)) →
    ∃ K, missingTail s Q = .ok K ∧ ∀ k, k ∈ K ↔ k ∈ Q.map (·.1) ∧ val k ≠ 0 := by
  intro Q
  induction Q with
  | nil => intro _; exact ⟨[], rfl, by simp⟩
  | cons q Q ih =>
    intro h
    obtain ⟨K, e, hK⟩ := ih fun x hx => h x (by simp [hx])
    refine ⟨if val q.1 ≠ 0 then q.1 :: K else K, by simp only [missingTail, h q (by simp), bind_ok, e, pure_eq_ok], fun k => ?_⟩
    by_cases ht : val q.1 = 0
    · simp only [ht, ne_eq, not_true_eq_false, if_false, hK, List.map_cons, List.mem_cons]
      constructor
      · exact fun ⟨a, b⟩ => ⟨.inr a, b⟩
      · rintro ⟨a | a, b⟩
        · subst a; exact absurd ht b
        · exact ⟨a, b⟩
    · simp only [ne_eq, ht, not_false_eq_true, if_true, List.mem_cons, hK, List.map_cons]
      constructor
      · rintro (a | ⟨a, b⟩)
        · subst a; exact ⟨.inl rfl, ht⟩
        · exact ⟨.inr a, b⟩
      · rintro ⟨a | a, b⟩
        · exact .inl a
        · exact .inr ⟨a, b⟩

theorem missing_ok [DecidableEq R] {c : Cat} {s : σ} {val : Nat → R} : ∀ (fuel : Nat) (L : List Nat) (Q : List (Nat × (σ → M R))),
    L.length + Q.length < fuel → L.Pairwise (· < ·) → Con c L → (Q.map (·.1)).Pairwise (· < ·) → (∀ q ∈ Q, q.2 s = .ok (val q.1)) →
    ∃ K, missing c s fuel L Q = .ok K ∧ ∀ k, k ∈ K ↔ k ∈ Q.map (·.1) ∧ k ∉ L ∧ val k ≠ 0 := by
  intro fuel
  induction fuel with
  | zero => intro L Q h; omega
  | succ f ih =>
    intro L Q hf hL hc hQ hd
    cases L with
    | nil =>
      obtain ⟨K, e, hK⟩ := missingTail_ok Q hd
      exact ⟨K, by simp only [missing, e], by simpa using hK⟩
    | cons i l =>
    cases Q with
    | nil => exact ⟨[], by simp [missing, missingTail], by simp⟩
    | cons q r =>
      simp only [List.length_cons] at hf
      have hL' := hL
      have hQ' := hQ
      rw [List.pairwise_cons] at hL'
      rw [List.map_cons, List.pairwise_cons] at hQ'
      by_cases h1 : i = q.1
      · obtain ⟨K, e, hK⟩ := ih l r (by omega) hL'.2 (hc.drop 1) hQ'.2 (fun x hx => hd x (by simp [hx]))
        refine ⟨K, by simp only [missing, if_pos h1, e], fun k => ?_⟩
        rw [hK, List.map_cons, List.mem_cons, List.mem_cons]
        constructor
        · rintro ⟨a, b, d⟩
          exact ⟨.inr a, by rw [h1]; exact fun c => c.elim (fun c => absurd (hQ'.1 k a) (by omega)) b, d⟩
        · rintro ⟨a | a, b, d⟩
          · exact absurd (.inl (a.trans h1.symm)) b
          · exact ⟨a, fun c => b (.inr c), d⟩
      · by_cases h2 : i < q.1
        · obtain ⟨m, hm, em, _, hb⟩ := incr_ok (d := q.1 - i) hc (by omega)
          obtain ⟨K, e, hK⟩ := ih ((i :: l).drop m) (q :: r) (by simp only [List.length_drop, List.length_cons]; omega)
            (hL.sublist (List.drop_sublist _ _)) (hc.drop m) hQ hd
          refine ⟨K, by simp only [missing, if_neg h1, if_pos h2, em, e], fun k => ?_⟩
          rw [hK]
          constructor
          · rintro ⟨a, b, d⟩
            refine ⟨a, fun hk => ?_, d⟩
            rw [← List.take_append_drop m (i :: l), List.mem_append] at hk
            rcases hk with hk | hk
            · have := hb k hk
              rw [List.map_cons, List.mem_cons] at a
              rcases a with a | a
              · omega
              · have := hQ'.1 k a; omega
            · exact b hk
          · rintro ⟨a, b, d⟩
            exact ⟨a, fun hk => b (List.mem_of_mem_drop hk), d⟩
        · obtain ⟨K, e, hK⟩ := ih (i :: l) r (by simp only [List.length_cons]; omega) hL hc hQ'.2 (fun x hx => hd x (by simp [hx]))
          refine ⟨if val q.1 ≠ 0 then q.1 :: K else K, by simp only [missing, if_neg h1, if_neg h2, hd q (by simp), bind_ok, e, pure_eq_ok], fun k => ?_⟩
          have hqn : q.1 ∉ i :: l := by
            rw [List.mem_cons]; rintro (c | c)
            · exact h1 c.symm
            · have := hL'.1 _ c; omega
          by_cases ht : val q.1 = 0
          · simp only [ht, ne_eq, not_true_eq_false, if_false, hK, List.map_cons, List.mem_cons (a := k) (b := q.1)]
            constructor
            · exact fun ⟨a, b⟩ => ⟨.inr a, b⟩
            · rintro ⟨a | a, b, d⟩
              · subst a; exact absurd ht d
              · exact ⟨a, b, d⟩
          · simp only [ne_eq, ht, not_false_eq_true, if_true, List.mem_cons (a := k) (b := q.1), hK, List.map_cons]
            constructor
            · rintro (a | ⟨a, b⟩)
              · subst a; exact ⟨.inl rfl, hqn, ht⟩
              · exact ⟨.inr a, b⟩
            · rintro ⟨a | a, b⟩
              · exact .inl a
              · exact .inr ⟨a, b⟩

theorem mergeLoop_ok (hT : T.Lawful Rep) {ce : Cat} {F : AssignF} {S : List Nat} : ∀ (fuel : Nat) (L : List Nat) (Q : List (Nat × (σ → M R))) (s : σ) (w : Nat → R),
    Rep s n w S → L.length + Q.length < fuel → L.Pairwise (· < ·) → Con T.cat L → (∀ i ∈ L, i ∈ S) → (Q.map (·.1)).Pairwise (· < ·) → Con ce (Q.map (·.1)) →
    (∀ q ∈ Q, ∀ s w, Rep s n w S → q.2 s = .ok (g q.1 (w q.1))) → (∀ i ∈ L, i ∉ Q.map (·.1) → ∀ x, g i x = 0) →
    ∃ s', mergeLoop T ce F fuel L Q s = .ok s' ∧ Rep s' n (upd L (fun i x => F.apply x (g i x)) w) S := by
  intro fuel
  induction fuel with
  | zero => intro L Q s w _ h; omega
  | succ f ih =>
    intro L Q s w h hf hL hc hLS hQ hcq hd hz
    have hend : (∀ i ∈ L, ∀ x, g i x = 0) → ∃ s', (if F.computed then .ok s else zeroLoop T F L s : M σ) = .ok s' ∧
        Rep s' n (upd L (fun i x => F.apply x (g i x)) w) S := by
      intro hz'
      cases hF : F.computed with
      | true =>
        refine ⟨s, rfl, ?_⟩
        convert h using 1
        funext i
        simp only [upd]
        split
        · rw [hz' i (by assumption), apply_zero F hF]
        · rfl
      | false =>
        obtain ⟨s', e', h'⟩ := zeroLoop_ok hT (F := F) L s w h (sorted_nodup hL) hLS
        refine ⟨s', e', ?_⟩
        rw [upd_congr (L' := L) (h' := fun _ x => F.apply x 0) (fun _ => Iff.rfl) (fun i hi => by simp only [hz' i hi])]
        exact h'
    cases L with
    | nil => simp only [mergeLoop]; exact hend (by simp)
    | cons i l =>
    cases Q with
    | nil => simp only [mergeLoop]; exact hend (fun i hi => hz i hi (by simp))
    | cons q r =>
      simp only [List.length_cons] at hf
      have hL' := hL
      have hQ' := hQ
      rw [List.pairwise_cons] at hL'
      rw [List.map_cons, List.pairwise_cons] at hQ'
      have hil : i ∉ l := fun hm => absurd (hL'.1 i hm) (by omega)
      by_cases h1 : i = q.1
      · obtain ⟨s1, e1, h1'⟩ := applyAt_ok hT (F := F) h (hLS i (by simp)) (hd q (by simp) s w h)
        obtain ⟨s2, e2, h2⟩ := ih l r s1 _ h1' (by omega) hL'.2 (hc.drop 1) (fun k hk => hLS k (by simp [hk])) hQ'.2 (hcq.drop 1) (fun x hx => hd x (by simp [hx]))
          (fun k hk hn => hz k (by simp [hk]) (by
            rw [List.map_cons, List.mem_cons]; rintro (c | c)
            · have := hL'.1 k hk; omega
            · exact hn c))
        refine ⟨s2, by simp only [mergeLoop, if_pos h1, e1, bind_ok, e2], ?_⟩
        rw [← h1] at h2
        rw [upd_cons _ _ hil]; exact h2
      · by_cases h2 : i < q.1
        · have hg : ∀ k, k < q.1 → k ∈ i :: l → ∀ x, g k x = 0 := fun k hk hm => hz k hm (by
            rw [List.map_cons, List.mem_cons]; rintro (c | c)
            · omega
            · have := hQ'.1 k c; omega)
          cases hF : F.computed with
          | true =>
            obtain ⟨m, hm, em, _, hb⟩ := incr_ok (d := q.1 - i) hc (by omega)
            obtain ⟨s', e', h'⟩ := ih ((i :: l).drop m) (q :: r) s w h (by simp only [List.length_drop, List.length_cons]; omega)
              (hL.sublist (List.drop_sublist _ _)) (hc.drop m) (fun k hk => hLS k (List.mem_of_mem_drop hk)) hQ hcq hd (fun k hk => hz k (List.mem_of_mem_drop hk))
            refine ⟨s', by simp only [mergeLoop, if_neg h1, if_pos h2, hF, if_true, em, e'], ?_⟩
            convert h' using 1
            funext k
            simp only [upd]
            by_cases hk : k ∈ (i :: l).drop m
            · rw [if_pos hk, if_pos (List.mem_of_mem_drop hk)]
            · rw [if_neg hk]
              split
              · rename_i hkm
                have hkm' := hkm
                rw [← List.take_append_drop m (i :: l), List.mem_append] at hkm
                rcases hkm with hkm | hkm
                · rw [hg k (by have := hb k hkm; omega) hkm', apply_zero F hF]
                · exact absurd hkm hk
              · rfl
          | false =>
            obtain ⟨s1, e1, h1'⟩ := hT.put s n w S h i (hLS i (by simp)) (F.apply (w i) 0)
            obtain ⟨s2, e2, h2'⟩ := ih l (q :: r) s1 _ h1' (by simp only [List.length_cons]; omega) hL'.2 (hc.drop 1) (fun k hk => hLS k (by simp [hk])) hQ hcq hd
              (fun k hk => hz k (by simp [hk]))
            refine ⟨s2, by simp only [mergeLoop, if_neg h1, if_pos h2, hF, Bool.false_eq_true, if_false, hT.get s n w S h i (hLS i (by simp)), bind_ok, e1, e2], ?_⟩
            rw [upd_cons _ _ hil, hg i h2 (by simp)]; exact h2'
        · have hcq' : Con ce (q.1 :: r.map (·.1)) := hcq
          obtain ⟨m, hm, _, em, hb⟩ := incr_ok (d := i - q.1) hcq' (by omega)
          have em' := em (q :: r) (by simp)
          obtain ⟨s', e', h'⟩ := ih (i :: l) ((q :: r).drop m) s w h (by simp only [List.length_drop, List.length_cons]; omega) hL hc hLS
            (by rw [List.map_drop]; exact hQ.sublist (List.drop_sublist _ _)) (by rw [List.map_drop]; exact hcq.drop m) (fun x hx => hd x (List.mem_of_mem_drop hx))
            (fun k hk hn => hz k hk (by
              intro c
              rw [List.map_drop] at hn
              rw [← List.take_append_drop m ((q :: r).map (·.1)), List.mem_append] at c
              rcases c with c | c
              · have := hb k c
                rw [List.mem_cons] at hk
                rcases hk with hk | hk
                · omega
                · have := hL'.1 k hk; omega
              · exact hn c))
          exact ⟨s', by simp only [mergeLoop, if_neg h1, if_neg h2, em', e'], h'⟩

theorem refLoop_ok (hg : T.Grows Rep) : ∀ (K : List Nat) (s : σ) (w : Nat → R) (S : List Nat), Rep s n w S → (∀ k ∈ K, k < n ∧ w k = 0) →
    ∃ s' S', K.foldlM (fun s k => T.ref s k 0) s = .ok s' ∧ Rep s' n w S' ∧ ∀ k, k ∈ S' ↔ k ∈ K ∨ k ∈ S := by
  intro K
  induction K with
  | nil => intro s w S h _; exact ⟨s, S, rfl, h, by simp⟩
  | cons k K ih =>
    intro s w S h hk
    obtain ⟨a1, a2⟩ := hk k (by simp)
    obtain ⟨s1, S1, e1, h1, m1⟩ := hg s n w S h k a1 0
    rw [← a2, Function.update_eq_self] at h1
    obtain ⟨s2, S2, e2, h2, m2⟩ := ih s1 w S1 h1 fun x hx => hk x (by simp [hx])
    refine ⟨s2, S2, by rw [List.foldlM_cons, e1, bind_ok, e2], h2, fun x => ?_⟩
    rw [m2, m1, List.mem_cons]
    tauto

theorem sparseProxy_ok [DecidableEq R] (hT : T.Lawful Rep) (he : e.Reads Rep n I g) (dbg : Bool) (F : AssignF) {s : σ} {w : Nat → R} {S : List Nat}
    (h : Rep s n w S) (hg : T.Grows Rep ∨ ∀ i, i < n → i ∉ S → g i 0 = 0) :
    ∃ s' S', sparseProxy dbg T F e s = .ok s' ∧ Rep s' n (upd S' (fun i x => F.apply x (g i x)) w) S' ∧
      (∀ i, i < n → i ∉ S' → g i 0 = 0) ∧ ((∀ i, i < n → i ∉ S → g i 0 = 0) → S' = S) := by
  have hb := he.begin_ s w S h
  obtain ⟨K, eK, hK⟩ := missing_ok (c := T.cat) (s := s) (val := fun i => g i (w i)) (S.length + (e.begin_ s).length + 1) S (e.begin_ s) (by omega)
    (hT.sorted s n w S h) (hT.consec s n w S h) (by rw [hb]; exact he.sorted) (fun q hq => he.deref s w S s w S h h q hq)
  rw [hb] at hK
  have hK0 : (∀ i, i < n → i ∉ S → g i 0 = 0) → K = [] := by
    intro hz
    rw [List.eq_nil_iff_forall_not_mem]
    intro k hk
    obtain ⟨b1, b2, b3⟩ := (hK k).1 hk
    rw [hT.off s n w S h k (he.lt k b1) b2] at b3
    exact b3 (hz k (he.lt k b1) b2)
  have hconf : ∃ s1 S1, makeConformant dbg T e s = .ok s1 ∧ Rep s1 n w S1 ∧ (∀ k, k ∈ S1 ↔ k ∈ K ∨ k ∈ S) ∧ (K = [] → S1 = S) := by
    simp only [makeConformant, hT.size s n w S h, he.size, check_True, bind_ok, hT.its s n w S h, eK]
    by_cases hn : K = []
    · subst hn
      exact ⟨s, S, rfl, h, by simp, fun _ => rfl⟩
    · rcases hg with hg | hg
      · obtain ⟨s1, S1, e1, h1, m1⟩ := refLoop_ok hg K s w S h fun k hk => by
          obtain ⟨b1, b2, _⟩ := (hK k).1 hk
          exact ⟨he.lt k b1, hT.off s n w S h k (he.lt k b1) b2⟩
        exact ⟨s1, S1, e1, h1, m1, fun c => absurd c hn⟩
      · exact absurd (hK0 hg) hn
  obtain ⟨s1, S1, e1, h1, m1, z1⟩ := hconf
  have hb1 := he.begin_ s1 w S1 h1
  obtain ⟨s2, e2, h2⟩ := mergeLoop_ok hT (ce := e.cat) (F := F) (g := g) (S1.length + (e.begin_ s1).length + 1) S1 (e.begin_ s1) s1 w h1 (by omega)
    (hT.sorted s1 n w S1 h1) (hT.consec s1 n w S1 h1) (fun i hi => hi) (by rw [hb1]; exact he.sorted) (by rw [hb1]; exact he.packed)
    (fun q hq s' w' h' => he.deref s' w' S1 s1 w S1 h' h1 q hq)
    (fun i hi hn => he.skipped i (hT.lt s1 n w S1 h1 i hi) (by rwa [hb1] at hn))
  refine ⟨s2, S1, ?_, h2, ?_, fun hz => z1 (hK0 hz)⟩
  · simp only [sparseProxy, hT.size s n w S h, he.size, check_True, bind_ok, e1, hT.its s1 n w S1 h1, e2]
  · intro i hi hn
    rw [m1, not_or] at hn
    have hw := hT.off s n w S h i hi hn.2
    by_cases hI : i ∈ I
    · by_contra hne
      exact hn.1 ((hK i).2 ⟨hI, hn.2, by rw [hw]; exact hne⟩)
    · exact he.skipped i hi hI 0

end Ublas.VAssign
